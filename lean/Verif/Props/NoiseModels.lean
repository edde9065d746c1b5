/-
C34, C35: the methods of the noise models.
-/
import Verif.Lemmas.NoiseElems

namespace SurfaceSim.Props
open SurfaceSim Spec NoiseModel

/-- All gate, reset and measurement methods, and `idle`/`incoming_noise`. -/
structure AllFaithful (nm : NoiseModel) : Prop extends Faithful nm where
  measureX : Measures nm.inds nm.measureX .mx
  measureY : Measures nm.inds nm.measureY .my
  resetX : Implements1 nm.inds nm.resetX .rx
  resetY : Implements1 nm.inds nm.resetY .ry

/-! ### helper facts -/

theorem goodRule1 {s : Setup} {inds : Dict String Nat} {name : String} {hi : Rat} {noise : Gate}
    (h : ∀ q ∈ inds.keys, ProbParam s name [q] hi)
    (hok : ∀ p : Rat, 0 ≤ p → p ≤ hi → noise.argsOk [.num p] = true) :
    GoodRule1 inds noise (plainArgs s name) := fun q hq =>
  ⟨_, (plainArgs_rule (h q hq) hok).1, (plainArgs_rule (h q hq) hok).2⟩

theorem goodRule2 {s : Setup} {inds : Dict String Nat} {name : String} {hi : Rat} {noise : Gate}
    (h : ∀ p ∈ inds.keys, ∀ q ∈ inds.keys, ProbParam s name [p, q] hi)
    (hok : ∀ p : Rat, 0 ≤ p → p ≤ hi → noise.argsOk [.num p] = true) :
    GoodRule2 inds noise (plainArgs s name) := fun p hp q hq =>
  ⟨_, (plainArgs_rule (h p hp q hq) hok).1, (plainArgs_rule (h p hp q hq) hok).2⟩

theorem goodAssign {s : Setup} {inds : Dict String Nat} (h : AssignOk s inds) : GoodAssign s inds := h

theorem biasedRule1 {s : Setup} {inds : Dict String Nat} {name : String}
    (h : ∀ q ∈ inds.keys, ProbParam s name [q] 1) (hb : ∀ q ∈ inds.keys, BiasOk s [q]) :
    GoodRule1 inds .PAULI_CHANNEL_1 (biasedArgs s name 1) := fun q hq =>
  have := biasedArgs_rule 1 (Or.inl ⟨rfl, rfl⟩) (h q hq) (hb q hq)
  ⟨_, this.1, this.2⟩

theorem biasedRule2 {s : Setup} {inds : Dict String Nat} {name : String}
    (h : ∀ p ∈ inds.keys, ∀ q ∈ inds.keys, ProbParam s name [p, q] 1)
    (hb : ∀ p ∈ inds.keys, ∀ q ∈ inds.keys, BiasOk s [p, q]) :
    GoodRule2 inds .PAULI_CHANNEL_2 (biasedArgs s name 2) := fun p hp q hq =>
  have := biasedArgs_rule 2 (Or.inr ⟨rfl, rfl⟩) (h p hp q hq) (hb p hp q hq)
  ⟨_, this.1, this.2⟩

/-! ### C34 -/

/-- C34 for `CircuitNoiseModel`: whatever the (valid) parameters, the noise-free content of every
method's circuit is the operation the method is named after, on the given qubits in order, and
measurements are recorded in that order. -/
theorem C34_circuit_noise (s : Setup) (inds : Dict String Nat) (h : CircuitNoiseOk s inds) :
    AllFaithful (circuitNoise s inds) where
  xGate := sqOp_implements inds _ _ _ _ (by intro ts; simp [instrOps]) rfl rfl rfl rfl
    (goodRule1 (h.sq _ (by simp)) argsOk_dep1)
  zGate := sqOp_implements inds _ _ _ _ (by intro ts; simp [instrOps]) rfl rfl rfl rfl
    (goodRule1 (h.sq _ (by simp)) argsOk_dep1)
  hadamard := sqOp_implements inds _ _ _ _ (by intro ts; simp [instrOps]) rfl rfl rfl rfl
    (goodRule1 (h.sq _ (by simp)) argsOk_dep1)
  sGate := sqOp_implements inds _ _ _ _ (by intro ts; simp [instrOps]) rfl rfl rfl rfl
    (goodRule1 (h.sq _ (by simp)) argsOk_dep1)
  sDagGate := sqOp_implements inds _ _ _ _ (by intro ts; simp [instrOps]) rfl rfl rfl rfl
    (goodRule1 (h.sq _ (by simp)) argsOk_dep1)
  cphase := tqOp_implements inds _ _ _ _ (by intro ts; simp [instrOps]) rfl rfl rfl
    (goodRule2 (h.tq _ (by simp)) argsOk_dep2)
  cnot := tqOp_implements inds _ _ _ _ (by intro ts; simp [instrOps]) rfl rfl rfl
    (goodRule2 (h.tq _ (by simp)) argsOk_dep2)
  swap := tqOp_implements inds _ _ _ _ (by intro ts; simp [instrOps]) rfl rfl rfl
    (goodRule2 (h.tq _ (by simp)) argsOk_dep2)
  measure := measOp_measures s inds _ _ _ (by intro ts args; simp [instrOps]) rfl
    (goodAssign h.assign) rfl rfl (goodRule1 (h.spam _ (by simp)) argsOk_xerr)
  measureX := measOp_measures s inds _ _ _ (by intro ts args; simp [instrOps]) rfl
    (goodAssign h.assign) rfl rfl (goodRule1 (h.spam _ (by simp)) argsOk_zerr)
  measureY := measOp_measures s inds _ _ _ (by intro ts args; simp [instrOps]) rfl
    (goodAssign h.assign) rfl rfl (goodRule1 (h.spam _ (by simp)) argsOk_zerr)
  reset := sqOp_implements inds _ _ _ _ (by intro ts; simp [instrOps]) rfl rfl rfl rfl
    (goodRule1 (h.spam _ (by simp)) argsOk_xerr)
  resetX := sqOp_implements inds _ _ _ _ (by intro ts; simp [instrOps]) rfl rfl rfl rfl
    (goodRule1 (h.spam _ (by simp)) argsOk_zerr)
  resetY := sqOp_implements inds _ _ _ _ (by intro ts; simp [instrOps]) rfl rfl rfl rfl
    (goodRule1 (h.spam _ (by simp)) argsOk_zerr)
  idle := noiseOnly_silent inds _ _ rfl rfl (goodRule1 (h.sq _ (by simp)) argsOk_dep1)
  incomingNoise := noIncoming_silent inds
  paired := by
    simp only [List.forall_mem_cons]
    repeat' apply And.intro
    all_goals first
      | exact sqOp_paired _ _ _ _
      | exact tqOp_paired _ _ _ _
      | exact plainOp_paired _ _
      | exact measOp_paired _ _ _ _
      | exact plainMeas_paired _ _
      | exact noiseOnly_paired _ _ _
      | exact noIncoming_paired
      | exact incomingNoiseOp_paired _ _
      | simp

/-- C34 for `BiasedCircuitNoiseModel`, all methods but `measure_y` (see
`C34_biased_measure_y_measures_x`). -/
theorem C34_biased_noise_partial (s : Setup) (inds : Dict String Nat) (h : BiasedNoiseOk s inds) :
    Faithful (biasedNoise s inds) ∧
    Measures inds (biasedNoise s inds).measureX .mx ∧
    Implements1 inds (biasedNoise s inds).resetX .rx ∧
    Implements1 inds (biasedNoise s inds).resetY .ry where
  left := {
    xGate := sqOp_implements inds _ _ _ _ (by intro ts; simp [instrOps]) rfl rfl rfl rfl
      (biasedRule1 (h.sq _ (by simp)) h.bias1)
    zGate := sqOp_implements inds _ _ _ _ (by intro ts; simp [instrOps]) rfl rfl rfl rfl
      (biasedRule1 (h.sq _ (by simp)) h.bias1)
    hadamard := sqOp_implements inds _ _ _ _ (by intro ts; simp [instrOps]) rfl rfl rfl rfl
      (biasedRule1 (h.sq _ (by simp)) h.bias1)
    sGate := sqOp_implements inds _ _ _ _ (by intro ts; simp [instrOps]) rfl rfl rfl rfl
      (biasedRule1 (h.sq _ (by simp)) h.bias1)
    sDagGate := sqOp_implements inds _ _ _ _ (by intro ts; simp [instrOps]) rfl rfl rfl rfl
      (biasedRule1 (h.sq _ (by simp)) h.bias1)
    cphase := tqOp_implements inds _ _ _ _ (by intro ts; simp [instrOps]) rfl rfl rfl
      (biasedRule2 (h.tq _ (by simp)) h.bias2)
    cnot := tqOp_implements inds _ _ _ _ (by intro ts; simp [instrOps]) rfl rfl rfl
      (biasedRule2 (h.tq _ (by simp)) h.bias2)
    swap := tqOp_implements inds _ _ _ _ (by intro ts; simp [instrOps]) rfl rfl rfl
      (biasedRule2 (h.tq _ (by simp)) h.bias2)
    measure := measOp_measures s inds _ _ _ (by intro ts args; simp [instrOps]) rfl
      (goodAssign h.assign) rfl rfl (goodRule1 (h.spam _ (by simp)) argsOk_xerr)
    reset := sqOp_implements inds _ _ _ _ (by intro ts; simp [instrOps]) rfl rfl rfl rfl
      (goodRule1 (h.spam _ (by simp)) argsOk_xerr)
    idle := noiseOnly_silent inds _ _ rfl rfl (biasedRule1 (h.sq _ (by simp)) h.bias1)
    incomingNoise := noIncoming_silent inds
    paired := by
      simp only [List.forall_mem_cons]
      repeat' apply And.intro
      all_goals first
        | exact sqOp_paired _ _ _ _
        | exact tqOp_paired _ _ _ _
        | exact plainOp_paired _ _
        | exact measOp_paired _ _ _ _
        | exact plainMeas_paired _ _
        | exact noiseOnly_paired _ _ _
        | exact noIncoming_paired
        | exact incomingNoiseOp_paired _ _
        | simp }
  right := ⟨measOp_measures s inds _ _ _ (by intro ts args; simp [instrOps]) rfl
      (goodAssign h.assign) rfl rfl (goodRule1 (h.spam _ (by simp)) argsOk_zerr),
    sqOp_implements inds _ _ _ _ (by intro ts; simp [instrOps]) rfl rfl rfl rfl
      (goodRule1 (h.spam _ (by simp)) argsOk_zerr),
    sqOp_implements inds _ _ _ _ (by intro ts; simp [instrOps]) rfl rfl rfl rfl
      (goodRule1 (h.spam _ (by simp)) argsOk_zerr)⟩

/-- Negation of C34: `BiasedCircuitNoiseModel.measure_y` measures every qubit in the X basis. -/
theorem C34_biased_measure_y_measures_x (s : Setup) (inds : Dict String Nat)
    (h : BiasedNoiseOk s inds) : Measures inds (biasedNoise s inds).measureY .mx :=
  measOp_measures s inds _ _ _ (by intro ts args; simp [instrOps]) rfl
      (goodAssign h.assign) rfl rfl (goodRule1 (h.spam _ (by simp)) argsOk_xerr)

/-- hence it does not measure in the Y basis, as soon as there is one qubit. -/
theorem C34_biased_measure_y_wrong (s : Setup) (inds : Dict String Nat)
    (h : BiasedNoiseOk s inds) (q : String) (hq : q ∈ inds.keys) :
    ¬ Measures inds (biasedNoise s inds).measureY .my := by
  intro hy
  have hx := C34_biased_measure_y_measures_x s inds h
  obtain ⟨c, s', e1, e2, -⟩ := hx [q] (by simpa using hq) _ [] (MeasState.tracks_fresh inds)
  obtain ⟨c2, s2, f1, f2, -⟩ := hy [q] (by simpa using hq) _ [] (MeasState.tracks_fresh inds)
  rw [e1] at f1
  simp only [Prod.mk.injEq, Except.ok.injEq] at f1
  rw [← f1.1, e2] at f2
  simp at f2

/-- C34 for `NoiselessModel`, with no condition at all. -/
theorem C34_noiseless (inds : Dict String Nat) : AllFaithful (noiseless inds) where
  xGate := plainOp_implements inds _ _ (by intro ts; simp [instrOps]) rfl rfl
  zGate := plainOp_implements inds _ _ (by intro ts; simp [instrOps]) rfl rfl
  hadamard := plainOp_implements inds _ _ (by intro ts; simp [instrOps]) rfl rfl
  sGate := plainOp_implements inds _ _ (by intro ts; simp [instrOps]) rfl rfl
  sDagGate := plainOp_implements inds _ _ (by intro ts; simp [instrOps]) rfl rfl
  cphase := plainOp_implements2 inds _ _ (by intro ts; simp [instrOps]) rfl rfl
  cnot := plainOp_implements2 inds _ _ (by intro ts; simp [instrOps]) rfl rfl
  swap := plainOp_implements2 inds _ _ (by intro ts; simp [instrOps]) rfl rfl
  measure := fun qs hqs m hist hm => by
    have := plainMeasLoop_ok inds .M .m (by intro ts args; simp [instrOps]) rfl qs hqs [] m hist hm
    simp only [ops_nil, List.nil_append] at this
    exact this
  measureX := fun qs hqs m hist hm => by
    have := plainMeasLoop_ok inds .MX .mx (by intro ts args; simp [instrOps]) rfl qs hqs [] m hist hm
    simp only [ops_nil, List.nil_append] at this
    exact this
  measureY := fun qs hqs m hist hm => by
    have := plainMeasLoop_ok inds .MY .my (by intro ts args; simp [instrOps]) rfl qs hqs [] m hist hm
    simp only [ops_nil, List.nil_append] at this
    exact this
  reset := plainOp_implements inds _ _ (by intro ts; simp [instrOps]) rfl rfl
  resetX := plainOp_implements inds _ _ (by intro ts; simp [instrOps]) rfl rfl
  resetY := plainOp_implements inds _ _ (by intro ts; simp [instrOps]) rfl rfl
  idle := fun qs hqs s => by
    refine ⟨Circuit.append [] ⟨.I, (qs.map (ind inds)).map Target.qubit, []⟩, ?_, ?_⟩
    · simp only [noiseless, lift, PyM.ofExcept, plainOp, getInds_ok inds qs hqs, appendOp,
        mkInstr_one .I ((qs.map (ind inds)).map Target.qubit) [] rfl rfl]
    · simp [Circuit.append, ops, instrOps]
  incomingNoise := noIncoming_silent inds
  paired := by
    simp only [List.forall_mem_cons]
    repeat' apply And.intro
    all_goals first
      | exact sqOp_paired _ _ _ _
      | exact tqOp_paired _ _ _ _
      | exact plainOp_paired _ _
      | exact measOp_paired _ _ _ _
      | exact plainMeas_paired _ _
      | exact noiseOnly_paired _ _ _
      | exact noIncoming_paired
      | exact incomingNoiseOp_paired _ _
      | simp

theorem incoming_silent (s : Setup) (inds : Dict String Nat)
    (h : ∀ q ∈ inds.keys, ProbParam s "idle_error_prob" [q] 1) :
    Silent inds (lift (incomingNoiseOp s inds)) := by
  intro qs hqs m
  obtain ⟨c1, e1, e2⟩ := noiseLoop_ok .X_ERROR rfl (plainArgs s "idle_error_prob")
    (singles qs (qs.map (ind inds))) [] (by
      intro p hp
      obtain ⟨q, hq, rfl⟩ := singles_mem hqs hp
      obtain ⟨args, h1, h2⟩ := goodRule1 h argsOk_xerr q hq
      exact ⟨args, h1, h2, by simp [Gate.isTwoQubit]⟩)
  obtain ⟨c2, f1, f2⟩ := noiseLoop_ok .Z_ERROR rfl (plainArgs s "idle_error_prob")
    (singles qs (qs.map (ind inds))) c1 (by
      intro p hp
      obtain ⟨q, hq, rfl⟩ := singles_mem hqs hp
      obtain ⟨args, h1, h2⟩ := goodRule1 h argsOk_zerr q hq
      exact ⟨args, h1, h2, by simp [Gate.isTwoQubit]⟩)
  refine ⟨c2, ?_, by rw [f2, e2]; rfl⟩
  simp only [lift, PyM.ofExcept, incomingNoiseOp, getInds_ok inds qs hqs, e1, f1]

/-- C34 for `IncomingNoiseModel`. -/
theorem C34_incoming (s : Setup) (inds : Dict String Nat)
    (h : ∀ q ∈ inds.keys, ProbParam s "idle_error_prob" [q] 1) : AllFaithful (incoming s inds) :=
  { C34_noiseless inds with
    incomingNoise := incoming_silent s inds h
    paired := by
      simp only [List.forall_mem_cons]
      repeat' apply And.intro
      all_goals first
        | exact sqOp_paired _ _ _ _
        | exact tqOp_paired _ _ _ _
        | exact plainOp_paired _ _
        | exact measOp_paired _ _ _ _
        | exact plainMeas_paired _ _
        | exact noiseOnly_paired _ _ _
        | exact noIncoming_paired
        | exact incomingNoiseOp_paired _ _
        | simp }

/-- C34 for `PhenomenologicalNoiseModel`. -/
theorem C34_phenomenological (s : Setup) (inds : Dict String Nat)
    (h : ∀ name ∈ ["idle_error_prob", "meas_error_prob"], ∀ q ∈ inds.keys, ProbParam s name [q] 1)
    (ha : AssignOk s inds) : AllFaithful (phenomenological s inds) :=
  { C34_incoming s inds (h _ (by simp)) with
    paired := by
      simp only [List.forall_mem_cons]
      repeat' apply And.intro
      all_goals first
        | exact sqOp_paired _ _ _ _
        | exact tqOp_paired _ _ _ _
        | exact plainOp_paired _ _
        | exact measOp_paired _ _ _ _
        | exact plainMeas_paired _ _
        | exact noiseOnly_paired _ _ _
        | exact noIncoming_paired
        | exact incomingNoiseOp_paired _ _
        | simp
    measure := measOp_measures s inds _ _ _ (by intro ts args; simp [instrOps]) rfl
      (goodAssign ha) rfl rfl (goodRule1 (h _ (by simp)) argsOk_xerr)
    measureX := measOp_measures s inds _ _ _ (by intro ts args; simp [instrOps]) rfl
      (goodAssign ha) rfl rfl (goodRule1 (h _ (by simp)) argsOk_zerr)
    measureY := measOp_measures s inds _ _ _ (by intro ts args; simp [instrOps]) rfl
      (goodAssign ha) rfl rfl (goodRule1 (h _ (by simp)) argsOk_xerr) }

/-- C34 for `ExperimentalNoiseModel`, all methods it has; `s_gate` and `s_dag_gate` are not
implemented and `idle` cannot be called the way the circuit blocks call it. -/
theorem C34_experimental_partial (s : Setup) (inds : Dict String Nat) (h : CircuitNoiseOk s inds) :
    let nm := experimentalNoise s inds
    Implements1 inds nm.xGate .x ∧ Implements1 inds nm.zGate .z ∧ Implements1 inds nm.hadamard .h ∧
    Implements2 inds nm.cphase .cz ∧ Implements2 inds nm.cnot .cx ∧ Implements2 inds nm.swap .swap ∧
    Measures inds nm.measure .m ∧ Measures inds nm.measureX .mx ∧ Measures inds nm.measureY .my ∧
    Implements1 inds nm.reset .r ∧ Implements1 inds nm.resetX .rx ∧ Implements1 inds nm.resetY .ry ∧
    (∀ qs m, (nm.sGate qs m).1 = .error .notImplemented ∧
      (nm.sDagGate qs m).1 = .error .notImplemented ∧ (nm.idle qs m).1 = .error .typeError) :=
  have c := C34_circuit_noise s inds h
  ⟨c.xGate, c.zGate, c.hadamard, c.cphase, c.cnot, c.swap, c.measure, c.measureX,
    measOp_measures s inds _ _ _ (by intro ts args; simp [instrOps]) rfl
      (goodAssign h.assign) rfl rfl (goodRule1 (h.spam _ (by simp)) argsOk_xerr),
    c.reset, c.resetX,
    sqOp_implements inds _ _ _ _ (by intro ts; simp [instrOps]) rfl rfl rfl rfl
      (goodRule1 (h.spam _ (by simp)) argsOk_xerr),
    fun _ _ => ⟨rfl, rfl, rfl⟩⟩

/-! #### `DecoherenceNoiseModel` -/

/-- The coherence times of every qubit are usable. -/
def CoherenceOk (s : Setup) (inds : Dict String Nat) : Prop :=
  ∀ q ∈ inds.keys, ∃ t1 t2, numParam s "T1" [q] = .ok t1 ∧ numParam s "T2" [q] = .ok t2 ∧
    0 < t1 ∧ 0 < t2 ∧ t2 < 2 * t1

theorem idleDuration_ok (s : Setup) (inds : Dict String Nat) (h : CoherenceOk s inds) (d : Rat)
    (hd : 0 < d) (qs : List String) (hqs : ∀ q ∈ qs, q ∈ inds.keys) (c : Circuit) :
    ∃ c', idleDuration s inds d c qs = .ok c' ∧ ops c' = ops c := by
  induction qs generalizing c with
  | nil => exact ⟨c, rfl, rfl⟩
  | cons q qs ih =>
    obtain ⟨t1, t2, h1, h2, h3, h4, h5⟩ := h q (hqs q (by simp))
    have hq := getInds_ok inds [q] (by simpa using hqs q (by simp))
    have hmk : appendOp c .PAULI_CHANNEL_1 ([q].map (ind inds))
        [.idle t1 t2 d 0, .idle t1 t2 d 1, .idle t1 t2 d 2] =
        .ok (Circuit.append c ⟨.PAULI_CHANNEL_1, ([q].map (ind inds)).map Target.qubit,
          [.idle t1 t2 d 0, .idle t1 t2 d 1, .idle t1 t2 d 2]⟩) := by
      unfold appendOp
      rw [mkInstr_one _ _ _ rfl rfl]
    obtain ⟨c', e1, e2⟩ := ih (fun q hq => hqs q (List.mem_cons_of_mem _ hq))
      (Circuit.append c ⟨.PAULI_CHANNEL_1, ([q].map (ind inds)).map Target.qubit,
          [.idle t1 t2 d 0, .idle t1 t2 d 1, .idle t1 t2 d 2]⟩)
    refine ⟨c', ?_, ?_⟩
    · have e0 : idleErrorProbs t1 t2 d =
          .ok [.idle t1 t2 d 0, .idle t1 t2 d 1, .idle t1 t2 d 2] := by
        simp [idleErrorProbs, not_le.2 h3, not_le.2 h4, not_le.2 hd]
      simp only [idleDuration, h1, h2, e0, hq, hmk, if_pos (And.intro h3 (And.intro h4 h5)), e1]
    · rw [e2, ops_circuit_append _ _ rfl]
      simp [instrOps]

theorem genericOp_ok (s : Setup) (inds : Dict String Nat) (sym : Bool) (h : CoherenceOk s inds)
    (g : Gate) (d : Rat) (hd : s.gateDuration (gateName g) = .ok d) (hd0 : 0 < d)
    (qs : List String) (hqs : ∀ q ∈ qs, q ∈ inds.keys)
    (hmk : mkInstr g ((qs.map (ind inds)).map Target.qubit) [] =
      .ok ⟨g, (qs.map (ind inds)).map Target.qubit, []⟩) (hn : g.isNoise = false) (m : MeasState) :
    ∃ c, lift (genericOp s inds sym g) qs m = (.ok c, m) ∧
      ops c = instrOps ⟨g, (qs.map (ind inds)).map Target.qubit, []⟩ := by
  have key : ∀ c1 : Circuit, ops c1 = [] → (∀ i ∈ c1, i.gate.isNoise = true) →
      ops (Circuit.append c1 ⟨g, (qs.map (ind inds)).map Target.qubit, []⟩) =
        instrOps ⟨g, (qs.map (ind inds)).map Target.qubit, []⟩ := by
    intro c1 h1 h2
    unfold Circuit.append
    cases hl : c1.getLast? with
    | none => simp [ops]
    | some l =>
      have hmem : l ∈ c1 := List.mem_of_getLast? hl
      have hne : ¬ (l.gate = g ∧ l.args = [] ∧ g.notFusable = false) := by
        rintro ⟨e, -⟩
        have := h2 l hmem
        rw [e, hn] at this
        simp at this
      simp only [if_neg hne, ops_append, h1]
      simp [ops]
  have hnoise : ∀ (d : Rat) (c c' : Circuit) (l : List String), (∀ i ∈ c, i.gate.isNoise = true) →
      idleDuration s inds d c l = .ok c' → ∀ i ∈ c', i.gate.isNoise = true := by
    intro d c c' l
    induction l generalizing c with
    | nil => intro hc e; simp [idleDuration] at e; exact e ▸ hc
    | cons q l ih =>
      intro hc e
      simp only [idleDuration] at e
      split at e
      · simp at e
      split at e
      · simp at e
      split at e
      · split at e
        · simp at e
        split at e
        · simp at e
        split at e
        · simp at e
        rename_i c2 hc2
        refine ih c2 ?_ e
        unfold appendOp at hc2
        split at hc2
        · simp at hc2
        rename_i i hi
        simp only [Except.ok.injEq] at hc2
        have hig : i.gate = .PAULI_CHANNEL_1 := by
          unfold mkInstr at hi
          split at hi
          · simp at hi
          · simp [Gate.isTwoQubit] at hi
            rw [← hi]
        intro j hj
        rw [← hc2] at hj
        unfold Circuit.append at hj
        split at hj
        · simp at hj; rw [hj, hig]; rfl
        · split at hj
          · rename_i l' hl' hf
            rcases List.mem_append.1 hj with hj | hj
            · exact hc j (List.mem_of_mem_dropLast hj)
            · simp at hj; rw [hj]; simp only; rw [hf.1, hig]; rfl
          · rcases List.mem_append.1 hj with hj | hj
            · exact hc j hj
            · simp at hj; rw [hj, hig]; rfl
      · simp at e
  cases sym with
  | true =>
    obtain ⟨c1, e1, e2⟩ := idleDuration_ok s inds h (d / 2) (by linarith) qs hqs []
    have := key c1 (by simpa using e2) (hnoise _ _ _ _ (by simp) e1)
    refine ⟨Circuit.append c1 ⟨g, (qs.map (ind inds)).map Target.qubit, []⟩ ++ c1, ?_, ?_⟩
    · simp only [lift, PyM.ofExcept, genericOp, hd, e1, getInds_ok inds qs hqs, appendOp, hmk, if_true]
    · rw [ops_append, this, e2]; simp
  | false =>
    obtain ⟨c1, e1, e2⟩ := idleDuration_ok s inds h d hd0 qs hqs []
    refine ⟨Circuit.append [] ⟨g, (qs.map (ind inds)).map Target.qubit, []⟩ ++ c1, ?_, ?_⟩
    · simp only [lift, PyM.ofExcept, genericOp, hd, e1, getInds_ok inds qs hqs, appendOp, hmk,
        Bool.false_eq_true, if_false]
    · rw [ops_append, e2, key [] rfl (by simp)]; simp

/-- Every gate duration that `DecoherenceNoiseModel` reads is given and positive. -/
def DurationsOk (s : Setup) : Prop :=
  ∀ name ∈ ["X", "Z", "H", "S", "S_DAG", "CZ", "CNOT", "SWAP", "M", "MX", "MY", "R", "RX", "RY"],
    ∃ d, s.gateDuration name = .ok d ∧ 0 < d

theorem genericOp_implements (s : Setup) (inds : Dict String Nat) (sym : Bool)
    (h : CoherenceOk s inds) (hd : DurationsOk s) (g : Gate) (op : Nat → Op Nat)
    (hname : gateName g ∈ ["X", "Z", "H", "S", "S_DAG", "CZ", "CNOT", "SWAP", "M", "MX", "MY", "R", "RX", "RY"])
    (hg : ∀ ts : List Nat, instrOps ⟨g, ts.map Target.qubit, []⟩ = ts.map op)
    (hg1 : g.argsOk [] = true) (hg2 : g.isTwoQubit = false) (hn : g.isNoise = false) :
    Implements1 inds (lift (genericOp s inds sym g)) op := by
  intro qs hqs m
  obtain ⟨d, hd1, hd2⟩ := hd _ hname
  obtain ⟨c, e1, e2⟩ := genericOp_ok s inds sym h g d hd1 hd2 qs hqs (mkInstr_one _ _ _ hg1 hg2) hn m
  refine ⟨c, e1, ?_⟩
  rw [e2, hg, List.map_map]
  rfl

theorem genericOp_implements2 (s : Setup) (inds : Dict String Nat) (sym : Bool)
    (h : CoherenceOk s inds) (hd : DurationsOk s) (g : Gate) (op : Nat → Nat → Op Nat)
    (hname : gateName g ∈ ["X", "Z", "H", "S", "S_DAG", "CZ", "CNOT", "SWAP", "M", "MX", "MY", "R", "RX", "RY"])
    (hg : ∀ ts : List Nat, instrOps ⟨g, ts.map Target.qubit, []⟩ = (pairs ts).map fun p => op p.1 p.2)
    (hg1 : g.argsOk [] = true) (hg2 : g.isTwoQubit = true) (hn : g.isNoise = false) :
    Implements2 inds (lift (genericOp s inds sym g)) op := by
  intro ps hps m
  obtain ⟨d, hd1, hd2⟩ := hd _ hname
  have hk : ∀ q ∈ (ps.flatMap fun p => [p.1, p.2]), q ∈ inds.keys := by
    intro q hq
    rw [List.mem_flatMap] at hq
    obtain ⟨p, hp, hq⟩ := hq
    simp at hq
    rcases hq with rfl | rfl
    · exact (hps p hp).1
    · exact (hps p hp).2.1
  have hmk := mkInstr_two g (ps.map fun p => (ind inds p.1, ind inds p.2)) [] hg1 hg2 (by
    intro p hp
    obtain ⟨p', hp', rfl⟩ := List.mem_map.1 hp
    exact (hps p' hp').2.2)
  rw [← flat_map] at hmk
  obtain ⟨c, e1, e2⟩ := genericOp_ok s inds sym h g d hd1 hd2 _ hk hmk hn m
  refine ⟨c, e1, ?_⟩
  rw [e2, hg, flat_map (ind inds), pairs_flat, List.map_map]
  rfl

theorem decMeasLoop_ok (s : Setup) (inds : Dict String Nat) (g : Gate) (op : Nat → Op Nat)
    (hg : ∀ (ts : List Nat) args, instrOps ⟨g, ts.map Target.qubit, args⟩ = ts.map op)
    (hgm : g.isMeas = true) (ha : AssignOk s inds)
    (qs : List String) (hqs : ∀ q ∈ qs, q ∈ inds.keys) (c : Circuit) (m : MeasState)
    (hist : List String) (hm : m.Tracks inds hist) :
    ∃ c' m', decMeasLoop s inds g c qs m = (.ok c', m') ∧
      ops c' = ops c ++ qs.map (fun q => op (ind inds q)) ∧ m'.Tracks inds (hist ++ qs) := by
  have hloop : ∀ (qs : List String) (c : Circuit) (m : MeasState), (∀ q ∈ qs, q ∈ inds.keys) →
      decMeasLoop s inds g c qs m = measLoop s inds g c (qs.zip (qs.map (ind inds))) m := by
    intro qs
    induction qs with
    | nil => intro c m _; rfl
    | cons q qs ih =>
      intro c m hqs
      have hq := getInds_ok inds [q] (by simpa using hqs q (by simp))
      simp only [decMeasLoop, List.map_cons, List.zip_cons_cons, measLoop, hq, List.map_nil]
      have ih' := fun c m => ih c m (fun q hq => hqs q (List.mem_cons_of_mem _ hq))
      simp only [PyM.bind_apply, PyM.ofExcept_apply]
      cases MeasState.addMeas inds q m with
      | mk e m1 =>
        cases e with
        | error e => rfl
        | ok u =>
          simp only
          cases s.param "assign_error_flag" [q] with
          | error e => rfl
          | ok v =>
            simp only
            by_cases ht : v.truthy = true
            · simp only [ht, if_true, PyM.bind_apply, PyM.ofExcept_apply]
              cases plainArgs s "assign_error_prob" [q] with
              | error e => rfl
              | ok args =>
                simp only
                cases appendOp c g [ind inds q] args with
                | error e => rfl
                | ok c' => exact ih' c' m1
            · simp only [ht, PyM.bind_apply, PyM.ofExcept_apply, Bool.false_eq_true, if_false,
                PyM.pure_apply]
              cases appendOp c g [ind inds q] [] with
              | error e => rfl
              | ok c' => exact ih' c' m1
  rw [hloop qs c m hqs]
  exact measLoop_ok s inds g op hg hgm ha qs hqs c m hist hm

theorem decMeas_measures (s : Setup) (inds : Dict String Nat) (h : CoherenceOk s inds)
    (hd : DurationsOk s) (ha : AssignOk s inds) (g : Gate) (op : Nat → Op Nat)
    (hname : gateName g ∈ ["X", "Z", "H", "S", "S_DAG", "CZ", "CNOT", "SWAP", "M", "MX", "MY", "R", "RX", "RY"])
    (hg : ∀ (ts : List Nat) args, instrOps ⟨g, ts.map Target.qubit, args⟩ = ts.map op)
    (hgm : g.isMeas = true) : Measures inds (decMeas s inds true g) op := by
  intro qs hqs m hist hm
  obtain ⟨d, hd1, hd2⟩ := hd _ hname
  obtain ⟨c1, e1, e2⟩ := idleDuration_ok s inds h (d / 2) (by linarith) qs hqs []
  obtain ⟨c2, m', f1, f2, f3⟩ := decMeasLoop_ok s inds g op hg hgm ha qs hqs c1 m hist hm
  refine ⟨c2 ++ c1, m', ?_, ?_, f3⟩
  · unfold decMeas
    rw [PyM.bind_ok (by rw [PyM.ofExcept_apply, hd1])]
    simp only [if_true]
    rw [PyM.bind_ok (by rw [PyM.ofExcept_apply, e1]), PyM.bind_ok f1,
      PyM.bind_ok (by rw [PyM.ofExcept_apply, e1])]
    rfl
  · rw [ops_append, f2, e2]; simp

/-- C34 for `DecoherenceNoiseModel`: gates and resets in both modes, measurements with
`symmetric_noise=True`.  `idle` cannot be called as the circuit blocks do. -/
theorem C34_decoherence_partial (s : Setup) (inds : Dict String Nat) (sym : Bool)
    (h : CoherenceOk s inds) (hd : DurationsOk s) (ha : AssignOk s inds) :
    let nm := decoherenceNoise s inds sym
    Implements1 inds nm.xGate .x ∧ Implements1 inds nm.zGate .z ∧ Implements1 inds nm.hadamard .h ∧
    Implements1 inds nm.sGate .s ∧ Implements1 inds nm.sDagGate .sdag ∧
    Implements2 inds nm.cphase .cz ∧ Implements2 inds nm.cnot .cx ∧ Implements2 inds nm.swap .swap ∧
    Implements1 inds nm.reset .r ∧ Implements1 inds nm.resetX .rx ∧ Implements1 inds nm.resetY .ry ∧
    (sym = true → Measures inds nm.measure .m ∧ Measures inds nm.measureX .mx ∧
      Measures inds nm.measureY .my) ∧
    (∀ qs m, (nm.idle qs m).1 = .error .typeError) := by
  have g1 : ∀ (g : Gate) (op : Nat → Op Nat), _ → _ → _ → _ → _ → _ :=
    genericOp_implements s inds sym h hd
  refine ⟨g1 _ _ (by simp [gateName]) (by intro ts; simp [instrOps]) rfl rfl rfl,
    g1 _ _ (by simp [gateName]) (by intro ts; simp [instrOps]) rfl rfl rfl,
    g1 _ _ (by simp [gateName]) (by intro ts; simp [instrOps]) rfl rfl rfl,
    g1 _ _ (by simp [gateName]) (by intro ts; simp [instrOps]) rfl rfl rfl,
    g1 _ _ (by simp [gateName]) (by intro ts; simp [instrOps]) rfl rfl rfl,
    genericOp_implements2 s inds sym h hd _ _ (by simp [gateName]) (by intro ts; simp [instrOps]) rfl rfl rfl,
    genericOp_implements2 s inds sym h hd _ _ (by simp [gateName]) (by intro ts; simp [instrOps]) rfl rfl rfl,
    genericOp_implements2 s inds sym h hd _ _ (by simp [gateName]) (by intro ts; simp [instrOps]) rfl rfl rfl,
    g1 _ _ (by simp [gateName]) (by intro ts; simp [instrOps]) rfl rfl rfl,
    g1 _ _ (by simp [gateName]) (by intro ts; simp [instrOps]) rfl rfl rfl,
    g1 _ _ (by simp [gateName]) (by intro ts; simp [instrOps]) rfl rfl rfl, ?_, fun _ _ => rfl⟩
  rintro rfl
  exact ⟨decMeas_measures s inds h hd ha _ _ (by simp [gateName]) (by intro ts args; simp [instrOps]) rfl,
    decMeas_measures s inds h hd ha _ _ (by simp [gateName]) (by intro ts args; simp [instrOps]) rfl,
    decMeas_measures s inds h hd ha _ _ (by simp [gateName]) (by intro ts args; simp [instrOps]) rfl⟩

/-- Negation of C34 for `DecoherenceNoiseModel(symmetric_noise=False)`: every measurement of at
least one qubit raises. -/
theorem C34_decoherence_asymmetric_measure_raises (s : Setup) (inds : Dict String Nat)
    (qs : List String) (hqs : qs ≠ []) (m : MeasState) :
    ∃ e, ((decoherenceNoise s inds false).measure qs m).1 = .error e := by
  show ∃ e, (decMeas s inds false .M qs m).1 = .error e
  unfold decMeas
  rw [PyM.bind_apply]
  simp only [PyM.ofExcept_apply]
  cases s.gateDuration (gateName Gate.M) with
  | error e => exact ⟨e, rfl⟩
  | ok d =>
    cases qs with
    | nil => simp at hqs
    | cons q qs =>
      simp only [Bool.false_eq_true, if_false]
      rw [PyM.bind_apply]
      cases MeasState.addMeas inds q m with
      | mk e m1 => cases e with
        | error e => exact ⟨e, rfl⟩
        | ok u => exact ⟨_, rfl⟩

/-! ### C35 -/

/-- C35 for `CircuitNoiseModel`: the complete content of every circuit.  Every gate and reset is
followed by its noise channel on exactly the operated qubits (pairs), each with the parameter value of
that qubit (pair); every measurement is preceded by it and carries the assignment error of its
qubit; `idle` is noise only. -/
theorem C35_circuit_noise (s : Setup) (inds : Dict String Nat) (h : CircuitNoiseOk s inds) :
    let nm := circuitNoise s inds
    (∀ e ∈ [(nm.xGate, Gate.X, "x_error_prob"), (nm.zGate, Gate.Z, "z_error_prob"),
        (nm.hadamard, Gate.H, "h_error_prob"), (nm.sGate, Gate.S, "s_error_prob"),
        (nm.sDagGate, Gate.S_DAG, "sdag_error_prob")],
      GateThenNoise inds e.1 e.2.1 .DEPOLARIZE1 fun q => [.num (paramValue s e.2.2 [q])]) ∧
    (∀ e ∈ [(nm.cphase, Gate.CZ, "cz_error_prob"), (nm.cnot, Gate.CX, "cnot_error_prob"),
        (nm.swap, Gate.SWAP, "swap_error_prob")],
      GateThenNoise2 inds e.1 e.2.1 .DEPOLARIZE2 fun p q => [.num (paramValue s e.2.2 [p, q])]) ∧
    (∀ e ∈ [(nm.reset, Gate.R, Gate.X_ERROR), (nm.resetX, Gate.RX, Gate.Z_ERROR),
        (nm.resetY, Gate.RY, Gate.Z_ERROR)],
      GateThenNoise inds e.1 e.2.1 e.2.2 fun q => [.num (paramValue s "reset_error_prob" [q])]) ∧
    (∀ e ∈ [(nm.measure, Gate.M, Gate.X_ERROR), (nm.measureX, Gate.MX, Gate.Z_ERROR),
        (nm.measureY, Gate.MY, Gate.Z_ERROR)],
      NoiseThenMeasure inds e.1 e.2.1 e.2.2 (fun q => [.num (paramValue s "meas_error_prob" [q])])
        (assignArgs s)) ∧
    (∀ qs : List String, (∀ q ∈ qs, q ∈ inds.keys) → ∀ m, ∃ c, nm.idle qs m = (.ok c, m) ∧
      elems c = qs.map fun q =>
        (Gate.DEPOLARIZE1, [ind inds q], [.num (paramValue s "idle_error_prob" [q])])) := by
  have sq : ∀ (g : Gate) (name : String), g.argsOk [] = true → g.isTwoQubit = false →
      name ∈ ["x_error_prob", "z_error_prob", "h_error_prob", "s_error_prob", "sdag_error_prob",
        "idle_error_prob"] →
      GateThenNoise inds (lift (sqOp inds g .DEPOLARIZE1 (plainArgs s name))) g .DEPOLARIZE1
        fun q => [.num (paramValue s name [q])] := fun g name h1 h2 hm =>
    sqOp_elems inds g _ _ _ h1 h2 rfl fun q hq => plainArgs_rule (h.sq name hm q hq) argsOk_dep1
  have tq : ∀ (g : Gate) (name : String), g.argsOk [] = true → g.isTwoQubit = true →
      name ∈ ["cz_error_prob", "cnot_error_prob", "swap_error_prob"] →
      GateThenNoise2 inds (lift (tqOp inds g .DEPOLARIZE2 (plainArgs s name))) g .DEPOLARIZE2
        fun p q => [.num (paramValue s name [p, q])] := fun g name h1 h2 hm =>
    tqOp_elems inds g _ _ _ h1 h2 rfl fun p hp q hq =>
      plainArgs_rule (h.tq name hm p hp q hq) argsOk_dep2
  have hx := fun q hq => plainArgs_rule (h.spam "reset_error_prob" (by simp) q hq) argsOk_xerr
  have hz := fun q hq => plainArgs_rule (h.spam "reset_error_prob" (by simp) q hq) argsOk_zerr
  have mx := fun q hq => plainArgs_rule (h.spam "meas_error_prob" (by simp) q hq) argsOk_xerr
  have mz := fun q hq => plainArgs_rule (h.spam "meas_error_prob" (by simp) q hq) argsOk_zerr
  refine ⟨?_, ?_, ?_, ?_, ?_⟩
  · intro e he
    simp only [List.mem_cons, List.not_mem_nil, or_false] at he
    rcases he with rfl | rfl | rfl | rfl | rfl <;> exact sq _ _ rfl rfl (by simp)
  · intro e he
    simp only [List.mem_cons, List.not_mem_nil, or_false] at he
    rcases he with rfl | rfl | rfl <;> exact tq _ _ rfl rfl (by simp)
  · intro e he
    simp only [List.mem_cons, List.not_mem_nil, or_false] at he
    rcases he with rfl | rfl | rfl
    · exact sqOp_elems inds _ _ _ _ rfl rfl rfl hx
    · exact sqOp_elems inds _ _ _ _ rfl rfl rfl hz
    · exact sqOp_elems inds _ _ _ _ rfl rfl rfl hz
  · intro e he
    simp only [List.mem_cons, List.not_mem_nil, or_false] at he
    rcases he with rfl | rfl | rfl
    · exact measOp_elems s inds _ _ rfl h.assign rfl _ mx
    · exact measOp_elems s inds _ _ rfl h.assign rfl _ mz
    · exact measOp_elems s inds _ _ rfl h.assign rfl _ mz
  · intro qs hqs m
    exact noiseOnly_elems inds _ _ _ rfl
      (fun q hq => plainArgs_rule (h.sq "idle_error_prob" (by simp) q hq) argsOk_dep1) qs hqs m

/-- C35 for `BiasedCircuitNoiseModel`: the channel of a qubit (pair) distributes the probability of
that qubit (pair) over the Pauli strings with the bias of that qubit (pair). -/
theorem C35_biased_noise (s : Setup) (inds : Dict String Nat) (h : BiasedNoiseOk s inds) :
    let nm := biasedNoise s inds
    (∀ e ∈ [(nm.xGate, Gate.X, "x_error_prob"), (nm.zGate, Gate.Z, "z_error_prob"),
        (nm.hadamard, Gate.H, "h_error_prob"), (nm.sGate, Gate.S, "s_error_prob"),
        (nm.sDagGate, Gate.S_DAG, "sdag_error_prob")],
      GateThenNoise inds e.1 e.2.1 .PAULI_CHANNEL_1 fun q => biasedChannelOf s e.2.2 1 [q]) ∧
    (∀ e ∈ [(nm.cphase, Gate.CZ, "cz_error_prob"), (nm.cnot, Gate.CX, "cnot_error_prob"),
        (nm.swap, Gate.SWAP, "swap_error_prob")],
      GateThenNoise2 inds e.1 e.2.1 .PAULI_CHANNEL_2 fun p q => biasedChannelOf s e.2.2 2 [p, q]) ∧
    (∀ qs : List String, (∀ q ∈ qs, q ∈ inds.keys) → ∀ m, ∃ c, nm.idle qs m = (.ok c, m) ∧
      elems c = qs.map fun q =>
        (Gate.PAULI_CHANNEL_1, [ind inds q], biasedChannelOf s "idle_error_prob" 1 [q])) := by
  have sq : ∀ (g : Gate) (name : String), g.argsOk [] = true → g.isTwoQubit = false →
      name ∈ ["x_error_prob", "z_error_prob", "h_error_prob", "s_error_prob", "sdag_error_prob",
        "idle_error_prob"] →
      GateThenNoise inds (lift (sqOp inds g .PAULI_CHANNEL_1 (biasedArgs s name 1))) g .PAULI_CHANNEL_1
        fun q => biasedChannelOf s name 1 [q] := fun g name h1 h2 hm =>
    sqOp_elems inds g _ _ _ h1 h2 rfl fun q hq =>
      biasedArgs_rule 1 (Or.inl ⟨rfl, rfl⟩) (h.sq name hm q hq) (h.bias1 q hq)
  have tq : ∀ (g : Gate) (name : String), g.argsOk [] = true → g.isTwoQubit = true →
      name ∈ ["cz_error_prob", "cnot_error_prob", "swap_error_prob"] →
      GateThenNoise2 inds (lift (tqOp inds g .PAULI_CHANNEL_2 (biasedArgs s name 2))) g .PAULI_CHANNEL_2
        fun p q => biasedChannelOf s name 2 [p, q] := fun g name h1 h2 hm =>
    tqOp_elems inds g _ _ _ h1 h2 rfl fun p hp q hq =>
      biasedArgs_rule 2 (Or.inr ⟨rfl, rfl⟩) (h.tq name hm p hp q hq) (h.bias2 p hp q hq)
  refine ⟨?_, ?_, ?_⟩
  · intro e he
    simp only [List.mem_cons, List.not_mem_nil, or_false] at he
    rcases he with rfl | rfl | rfl | rfl | rfl <;> exact sq _ _ rfl rfl (by simp)
  · intro e he
    simp only [List.mem_cons, List.not_mem_nil, or_false] at he
    rcases he with rfl | rfl | rfl <;> exact tq _ _ rfl rfl (by simp)
  · intro qs hqs m
    exact noiseOnly_elems inds _ _ _ rfl (fun q hq =>
      biasedArgs_rule 1 (Or.inl ⟨rfl, rfl⟩) (h.sq "idle_error_prob" (by simp) q hq) (h.bias1 q hq))
      qs hqs m

/-! ### The conditions hold for the shipped setups -/

/-- `param` does not depend on the qubits if no qubit has its own parameters. -/
theorem param_global {s : Setup} (h : s.qubitParams = []) (p : String) (qs : List String) :
    s.param p qs = s.param p [] := by
  simp [Setup.param, Setup.paramOwn, h]

/-- `CircuitNoiseSetup()` after `set_var_param("prob", p)`. -/
def circuitNoiseSetup (p : Rat) : Except Err Setup :=
  (Setup.init Setup.circuitNoiseSetupDict).map fun s => s.setVarParam "prob" (.num p)

/-- `CircuitNoiseSetup` with `prob` in `[0, 3/4]` satisfies the conditions of C34 and C35 for every
set of qubits. -/
theorem C34_circuit_noise_setup_ok (p : Rat) (h0 : 0 ≤ p) (h1 : p ≤ 3/4) (inds : Dict String Nat) :
    ∃ s, circuitNoiseSetup p = .ok s ∧ CircuitNoiseOk s inds := by
  refine ⟨_, rfl, ?_⟩
  refine ⟨?_, ?_, ?_, ?_⟩
  · intro name hn q _
    refine ⟨p, ?_, h0, h1⟩
    simp only [numParam]
    rw [param_global rfl]
    simp only [List.mem_cons, List.not_mem_nil, or_false] at hn
    rcases hn with rfl | rfl | rfl | rfl | rfl | rfl <;> rfl
  · intro name hn q _ q' _
    refine ⟨p, ?_, h0, by linarith⟩
    simp only [numParam]
    rw [param_global rfl]
    simp only [List.mem_cons, List.not_mem_nil, or_false] at hn
    rcases hn with rfl | rfl | rfl <;> rfl
  · intro name hn q _
    refine ⟨p, ?_, h0, by linarith⟩
    simp only [numParam]
    rw [param_global rfl]
    simp only [List.mem_cons, List.not_mem_nil, or_false] at hn
    rcases hn with rfl | rfl <;> rfl
  · intro q _
    refine ⟨.flag true, ?_, fun _ => ⟨p, ?_, h0, by linarith⟩⟩
    · rw [param_global rfl]; rfl
    · simp only [numParam]
      rw [param_global rfl]; rfl

/-- docs/setup_examples/biased_circ_level_noise.yaml (as loaded by `Setup.from_yaml`), with the
assignment flag and two-qubit probability that the model also reads. -/
def biasedYaml : SetupDict where
  name := some "Biased circuit-level noise setup"
  description := none
  gateDurations := []
  setup := some [⟨.none,
    [("sq_error_prob", .str "prob"), ("cz_error_prob", .str "prob"),
     ("meas_error_prob", .str "prob"), ("reset_error_prob", .str "prob"),
     ("idle_error_prob", .str "prob"), ("biased_factor", .str "bias"),
     ("biased_pauli", .str "bias_pauli"), ("tq_error_prob", .str "prob"),
     ("assign_error_flag", .flag false)]⟩]

/-- The biased example setup satisfies the conditions for every set of qubits once its three
variables are set. -/
theorem C34_biased_setup_ok (p f : Rat) (h0 : 0 ≤ p) (h1 : p ≤ 1) (hf : 0 ≤ f) (P : String)
    (hP : P ∈ ["X", "Y", "Z"]) (inds : Dict String Nat) :
    ∃ s, (Setup.init biasedYaml).map (fun s =>
        ((s.setVarParam "prob" (.num p)).setVarParam "bias" (.num f)).setVarParam "bias_pauli" (.str P))
      = .ok s ∧ BiasedNoiseOk s inds := by
  refine ⟨_, rfl, ?_⟩
  have hb : ∀ qs, BiasOk (((⟨some "Biased circuit-level noise setup", none, [], [], [("sq_error_prob", .str "prob"), ("cz_error_prob", .str "prob"),
     ("meas_error_prob", .str "prob"), ("reset_error_prob", .str "prob"),
     ("idle_error_prob", .str "prob"), ("biased_factor", .str "bias"),
     ("biased_pauli", .str "bias_pauli"), ("tq_error_prob", .str "prob"),
     ("assign_error_flag", .flag false)], [("prob", some (.num p)), ("bias", some (.num f)), ("bias_pauli", some (.str P))]⟩ : Setup))) qs := by
    intro qs
    refine ⟨⟨P, ?_, hP⟩, f, ?_, hf⟩
    · rw [param_global rfl]; rfl
    · simp only [numParam]
      rw [param_global rfl]; rfl
  refine ⟨?_, ?_, ?_, ?_, fun q _ => hb [q], fun p _ q _ => hb [p, q]⟩
  · intro name hn q _
    refine ⟨p, ?_, h0, h1⟩
    simp only [numParam]
    rw [param_global rfl]
    simp only [List.mem_cons, List.not_mem_nil, or_false] at hn
    rcases hn with rfl | rfl | rfl | rfl | rfl | rfl <;> rfl
  · intro name hn q _ q' _
    refine ⟨p, ?_, h0, h1⟩
    simp only [numParam]
    rw [param_global rfl]
    simp only [List.mem_cons, List.not_mem_nil, or_false] at hn
    rcases hn with rfl | rfl | rfl <;> rfl
  · intro name hn q _
    refine ⟨p, ?_, h0, h1⟩
    simp only [numParam]
    rw [param_global rfl]
    simp only [List.mem_cons, List.not_mem_nil, or_false] at hn
    rcases hn with rfl | rfl <;> rfl
  · intro q _
    refine ⟨.flag false, ?_, fun h => by simp [PVal.truthy] at h⟩
    rw [param_global rfl]; rfl

/-- Witness for C35: the circuit for a CZ between two pairs. -/
example : (circuitNoiseSetup (1/100)).map (fun s =>
      ((circuitNoise s [("D1", 0), ("D2", 1), ("Z1", 2)]).cphase ["D1", "Z1", "D2", "Z1"]
        (MeasState.fresh [])).1.map elems)
    = .ok (.ok [(.CZ, [0, 2], []), (.CZ, [1, 2], []), (.DEPOLARIZE2, [0, 2], [.num (1/100)]),
        (.DEPOLARIZE2, [1, 2], [.num (1/100)])]) := by decide +kernel

/-- Witness for `CoherenceOk`, `DurationsOk`, `AssignOk` (C34, `DecoherenceNoiseModel`). -/
example : ∃ s : Setup, CoherenceOk s [("D1", 0)] ∧ DurationsOk s ∧ AssignOk s [("D1", 0)] := by
  refine ⟨⟨none, none, ["X", "Z", "H", "S", "S_DAG", "CZ", "CNOT", "SWAP", "M", "MX", "MY", "R", "RX",
    "RY"].map fun n => (n, 20), [], [("T1", .num 100), ("T2", .num 150),
    ("assign_error_flag", .flag false)], []⟩, ?_, ?_, ?_⟩
  · intro q _
    refine ⟨100, 150, ?_, ?_, by norm_num, by norm_num, by norm_num⟩ <;>
    · simp only [numParam]
      rw [param_global rfl]; rfl
  · intro name hn
    refine ⟨20, ?_, by norm_num⟩
    simp only [List.mem_cons, List.not_mem_nil, or_false] at hn
    rcases hn with rfl | rfl | rfl | rfl | rfl | rfl | rfl | rfl | rfl | rfl | rfl | rfl | rfl | rfl <;> rfl
  · intro q _
    exact ⟨.flag false, by rw [param_global rfl]; rfl, fun h => by simp [PVal.truthy] at h⟩

/-- **C45**: a setup that gives `biased_pauli` literally (as `biased_prefactors` documents) is
unusable: `"Z"` is registered as a variable parameter, so every noisy operation on at least one
qubit raises until `set_var_param("Z", "Z")` is called. -/
theorem C45_literal_biased_pauli_raises (p f : Rat) (q : String) (i : Nat) (m : MeasState) :
    ∃ s, Setup.init ⟨none, none, [], some [⟨.none, [("sq_error_prob", .num p), ("biased_factor", .num f),
        ("biased_pauli", .str "Z")]⟩]⟩ = .ok s ∧
      s.freeParams = ["Z"] ∧
      ((biasedNoise s [(q, i)]).hadamard [q] m).1 = .error .valueError ∧
      ∃ args, biasedArgs (s.setVarParam "Z" (.str "Z")) "h_error_prob" 1 [q] =
        (biasedPrefactors "Z" f 1).map args := by
  refine ⟨⟨none, none, [], [], [("sq_error_prob", .num p), ("biased_factor", .num f),
        ("biased_pauli", .str "Z")], [("Z", none)]⟩, rfl, rfl, ?_, fun l => l.map fun x => .num (p * x), ?_⟩
  · have hg : getInds [(q, i)] [q] = .ok [i] := by simp [getInds, mapExcept, Dict.getE]
    have : biasedArgs ⟨none, none, [], [], [("sq_error_prob", .num p), ("biased_factor", .num f),
        ("biased_pauli", .str "Z")], [("Z", none)]⟩ "h_error_prob" 1 [q] = .error .valueError := by
      simp only [biasedArgs, numParam]
      rw [param_global rfl, param_global rfl]
      rfl
    simp only [biasedNoise, lift, PyM.ofExcept, sqOp, hg, appendOp]
    rw [mkInstr_one _ _ _ rfl rfl]
    simp only [singles, List.zip_cons_cons, List.zip_nil_right, List.map_cons, List.map_nil, noiseLoop,
      this]
  · simp only [biasedArgs, numParam]
    rw [param_global rfl, param_global rfl, param_global rfl]
    show (match biasedPrefactors "Z" f 1 with
      | Except.error e => Except.error e
      | Except.ok fs => Except.ok (fs.map fun x => Arg.num (p * x))) = _
    cases biasedPrefactors "Z" f 1 <;> rfl

end SurfaceSim.Props
