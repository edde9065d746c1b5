/-
The generators of rounds and logical measurements are merged step by step.
-/
import Verif.Lemmas.MergeRun
import Verif.Lemmas.RoundGrid

namespace SurfaceSim
open Spec NoiseModel Blocks Experiments LayoutLib

/-! ### noise models without TICK -/

section gates
variable {P : Gate → Prop}

theorem appendOp_all {c c' : Circuit} {g : Gate} {ts : List Nat} {args : List Arg} (h : appendOp c g ts args = .ok c')
    (hg : P g) (hc : ∀ i ∈ c, P i.gate) : ∀ i ∈ c', P i.gate := by
  unfold appendOp at h
  split at h
  · simp at h
  · rename_i i hi
    cases h
    have hig : i.gate = g := by
      unfold mkInstr at hi
      split at hi
      · simp at hi
      · split at hi
        · split at hi
          · simp at hi
          · split at hi
            · simp at hi
            · simp at hi; rw [← hi]
        · simp at hi; rw [← hi]
    intro j hj
    rcases mem_foldl_append (L := [i]) (c := c) (i := j) hj with ⟨k, hk, he⟩ | ⟨k, hk, he⟩
    · rw [← he]; exact hc k hk
    · rw [List.mem_singleton] at hk
      subst hk
      rw [← he, hig]; exact hg

theorem noiseLoop_all {noise : Gate} (hg : P noise) {rule : ArgRule}
    {L : List (List String × List Nat)} {c c' : Circuit} (h : noiseLoop noise rule c L = .ok c')
    (hc : ∀ i ∈ c, P i.gate) : ∀ i ∈ c', P i.gate := by
  induction L generalizing c with
  | nil => simp [noiseLoop] at h; subst h; exact hc
  | cons e L ih =>
    obtain ⟨qs, is⟩ := e
    unfold noiseLoop at h
    split at h
    · simp at h
    · split at h
      · simp at h
      · rename_i c1 h1
        exact ih h (appendOp_all h1 hg hc)

theorem sqOp_all {inds : Dict String Nat} {g noise : Gate} (hg : P g) (hn : P noise) {rule : ArgRule}
    {qs : List String} {c : Circuit} (h : sqOp inds g noise rule qs = .ok c) : ∀ i ∈ c, P i.gate := by
  unfold sqOp at h
  split at h
  · simp at h
  · split at h
    · simp at h
    · rename_i c1 h1
      exact noiseLoop_all hn h (appendOp_all h1 hg (by simp))

theorem tqOp_all {inds : Dict String Nat} {g noise : Gate} (hg : P g) (hn : P noise) {rule : ArgRule}
    {qs : List String} {c : Circuit} (h : tqOp inds g noise rule qs = .ok c) : ∀ i ∈ c, P i.gate := by
  unfold tqOp at h
  split at h
  · simp at h
  · split at h
    · simp at h
    · split at h
      · simp at h
      · rename_i c1 h1
        split at h
        · simp at h
        · exact noiseLoop_all hn h (appendOp_all h1 hg (by simp))

theorem noiseOnly_all {inds : Dict String Nat} {noise : Gate} (hn : P noise) {rule : ArgRule}
    {qs : List String} {c : Circuit} (h : noiseOnly inds noise rule qs = .ok c) : ∀ i ∈ c, P i.gate := by
  unfold noiseOnly at h
  split at h
  · simp at h
  · exact noiseLoop_all hn h (by simp)

theorem plainOp_all {inds : Dict String Nat} {g : Gate} (hg : P g)
    {qs : List String} {c : Circuit} (h : plainOp inds g qs = .ok c) : ∀ i ∈ c, P i.gate := by
  unfold plainOp at h
  split at h
  · simp at h
  · exact appendOp_all h hg (by simp)

theorem plainMeasLoop_all {inds : Dict String Nat} {g : Gate} (hg : P g)
    {qs : List String} {c c' : Circuit} {s s' : MeasState} (h : plainMeasLoop inds g c qs s = (.ok c', s'))
    (hc : ∀ i ∈ c, P i.gate) : ∀ i ∈ c', P i.gate := by
  induction qs generalizing c s with
  | nil => simp [plainMeasLoop, pure, PyM.pure] at h; rw [← h.1]; exact hc
  | cons q qs ih =>
    unfold plainMeasLoop at h
    obtain ⟨_, s1, -, h⟩ := PyM.bind_eq_ok h
    obtain ⟨is, s2, -, h⟩ := PyM.bind_eq_ok h
    obtain ⟨c1, s3, h1, h⟩ := PyM.bind_eq_ok h
    simp only [PyM.ofExcept, Prod.mk.injEq] at h1
    exact ih h (appendOp_all h1.1 hg hc)

theorem measLoop_all {st : Setup} {inds : Dict String Nat} {g : Gate} (hg : P g)
    {qs : List (String × Nat)} {c c' : Circuit} {s s' : MeasState} (h : measLoop st inds g c qs s = (.ok c', s'))
    (hc : ∀ i ∈ c, P i.gate) : ∀ i ∈ c', P i.gate := by
  induction qs generalizing c s with
  | nil => simp [measLoop, pure, PyM.pure] at h; rw [← h.1]; exact hc
  | cons q qs ih =>
    unfold measLoop at h
    obtain ⟨_, s1, -, h⟩ := PyM.bind_eq_ok h
    obtain ⟨fl, s2, -, h⟩ := PyM.bind_eq_ok h
    simp only at h
    split at h <;>
    · obtain ⟨args, s2, -, h⟩ := PyM.bind_eq_ok h
      obtain ⟨c1, s3, h1, h⟩ := PyM.bind_eq_ok h
      simp only [PyM.ofExcept, Prod.mk.injEq] at h1
      exact ih h (appendOp_all h1.1 hg hc)

theorem measOp_all {st : Setup} {inds : Dict String Nat} {g noise : Gate} (hg : P g)
    (hn : P noise) {qs : List String} {c : Circuit} {s s' : MeasState}
    (h : measOp st inds g noise qs s = (.ok c, s')) : ∀ i ∈ c, P i.gate := by
  unfold measOp at h
  obtain ⟨is, s1, -, h⟩ := PyM.bind_eq_ok h
  obtain ⟨c1, s2, h1, h⟩ := PyM.bind_eq_ok h
  simp only [PyM.ofExcept, Prod.mk.injEq] at h1
  exact measLoop_all hg h (noiseLoop_all hn h1.1 (by simp))

theorem incomingNoiseOp_all {st : Setup} {inds : Dict String Nat} (hx : P .X_ERROR) (hz : P .Z_ERROR)
    {qs : List String} {c : Circuit} (h : incomingNoiseOp st inds qs = .ok c) : ∀ i ∈ c, P i.gate := by
  unfold incomingNoiseOp at h
  split at h
  · simp at h
  · split at h
    · simp at h
    · rename_i c1 h1
      exact noiseLoop_all hz h (noiseLoop_all hx h1 (by simp))

theorem lift_all {f : List String → Except Err Circuit} (hf : ∀ qs c, f qs = .ok c → ∀ i ∈ c, P i.gate)
    (qs : List String) (s : MeasState) (c : Circuit) (s' : MeasState) (h : lift f qs s = (.ok c, s')) :
    ∀ i ∈ c, P i.gate := by
  simp only [lift, PyM.ofExcept, Prod.mk.injEq] at h
  exact hf _ _ h.1

theorem noIncoming_all (qs : List String) (s : MeasState) (c : Circuit) (s' : MeasState)
    (h : noIncoming qs s = (.ok c, s')) : ∀ i ∈ c, P i.gate := by
  simp only [noIncoming, pure, PyM.pure, Prod.mk.injEq, Except.ok.injEq] at h
  rw [← h.1]; simp

end gates

theorem noTicks_noiseless (inds : Dict String Nat) : NoTicks (noiseless inds) where
  incoming := noIncoming_all (P := (· ≠ .TICK))
  hadamard := lift_all (P := (· ≠ .TICK)) fun _ _ h => plainOp_all (P := (· ≠ .TICK)) (by decide) h
  cphase := lift_all (P := (· ≠ .TICK)) fun _ _ h => plainOp_all (P := (· ≠ .TICK)) (by decide) h
  measure _ _ _ _ h := plainMeasLoop_all (P := (· ≠ .TICK)) (by simp) h (by simp)
  reset := lift_all (P := (· ≠ .TICK)) fun _ _ h => plainOp_all (P := (· ≠ .TICK)) (by decide) h
  idle := lift_all (P := (· ≠ .TICK)) fun _ _ h => plainOp_all (P := (· ≠ .TICK)) (by decide) h
  xGate := lift_all (P := (· ≠ .TICK)) fun _ _ h => plainOp_all (P := (· ≠ .TICK)) (by decide) h

theorem noTicks_circuitNoise (st : Setup) (inds : Dict String Nat) : NoTicks (circuitNoise st inds) where
  incoming := noIncoming_all (P := (· ≠ .TICK))
  hadamard := lift_all (P := (· ≠ .TICK)) fun _ _ h => sqOp_all (P := (· ≠ .TICK)) (by decide) (by decide) h
  cphase := lift_all (P := (· ≠ .TICK)) fun _ _ h => tqOp_all (P := (· ≠ .TICK)) (by decide) (by decide) h
  measure _ _ _ _ h := measOp_all (P := (· ≠ .TICK)) (by decide) (by decide) h
  reset := lift_all (P := (· ≠ .TICK)) fun _ _ h => sqOp_all (P := (· ≠ .TICK)) (by decide) (by decide) h
  idle := lift_all (P := (· ≠ .TICK)) fun _ _ h => noiseOnly_all (P := (· ≠ .TICK)) (by decide) h
  xGate := lift_all (P := (· ≠ .TICK)) fun _ _ h => sqOp_all (P := (· ≠ .TICK)) (by decide) (by decide) h

theorem noTicks_biasedNoise (st : Setup) (inds : Dict String Nat) : NoTicks (biasedNoise st inds) where
  incoming := noIncoming_all (P := (· ≠ .TICK))
  hadamard := lift_all (P := (· ≠ .TICK)) fun _ _ h => sqOp_all (P := (· ≠ .TICK)) (by decide) (by decide) h
  cphase := lift_all (P := (· ≠ .TICK)) fun _ _ h => tqOp_all (P := (· ≠ .TICK)) (by decide) (by decide) h
  measure _ _ _ _ h := measOp_all (P := (· ≠ .TICK)) (by decide) (by decide) h
  reset := lift_all (P := (· ≠ .TICK)) fun _ _ h => sqOp_all (P := (· ≠ .TICK)) (by decide) (by decide) h
  idle := lift_all (P := (· ≠ .TICK)) fun _ _ h => noiseOnly_all (P := (· ≠ .TICK)) (by decide) h
  xGate := lift_all (P := (· ≠ .TICK)) fun _ _ h => sqOp_all (P := (· ≠ .TICK)) (by decide) (by decide) h

theorem noTicks_incoming (st : Setup) (inds : Dict String Nat) : NoTicks (incoming st inds) where
  incoming := lift_all (P := (· ≠ .TICK)) fun _ _ h => incomingNoiseOp_all (P := (· ≠ .TICK)) (by decide) (by decide) h
  hadamard := (noTicks_noiseless inds).hadamard
  cphase := (noTicks_noiseless inds).cphase
  measure := (noTicks_noiseless inds).measure
  reset := (noTicks_noiseless inds).reset
  idle := (noTicks_noiseless inds).idle
  xGate := (noTicks_noiseless inds).xGate

theorem noTicks_phenomenological (st : Setup) (inds : Dict String Nat) : NoTicks (phenomenological st inds) where
  incoming := (noTicks_incoming st inds).incoming
  hadamard := (noTicks_noiseless inds).hadamard
  cphase := (noTicks_noiseless inds).cphase
  measure _ _ _ _ h := measOp_all (P := (· ≠ .TICK)) (by decide) (by decide) h
  reset := (noTicks_noiseless inds).reset
  idle := (noTicks_noiseless inds).idle
  xGate := (noTicks_noiseless inds).xGate

/-! ### blocks without TICK -/

theorem mem_concat_gate {a b : Circuit} {i : Instr} (h : i ∈ Circuit.concat a b) :
    (∃ j ∈ a, j.gate = i.gate) ∨ ∃ j ∈ b, j.gate = i.gate := by
  cases b with
  | nil => exact .inl ⟨i, h, rfl⟩
  | cons k r =>
    unfold Circuit.concat at h
    rcases List.mem_append.1 h with h | h
    · rcases mem_foldl_append (L := [k]) (c := a) (i := i) h with h | ⟨j, hj, he⟩
      · exact .inl h
      · exact .inr ⟨j, by simp at hj; simp [hj], he⟩
    · exact .inr ⟨i, by simp [h], rfl⟩

theorem NoTick.concat {a b : Circuit} (ha : ∀ i ∈ a, i.gate ≠ .TICK) (hb : ∀ i ∈ b, i.gate ≠ .TICK) :
    ∀ i ∈ Circuit.concat a b, i.gate ≠ .TICK := by
  intro i hi
  rcases mem_concat_gate hi with ⟨j, hj, he⟩ | ⟨j, hj, he⟩
  · rw [← he]; exact ha j hj
  · rw [← he]; exact hb j hj

theorem NoTick.plus {a b : Call1} (ha : NoTick a) (hb : NoTick b) : NoTick (plus a b) := by
  intro s c s' h
  unfold Blocks.plus at h
  obtain ⟨x, s1, h1, h⟩ := PyM.bind_eq_ok h
  obtain ⟨y, s2, h2, h⟩ := PyM.bind_eq_ok h
  simp only [pure, PyM.pure, Prod.mk.injEq, Except.ok.injEq] at h
  rw [← h.1]
  exact NoTick.concat (ha _ _ _ h1) (hb _ _ _ h2)

section
variable {nm : NoiseModel} (nt : NoTicks nm)
include nt

theorem Spec.NoTicks.rotLayer (o : SetOrder) (qs rot : List String) : NoTick (rotLayer o nm qs rot) :=
  NoTick.plus (nt.hadamard _) (nt.idle _)

theorem Spec.NoTicks.cssRot (o : SetOrder) (l : Layout) (qs anc xs : List String) : NoTick (cssRot o nm l qs anc xs) := by
  intro s c s' h
  unfold Blocks.cssRot at h
  obtain ⟨x, s1, -, h⟩ := PyM.bind_eq_ok h
  exact nt.rotLayer o qs x _ _ _ h

theorem Spec.NoTicks.czLoop (l : Layout) (k : Nat) (sts : List String) (c : Circuit) (acc : List String)
    (hc : ∀ i ∈ c, i.gate ≠ .TICK) {s s' : MeasState} {r : Circuit × List String}
    (h : czLoop nm l k sts c acc s = (.ok r, s')) : ∀ i ∈ r.1, i.gate ≠ .TICK := by
  induction sts generalizing c acc s with
  | nil =>
    simp only [Blocks.czLoop, pure, PyM.pure, Prod.mk.injEq, Except.ok.injEq] at h
    rw [← h.1]; exact hc
  | cons st sts ih =>
    unfold Blocks.czLoop at h
    obtain ⟨stabs, s1, -, h⟩ := PyM.bind_eq_ok h
    obtain ⟨dir, s2, -, h⟩ := PyM.bind_eq_ok h
    simp only at h
    obtain ⟨cz, s3, h3, h⟩ := PyM.bind_eq_ok h
    exact ih _ _ (NoTick.concat hc (nt.cphase _ _ _ _ h3)) h

theorem Spec.NoTicks.czLayer (o : SetOrder) (l : Layout) (qs : List String) (k : Nat) : NoTick (czLayer o nm l qs k) := by
  intro s c s' h
  unfold Blocks.czLayer at h
  obtain ⟨r, s1, h1, h⟩ := PyM.bind_eq_ok h
  obtain ⟨i, s2, h2, h⟩ := PyM.bind_eq_ok h
  simp only [pure, PyM.pure, Prod.mk.injEq, Except.ok.injEq] at h
  rw [← h.1]
  exact NoTick.concat (nt.czLoop l k _ _ _ (by simp) h1) (nt.idle _ _ _ _ h2)

end

/-! ### steps of the generators -/

/-- The operations act on qubits in `S`. -/
def OpsIn (S : String → Prop) (L : List (Op String)) : Prop :=
  ∀ op ∈ L, op.acts = true ∧ op.qubits ≠ [] ∧ ∀ q ∈ op.qubits, S q

theorem OpsIn.append {S : String → Prop} {L M : List (Op String)} (h1 : OpsIn S L) (h2 : OpsIn S M) :
    OpsIn S (L ++ M) := by
  intro op ho
  rcases List.mem_append.1 ho with ho | ho
  · exact h1 op ho
  · exact h2 op ho

theorem OpsIn.nil (S : String → Prop) : OpsIn S [] := by intro op ho; simp at ho

theorem OpsIn.h {S : String → Prop} {l : List String} (hl : ∀ q ∈ l, S q) : OpsIn S (l.map Op.h) := by
  intro op ho
  obtain ⟨q, hq, rfl⟩ := List.mem_map.1 ho
  simp [Op.acts, Op.qubits, hl q hq]

theorem OpsIn.r {S : String → Prop} {l : List String} (hl : ∀ q ∈ l, S q) : OpsIn S (l.map Op.r) := by
  intro op ho
  obtain ⟨q, hq, rfl⟩ := List.mem_map.1 ho
  simp [Op.acts, Op.qubits, hl q hq]

theorem OpsIn.m {S : String → Prop} {l : List String} (hl : ∀ q ∈ l, S q) : OpsIn S (l.map Op.m) := by
  intro op ho
  obtain ⟨q, hq, rfl⟩ := List.mem_map.1 ho
  simp [Op.acts, Op.qubits, hl q hq]

theorem OpsIn.cz {S : String → Prop} {l : List (String × String)} (hl : ∀ p ∈ l, S p.1 ∧ S p.2) :
    OpsIn S (l.map fun p => Op.cz p.1 p.2) := by
  intro op ho
  obtain ⟨q, hq, rfl⟩ := List.mem_map.1 ho
  simp [Op.acts, Op.qubits, hl q hq]

/-- The steps of a CSS round. -/
def roundKinds (reset : Bool) (sig : List Gate) : List StepKind :=
  [.quiet, .tick] ++ (if reset then [.quiet, .tick] else []) ++
    [.quiet, .tick, .quiet, .tick, .quiet, .tick, .quiet, .tick, .quiet, .tick, .quiet, .tick, .quiet, .tick,
      .quiet, .tick, .meas sig, .tick]

theorem oneMeas_round (reset : Bool) (sig : List Gate) : OneMeas (roundKinds reset sig) := by
  refine ⟨[.quiet, .tick] ++ (if reset then [.quiet, .tick] else []) ++
    [.quiet, .tick, .quiet, .tick, .quiet, .tick, .quiet, .tick, .quiet, .tick, .quiet, .tick, .quiet, .tick,
      .quiet, .tick], [.tick], sig, ?_, ?_, ?_⟩
  · unfold roundKinds
    cases reset <;> rfl
  · cases reset <;> simp
  · simp

/-- The steps of a logical measurement. -/
def measKinds (rot : Bool) (sig : List Gate) : List StepKind :=
  [.quiet, .tick] ++ (if rot then [.quiet, .tick] else []) ++ [.meas sig, .tick]

theorem oneMeas_meas (rot : Bool) (sig : List Gate) : OneMeas (measKinds rot sig) := by
  refine ⟨[.quiet, .tick] ++ (if rot then [.quiet, .tick] else []), [.tick], sig, ?_, ?_, ?_⟩
  · unfold measKinds
    cases rot <;> rfl
  · cases rot <;> simp
  · simp

theorem Item.isTick (inds : Dict String Nat) : Item inds Blocks.tick [] .tick := ⟨rfl, rfl⟩

variable {l : Layout} {L : List (String × Site × Kind)} {dirs : List (Site × String)} {nm : NoiseModel}

theorem css_genOk (hn : Faithful nm) (nt : NoTicks nm) {sig : List Gate}
    (hs1 : (sig.filter Gate.isMeas).length ≤ 1) (hs : ∀ qs rs : List String, qs ≠ [] → rs ≠ [] →
    ∀ s c s', Blocks.plus (nm.measure qs) (nm.idle rs) s = (.ok c, s') → c.map Instr.gate = sig)
    (hg : OnGrid l L dirs) (hu : Usable nm.inds L) (o : SetOrder) {x0 x1 x2 x3 z0 z1 z2 z3 : String}
    (ho : l.interactionOrder = order4 x0 x1 x2 x3 z0 z1 z2 z3) (reset : Bool)
    (hda : dataOf L ≠ []) (han : ancOf L ≠ []) :
    ∃ Ls, GenOk nm.inds (cssIter l.code o nm l reset) Ls (roundKinds reset sig) ∧
      OpsIn (fun q => ∃ s k, (q, s, k) ∈ L) Ls.flatten ∧ measured Ls.flatten = ancOf L := by
  have hd : dataQubits l = .ok (dataOf L) := hg.getQubits_data
  have ha : ancQubits l = .ok (ancOf L) := hg.getQubits_anc
  have hx : stabQubits l "x_type" = .ok (xOf L) := hg.getQubits_x
  have kd : ∀ q ∈ dataOf L, q ∈ nm.inds.keys := hu.labels (fun k => k = .data)
  have ka : ∀ q ∈ ancOf L, q ∈ nm.inds.keys := hu.labels (fun k => k ≠ .data)
  have mh : ∀ S : List String, measured (S.map Op.h) = [] := fun S => measured_map_none _ _ (by simp)
  have mr : ∀ S : List String, measured (S.map Op.r) = [] := fun S => measured_map_none _ _ (by simp)
  have mz : ∀ S : List (String × String), measured (S.map fun p => Op.cz p.1 p.2) = [] :=
    fun S => measured_map_pair_none _ _ (by simp)
  have hH : Item nm.inds (plus (nm.hadamard (dataOf L)) (nm.idle (ancOf L))) ((dataOf L).map Op.h) .quiet :=
    ⟨((does_h hn _ kd).bind_concat (does_idle hn _ ka)).congr (by simp),
      NoTick.plus (nt.hadamard _) (nt.idle _), mh _⟩
  have hM : Item nm.inds (plus (nm.measure (ancOf L)) (nm.idle (dataOf L))) ((ancOf L).map Op.m) (.meas sig) :=
    ⟨((does_m hn _ ka).bind_concat (does_idle hn _ kd)).congr (by simp),
      NoTick.plus (nt.measure _) (nt.idle _), hs1, hs _ _ han hda⟩
  have hR : Item nm.inds (cssRot o nm l (setOf (dataOf L ++ ancOf L)) (ancOf L) (xOf L)) _ .quiet :=
    ⟨does_cssRot hn hg hu o ho, nt.cssRot _ _ _ _ _, mh _⟩
  have h0 : Item nm.inds (czLayer o nm l (setOf (dataOf L ++ ancOf L)) 0) _ .quiet :=
    ⟨does_czLayer4 hn hg hu o ho 0 (by decide), nt.czLayer _ _ _ _, mz _⟩
  have h1 : Item nm.inds (czLayer o nm l (setOf (dataOf L ++ ancOf L)) 1) _ .quiet :=
    ⟨does_czLayer4 hn hg hu o ho 1 (by decide), nt.czLayer _ _ _ _, mz _⟩
  have h2 : Item nm.inds (czLayer o nm l (setOf (dataOf L ++ ancOf L)) 2) _ .quiet :=
    ⟨does_czLayer4 hn hg hu o ho 2 (by decide), nt.czLayer _ _ _ _, mz _⟩
  have h3 : Item nm.inds (czLayer o nm l (setOf (dataOf L ++ ancOf L)) 3) _ .quiet :=
    ⟨does_czLayer4 hn hg hu o ho 3 (by decide), nt.czLayer _ _ _ _, mz _⟩
  have t := Item.isTick nm.inds
  have hall : GenOk nm.inds (roundHead nm (dataOf L) (ancOf L) reset)
      ([[], []] ++ if reset then [(ancOf L).map Op.r, []] else [])
      ([.quiet, .tick] ++ if reset then [.quiet, .tick] else []) := by
    have hi : Item nm.inds (nm.incomingNoise (dataOf L)) [] .quiet := ⟨does_incoming hn _ kd, nt.incoming _, rfl⟩
    cases reset
    · exact .cons hi (.cons t .nil)
    · refine .cons hi (.cons t (.cons ?_ (.cons t .nil)))
      exact ⟨((does_r hn _ ka).bind_concat (does_idle hn _ kd)).congr (by simp),
        NoTick.plus (nt.reset _) (nt.idle _), mr _⟩
  unfold cssIter
  rw [if_neg (by simp), hd, ha, hx]
  simp only [withE]
  refine ⟨_, GenOk.append hall (.cons hR (.cons t (.cons h0 (.cons t (.cons hH (.cons t
    (.cons h1 (.cons t (.cons h2 (.cons t (.cons hH (.cons t (.cons h3 (.cons t (.cons hR (.cons t
    (.cons hM (.cons t .nil)))))))))))))))))), ?_, ?_⟩
  · have qd := (at_data hg).sub
    have qa := (at_anc hg).sub
    have qr : ∀ q ∈ o.ord (cssRotSet l L x0 x3), ∃ s k, (q, s, k) ∈ L :=
      fun q hq => cssRotSet_known hg ((mem_ord o).1 hq)
    have qz : ∀ a b, ∀ p ∈ czPairs l L a b, (∃ s k, (p.1, s, k) ∈ L) ∧ ∃ s k, (p.2, s, k) ∈ L := by
      rintro a b ⟨p, p'⟩ hp
      unfold czPairs at hp
      rcases List.mem_append.1 hp with hp | hp
      · obtain ⟨-, s, k, s', k', sh, h1, h2, -⟩ := hg.mem_pairs.1 hp
        exact ⟨⟨s, k, h1⟩, ⟨s', k', h2⟩⟩
      · obtain ⟨-, s, k, s', k', sh, h1, h2, -⟩ := hg.mem_pairs.1 hp
        exact ⟨⟨s, k, h1⟩, ⟨s', k', h2⟩⟩
    simp only [List.flatten_append, List.flatten_cons, List.flatten_nil, List.append_nil, List.nil_append]
    refine OpsIn.append ?_ (OpsIn.append (.h qr) (OpsIn.append (.cz (qz _ _)) (OpsIn.append (.h qd)
      (OpsIn.append (.cz (qz _ _)) (OpsIn.append (.cz (qz _ _)) (OpsIn.append (.h qd)
      (OpsIn.append (.cz (qz _ _)) (OpsIn.append (.h qr) (.m qa)))))))))
    cases reset
    · exact OpsIn.nil _
    · simp only [if_true, List.flatten_cons, List.flatten_nil, List.append_nil]
      exact .r qa
  · simp only [List.flatten_append, List.flatten_cons, List.flatten_nil, List.append_nil, List.nil_append, measured_append,
      mh, mz, measured_m]
    cases reset <;> simp [mr]

theorem logMeas_genOk (hn : Faithful nm) (nt : NoTicks nm) {sig : List Gate}
    (hs1 : (sig.filter Gate.isMeas).length ≤ 1) (hs : ∀ qs rs : List String, qs ≠ [] → rs ≠ [] →
    ∀ s c s', Blocks.plus (nm.measure qs) (nm.idle rs) s = (.ok c, s') → c.map Instr.gate = sig)
    (hg : OnGrid l L dirs) (hu : Usable nm.inds L) (rot : Bool) (hda : dataOf L ≠ []) (han : ancOf L ≠ []) :
    ∃ Ls, GenOk nm.inds (logMeasIter nm l rot) Ls (measKinds rot sig) ∧
      Ls.flatten = (if rot then (dataOf L).map Op.h else []) ++ (dataOf L).map Op.m := by
  have hd : dataQubits l = .ok (dataOf L) := hg.getQubits_data
  have ha : ancQubits l = .ok (ancOf L) := hg.getQubits_anc
  have kd : ∀ q ∈ dataOf L, q ∈ nm.inds.keys := hu.labels (fun k => k = .data)
  have ka : ∀ q ∈ ancOf L, q ∈ nm.inds.keys := hu.labels (fun k => k ≠ .data)
  have t := Item.isTick nm.inds
  have hi : Item nm.inds (nm.incomingNoise (dataOf L)) [] .quiet := ⟨does_incoming hn _ kd, nt.incoming _, rfl⟩
  have hM : Item nm.inds (plus (nm.measure (dataOf L)) (nm.idle (ancOf L))) ((dataOf L).map Op.m) (.meas sig) :=
    ⟨((does_m hn _ kd).bind_concat (does_idle hn _ ka)).congr (by simp),
      NoTick.plus (nt.measure _) (nt.idle _), hs1, hs _ _ hda han⟩
  have hH : Item nm.inds (plus (nm.hadamard (dataOf L)) (nm.idle (ancOf L))) ((dataOf L).map Op.h) .quiet :=
    ⟨((does_h hn _ kd).bind_concat (does_idle hn _ ka)).congr (by simp),
      NoTick.plus (nt.hadamard _) (nt.idle _), measured_map_none _ _ (by simp)⟩
  unfold logMeasIter
  rw [hd, ha]
  simp only [withE]
  cases rot
  · refine ⟨_, .cons hi (.cons t (.cons hM (.cons t .nil))), by simp⟩
  · refine ⟨_, .cons hi (.cons t (.cons hH (.cons t (.cons hM (.cons t .nil))))), by simp⟩

end SurfaceSim
