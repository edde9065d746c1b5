/-
Merged logical measurements: which observables they declare.
-/
import Verif.Spec.Merge
import Verif.Lemmas.CircuitOps
import Verif.Lemmas.NoiseElems
import Verif.Lemmas.Does

namespace SurfaceSim
open Spec Blocks Experiments CircuitOps

theorem declared_append (a b : Circuit) : declared (a ++ b) = declared a ++ declared b := by
  simp [declared, ops_append]

theorem declared_instr (i : Instr) (h : i.gate ≠ .OBSERVABLE_INCLUDE) : declared [i] = [] := by
  obtain ⟨g, t, a⟩ := i
  unfold declared ops instrOps
  cases g <;> simp at h ⊢

theorem declared_nil_iff (c : Circuit) : declared c = [] ↔ ∀ i ∈ c, i.gate ≠ .OBSERVABLE_INCLUDE := by
  induction c with
  | nil => simp [declared]
  | cons i c ih =>
    have : declared (i :: c) = declared [i] ++ declared c := declared_append [i] c
    rw [this, List.append_eq_nil_iff, ih]
    constructor
    · rintro ⟨h1, h2⟩ j hj
      rcases List.mem_cons.1 hj with rfl | hj
      · intro hg
        simp [declared, ops, instrOps, hg] at h1
      · exact h2 j hj
    · intro h
      exact ⟨declared_instr i (h i (by simp)), fun j hj => h j (by simp [hj])⟩

theorem declared_circuit_append (c : Circuit) (i : Instr) :
    declared (Circuit.append c i) = declared c ++ declared [i] := by
  unfold Circuit.append
  split
  · rename_i h
    rw [List.getLast?_eq_none_iff] at h
    subst h; rfl
  · rename_i l h
    split
    · rename_i hf
      obtain ⟨h1, h2, h3⟩ := hf
      have hi : i.gate ≠ .OBSERVABLE_INCLUDE := by intro hg; rw [hg] at h3; simp [Gate.notFusable] at h3
      have hc : c = c.dropLast ++ [l] := by
        have hne : c ≠ [] := by rintro rfl; simp at h
        have := List.dropLast_append_getLast hne
        rw [List.getLast?_eq_some_getLast hne] at h
        simp at h
        rw [h] at this; exact this.symm
      conv_rhs => rw [hc]
      rw [declared_append, declared_append, declared_instr _ (by rw [h1]; exact hi),
        declared_instr l (by rw [h1]; exact hi), declared_instr i hi]
      simp
    · exact declared_append c [i]

theorem declared_concat (a b : Circuit) : declared (Circuit.concat a b) = declared a ++ declared b := by
  cases b with
  | nil => simp [Circuit.concat, declared]
  | cons i r =>
    unfold Circuit.concat
    rw [declared_append, declared_circuit_append, List.append_assoc, ← declared_append]
    rfl

theorem declared_foldl_append (L : List Instr) (c : Circuit) :
    declared (L.foldl Circuit.append c) = declared c ++ declared L := by
  induction L generalizing c with
  | nil => simp [declared]
  | cons i L ih =>
    rw [List.foldl_cons, ih, declared_circuit_append, List.append_assoc, ← declared_append]
    rfl

theorem mergeTickBlocks_none {bs : List Circuit} {m : Circuit} (h : mergeTickBlocks bs = .ok m)
    (hb : ∀ b ∈ bs, declared b = []) : declared m = [] := by
  cases bs with
  | nil => simp [mergeTickBlocks] at h
  | cons b0 bs =>
    have hlen : ∀ b ∈ bs, b.length = b0.length := by
      by_contra hc
      push Not at hc
      have : (bs.any fun b => decide (b.length ≠ b0.length)) = true := by
        rw [List.any_eq_true]
        obtain ⟨b, hb1, hb2⟩ := hc
        exact ⟨b, hb1, by simpa using hb2⟩
      simp only [mergeTickBlocks] at h
      rw [this] at h
      simp at h
    rw [mergeTickBlocks_eq b0 bs hlen] at h
    cases h
    rw [declared_foldl_append]
    have : declared (transposed ((groupBlocks (b0 :: bs) []).map Prod.snd).flatten b0.length) = [] := by
      rw [declared_nil_iff]
      intro i hi
      unfold transposed at hi
      rw [List.mem_flatMap] at hi
      obtain ⟨t, -, hi⟩ := hi
      rw [List.mem_filterMap] at hi
      obtain ⟨b, hbm, hbi⟩ := hi
      have hbm' : b ∈ b0 :: bs := (groups_perm (b0 :: bs)).mem_iff.1 hbm
      exact (declared_nil_iff b).1 (hb b hbm') i (List.mem_of_getElem? hbi)
    rw [this]; rfl

theorem nextAll_none {gens : List Gen} (hg : ∀ g ∈ gens, DeclaresNone g) {s s' : MeasState}
    {r : List Circuit × List Gen} (h : nextAll gens s = (.ok (some r), s')) :
    (∀ c ∈ r.1, declared c = []) ∧ ∀ g ∈ r.2, DeclaresNone g := by
  induction gens generalizing s s' r with
  | nil =>
    simp only [nextAll, pure, PyM.pure, Prod.mk.injEq, Except.ok.injEq, Option.some.injEq] at h
    obtain ⟨rfl, -⟩ := h
    simp
  | cons g gs ih =>
    cases g with
    | nil => simp [nextAll, pure, PyM.pure] at h
    | cons b g =>
      unfold nextAll at h
      obtain ⟨c, s1, h1, h2⟩ := PyM.bind_eq_ok h
      obtain ⟨o, s2, h3, h4⟩ := PyM.bind_eq_ok h2
      cases o with
      | none => simp [pure, PyM.pure] at h4
      | some r' =>
        simp only [pure, PyM.pure, Prod.mk.injEq, Except.ok.injEq, Option.some.injEq] at h4
        obtain ⟨rfl, -⟩ := h4
        obtain ⟨i1, i2⟩ := ih (fun g' hg' => hg g' (by simp [hg'])) h3
        have hbg := hg (b :: g) (by simp)
        refine ⟨fun c' hc' => ?_, fun g' hg' => ?_⟩
        · rcases List.mem_cons.1 hc' with rfl | hc'
          · exact hbg b (by simp) _ _ _ h1
          · exact i1 c' hc'
        · rcases List.mem_cons.1 hg' with rfl | hg'
          · exact fun b' hb' => hbg b' (by simp [hb'])
          · exact i2 g' hg'

theorem mergeStep_none {circuit c : Circuit} {bs : List Circuit} (h : mergeStep circuit bs = .ok c)
    (hb : ∀ b ∈ bs, declared b = []) : declared c = declared circuit := by
  unfold mergeStep at h
  cases hm : mergeTickBlocks bs with
  | error e => rw [hm] at h; simp at h
  | ok m =>
    have hd := mergeTickBlocks_none hm hb
    rw [hm] at h
    cases m with
    | nil => simp at h; rw [h]
    | cons i m =>
      simp only at h
      split at h
      · cases h
        rw [declared_circuit_append, declared_instr i]
        · simp
        · exact (declared_nil_iff _).1 hd i (by simp)
      · cases h
        rw [declared_concat, hd, List.append_nil]

theorem mergeLoop_none (fuel : Nat) {gens : List Gen} (hg : ∀ g ∈ gens, DeclaresNone g) {circuit c : Circuit}
    {s s' : MeasState} (h : mergeLoop fuel gens circuit s = (.ok c, s')) : declared c = declared circuit := by
  induction fuel generalizing gens circuit s with
  | zero =>
    simp only [mergeLoop, pure, PyM.pure, Prod.mk.injEq, Except.ok.injEq] at h
    rw [h.1]
  | succ n ih =>
    unfold mergeLoop at h
    obtain ⟨o, s1, h1, h2⟩ := PyM.bind_eq_ok h
    cases o with
    | none =>
      simp only [pure, PyM.pure, Prod.mk.injEq, Except.ok.injEq] at h2
      rw [h2.1]
    | some r =>
      obtain ⟨c1, s2, h3, h4⟩ := PyM.bind_eq_ok h2
      obtain ⟨i1, i2⟩ := nextAll_none hg h1
      rw [ih i2 h4]
      simp only [PyM.ofExcept, Prod.mk.injEq] at h3
      exact mergeStep_none h3.1 i1

theorem mergeGens_none {gens : List Gen} (hg : ∀ g ∈ gens, DeclaresNone g) {c : Circuit}
    {s s' : MeasState} (h : mergeGens gens s = (.ok c, s')) : declared c = [] := by
  cases gens with
  | nil =>
    simp only [mergeGens, pure, PyM.pure, Prod.mk.injEq, Except.ok.injEq] at h
    rw [← h.1]; rfl
  | cons g gs => exact mergeLoop_none _ hg h

theorem emit_none {cfg : Detectors.Config} {getRec : String → Int → Except Err Int} {sel : List String} {time : Rat}
    {dets : List (Fin cfg.n × List Detectors.MeasTerm)} {c : Circuit} (h : Detectors.emit getRec sel time dets = .ok c) :
    declared c = [] := by
  induction dets generalizing c with
  | nil => simp [Detectors.emit] at h; rw [h]; rfl
  | cons d dets ih =>
    obtain ⟨i, targets⟩ := d
    unfold Detectors.emit at h
    simp only at h
    split at h
    · simp at h
    · split at h
      · simp at h
      · split at h
        · simp at h
        · rename_i instr hi
          split at h
          · simp at h
          · rename_i c' hc'
            cases h
            have : declared (instr :: c') = declared [instr] ++ declared c' := declared_append [instr] c'
            rw [this, ih hc', declared_instr]
            · rfl
            · simp only [mkInstr, Gate.argsOk, Gate.isTwoQubit] at hi
              simp at hi
              rw [← hi]; simp

theorem buildFromData_none {cfg : Detectors.Config} {getRec : String → Int → Except Err Int}
    {support : Dict String (List String)} {reset : Bool} {rec' : List String} {ancs : Option (List String)}
    {s s' : Detectors.State cfg} {c : Circuit}
    (h : Detectors.buildFromData getRec support reset rec' ancs s = (.ok c, s')) : declared c = [] := by
  unfold Detectors.buildFromData at h
  split at h
  · simp at h
  · split at h
    · simp at h
    · simp only at h
      split at h
      · simp at h
      · split at h
        · simp at h
        · split at h
          · simp at h
          · rename_i hc
            simp at h
            rw [← h.1]
            exact emit_none hc

/-- Measurement targets of the qubits, in the state `s`. -/
def recsOf (s : MeasState) (qs : List String) : Except Err (List Int) := mapExcept qs fun q => s.measTarget q (-1)

theorem observable_ok {k : Nat} {qs : List String} {s s' : MeasState} {i : Instr}
    (h : observable k qs s = (.ok i, s')) :
    s' = s ∧ ∃ recs, recsOf s qs = .ok recs ∧ declared [i] = [((k : Rat), recs)] := by
  unfold observable at h
  obtain ⟨s0, s1, h1, h2⟩ := PyM.bind_eq_ok h
  simp only [PyM.get, Prod.mk.injEq, Except.ok.injEq] at h1
  obtain ⟨rfl, rfl⟩ := h1
  obtain ⟨recs, s1, h3, h4⟩ := PyM.bind_eq_ok h2
  simp only [PyM.ofExcept, Prod.mk.injEq] at h3 h4
  obtain ⟨h3, rfl⟩ := h3
  obtain ⟨h4, rfl⟩ := h4
  refine ⟨rfl, recs, h3, ?_⟩
  simp [mkInstr, Gate.argsOk, Gate.isTwoQubit] at h4
  rw [← h4]
  simp [declared, ops, instrOps, obsIndex, Instr.recs, Function.comp_def]

/-- One declared observable belongs to a logical operator. -/
def Declares (s : MeasState) (e : Nat × Nat × Layout × List String) (o : Rat × List Int) : Prop :=
  o.1 = ((e.1 * numLogical e.2.2.1 + e.2.1 : Nat) : Rat) ∧ recsOf s e.2.2.2 = .ok o.2

theorem layoutObservables_ok {l : Layout} {k : Nat} {r : Bool} {labs : List (String × Nat)} {circuit c : Circuit}
    {s s' : MeasState} (h : layoutObservables k l.logQubits.length (if r then l.logX else l.logZ) labs circuit s = (.ok c, s')) :
    s' = s ∧ ∃ D, declared c = declared circuit ++ D ∧ List.Forall₂ (Declares s)
      (labs.map fun q => (k, q.2, l, (((if r then l.logX else l.logZ).get? q.1).getD []))) D := by
  induction labs generalizing circuit s with
  | nil =>
    simp only [layoutObservables, pure, PyM.pure, Prod.mk.injEq, Except.ok.injEq] at h
    obtain ⟨rfl, rfl⟩ := h
    exact ⟨rfl, [], by simp, .nil⟩
  | cons q labs ih =>
    obtain ⟨lab, i⟩ := q
    unfold layoutObservables at h
    obtain ⟨qs, s1, h1, h2⟩ := PyM.bind_eq_ok h
    obtain ⟨obs, s2, h3, h4⟩ := PyM.bind_eq_ok h2
    simp only [PyM.ofExcept, Prod.mk.injEq] at h1
    obtain ⟨h1, rfl⟩ := h1
    obtain ⟨rfl, recs, h5, h6⟩ := observable_ok h3
    obtain ⟨rfl, D, h7, h8⟩ := ih h4
    refine ⟨rfl, (((k * l.logQubits.length + i : Nat) : Rat), recs) :: D, ?_, ?_⟩
    · rw [h7, declared_circuit_append, h6, List.append_assoc]; rfl
    · refine .cons ⟨rfl, ?_⟩ h8
      have : (if r then l.logX else l.logZ).get? lab = some qs := by
        unfold Dict.getE at h1
        split at h1
        · simp at h1; rename_i e; rw [e, h1]
        · simp at h1
      simp only [this, Option.getD_some]
      exact h5

theorem allObservables_ok {es : List ((Layout × Bool) × Nat)} {circuit c : Circuit}
    {s s' : MeasState} (h : allObservables es circuit s = (.ok c, s')) :
    s' = s ∧ ∃ D, declared c = declared circuit ++ D ∧ List.Forall₂ (Declares s)
      (es.flatMap fun e => e.1.1.logQubits.zipIdx.map fun q =>
        (e.2, q.2, e.1.1, (((if e.1.2 then e.1.1.logX else e.1.1.logZ).get? q.1).getD []))) D := by
  induction es generalizing circuit s with
  | nil =>
    simp only [allObservables, pure, PyM.pure, Prod.mk.injEq, Except.ok.injEq] at h
    obtain ⟨rfl, rfl⟩ := h
    exact ⟨rfl, [], by simp, .nil⟩
  | cons e es ih =>
    obtain ⟨⟨l, r⟩, k⟩ := e
    unfold allObservables at h
    obtain ⟨c1, s1, h1, h2⟩ := PyM.bind_eq_ok h
    obtain ⟨rfl, D1, h3, h4⟩ := layoutObservables_ok h1
    obtain ⟨rfl, D2, h5, h6⟩ := ih h2
    refine ⟨rfl, D1 ++ D2, by rw [h5, h3, List.append_assoc], ?_⟩
    rw [List.flatMap_cons]
    exact List.rel_append h4 h6

theorem mergeLogMeas_declared {cfg : Detectors.Config} {iter : Layout → Bool → Gen}
    (hi : ∀ l b, DeclaresNone (iter l b)) {ls : List Layout} {rots : List Bool} {reset : Bool}
    {sel : Option (List String)} {s s' : Sim cfg} {c : Circuit}
    (h : mergeLogMeas iter ls rots reset sel s = (.ok c, s')) :
    rots.length = ls.length ∧ List.Forall₂ (Declares s'.1) (logicals (ls.zip rots)) (declared c) := by
  unfold mergeLogMeas at h
  split at h
  · simp [PyM.raise] at h
  · rename_i hlen
    refine ⟨by simpa using hlen, ?_⟩
    obtain ⟨_, s1, -, h⟩ := PyM.bind_eq_ok h
    obtain ⟨c1, s2, h1, h⟩ := PyM.bind_eq_ok h
    obtain ⟨ss, s3, -, h⟩ := PyM.bind_eq_ok h
    obtain ⟨dets, s4, h2, h⟩ := PyM.bind_eq_ok h
    have hc1 : declared c1 = [] := by
      unfold onModel at h1
      cases hm : mergeGens ((ls.zip rots).map fun lr => iter lr.1 lr.2) s1.1 with
      | mk r st =>
        rw [hm] at h1
        simp only [Prod.mk.injEq] at h1
        obtain ⟨rfl, -⟩ := h1
        refine mergeGens_none (fun g hg => ?_) hm
        obtain ⟨lr, -, rfl⟩ := List.mem_map.1 hg
        exact hi _ _
    have hd : declared dets = [] := by
      unfold onDets at h2
      simp only at h2
      cases hm : Detectors.buildFromData s3.1.measTarget ss.2 reset ss.1 sel s3.2 with
      | mk r st =>
        rw [hm] at h2
        simp only [Prod.mk.injEq] at h2
        obtain ⟨rfl, -⟩ := h2
        exact buildFromData_none hm
    unfold onModel at h
    cases hm : allObservables (ls.zip rots).zipIdx (c1.concat dets) s4.1 with
    | mk r st =>
      rw [hm] at h
      simp only [Prod.mk.injEq] at h
      obtain ⟨rfl, rfl⟩ := h
      obtain ⟨e, D, h5, h6⟩ := allObservables_ok hm
      rw [declared_concat, hc1, hd] at h5
      simp only [List.nil_append] at h5
      rw [h5]
      simp only [e]
      exact h6

/-! ### noise models -/

open NoiseModel

theorem appendOp_none {c c' : Circuit} {g : Gate} {ts : List Nat} {args : List Arg} (h : appendOp c g ts args = .ok c')
    (hg : g ≠ .OBSERVABLE_INCLUDE) : declared c' = declared c := by
  unfold appendOp at h
  split at h
  · simp at h
  · rename_i i hi
    cases h
    have : i.gate = g := by
      unfold mkInstr at hi
      split at hi
      · simp at hi
      · split at hi
        · split at hi
          · simp at hi
          · split at hi
            · simp at hi
            · simp at hi; rw [← hi]
        · simp at hi; rw [← hi]
    rw [declared_circuit_append, declared_instr i (by rwa [this]), List.append_nil]

theorem noiseLoop_none {noise : Gate} (hg : noise ≠ .OBSERVABLE_INCLUDE) {rule : ArgRule}
    {L : List (List String × List Nat)} {c c' : Circuit} (h : noiseLoop noise rule c L = .ok c') :
    declared c' = declared c := by
  induction L generalizing c with
  | nil => simp [noiseLoop] at h; rw [h]
  | cons e L ih =>
    obtain ⟨qs, is⟩ := e
    unfold noiseLoop at h
    split at h
    · simp at h
    · split at h
      · simp at h
      · rename_i c1 h1
        rw [ih h, appendOp_none h1 hg]

theorem sqOp_none {inds : Dict String Nat} {g noise : Gate} (hg : g ≠ .OBSERVABLE_INCLUDE)
    (hn : noise ≠ .OBSERVABLE_INCLUDE) {rule : ArgRule} {qs : List String} {c : Circuit}
    (h : sqOp inds g noise rule qs = .ok c) : declared c = [] := by
  unfold sqOp at h
  split at h
  · simp at h
  · split at h
    · simp at h
    · rename_i c1 h1
      rw [noiseLoop_none hn h, appendOp_none h1 hg]; rfl

theorem noiseOnly_none {inds : Dict String Nat} {noise : Gate} (hn : noise ≠ .OBSERVABLE_INCLUDE) {rule : ArgRule}
    {qs : List String} {c : Circuit} (h : noiseOnly inds noise rule qs = .ok c) : declared c = [] := by
  unfold noiseOnly at h
  split at h
  · simp at h
  · rw [noiseLoop_none hn h]; rfl

theorem plainOp_none {inds : Dict String Nat} {g : Gate} (hg : g ≠ .OBSERVABLE_INCLUDE)
    {qs : List String} {c : Circuit} (h : plainOp inds g qs = .ok c) : declared c = [] := by
  unfold plainOp at h
  split at h
  · simp at h
  · rw [appendOp_none h hg]; rfl

theorem plainMeasLoop_none {inds : Dict String Nat} {g : Gate} (hg : g ≠ .OBSERVABLE_INCLUDE)
    {qs : List String} {c c' : Circuit} {s s' : MeasState} (h : plainMeasLoop inds g c qs s = (.ok c', s')) :
    declared c' = declared c := by
  induction qs generalizing c s with
  | nil => simp [plainMeasLoop, pure, PyM.pure] at h; rw [h.1]
  | cons q qs ih =>
    unfold plainMeasLoop at h
    obtain ⟨_, s1, -, h⟩ := PyM.bind_eq_ok h
    obtain ⟨is, s2, -, h⟩ := PyM.bind_eq_ok h
    obtain ⟨c1, s3, h1, h⟩ := PyM.bind_eq_ok h
    simp only [PyM.ofExcept, Prod.mk.injEq] at h1
    rw [ih h, appendOp_none h1.1 hg]

theorem measLoop_none {st : Setup} {inds : Dict String Nat} {g : Gate} (hg : g ≠ .OBSERVABLE_INCLUDE)
    {qs : List (String × Nat)} {c c' : Circuit} {s s' : MeasState} (h : measLoop st inds g c qs s = (.ok c', s')) :
    declared c' = declared c := by
  induction qs generalizing c s with
  | nil => simp [measLoop, pure, PyM.pure] at h; rw [h.1]
  | cons q qs ih =>
    unfold measLoop at h
    obtain ⟨_, s1, -, h⟩ := PyM.bind_eq_ok h
    obtain ⟨fl, s2, -, h⟩ := PyM.bind_eq_ok h
    simp only at h
    split at h <;>
    · obtain ⟨args, s2, -, h⟩ := PyM.bind_eq_ok h
      obtain ⟨c1, s3, h1, h⟩ := PyM.bind_eq_ok h
      simp only [PyM.ofExcept, Prod.mk.injEq] at h1
      rw [ih h, appendOp_none h1.1 hg]

theorem measOp_none {st : Setup} {inds : Dict String Nat} {g noise : Gate} (hg : g ≠ .OBSERVABLE_INCLUDE)
    (hn : noise ≠ .OBSERVABLE_INCLUDE) {qs : List String} {c : Circuit} {s s' : MeasState}
    (h : measOp st inds g noise qs s = (.ok c, s')) : declared c = [] := by
  unfold measOp at h
  obtain ⟨is, s1, -, h⟩ := PyM.bind_eq_ok h
  obtain ⟨c1, s2, h1, h⟩ := PyM.bind_eq_ok h
  simp only [PyM.ofExcept, Prod.mk.injEq] at h1
  rw [measLoop_none hg h, noiseLoop_none hn h1.1]; rfl

theorem lift_none {f : List String → Except Err Circuit} (hf : ∀ qs c, f qs = .ok c → declared c = [])
    (qs : List String) (s : MeasState) (c : Circuit) (s' : MeasState) (h : lift f qs s = (.ok c, s')) :
    declared c = [] := by
  simp only [lift, PyM.ofExcept, Prod.mk.injEq] at h
  exact hf _ _ h.1

theorem noIncoming_none (qs : List String) (s : MeasState) (c : Circuit) (s' : MeasState)
    (h : noIncoming qs s = (.ok c, s')) : declared c = [] := by
  simp only [noIncoming, pure, PyM.pure, Prod.mk.injEq, Except.ok.injEq] at h
  rw [← h.1]; rfl

theorem noObservables_noiseless (inds : Dict String Nat) : NoObservables (noiseless inds) where
  incoming := noIncoming_none
  hadamard := lift_none fun _ _ h => plainOp_none (by simp) h
  measure _ _ _ _ h := plainMeasLoop_none (by simp) h
  idle := lift_none fun _ _ h => plainOp_none (by simp) h

theorem noObservables_circuitNoise (st : Setup) (inds : Dict String Nat) : NoObservables (circuitNoise st inds) where
  incoming := noIncoming_none
  hadamard := lift_none fun _ _ h => sqOp_none (by simp) (by simp) h
  measure _ _ _ _ h := measOp_none (by simp) (by simp) h
  idle := lift_none fun _ _ h => noiseOnly_none (by simp) h

theorem noObservables_biasedNoise (st : Setup) (inds : Dict String Nat) : NoObservables (biasedNoise st inds) where
  incoming := noIncoming_none
  hadamard := lift_none fun _ _ h => sqOp_none (by simp) (by simp) h
  measure _ _ _ _ h := measOp_none (by simp) (by simp) h
  idle := lift_none fun _ _ h => noiseOnly_none (by simp) h

theorem plus_none {a b : Call1} (ha : ∀ s c s', a s = (.ok c, s') → declared c = [])
    (hb : ∀ s c s', b s = (.ok c, s') → declared c = []) (s : MeasState) (c : Circuit) (s' : MeasState)
    (h : plus a b s = (.ok c, s')) : declared c = [] := by
  unfold plus at h
  obtain ⟨x, s1, h1, h⟩ := PyM.bind_eq_ok h
  obtain ⟨y, s2, h2, h⟩ := PyM.bind_eq_ok h
  simp only [pure, PyM.pure, Prod.mk.injEq, Except.ok.injEq] at h
  rw [← h.1, declared_concat, ha _ _ _ h1, hb _ _ _ h2]; rfl

theorem tick_none (s : MeasState) (c : Circuit) (s' : MeasState) (h : Blocks.tick s = (.ok c, s')) : declared c = [] := by
  simp only [Blocks.tick, pure, PyM.pure, Prod.mk.injEq, Except.ok.injEq] at h
  rw [← h.1]; rfl

theorem logMeasIter_none {nm : NoiseModel} (hn : NoObservables nm) (l : Layout) (b : Bool) :
    DeclaresNone (logMeasIter nm l b) := by
  unfold logMeasIter
  cases ancQubits l with
  | error e => intro g hg; simp [withE] at hg; subst hg; simp [PyM.raise]
  | ok anc =>
    cases dataQubits l with
    | error e => intro g hg; simp [withE] at hg; subst hg; simp [PyM.raise]
    | ok data =>
      have h2 := plus_none (hn.hadamard data) (hn.idle anc)
      have h3 := plus_none (hn.measure data) (hn.idle anc)
      intro g hg
      simp only [withE] at hg
      cases b
      · simp at hg
        rcases hg with rfl | rfl | rfl | rfl
        · exact hn.incoming data
        · exact tick_none
        · exact h3
        · exact tick_none
      · simp at hg
        rcases hg with rfl | rfl | rfl | rfl | rfl | rfl
        · exact hn.incoming data
        · exact tick_none
        · exact h2
        · exact tick_none
        · exact h3
        · exact tick_none

end SurfaceSim
