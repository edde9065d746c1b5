/-
Models whose circuits depend only on the number of qubits, up to targets.
-/
import Verif.Lemmas.UniformMeas
import Verif.Lemmas.CnotMerge

namespace SurfaceSim
open Spec NoiseModel Blocks

theorem appendOp_shape {c c' c1 c1' : Circuit} {g : Gate} {is is' : List Nat} {args : List Arg} (hc : shape c = shape c')
    (h : appendOp c g is args = .ok c1) (h' : appendOp c' g is' args = .ok c1') : shape c1 = shape c1' := by
  unfold appendOp at h h'
  split at h
  · cases h
  · rename_i i hi
    split at h'
    · cases h'
    · rename_i i' hi'
      cases mkInstr_ok hi
      cases mkInstr_ok hi'
      cases h
      cases h'
      rw [shape_append, shape_append, hc]

/-- The arguments depend only on the number of qubits. -/
def SameRule (rule : ArgRule) : Prop := ∀ qs qs' : List String, qs.length = qs'.length → rule qs = rule qs'

theorem noiseLoop_shape {g : Gate} {rule : ArgRule} (hr : SameRule rule) {L L' : List (List String × List Nat)}
    (hL : List.Forall₂ (fun e e' => e.1.length = e'.1.length) L L') {c c' c1 c1' : Circuit} (hc : shape c = shape c')
    (h : noiseLoop g rule c L = .ok c1) (h' : noiseLoop g rule c' L' = .ok c1') : shape c1 = shape c1' := by
  induction hL generalizing c c' with
  | nil =>
    cases h
    cases h'
    exact hc
  | @cons e e' L L' he _ ih =>
    obtain ⟨qs, is⟩ := e
    obtain ⟨qs', is'⟩ := e'
    unfold noiseLoop at h h'
    rw [hr qs qs' he] at h
    cases hrule : rule qs' with
    | error e => rw [hrule] at h; cases h
    | ok args =>
      rw [hrule] at h h'
      simp only at h h'
      split at h
      · cases h
      · rename_i c2 h2
        split at h'
        · cases h'
        · rename_i c2' h2'
          exact ih (appendOp_shape hc h2 h2') h h'

theorem singles_shape {qs qs' : List String} {is is' : List Nat} (hq : qs.length = qs'.length) (hi : is.length = is'.length) :
    List.Forall₂ (fun e e' : List String × List Nat => e.1.length = e'.1.length) (singles qs is) (singles qs' is') := by
  unfold singles
  induction qs generalizing qs' is is' with
  | nil =>
    cases qs' with
    | nil => exact .nil
    | cons _ _ => simp at hq
  | cons q qs ih =>
    cases qs' with
    | nil => simp at hq
    | cons q' qs' =>
      cases is with
      | nil =>
        cases is' with
        | nil => exact .nil
        | cons _ _ => simp at hi
      | cons i is =>
        cases is' with
        | nil => simp at hi
        | cons i' is' => exact .cons rfl (ih (by simpa using hq) (by simpa using hi))

theorem pairUp_half {α : Type} : ∀ (xs : List α) (ps : List (α × α)), pairUp xs = some ps → 2 * ps.length = xs.length
  | [], ps, h => by simp [pairUp] at h; subst h; rfl
  | [a], ps, h => by simp [pairUp] at h
  | a :: b :: xs, ps, h => by
    simp only [pairUp, Option.map_eq_some_iff] at h
    obtain ⟨r, hr, rfl⟩ := h
    have := pairUp_half xs r hr
    simp only [List.length_cons]
    omega

theorem pairGroups_shape {qs qs' : List String} {is is' : List Nat} {L L' : List (List String × List Nat)} (hq : qs.length = qs'.length)
    (hi : is.length = is'.length) (h : pairGroups qs is = .ok L) (h' : pairGroups qs' is' = .ok L') :
    List.Forall₂ (fun e e' : List String × List Nat => e.1.length = e'.1.length) L L' := by
  unfold pairGroups at h h'
  split at h
  · rename_i ps js h1 h2
    split at h'
    · rename_i ps' js' h1' h2'
      cases h
      cases h'
      have l1 := pairUp_half _ _ h1
      have l2 := pairUp_half _ _ h2
      have l1' := pairUp_half _ _ h1'
      have l2' := pairUp_half _ _ h2'
      rw [List.forall₂_iff_get]
      refine ⟨by simp; omega, fun i h3 h4 => by simp⟩
    · cases h'
  · cases h

theorem shape_lift {f : List String → Except Err Circuit}
    (h : ∀ qs qs' : List String, qs.length = qs'.length → ∀ c c', f qs = .ok c → f qs' = .ok c' → shape c = shape c') :
    ShapeByNumber (lift f) := by
  intro qs qs' hl s s' c c' s₁ s₁' h1 h2
  simp only [lift, PyM.ofExcept, Prod.mk.injEq] at h1 h2
  exact h qs qs' hl c c' h1.1 h2.1

section
variable {inds : Dict String Nat} {g noise : Gate} {rule : ArgRule}

theorem shape_plainOp : ShapeByNumber (lift (plainOp inds g)) := by
  refine shape_lift fun qs qs' _ c c' h h' => ?_
  unfold plainOp at h h'
  split at h
  · cases h
  · split at h'
    · cases h'
    · exact appendOp_shape rfl h h'

theorem shape_sqOp (hr : SameRule rule) : ShapeByNumber (lift (sqOp inds g noise rule)) := by
  refine shape_lift fun qs qs' hl c c' h h' => ?_
  unfold sqOp at h h'
  split at h
  · cases h
  · rename_i is hi
    split at h'
    · cases h'
    · rename_i is' hi'
      split at h
      · cases h
      · rename_i c1 h1
        split at h'
        · cases h'
        · rename_i c1' h1'
          exact noiseLoop_shape hr (singles_shape hl (by rw [getInds_length hi, getInds_length hi', hl]))
            (appendOp_shape rfl h1 h1') h h'

theorem shape_tqOp (hr : SameRule rule) : ShapeByNumber (lift (tqOp inds g noise rule)) := by
  refine shape_lift fun qs qs' hl c c' h h' => ?_
  unfold tqOp at h h'
  split at h
  · cases h
  · split at h'
    · cases h'
    · split at h
      · cases h
      · rename_i is hi
        split at h'
        · cases h'
        · rename_i is' hi'
          split at h
          · cases h
          · rename_i c1 h1
            split at h'
            · cases h'
            · rename_i c1' h1'
              split at h
              · cases h
              · rename_i L k1
                split at h'
                · cases h'
                · rename_i L' k1'
                  exact noiseLoop_shape hr (pairGroups_shape hl (by rw [getInds_length hi, getInds_length hi', hl]) k1 k1')
                    (appendOp_shape rfl h1 h1') h h'

theorem shape_noiseOnly (hr : SameRule rule) : ShapeByNumber (lift (noiseOnly inds noise rule)) := by
  refine shape_lift fun qs qs' hl c c' h h' => ?_
  unfold noiseOnly at h h'
  split at h
  · cases h
  · rename_i is hi
    split at h'
    · cases h'
    · rename_i is' hi'
      exact noiseLoop_shape hr (singles_shape hl (by rw [getInds_length hi, getInds_length hi', hl])) rfl h h'

theorem shape_plainMeas : ShapeByNumber (plainMeasLoop inds g []) := by
  have : ∀ (qs qs' : List String), qs.length = qs'.length → ∀ (a a' : Circuit) s s' c c' s₁ s₁', shape a = shape a' →
      plainMeasLoop inds g a qs s = (.ok c, s₁) → plainMeasLoop inds g a' qs' s' = (.ok c', s₁') → shape c = shape c' := by
    intro qs
    induction qs with
    | nil =>
      intro qs' hl a a' s s' c c' s₁ s₁' ha h h'
      cases qs' with
      | nil =>
        cases h
        cases h'
        exact ha
      | cons _ _ => simp at hl
    | cons q qs ih =>
      intro qs' hl a a' s s' c c' s₁ s₁' ha h h'
      cases qs' with
      | nil => simp at hl
      | cons q' qs' =>
        unfold plainMeasLoop at h h'
        obtain ⟨_, t1, -, h⟩ := PyM.bind_eq_ok h
        obtain ⟨is, t2, -, h⟩ := PyM.bind_eq_ok h
        obtain ⟨c1, t3, h1, h⟩ := PyM.bind_eq_ok h
        obtain ⟨_, t1', -, h'⟩ := PyM.bind_eq_ok h'
        obtain ⟨is', t2', -, h'⟩ := PyM.bind_eq_ok h'
        obtain ⟨c1', t3', h1', h'⟩ := PyM.bind_eq_ok h'
        simp only [PyM.ofExcept, Prod.mk.injEq] at h1 h1'
        exact ih qs' (by simpa using hl) _ _ _ _ _ _ _ _ (appendOp_shape ha h1.1 h1'.1) h h'
  intro qs qs' hl s s' c c' s₁ s₁' h h'
  exact this qs qs' hl [] [] s s' c c' s₁ s₁' rfl h h'

end

theorem Spec.SameParams.plain {st : Setup} (h : SameParams st) (p : String) : SameRule (plainArgs st p) := by
  intro qs qs' hl
  unfold plainArgs numParam
  rw [h p qs qs' hl]

theorem Spec.SameParams.biased {st : Setup} (h : SameParams st) (p : String) (n : Nat) : SameRule (biasedArgs st p n) := by
  intro qs qs' hl
  unfold biasedArgs numParam
  rw [h p qs qs' hl, h "biased_pauli" qs qs' hl, h "biased_factor" qs qs' hl]

theorem shape_measLoop {st : Setup} (hs : SameParams st) {inds : Dict String Nat} {g : Gate} :
    ∀ (qs qs' : List (String × Nat)), qs.length = qs'.length → ∀ (a a' : Circuit) s s' c c' s₁ s₁', shape a = shape a' →
      measLoop st inds g a qs s = (.ok c, s₁) → measLoop st inds g a' qs' s' = (.ok c', s₁') → shape c = shape c' := by
  intro qs
  induction qs with
  | nil =>
    intro qs' hl a a' s s' c c' s₁ s₁' ha h h'
    cases qs' with
    | nil =>
      cases h
      cases h'
      exact ha
    | cons _ _ => simp at hl
  | cons q qs ih =>
    intro qs' hl a a' s s' c c' s₁ s₁' ha h h'
    cases qs' with
    | nil => simp at hl
    | cons q' qs' =>
      obtain ⟨q, i⟩ := q
      obtain ⟨q', i'⟩ := q'
      unfold measLoop at h h'
      obtain ⟨_, t1, -, h⟩ := PyM.bind_eq_ok h
      obtain ⟨fl, t2, h2, h⟩ := PyM.bind_eq_ok h
      obtain ⟨_, t1', -, h'⟩ := PyM.bind_eq_ok h'
      obtain ⟨fl', t2', h2', h'⟩ := PyM.bind_eq_ok h'
      simp only [PyM.ofExcept, Prod.mk.injEq] at h2 h2'
      rw [hs _ [q'] [q] rfl] at h2'
      cases h2.1.symm.trans h2'.1
      simp only at h h'
      split at h
      · rename_i hf
        rw [if_pos hf] at h'
        obtain ⟨args, t3, h3, k⟩ := PyM.bind_eq_ok h
        obtain ⟨c1, t4, h4, j⟩ := PyM.bind_eq_ok k
        obtain ⟨args', t3', h3', k'⟩ := PyM.bind_eq_ok h'
        obtain ⟨c1', t4', h4', j'⟩ := PyM.bind_eq_ok k'
        simp only [PyM.ofExcept, Prod.mk.injEq] at h3 h3' h4 h4'
        rw [hs.plain _ [q'] [q] rfl] at h3'
        cases h3.1.symm.trans h3'.1
        exact ih qs' (by simpa using hl) _ _ _ _ _ _ _ _ (appendOp_shape ha h4.1 h4'.1) j j'
      · rename_i hf
        rw [if_neg hf] at h'
        obtain ⟨args, t3, h3, k⟩ := PyM.bind_eq_ok h
        obtain ⟨c1, t4, h4, j⟩ := PyM.bind_eq_ok k
        obtain ⟨args', t3', h3', k'⟩ := PyM.bind_eq_ok h'
        obtain ⟨c1', t4', h4', j'⟩ := PyM.bind_eq_ok k'
        cases h3
        cases h3'
        simp only [PyM.ofExcept, Prod.mk.injEq] at h4 h4'
        exact ih qs' (by simpa using hl) _ _ _ _ _ _ _ _ (appendOp_shape ha h4.1 h4'.1) j j'

theorem shape_measOp {st : Setup} (hs : SameParams st) {inds : Dict String Nat} {g noise : Gate} :
    ShapeByNumber (measOp st inds g noise) := by
  intro qs qs' hl s s' c c' s₁ s₁' h h'
  unfold measOp at h h'
  obtain ⟨is, t1, e1, h⟩ := PyM.bind_eq_ok h
  obtain ⟨c1, t2, e2, h⟩ := PyM.bind_eq_ok h
  obtain ⟨is', t1', e1', h'⟩ := PyM.bind_eq_ok h'
  obtain ⟨c1', t2', e2', h'⟩ := PyM.bind_eq_ok h'
  simp only [PyM.ofExcept, Prod.mk.injEq] at e1 e2 e1' e2'
  have hi : is.length = is'.length := by rw [getInds_length e1.1, getInds_length e1'.1, hl]
  exact shape_measLoop hs _ _ (by simp [hl, hi]) _ _ _ _ _ _ _ _
    (noiseLoop_shape (hs.plain _) (singles_shape hl hi) rfl e2.1 e2'.1) h h'

theorem shape_noIncoming : ShapeByNumber noIncoming := by
  intro qs qs' hl s s' c c' s₁ s₁' h h'
  cases h
  cases h'
  rfl

theorem shape_incoming {st : Setup} (hs : SameParams st) {inds : Dict String Nat} : ShapeByNumber (lift (incomingNoiseOp st inds)) := by
  refine shape_lift fun qs qs' hl c c' h h' => ?_
  unfold incomingNoiseOp at h h'
  split at h
  · cases h
  · rename_i is hi
    split at h'
    · cases h'
    · rename_i is' hi'
      have hL := singles_shape hl (show is.length = is'.length by rw [getInds_length hi, getInds_length hi', hl])
      split at h
      · cases h
      · rename_i c1 h1
        split at h'
        · cases h'
        · rename_i c1' h1'
          exact noiseLoop_shape (hs.plain _) hL (noiseLoop_shape (hs.plain _) hL rfl h1 h1') h h'

theorem noMeas_four {a b c d : List String → PyM MeasState Circuit} {P : Circuit → Prop}
    (ha : ∀ qs s r s', a qs s = (.ok r, s') → P r) (hb : ∀ qs s r s', b qs s = (.ok r, s') → P r)
    (hc : ∀ qs s r s', c qs s = (.ok r, s') → P r) (hd : ∀ qs s r s', d qs s = (.ok r, s') → P r) :
    ∀ f ∈ [a, b, c, d], ∀ qs s r s', f qs s = (.ok r, s') → P r := by
  intro f hf
  simp only [List.mem_cons, List.not_mem_nil, or_false] at hf
  rcases hf with rfl | rfl | rfl | rfl
  · exact ha
  · exact hb
  · exact hc
  · exact hd

theorem uniform_noiseless (inds : Dict String Nat) : UniformModel (noiseless inds) where
  incoming := shape_noIncoming
  hadamard := shape_plainOp
  cphase := shape_plainOp
  measure := shape_plainMeas
  reset := shape_plainOp
  idle := shape_plainOp
  noMeas := noMeas_four
    (lift_all (P := (·.isMeas = false)) fun _ _ h => plainOp_all (P := (·.isMeas = false)) (by decide) h)
    (lift_all (P := (·.isMeas = false)) fun _ _ h => plainOp_all (P := (·.isMeas = false)) (by decide) h)
    (lift_all (P := (·.isMeas = false)) fun _ _ h => plainOp_all (P := (·.isMeas = false)) (by decide) h)
    (lift_all (P := (·.isMeas = false)) fun _ _ h => plainOp_all (P := (·.isMeas = false)) (by decide) h)

theorem uniform_circuitNoise {st : Setup} (hs : SameParams st) (inds : Dict String Nat) : UniformModel (circuitNoise st inds) where
  incoming := shape_noIncoming
  hadamard := shape_sqOp (hs.plain _)
  cphase := shape_tqOp (hs.plain _)
  measure := shape_measOp hs
  reset := shape_sqOp (hs.plain _)
  idle := shape_noiseOnly (hs.plain _)
  noMeas := noMeas_four
    (lift_all (P := (·.isMeas = false)) fun _ _ h => sqOp_all (P := (·.isMeas = false)) (by decide) (by decide) h)
    (lift_all (P := (·.isMeas = false)) fun _ _ h => sqOp_all (P := (·.isMeas = false)) (by decide) (by decide) h)
    (lift_all (P := (·.isMeas = false)) fun _ _ h => sqOp_all (P := (·.isMeas = false)) (by decide) (by decide) h)
    (lift_all (P := (·.isMeas = false)) fun _ _ h => noiseOnly_all (P := (·.isMeas = false)) (by decide) h)

theorem uniform_biasedNoise {st : Setup} (hs : SameParams st) (inds : Dict String Nat) : UniformModel (biasedNoise st inds) where
  incoming := shape_noIncoming
  hadamard := shape_sqOp (hs.biased _ _)
  cphase := shape_tqOp (hs.biased _ _)
  measure := shape_measOp hs
  reset := shape_sqOp (hs.plain _)
  idle := shape_noiseOnly (hs.biased _ _)
  noMeas := noMeas_four
    (lift_all (P := (·.isMeas = false)) fun _ _ h => sqOp_all (P := (·.isMeas = false)) (by decide) (by decide) h)
    (lift_all (P := (·.isMeas = false)) fun _ _ h => sqOp_all (P := (·.isMeas = false)) (by decide) (by decide) h)
    (lift_all (P := (·.isMeas = false)) fun _ _ h => sqOp_all (P := (·.isMeas = false)) (by decide) (by decide) h)
    (lift_all (P := (·.isMeas = false)) fun _ _ h => noiseOnly_all (P := (·.isMeas = false)) (by decide) h)

theorem uniform_incoming {st : Setup} (hs : SameParams st) (inds : Dict String Nat) : UniformModel (incoming st inds) where
  incoming := shape_incoming hs
  hadamard := shape_plainOp
  cphase := shape_plainOp
  measure := shape_plainMeas
  reset := shape_plainOp
  idle := shape_plainOp
  noMeas := (uniform_noiseless inds).noMeas

theorem uniform_phenomenological {st : Setup} (hs : SameParams st) (inds : Dict String Nat) :
    UniformModel (phenomenological st inds) where
  incoming := shape_incoming hs
  hadamard := shape_plainOp
  cphase := shape_plainOp
  measure := shape_measOp hs
  reset := shape_plainOp
  idle := shape_plainOp
  noMeas := (uniform_noiseless inds).noMeas

theorem uniformMeas_incoming (st : Setup) (inds : Dict String Nat) : UniformMeas (incoming st inds) :=
  uniformMeas_noiseless inds

theorem Spec.SameParams.forAll {st : Setup} (hs : SameParams st) (p : String) : SameForAll st p := fun q q' => hs p [q] [q'] rfl

theorem uniformMeas_biasedNoise {st : Setup} (hs : SameParams st) (inds : Dict String Nat) : UniformMeas (biasedNoise st inds) := by
  obtain ⟨args, ha⟩ := measOp_gates (hs.forAll "meas_error_prob") (hs.forAll "assign_error_flag") (hs.forAll "assign_error_prob")
    (inds := inds)
  refine ⟨[.X_ERROR, .M] ++ [.PAULI_CHANNEL_1], by decide, fun qs rs hq hr s c s' h => ?_⟩
  refine plus_gates (g := .M) (by decide) (ha qs hq) (fun s c s' h => ?_) h
  simp only [biasedNoise, lift, PyM.ofExcept, Prod.mk.injEq] at h
  have h := h.1
  unfold noiseOnly at h
  split at h
  · simp at h
  · rename_i is hi
    cases he : biasedArgs st "idle_error_prob" 1 [""] with
    | error e =>
      cases rs with
      | nil => exact absurd rfl hr
      | cons q qs =>
        cases is with
        | nil => have := getInds_length hi; simp at this
        | cons i is =>
          simp only [singles, List.zip_cons_cons, List.map_cons, noiseLoop] at h
          rw [hs.biased _ _ [q] [""] rfl, he] at h
          simp at h
    | ok args =>
      exact (noiseLoop_new rfl (singles_ne hr (getInds_length hi)) (args := args) (fun e hem a ha => by
        obtain ⟨q, i, rfl⟩ := mem_singles hem
        simp only at ha
        rw [hs.biased _ _ [q] [""] rfl, he] at ha
        simpa using ha.symm) (by simp) h).1

end SurfaceSim
