/-
Properties of `Detectors` (C22-C27 and the part of C03 about detectors).
-/
import Verif.Lemmas.DetExact
import Mathlib.Data.Fintype.Basic

namespace SurfaceSim.Props
open SurfaceSim Spec Detectors

variable {cfg : Config}

/-! ### C22 -/

/-- Multiplicities after `remove_pairs`. -/
theorem C22_multiplicities {α : Type} [DecidableEq α] (l : List α) (a : α) :
    (removePairs l).count a = if l.count a % 2 = 1 then l.count a else 0 := count_removePairs l a

/-- `remove_pairs` keeps the XOR for every assignment of bits, and keeps the order. -/
theorem C22_xor_preserved {α : Type} [DecidableEq α] (l : List α) (f : α → ZMod 2) :
    ((removePairs l).map f).sum = (l.map f).sum ∧ (removePairs l).Sublist l :=
  ⟨sum_removePairs l f, List.filter_sublist⟩

example : removePairs ["a", "b", "a", "c", "c", "c"] = ["b", "c", "c", "c"] := by decide

/-! ### C03, detectors -/

/-- After `new_circuit` the object is as new: what happened before has no influence on any later
sequence of calls. -/
theorem C03_detectors_isolated (before later : List (Call cfg)) :
    afterHistory (before ++ Call.newCircuit :: later) = afterHistory later ∧
    ∀ (g : String → Int → Except Err Int) (r : Bool) (l : Option (List String)),
      buildFromAnc g r l (afterHistory (before ++ Call.newCircuit :: later)) =
        buildFromAnc g r l (afterHistory later) := by
  have h : afterHistory (before ++ Call.newCircuit :: later) = afterHistory later := by
    simp [afterHistory, List.foldl_append, Call.exec, newCircuit]
  exact ⟨h, fun g r l => by rw [h]⟩

/-! ### C23 -/

/-- `update` raises exactly if the coordinates are not those of the object, an entry is not a bit, or
the matrix is singular mod 2. -/
theorem C23_update_rejects (rows : List (Fin cfg.n)) (U : cfg.Mat Int) (s : State cfg) :
    (Call.exec s (.update rows U)).1 = false ↔
      (∃ i, i ∉ rows) ∨ (∃ a b, U a b ≠ 0 ∧ U a b ≠ 1) ∨ (mod2 U).det = 0 := by
  simp only [Call.exec, update]
  by_cases h1 : ∃ i, i ∉ rows
  · rw [if_pos (by simpa using h1)]
    simp [h1, Except.isOk, Except.toBool]
  · rw [if_neg (by simpa using h1)]
    by_cases h2 : ∃ a b, U a b ≠ 0 ∧ U a b ≠ 1
    · rw [if_pos (by simpa using h2)]
      simp [h2, Except.isOk, Except.toBool]
    · rw [if_neg (by simpa using h2)]
      by_cases h3 : (mod2 U).det = 0
      · have h3' : (U.map (Int.cast : Int → ZMod 2)).det = 0 := h3
        rw [if_pos h3']
        simp [h3, Except.isOk, Except.toBool]
      · have h3' : ¬ (U.map (Int.cast : Int → ZMod 2)).det = 0 := h3
        rw [if_neg h3']
        simp only [h1, h2, h3, or_false, iff_false]
        simp [Except.isOk, Except.toBool]

/-- A rejected update leaves the object unchanged; an accepted one multiplies the current generators by
the matrix, mod 2, and changes neither the previous generators nor the counters. -/
theorem C23_update_effect (rows : List (Fin cfg.n)) (U : cfg.Mat Int) (s : State cfg) :
    ((Call.exec s (.update rows U)).1 = false → (Call.exec s (.update rows U)).2 = s) ∧
    ((Call.exec s (.update rows U)).1 = true →
      mod2 (Call.exec s (.update rows U)).2.curr = mod2 U * mod2 s.curr ∧
      (Call.exec s (.update rows U)).2.prev = s.prev ∧
      (Call.exec s (.update rows U)).2.active = s.active ∧
      (Call.exec s (.update rows U)).2.rounds = s.rounds ∧
      (Call.exec s (.update rows U)).2.total = s.total) := by
  simp only [Call.exec]
  rcases update_cases rows U s with ⟨e, he⟩ | ⟨_, he⟩ <;> rw [he]
  · exact ⟨fun _ => rfl, fun h => (by cases h)⟩
  · refine ⟨fun h => (by cases h), fun _ => ⟨?_, rfl, rfl, rfl, rfl⟩⟩
    simp only
    rw [mod2_emod, mod2_mul]

/-- `update_from_dict` that raises leaves the object unchanged. -/
theorem C23_update_from_dict_atomic (d : Dict String (List String)) (s : State cfg)
    (h : (Call.exec s (.updateFromDict d)).1 = false) : (Call.exec s (.updateFromDict d)).2 = s := by
  simp only [Call.exec] at h ⊢
  rcases updateFromDict_cases d s with ⟨e, he⟩ | ⟨U, _, he⟩
  · rw [he]
  · rw [he] at h ⊢
    exact update_error _ _ _ h

/-- Both generator matrices are invertible mod 2 after any history of calls in which the deactivated
ancillas are decoupled from the others when they are deactivated.  Missing for the full claim:
deactivation of coupled ancillas, where it is false, see `C23_deactivation_singular`. -/
theorem C23_invertible_partial (hn : cfg.anc.Nodup) (hist : List (Call cfg)) (hv : ∀ c ∈ hist, c.Valid)
    (hd : ∀ p c q, hist = p ++ c :: q → c.CleanDeactivation (afterHistory p)) :
    (mod2 (afterHistory hist).curr).det ≠ 0 ∧ (mod2 (afterHistory hist).prev).det ≠ 0 := by
  suffices Invertible2 (afterHistory hist) from this
  induction hist using List.reverseRecOn with
  | nil => constructor <;> simp [afterHistory, State.fresh, mod2_one]
  | append_singleton p c ih =>
    rw [afterHistory_snoc]
    have ihp := ih (fun c hc => hv c (by simp [hc])) fun p' c' q e => hd p' c' (q ++ [c]) (by rw [e]; simp)
    exact invertible_exec hn c _ (afterHistory_inv p fun c hc => hv c (by simp [hc])) (hd p c [] rfl) ihp

/-- A history without deactivations, with a rejected singular update. -/
example : let cfg : Config := ⟨["a", "b"], .preGate, [("a", []), ("b", [])]⟩
    let hist : List (Call cfg) := [.activate ["a", "b"], .updateFromDict [("a", ["a", "b"])],
      .updateFromDict [("a", ["a", "b"]), ("b", ["a", "b"])]]
    (mod2 (afterHistory hist).curr).det ≠ 0 :=
  (C23_invertible_partial (by decide) _ (by simp [Call.Valid]) (by
    intro p c q e
    have hc : c ∈ p ++ c :: q := by simp
    rw [← e] at hc
    simp at hc
    rcases hc with rfl | rfl | rfl <;> exact trivial)).1

/-- Two ancillas used in the counterexamples. -/
def twoAnc (f : Frame) : Config := ⟨["a", "b"], f, [("a", []), ("b", [])]⟩

/-- Deactivating one of two ancillas whose generators have been swapped by a gate makes the current
generators singular; the next `build_from_anc` in the post-gate frame raises. -/
theorem C23_deactivation_singular :
    let hist : List (Call (twoAnc .postGate)) :=
      [.activate ["a", "b"], .updateFromDict [("a", ["b"]), ("b", ["a", "b"])], .deactivate ["b"]]
    AllReturned hist ∧ (mod2 (afterHistory hist).curr).det = 0 ∧
    ∀ g r l, (Call.exec (afterHistory hist) (.buildFromAnc g r l)).1 = false := by
  intro hist
  have hr : AllReturned hist := by
    intro p c q e
    match p, e with
    | [], e =>
      simp only [hist, List.nil_append, List.cons_append, List.cons.injEq] at e
      obtain ⟨rfl, rfl⟩ := e
      decide +kernel
    | [_], e =>
      simp only [hist, List.nil_append, List.cons_append, List.cons.injEq] at e
      obtain ⟨rfl, rfl, rfl⟩ := e
      decide +kernel
    | [_, _], e =>
      simp only [hist, List.nil_append, List.cons_append, List.cons.injEq] at e
      obtain ⟨rfl, rfl, rfl, rfl⟩ := e
      decide +kernel
    | _ :: _ :: _ :: p, e =>
      exfalso
      have := congrArg List.length e
      simp [hist] at this
  refine ⟨hr, by decide +kernel, ?_⟩
  intro g r l
  have hD : ancDets (afterHistory hist) (bumped (afterHistory hist)) r = .error .valueError := by
    have h0 : mulInv (afterHistory hist).curr (afterHistory hist).curr = .error .valueError := by
      unfold mulInv
      simp only
      rw [if_pos (by decide +kernel)]
    unfold ancDets
    show ancMeasForDetectors _ _ _ _ _ _ _ = _
    unfold ancMeasForDetectors
    rw [h0]
  simp only [Call.exec, buildFromAnc]
  split
  · rfl
  · rw [hD]
    rfl

/-! ### C24 -/

/-- Without noise, all detectors from the second round on are 0 if, between consecutive rounds, the
declared gates multiply to a matrix that is its own inverse mod 2 and the real quotient used by the code
has entries that are 0 or odd.  Missing for the full claim: other products of gates, where it is false,
see `C24_two_gates_wrong` and `C24_quotient_wrong`. -/
theorem C24_deterministic_partial (hcfg : ConfigOk cfg) (hf : cfg.frame ≠ .gateIndependent)
    (gates : Nat → List (cfg.Mat Int)) (hg : ∀ r, ∀ U ∈ gates r, GateOk U)
    (getRec : Nat → String → Int → Except Err Int) (v : Nat → Int → ZMod 2) (reset : Bool)
    (syn : Nat → Fin cfg.n → ZMod 2) (hrec : FindsOutcomes getRec v reset syn)
    (hsyn : SyndromesFollow gates syn)
    (ancs : Nat → Option (List String)) (hs : ∀ r l, ancs r = some l → ∀ a ∈ l, a ∈ cfg.anc)
    (r : Nat)
    (hinv : mod2 (gateProd (gates (r + 1))) * mod2 (gateProd (gates (r + 1))) = 1)
    (hquot : FrameQuotient cfg.frame (genAt gates r) (genAt gates (r + 1))) :
    ∃ c, (buildFromAnc (getRec (r + 1)) reset (ancs (r + 1)) (beforeRound gates getRec reset ancs (r + 1))).1 =
      .ok c ∧ c.length = cfg.n ∧ ∀ d ∈ c, detValue (v (r + 1)) d = 0 := by
  have hst := roundState hcfg hf gates hg getRec v reset syn hrec ancs hs (r + 1)
  obtain ⟨C, P, hC, hP, hb⟩ := round_build hcfg hf gates hg getRec v reset syn hrec (ancs (r + 1)) (hs (r + 1))
    (r + 1) _ hst
  rw [hb]
  refine ⟨_, rfl, ?_, ?_⟩
  · simp [frameTargets, hst.order]
  · intro d hd
    obtain ⟨t, ht, rfl⟩ := List.mem_map.1 hd
    obtain ⟨i, -, rfl⟩ := List.mem_map.1 ht
    rw [detValue_detInstr]
    split
    · rw [round_value gates getRec v reset syn hrec r _ hst C P i]
      have hprev : (beforeRound gates getRec reset ancs (r + 1)).prev = genAt gates r := hst.prev
      have hcurr := hst.curr
      have hGr := genAt_det gates hg r
      have hGr1 := genAt_det gates hg (r + 1)
      have hstep := mod2_genAt_succ gates r
      have hcast : ∀ (V : cfg.Mat Int) (x : Fin cfg.n → ZMod 2), (∀ a b, V a b = 0 ∨ Odd (V a b)) →
          (∑ j, if (V.map (Int.cast : Int → Rat)) i j ≠ 0 then x j else 0) = (mod2 V).mulVec x i := by
        intro V x hV
        rw [Matrix.mulVec, dotProduct]
        refine Finset.sum_congr rfl fun j _ => ?_
        exact pattern_mul (V i j) (hV i j) (x j)
      have hone : ∀ x : Fin cfg.n → ZMod 2,
          (∑ j, if (1 : cfg.Mat Rat) i j ≠ 0 then x j else 0) = x i := by
        intro x
        rw [Finset.sum_eq_single i]
        · simp
        · intro j _ hj; simp [Matrix.one_apply_ne hj.symm]
        · simp
      unfold basisOf at hC hP
      unfold FrameQuotient at hquot
      cases hfr : cfg.frame with
      | gateIndependent => exact absurd hfr hf
      | preGate =>
        simp only [hfr, hprev, hcurr] at hC hP hquot
        obtain ⟨V, hV, hodd⟩ := hquot
        rw [mulInv_of_mul _ _ V hV (rat_det_ne_zero _ hGr)] at hC
        rw [mulInv_self _ hGr] at hP
        cases hC
        cases hP
        rw [hcast V _ hodd, hone]
        have hVU : mod2 V = mod2 (gateProd (gates (r + 1))) := by
          apply mul_right_cancel_det hGr
          rw [← mod2_mul, hV, hstep]
        rw [hVU, hsyn r, Matrix.mulVec_mulVec, hinv, Matrix.one_mulVec]
        exact CharTwo.add_self_eq_zero _
      | postGate =>
        simp only [hfr, hprev, hcurr] at hC hP hquot
        obtain ⟨V, hV, hodd⟩ := hquot
        rw [mulInv_self _ hGr1] at hC
        rw [mulInv_of_mul _ _ V hV (rat_det_ne_zero _ hGr1)] at hP
        cases hC
        cases hP
        rw [hcast V _ hodd, hone]
        have hVU : mod2 V = mod2 (gateProd (gates (r + 1))) := by
          have h1 : mod2 V * mod2 (gateProd (gates (r + 1))) = 1 := by
            apply mul_right_cancel_det hGr
            rw [mul_assoc, ← hstep, ← mod2_mul, hV, one_mul]
          calc mod2 V = mod2 V * (mod2 (gateProd (gates (r + 1))) * mod2 (gateProd (gates (r + 1)))) := by
                rw [hinv, mul_one]
            _ = _ := by rw [← mul_assoc, h1, one_mul]
        rw [hVU, hsyn r]
        exact CharTwo.add_self_eq_zero _
    · rfl

/-- Logical measurement after round `r` and the gates `gates (r + 1)`, in both frames: the detector of a
reconstructable ancilla is the parity of the data outcomes in its support plus the syndrome of the last
round propagated through the gates, so it is 0 iff they agree.  Missing: see
`C24_deterministic_partial`. -/
theorem C24_logical_measurement_partial (hcfg : ConfigOk cfg) (hf : cfg.frame ≠ .gateIndependent)
    (gates : Nat → List (cfg.Mat Int)) (hg : ∀ r, ∀ U ∈ gates r, GateOk U)
    (getRec : Nat → String → Int → Except Err Int) (v : Nat → Int → ZMod 2) (reset : Bool)
    (syn : Nat → Fin cfg.n → ZMod 2) (hrec : FindsOutcomes getRec v reset syn)
    (ancs : Nat → Option (List String)) (hs : ∀ r l, ancs r = some l → ∀ a ∈ l, a ∈ cfg.anc)
    (r : Nat)
    (hinv : mod2 (gateProd (gates (r + 1))) * mod2 (gateProd (gates (r + 1))) = 1)
    (hquot : CleanQuotient (genAt gates r) (genAt gates (r + 1)))
    (g : String → Int → Except Err Int) (w : Int → ZMod 2) (out : String → ZMod 2)
    (hanc : ∀ i (k : Nat), 1 ≤ k → k ≤ 2 → k ≤ r + 1 →
      ∃ j, g (cfg.label i) (-(k : Int)) = .ok j ∧ w j = outcome reset syn i (r + 1 - k))
    (sup : Dict String (List String)) (hsup : ∀ a qs, (a, qs) ∈ sup → ∀ q ∈ qs, ∃ j, g q (-1) = .ok j ∧ w j = out q)
    (stabs : List String) (hstabs : ∀ a ∈ stabs, a ∈ sup.keys)
    (sel : Option (List String)) (hsel : ∀ l, sel = some l → ∀ a ∈ l, a ∈ cfg.anc) :
    ∃ c, (buildFromData g sup reset stabs sel (beforeRound gates getRec reset ancs (r + 1))).1 = .ok c ∧
      c.map (detValue w) = ((List.finRange cfg.n).filter (cfg.label · ∈ stabs)).map fun i =>
        if cfg.label i ∈ (sel.getD cfg.anc) then
          (((sup.get? (cfg.label i)).getD []).map out).sum +
            (mod2 (gateProd (gates (r + 1)))).mulVec (syn r) i
        else 0 := by
  have hst := roundState hcfg hf gates hg getRec v reset syn hrec ancs hs (r + 1)
  generalize beforeRound gates getRec reset ancs (r + 1) = s at hst
  have hprev : s.prev = genAt gates r := hst.prev
  have hGr := genAt_det gates hg r
  have hGr1 := genAt_det gates hg (r + 1)
  have hstep := mod2_genAt_succ gates r
  obtain ⟨V, hV, hodd⟩ := hquot
  have hC : mulInv s.curr s.curr = .ok 1 := by rw [hst.curr]; exact mulInv_self _ hGr1
  have hP : mulInv s.prev s.curr = .ok (V.map (Int.cast : Int → Rat)) := by
    rw [hst.curr, hprev]; exact mulInv_of_mul _ _ V hV (rat_det_ne_zero _ hGr1)
  have hD : dataDets s (bumped s) reset = .ok (s.order.map fun i =>
      (i, ancTargets s.order ((1 : cfg.Mat Rat) i) ((V.map (Int.cast : Int → Rat)) i)
        (nrOf (bumped s) (cfg.label i)) true reset)) := by
    unfold dataDets
    cases hfr : cfg.frame with
    | gateIndependent => exact absurd hfr hf
    | preGate => simp only [ancMeasForDetectors, hC, hP]
    | postGate => simp only [ancMeasForDetectors, hC, hP]
  have hnr : ∀ i, nrOf (bumped s) (cfg.label i) = r + 2 := fun i => by
    rw [nrOf_bumped s _ hst.wf (label_mem i), hst.active, hst.rounds]; rfl
  have hperm : s.order.Perm (List.finRange cfg.n) := by rw [hst.order]
  have hsub : strictSubset sup.keys stabs = false := by
    unfold strictSubset NoiseModel.strictSuperset
    rw [Bool.and_eq_false_iff]
    right
    rw [List.any_eq_false]
    intro a ha
    simpa using hstabs a ha
  -- the terms of one ancilla
  have hmem : ∀ i t, t ∈ ancTargets s.order ((1 : cfg.Mat Rat) i) ((V.map (Int.cast : Int → Rat)) i)
      (nrOf (bumped s) (cfg.label i)) true reset →
      t = (cfg.label i, -1) ∨ (∃ j, t = (cfg.label j, -2)) ∨ (1 ≤ r ∧ ∃ j, t = (cfg.label j, -3)) := by
    intro i t ht
    unfold ancTargets at ht
    rw [nonzero_one s.order hperm, hnr] at ht
    simp only [List.mem_append, List.mem_singleton] at ht
    rcases ht with ((rfl | ht) | ht) | ht
    · exact Or.inl rfl
    · split at ht
      · obtain ⟨j, -, rfl⟩ := List.mem_map.1 ht
        exact Or.inr (Or.inl ⟨j, rfl⟩)
      · simp at ht
    · simp at ht
    · split at ht
      · rename_i h3
        obtain ⟨j, -, rfl⟩ := List.mem_map.1 ht
        exact Or.inr (Or.inr ⟨by omega, j, rfl⟩)
      · simp at ht
  have hg2 : ∀ a qs, sup.get? a = some qs → ∀ q ∈ qs, ∃ j, g q (-1) = .ok j ∧ w j = out q :=
    fun a qs h q hq => hsup a qs (Dict.mem_of_get? h) q hq
  have heq := buildFromData_eq hcfg s hst.wf g sup reset stabs sel hsel hsub _ hD
    (by
      intro d hd hst' t ht h1
      obtain ⟨i, -, rfl⟩ := List.mem_map.1 hd
      rcases hmem i t ht with rfl | ⟨j, rfl⟩ | ⟨-, j, rfl⟩
      · exact hstabs _ hst'
      · simp at h1
      · simp at h1)
    (by
      intro d hd hst' _ t ht
      obtain ⟨i, -, rfl⟩ := List.mem_map.1 hd
      obtain ⟨u, hu, htu⟩ := List.mem_flatMap.1 ((mem_removePairs _ _).1 ht).1
      rcases hmem i u hu with rfl | ⟨j, rfl⟩ | ⟨hr, j, rfl⟩
      · simp only [toDataTerm, ne_eq, not_true, if_false] at htu
        obtain ⟨q, hq, rfl⟩ := List.mem_map.1 htu
        cases hgq : sup.get? (cfg.label i) with
        | none => rw [hgq] at hq; simp at hq
        | some qs =>
          rw [hgq] at hq
          obtain ⟨x, hx, -⟩ := hg2 _ _ hgq q hq
          exact ⟨x, hx⟩
      · simp only [toDataTerm] at htu
        rw [if_pos (by decide)] at htu
        simp only [List.mem_singleton] at htu
        subst htu
        obtain ⟨x, hx, -⟩ := hanc j 1 (by omega) (by omega) (by omega)
        exact ⟨x, hx⟩
      · simp only [toDataTerm] at htu
        rw [if_pos (by decide)] at htu
        simp only [List.mem_singleton] at htu
        subst htu
        obtain ⟨x, hx, -⟩ := hanc j 2 (by omega) (by omega) (by omega)
        exact ⟨x, hx⟩)
  rw [heq]
  refine ⟨_, rfl, ?_⟩
  rw [List.map_map, List.map_map, List.filter_map, List.map_map, hst.order]
  apply List.map_congr_left
  intro i _
  simp only [Function.comp]
  rw [detValue_detInstr]
  have hseli : cfg.label i ∈ selList s sel ↔ cfg.label i ∈ sel.getD cfg.anc := by
    rw [mem_selList s hst.wf, hst.active i]
    unfold Selects
    cases sel with
    | none => simp [label_mem]
    | some l => simp
  by_cases hi : cfg.label i ∈ selList s sel
  · rw [if_pos hi, if_pos (hseli.1 hi)]
    have hflat : ∀ (l : List MeasTerm) (f : MeasTerm → ZMod 2),
        ((l.flatMap (toDataTerm sup)).map f).sum = (l.map fun t => ((toDataTerm sup t).map f).sum).sum := by
      intro l f
      induction l with
      | nil => rfl
      | cons t l ih => simp only [List.flatMap_cons, List.map_append, List.sum_append, List.map_cons, List.sum_cons, ih]
    rw [hflat, ancTargets_sum _ (List.Perm.refl _), hnr, if_pos (by omega)]
    congr 1
    · rw [Finset.sum_eq_single i]
      · simp only [Matrix.one_apply_eq, ne_eq, one_ne_zero, not_false_eq_true, if_true, Bool.true_eq_false,
          false_and, if_false, add_zero, toDataTerm, not_true, List.map_map]
        congr 1
        apply List.map_congr_left
        intro q hq
        cases hgq : sup.get? (cfg.label i) with
        | none => rw [hgq] at hq; simp at hq
        | some qs =>
          rw [hgq] at hq
          obtain ⟨x, hx, hx'⟩ := hg2 _ _ hgq q hq
          simp [recOf, hx, hx']
      · intro j _ hj; simp [Matrix.one_apply_ne hj.symm]
      · simp
    · have hVU : mod2 V = mod2 (gateProd (gates (r + 1))) := by
        have h1 : mod2 V * mod2 (gateProd (gates (r + 1))) = 1 := by
          apply mul_right_cancel_det hGr
          rw [mul_assoc, ← hstep, ← mod2_mul, hV, one_mul]
        calc mod2 V = mod2 V * (mod2 (gateProd (gates (r + 1))) * mod2 (gateProd (gates (r + 1)))) := by
              rw [hinv, mul_one]
          _ = _ := by rw [← mul_assoc, h1, one_mul]
      rw [← hVU, Matrix.mulVec, dotProduct]
      refine Finset.sum_congr rfl fun j _ => ?_
      have hp := pattern_mul (V i j) (hodd i j) (syn r j)
      refine Eq.trans ?_ hp
      simp only [Matrix.map_apply]
      by_cases hne : ((V i j : Int) : Rat) ≠ 0
      · rw [if_pos hne]
        refine (if_pos hne).trans ?_
        obtain ⟨x1, hx1, hw1⟩ := hanc j 1 (by omega) (by omega) (by omega)
        simp only [Nat.cast_one] at hx1
        have t2 : ((toDataTerm sup (cfg.label j, -2)).map fun t => w (recOf g t)).sum = outcome reset syn j r := by
          simp only [toDataTerm]
          rw [if_pos (by decide)]
          simp only [List.map_cons, List.map_nil, List.sum_cons, List.sum_nil, add_zero, recOf]
          rw [show (-2 : Int) + 1 = -1 from rfl, hx1]
          simpa using hw1
        rw [t2]
        cases reset with
        | true => cases r <;> simp [outcome]
        | false =>
          cases r with
          | zero => simp [outcome]
          | succ r =>
            obtain ⟨x2, hx2, hw2⟩ := hanc j 2 (by omega) (by omega) (by omega)
            simp only [Nat.cast_ofNat] at hx2
            have t3 : ((toDataTerm sup (cfg.label j, -3)).map fun t => w (recOf g t)).sum =
                outcome false syn j r := by
              simp only [toDataTerm]
              rw [if_pos (by decide)]
              simp only [List.map_cons, List.map_nil, List.sum_cons, List.sum_nil, add_zero, recOf]
              rw [show (-3 : Int) + 1 = -2 from rfl, hx2]
              simpa using hw2
            rw [t3]
            simp only [outcome, Bool.false_eq_true, if_false, true_and]
            rw [if_pos (by omega), add_assoc, CharTwo.add_self_eq_zero, add_zero]
      · rw [if_neg hne]
        exact if_neg hne
  · rw [if_neg hi, if_neg (fun h => hi (hseli.2 h))]

/-- No gates: every detector from the second round on is 0, for every number of ancillas, every syndrome,
with and without reset. -/
theorem C24_memory_deterministic (hcfg : ConfigOk cfg) (hf : cfg.frame ≠ .gateIndependent)
    (getRec : Nat → String → Int → Except Err Int) (v : Nat → Int → ZMod 2) (reset : Bool)
    (syn : Nat → Fin cfg.n → ZMod 2) (hrec : FindsOutcomes getRec v reset syn)
    (hsyn : ∀ r, syn (r + 1) = syn r)
    (ancs : Nat → Option (List String)) (hs : ∀ r l, ancs r = some l → ∀ a ∈ l, a ∈ cfg.anc) (r : Nat) :
    ∃ c, (buildFromAnc (getRec (r + 1)) reset (ancs (r + 1))
        (beforeRound (cfg := cfg) (fun _ => []) getRec reset ancs (r + 1))).1 = .ok c ∧
      c.length = cfg.n ∧ ∀ d ∈ c, detValue (v (r + 1)) d = 0 := by
  have hgen : ∀ r, genAt (cfg := cfg) (fun _ => []) r = 1 := by
    intro r
    apply bits_eq_of_mod2 (isBits_genAt _ r) isBits_one
    induction r with
    | zero => simp only [genAt]; rw [mod2_emod]; rfl
    | succ r ih => rw [mod2_genAt_succ, ih]; simp [gateProd, mod2_one]
  refine C24_deterministic_partial hcfg hf (fun _ => []) (by simp) getRec v reset syn hrec ?_ ancs hs r ?_ ?_
  · intro r; rw [hsyn r]; simp [gateProd, mod2_one]
  · simp [gateProd, mod2_one]
  · rw [hgen, hgen]
    have hq : CleanQuotient (1 : cfg.Mat Int) 1 :=
      ⟨1, one_mul 1, fun a b => by
        by_cases h : a = b
        · subst h; right; simp
        · left; exact Matrix.one_apply_ne h⟩
    unfold FrameQuotient
    split <;> exact hq

/-- One kind of gate, applied or not before each round in any pattern, as the transversal CNOT and S
(`(G - 1)² = 0`) and the transversal H (`G² = 1`): every detector from the second round on is 0. -/
theorem C24_same_gate_deterministic (hcfg : ConfigOk cfg) (hf : cfg.frame ≠ .gateIndependent)
    (G : cfg.Mat Int) (hG : GateOk G) (hGG : G * G = 1 ∨ (G - 1) * (G - 1) = 0)
    (gates : Nat → List (cfg.Mat Int)) (hgates : ∀ r, gates r = [] ∨ gates r = [G])
    (getRec : Nat → String → Int → Except Err Int) (v : Nat → Int → ZMod 2) (reset : Bool)
    (syn : Nat → Fin cfg.n → ZMod 2) (hrec : FindsOutcomes getRec v reset syn)
    (hsyn : SyndromesFollow gates syn)
    (ancs : Nat → Option (List String)) (hs : ∀ r l, ancs r = some l → ∀ a ∈ l, a ∈ cfg.anc) (r : Nat) :
    ∃ c, (buildFromAnc (getRec (r + 1)) reset (ancs (r + 1)) (beforeRound gates getRec reset ancs (r + 1))).1 =
      .ok c ∧ c.length = cfg.n ∧ ∀ d ∈ c, detValue (v (r + 1)) d = 0 := by
  -- the inverse over the integers
  have hGsq : mod2 G * mod2 G = 1 := by
    rcases hGG with h | h
    · rw [← mod2_mul, h, mod2_one]
    · have hexp : (G - 1) * (G - 1) = G * G - G - G + 1 := by
        simp only [sub_mul, mul_sub, one_mul, mul_one]; abel
      have h2 : mod2 (G * G) = mod2 (G + G - 1) := by
        congr 1
        have := hexp.symm.trans h
        calc G * G = (G * G - G - G + 1) + (G + G - 1) := by abel
          _ = G + G - 1 := by rw [this, zero_add]
      rw [← mod2_mul, h2]
      ext a b
      simp only [mod2, Matrix.map_apply, Matrix.sub_apply, Matrix.add_apply, Int.cast_sub, Int.cast_add]
      rw [CharTwo.add_self_eq_zero, zero_sub, CharTwo.neg_eq]
      by_cases h : a = b
      · subst h; simp
      · simp [Matrix.one_apply_ne h]
  have hinvG : ∃ H : cfg.Mat Int, H * G = 1 ∧ ∀ a b, H a b = 0 ∨ Odd (H a b) := by
    rcases hGG with h | h
    · refine ⟨G, h, fun a b => ?_⟩
      rcases hG.1 a b with h | h <;> rw [h]
      · left; rfl
      · right; decide
    · refine ⟨1 + 1 - G, ?_, ?_⟩
      · have hexp : (1 + 1 - G) * G = 1 - (G - 1) * (G - 1) := by
          simp only [sub_mul, mul_sub, add_mul, one_mul, mul_one]; abel
        rw [hexp, h, sub_zero]
      · intro a b
        simp only [Matrix.sub_apply, Matrix.add_apply]
        by_cases hab : a = b
        · subst hab
          -- the diagonal of `1 + N` with `N² = 0` over bits
          rcases hG.1 a a with h0 | h1
          · exfalso
            have hexp : (G - 1) * (G - 1) = G * G - G - G + 1 := by
              simp only [sub_mul, mul_sub, one_mul, mul_one]; abel
            have h3 : (G * G - G - G + 1) a a = 0 := by rw [← hexp, h]; rfl
            simp only [Matrix.add_apply, Matrix.sub_apply, h0, Matrix.one_apply_eq, Matrix.mul_apply] at h3
            have h4 : (0 : Int) ≤ ∑ j, G a j * G j a := by
              refine Finset.sum_nonneg fun j _ => ?_
              rcases hG.1 a j with h | h <;> rcases hG.1 j a with h' | h' <;> rw [h, h'] <;> decide
            omega
          · right; rw [h1]; simp
        · rw [Matrix.one_apply_ne hab]
          rcases hG.1 a b with h | h <;> rw [h]
          · left; rfl
          · right; decide
  have hbits : IsBits G := hG.1
  have hprod : ∀ r, mod2 (gateProd (gates r)) = 1 ∨ mod2 (gateProd (gates r)) = mod2 G := by
    intro r
    rcases hgates r with h | h <;> rw [h]
    · left; simp [gateProd, mod2_one]
    · right; simp [gateProd]
  have hgen : ∀ r, genAt gates r = 1 ∨ genAt gates r = G := by
    intro r
    have : mod2 (genAt gates r) = 1 ∨ mod2 (genAt gates r) = mod2 G := by
      induction r with
      | zero =>
        simp only [genAt]
        rw [mod2_emod]
        exact hprod 0
      | succ r ih =>
        rw [mod2_genAt_succ]
        rcases hprod (r + 1) with h | h <;> rcases ih with h' | h' <;> rw [h, h']
        · left; rw [mul_one]
        · right; rw [one_mul]
        · right; rw [mul_one]
        · left; exact hGsq
    rcases this with h | h
    · left; exact bits_eq_of_mod2 (isBits_genAt _ r) isBits_one (by rw [h, mod2_one])
    · right; exact bits_eq_of_mod2 (isBits_genAt _ r) hbits h
  obtain ⟨H, hH, hHodd⟩ := hinvG
  have hoddG : ∀ a b, G a b = 0 ∨ Odd (G a b) := by
    intro a b
    rcases hG.1 a b with h | h <;> rw [h]
    · left; rfl
    · right; decide
  have hodd1 : ∀ a b, (1 : cfg.Mat Int) a b = 0 ∨ Odd ((1 : cfg.Mat Int) a b) := by
    intro a b
    by_cases h : a = b
    · subst h; right; simp
    · left; exact Matrix.one_apply_ne h
  have hquot : ∀ r q, CleanQuotient (genAt gates r) (genAt gates q) := by
    intro r q
    rcases hgen r with h | h <;> rcases hgen q with h' | h' <;> rw [h, h']
    · exact ⟨1, one_mul 1, hodd1⟩
    · exact ⟨H, hH, hHodd⟩
    · exact ⟨G, mul_one G, hoddG⟩
    · exact ⟨1, one_mul G, hodd1⟩
  refine C24_deterministic_partial hcfg hf gates ?_ getRec v reset syn hrec hsyn ancs hs r ?_ ?_
  · intro r U hU
    rcases hgates r with h | h <;> rw [h] at hU
    · simp at hU
    · simp only [List.mem_singleton] at hU; rw [hU]; exact hG
  · rcases hprod (r + 1) with h | h <;> rw [h]
    · rw [mul_one]
    · exact hGsq
  · unfold FrameQuotient
    split
    · exact hquot _ _
    · exact hquot _ _

/-- Lookup used in the counterexamples: three measurements per round, in the order a, b, c. -/
def lookup3 (q : String) (k : Int) : Except Err Int :=
  match q with
  | "a" => .ok (3 * k)
  | "b" => .ok (3 * k + 1)
  | "c" => .ok (3 * k + 2)
  | _ => .error .keyError

/-- Matrix of a gate that multiplies generator `i` by generator `j`. -/
def addGate (cfg : Config) (i j : Nat) : cfg.Mat Int :=
  fun a b => if a = b then 1 else if a.val = i ∧ b.val = j then 1 else 0

instance (U : cfg.Mat Int) : Decidable (GateOk U) :=
  let bits (n : Nat) (f : Fin n → Fin n → Int) : Decidable (∀ a b, f a b = 0 ∨ f a b = 1) := inferInstance
  @instDecidableAnd _ _ (bits _ U) inferInstance

/-- The hypotheses of `C24_same_gate_deterministic` on the gate are met by a CNOT between two ancillas,
and a run with it gives detectors that compare the right outcomes. -/
example : GateOk (addGate (twoAnc .preGate) 0 1) ∧
    (addGate (twoAnc .preGate) 0 1 - 1) * (addGate (twoAnc .preGate) 0 1 - 1) = 0 ∧
    ((buildFromAnc lookup3 true none (beforeRound (cfg := twoAnc .preGate)
      (fun r => if r = 1 then [addGate _ 0 1] else []) (fun _ => lookup3) true (fun _ => none) 1)).1.toOption.map
        fun c => c.map Instr.recs) = some [[-3, -2, -6], [-2, -5]] := by
  decide +kernel

/-- Two gates between rounds (a CNOT and the reversed CNOT): although the syndromes evolve as declared,
a detector of the second round is 1. -/
theorem C24_two_gates_wrong :
    let cfg := twoAnc .preGate
    let gates : Nat → List (cfg.Mat Int) := fun r => if r = 1 then [addGate cfg 0 1, addGate cfg 1 0] else []
    let syn : Nat → Fin cfg.n → ZMod 2 := fun r => if r = 0 then ![1, 0] else
      (mod2 (gateProd (gates 1))).mulVec ![1, 0]
    let v : Int → ZMod 2 := fun j =>
      if j = -3 then syn 1 ⟨0, by decide⟩ else if j = -2 then syn 1 ⟨1, by decide⟩ else if j = -6 then syn 0 ⟨0, by decide⟩ else syn 0 ⟨1, by decide⟩
    (∀ r, ∀ U ∈ gates r, GateOk U) ∧ SyndromesFollow gates syn ∧
    ((buildFromAnc lookup3 true none (beforeRound gates (fun _ => lookup3) true (fun _ => none) 1)).1.toOption.map
        fun c => c.map (detValue v)) = some [1, 1] := by
  intro cfg gates syn v
  refine ⟨?_, ?_, by decide +kernel⟩
  · intro r U hU
    simp only [gates] at hU
    split at hU
    · simp only [List.mem_cons, List.not_mem_nil, or_false] at hU
      rcases hU with rfl | rfl
      · decide +kernel
      · decide +kernel
    · simp at hU
  · intro r
    cases r with
    | zero => rfl
    | succ r =>
      have : gates (r + 2) = [] := by simp [gates]
      rw [this]
      simp [gateProd, mod2_one, syn]

/-- Three ancillas used in the counterexample below. -/
def threeAnc : Config := ⟨["a", "b", "c"], .preGate, [("a", []), ("b", []), ("c", [])]⟩

/-- One gate per round, each its own inverse, but three of them in succession: the real quotient of the
generators has an even non-zero entry and a detector of the third round is 1. -/
theorem C24_quotient_wrong :
    let cfg := threeAnc
    let gates : Nat → List (cfg.Mat Int) := fun r =>
      if r = 1 then [addGate cfg 1 2] else if r = 0 ∨ r = 2 then [addGate cfg 0 1] else []
    let syn : Nat → Fin cfg.n → ZMod 2 := fun r => if r = 0 then ![0, 0, 1] else if r = 1 then
      (mod2 (addGate cfg 1 2)).mulVec ![0, 0, 1] else
      (mod2 (addGate cfg 0 1)).mulVec ((mod2 (addGate cfg 1 2)).mulVec ![0, 0, 1])
    let v : Int → ZMod 2 := fun j => if j = -3 then syn 2 ⟨0, by decide⟩ else if j = -2 then syn 2 ⟨1, by decide⟩ else
      if j = -1 then syn 2 ⟨2, by decide⟩ else if j = -6 then syn 1 ⟨0, by decide⟩ else if j = -5 then syn 1 ⟨1, by decide⟩ else syn 1 ⟨2, by decide⟩
    (∀ r, ∀ U ∈ gates r, GateOk U ∧ mod2 U * mod2 U = 1) ∧ SyndromesFollow gates syn ∧
    ((buildFromAnc lookup3 true none (beforeRound gates (fun _ => lookup3) true (fun _ => none) 2)).1.toOption.map
        fun c => c.map (detValue v)) = some [1, 0, 0] := by
  intro cfg gates syn v
  refine ⟨?_, ?_, by decide +kernel⟩
  · intro r U hU
    simp only [gates] at hU
    split at hU
    · simp only [List.mem_cons, List.not_mem_nil, or_false] at hU
      subst hU
      decide +kernel
    · split at hU
      · simp only [List.mem_cons, List.not_mem_nil, or_false] at hU
        subst hU
        decide +kernel
      · simp at hU
  · intro r
    match r with
    | 0 => simp [gates, syn, gateProd]
    | 1 => simp [gates, syn, gateProd]
    | r + 2 =>
      have h3 : gates (r + 2 + 1) = [] := by simp [gates]
      rw [h3]
      simp [gateProd, mod2_one, syn]

end SurfaceSim.Props
