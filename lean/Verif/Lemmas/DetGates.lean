/-
The detectors object in a circuit whose gates all declare the same involution.
-/
import Verif.Lemmas.DetMemory
import Verif.Lemmas.DictUpdate
import Verif.Props.Detectors
import Verif.Props.DetUpdate

namespace SurfaceSim
open Spec Detectors Props
variable {cfg : Config}

/-- An involution mod 2 whose exact inverse has the same zeros. -/
structure CleanInvolution (U : cfg.Mat Int) : Prop where
  bits : IsBits U
  inv : mod2 U * mod2 U = 1
  quot : ∃ W : cfg.Mat Int, W * U = 1 ∧ ∀ a b, W a b = 0 ∨ Odd (W a b)

/-- `U` or the identity. -/
def powOf (U : cfg.Mat Int) (b : Bool) : cfg.Mat Int := if b then U else 1

theorem CleanInvolution.det {U : cfg.Mat Int} (h : CleanInvolution U) : (mod2 U).det ≠ 0 := by
  intro h0
  have := congrArg Matrix.det h.inv
  rw [Matrix.det_mul, h0] at this
  simp at this

theorem CleanInvolution.gateOk {U : cfg.Mat Int} (h : CleanInvolution U) : GateOk U := ⟨h.bits, h.det⟩

theorem powOf_det {U : cfg.Mat Int} (h : CleanInvolution U) (b : Bool) : (mod2 (powOf U b)).det ≠ 0 := by
  cases b
  · simp [powOf, mod2_one]
  · exact h.det

theorem powOf_sq {U : cfg.Mat Int} (h : CleanInvolution U) (b : Bool) : mod2 (powOf U b) * mod2 (powOf U b) = 1 := by
  cases b
  · simp [powOf, mod2_one]
  · exact h.inv

theorem odd_of_bits {V : cfg.Mat Int} (h : IsBits V) (a b : Fin cfg.n) : V a b = 0 ∨ Odd (V a b) := by
  rcases h a b with h | h
  · exact Or.inl h
  · exact Or.inr (by rw [h]; decide)

/-- The quotients that occur. -/
theorem powOf_quot {U : cfg.Mat Int} (h : CleanInvolution U) (a b : Bool) :
    ∃ V : cfg.Mat Int, V * powOf U b = powOf U a ∧ (∀ i j, V i j = 0 ∨ Odd (V i j)) ∧
      mod2 V = mod2 (powOf U (xor a b)) := by
  obtain ⟨W, hW, ho⟩ := h.quot
  cases a <;> cases b
  · exact ⟨1, by simp [powOf], odd_of_bits isBits_one, by simp [powOf]⟩
  · refine ⟨W, by simpa [powOf] using hW, ho, ?_⟩
    have h1 : mod2 W * mod2 U = 1 := by rw [← mod2_mul, hW, mod2_one]
    calc mod2 W = mod2 W * (mod2 U * mod2 U) := by rw [h.inv, mul_one]
      _ = mod2 U := by rw [← mul_assoc, h1, one_mul]
  · exact ⟨U, by simp [powOf], odd_of_bits h.bits, by simp [powOf]⟩
  · exact ⟨1, by simp [powOf], odd_of_bits isBits_one, by simp [powOf]⟩

/-- The generators `A` of the last round and `B` of this one differ by `N`, and the exact quotients have the zeros of `N`. -/
structure FrameSteps (A B : cfg.Mat Int) (N : cfg.Mat (ZMod 2)) : Prop where
  detA : (mod2 A).det ≠ 0
  detB : (mod2 B).det ≠ 0
  fwd : ∃ V : cfg.Mat Int, V * B = A ∧ (∀ i j, V i j = 0 ∨ Odd (V i j)) ∧ mod2 V = N
  bwd : ∃ V : cfg.Mat Int, V * A = B ∧ (∀ i j, V i j = 0 ∨ Odd (V i j)) ∧ mod2 V = N

theorem powOf_steps {U : cfg.Mat Int} (h : CleanInvolution U) (a b : Bool) :
    FrameSteps (powOf U a) (powOf U b) (mod2 (powOf U (xor a b))) := by
  refine ⟨powOf_det h a, powOf_det h b, powOf_quot h a b, ?_⟩
  rw [Bool.xor_comm]
  exact powOf_quot h b a

/-- All ancillas are active, `r` rounds have been built, and these are the generators. -/
structure DetG (r : Nat) (A B : cfg.Mat Int) (d : State cfg) : Prop where
  wf : DetWF d
  active : ∀ i, isActive d (cfg.label i) = true
  rounds : ∀ i, nrOf d.rounds (cfg.label i) = r
  prev : d.prev = A
  curr : d.curr = B
  order : d.order = List.finRange cfg.n

theorem DetAt.toG (hn : cfg.anc.Nodup) {anc : List String} {r : Nat} {d : State cfg} (h : DetAt anc r d)
    (hall : ∀ a ∈ cfg.anc, a ∈ anc) : DetG r 1 1 d := by
  obtain ⟨h, rfl, hv, hr, hg, ha, hi, hc⟩ := h
  have ht := track hn h hv hr
  obtain ⟨h1, h2, h3⟩ := noGate_mats h hg
  refine ⟨afterHistory_inv h hv, fun i => ?_, fun i => ?_, h2, h1, h3⟩
  · have := ha _ (hall _ (label_mem i))
    rw [← ht.2 _ (label_mem i)] at this
    exact congrArg Prod.fst this
  · have := ha _ (hall _ (label_mem i))
    rw [← ht.2 _ (label_mem i)] at this
    exact congrArg Prod.snd this

/-- A gate. -/
theorem DetG.gateOf (hn : cfg.anc.Nodup) {D : Dict String (List String)}
    (hD : D.keys.Nodup) (hk : KnownAncillas cfg D) (hdet : (dictMat (cfg := cfg) D).det ≠ 0) {r : Nat} {A B B' : cfg.Mat Int}
    (hb : IsBits B') (hB : mod2 B' = dictMat D * mod2 B) {d : State cfg} (hd : DetG r A B d) :
    ∃ d', updateFromDict D d = (.ok (), d') ∧ DetG r A B' d' := by
  have h1 := (C23_update_from_dict_accepts hn D hD d).2 ⟨hk, hdet⟩
  obtain ⟨e1, e2, e3, e4, -⟩ := C23_update_from_dict_effect hn D hD d h1
  simp only [Call.exec] at h1 e1 e2 e3 e4
  obtain ⟨u, hu⟩ := isOk_eq h1
  refine ⟨_, hu, ?_⟩
  have hmat : ∃ V, (updateFromDict D d).2 = { d with curr := (V * d.curr).map (· % 2), order := List.finRange cfg.n } := by
    rcases updateFromDict_cases D d with ⟨e, he⟩ | ⟨V, -, he⟩
    · rw [he] at h1; simp [Except.isOk, Except.toBool] at h1
    · rw [he] at h1 ⊢
      rcases update_cases (List.finRange cfg.n) V d with ⟨e, he⟩ | ⟨-, he⟩
      · rw [he] at h1; simp [Except.isOk, Except.toBool] at h1
      · exact ⟨V, by rw [he]⟩
  obtain ⟨V, hV⟩ := hmat
  have hwf : DetWF (updateFromDict D d).2 := by
    rw [hV]; exact ⟨hd.wf.active, hd.wf.rounds, List.Perm.refl _⟩
  refine ⟨hwf, fun i => ?_, fun i => ?_, by rw [e2]; exact hd.prev, ?_, by rw [hV]⟩
  · unfold isActive; rw [e3]; exact hd.active i
  · rw [e4]; exact hd.rounds i
  · apply bits_eq_of_mod2 (by rw [hV]; exact isBits_emod _) hb
    rw [e1, hd.curr, hB]

/-- A gate that is an involution. -/
theorem DetG.gate (hn : cfg.anc.Nodup) {U : cfg.Mat Int} (hU : CleanInvolution U) {D : Dict String (List String)}
    (hD : D.keys.Nodup) (hk : KnownAncillas cfg D) (hDU : mod2 U = dictMat D) {r : Nat} {A : cfg.Mat Int} {b : Bool}
    {d : State cfg} (hd : DetG r A (powOf U b) d) :
    ∃ d', updateFromDict D d = (.ok (), d') ∧ DetG r A (powOf U (!b)) d' := by
  refine DetG.gateOf hn hD hk (by rw [← hDU]; exact hU.det) ?_ ?_ hd
  · cases b
    · exact hU.bits
    · exact isBits_one
  · rw [← hDU]
    cases b
    · simp [powOf, mod2_one]
    · simp only [powOf, if_true, Bool.not_true, Bool.false_eq_true, if_false, mod2_one]
      exact hU.inv.symm

/-- A circuit of detectors. -/
theorem run_detectors (ρ : Nat → ZMod 2) (c : Circuit) (hc : ∀ i ∈ c, i.gate = .DETECTOR) (st : FState Nat) :
    run ρ st (ops c) = { st with dets := (c.map (detValue (lookback st.recs))).reverse ++ st.dets } := by
  induction c generalizing st with
  | nil => rfl
  | cons i c ih =>
    have h1 : instrOps i = [Op.det i.recs] := by
      have := hc i (by simp)
      unfold instrOps
      rw [this]
    unfold ops
    rw [List.flatMap_cons, run_append, h1]
    have := ih (fun i hi => hc i (by simp [hi])) (run ρ st [Op.det i.recs])
    unfold ops at this
    rw [this]
    simp only [run_cons, run_nil, step, List.map_cons, List.reverse_cons, List.append_assoc, List.singleton_append]
    rfl

theorem pairsOk_detectors (c : Circuit) (hc : ∀ i ∈ c, i.gate = .DETECTOR) : PairsOk c := by
  refine ⟨fun i hi h => ?_, fun op ho => ?_⟩
  · rw [hc i hi] at h; simp [Gate.isTwoQubit] at h
  · obtain ⟨i, hi, ho⟩ := List.mem_flatMap.1 ho
    unfold instrOps at ho
    rw [hc i hi] at ho
    simp only [List.mem_singleton] at ho
    rw [ho]
    trivial

/-- Sums over a row of a quotient. -/
theorem sum_pattern {V : cfg.Mat Int} (hV : ∀ i j, V i j = 0 ∨ Odd (V i j)) (i : Fin cfg.n) (x : Fin cfg.n → ZMod 2) :
    (∑ j, if (V.map (Int.cast : Int → Rat)) i j ≠ 0 then x j else 0) = (mod2 V).mulVec x i := by
  rw [Matrix.mulVec, dotProduct]
  exact Finset.sum_congr rfl fun j _ => pattern_mul (V i j) (hV i j) (x j)

theorem sum_pattern_one (i : Fin cfg.n) (x : Fin cfg.n → ZMod 2) :
    (∑ j, if (1 : cfg.Mat Rat) i j ≠ 0 then x j else 0) = x i := by
  rw [Finset.sum_eq_single i]
  · simp
  · intro j _ hj; simp [Matrix.one_apply_ne hj.symm]
  · simp

/-- The detectors of a round: the gates since the last round act on the syndrome of this round or on the one of the
last round. -/
theorem DetG.roundOf (hcfg : ConfigOk cfg) (hf : cfg.frame ≠ .gateIndependent) {A B : cfg.Mat Int} {N : cfg.Mat (ZMod 2)} (hS : FrameSteps A B N)
    {r : Nat} {d : State cfg} (hd : DetG r A B d)
    (g : String → Int → Except Err Int) (look : String → Nat → Int) (reset : Bool) (sel : List String)
    (hs : ∀ x ∈ sel, x ∈ cfg.anc)
    (hl : ∀ (i : Fin cfg.n) (k : Nat), 1 ≤ k → k ≤ 3 → k ≤ r + 1 → g (cfg.label i) (-(k : Int)) = .ok (look (cfg.label i) k)) :
    ∃ c d', buildFromAnc g reset (some sel) d = (.ok c, d') ∧ PairsOk c ∧ DetG (r + 1) B B d' ∧
      ∀ ρ st, run ρ st (ops c) = { st with dets := ((List.finRange cfg.n).map fun i =>
        let L (j : Fin cfg.n) (k : Nat) := lookback st.recs (look (cfg.label j) k)
        let now j := L j 1 + if reset = false ∧ 1 ≤ r then L j 2 else 0
        let before j := if 1 ≤ r then L j 2 + (if reset = false ∧ 2 ≤ r then L j 3 else 0) else 0
        if cfg.label i ∈ sel then
          (if cfg.frame = .preGate then N.mulVec now i + before i
            else now i + N.mulVec before i) else 0).reverse ++ st.dets } := by
  have hnr : ∀ i, nrOf (bumped d) (cfg.label i) = r + 1 := fun i => by
    rw [nrOf_bumped d _ hd.wf (label_mem i), hd.active, hd.rounds]; rfl
  have hb : (mod2 (basisOf cfg d)).det ≠ 0 := by
    unfold basisOf
    split
    · rw [hd.curr]; exact hS.detB
    · rw [hd.prev]; exact hS.detA
    · simp [mod2_one]
  obtain ⟨C, hC⟩ := mulInv_exists d.curr (basisOf cfg d) hb
  obtain ⟨P, hP⟩ := mulInv_exists d.prev (basisOf cfg d) hb
  have key := buildFromAnc_frame hcfg d hd.wf g reset (some sel) (by intro l hl; cases hl; exact hs) hf C P hC hP (by
    intro i _ _ j k h1 h3 hk
    rw [hnr i] at hk
    exact ⟨_, hl j k h1 h3 (by omega)⟩)
  have hgate : ∀ i ∈ (frameTargets d C P reset).map (detInstr cfg g (selList d (some sel)) (d.total : Rat)),
      i.gate = .DETECTOR := by
    intro i hi
    obtain ⟨t, -, rfl⟩ := List.mem_map.1 hi
    rfl
  refine ⟨_, _, key, pairsOk_detectors _ hgate, ⟨⟨hd.wf.active, bumped_keys _ hd.wf, hd.wf.order⟩, hd.active, hnr,
    hd.curr, hd.curr, hd.order⟩, fun ρ st => ?_⟩
  rw [run_detectors ρ _ hgate]
  congr 3
  unfold frameTargets
  rw [hd.order, List.map_map, List.map_map]
  refine List.map_congr_left fun i _ => ?_
  simp only [Function.comp]
  rw [detValue_detInstr]
  have hsel : cfg.label i ∈ selList d (some sel) ↔ cfg.label i ∈ sel := by
    rw [mem_selList d hd.wf, hd.active i]; simp [Selects]
  simp only [hsel]
  split
  swap
  · rfl
  rw [ancTargets_sum _ (List.Perm.refl _), hnr]
  have hr1 : ∀ (j : Fin cfg.n) (k : Nat), 1 ≤ k → k ≤ 3 → k ≤ r + 1 → recOf g (cfg.label j, -(k : Int)) = look (cfg.label j) k := by
    intro j k h1 h2 h3
    unfold recOf
    rw [hl j k h1 h2 h3]
  have e1 : (∑ j, if C i j ≠ 0 then lookback st.recs (recOf g (cfg.label j, -1)) +
      (if reset = false ∧ 2 ≤ r + 1 then lookback st.recs (recOf g (cfg.label j, -2)) else 0) else 0) =
      ∑ j, if C i j ≠ 0 then lookback st.recs (look (cfg.label j) 1) +
        (if reset = false ∧ 1 ≤ r then lookback st.recs (look (cfg.label j) 2) else 0) else 0 := by
    refine Finset.sum_congr rfl fun j _ => ?_
    have h1 := hr1 j 1 (by omega) (by omega) (by omega)
    simp only [Nat.cast_one] at h1
    rw [h1]
    by_cases hr : 1 ≤ r
    · have h2 := hr1 j 2 (by omega) (by omega) (by omega)
      simp only [Nat.cast_ofNat] at h2
      rw [h2]
      simp [hr]
    · simp [hr]
  have e2 : (if 2 ≤ r + 1 then ∑ j, if P i j ≠ 0 then lookback st.recs (recOf g (cfg.label j, -2)) +
      (if reset = false ∧ 3 ≤ r + 1 then lookback st.recs (recOf g (cfg.label j, -3)) else 0) else 0 else 0) =
      ∑ j, if P i j ≠ 0 then (if 1 ≤ r then lookback st.recs (look (cfg.label j) 2) +
        (if reset = false ∧ 2 ≤ r then lookback st.recs (look (cfg.label j) 3) else 0) else 0) else 0 := by
    by_cases hr : 1 ≤ r
    · rw [if_pos (by omega)]
      refine Finset.sum_congr rfl fun j _ => ?_
      have h2 := hr1 j 2 (by omega) (by omega) (by omega)
      simp only [Nat.cast_ofNat] at h2
      rw [h2]
      by_cases hr2 : 2 ≤ r
      · have h3 := hr1 j 3 (by omega) (by omega) (by omega)
        simp only [Nat.cast_ofNat] at h3
        rw [h3]
        simp [hr, hr2]
      · simp [hr, hr2]
    · rw [if_neg (by omega)]
      simp [hr]
  rw [e1, e2]
  unfold basisOf at hC hP
  cases hfr : cfg.frame with
  | gateIndependent => exact absurd hfr hf
  | preGate =>
    simp only [hfr, hd.prev, hd.curr] at hC hP
    obtain ⟨V, hV, hodd, hm⟩ := hS.bwd
    rw [mulInv_of_mul _ _ V hV (rat_det_ne_zero _ hS.detA)] at hC
    rw [mulInv_self _ hS.detA] at hP
    cases hC
    cases hP
    rw [sum_pattern hodd, sum_pattern_one, hm]
    simp
  | postGate =>
    simp only [hfr, hd.prev, hd.curr] at hC hP
    obtain ⟨V, hV, hodd, hm⟩ := hS.fwd
    rw [mulInv_self _ hS.detB] at hC
    rw [mulInv_of_mul _ _ V hV (rat_det_ne_zero _ hS.detB)] at hP
    cases hC
    cases hP
    rw [sum_pattern hodd, sum_pattern_one, hm]
    simp

/-- The same with gates that are involutions. -/
theorem DetG.round (hcfg : ConfigOk cfg) (hf : cfg.frame ≠ .gateIndependent) {U : cfg.Mat Int} (hU : CleanInvolution U)
    {r : Nat} {a b : Bool} {d : State cfg} (hd : DetG r (powOf U a) (powOf U b) d)
    (g : String → Int → Except Err Int) (look : String → Nat → Int) (reset : Bool) (sel : List String)
    (hs : ∀ x ∈ sel, x ∈ cfg.anc)
    (hl : ∀ (i : Fin cfg.n) (k : Nat), 1 ≤ k → k ≤ 3 → k ≤ r + 1 → g (cfg.label i) (-(k : Int)) = .ok (look (cfg.label i) k)) :
    ∃ c d', buildFromAnc g reset (some sel) d = (.ok c, d') ∧ PairsOk c ∧ DetG (r + 1) (powOf U b) (powOf U b) d' ∧
      ∀ ρ st, run ρ st (ops c) = { st with dets := ((List.finRange cfg.n).map fun i =>
        let L (j : Fin cfg.n) (k : Nat) := lookback st.recs (look (cfg.label j) k)
        let now j := L j 1 + if reset = false ∧ 1 ≤ r then L j 2 else 0
        let before j := if 1 ≤ r then L j 2 + (if reset = false ∧ 2 ≤ r then L j 3 else 0) else 0
        if cfg.label i ∈ sel then
          (if cfg.frame = .preGate then (mod2 (powOf U (xor a b))).mulVec now i + before i
            else now i + (mod2 (powOf U (xor a b))).mulVec before i) else 0).reverse ++ st.dets } :=
  DetG.roundOf hcfg hf (powOf_steps hU a b) hd g look reset sel hs hl

/-- The detectors of a logical measurement. -/
theorem DetG.dataOf (hcfg : ConfigOk cfg) (hf : cfg.frame ≠ .gateIndependent) {A B : cfg.Mat Int} {N : cfg.Mat (ZMod 2)} (hS : FrameSteps A B N)
    {r : Nat} (hr : 1 ≤ r) {d : State cfg} (hd : DetG r A B d)
    (g : String → Int → Except Err Int) (look : String → Nat → Int) (reset : Bool) (sel : List String)
    (hs : ∀ x ∈ sel, x ∈ cfg.anc) (sup : Dict String (List String)) (stabs : List String)
    (hstabs : ∀ x ∈ stabs, x ∈ sup.keys)
    (hsup : ∀ x qs, sup.get? x = some qs → ∀ q ∈ qs, g q (-1) = .ok (look q 1))
    (hl : ∀ (i : Fin cfg.n) (k : Nat), 1 ≤ k → k ≤ 2 → k ≤ r → g (cfg.label i) (-(k : Int)) = .ok (look (cfg.label i) k)) :
    ∃ c d', buildFromData g sup reset stabs (some sel) d = (.ok c, d') ∧ PairsOk c ∧ DetG r B B d' ∧
      ∀ ρ st, run ρ st (ops c) = { st with dets := (((List.finRange cfg.n).filter (cfg.label · ∈ stabs)).map fun i =>
        let L (j : Fin cfg.n) (k : Nat) := lookback st.recs (look (cfg.label j) k)
        let before j := L j 1 + if reset = false ∧ 2 ≤ r then L j 2 else 0
        if cfg.label i ∈ sel then
          (((sup.get? (cfg.label i)).getD []).map fun q => lookback st.recs (look q 1)).sum +
            N.mulVec before i else 0).reverse ++ st.dets } := by
  have hnr : ∀ i, nrOf (bumped d) (cfg.label i) = r + 1 := fun i => by
    rw [nrOf_bumped d _ hd.wf (label_mem i), hd.active, hd.rounds]; rfl
  obtain ⟨V, hV, hodd, hm⟩ := hS.fwd
  have hC : mulInv d.curr d.curr = .ok 1 := by rw [hd.curr]; exact mulInv_self _ hS.detB
  have hP : mulInv d.prev d.curr = .ok (V.map (Int.cast : Int → Rat)) := by
    rw [hd.curr, hd.prev]; exact mulInv_of_mul _ _ V hV (rat_det_ne_zero _ hS.detB)
  have hperm : d.order.Perm (List.finRange cfg.n) := by rw [hd.order]
  have hD : dataDets d (bumped d) reset = .ok (d.order.map fun i =>
      (i, ancTargets d.order ((1 : cfg.Mat Rat) i) ((V.map (Int.cast : Int → Rat)) i)
        (nrOf (bumped d) (cfg.label i)) true reset)) := by
    unfold dataDets
    cases hfr : cfg.frame with
    | gateIndependent => exact absurd hfr hf
    | preGate => simp only [ancMeasForDetectors, hC, hP]
    | postGate => simp only [ancMeasForDetectors, hC, hP]
  have hsub : strictSubset sup.keys stabs = false := by
    unfold strictSubset NoiseModel.strictSuperset
    rw [Bool.and_eq_false_iff]
    right
    rw [List.any_eq_false]
    intro x hx
    simpa using hstabs x hx
  have hmem : ∀ i t, t ∈ ancTargets d.order ((1 : cfg.Mat Rat) i) ((V.map (Int.cast : Int → Rat)) i)
      (nrOf (bumped d) (cfg.label i)) true reset →
      t = (cfg.label i, -1) ∨ (∃ j, t = (cfg.label j, -2)) ∨ (2 ≤ r ∧ ∃ j, t = (cfg.label j, -3)) := by
    intro i t ht
    unfold ancTargets at ht
    rw [nonzero_one d.order hperm, hnr] at ht
    simp only [List.mem_append, List.mem_singleton] at ht
    rcases ht with ((rfl | ht) | ht) | ht
    · exact Or.inl rfl
    · split at ht
      · obtain ⟨j, -, rfl⟩ := List.mem_map.1 ht
        exact Or.inr (Or.inl ⟨j, rfl⟩)
      · simp at ht
    · simp at ht
    · split at ht
      · rename_i h3
        obtain ⟨j, -, rfl⟩ := List.mem_map.1 ht
        exact Or.inr (Or.inr ⟨by omega, j, rfl⟩)
      · simp at ht
  have heq := buildFromData_eq hcfg d hd.wf g sup reset stabs (some sel) (by intro l hl; cases hl; exact hs) hsub _ hD
    (by
      intro x hx hst' t ht h1
      obtain ⟨i, -, rfl⟩ := List.mem_map.1 hx
      rcases hmem i t ht with rfl | ⟨j, rfl⟩ | ⟨-, j, rfl⟩
      · exact hstabs _ hst'
      · simp at h1
      · simp at h1)
    (by
      intro x hx hst' _ t ht
      obtain ⟨i, -, rfl⟩ := List.mem_map.1 hx
      obtain ⟨u, hu, htu⟩ := List.mem_flatMap.1 ((mem_removePairs _ _).1 ht).1
      rcases hmem i u hu with rfl | ⟨j, rfl⟩ | ⟨hr, j, rfl⟩
      · simp only [toDataTerm, ne_eq, not_true, if_false] at htu
        obtain ⟨q, hq, rfl⟩ := List.mem_map.1 htu
        cases hgq : sup.get? (cfg.label i) with
        | none => rw [hgq] at hq; simp at hq
        | some qs =>
          rw [hgq] at hq
          exact ⟨_, hsup _ _ hgq q hq⟩
      · simp only [toDataTerm] at htu
        rw [if_pos (by decide)] at htu
        simp only [List.mem_singleton] at htu
        subst htu
        exact ⟨_, hl j 1 (by omega) (by omega) (by omega)⟩
      · simp only [toDataTerm] at htu
        rw [if_pos (by decide)] at htu
        simp only [List.mem_singleton] at htu
        subst htu
        exact ⟨_, hl j 2 (by omega) (by omega) (by omega)⟩)
  refine ⟨_, _, heq, pairsOk_detectors _ ?_, ⟨⟨hd.wf.active, hd.wf.rounds, hd.wf.order⟩, hd.active, hd.rounds, hd.curr,
    hd.curr, hd.order⟩, fun ρ st => ?_⟩
  · intro i hi
    obtain ⟨t, -, rfl⟩ := List.mem_map.1 hi
    rfl
  rw [run_detectors ρ _ (by
    intro i hi
    obtain ⟨t, -, rfl⟩ := List.mem_map.1 hi
    rfl)]
  congr 3
  rw [List.map_map, List.map_map, List.filter_map, List.map_map, hd.order]
  refine List.map_congr_left fun i _ => ?_
  simp only [Function.comp]
  rw [detValue_detInstr]
  have hsel : cfg.label i ∈ selList d (some sel) ↔ cfg.label i ∈ sel := by
    rw [mem_selList d hd.wf, hd.active i]; simp [Selects]
  simp only [hsel]
  split
  swap
  · rfl
  have hflat : ∀ (l : List MeasTerm) (f : MeasTerm → ZMod 2),
      ((l.flatMap (toDataTerm sup)).map f).sum = (l.map fun t => ((toDataTerm sup t).map f).sum).sum := by
    intro l f
    induction l with
    | nil => rfl
    | cons t l ih => simp only [List.flatMap_cons, List.map_append, List.sum_append, List.map_cons, List.sum_cons, ih]
  rw [hflat, ancTargets_sum _ (List.Perm.refl _), hnr, if_pos (by omega)]
  congr 1
  · rw [Finset.sum_eq_single i]
    · simp only [Matrix.one_apply_eq, ne_eq, one_ne_zero, not_false_eq_true, if_true, Bool.true_eq_false,
        false_and, if_false, add_zero, toDataTerm, not_true, List.map_map]
      congr 1
      apply List.map_congr_left
      intro q hq
      cases hgq : sup.get? (cfg.label i) with
      | none => rw [hgq] at hq; simp at hq
      | some qs =>
        rw [hgq] at hq
        simp [recOf, hsup _ _ hgq q hq]
    · intro j _ hj; simp [Matrix.one_apply_ne hj.symm]
    · simp
  · rw [← hm, ← sum_pattern hodd]
    refine Finset.sum_congr rfl fun j _ => ?_
    have h1 := hl j 1 (by omega) (by omega) (by omega)
    simp only [Nat.cast_one] at h1
    have t2 : ((toDataTerm sup (cfg.label j, -2)).map fun t => lookback st.recs (recOf g t)).sum =
        lookback st.recs (look (cfg.label j) 1) := by
      simp only [toDataTerm]
      rw [if_pos (by decide)]
      simp only [List.map_cons, List.map_nil, List.sum_cons, List.sum_nil, add_zero, recOf]
      rw [show (-2 : Int) + 1 = -1 from rfl, h1]
    rw [t2]
    by_cases h2 : reset = false ∧ 2 ≤ r
    · have h3 := hl j 2 (by omega) (by omega) (by omega)
      simp only [Nat.cast_ofNat] at h3
      have t3 : ((toDataTerm sup (cfg.label j, -3)).map fun t => lookback st.recs (recOf g t)).sum =
          lookback st.recs (look (cfg.label j) 2) := by
        simp only [toDataTerm]
        rw [if_pos (by decide)]
        simp only [List.map_cons, List.map_nil, List.sum_cons, List.sum_nil, add_zero, recOf]
        rw [show (-3 : Int) + 1 = -2 from rfl, h3]
      have h4 : reset = false ∧ 3 ≤ r + 1 := ⟨h2.1, by omega⟩
      simp only [h2, h4, t3, and_self, if_true]
    · have h4 : ¬ (reset = false ∧ 3 ≤ r + 1) := fun h => h2 ⟨h.1, by omega⟩
      simp only [h2, h4, if_false]

/-- The same with gates that are involutions. -/
theorem DetG.data (hcfg : ConfigOk cfg) (hf : cfg.frame ≠ .gateIndependent) {U : cfg.Mat Int} (hU : CleanInvolution U)
    {r : Nat} (hr : 1 ≤ r) {a b : Bool} {d : State cfg} (hd : DetG r (powOf U a) (powOf U b) d)
    (g : String → Int → Except Err Int) (look : String → Nat → Int) (reset : Bool) (sel : List String)
    (hs : ∀ x ∈ sel, x ∈ cfg.anc) (sup : Dict String (List String)) (stabs : List String)
    (hstabs : ∀ x ∈ stabs, x ∈ sup.keys)
    (hsup : ∀ x qs, sup.get? x = some qs → ∀ q ∈ qs, g q (-1) = .ok (look q 1))
    (hl : ∀ (i : Fin cfg.n) (k : Nat), 1 ≤ k → k ≤ 2 → k ≤ r → g (cfg.label i) (-(k : Int)) = .ok (look (cfg.label i) k)) :
    ∃ c d', buildFromData g sup reset stabs (some sel) d = (.ok c, d') ∧ PairsOk c ∧ DetG r (powOf U b) (powOf U b) d' ∧
      ∀ ρ st, run ρ st (ops c) = { st with dets := (((List.finRange cfg.n).filter (cfg.label · ∈ stabs)).map fun i =>
        let L (j : Fin cfg.n) (k : Nat) := lookback st.recs (look (cfg.label j) k)
        let before j := L j 1 + if reset = false ∧ 2 ≤ r then L j 2 else 0
        if cfg.label i ∈ sel then
          (((sup.get? (cfg.label i)).getD []).map fun q => lookback st.recs (look q 1)).sum +
            (mod2 (powOf U (xor a b))).mulVec before i else 0).reverse ++ st.dets } :=
  DetG.dataOf hcfg hf (powOf_steps hU a b) hr hd g look reset sel hs sup stabs hstabs hsup hl

/-- The deactivation. -/
theorem DetG.deactivate {r : Nat} {A B : cfg.Mat Int} {d : State cfg} (hd : DetG r A B d) {anc : List String} (hanc : anc.Nodup)
    (hsub : ∀ x ∈ anc, x ∈ cfg.anc) : ∃ d', Detectors.deactivate anc d = (.ok (), d') := by
  have hok : (PyM.forEach anc (deactivateOne (cfg := cfg)) d).1.isOk = true := by
    refine forEach_deactivate_isOk _ hsub _ hanc fun x hx => ?_
    obtain ⟨i, rfl⟩ : ∃ i, cfg.label i = x := by
      obtain ⟨n, hn, rfl⟩ := List.getElem_of_mem (hsub x hx)
      exact ⟨⟨n, hn⟩, rfl⟩
    rw [get_of_isActive hd.wf (label_mem i), hd.active i]
  obtain ⟨u, hu⟩ := isOk_eq hok
  have e : Detectors.deactivate anc d = PyM.forEach anc (deactivateOne (cfg := cfg)) d := by
    unfold Detectors.deactivate
    rw [if_neg]
    rw [not_strictSuperset]
    · simp
    · rw [hd.wf.active]; exact hsub
  exact ⟨_, by rw [e]; exact hu⟩

end SurfaceSim
