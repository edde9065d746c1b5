/-
C36, C37: `biased_prefactors`, `num_biased_ops` and `idle_error_probs`.
-/
import Verif.Lemmas.NoiseElems
import Verif.Model.IdleProbs
import Mathlib.Data.Finset.Card
import Mathlib.Algebra.Order.BigOperators.Group.List

namespace SurfaceSim.Props
open SurfaceSim

/-! ### C36 -/

theorem mem_pauliProduct (n : Nat) (op : List String) :
    op ∈ pauliProduct n ↔ op.length = n ∧ ∀ p ∈ op, p ∈ ["I", "X", "Y", "Z"] := by
  induction n generalizing op with
  | zero =>
    simp only [pauliProduct, List.mem_singleton]
    constructor
    · rintro rfl; simp
    · intro h; exact List.length_eq_zero_iff.1 h.1
  | succ n ih =>
    simp only [pauliProduct, List.mem_flatMap, List.mem_map]
    constructor
    · rintro ⟨p, hp, l, hl, rfl⟩
      obtain ⟨h1, h2⟩ := (ih l).1 hl
      refine ⟨by simp [h1], ?_⟩
      intro a ha
      rcases List.mem_cons.1 ha with rfl | ha
      · exact hp
      · exact h2 a ha
    · rintro ⟨h1, h2⟩
      cases op with
      | nil => simp at h1
      | cons p l =>
        exact ⟨p, h2 p (by simp), l, (ih l).2 ⟨by simpa using h1, fun a ha => h2 a (by simp [ha])⟩, rfl⟩

theorem pauliProduct_nodup (n : Nat) : (pauliProduct n).Nodup := by
  induction n with
  | zero => simp [pauliProduct]
  | succ n ih =>
    have hm : ∀ p : String, ((pauliProduct n).map (p :: ·)).Nodup := fun p =>
      ih.map (fun a b h => by simpa using h)
    have hd : ∀ p q : String, p ≠ q →
        ∀ a ∈ (pauliProduct n).map (p :: ·), ∀ b ∈ (pauliProduct n).map (q :: ·), a ≠ b := by
      intro p q hpq a ha b hb
      obtain ⟨a', -, rfl⟩ := List.mem_map.1 ha
      obtain ⟨b', -, rfl⟩ := List.mem_map.1 hb
      intro h
      simp at h
      exact hpq h.1
    simp only [pauliProduct, List.flatMap_cons, List.flatMap_nil, List.append_nil]
    rw [List.nodup_append, List.nodup_append, List.nodup_append]
    refine ⟨hm _, ⟨hm _, ⟨hm _, hm _, hd _ _ (by decide)⟩, ?_⟩, ?_⟩
    · intro a ha b hb
      rcases List.mem_append.1 hb with hb | hb
      · exact hd _ _ (by decide) a ha b hb
      · exact hd _ _ (by decide) a ha b hb
    · intro a ha b hb
      rcases List.mem_append.1 hb with hb | hb
      · exact hd _ _ (by decide) a ha b hb
      · rcases List.mem_append.1 hb with hb | hb
        · exact hd _ _ (by decide) a ha b hb
        · exact hd _ _ (by decide) a ha b hb

theorem pauliProduct_head (n : Nat) :
    pauliProduct n = List.replicate n "I" :: pauliOperators n := by
  induction n with
  | zero => rfl
  | succ n ih =>
    unfold pauliOperators
    conv_lhs => rw [pauliProduct]
    conv_rhs => rw [pauliProduct]
    rw [ih]
    simp [List.replicate_succ]

/-- The entries of `biased_prefactors` are indexed by the non-identity Pauli strings on `n` qubits, each
exactly once. -/
theorem C36_operators (n : Nat) :
    (pauliOperators n).Nodup ∧
    (∀ op, op ∈ pauliOperators n ↔
      op.length = n ∧ (∀ p ∈ op, p ∈ ["I", "X", "Y", "Z"]) ∧ ∃ p ∈ op, p ≠ "I") ∧
    (pauliOperators n).length = 4 ^ n - 1 := by
  have h := pauliProduct_nodup n
  rw [pauliProduct_head, List.nodup_cons] at h
  refine ⟨h.2, ?_, ?_⟩
  · intro op
    have hm := mem_pauliProduct n op
    rw [pauliProduct_head, List.mem_cons] at hm
    constructor
    · intro hop
      obtain ⟨h1, h2⟩ := hm.1 (Or.inr hop)
      refine ⟨h1, h2, ?_⟩
      by_contra hne
      push Not at hne
      have : op = List.replicate n "I" := List.eq_replicate_iff.2 ⟨h1, hne⟩
      exact h.1 (this ▸ hop)
    · rintro ⟨h1, h2, p, hp, hne⟩
      rcases hm.2 ⟨h1, h2⟩ with rfl | h'
      · exact absurd (List.eq_of_mem_replicate hp) hne
      · exact h'
  · have hl : (pauliProduct n).length = 4 ^ n := by
      clear h
      induction n with
      | zero => rfl
      | succ n ih =>
        simp only [pauliProduct, List.flatMap_cons, List.flatMap_nil, List.append_nil,
          List.length_append, List.length_map, ih]
        ring
    rw [pauliProduct_head] at hl
    simp at hl
    omega

theorem unbiased_length (P : String) (hP : P ∈ ["X", "Y", "Z"]) (n : Nat) :
    ((pauliProduct n).filter fun op => decide (P ∉ op)).length = 3 ^ n := by
  induction n with
  | zero => simp [pauliProduct]
  | succ n ih =>
    have hone : ∀ q : String, (((pauliProduct n).map (q :: ·)).filter fun op => decide (P ∉ op)).length =
        if P = q then 0 else 3 ^ n := by
      intro q
      by_cases h : P = q
      · subst h
        rw [if_pos rfl, List.length_eq_zero_iff, List.filter_eq_nil_iff]
        intro a ha
        obtain ⟨a', -, rfl⟩ := List.mem_map.1 ha
        simp
      · rw [if_neg h, ← ih, List.filter_map, List.length_map]
        congr 2
        funext op
        simp [h]
    simp only [pauliProduct, List.flatMap_cons, List.flatMap_nil, List.append_nil, List.filter_append,
      List.length_append, hone]
    simp only [List.mem_cons, List.not_mem_nil, or_false] at hP
    rcases hP with rfl | rfl | rfl <;> simp <;> ring

/-- The number of biased operators is `4^n - 3^n`. -/
theorem C36_num_biased (P : String) (hP : P ∈ ["X", "Y", "Z"]) (n : Nat) :
    ((pauliOperators n).filter fun op => decide (P ∈ op)).length = 4 ^ n - 3 ^ n := by
  have h1 := unbiased_length P hP n
  have h2 := (C36_operators n).2.2
  have hPI : P ≠ "I" := by
    simp only [List.mem_cons, List.not_mem_nil, or_false] at hP
    rcases hP with rfl | rfl | rfl <;> decide
  rw [pauliProduct_head, List.filter_cons_of_pos (by
    simp only [decide_eq_true_eq]
    intro h
    exact hPI (List.eq_of_mem_replicate h))] at h1
  have h3 := List.length_eq_length_filter_add (l := pauliOperators n) (fun op => decide (P ∈ op))
  have h4 : ((pauliOperators n).filter fun op => !decide (P ∈ op)) =
      (pauliOperators n).filter fun op => decide (P ∉ op) := by
    congr 1; funext op; simp
  rw [h4] at h3
  simp only [List.length_cons] at h1
  omega

/-- `num_biased_ops(n) = 4^n - 3^n`, the number of biased operators. -/
theorem C36_num_biased_ops (n : Nat) : numBiasedOps n = 4 ^ n - 3 ^ n := by
  have h : ∀ n, numBiasedOps (n + 1) = 3 * numBiasedOps n + 4 ^ n := by
    intro n
    unfold numBiasedOps
    rw [List.range_succ, List.map_append, List.sum_append]
    simp only [List.map_cons, List.map_nil, List.sum_cons, List.sum_nil]
    have e1 : n + 1 - 1 - n = 0 := by omega
    rw [e1, pow_zero, mul_one, add_zero]
    congr 1
    rw [← List.sum_map_mul_left]
    congr 1
    apply List.map_congr_left
    intro i hi
    have hi' : i < n := List.mem_range.1 hi
    have : n + 1 - 1 - i = (n - 1 - i) + 1 := by omega
    rw [this, pow_succ]
    ring
  have h' : ∀ n, numBiasedOps n + 3 ^ n = 4 ^ n := by
    intro n
    induction n with
    | zero => rfl
    | succ n ih =>
      rw [h, pow_succ, pow_succ]
      omega
  have := h' n
  omega

/-- **C36.** Whenever `biased_prefactors` returns, its entries sum to one, and entry by entry an
operator containing the biased Pauli has `f` times the weight `w` of the others; the weights are
non-negative for `f ≥ 0`. -/
theorem C36_prefactors (P : String) (f : Rat) (n : Nat) (fs : List Rat)
    (h : biasedPrefactors P f n = .ok fs) :
    fs.sum = 1 ∧ fs.length = 4 ^ n - 1 ∧
    ∃ w : Rat, fs = (pauliOperators n).map (fun op => if P ∈ op then f * w else w) ∧
      (0 ≤ f → P ∈ ["X", "Y", "Z"] → 1 ≤ n → 0 < w ∧ ∀ x ∈ fs, 0 ≤ x ∧ x ≤ 1) := by
  unfold biasedPrefactors at h
  simp only at h
  split at h
  · simp at h
  rename_i hd
  set D : Rat := ((pauliOperators n).filter fun op => decide (P ∈ op)).length * (f - 1) +
    (pauliOperators n).length with hD
  simp only [Except.ok.injEq] at h
  subst h
  have hsum := sum_ite_filter P f (pauliOperators n)
  have hmap : (pauliOperators n).map (fun op => if P ∈ op then f * (1 / D) else 1 / D) =
      (pauliOperators n).map (fun op => (if P ∈ op then f else 1) * (1 / D)) := by
    apply List.map_congr_left
    intro op _
    split <;> ring
  have hs : ((pauliOperators n).map (fun op => if P ∈ op then f * (1 / D) else 1 / D)).sum = 1 := by
    rw [hmap, List.sum_map_mul_right, hsum, ← hD]
    field_simp
  refine ⟨hs, ?_, 1 / D, rfl, ?_⟩
  · simpa using (C36_operators n).2.2
  · intro hf hP hn
    have hex : ∃ op ∈ pauliOperators n, P ∉ op := by
      obtain ⟨Q, hQ, hQP, hQI⟩ : ∃ Q ∈ ["I", "X", "Y", "Z"], P ≠ Q ∧ Q ≠ "I" := by
        by_cases hx : P = "X"
        · exact ⟨"Y", by simp, by rw [hx]; decide, by decide⟩
        · exact ⟨"X", by simp, hx, by decide⟩
      refine ⟨List.replicate n Q, ((C36_operators n).2.1 _).2 ⟨by simp, ?_, Q, ?_, hQI⟩, ?_⟩
      · intro p hp; rw [List.eq_of_mem_replicate hp]; exact hQ
      · exact List.mem_replicate.2 ⟨by omega, rfl⟩
      · intro h; exact hQP (List.eq_of_mem_replicate h)
    have hDpos : 0 < D := by
      have := biased_total_pos P f hf _ hex
      rw [hsum] at this
      exact this
    have hw : 0 < 1 / D := by positivity
    refine ⟨hw, ?_⟩
    have hnn : ∀ x ∈ (pauliOperators n).map (fun op => if P ∈ op then f * (1 / D) else 1 / D), 0 ≤ x := by
      intro x hx
      obtain ⟨op, -, rfl⟩ := List.mem_map.1 hx
      split <;> positivity
    intro x hx
    refine ⟨hnn x hx, ?_⟩
    rw [← hs]
    exact List.single_le_sum hnn x hx

/-- It returns for every `f ≥ 0`, every Pauli and every number of qubits `n ≥ 1`. -/
theorem C36_prefactors_defined (P : String) (hP : P ∈ ["X", "Y", "Z"]) (f : Rat) (hf : 0 ≤ f) (n : Nat)
    (hn : 1 ≤ n) : ∃ fs, biasedPrefactors P f n = .ok fs := by
  have hex : ∃ op ∈ pauliOperators n, P ∉ op := by
    obtain ⟨Q, hQ, hQP, hQI⟩ : ∃ Q ∈ ["I", "X", "Y", "Z"], P ≠ Q ∧ Q ≠ "I" := by
      by_cases hx : P = "X"
      · exact ⟨"Y", by simp, by rw [hx]; decide, by decide⟩
      · exact ⟨"X", by simp, hx, by decide⟩
    refine ⟨List.replicate n Q, ((C36_operators n).2.1 _).2 ⟨by simp, ?_, Q, ?_, hQI⟩, ?_⟩
    · intro p hp; rw [List.eq_of_mem_replicate hp]; exact hQ
    · exact List.mem_replicate.2 ⟨by omega, rfl⟩
    · intro h; exact hQP (List.eq_of_mem_replicate h)
  exact ⟨_, biasedPrefactors_value P f n _ rfl hex hf⟩

/-- Documented special cases: `f = 1` is the uniform (depolarizing) distribution, `f = 0` forbids the
biased operators. -/
theorem C36_special_factors (P : String) (hP : P ∈ ["X", "Y", "Z"]) (n : Nat) (hn : 1 ≤ n) :
    (∃ fs, biasedPrefactors P 1 n = .ok fs ∧ ∀ x ∈ fs, x = 1 / (4 ^ n - 1 : Rat)) ∧
    (∃ fs, biasedPrefactors P 0 n = .ok fs ∧
      ∀ p ∈ (pauliOperators n).zip fs, P ∈ p.1 → p.2 = 0) := by
  constructor
  · obtain ⟨fs, h⟩ := C36_prefactors_defined P hP 1 (by norm_num) n hn
    refine ⟨fs, h, ?_⟩
    obtain ⟨h1, h2, w, h3, -⟩ := C36_prefactors P 1 n fs h
    have hall : ∀ x ∈ fs, x = w := by
      intro x hx
      rw [h3] at hx
      obtain ⟨op, -, rfl⟩ := List.mem_map.1 hx
      split <;> ring
    have hrep : fs = List.replicate (4 ^ n - 1) w := List.eq_replicate_iff.2 ⟨h2, hall⟩
    have hpos : 1 < 4 ^ n := Nat.one_lt_pow (by omega) (by norm_num)
    have hcast : ((4 ^ n - 1 : Nat) : Rat) = 4 ^ n - 1 := by
      rw [Nat.cast_sub hpos.le]; norm_num
    have hw : (4 ^ n - 1 : Rat) * w = 1 := by
      rw [hrep, List.sum_replicate, nsmul_eq_mul, hcast] at h1
      exact h1
    have hne : (4 ^ n - 1 : Rat) ≠ 0 := by
      intro h0; rw [h0] at hw; simp at hw
    intro x hx
    rw [hall x hx]
    field_simp
    linarith
  · obtain ⟨fs, h⟩ := C36_prefactors_defined P hP 0 le_rfl n hn
    refine ⟨fs, h, ?_⟩
    obtain ⟨h1, h2, w, h3, -⟩ := C36_prefactors P 0 n fs h
    intro p hp hPp
    rw [h3, List.zip_map_right] at hp
    obtain ⟨⟨a, b⟩, hab, rfl⟩ := List.mem_map.1 hp
    have : a = b := by
      have hz : (pauliOperators n).zip (pauliOperators n) = (pauliOperators n).map fun q => (q, q) := by
        generalize pauliOperators n = l
        induction l with
        | nil => rfl
        | cons q qs ih => simp [ih]
      rw [hz] at hab
      obtain ⟨q, -, e⟩ := List.mem_map.1 hab
      simp at e
      exact e.1.symm.trans e.2
    subst this
    simp only [Prod.map, id] at hPp ⊢
    simp [hPp]

/-- Witness for C36. -/
example : biasedPrefactors "Z" 3 1 = .ok [1/5, 1/5, 3/5] := by decide +kernel

/-! ### C37 -/

theorem idle_ok {T1 T2 t : ℝ} (h1 : 0 < T1) (h2 : 0 < T2) (ht : 0 < t) :
    idleErrorProbsReal T1 T2 t = .ok (0.25 * (1 - Real.exp (-t / T1)), 0.25 * (1 - Real.exp (-t / T1)),
      0.5 * (1 - Real.exp (-t / T2)) - 0.25 * (1 - Real.exp (-t / T1))) := by
  simp [idleErrorProbsReal, not_le.2 h1, not_le.2 h2, not_le.2 ht]

/-- **C37.** For physical times the three results are probabilities: `x = y`, all non-negative, with
sum at most 3/4. -/
theorem C37_idle_probs (T1 T2 t : ℝ) (h1 : 0 < T1) (h2 : 0 < T2) (ht : 0 < t) (h12 : T2 ≤ 2 * T1) :
    ∃ x z, idleErrorProbsReal T1 T2 t = .ok (x, x, z) ∧ 0 ≤ x ∧ 0 ≤ z ∧ x + x + z ≤ 3 / 4 := by
  refine ⟨0.25 * (1 - Real.exp (-t / T1)),
    0.5 * (1 - Real.exp (-t / T2)) - 0.25 * (1 - Real.exp (-t / T1)), ?_, ?_, ?_, ?_⟩
  · simp [idleErrorProbsReal, not_le.2 h1, not_le.2 h2, not_le.2 ht]
  · have : Real.exp (-t / T1) ≤ 1 := by
      rw [Real.exp_le_one_iff]
      exact div_nonpos_of_nonpos_of_nonneg (by linarith) h1.le
    linarith
  · set w := Real.exp (-t / (2 * T1)) with hw
    have hu : Real.exp (-t / T1) = w * w := by
      rw [hw, ← Real.exp_add]
      congr 1
      field_simp
      ring
    have hv : Real.exp (-t / T2) ≤ w := by
      apply Real.exp_le_exp.2
      rw [div_le_div_iff₀ h2 (by linarith)]
      nlinarith
    rw [hu]
    nlinarith [sq_nonneg (1 - w)]
  · have e1 := Real.exp_pos (-t / T1)
    have e2 := Real.exp_pos (-t / T2)
    linarith

/-- The X and Y probabilities and the total error probability grow with the duration. -/
theorem C37_monotone (T1 T2 t t' : ℝ) (h1 : 0 < T1) (h2 : 0 < T2) (ht : 0 < t) (htt : t < t') :
    ∃ x z x' z', idleErrorProbsReal T1 T2 t = .ok (x, x, z) ∧
      idleErrorProbsReal T1 T2 t' = .ok (x', x', z') ∧ x < x' ∧ x + x + z < x' + x' + z' := by
  have ht' : 0 < t' := lt_trans ht htt
  refine ⟨_, _, _, _, idle_ok h1 h2 ht,
    idle_ok h1 h2 ht', ?_, ?_⟩
  · have : Real.exp (-t' / T1) < Real.exp (-t / T1) := by
      apply Real.exp_lt_exp.2
      rw [div_lt_div_iff_of_pos_right h1]; linarith
    linarith
  · have e1 : Real.exp (-t' / T1) < Real.exp (-t / T1) := by
      apply Real.exp_lt_exp.2
      rw [div_lt_div_iff_of_pos_right h1]; linarith
    have e2 : Real.exp (-t' / T2) < Real.exp (-t / T2) := by
      apply Real.exp_lt_exp.2
      rw [div_lt_div_iff_of_pos_right h2]; linarith
    linarith

/-- Non-positive arguments raise `ValueError`, and nothing else does. -/
theorem C37_raises (T1 T2 t : ℝ) :
    idleErrorProbsReal T1 T2 t = .error .valueError ↔ T1 ≤ 0 ∨ T2 ≤ 0 ∨ t ≤ 0 := by
  unfold idleErrorProbsReal
  split
  · simp_all
  split
  · simp_all
  split
  · simp_all
  · simp_all

/-- Without the condition `T2 ≤ 2 T1` the Z probability is negative for short times: the check in
`DecoherenceNoiseModel.idle` is necessary. -/
theorem C37_condition_necessary (T1 T2 : ℝ) (h1 : 0 < T1) (h12 : 2 * T1 < T2) :
    ∃ t x z, 0 < t ∧ idleErrorProbsReal T1 T2 t = .ok (x, x, z) ∧ z < 0 := by
  have h2 : 0 < T2 := by linarith
  have ht : 0 < (T2 - 2 * T1) / 4 := by linarith
  set t := (T2 - 2 * T1) / 4 with htd
  refine ⟨t, _, _, ht, idle_ok h1 h2 ht, ?_⟩
  have e1 : 1 - t / T2 ≤ Real.exp (-t / T2) := by
    have := Real.add_one_le_exp (-t / T2)
    have e : -t / T2 = -(t / T2) := by ring
    rw [e] at this ⊢
    linarith
  have e2 : Real.exp (-t / T1) ≤ T1 / (T1 + t) := by
    have h := Real.add_one_le_exp (t / T1)
    have hp : 0 < t / T1 + 1 := by positivity
    have e : Real.exp (-t / T1) = (Real.exp (t / T1))⁻¹ := by
      rw [← Real.exp_neg]; congr 1; ring
    rw [e]
    have : T1 / (T1 + t) = (t / T1 + 1)⁻¹ := by field_simp; ring
    rw [this]
    exact inv_anti₀ hp h
  have e3 : 1 - T1 / (T1 + t) = t / (T1 + t) := by field_simp; ring
  have e4 : t / T2 < t / (2 * (T1 + t)) := by
    apply div_lt_div_of_pos_left ht (by linarith)
    linarith
  have e5 : t / (2 * (T1 + t)) = (t / (T1 + t)) / 2 := by field_simp
  linarith

/-- The Z probability alone is not monotone in the duration. -/
theorem C37_z_not_monotone : ∃ T1 T2 t t' x z x' z' : ℝ, 0 < T1 ∧ 0 < T2 ∧ T2 < 2 * T1 ∧ 0 < t ∧ t < t' ∧
    idleErrorProbsReal T1 T2 t = .ok (x, x, z) ∧ idleErrorProbsReal T1 T2 t' = .ok (x', x', z') ∧
    z' < z := by
  refine ⟨10, 1, 3, 100, _, _, _, _, by norm_num, by norm_num, by norm_num, by norm_num, by norm_num,
    idle_ok (by norm_num) (by norm_num) (by norm_num), idle_ok (by norm_num) (by norm_num) (by norm_num), ?_⟩
  have e0 : (-3 / 1 : ℝ) = -3 := by norm_num
  have e0' : (-100 / 1 : ℝ) = -100 := by norm_num
  rw [e0, e0']
  have a1 : Real.exp (-3) ≤ 1/4 := by
    have := Real.add_one_le_exp (3 : ℝ)
    rw [Real.exp_neg]
    have : (Real.exp 3)⁻¹ ≤ (4 : ℝ)⁻¹ := inv_anti₀ (by norm_num) (by linarith)
    linarith
  have a2 : 7/10 ≤ Real.exp (-3 / 10) := by
    have := Real.add_one_le_exp (-3/10 : ℝ)
    linarith
  have a3 : 0 < Real.exp (-100) := Real.exp_pos _
  have a4 : Real.exp (-100 / 10) ≤ 1/11 := by
    have h := Real.add_one_le_exp (10 : ℝ)
    have e : (-100 / 10 : ℝ) = -10 := by norm_num
    rw [e, Real.exp_neg]
    have : (Real.exp 10)⁻¹ ≤ (11 : ℝ)⁻¹ := inv_anti₀ (by norm_num) (by linarith)
    linarith
  linarith

end SurfaceSim.Props
