/-
Sorting the corners of a convex polygon by the angle about their mean.
-/
import Verif.Spec.Plotter
import Mathlib.Data.List.Perm.Basic
import Mathlib.Tactic.Linarith
import Mathlib.Tactic.Ring
import Mathlib.Tactic.LinearCombination
import Mathlib.Tactic.FieldSimp
import Mathlib.Algebra.Order.BigOperators.Group.List

namespace SurfaceSim
open Spec Plotter

/-- Cross product. -/
def cross (u v : Rat × Rat) : Rat := u.1 * v.2 - u.2 * v.1

theorem sin_angle (u v : Rat × Rat) :
    ‖(⟨(u.2 : ℝ), (u.1 : ℝ)⟩ : ℂ)‖ * ‖(⟨(v.2 : ℝ), (v.1 : ℝ)⟩ : ℂ)‖ * Real.sin (angle v.1 v.2 - angle u.1 u.2) = -(cross u v : ℝ) := by
  unfold angle
  rw [Real.sin_sub]
  set a : ℂ := ⟨(u.2 : ℝ), (u.1 : ℝ)⟩ with ha
  set b : ℂ := ⟨(v.2 : ℝ), (v.1 : ℝ)⟩ with hb
  have h1 := Complex.norm_mul_cos_arg a
  have h2 := Complex.norm_mul_sin_arg a
  have h3 := Complex.norm_mul_cos_arg b
  have h4 := Complex.norm_mul_sin_arg b
  have e : ‖a‖ * ‖b‖ * (Real.sin b.arg * Real.cos a.arg - Real.cos b.arg * Real.sin a.arg)
      = (‖b‖ * Real.sin b.arg) * (‖a‖ * Real.cos a.arg) - (‖b‖ * Real.cos b.arg) * (‖a‖ * Real.sin a.arg) := by ring
  rw [e, h1, h2, h3, h4]
  simp only [ha, hb, cross]
  push_cast
  ring

theorem cross_nonpos {u v : Rat × Rat} (h : 0 ≤ Real.sin (angle v.1 v.2 - angle u.1 u.2)) : cross u v ≤ 0 := by
  have := sin_angle u v
  have h0 : (0 : ℝ) ≤ -(cross u v : ℝ) := by
    rw [← this]
    positivity
  exact_mod_cast (neg_nonneg.1 h0)

theorem sin_pos_of_cross {u v : Rat × Rat} (h : cross u v < 0) : 0 < Real.sin (angle v.1 v.2 - angle u.1 u.2) := by
  have := sin_angle u v
  have h0 : (0 : ℝ) < -(cross u v : ℝ) := by
    have : (cross u v : ℝ) < 0 := by exact_mod_cast h
    linarith
  rw [← this] at h0
  exact pos_of_mul_pos_right h0 (by positivity)

theorem angle_bounds (u : Rat × Rat) : -Real.pi < angle u.1 u.2 ∧ angle u.1 u.2 ≤ Real.pi :=
  ⟨Complex.neg_pi_lt_arg _, Complex.arg_le_pi _⟩

theorem sin_wrap {x : ℝ} (h1 : -(2 * Real.pi) ≤ x) (h2 : x ≤ -Real.pi) : 0 ≤ Real.sin x := by
  rw [← Real.sin_add_two_pi]
  exact Real.sin_nonneg_of_nonneg_of_le_pi (by linarith) (by linarith)

/-- Either the angle goes up with nothing in between, or it goes down from the largest one to the smallest one. -/
theorem angle_step {u v : Rat × Rat} {S : Rat × Rat → Prop} (h : cross u v < 0)
    (hS : ∀ w, S w → 0 < cross w v ∨ 0 < cross u w) :
    (angle u.1 u.2 < angle v.1 v.2 ∧ ∀ w, S w → ¬ (angle u.1 u.2 ≤ angle w.1 w.2 ∧ angle w.1 w.2 ≤ angle v.1 v.2)) ∨
    (angle v.1 v.2 < angle u.1 u.2 ∧ ∀ w, S w → angle v.1 v.2 < angle w.1 w.2 ∧ angle w.1 w.2 < angle u.1 u.2) := by
  have hp := sin_pos_of_cross h
  obtain ⟨u1, u2⟩ := angle_bounds u
  obtain ⟨v1, v2⟩ := angle_bounds v
  have hno : ∀ w, S w → ¬ (0 ≤ Real.sin (angle v.1 v.2 - angle w.1 w.2) ∧ 0 ≤ Real.sin (angle w.1 w.2 - angle u.1 u.2)) := by
    rintro w hw ⟨a, b⟩
    rcases hS w hw with h | h
    · exact absurd (cross_nonpos a) (not_le.2 h)
    · exact absurd (cross_nonpos b) (not_le.2 h)
  rcases lt_trichotomy (angle u.1 u.2) (angle v.1 v.2) with hlt | heq | hgt
  · have hpi : angle v.1 v.2 - angle u.1 u.2 < Real.pi := by
      by_contra hc
      have : Real.sin (angle v.1 v.2 - angle u.1 u.2 - 2 * Real.pi) = Real.sin (angle v.1 v.2 - angle u.1 u.2) := Real.sin_sub_two_pi _
      have h0 : Real.sin (angle v.1 v.2 - angle u.1 u.2 - 2 * Real.pi) ≤ 0 :=
        Real.sin_nonpos_of_nonpos_of_neg_pi_le (by linarith) (by linarith)
      linarith
    refine Or.inl ⟨hlt, fun w hw hc => hno w hw ⟨?_, ?_⟩⟩ <;>
      exact Real.sin_nonneg_of_nonneg_of_le_pi (by linarith) (by linarith)
  · rw [heq, sub_self, Real.sin_zero] at hp
    exact absurd hp (lt_irrefl _)
  · have hpi : angle v.1 v.2 - angle u.1 u.2 < -Real.pi := by
      by_contra hc
      have h0 : Real.sin (angle v.1 v.2 - angle u.1 u.2) ≤ 0 :=
        Real.sin_nonpos_of_nonpos_of_neg_pi_le (by linarith) (by linarith)
      linarith
    refine Or.inr ⟨hgt, fun w hw => ?_⟩
    obtain ⟨w1, w2⟩ := angle_bounds w
    constructor
    · by_contra hc
      push Not at hc
      exact hno w hw ⟨Real.sin_nonneg_of_nonneg_of_le_pi (by linarith) (by linarith), sin_wrap (by linarith) (by linarith)⟩
    · by_contra hc
      push Not at hc
      exact hno w hw ⟨sin_wrap (by linarith) (by linarith), Real.sin_nonneg_of_nonneg_of_le_pi (by linarith) (by linarith)⟩

/-- The mean of points. -/
def center (c : List (Rat × Rat)) : Rat × Rat := (mean (c.map Prod.fst), mean (c.map Prod.snd))

theorem center_perm {c c' : List (Rat × Rat)} (h : c.Perm c') : center c = center c' := by
  unfold center mean
  rw [(h.map Prod.fst).sum_eq, (h.map Prod.snd).sum_eq]
  simp [h.length_eq]

theorem sum_turn (p q : Rat × Rat) : ∀ c : List (Rat × Rat), (c.map (turn p q)).sum =
    (q.1 - p.1) * ((c.map Prod.snd).sum - c.length * p.2) - (q.2 - p.2) * ((c.map Prod.fst).sum - c.length * p.1)
  | [] => by simp
  | r :: c => by
    rw [List.map_cons, List.sum_cons, sum_turn p q c]
    simp only [turn, List.map_cons, List.sum_cons, List.length_cons]
    push_cast
    ring

theorem turn_center (p q : Rat × Rat) {c : List (Rat × Rat)} (hc : c ≠ []) :
    (c.length : Rat) * turn p q (center c) = (c.map (turn p q)).sum := by
  have h0 : (c.length : Rat) ≠ 0 := by
    simpa using hc
  rw [sum_turn]
  simp only [turn, center, mean, List.length_map]
  field_simp

theorem turn_cross (p q m : Rat × Rat) : turn p q m = cross (p - m) (q - m) := by
  simp only [turn, cross, Prod.fst_sub, Prod.snd_sub]
  ring

theorem sum_neg {α : Type} (f : α → Rat) {c : List α} (h : ∀ x ∈ c, f x ≤ 0) {x : α} (hx : x ∈ c) (hn : f x < 0) :
    (c.map f).sum < 0 := by
  induction c with
  | nil => simp at hx
  | cons y c ih =>
    rw [List.map_cons, List.sum_cons]
    have hr : (c.map f).sum ≤ 0 := by
      clear ih hx
      induction c with
      | nil => simp
      | cons z c ih =>
        rw [List.map_cons, List.sum_cons]
        have := ih (fun x hx => h x (by
          rcases List.mem_cons.1 hx with rfl | hx
          · simp
          · simp [hx]))
        have := h z (by simp)
        linarith
    rcases List.mem_cons.1 hx with rfl | hx
    · linarith
    · have := ih (fun x hx => h x (List.mem_cons_of_mem _ hx)) hx
      have := h y (by simp)
      linarith

namespace Spec.ClockwisePolygon
variable {c : List (Rat × Rat)}

theorem pt {i : Nat} (hi : i < c.length) : c.getD i (0, 0) = c[i] := by simp [hi]

theorem turn_lt (h : ClockwisePolygon c) {i j : Nat} (hi : i < c.length) (hj : j < c.length) (h1 : j ≠ i)
    (h2 : j ≠ (i + 1) % c.length) : turn c[i] (c[(i + 1) % c.length]'(Nat.mod_lt _ (by omega))) c[j] < 0 := by
  have := h.2 i hi j hj h1 h2
  rwa [pt hi, pt hj, pt (Nat.mod_lt _ (by omega))] at this

theorem third (h : ClockwisePolygon c) {i : Nat} : ∃ j < c.length, j ≠ i ∧ j ≠ (i + 1) % c.length := by
  have := h.1
  by_cases h0 : 0 ≠ i ∧ 0 ≠ (i + 1) % c.length
  · exact ⟨0, by omega, h0⟩
  · by_cases h1 : 1 ≠ i ∧ 1 ≠ (i + 1) % c.length
    · exact ⟨1, by omega, h1⟩
    · exact ⟨2, by omega, by omega⟩

theorem succ_ne (h : ClockwisePolygon c) {i : Nat} (hi : i < c.length) : (i + 1) % c.length ≠ i := by
  have := h.1
  by_cases e : i + 1 < c.length
  · rw [Nat.mod_eq_of_lt e]; omega
  · rw [show i + 1 = c.length by omega, Nat.mod_self]; omega

theorem turn_le (h : ClockwisePolygon c) {i : Nat} (hi : i < c.length) :
    ∀ r ∈ c, turn c[i] (c[(i + 1) % c.length]'(Nat.mod_lt _ (by omega))) r ≤ 0 := by
  intro r hr
  obtain ⟨j, hj, rfl⟩ := List.getElem_of_mem hr
  by_cases h1 : j = i
  · subst h1; simp [turn]
  · by_cases h2 : j = (i + 1) % c.length
    · subst h2
      simp only [turn]
      apply le_of_eq
      ring
    · exact (h.turn_lt hi hj h1 h2).le

theorem nodup (h : ClockwisePolygon c) : c.Nodup := by
  rw [List.nodup_iff_injective_get]
  rintro ⟨i, hi⟩ ⟨j, hj⟩ he
  simp only [List.get_eq_getElem] at he
  by_contra hne
  have hij : j ≠ i := fun e => hne (by simp [e])
  by_cases h2 : j = (i + 1) % c.length
  · obtain ⟨k, hk, k1, k2⟩ := h.third (i := i)
    have := h.turn_lt hi hk k1 k2
    subst h2
    rw [← he] at this
    simp [turn] at this
  · have := h.turn_lt hi hj hij h2
    rw [← he] at this
    simp [turn] at this

theorem center_lt (h : ClockwisePolygon c) {i : Nat} (hi : i < c.length) :
    turn c[i] (c[(i + 1) % c.length]'(Nat.mod_lt _ (by omega))) (center c) < 0 := by
  obtain ⟨k, hk, k1, k2⟩ := h.third (i := i)
  have hs := sum_neg (turn c[i] (c[(i + 1) % c.length]'(Nat.mod_lt _ (by omega)))) (h.turn_le hi) (List.getElem_mem hk) (h.turn_lt hi hk k1 k2)
  rw [← turn_center _ _ (by rintro rfl; simp at hi)] at hs
  have hp : (0 : Rat) < c.length := by exact_mod_cast (by omega : 0 < c.length)
  by_contra hc
  push Not at hc
  have := mul_nonneg hp.le hc
  linarith

/-- No corner is in the cone of two consecutive ones. -/
theorem cone (h : ClockwisePolygon c) {i k : Nat} (hi : i < c.length) (hk : k < c.length) (k1 : k ≠ i)
    (k2 : k ≠ (i + 1) % c.length) :
    0 < cross (c[k] - center c) (c[(i + 1) % c.length]'(Nat.mod_lt _ (by omega)) - center c) ∨ 0 < cross (c[i] - center c) (c[k] - center c) := by
  by_contra hc
  push Not at hc
  obtain ⟨hc1, hc2⟩ := hc
  have hAB := h.center_lt hi
  have hABP := h.turn_lt hi hk k1 k2
  have hf := h.center_lt hk
  have hfA := h.turn_le hk _ (List.getElem_mem hi)
  have hfB := h.turn_le hk _ (List.getElem_mem (Nat.mod_lt (i + 1) (show 0 < c.length by omega)))
  set A := c[i] with hA
  set B := c[(i + 1) % c.length]'(Nat.mod_lt _ (by omega)) with hB
  set P := c[k] with hP
  set Q := c[(k + 1) % c.length]'(Nat.mod_lt _ (by omega)) with hQ
  set m := center c with hm
  -- coefficients of the point in the cone, multiplied by the common denominator
  have e : turn A B m * turn P Q P = (turn A B m - cross (P - m) (B - m) - cross (A - m) (P - m)) * turn P Q m
      + cross (P - m) (B - m) * turn P Q A + cross (A - m) (P - m) * turn P Q B := by
    simp only [turn, cross, Prod.fst_sub, Prod.snd_sub]
    ring
  have e0 : turn P Q P = 0 := by simp [turn]
  have e1 : turn A B P = turn A B m - cross (P - m) (B - m) - cross (A - m) (P - m) := by
    simp only [turn, cross, Prod.fst_sub, Prod.snd_sub]
    ring
  rw [e0, mul_zero, ← e1] at e
  have p1 := mul_pos_of_neg_of_neg hABP hf
  have p2 := mul_nonneg_of_nonpos_of_nonpos hc1 hfA
  have p3 := mul_nonneg_of_nonpos_of_nonpos hc2 hfB
  linarith

/-- The angle of a point about the mean. -/
noncomputable def about (m p : Rat × Rat) : ℝ := angle (p.1 - m.1) (p.2 - m.2)

/-- Any arrangement of the corners by angle about the mean is the polygon again, perhaps started at another corner. -/
theorem of_sorted (h : ClockwisePolygon c) {u : List (Rat × Rat)} (hp : u.Perm c)
    (hs : u.Pairwise fun p q => about (center c) p ≤ about (center c) q) : ClockwisePolygon u := by
  have hlen := hp.length_eq
  have hn := h.nodup
  have hun : u.Nodup := hp.nodup_iff.2 hn
  have hle : ∀ i j (hi : i < u.length) (hj : j < u.length), i ≤ j → about (center c) u[i] ≤ about (center c) u[j] := by
    intro i j hi hj hij
    rcases Nat.lt_or_eq_of_le hij with h | rfl
    · exact List.pairwise_iff_getElem.1 hs i j hi hj h
    · exact le_refl _
  have key : ∀ i (hi : i < u.length), ∃ a, ∃ ha : a < c.length, u[i] = c[a] ∧
      u[(i + 1) % u.length]'(Nat.mod_lt _ (by omega)) = c[(a + 1) % c.length]'(Nat.mod_lt _ (by omega)) := by
    intro i hi
    obtain ⟨a, ha, hia⟩ := List.getElem_of_mem (hp.mem_iff.1 (List.getElem_mem hi))
    refine ⟨a, ha, hia.symm, ?_⟩
    have hb : (a + 1) % c.length < c.length := Nat.mod_lt _ (by omega)
    obtain ⟨k, hk, hkb⟩ := List.getElem_of_mem (hp.mem_iff.2 (List.getElem_mem hb))
    have hAB := h.center_lt ha
    rw [turn_cross] at hAB
    have hother : ∀ j (hj : j < u.length), j ≠ i → j ≠ k → ∃ b, ∃ hb : b < c.length, u[j] = c[b] ∧ b ≠ a ∧ b ≠ (a + 1) % c.length := by
      intro j hj j1 j2
      obtain ⟨b, hb, hjb⟩ := List.getElem_of_mem (hp.mem_iff.1 (List.getElem_mem hj))
      refine ⟨b, hb, hjb.symm, ?_, ?_⟩
      · rintro rfl
        exact j1 ((hun.getElem_inj_iff).1 (hjb.symm.trans hia))
      · rintro rfl
        exact j2 ((hun.getElem_inj_iff).1 (hjb.symm.trans hkb.symm))
    have hik : k ≠ i := by
      rintro rfl
      exact h.succ_ne ha ((hn.getElem_inj_iff).1 (hkb.symm.trans hia.symm))
    have hst := angle_step (S := fun w => ∃ b, ∃ hb : b < c.length, w = c[b] - center c ∧ b ≠ a ∧ b ≠ (a + 1) % c.length) hAB (by
      rintro w ⟨b, hb, rfl, b1, b2⟩
      exact h.cone ha hb b1 b2)
    have hang : ∀ p : Rat × Rat, angle (p - center c).1 (p - center c).2 = about (center c) p := fun _ => rfl
    rw [hang, hang] at hst
    have hA : about (center c) u[i] = about (center c) c[a] := by rw [hia]
    have hB : about (center c) u[k] = about (center c) (c[(a + 1) % c.length]) := by rw [hkb]
    rw [← hA, ← hB] at hst
    rcases hst with ⟨hlt, hno⟩ | ⟨hgt, hall⟩
    · have hik' : i < k := by
        by_contra hc
        exact absurd (hle k i hk hi (by omega)) (not_le.2 hlt)
      have : k = i + 1 := by
        by_contra hc
        obtain ⟨b, hb, eb, b1, b2⟩ := hother (i + 1) (by omega) (by omega) (by omega)
        refine hno _ ⟨b, hb, rfl, b1, b2⟩ ?_
        rw [hang, ← eb]
        exact ⟨hle _ _ _ _ (by omega), hle _ _ _ _ (by omega)⟩
      subst this
      simp only [Nat.mod_eq_of_lt hk]
      exact hkb
    · have hi' : i + 1 = u.length := by
        by_contra hc
        by_cases e : i + 1 = k
        · subst e
          exact absurd (hle i (i + 1) hi hk (by omega)) (not_le.2 hgt)
        · obtain ⟨b, hb, eb, b1, b2⟩ := hother (i + 1) (by omega) (by omega) e
          have := (hall _ ⟨b, hb, rfl, b1, b2⟩).2
          rw [hang, ← eb] at this
          exact absurd (hle i (i + 1) hi (by omega) (by omega)) (not_le.2 this)
      have hk0 : k = 0 := by
        by_contra hc
        by_cases e : 0 = i
        · subst e
          have := h.1
          omega
        · obtain ⟨b, hb, eb, b1, b2⟩ := hother 0 (by omega) e (by omega)
          have := (hall _ ⟨b, hb, rfl, b1, b2⟩).1
          rw [hang, ← eb] at this
          exact absurd (hle 0 k (by omega) hk (by omega)) (not_le.2 this)
      subst hk0
      simp only [hi', Nat.mod_self]
      exact hkb
  refine ⟨by rw [hlen]; exact h.1, fun i hi j hj j1 j2 => ?_⟩
  obtain ⟨a, ha, e1, e2⟩ := key i hi
  rw [pt hi, pt hj, pt (Nat.mod_lt _ (by omega)), e1, e2]
  obtain ⟨b, hb, hjb⟩ := List.getElem_of_mem (hp.mem_iff.1 (List.getElem_mem hj))
  rw [← hjb]
  refine h.turn_lt ha hb ?_ ?_
  · rintro rfl
    exact j1 ((hun.getElem_inj_iff).1 (hjb.symm.trans e1.symm))
  · rintro rfl
    exact j2 ((hun.getElem_inj_iff).1 (hjb.symm.trans e2.symm))

end Spec.ClockwisePolygon

end SurfaceSim
