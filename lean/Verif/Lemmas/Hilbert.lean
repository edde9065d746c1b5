/-
Pauli operators acting on vectors.
-/
import Mathlib.Tactic.Ring
import Mathlib.Tactic.LinearCombination
import Verif.Spec.Hilbert

namespace SurfaceSim.Hilbert
open SurfaceSim SurfaceSim.Spec Complex

theorem bit (b : ZMod 2) : b = 0 ∨ b = 1 := by revert b; decide

theorem sgn_zero : sgn 0 = 1 := by simp [sgn]
theorem sgn_one : sgn 1 = -1 := by simp [sgn]

theorem sgn_add (a b : ZMod 2) : sgn (a + b) = sgn a * sgn b := by
  rcases bit a with rfl | rfl <;> rcases bit b with rfl | rfl <;>
    simp [sgn_zero, sgn_one, show (1 : ZMod 2) + 1 = 0 from by decide]

theorem sgn_sq (a : ZMod 2) : sgn a * sgn a = 1 := by
  rcases bit a with rfl | rfl <;> simp [sgn_zero, sgn_one]

theorem sgn_ne (a : ZMod 2) : sgn a ≠ 0 := by
  rcases bit a with rfl | rfl <;> simp [sgn_zero, sgn_one]

theorem add_self (a : ZMod 2) : a + a = 0 := by revert a; decide

/-- `i^k` -/
noncomputable def ipow (k : ZMod 4) : ℂ := I ^ k.val

theorem ipow_add (a b : ZMod 4) : ipow (a + b) = ipow a * ipow b := by
  unfold ipow
  rw [← pow_add, ZMod.val_add]
  conv_rhs => rw [← Nat.div_add_mod (a.val + b.val) 4, pow_add, pow_mul, I_pow_four, one_pow, one_mul]

theorem ipow_zero : ipow 0 = 1 := by simp [ipow]

theorem ipow_ne (a : ZMod 4) : ipow a ≠ 0 := by simp [ipow, I_ne_zero]

theorem ipow_quarter (b : ZMod 2) : ipow (quarter b) = if b = 0 then 1 else I := by
  rcases bit b with rfl | rfl
  · simp [quarter, ipow_zero]
  · simp [quarter, ipow, ZMod.val_one_eq_one_mod]

theorem ipow_neg_quarter (b : ZMod 2) : ipow (-quarter b) = if b = 0 then 1 else -I := by
  rcases bit b with rfl | rfl
  · simp [quarter, ipow_zero]
  · have : (-1 : ZMod 4).val = 3 := by decide
    simp [quarter, ipow, this, I_pow_three]

theorem ipow_two_quarter (b : ZMod 2) : ipow (2 * quarter b) = sgn b := by
  rw [two_mul, ipow_add, ipow_quarter]
  rcases bit b with rfl | rfl <;> simp [sgn_zero, sgn_one]

variable {Q : Type} [DecidableEq Q] {A : Finset Q}

/-- `z · v` -/
def dot (A : Finset Q) (z v : Q → ZMod 2) : ZMod 2 := ∑ q ∈ A, z q * v q

theorem dot_update_right {z v : Q → ZMod 2} {q : Q} (hq : q ∈ A) (b : ZMod 2) :
    dot A z (Function.update v q b) = dot A z v + z q * (b + v q) := by
  unfold dot
  rw [← Finset.add_sum_erase _ _ hq, ← Finset.add_sum_erase (s := A) (fun q => z q * v q) hq]
  rw [Finset.sum_congr rfl (fun x hx => by
    rw [Function.update_of_ne (Finset.ne_of_mem_erase hx)]), Function.update_self]
  linear_combination z q * add_self (v q) * (-1)

theorem dot_comm (z v : Q → ZMod 2) : dot A z v = dot A v z := by
  unfold dot
  exact Finset.sum_congr rfl fun _ _ => mul_comm _ _

theorem dot_update_left {z v : Q → ZMod 2} {q : Q} (hq : q ∈ A) (b : ZMod 2) :
    dot A (Function.update z q b) v = dot A z v + (b + z q) * v q := by
  rw [dot_comm, dot_update_right hq, dot_comm, mul_comm]

theorem dot_add_right (z v w : Q → ZMod 2) : dot A z (v + w) = dot A z v + dot A z w := by
  simp [dot, mul_add, Finset.sum_add_distrib]

theorem dot_add_left (z v w : Q → ZMod 2) : dot A (z + v) w = dot A z w + dot A v w := by
  rw [dot_comm, dot_add_right, dot_comm w, dot_comm w]

theorem dot_zero_right (z : Q → ZMod 2) : dot A z 0 = 0 := by simp [dot]
theorem dot_zero_left (z : Q → ZMod 2) : dot A 0 z = 0 := by simp [dot]

theorem act_apply (P : Pauli Q) (ψ : Ket Q) (v : Q → ZMod 2) :
    P.act A ψ v = ipow P.ph * (sgn (dot A P.z (v + P.x)) * ψ (v + P.x)) := rfl

theorem conj_x {q : Q} (hq : q ∈ A) (P : Pauli Q) (ψ : Ket Q) :
    gate (P.act A ψ) (.x q) = (P.conj (.x q)).act A (gate ψ (.x q)) := by
  funext v
  have e : Function.update v q (v q + 1) + P.x = Function.update (v + P.x) q ((v + P.x) q + 1) := by
    funext p
    by_cases h : p = q
    · subst h; simp; ring
    · simp [h]
  simp only [gate, opX, act_apply, Pauli.conj, e, ipow_add, ipow_two_quarter]
  rw [dot_update_right hq, show P.z q * ((v + P.x) q + 1 + (v + P.x) q) = P.z q by
    linear_combination P.z q * add_self ((v + P.x) q), sgn_add]
  ring

theorem conj_z {q : Q} (P : Pauli Q) (ψ : Ket Q) :
    gate (P.act A ψ) (.z q) = (P.conj (.z q)).act A (gate ψ (.z q)) := by
  funext v
  simp only [gate, opZ, act_apply, Pauli.conj, ipow_add, ipow_two_quarter, Pi.add_apply, sgn_add]
  linear_combination (-ipow P.ph * sgn (v q) * sgn (dot A P.z (v + P.x)) * ψ (v + P.x)) * sgn_sq (P.x q)

theorem conj_h {q : Q} (hq : q ∈ A) (P : Pauli Q) (ψ : Ket Q) :
    gate (P.act A ψ) (.h q) = (P.conj (.h q)).act A (gate ψ (.h q)) := by
  funext v
  have e (b : ZMod 2) : Function.update v q b + P.x = Function.update (v + P.x) q (b + P.x q) := by
    funext p
    by_cases h : p = q
    · subst h; simp
    · simp [h]
  have e' (b : ZMod 2) : Function.update (v + Function.update P.x q (P.z q)) q b = Function.update (v + P.x) q b := by
    funext p
    by_cases h : p = q
    · subst h; simp
    · simp [h]
  have e2 : v + Function.update P.x q (P.z q) = Function.update (v + P.x) q (v q + P.z q) := by
    funext p
    by_cases h : p = q
    · subst h; simp
    · simp [h]
  simp only [gate, act_apply, Pauli.conj, e, e', ipow_add, ipow_two_quarter]
  rw [dot_update_right hq, dot_update_right hq, dot_update_left hq, e2, dot_update_right hq]
  simp only [Pi.add_apply, Function.update_self, sgn_add]
  rcases bit (P.x q) with h | h <;> rcases bit (P.z q) with h' | h' <;> rcases bit (v q) with h'' | h'' <;>
    simp only [h, h', h'', show (1 : ZMod 2) + 1 = 0 from by decide, sgn_zero, sgn_one, zero_add, add_zero, mul_zero,
      mul_one, zero_mul, one_mul] <;> ring

theorem conj_s {q : Q} (hq : q ∈ A) (P : Pauli Q) (ψ : Ket Q) :
    gate (P.act A ψ) (.s q) = (P.conj (.s q)).act A (gate ψ (.s q)) := by
  funext v
  simp only [gate, act_apply, Pauli.conj, ipow_add, ipow_quarter]
  rw [dot_update_left hq]
  simp only [Pi.add_apply, sgn_add]
  rcases bit (P.x q) with h | h <;> rcases bit (P.z q) with h' | h' <;> rcases bit (v q) with h'' | h'' <;>
    simp only [h, h', h'', show (1 : ZMod 2) + 1 = 0 from by decide, sgn_zero, sgn_one, zero_add, add_zero, mul_zero,
      mul_one, zero_mul, one_mul, if_true, one_ne_zero, if_false] <;>
    first
    | ring1
    | linear_combination (ipow P.ph * sgn (dot A P.z (v + P.x)) * ψ (v + P.x)) * I_mul_I
    | linear_combination (-ipow P.ph * sgn (dot A P.z (v + P.x)) * ψ (v + P.x)) * I_mul_I

theorem conj_sdag {q : Q} (hq : q ∈ A) (P : Pauli Q) (ψ : Ket Q) :
    gate (P.act A ψ) (.sdag q) = (P.conj (.sdag q)).act A (gate ψ (.sdag q)) := by
  funext v
  simp only [gate, act_apply, Pauli.conj, sub_eq_add_neg, ipow_add, ipow_neg_quarter]
  rw [dot_update_left hq]
  simp only [Pi.add_apply, sgn_add]
  rcases bit (P.x q) with h | h <;> rcases bit (P.z q) with h' | h' <;> rcases bit (v q) with h'' | h'' <;>
    simp only [h, h', h'', show (1 : ZMod 2) + 1 = 0 from by decide, sgn_zero, sgn_one, zero_add, add_zero, mul_zero,
      mul_one, zero_mul, one_mul, if_true, one_ne_zero, if_false] <;>
    first
    | ring1
    | linear_combination (ipow P.ph * sgn (dot A P.z (v + P.x)) * ψ (v + P.x)) * I_mul_I
    | linear_combination (-ipow P.ph * sgn (dot A P.z (v + P.x)) * ψ (v + P.x)) * I_mul_I

theorem conj_cz {a b : Q} (ha : a ∈ A) (hb : b ∈ A) (hab : a ≠ b) (P : Pauli Q) (ψ : Ket Q) :
    gate (P.act A ψ) (.cz a b) = (P.conj (.cz a b)).act A (gate ψ (.cz a b)) := by
  funext v
  simp only [gate, act_apply, Pauli.conj, ipow_add, ipow_two_quarter]
  rw [dot_update_left hb, dot_update_left ha, Function.update_of_ne hab.symm]
  simp only [Pi.add_apply]
  have : sgn (v a * v b) = sgn (P.x a * P.x b) * sgn ((P.z a + P.x b + P.z a) * (v a + P.x a) +
      (P.z b + P.x a + P.z b) * (v b + P.x b)) * sgn ((v a + P.x a) * (v b + P.x b)) := by
    rw [← sgn_add, ← sgn_add]
    congr 1
    generalize v a = v1; generalize v b = v2; generalize P.x a = x1; generalize P.x b = x2
    generalize P.z a = z1; generalize P.z b = z2
    revert v1 v2 x1 x2 z1 z2
    decide
  rw [this, add_assoc (dot A P.z (v + P.x)), sgn_add (dot A P.z (v + P.x))]
  ring

theorem conj_cx {a b : Q} (ha : a ∈ A) (hb : b ∈ A) (hab : a ≠ b) (P : Pauli Q) (ψ : Ket Q) :
    gate (P.act A ψ) (.cx a b) = (P.conj (.cx a b)).act A (gate ψ (.cx a b)) := by
  funext v
  simp only [gate, act_apply, Pauli.conj]
  have e1 : Function.update v b (v b + v a) + P.x = Function.update (v + P.x) b (v b + v a + P.x b) := by
    funext p
    by_cases h : p = b
    · subst h; simp
    · simp [h]
  have e2 : v + Function.update P.x b (P.x b + P.x a) = Function.update (v + P.x) b (v b + (P.x b + P.x a)) := by
    funext p
    by_cases h : p = b
    · subst h; simp
    · simp [h]
  rw [dot_update_left ha, e1, e2, dot_update_right hb, dot_update_right hb]
  simp only [Function.update_self, Function.update_of_ne hab, Pi.add_apply, Function.update_idem]
  rw [show v b + (P.x b + P.x a) + (v a + P.x a) = v b + v a + P.x b by linear_combination add_self (P.x a)]
  congr 3
  generalize v a = v1; generalize v b = v2; generalize P.x a = x1; generalize P.x b = x2
  generalize P.z a = z1; generalize P.z b = z2; generalize dot A P.z (v + P.x) = d
  revert v1 v2 x1 x2 z1 z2 d
  decide

theorem comp_swap {a b : Q} (v : Q → ZMod 2) :
    v ∘ Equiv.swap a b = Function.update (Function.update v a (v b)) b (v a) := by
  funext p
  simp only [Function.comp, Function.update_apply, Equiv.swap_apply_def]
  split <;> split <;> simp_all

theorem conj_swap {a b : Q} (ha : a ∈ A) (hb : b ∈ A) (hab : a ≠ b) (P : Pauli Q) (ψ : Ket Q) :
    gate (P.act A ψ) (.swap a b) = (P.conj (.swap a b)).act A (gate ψ (.swap a b)) := by
  funext v
  simp only [gate, act_apply, Pauli.conj, ← comp_swap]
  have e : v ∘ Equiv.swap a b + P.x = (v + P.x ∘ Equiv.swap a b) ∘ Equiv.swap a b := by
    funext p; simp
  rw [← e]
  congr 3
  rw [e]
  generalize v + _ = w
  rw [comp_swap w, comp_swap P.z, dot_update_right hb, dot_update_right ha, dot_update_left hb, dot_update_left ha,
    Function.update_of_ne hab.symm, Function.update_of_ne hab.symm]
  generalize w a = v1; generalize w b = v2
  generalize P.z a = z1; generalize P.z b = z2; generalize dot A P.z w = d
  revert v1 v2 z1 z2 d
  decide

/-- Gates map operators as specified. -/
theorem gate_act (P : Pauli Q) (ψ : Ket Q) {op : Op Q} (h : op.On A) (hd : op.Distinct) :
    gate (P.act A ψ) op = (P.conj op).act A (gate ψ op) := by
  cases op with
  | x q => exact conj_x h P ψ
  | z q => exact conj_z P ψ
  | h q => exact conj_h h P ψ
  | s q => exact conj_s h P ψ
  | sdag q => exact conj_sdag h P ψ
  | cz a b => exact conj_cz h.1 h.2 hd P ψ
  | cx a b => exact conj_cx h.1 h.2 hd P ψ
  | swap a b => exact conj_swap h.1 h.2 hd P ψ
  | _ => rfl

end SurfaceSim.Hilbert
