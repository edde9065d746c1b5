/-
Linear functionals of the frame, and what faults do to them.
-/
import Verif.Spec.Faults
import Verif.Lemmas.Frame
import Verif.Lemmas.Does
import Mathlib.Algebra.BigOperators.Ring.Finset
import Mathlib.Algebra.CharP.Two
import Mathlib.Tactic.LinearCombination

namespace SurfaceSim
open Spec

variable {Q : Type} [DecidableEq Q]

theorem Spec.Op.touches_iff {Q : Type} (o : Op Q) (q : Q) : o.Touches q ↔ q ∈ o.qubits := by
  cases o <;> simp [Op.Touches, Op.qubits]

/-- A parity of X parts, Z parts and outcomes (newest first). -/
structure Func (Q : Type) where
  x : Q → ZMod 2
  z : Q → ZMod 2
  r : Nat → ZMod 2

/-- The part of a parity on the outcomes. -/
def rdot : (Nat → ZMod 2) → List (ZMod 2) → ZMod 2
  | _, [] => 0
  | c, v :: rs => c 0 * v + rdot (fun i => c (i + 1)) rs

/-- Value of a parity over the qubits `A`. -/
def Func.val (A : Finset Q) (w : Func Q) (st : FState Q) : ZMod 2 :=
  (∑ q ∈ A, (w.x q * st.x q + w.z q * st.z q)) + rdot w.r st.recs

/-- The parity before an operation whose value is that of `w` after it. -/
def Func.back (o : Op Q) (w : Func Q) : Func Q :=
  match o with
  | .h q => { w with x := Function.update w.x q (w.z q), z := Function.update w.z q (w.x q) }
  | .cz a b => { w with x := Function.update (Function.update w.x a (w.x a + w.z b)) b (w.x b + w.z a) }
  | .cx a b => { w with x := Function.update w.x a (w.x a + w.x b), z := Function.update w.z b (w.z b + w.z a) }
  | .m q => { w with x := Function.update w.x q (w.x q + w.r 0), r := fun i => w.r (i + 1) }
  | .r q => { w with x := Function.update w.x q 0 }
  | _ => w

/-- The parity does not depend on random bits of the operation. -/
def Func.Ok (o : Op Q) (w : Func Q) : Prop :=
  match o with
  | .x _ | .z _ | .h _ | .det _ | .obs _ _ => True
  | .cz a b | .cx a b => a ≠ b
  | .m q | .r q => w.z q = 0
  | _ => False

/-- Change of the parity by Pauli gates. -/
def Func.shift (o : Op Q) (w : Func Q) : ZMod 2 :=
  match o with
  | .x q => w.x q
  | .z q => w.z q
  | _ => 0

theorem sum_change {A : Finset Q} {g g' : Q → ZMod 2} {q : Q} (hq : q ∈ A) (h : ∀ p, p ≠ q → g p = g' p) :
    ∑ p ∈ A, g p = ∑ p ∈ A, g' p + (g q + g' q) := by
  rw [← Finset.add_sum_erase _ _ hq, ← Finset.add_sum_erase A g' hq,
    Finset.sum_congr rfl fun p hp => h p (Finset.ne_of_mem_erase hp)]
  linear_combination -(CharTwo.add_self_eq_zero (g' q))

theorem sum_change2 {A : Finset Q} {g g' : Q → ZMod 2} {a b : Q} (ha : a ∈ A) (hb : b ∈ A) (hab : a ≠ b)
    (h : ∀ p, p ≠ a → p ≠ b → g p = g' p) :
    ∑ p ∈ A, g p = ∑ p ∈ A, g' p + (g a + g' a + (g b + g' b)) := by
  rw [sum_change (g' := Function.update g' b (g b)) ha (fun p hp => by
    by_cases hpb : p = b
    · subst hpb; simp
    · rw [Function.update_of_ne hpb]; exact h p hp hpb),
    sum_change (g := Function.update g' b (g b)) (g' := g') hb (fun p hp => by simp [hp])]
  simp [hab]
  ring

theorem Func.val_step (A : Finset Q) (w : Func Q) (ρ : Nat → ZMod 2) (st : FState Q) (o : Op Q)
    (hA : ∀ q ∈ o.qubits, q ∈ A) (h : w.Ok o) :
    w.val A (step ρ st o) = (w.back o).val A st + w.shift o := by
  have two : ∀ v : ZMod 2, v + v = 0 := CharTwo.add_self_eq_zero
  cases o <;> simp only [Func.Ok] at h <;>
    simp only [Op.qubits, List.mem_cons, List.not_mem_nil, or_false, forall_eq_or_imp, forall_eq, false_imp_iff,
      implies_true] at hA <;> simp only [Func.val, Func.back, Func.shift, step]
  case x q =>
    rw [sum_change (g' := fun p => w.x p * st.x p + w.z p * st.z p) hA (fun p hp => by simp [hp])]
    simp
    linear_combination two (w.x q * st.x q) + two (w.z q * st.z q)
  case z q =>
    rw [sum_change (g' := fun p => w.x p * st.x p + w.z p * st.z p) hA (fun p hp => by simp [hp])]
    simp
    linear_combination two (w.x q * st.x q) + two (w.z q * st.z q)
  case h q =>
    rw [add_zero]
    congr 1
    refine Finset.sum_congr rfl fun p _ => ?_
    by_cases hp : p = q
    · subst hp; simp; ring
    · simp [hp]
  case cz a b =>
    rw [sum_change2 (g' := fun p => Function.update (Function.update w.x a (w.x a + w.z b)) b (w.x b + w.z a) p * st.x p
      + w.z p * st.z p) hA.1 hA.2 h (fun p hp hp' => by simp [hp, hp'])]
    simp [h]
    linear_combination two (w.x a * st.x a) + two (w.z a * st.z a) + two (w.z b * st.x a) + two (w.z a * st.x b) +
      two (w.x b * st.x b) + two (w.z b * st.z b)
  case cx a b =>
    rw [sum_change2 (g' := fun p => Function.update w.x a (w.x a + w.x b) p * st.x p +
      Function.update w.z b (w.z b + w.z a) p * st.z p) hA.1 hA.2 h (fun p hp hp' => by simp [hp, hp'])]
    have h' : b ≠ a := Ne.symm h
    simp [h, h']
    linear_combination two (w.x a * st.x a) + two (w.z a * st.z a) + two (w.x b * st.x a) + two (w.z a * st.z b) +
      two (w.x b * st.x b) + two (w.z b * st.z b)
  case m q =>
    rw [sum_change (g' := fun p => Function.update w.x q (w.x q + w.r 0) p * st.x p + w.z p * st.z p) hA
      (fun p hp => by simp [hp])]
    simp [h, rdot]
    linear_combination two (w.x q * st.x q) + two (w.r 0 * st.x q)
  case r q =>
    rw [add_zero]
    congr 1
    refine Finset.sum_congr rfl fun p _ => ?_
    by_cases hp : p = q
    · subst hp; simp [h]
    · simp [hp]
  case det ks => simp
  case obs k ks => simp

/-- The parity before a list of operations. -/
def Func.backL (l : List (Op Q)) (w : Func Q) : Func Q := l.foldr Func.back w

/-- The parity does not depend on random bits of the operations. -/
def Func.OkL : List (Op Q) → Func Q → Prop
  | [], _ => True
  | o :: l, w => Func.Ok o (Func.backL l w) ∧ Func.OkL l w

/-- Change of the parity by Pauli gates. -/
def Func.shiftL : List (Op Q) → Func Q → ZMod 2
  | [], _ => 0
  | o :: l, w => Func.shift o (Func.backL l w) + Func.shiftL l w

theorem Func.backL_append (l m : List (Op Q)) (w : Func Q) : Func.backL (l ++ m) w = Func.backL l (Func.backL m w) := by
  unfold Func.backL; rw [List.foldr_append]

theorem Func.backL_cons (o : Op Q) (l : List (Op Q)) (w : Func Q) :
    Func.backL (o :: l) w = Func.back o (Func.backL l w) := rfl

theorem Func.OkL.append {l m : List (Op Q)} {w : Func Q} (h1 : Func.OkL l (Func.backL m w)) (h2 : Func.OkL m w) :
    Func.OkL (l ++ m) w := by
  induction l with
  | nil => exact h2
  | cons o l ih =>
    refine ⟨?_, ih h1.2⟩
    show Func.Ok o (Func.backL (l ++ m) w)
    rw [Func.backL_append]
    exact h1.1

/-- The parity does not see errors on the qubit. -/
def Func.Blind (w : Func Q) (q : Q) : Prop := w.x q = 0 ∧ w.z q = 0

theorem Func.val_pauli {A : Finset Q} {w : Func Q} {q : Q} (h : q ∈ A → w.Blind q) (bx bz : Bool) (ρ : Nat → ZMod 2)
    (st : FState Q) : w.val A (run ρ st (pauli q bx bz)) = w.val A st := by
  have key : ∀ st : FState Q, w.val A (step ρ st (.x q)) = w.val A st ∧ w.val A (step ρ st (.z q)) = w.val A st := by
    intro st
    unfold Func.val
    constructor
    · congr 1
      refine Finset.sum_congr rfl fun p hp => ?_
      by_cases e : p = q
      · subst e; simp [(h hp).1, (h hp).2]
      · simp [step, e]
    · congr 1
      refine Finset.sum_congr rfl fun p hp => ?_
      by_cases e : p = q
      · subst e; simp [(h hp).1, (h hp).2]
      · simp [step, e]
  unfold pauli
  cases bx <;> cases bz <;> simp [run, key]

/-- At most one member of a family has the property. -/
def AtMostOne {J : Type} (p : J → Prop) : Prop := ∀ i j, p i → p j → i = j

theorem AtMostOne.mono {J : Type} {p p' : J → Prop} (h : AtMostOne p) (hs : ∀ j, p' j → p j) : AtMostOne p' :=
  fun i j hi hj => h i j (hs i hi) (hs j hj)

/-- All faults are seen by at most one member of the family of parities. -/
def Tame {J : Type} (A : Finset Q) (W : J → Func Q) : List (Op Q) → Prop
  | [] => ∀ q ∈ A, AtMostOne fun j => ¬ (W j).Blind q
  | o :: l => (∀ q ∈ A, AtMostOne fun j => ¬ (Func.backL (o :: l) (W j)).Blind q) ∧
      (∀ a b, o = .cz a b ∨ o = .cx a b → AtMostOne fun j => ¬ (Func.backL l (W j)).Blind a ∨ ¬ (Func.backL l (W j)).Blind b) ∧
      (∀ q, o = .m q → AtMostOne fun j => (Func.backL l (W j)).r 0 ≠ 0) ∧ Tame A W l

theorem Tame.here {J : Type} {A : Finset Q} {W : J → Func Q} {l : List (Op Q)} (h : Tame A W l) :
    ∀ q ∈ A, AtMostOne fun j => ¬ (Func.backL l (W j)).Blind q := by
  cases l with
  | nil => exact h
  | cons o l => exact h.1

theorem Tame.append {J : Type} {A : Finset Q} {W : J → Func Q} {l m : List (Op Q)}
    (h1 : Tame A (fun j => Func.backL m (W j)) l) (h2 : Tame A W m) : Tame A W (l ++ m) := by
  induction l with
  | nil => exact h2
  | cons o l ih =>
    show _ ∧ _ ∧ _ ∧ Tame A W (l ++ m)
    have e1 : ∀ w : Func Q, Func.backL (o :: l.append m) w = Func.backL (o :: l) (Func.backL m w) :=
      fun w => Func.backL_append (o :: l) m w
    have e2 : ∀ w : Func Q, Func.backL (l.append m) w = Func.backL l (Func.backL m w) := fun w => Func.backL_append l m w
    simp only [e1, e2]
    exact ⟨h1.1, h1.2.1, h1.2.2.1, ih h1.2.2.2⟩

theorem Func.back_other {o : Op Q} {w : Func Q} {q : Q} (h : q ∉ o.qubits) :
    (w.back o).x q = w.x q ∧ (w.back o).z q = w.z q := by
  cases o <;> simp only [Op.qubits, List.mem_cons, List.not_mem_nil, or_false, not_or] at h <;> simp [Func.back, h]

theorem Func.blind_other {o : Op Q} {w : Func Q} {q : Q} (h : q ∉ o.qubits) : (w.back o).Blind q ↔ w.Blind q := by
  unfold Func.Blind
  rw [(Func.back_other h).1, (Func.back_other h).2]

open Classical in
/-- Except for as many members of the family as there are faults, the parities are as without faults. -/
theorem Spec.Faulty.val {J : Type} {A : Finset Q} {W : J → Func Q} {P : Q → Q → Prop} {l L : List (Op Q)} {k : Nat}
    (h : Faulty P l L k) (hA : ∀ o ∈ l, ∀ q ∈ o.qubits, q ∈ A) (hok : ∀ j, Func.OkL l (W j)) (ht : Tame A W l)
    (hP : ∀ a b, P a b → AtMostOne fun j => ¬ (Func.backL l (W j)).Blind a ∨ ¬ (Func.backL l (W j)).Blind b) :
    ∃ S : Finset J, S.card ≤ k ∧ ∀ j, j ∉ S → ∀ (ρ : Nat → ZMod 2) (st : FState Q),
      (W j).val A (run ρ st L) = (Func.backL l (W j)).val A st + Func.shiftL l (W j) := by
  have pick : ∀ p : J → Prop, AtMostOne p → ∃ S : Finset J, S.card ≤ 1 ∧ ∀ j, j ∉ S → ¬ p j := by
    intro p hp
    by_cases hex : ∃ j, p j
    · obtain ⟨j0, h0⟩ := hex
      exact ⟨{j0}, by simp, fun j hj hpj => hj (by simp [hp j j0 hpj h0])⟩
    · exact ⟨∅, by simp, fun j _ hpj => hex ⟨j, hpj⟩⟩
  have next : ∀ {P : Q → Q → Prop} {o : Op Q} {l : List (Op Q)}, (∀ j, Func.OkL (o :: l) (W j)) → Tame A W (o :: l) →
      (∀ a b, P a b → AtMostOne fun j => ¬ (Func.backL (o :: l) (W j)).Blind a ∨ ¬ (Func.backL (o :: l) (W j)).Blind b) →
      ∀ a b, justCoupled P o a b →
        AtMostOne fun j => ¬ (Func.backL l (W j)).Blind a ∨ ¬ (Func.backL l (W j)).Blind b := by
    intro P o l hok ht hP a b hc
    by_cases hne : Nonempty J
    · rcases hc with rfl | rfl | rfl | ⟨h1, h2, h3⟩
      · exact ht.2.1 a b (Or.inl rfl)
      · exact ht.2.1 a b (Or.inr rfl)
      · exact ((hok hne.some).1 : False).elim
      · rw [Spec.Op.touches_iff] at h2 h3
        have := hP a b h1
        simp only [Func.backL_cons, Func.blind_other h2, Func.blind_other h3] at this
        exact this
    · exact fun i => (hne ⟨i⟩).elim
  induction h with
  | done P =>
    exact ⟨∅, by simp, fun j _ ρ st => by simp [Func.backL, Func.shiftL]⟩
  | @op P l L k o h ih =>
    obtain ⟨S, hS, hv⟩ := ih (fun o' ho' => hA o' (List.mem_cons_of_mem _ ho')) (fun j => (hok j).2) ht.2.2.2
      (next hok ht hP)
    refine ⟨S, hS, fun j hj ρ st => ?_⟩
    rw [run_cons, hv j hj, Func.val_step A _ ρ st o (hA o (by simp)) (hok j).1, Func.backL_cons, Func.shiftL]
    ring
  | @one P l L k q bx bz h ih =>
    obtain ⟨S, hS, hv⟩ := ih hA hok ht hP
    by_cases hq : q ∈ A
    · obtain ⟨S', hS', hv'⟩ := pick _ (ht.here q hq)
      refine ⟨S ∪ S', (Finset.card_union_le _ _).trans (by omega), fun j hj ρ st => ?_⟩
      simp only [Finset.mem_union, not_or] at hj
      rw [run_append, hv j hj.1, Func.val_pauli (fun _ => not_not.1 (hv' j hj.2))]
    · refine ⟨S, by omega, fun j hj ρ st => ?_⟩
      rw [run_append, hv j hj, Func.val_pauli (fun h => (hq h).elim)]
  | @two P l L k a b ax az bx bz hp h ih =>
    obtain ⟨S, hS, hv⟩ := ih hA hok ht hP
    obtain ⟨S', hS', hv'⟩ := pick _ (hP a b hp)
    refine ⟨S ∪ S', (Finset.card_union_le _ _).trans (by omega), fun j hj ρ st => ?_⟩
    simp only [Finset.mem_union, not_or] at hj
    have := not_or.1 (hv' j hj.2)
    rw [run_append, run_append, hv j hj.1, Func.val_pauli (fun _ => not_not.1 this.2),
      Func.val_pauli (fun _ => not_not.1 this.1)]
  | @outcome P l L k q h ih =>
    obtain ⟨S, hS, hv⟩ := ih (fun o' ho' => hA o' (List.mem_cons_of_mem _ ho')) (fun j => (hok j).2) ht.2.2.2
      (next hok ht hP)
    have hq : q ∈ A := hA (.m q) (by simp) q (by simp [Op.qubits])
    obtain ⟨S', hS', hv'⟩ := pick _ (ht.2.2.1 q rfl)
    refine ⟨S ∪ S', (Finset.card_union_le _ _).trans (by omega), fun j hj ρ st => ?_⟩
    simp only [Finset.mem_union, not_or] at hj
    have h0 := not_not.1 (hv' j hj.2)
    simp only [List.cons_append, List.nil_append, run_cons]
    have h1 : ∀ o ∈ [Op.x q, Op.m q], ∀ p ∈ o.qubits, p ∈ A := by simp [Op.qubits, hq]
    rw [hv j hj.1, Func.val_step A _ ρ _ (.x q) (h1 _ (by simp)) trivial,
      show Func.back (Op.x q) (Func.backL l (W j)) = Func.backL l (W j) from rfl, Func.val_step A _ ρ _ (.m q) (h1 _ (by simp)) (hok j).1, Func.val_step A _ ρ _ (.x q) (h1 _ (by simp)) trivial,
      Func.backL_cons, Func.shiftL]
    simp only [Func.back, Func.shift, Function.update_self, h0, add_zero, zero_add]
    linear_combination CharTwo.add_self_eq_zero ((Func.backL l (W j)).x q)

end SurfaceSim
