/-
Frame simulation: layers of operations, renaming of qubits, superposition.
-/
import Verif.Spec.Frame
import Mathlib.Data.List.Nodup
import Mathlib.Algebra.BigOperators.Group.List.Basic

namespace SurfaceSim.Spec

variable {Q R : Type} [DecidableEq Q] [DecidableEq R]

theorem run_append (ρ : Nat → ZMod 2) (st : FState Q) (l m : List (Op Q)) :
    run ρ st (l ++ m) = run ρ (run ρ st l) m := by
  unfold run; rw [List.foldl_append]

@[simp] theorem run_nil (ρ : Nat → ZMod 2) (st : FState Q) : run ρ st [] = st := rfl

theorem run_cons (ρ : Nat → ZMod 2) (st : FState Q) (op : Op Q) (l : List (Op Q)) :
    run ρ st (op :: l) = run ρ (step ρ st op) l := rfl

/-! ### layers -/

theorem run_h (ρ : Nat → ZMod 2) (l : List Q) (hl : l.Nodup) (st : FState Q) :
    run ρ st (l.map Op.h) = { st with
      x := fun q => if q ∈ l then st.z q else st.x q
      z := fun q => if q ∈ l then st.x q else st.z q } := by
  induction l generalizing st with
  | nil => simp
  | cons a l ih =>
    obtain ⟨ha, hl⟩ := List.nodup_cons.1 hl
    rw [List.map_cons, run_cons, ih hl]
    simp only [step]
    congr 1
    · funext q
      by_cases hq : q = a
      · subst hq; simp [ha]
      · simp [hq, Function.update_of_ne]
    · funext q
      by_cases hq : q = a
      · subst hq; simp [ha]
      · simp [hq, Function.update_of_ne]

theorem run_x (ρ : Nat → ZMod 2) (l : List Q) (hl : l.Nodup) (st : FState Q) :
    run ρ st (l.map Op.x) = { st with x := fun q => if q ∈ l then st.x q + 1 else st.x q } := by
  induction l generalizing st with
  | nil => simp
  | cons a l ih =>
    obtain ⟨ha, hl⟩ := List.nodup_cons.1 hl
    rw [List.map_cons, run_cons, ih hl]
    simp only [step]
    congr 1
    funext q
    by_cases hq : q = a
    · subst hq; simp [ha]
    · simp [hq, Function.update_of_ne]

theorem run_z (ρ : Nat → ZMod 2) (l : List Q) (hl : l.Nodup) (st : FState Q) :
    run ρ st (l.map Op.z) = { st with z := fun q => if q ∈ l then st.z q + 1 else st.z q } := by
  induction l generalizing st with
  | nil => simp
  | cons a l ih =>
    obtain ⟨ha, hl⟩ := List.nodup_cons.1 hl
    rw [List.map_cons, run_cons, ih hl]
    simp only [step]
    congr 1
    funext q
    by_cases hq : q = a
    · subst hq; simp [ha]
    · simp [hq, Function.update_of_ne]

theorem run_s (ρ : Nat → ZMod 2) (l : List Q) (hl : l.Nodup) (st : FState Q) :
    run ρ st (l.map Op.s) = { st with z := fun q => if q ∈ l then st.z q + st.x q else st.z q } := by
  induction l generalizing st with
  | nil => simp
  | cons a l ih =>
    obtain ⟨ha, hl⟩ := List.nodup_cons.1 hl
    rw [List.map_cons, run_cons, ih hl]
    simp only [step]
    congr 1
    funext q
    by_cases hq : q = a
    · subst hq; simp [ha]
    · simp [hq, Function.update_of_ne]

theorem run_sdag (ρ : Nat → ZMod 2) (l : List Q) (hl : l.Nodup) (st : FState Q) :
    run ρ st (l.map Op.sdag) =
      { st with z := fun q => if q ∈ l then st.z q + st.x q else st.z q } := by
  induction l generalizing st with
  | nil => simp
  | cons a l ih =>
    obtain ⟨ha, hl⟩ := List.nodup_cons.1 hl
    rw [List.map_cons, run_cons, ih hl]
    simp only [step]
    congr 1
    funext q
    by_cases hq : q = a
    · subst hq; simp [ha]
    · simp [hq, Function.update_of_ne]

theorem run_r (ρ : Nat → ZMod 2) (l : List Q) (hl : l.Nodup) (st : FState Q) :
    run ρ st (l.map Op.r) = { st with
      x := fun q => if q ∈ l then 0 else st.x q
      z := fun q => if q ∈ l then ρ (st.rnd + l.idxOf q) else st.z q
      rnd := st.rnd + l.length } := by
  induction l generalizing st with
  | nil => simp
  | cons a l ih =>
    obtain ⟨ha, hl⟩ := List.nodup_cons.1 hl
    rw [List.map_cons, run_cons, ih hl]
    simp only [step, List.length_cons]
    congr 1
    · funext q
      by_cases hq : q = a
      · subst hq; simp
      · simp [hq, Function.update_of_ne]
    · funext q
      by_cases hq : q = a
      · subst hq; simp [ha]
      · have : a ≠ q := fun h => hq h.symm
        simp only [List.mem_cons, hq, false_or, Function.update_of_ne hq, List.idxOf_cons_ne _ this,
          Nat.succ_eq_add_one]
        rw [show st.rnd + 1 + List.idxOf q l = st.rnd + (List.idxOf q l + 1) by omega]
    · omega

theorem run_m (ρ : Nat → ZMod 2) (l : List Q) (hl : l.Nodup) (st : FState Q) :
    run ρ st (l.map Op.m) = { st with
      recs := (l.map st.x).reverse ++ st.recs
      z := fun q => if q ∈ l then st.z q + ρ (st.rnd + l.idxOf q) else st.z q
      rnd := st.rnd + l.length } := by
  induction l generalizing st with
  | nil => simp
  | cons a l ih =>
    obtain ⟨ha, hl⟩ := List.nodup_cons.1 hl
    rw [List.map_cons, run_cons, ih hl]
    simp only [step, List.length_cons]
    congr 1
    · funext q
      by_cases hq : q = a
      · subst hq; simp [ha]
      · have : a ≠ q := fun h => hq h.symm
        simp only [List.mem_cons, hq, false_or, Function.update_of_ne hq, List.idxOf_cons_ne _ this,
          Nat.succ_eq_add_one]
        rw [show st.rnd + 1 + List.idxOf q l = st.rnd + (List.idxOf q l + 1) by omega]
    · simp
    · omega

/-! ### renaming -/

/-- The qubits of an operation. -/
def Op.qubits : Op Q → List Q
  | .x q => [q] | .z q => [q] | .h q => [q] | .s q => [q] | .sdag q => [q]
  | .cz a b => [a, b] | .cx a b => [a, b] | .swap a b => [a, b]
  | .m q => [q] | .mx q => [q] | .my q => [q]
  | .r q => [q] | .rx q => [q] | .ry q => [q]
  | .det _ => [] | .obs _ _ => []

/-- Rename the qubits of an operation. -/
def Op.rename (f : Q → R) : Op Q → Op R
  | .x q => .x (f q) | .z q => .z (f q) | .h q => .h (f q) | .s q => .s (f q) | .sdag q => .sdag (f q)
  | .cz a b => .cz (f a) (f b) | .cx a b => .cx (f a) (f b) | .swap a b => .swap (f a) (f b)
  | .m q => .m (f q) | .mx q => .mx (f q) | .my q => .my (f q)
  | .r q => .r (f q) | .rx q => .rx (f q) | .ry q => .ry (f q)
  | .det l => .det l | .obs k l => .obs k l

/-- Two states agree on the qubits in `S` (through the renaming `f`) and on everything else that is
not a qubit. -/
structure Agree (f : Q → R) (S : Q → Prop) (st : FState Q) (st' : FState R) : Prop where
  x : ∀ q, S q → st'.x (f q) = st.x q
  z : ∀ q, S q → st'.z (f q) = st.z q
  recs : st'.recs = st.recs
  dets : st'.dets = st.dets
  obs : st'.obs = st.obs
  rnd : st'.rnd = st.rnd

theorem Agree.step {f : Q → R} {S : Q → Prop} (hf : ∀ a b, S a → S b → f a = f b → a = b)
    (ρ : Nat → ZMod 2) {st : FState Q} {st' : FState R} (h : Agree f S st st') (op : Op Q)
    (hS : ∀ q ∈ op.qubits, S q) : Agree f S (step ρ st op) (step ρ st' (op.rename f)) := by
  have up : ∀ {β : Type} {g : Q → β} {g' : R → β} (a : Q) (v : β), S a →
      (∀ q, S q → g' (f q) = g q) → ∀ q, S q →
      Function.update g' (f a) v (f q) = Function.update g a v q := by
    intro β g g' a v ha hg q hq
    by_cases e : q = a
    · subst e; simp
    · rw [Function.update_of_ne e, Function.update_of_ne (fun h => e (hf _ _ hq ha h)), hg q hq]
  have hx := h.x
  have hz := h.z
  have hr := h.recs
  have hn := h.rnd
  cases op <;> simp only [Op.qubits, List.mem_cons, List.not_mem_nil, or_false, forall_eq_or_imp,
    forall_eq, false_imp_iff, implies_true] at hS <;>
    simp only [Op.rename, Spec.step] <;>
    refine ⟨?_, ?_, ?_, ?_, ?_, ?_⟩ <;>
    simp only [h.recs, h.dets, h.obs, h.rnd] <;>
    first
    | exact hx
    | exact hz
    | exact up _ _ hS hx
    | exact up _ _ hS hz
    | (rw [hx _ hS]; done)
    | (rw [hz _ hS]; done)
    | (rw [hx _ hS, hz _ hS]; done)
    | (simp only [hx _ hS, hz _ hS]; exact up _ _ hS hx)
    | (simp only [hx _ hS, hz _ hS]; exact up _ _ hS hz)
    | (simp only [hx _ hS.1, hx _ hS.2, hz _ hS.1, hz _ hS.2]
       exact up _ _ hS.2 (up _ _ hS.1 hz))
    | (simp only [hx _ hS.1, hx _ hS.2, hz _ hS.1, hz _ hS.2]
       exact up _ _ hS.2 (up _ _ hS.1 hx))
    | (simp only [hx _ hS.1, hx _ hS.2, hz _ hS.1, hz _ hS.2]
       exact up _ _ hS.1 hz)
    | (simp only [hx _ hS.1, hx _ hS.2, hz _ hS.1, hz _ hS.2]
       exact up _ _ hS.2 hx)

theorem Agree.run {f : Q → R} {S : Q → Prop} (hf : ∀ a b, S a → S b → f a = f b → a = b)
    (ρ : Nat → ZMod 2) (L : List (Op Q)) (hL : ∀ op ∈ L, ∀ q ∈ op.qubits, S q)
    {st : FState Q} {st' : FState R} (h : Agree f S st st') :
    Agree f S (run ρ st L) (run ρ st' (L.map (Op.rename f))) := by
  induction L generalizing st st' with
  | nil => exact h
  | cons op L ih =>
    rw [List.map_cons, run_cons, run_cons]
    exact ih (fun o ho => hL o (List.mem_cons_of_mem _ ho))
      (h.step hf ρ op (hL op (by simp)))

/-- Qubits that do not occur are not touched. -/
theorem step_other (ρ : Nat → ZMod 2) (st : FState Q) (op : Op Q) (q : Q) (h : q ∉ op.qubits) :
    (step ρ st op).x q = st.x q ∧ (step ρ st op).z q = st.z q := by
  cases op <;> simp only [Op.qubits, List.mem_cons, List.not_mem_nil, or_false, not_or] at h <;>
    simp [step, Function.update_of_ne, h]

theorem run_other (ρ : Nat → ZMod 2) (L : List (Op Q)) (st : FState Q) (q : Q)
    (h : ∀ op ∈ L, q ∉ op.qubits) : (run ρ st L).x q = st.x q ∧ (run ρ st L).z q = st.z q := by
  induction L generalizing st with
  | nil => exact ⟨rfl, rfl⟩
  | cons op L ih =>
    rw [run_cons]
    have h1 := ih (step ρ st op) (fun o ho => h o (List.mem_cons_of_mem _ ho))
    have h2 := step_other ρ st op q (h op (by simp))
    exact ⟨h1.1.trans h2.1, h1.2.trans h2.2⟩

end SurfaceSim.Spec
