/-
The gates X and Z of a circuit without detectors shift the frame and the record by constants.
-/
import Verif.Lemmas.Frame
import Mathlib.Tactic.Ring

namespace SurfaceSim
open Spec

variable {Q : Type} [DecidableEq Q]

/-- Neither a detector nor an observable. -/
def quiet : Op Q → Bool
  | .det _ => false | .obs _ _ => false
  | _ => true

/-- `st` is `st0` shifted by `δ`, since both were `base`. -/
structure Shifted (base st st0 δ : FState Q) : Prop where
  x : ∀ q, st.x q = st0.x q + δ.x q
  z : ∀ q, st.z q = st0.z q + δ.z q
  rnd : st.rnd = st0.rnd
  recs : ∃ new, st0.recs = new ++ base.recs ∧ new.length = δ.recs.length ∧
    st.recs = addLists new δ.recs ++ base.recs
  dets : st.dets = base.dets ∧ st0.dets = base.dets
  obs : st.obs = base.obs ∧ st0.obs = base.obs

theorem Shifted.start (st : FState Q) : Shifted st st st (FState.init Q) :=
  ⟨by simp [FState.init], by simp [FState.init], rfl, ⟨[], rfl, rfl, rfl⟩, ⟨rfl, rfl⟩, ⟨rfl, rfl⟩⟩

theorem Shifted.flip {base st st0 δ : FState Q} (h : Shifted base st st0 δ) (ρ : Nat → ZMod 2) {op : Op Q}
    (ho : op.isFlip = true) : Shifted base (step ρ st op) st0 (step 0 δ op) := by
  obtain ⟨hx, hz, hr, hrec, hd, hob⟩ := h
  cases op <;> simp [Op.isFlip] at ho
  · rename_i a
    refine ⟨fun q => ?_, hz, hr, hrec, hd, hob⟩
    simp only [step, Function.update_apply]
    split
    · rename_i e; rw [hx, e, add_assoc]
    · exact hx q
  · rename_i a
    refine ⟨hx, fun q => ?_, hr, hrec, hd, hob⟩
    simp only [step, Function.update_apply]
    split
    · rename_i e; rw [hz, e, add_assoc]
    · exact hz q

theorem Shifted.step {base st st0 δ : FState Q} (h : Shifted base st st0 δ) (ρ : Nat → ZMod 2) {op : Op Q}
    (ho : op.isFlip = false) (hq : quiet op = true) : Shifted base (step ρ st op) (step ρ st0 op) (step 0 δ op) := by
  obtain ⟨hx, hz, hr, ⟨new, h1, h2, h3⟩, hd, hob⟩ := h
  cases op <;> simp [Op.isFlip, quiet] at ho hq <;>
    refine ⟨fun q => ?_, fun q => ?_, ?_, ?_, hd, hob⟩ <;>
    simp only [Spec.step, hr, hx, hz, h1, h3, Function.update_apply, Pi.zero_apply, add_zero] <;>
    first
    | exact ⟨new, rfl, h2, rfl⟩
    | exact ⟨_ :: new, rfl, by simp [h2], rfl⟩
    | (refine ⟨_ :: new, rfl, by simp [h2], ?_⟩; simp only [addLists, List.zipWith_cons_cons, List.cons_append, add_assoc]; congr 1; ring)
    | (split_ifs <;> ring1)
    | rfl

/-- The gates X and Z of a list of operations shift the frame and the record by constants. -/
theorem shifted_run (ρ : Nat → ZMod 2) (L : List (Op Q)) (hq : ∀ op ∈ L, quiet op = true) {base st st0 δ : FState Q}
    (h : Shifted base st st0 δ) : Shifted base (run ρ st L) (run ρ st0 (withoutFlips L)) (run 0 δ L) := by
  induction L generalizing st st0 δ with
  | nil => exact h
  | cons op L ih =>
    have hq' : ∀ o ∈ L, quiet o = true := fun o ho => hq o (by simp [ho])
    cases ho : op.isFlip with
    | true =>
      have e : withoutFlips (op :: L) = withoutFlips L := by simp [withoutFlips, ho]
      rw [e, run_cons, run_cons]
      exact ih hq' (h.flip ρ ho)
    | false =>
      have e : withoutFlips (op :: L) = op :: withoutFlips L := by simp [withoutFlips, ho]
      rw [e, run_cons, run_cons, run_cons]
      exact ih hq' (h.step ρ ho (hq op (by simp)))

/-- A list as values of the elements of a list. -/
theorem exists_values {A : List String} (hA : A.Nodup) (v : List (ZMod 2)) (hl : v.length = A.length) :
    ∃ κ : String → ZMod 2, v = (A.map κ).reverse := by
  refine ⟨fun a => v.reverse.getD (A.idxOf a) 0, ?_⟩
  rw [← List.reverse_eq_iff]
  refine List.ext_getElem (by simp [hl]) fun i h1 h2 => ?_
  simp only [List.getElem_map]
  rw [hA.idxOf_getElem i (by simpa using h2), List.getD_eq_getElem?_getD, List.getElem?_eq_getElem h1]
  rfl

theorem addLists_map (A : List String) (f g : String → ZMod 2) :
    addLists (A.map f).reverse (A.map g).reverse = (A.map fun a => g a + f a).reverse := by
  unfold addLists
  rw [← List.map_reverse, ← List.map_reverse, ← List.map_reverse]
  generalize A.reverse = B
  induction B with
  | nil => rfl
  | cons a B ih => simp [ih, add_comm]

end SurfaceSim
