/-
Images of Pauli operators with signs.
-/
import Verif.Spec.Signed
import Verif.Lemmas.SGate

namespace SurfaceSim
open Spec NoiseModel Blocks LayoutLib LogGates

variable {Q R : Type} [DecidableEq Q] [DecidableEq R]

theorem conjAll_append (P : Pauli Q) (l l' : List (Op Q)) : P.conjAll (l ++ l') = (P.conjAll l).conjAll l' := by
  simp [Spec.Pauli.conjAll, List.foldl_append]

theorem conjAll_cons (P : Pauli Q) (o : Op Q) (l : List (Op Q)) : P.conjAll (o :: l) = (P.conj o).conjAll l := rfl

/-- Equal up to the renaming of qubits. -/
structure PAgree (f : Q → R) (S : Q → Prop) (P : Pauli Q) (P' : Pauli R) : Prop where
  ph : P'.ph = P.ph
  x : ∀ q, S q → P'.x (f q) = P.x q
  z : ∀ q, S q → P'.z (f q) = P.z q

theorem PAgree.conj {f : Q → R} {S : Q → Prop} (hinj : ∀ a b, S a → S b → f a = f b → a = b) {P : Pauli Q} {P' : Pauli R}
    (h : PAgree f S P P') (o : Op Q) (ho : ∀ q ∈ o.qubits, S q) : PAgree f S (P.conj o) (P'.conj (o.rename f)) := by
  have key : ∀ (g : Q → ZMod 2) (g' : R → ZMod 2) (a : Q) (v : ZMod 2), S a → (∀ q, S q → g' (f q) = g q) →
      ∀ q, S q → Function.update g' (f a) v (f q) = Function.update g a v q := by
    intro g g' a v ha hg q hq
    by_cases hqa : q = a
    · subst hqa; simp
    · rw [Function.update_of_ne hqa, Function.update_of_ne fun hc => hqa (hinj _ _ hq ha hc), hg q hq]
  cases o <;> simp only [Op.qubits, List.mem_cons, List.not_mem_nil, or_false, forall_eq_or_imp, forall_eq] at ho <;>
    simp only [Op.rename, Spec.Pauli.conj] <;> try exact h
  · exact ⟨by simp only [h.ph, h.z _ ho], h.x, h.z⟩
  · exact ⟨by simp only [h.ph, h.x _ ho], h.x, h.z⟩
  · exact ⟨by simp only [h.ph, h.x _ ho, h.z _ ho], by rw [h.z _ ho]; exact key _ _ _ _ ho h.x, by rw [h.x _ ho]; exact key _ _ _ _ ho h.z⟩
  · exact ⟨by simp only [h.ph, h.x _ ho], h.x, by rw [h.x _ ho, h.z _ ho]; exact key _ _ _ _ ho h.z⟩
  · exact ⟨by simp only [h.ph, h.x _ ho], h.x, by rw [h.x _ ho, h.z _ ho]; exact key _ _ _ _ ho h.z⟩
  · exact ⟨by simp only [h.ph, h.x _ ho.1, h.x _ ho.2], h.x, by
      rw [h.x _ ho.1, h.x _ ho.2, h.z _ ho.1, h.z _ ho.2]
      exact key _ _ _ _ ho.2 (key _ _ _ _ ho.1 h.z)⟩
  · exact ⟨h.ph, by rw [h.x _ ho.1, h.x _ ho.2]; exact key _ _ _ _ ho.2 h.x, by
      rw [h.z _ ho.1, h.z _ ho.2]; exact key _ _ _ _ ho.1 h.z⟩
  · exact ⟨h.ph, by rw [h.x _ ho.1, h.x _ ho.2]; exact key _ _ _ _ ho.2 (key _ _ _ _ ho.1 h.x), by
      rw [h.z _ ho.1, h.z _ ho.2]; exact key _ _ _ _ ho.2 (key _ _ _ _ ho.1 h.z)⟩

theorem PAgree.conjAll {f : Q → R} {S : Q → Prop} (hinj : ∀ a b, S a → S b → f a = f b → a = b) {P : Pauli Q} {P' : Pauli R}
    (h : PAgree f S P P') (l : List (Op Q)) (hl : ∀ o ∈ l, ∀ q ∈ o.qubits, S q) :
    PAgree f S (P.conjAll l) (P'.conjAll (l.map (Op.rename f))) := by
  induction l generalizing P P' with
  | nil => exact h
  | cons o l ih =>
    rw [List.map_cons, conjAll_cons, conjAll_cons]
    exact ih (h.conj hinj o (hl o (by simp))) fun o ho => hl o (by simp [ho])

/-! ### layers -/

theorem conj_s (L : List Q) (hL : L.Nodup) (P : Pauli Q) :
    P.conjAll (L.map Op.s) = ⟨P.ph + (L.map fun q => quarter (P.x q)).sum, P.x, fun q => P.z q + if q ∈ L then P.x q else 0⟩ := by
  induction L generalizing P with
  | nil => simp [Spec.Pauli.conjAll]
  | cons a L ih =>
    rw [List.nodup_cons] at hL
    rw [List.map_cons, conjAll_cons, ih hL.2]
    simp only [Spec.Pauli.conj, List.map_cons, List.sum_cons]
    congr 1
    · ring
    · funext q
      by_cases hq : q = a
      · subst hq; simp [hL.1]
      · simp [hq]

theorem conj_sdag (L : List Q) (hL : L.Nodup) (P : Pauli Q) :
    P.conjAll (L.map Op.sdag) = ⟨P.ph - (L.map fun q => quarter (P.x q)).sum, P.x, fun q => P.z q + if q ∈ L then P.x q else 0⟩ := by
  induction L generalizing P with
  | nil => simp [Spec.Pauli.conjAll]
  | cons a L ih =>
    rw [List.nodup_cons] at hL
    rw [List.map_cons, conjAll_cons, ih hL.2]
    simp only [Spec.Pauli.conj, List.map_cons, List.sum_cons]
    congr 1
    · ring
    · funext q
      by_cases hq : q = a
      · subst hq; simp [hL.1]
      · simp [hq]

theorem conj_cz_ph (E : List (Q × Q)) (P : Pauli Q) :
    (P.conjAll (E.map fun e => Op.cz e.1 e.2)).ph = P.ph + 2 * (E.map fun e => quarter (P.x e.1 * P.x e.2)).sum ∧
    (P.conjAll (E.map fun e => Op.cz e.1 e.2)).x = P.x := by
  induction E generalizing P with
  | nil => simp [Spec.Pauli.conjAll]
  | cons a L ih =>
    rw [List.map_cons, conjAll_cons]
    obtain ⟨h1, h2⟩ := ih (P.conj (.cz a.1 a.2))
    refine ⟨?_, h2⟩
    rw [h1]
    simp only [Spec.Pauli.conj, List.map_cons, List.sum_cons]
    ring

/-- The operator part is the one of frames. -/
theorem conjAll_frame (ρ : Nat → ZMod 2) (L : List (Op Q)) (P : Pauli Q) (st : FState Q) (hx : st.x = P.x) (hz : st.z = P.z)
    (hL : ∀ o ∈ L, (∃ q, o = .h q) ∨ (∃ q, o = .s q) ∨ (∃ q, o = .sdag q) ∨ (∃ a b, o = .cz a b) ∨ (∃ a b, o = .cx a b) ∨
      ∃ a b, o = .swap a b) :
    (P.conjAll L).x = (run ρ st L).x ∧ (P.conjAll L).z = (run ρ st L).z := by
  induction L generalizing P st with
  | nil => exact ⟨hx.symm, hz.symm⟩
  | cons o L ih =>
    rw [conjAll_cons, run_cons]
    refine ih _ _ ?_ ?_ fun o ho => hL o (by simp [ho])
    all_goals
      rcases hL o (by simp) with ⟨q, rfl⟩ | ⟨q, rfl⟩ | ⟨q, rfl⟩ | ⟨a, b, rfl⟩ | ⟨a, b, rfl⟩ | ⟨a, b, rfl⟩ <;>
      simp only [step, Spec.Pauli.conj, hx, hz]

end SurfaceSim
