/-
Outcomes of a qubit in the measurement record.
-/
import Verif.Spec.Frame
import Verif.Lemmas.MeasRecord

namespace SurfaceSim
open Spec

/-- Outcomes of `q`, newest first, in a record given newest first. -/
def outsRev (q : String) : List String → List (ZMod 2) → List (ZMod 2)
  | a :: h, v :: r => if a = q then v :: outsRev q h r else outsRev q h r
  | _, _ => []

/-- Outcomes of `q`, newest first; `hist` are the measured qubits, oldest first. -/
def outs (hist : List String) (recs : List (ZMod 2)) (q : String) : List (ZMod 2) := outsRev q hist.reverse recs

theorem outsRev_map_append (q : String) (f : String → ZMod 2) (a b : List String) (r : List (ZMod 2)) :
    outsRev q (a ++ b) (a.map f ++ r) = List.replicate (a.count q) (f q) ++ outsRev q b r := by
  induction a with
  | nil => simp
  | cons x a ih =>
    by_cases h : x = q
    · subst h
      simp [outsRev, ih, List.replicate_succ]
    · simp [outsRev, ih, h, List.count_cons]

theorem outs_append {qs : List String} (hn : qs.Nodup) (f : String → ZMod 2) (hist : List String)
    (recs : List (ZMod 2)) (q : String) :
    outs (hist ++ qs) ((qs.map f).reverse ++ recs) q = if q ∈ qs then f q :: outs hist recs q else outs hist recs q := by
  unfold outs
  rw [List.reverse_append, ← List.map_reverse, outsRev_map_append, List.count_reverse]
  by_cases h : q ∈ qs
  · rw [List.count_eq_one_of_mem hn h, if_pos h]; simp
  · rw [List.count_eq_zero_of_not_mem h, if_neg h]; simp

theorem outsRev_length (q : String) : ∀ (h : List String) (r : List (ZMod 2)), r.length = h.length →
    (outsRev q h r).length = h.count q
  | [], [], _ => rfl
  | a :: h, v :: r, e => by
    have := outsRev_length q h r (by simpa using e)
    by_cases h' : a = q
    · simp [outsRev, h', this]
    · simp [outsRev, h', this, List.count_cons]

theorem outsRev_get (q : String) : ∀ (h : List String) (r : List (ZMod 2)) (i k : Nat), r.length = h.length →
    h[i]? = some q → (h.take i).count q = k → (outsRev q h r)[k]? = r[i]?
  | [], _, i, _, _, hi, _ => by simp at hi
  | a :: h, [], _, _, e, _, _ => by simp at e
  | a :: h, v :: r, 0, k, e, hi, hk => by
    have ha : a = q := by simpa using hi
    have : k = 0 := by simpa using hk.symm
    subst this
    simp [outsRev, ha]
  | a :: h, v :: r, i + 1, k, e, hi, hk => by
    have ih := fun k => outsRev_get q h r i k (by simpa using e) (by simpa using hi)
    rw [List.take_succ_cons] at hk
    by_cases ha : a = q
    · subst ha
      rw [List.count_cons_self] at hk
      subst hk
      simp only [outsRev, if_true, List.getElem?_cons_succ]
      exact ih _ rfl
    · rw [List.count_cons_of_ne (by simpa using ha)] at hk
      simp only [outsRev, ha, if_false, List.getElem?_cons_succ]
      exact ih _ hk

/-- The lookup finds the outcomes. -/
theorem measTarget_outs {inds : Dict String Nat} {s : MeasState} {hist : List String} (ht : s.Tracks inds hist)
    {q : String} (hq : q ∈ inds.keys) {recs : List (ZMod 2)} (hl : recs.length = hist.length) {k : Nat} (h1 : 1 ≤ k)
    (h2 : k ≤ hist.count q) :
    ∃ j : Int, s.measTarget q (-(k : Int)) = .ok j ∧ lookback recs j = (outs hist recs q).getD (k - 1) 0 := by
  obtain ⟨j, e, hj, hc⟩ := MeasState.measTarget_neg ht hq h1 h2
  refine ⟨_, e, ?_⟩
  have hjl : j < hist.length := by
    by_contra h
    rw [List.getElem?_eq_none (by omega)] at hj
    simp at hj
  have hi : hist.reverse[hist.length - 1 - j]? = some q := by
    rw [List.getElem?_reverse (by omega), ← hj]
    congr 1; omega
  have htk : (hist.reverse.take (hist.length - 1 - j)).count q = k - 1 := by
    rw [List.take_reverse, List.count_reverse, show hist.length - (hist.length - 1 - j) = j + 1 by omega]
    have : hist.drop j = q :: hist.drop (j + 1) := by
      rw [List.drop_eq_getElem_cons hjl]
      congr 1
      rw [List.getElem?_eq_getElem hjl] at hj
      simpa using hj
    rw [this, List.count_cons_self] at hc
    omega
  have := outsRev_get q hist.reverse recs _ _ (by simpa using hl) hi htk
  unfold lookback outs
  rw [List.getD_eq_getElem?_getD, List.getD_eq_getElem?_getD, this]
  congr 2
  omega

end SurfaceSim
