import Verif.Model.MeasRecord
import Verif.Lemmas.Dict
import Verif.Spec.History

namespace SurfaceSim

/-- positions of `q` in a list, counted from `i` -/
def occ (q : String) : List String → Nat → List Nat
  | [], _ => []
  | a :: l, i => if a = q then i :: occ q l (i + 1) else occ q l (i + 1)

theorem occ_append (q : String) (l m : List String) (i : Nat) :
    occ q (l ++ m) i = occ q l i ++ occ q m (i + l.length) := by
  induction l generalizing i with
  | nil => simp [occ]
  | cons a l ih =>
    have : i + 1 + l.length = i + (l.length + 1) := by omega
    by_cases h : a = q <;> simp [occ, h, ih, this]

theorem occ_length (q : String) (l : List String) (i : Nat) : (occ q l i).length = l.count q := by
  induction l generalizing i with
  | nil => simp [occ]
  | cons a l ih => by_cases h : a = q <;> simp [occ, h, ih, List.count_cons]

/-- the element of `occ` that has `k` elements from it on is the `k`-th last occurrence -/
theorem occ_get (q : String) (l : List String) (i m : Nat) (hm : m < l.count q) :
    ∃ j, (occ q l i)[m]? = some (i + j) ∧ l[j]? = some q ∧ (l.drop j).count q = l.count q - m := by
  induction l generalizing i m with
  | nil => simp at hm
  | cons a l ih =>
    by_cases h : a = q
    · subst h
      cases m with
      | zero => exact ⟨0, by simp [occ]⟩
      | succ m =>
        have hm' : m < l.count a := by simpa using hm
        obtain ⟨j, h1, h2, h3⟩ := ih (i + 1) m hm'
        refine ⟨j + 1, ?_, by simpa using h2, ?_⟩
        · simp [occ, h1]; omega
        · simp [h3]
    · have hc : (a :: l).count q = l.count q := by simp [List.count_cons, h]
      rw [hc] at hm
      obtain ⟨j, h1, h2, h3⟩ := ih (i + 1) m hm
      refine ⟨j + 1, ?_, by simpa using h2, ?_⟩
      · simp [occ, h, h1]; omega
      · simp [h3, hc]

/-- The state of the record after the (successful) history `hist`. -/
def MeasState.Tracks (inds : Dict String Nat) (s : MeasState) (hist : List String) : Prop :=
  s.num = hist.length ∧
  ∀ q, s.order.get? q = if q ∈ inds.keys then some (occ q hist 0) else none

theorem MeasState.tracks_fresh (inds : Dict String Nat) : (MeasState.fresh inds).Tracks inds [] := by
  refine ⟨rfl, fun q => ?_⟩
  unfold MeasState.fresh
  rw [Dict.get?_map_val inds (fun _ => ([] : List Nat)) q]
  have := Dict.get?_isSome_iff inds q
  cases h : Dict.get? inds q with
  | none => simp [h] at this; simp [this]
  | some v => simp [h] at this; simp [this, occ]

theorem MeasState.addMeas_known {inds : Dict String Nat} {s : MeasState} {hist : List String}
    (ht : s.Tracks inds hist) {q : String} (hq : q ∈ inds.keys) :
    ∃ s', MeasState.addMeas inds q s = (.ok (), s') ∧ s'.Tracks inds (hist ++ [q]) := by
  obtain ⟨hn, ho⟩ := ht
  have hh : inds.has q = true := (Dict.has_iff _ _).2 hq
  refine ⟨⟨s.order.set q (occ q hist 0 ++ [s.num]), s.num + 1⟩, ?_, ?_, ?_⟩
  · simp [MeasState.addMeas, hh, ho, hq]
  · simp [hn]
  · intro q'
    simp only [Dict.get?_set, occ_append, occ]
    by_cases h : q = q'
    · subst h; simp [hq, hn]
    · simp [h, ho]

theorem MeasState.addMeas_unknown {inds : Dict String Nat} {s : MeasState}
    {q : String} (hq : q ∉ inds.keys) :
    MeasState.addMeas inds q s = (.error .valueError, s) := by
  have hh : inds.has q = false := by
    have := Dict.has_iff inds q
    cases h : inds.has q
    · rfl
    · exact absurd (this.1 h) hq
  simp [MeasState.addMeas, hh]

theorem pyIndex_neg {α : Type} (l : List α) (k : Nat) (h1 : 1 ≤ k) (h2 : k ≤ l.length) :
    pyIndex l (-(k : Int)) = match l[l.length - k]? with
      | some a => .ok a
      | none => .error .indexError := by
  have hneg : (-(k:Int)) < 0 := by omega
  have e : (-(k:Int) + l.length) = ((l.length - k : Nat) : Int) := by omega
  have hz : ¬ ((l.length - k : Nat) : Int) < 0 := by omega
  unfold pyIndex
  simp only [if_pos hneg, e, if_neg hz, Int.toNat_natCast]
  cases l[l.length - k]? <;> rfl

theorem pyIndex_ok {α : Type} {l : List α} {i : Int} {a : α} (h : pyIndex l i = .ok a) :
    ∃ m : Nat, l[m]? = some a := by
  unfold pyIndex at h
  generalize (if i < 0 then i + (l.length : Int) else i) = j at h
  dsimp only at h
  by_cases hj : j < 0
  · simp [hj] at h
  · rw [if_neg hj] at h
    cases hl : l[j.toNat]? with
    | none => simp [hl] at h
    | some b => simp [hl] at h; subst h; exact ⟨_, hl⟩

theorem MeasState.measTarget_neg {inds : Dict String Nat} {s : MeasState} {hist : List String}
    (ht : s.Tracks inds hist) {q : String} (hq : q ∈ inds.keys) {k : Nat} (h1 : 1 ≤ k)
    (h2 : k ≤ hist.count q) :
    ∃ j : Nat, s.measTarget q (-(k : Int)) = .ok ((j : Int) - hist.length) ∧ Spec.IsKthLast hist q k j := by
  obtain ⟨hn, ho⟩ := ht
  have hlen := occ_length q hist 0
  obtain ⟨j, e1, e2, e3⟩ := occ_get q hist 0 (hist.count q - k) (by omega)
  refine ⟨j, ?_, e2, by rw [e3]; omega⟩
  have hpy := pyIndex_neg (occ q hist 0) k h1 (by rw [hlen]; exact h2)
  rw [hlen, e1] at hpy
  have hc : ¬ (-(k:Int) > hist.count q ∨ -(k:Int) < -(hist.count q : Int)) := by omega
  unfold MeasState.measTarget
  rw [ho, if_pos hq]
  simp only [hlen, if_neg hc, hpy, hn, Nat.zero_add]

end SurfaceSim
