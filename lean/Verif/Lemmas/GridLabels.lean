/-
Ranges, labels and sites of the layout generators.
-/
import Verif.Lemmas.GridBuild
import Std.Data.String.ToInt
import Mathlib.Tactic.Linarith

namespace SurfaceSim
namespace LayoutLib

theorem mem_pyRange {a b s x : Int} (hs : 0 < s) :
    x ∈ pyRange a b s ↔ a ≤ x ∧ x < b ∧ (x - a) % s = 0 := by
  unfold pyRange
  simp only [List.mem_map, List.mem_range]
  constructor
  · rintro ⟨k, hk, rfl⟩
    have h1 : (k : Int) < (b - a + s - 1) / s := by omega
    have h2 : ((k : Int) + 1) * s ≤ b - a + s - 1 := by
      have := Int.mul_le_of_le_ediv hs (show (k : Int) + 1 ≤ _ from h1)
      exact this
    have h3 : 0 ≤ s * (k : Int) := Int.mul_nonneg hs.le (Int.natCast_nonneg k)
    refine ⟨by linarith, ?_, ?_⟩
    · nlinarith
    · rw [add_sub_cancel_left]; exact Int.mul_emod_right s k
  · rintro ⟨h1, h2, h3⟩
    obtain ⟨k, hk⟩ := Int.dvd_of_emod_eq_zero h3
    have hk0 : 0 ≤ k := by
      by_contra hc
      have : s * k < 0 := Int.mul_neg_of_pos_of_neg hs (by omega)
      omega
    refine ⟨k.toNat, ?_, ?_⟩
    · have : k + 1 ≤ (b - a + s - 1) / s := by
        rw [Int.le_ediv_iff_mul_le hs]
        have : (k + 1) * s = s * k + s := by ring
        omega
      omega
    · rw [Int.toNat_of_nonneg hk0]; omega

theorem pyRange_nodup {a b s : Int} (hs : 0 < s) : (pyRange a b s).Nodup := by
  unfold pyRange
  refine List.Nodup.map ?_ List.nodup_range
  intro i j h
  simp only [add_right_inj, mul_eq_mul_left_iff, Nat.cast_inj] at h
  rcases h with h | h
  · exact h
  · omega

theorem pyRange_length (a b s : Int) : (pyRange a b s).length = ((b - a + s - 1) / s).toNat := by
  simp [pyRange]

/-! ### labels -/

theorem label_inj (p a b : String) : p ++ a = p ++ b ↔ a = b := by
  constructor
  · intro h
    have := congrArg String.toList h
    simp only [String.toList_append, List.append_cancel_left_eq] at this
    exact String.toList_injective this
  · rintro rfl; rfl

theorem label_int_inj (p : String) (i j : Int) : p ++ Int.repr i = p ++ Int.repr j ↔ i = j := by
  rw [label_inj]
  exact ⟨fun h => Int.repr_inj.1 h, fun h => by rw [h]⟩

theorem label_head {p q : String} {x y : Char} (hp : p.toList = [x]) (hq : q.toList = [y]) (hxy : x ≠ y)
    (a b : String) : p ++ a ≠ q ++ b := by
  intro h
  have := congrArg String.toList h
  simp only [String.toList_append, hp, hq, List.cons_append, List.nil_append, List.cons.injEq] at this
  exact hxy this.1

theorem dx_ne (a b : String) : "D" ++ a ≠ "X" ++ b :=
  label_head (x := 'D') (y := 'X') (by decide) (by decide) (by decide) a b
theorem dz_ne (a b : String) : "D" ++ a ≠ "Z" ++ b :=
  label_head (x := 'D') (y := 'Z') (by decide) (by decide) (by decide) a b
theorem xz_ne (a b : String) : "X" ++ a ≠ "Z" ++ b :=
  label_head (x := 'X') (y := 'Z') (by decide) (by decide) (by decide) a b

/-! ### labelSites -/

variable {dl : Site → String}

theorem labelSites_snd (dl : Site → String) (ss : List (Site × Kind)) (xi zi : Int) :
    (labelSites dl ss xi zi).map Prod.snd = ss := by
  induction ss generalizing xi zi with
  | nil => rfl
  | cons a ss ih =>
    obtain ⟨s, k⟩ := a
    cases k <;> simp [labelSites, ih]

theorem labelSites_sites (dl : Site → String) (ss : List (Site × Kind)) (xi zi : Int) :
    (labelSites dl ss xi zi).map (fun e => e.2.1) = ss.map Prod.fst := by
  conv_rhs => rw [← labelSites_snd dl ss xi zi]
  rw [List.map_map]; rfl

theorem mem_labelSites_snd {ss : List (Site × Kind)} {xi zi : Int} {q : String} {s : Site} {k : Kind}
    (h : (q, s, k) ∈ labelSites dl ss xi zi) : (s, k) ∈ ss := by
  rw [← labelSites_snd dl ss xi zi]
  exact List.mem_map_of_mem (f := Prod.snd) h

theorem exists_labelSites {ss : List (Site × Kind)} {xi zi : Int} {s : Site} {k : Kind}
    (h : (s, k) ∈ ss) : ∃ q, (q, s, k) ∈ labelSites dl ss xi zi := by
  rw [← labelSites_snd dl ss xi zi] at h
  obtain ⟨⟨q, s', k'⟩, hm, he⟩ := List.mem_map.1 h
  simp only [Prod.mk.injEq] at he
  obtain ⟨rfl, rfl⟩ := he
  exact ⟨q, hm⟩

theorem labelSites_label {ss : List (Site × Kind)} {xi zi : Int} {q : String} {s : Site} {k : Kind}
    (h : (q, s, k) ∈ labelSites dl ss xi zi) :
    (k = .data ∧ q = dl s) ∨ (k = .x ∧ ∃ j, xi ≤ j ∧ q = "X" ++ Int.repr j) ∨
    (k = .z ∧ ∃ j, zi ≤ j ∧ q = "Z" ++ Int.repr j) := by
  induction ss generalizing xi zi with
  | nil => simp [labelSites] at h
  | cons a ss ih =>
    obtain ⟨s', k'⟩ := a
    cases k' <;> simp only [labelSites, List.mem_cons, Prod.mk.injEq] at h
    · rcases h with ⟨rfl, rfl, rfl⟩ | h
      · exact Or.inl ⟨rfl, rfl⟩
      · exact ih h
    · rcases h with ⟨rfl, rfl, rfl⟩ | h
      · exact Or.inr (Or.inl ⟨rfl, xi, le_refl _, rfl⟩)
      · rcases ih h with h | ⟨h, j, hj, hq⟩ | h
        · exact Or.inl h
        · exact Or.inr (Or.inl ⟨h, j, by omega, hq⟩)
        · exact Or.inr (Or.inr h)
    · rcases h with ⟨rfl, rfl, rfl⟩ | h
      · exact Or.inr (Or.inr ⟨rfl, zi, le_refl _, rfl⟩)
      · rcases ih h with h | h | ⟨h, j, hj, hq⟩
        · exact Or.inl h
        · exact Or.inr (Or.inl h)
        · exact Or.inr (Or.inr ⟨h, j, by omega, hq⟩)

theorem mem_labelSites_data {ss : List (Site × Kind)} {xi zi : Int} {q : String} {s : Site} :
    (q, s, Kind.data) ∈ labelSites dl ss xi zi ↔ q = dl s ∧ (s, Kind.data) ∈ ss := by
  constructor
  · intro h
    refine ⟨?_, mem_labelSites_snd h⟩
    rcases labelSites_label h with ⟨-, h⟩ | ⟨h, -⟩ | ⟨h, -⟩
    · exact h
    · simp at h
    · simp at h
  · rintro ⟨rfl, h⟩
    obtain ⟨q, hq⟩ := exists_labelSites (dl := dl) (xi := xi) (zi := zi) h
    rcases labelSites_label hq with ⟨-, h⟩ | ⟨h, -⟩ | ⟨h, -⟩
    · rw [← h]; exact hq
    · simp at h
    · simp at h

theorem labelSites_nodup {ss : List (Site × Kind)} (xi zi : Int) (hn : (ss.map Prod.fst).Nodup)
    (hD : ∀ s, ∃ i, dl s = "D" ++ Int.repr i)
    (hinj : ∀ s s', (s, Kind.data) ∈ ss → (s', Kind.data) ∈ ss → dl s = dl s' → s = s') :
    ((labelSites dl ss xi zi).map Prod.fst).Nodup := by
  induction ss generalizing xi zi with
  | nil => simp [labelSites]
  | cons a ss ih =>
    obtain ⟨s, k⟩ := a
    simp only [List.map_cons, List.nodup_cons] at hn
    have ih := fun xi zi => ih xi zi hn.2 fun s s' h h' => hinj s s' (List.mem_cons_of_mem _ h)
      (List.mem_cons_of_mem _ h')
    cases k <;> simp only [labelSites, List.map_cons, List.nodup_cons] <;> refine ⟨?_, ih _ _⟩
    · intro hm
      obtain ⟨⟨q, s', k'⟩, hm, he⟩ := List.mem_map.1 hm
      simp only at he
      subst he
      have hs' := mem_labelSites_snd hm
      obtain ⟨i, hi⟩ := hD s
      rcases labelSites_label hm with ⟨rfl, h⟩ | ⟨-, j, -, h⟩ | ⟨-, j, -, h⟩
      · have := hinj s s' (by simp) (List.mem_cons_of_mem _ hs') h
        subst this
        exact hn.1 (List.mem_map_of_mem (f := Prod.fst) hs')
      · rw [hi] at h; exact dx_ne _ _ h
      · rw [hi] at h; exact dz_ne _ _ h
    · intro hm
      obtain ⟨⟨q, s', k'⟩, hm, he⟩ := List.mem_map.1 hm
      simp only at he
      subst he
      rcases labelSites_label hm with ⟨rfl, h⟩ | ⟨-, j, hj, h⟩ | ⟨-, j, -, h⟩
      · obtain ⟨i, hi⟩ := hD s'
        rw [hi] at h; exact dx_ne _ _ h.symm
      · rw [label_int_inj] at h; omega
      · exact xz_ne _ _ h
    · intro hm
      obtain ⟨⟨q, s', k'⟩, hm, he⟩ := List.mem_map.1 hm
      simp only at he
      subst he
      rcases labelSites_label hm with ⟨rfl, h⟩ | ⟨-, j, -, h⟩ | ⟨-, j, hj, h⟩
      · obtain ⟨i, hi⟩ := hD s'
        rw [hi] at h; exact dz_ne _ _ h.symm
      · exact xz_ne _ _ h.symm
      · rw [label_int_inj] at h; omega

theorem labelSites_xlabels (ss : List (Site × Kind)) (xi zi : Int) :
    ((labelSites dl ss xi zi).filter fun e => e.2.2 = .x).map Prod.fst =
      (List.range (ss.countP fun e => e.2 = .x)).map fun (k : Nat) => "X" ++ Int.repr (xi + k) := by
  induction ss generalizing xi zi with
  | nil => rfl
  | cons a ss ih =>
    obtain ⟨s, k⟩ := a
    cases k
    · simp [labelSites, ih]
    · simp only [labelSites, List.filter_cons, decide_true, if_true, List.map_cons, ih,
        List.countP_cons, List.range_succ_eq_map, List.map_map]
      congr 1
      · simp
      · refine List.map_congr_left fun n _ => ?_
        simp only [Function.comp_apply, Nat.cast_succ]
        rw [label_int_inj]; omega
    · simp [labelSites, ih]

theorem labelSites_zlabels (ss : List (Site × Kind)) (xi zi : Int) :
    ((labelSites dl ss xi zi).filter fun e => e.2.2 = .z).map Prod.fst =
      (List.range (ss.countP fun e => e.2 = .z)).map fun (k : Nat) => "Z" ++ Int.repr (zi + k) := by
  induction ss generalizing xi zi with
  | nil => rfl
  | cons a ss ih =>
    obtain ⟨s, k⟩ := a
    cases k
    · simp [labelSites, ih]
    · simp [labelSites, ih]
    · simp only [labelSites, List.filter_cons, decide_true, if_true, List.map_cons, ih,
        List.countP_cons, List.range_succ_eq_map, List.map_map]
      congr 1
      · simp
      · refine List.map_congr_left fun n _ => ?_
        simp only [Function.comp_apply, Nat.cast_succ]
        rw [label_int_inj]; omega

end LayoutLib
end SurfaceSim
