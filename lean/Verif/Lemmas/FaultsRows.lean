/-
The lines of the generated layouts: rows and columns of data qubits.
-/
import Verif.Lemmas.FaultsLines
import Verif.Lemmas.PipeGeometry
import Verif.Lemmas.UnrotRounds

namespace SurfaceSim
open Spec NoiseModel Blocks LayoutLib

variable {a : Args} {dx dz : Int} {l : Layout} {L : List (String × Site × Kind)} {dirs : List (Site × String)}

/-- The rows (Z basis) or columns (X basis) of the rotated code. -/
def rotLine (rb : Bool) (j : Nat) (s : Site) : Prop := (if rb then s.2 else s.1) = 2 * (j : Int) + 1

/-- The even rows (Z basis) or columns (X basis) of the unrotated code. -/
def unrotLine (rb : Bool) (j : Nat) (s : Site) : Prop := (if rb then s.2 else s.1) = 2 * (j : Int)

/-- How many there are. -/
def lineCount (dx dz : Int) (rb : Bool) : Nat := (if rb then dz else dx).toNat

theorem rotLine_one (rb : Bool) (s : Site) (i j : Nat) (hi : rotLine rb i s) (hj : rotLine rb j s) : i = j := by
  unfold rotLine at hi hj; omega

theorem unrotLine_one (rb : Bool) (s : Site) (i j : Nat) (hi : unrotLine rb i s) (hj : unrotLine rb j s) : i = j := by
  unfold unrotLine at hi hj; omega

theorem rot_cover_row (h : OnGrid l (rotEntries a dx dz) (names rotDirs)) {k : Nat} (hk : k + 1 < dx.toNat) {q : String}
    {r c : Int} (hq : (q, (r, c), Kind.data) ∈ rotEntries a dx dz) :
    Odd ((rotEntries a dx dz).countP fun e => decide (q ∈ l.getNeighbors [e.1] none) &&
      decide (e.2.2 = .z ∧ e.2.1.1 = 2 * (k : Int) + 2)) ↔ (r = 2 * (k : Int) + 1 ∨ r = 2 * (k : Int) + 3) := by
  have hs := rotEntry hq
  simp only [RotSite] at hs
  have key : ∀ T : List Site, T.Nodup → (∀ t ∈ T, RotSite dx dz t.1 t.2 .z) →
      (∀ r0 c0, RotSite dx dz r0 c0 .z → ((((r = r0 + 1 ∨ r = r0 - 1) ∧ (c = c0 + 1 ∨ c = c0 - 1)) ∧ r0 = 2 * (k : Int) + 2) ↔ (r0, c0) ∈ T)) →
      (rotEntries a dx dz).countP (fun e => decide (q ∈ l.getNeighbors [e.1] none) &&
        decide (e.2.2 = .z ∧ e.2.1.1 = 2 * (k : Int) + 2)) = T.length := by
    intro T hT hTd hiff
    refine h.countP_entries .z T hT (fun t ht => exists_rotEntry (hTd t ht)) ?_ ?_
    · intro e he hP
      simp only [Bool.and_eq_true, decide_eq_true_eq] at hP
      exact hP.2.1
    · rintro q' ⟨r0, c0⟩ hq'
      simp only [Bool.and_eq_true, decide_eq_true_eq, true_and]
      rw [rotN h hq' (by simp) hq]
      exact hiff r0 c0 (rotEntry hq')
  by_cases hr : r = 2 * (k : Int) + 1 ∨ r = 2 * (k : Int) + 3
  · simp only [hr, iff_true]
    by_cases hm : (2 * (k : Int) + 2 - c - 1) % 4 = 0
    · rw [key [(2 * (k : Int) + 2, c + 1)] (by simp) ?_ ?_]
      · simp
      · simp only [List.mem_singleton, forall_eq, RotSite]; omega
      · intro r0 c0 h0
        simp only [RotSite] at h0
        simp only [List.mem_singleton, Prod.mk.injEq]
        omega
    · rw [key [(2 * (k : Int) + 2, c - 1)] (by simp) ?_ ?_]
      · simp
      · simp only [List.mem_singleton, forall_eq, RotSite]; omega
      · intro r0 c0 h0
        simp only [RotSite] at h0
        simp only [List.mem_singleton, Prod.mk.injEq]
        omega
  · simp only [hr, iff_false, Nat.not_odd_iff_even]
    rw [key [] (by simp) (by simp) ?_]
    · simp
    · intro r0 c0 h0
      simp only [RotSite] at h0
      simp only [List.not_mem_nil, iff_false]
      omega

theorem rot_cover_col (h : OnGrid l (rotEntries a dx dz) (names rotDirs)) {k : Nat} (hk : k + 1 < dz.toNat) {q : String}
    {r c : Int} (hq : (q, (r, c), Kind.data) ∈ rotEntries a dx dz) :
    Odd ((rotEntries a dx dz).countP fun e => decide (q ∈ l.getNeighbors [e.1] none) &&
      decide (e.2.2 = .x ∧ e.2.1.2 = 2 * (k : Int) + 2)) ↔ (c = 2 * (k : Int) + 1 ∨ c = 2 * (k : Int) + 3) := by
  have hs := rotEntry hq
  simp only [RotSite] at hs
  have key : ∀ T : List Site, T.Nodup → (∀ t ∈ T, RotSite dx dz t.1 t.2 .x) →
      (∀ r0 c0, RotSite dx dz r0 c0 .x → ((((r = r0 + 1 ∨ r = r0 - 1) ∧ (c = c0 + 1 ∨ c = c0 - 1)) ∧ c0 = 2 * (k : Int) + 2) ↔ (r0, c0) ∈ T)) →
      (rotEntries a dx dz).countP (fun e => decide (q ∈ l.getNeighbors [e.1] none) &&
        decide (e.2.2 = .x ∧ e.2.1.2 = 2 * (k : Int) + 2)) = T.length := by
    intro T hT hTd hiff
    refine h.countP_entries .x T hT (fun t ht => exists_rotEntry (hTd t ht)) ?_ ?_
    · intro e he hP
      simp only [Bool.and_eq_true, decide_eq_true_eq] at hP
      exact hP.2.1
    · rintro q' ⟨r0, c0⟩ hq'
      simp only [Bool.and_eq_true, decide_eq_true_eq, true_and]
      rw [rotN h hq' (by simp) hq]
      exact hiff r0 c0 (rotEntry hq')
  by_cases hr : c = 2 * (k : Int) + 1 ∨ c = 2 * (k : Int) + 3
  · simp only [hr, iff_true]
    by_cases hm : (r + 1 - (2 * (k : Int) + 2)) % 4 = 2
    · rw [key [(r + 1, 2 * (k : Int) + 2)] (by simp) ?_ ?_]
      · simp
      · simp only [List.mem_singleton, forall_eq, RotSite]; omega
      · intro r0 c0 h0
        simp only [RotSite] at h0
        simp only [List.mem_singleton, Prod.mk.injEq]
        omega
    · rw [key [(r - 1, 2 * (k : Int) + 2)] (by simp) ?_ ?_]
      · simp
      · simp only [List.mem_singleton, forall_eq, RotSite]; omega
      · intro r0 c0 h0
        simp only [RotSite] at h0
        simp only [List.mem_singleton, Prod.mk.injEq]
        omega
  · simp only [hr, iff_false, Nat.not_odd_iff_even]
    rw [key [] (by simp) (by simp) ?_]
    · simp
    · intro r0 c0 h0
      simp only [RotSite] at h0
      simp only [List.not_mem_nil, iff_false]
      omega

theorem unrot_cover_row (h : OnGrid l (unrotEntries a dx dz) (names unrotDirs)) {k : Nat} (hk : k + 1 < dx.toNat) {q : String}
    {r c : Int} (hq : (q, (r, c), Kind.data) ∈ unrotEntries a dx dz) :
    Odd ((unrotEntries a dx dz).countP fun e => decide (q ∈ l.getNeighbors [e.1] none) &&
      decide (e.2.2 = .z ∧ e.2.1.1 = 2 * (k : Int) + 1)) ↔ (r = 2 * (k : Int) ∨ r = 2 * (k : Int) + 2) := by
  have hs := unrotEntry hq
  simp only [UnrotSite] at hs
  have key : ∀ T : List Site, T.Nodup → (∀ t ∈ T, UnrotSite dx dz t.1 t.2 .z) →
      (∀ r0 c0, UnrotSite dx dz r0 c0 .z → ((((r = r0 ∧ (c = c0 + 1 ∨ c = c0 - 1)) ∨ ((r = r0 + 1 ∨ r = r0 - 1) ∧ c = c0)) ∧ r0 = 2 * (k : Int) + 1) ↔ (r0, c0) ∈ T)) →
      (unrotEntries a dx dz).countP (fun e => decide (q ∈ l.getNeighbors [e.1] none) &&
        decide (e.2.2 = .z ∧ e.2.1.1 = 2 * (k : Int) + 1)) = T.length := by
    intro T hT hTd hiff
    refine h.countP_entries .z T hT (fun t ht => exists_unrotEntry (hTd t ht)) ?_ ?_
    · intro e he hP
      simp only [Bool.and_eq_true, decide_eq_true_eq] at hP
      exact hP.2.1
    · rintro q' ⟨r0, c0⟩ hq'
      simp only [Bool.and_eq_true, decide_eq_true_eq, true_and]
      rw [unrotN h hq' (by simp) hq]
      exact hiff r0 c0 (unrotEntry hq')
  by_cases hr : r = 2 * (k : Int) ∨ r = 2 * (k : Int) + 2
  · simp only [hr, iff_true]
    rw [key [(2 * (k : Int) + 1, c)] (by simp) ?_ ?_]
    · simp
    · simp only [List.mem_singleton, forall_eq, UnrotSite]; omega
    · intro r0 c0 h0
      simp only [UnrotSite] at h0
      simp only [List.mem_singleton, Prod.mk.injEq]
      omega
  · simp only [hr, iff_false, Nat.not_odd_iff_even]
    by_cases hm : r = 2 * (k : Int) + 1
    · rw [key [(2 * (k : Int) + 1, c + 1), (2 * (k : Int) + 1, c - 1)] (by simp; omega) ?_ ?_]
      · simp
      · simp only [List.mem_cons, List.not_mem_nil, or_false]
        rintro t (rfl | rfl) <;> simp only [UnrotSite] <;> omega
      · intro r0 c0 h0
        simp only [UnrotSite] at h0
        simp only [List.mem_cons, List.not_mem_nil, or_false, Prod.mk.injEq]
        omega
    · rw [key [] (by simp) (by simp) ?_]
      · simp
      · intro r0 c0 h0
        simp only [UnrotSite] at h0
        simp only [List.not_mem_nil, iff_false]
        omega

theorem unrot_cover_col (h : OnGrid l (unrotEntries a dx dz) (names unrotDirs)) {k : Nat} (hk : k + 1 < dz.toNat) {q : String}
    {r c : Int} (hq : (q, (r, c), Kind.data) ∈ unrotEntries a dx dz) :
    Odd ((unrotEntries a dx dz).countP fun e => decide (q ∈ l.getNeighbors [e.1] none) &&
      decide (e.2.2 = .x ∧ e.2.1.2 = 2 * (k : Int) + 1)) ↔ (c = 2 * (k : Int) ∨ c = 2 * (k : Int) + 2) := by
  have hs := unrotEntry hq
  simp only [UnrotSite] at hs
  have key : ∀ T : List Site, T.Nodup → (∀ t ∈ T, UnrotSite dx dz t.1 t.2 .x) →
      (∀ r0 c0, UnrotSite dx dz r0 c0 .x → ((((r = r0 ∧ (c = c0 + 1 ∨ c = c0 - 1)) ∨ ((r = r0 + 1 ∨ r = r0 - 1) ∧ c = c0)) ∧ c0 = 2 * (k : Int) + 1) ↔ (r0, c0) ∈ T)) →
      (unrotEntries a dx dz).countP (fun e => decide (q ∈ l.getNeighbors [e.1] none) &&
        decide (e.2.2 = .x ∧ e.2.1.2 = 2 * (k : Int) + 1)) = T.length := by
    intro T hT hTd hiff
    refine h.countP_entries .x T hT (fun t ht => exists_unrotEntry (hTd t ht)) ?_ ?_
    · intro e he hP
      simp only [Bool.and_eq_true, decide_eq_true_eq] at hP
      exact hP.2.1
    · rintro q' ⟨r0, c0⟩ hq'
      simp only [Bool.and_eq_true, decide_eq_true_eq, true_and]
      rw [unrotN h hq' (by simp) hq]
      exact hiff r0 c0 (unrotEntry hq')
  by_cases hr : c = 2 * (k : Int) ∨ c = 2 * (k : Int) + 2
  · simp only [hr, iff_true]
    rw [key [(r, 2 * (k : Int) + 1)] (by simp) ?_ ?_]
    · simp
    · simp only [List.mem_singleton, forall_eq, UnrotSite]; omega
    · intro r0 c0 h0
      simp only [UnrotSite] at h0
      simp only [List.mem_singleton, Prod.mk.injEq]
      omega
  · simp only [hr, iff_false, Nat.not_odd_iff_even]
    by_cases hm : c = 2 * (k : Int) + 1
    · rw [key [(r + 1, 2 * (k : Int) + 1), (r - 1, 2 * (k : Int) + 1)] (by simp; omega) ?_ ?_]
      · simp
      · simp only [List.mem_cons, List.not_mem_nil, or_false]
        rintro t (rfl | rfl) <;> simp only [UnrotSite] <;> omega
      · intro r0 c0 h0
        simp only [UnrotSite] at h0
        simp only [List.mem_cons, List.not_mem_nil, or_false, Prod.mk.injEq]
        omega
    · rw [key [] (by simp) (by simp) ?_]
      · simp
      · intro r0 c0 h0
        simp only [UnrotSite] at h0
        simp only [List.not_mem_nil, iff_false]
        omega

theorem IsRot.lines (h : IsRot a dx dz l) (hdx : 1 ≤ dx) (hdz : 1 ≤ dz) (rb : Bool) :
    Lines l (dataOf (rotEntries a dx dz)) (stabsOf (rotEntries a dx dz) rb)
      (if rb then logXList a dx dz else logZList a dz)
      fun j : Fin (lineCount dx dz rb) => onLine (rotEntries a dx dz) (rotLine rb j) := by
  have hc := h.codeGrid hdx hdz
  cases rb
  · refine lines_grid h.grid (rotLine_one false) (logZList_nodup _ _) hc.subZ ?_ (fun a ha => stabsOf_sub ha) ?_
    · rintro q ⟨r, c⟩ hq
      simpa [rotLine] using rot_mem_logZ hdx hq
    · intro k hk
      refine ⟨fun e => decide (e.2.2 = .z ∧ e.2.1.1 = 2 * (k : Int) + 2), ?_, ?_⟩
      · rintro ⟨q, s, k'⟩ he hP
        simp only [decide_eq_true_eq] at hP
        obtain ⟨rfl, -⟩ := hP
        exact mem_zOf.2 ⟨s, he⟩
      · rintro q ⟨r, c⟩ hq
        rw [rot_cover_row h.grid (by simpa [lineCount] using hk) hq]
        simp only [rotLine, Bool.false_eq_true, if_false]
        push_cast
        omega
  · refine lines_grid h.grid (rotLine_one true) (logXList_nodup _ _ (by omega)) hc.subX ?_ (fun a ha => stabsOf_sub ha) ?_
    · rintro q ⟨r, c⟩ hq
      simpa [rotLine] using rot_mem_logX hq
    · intro k hk
      refine ⟨fun e => decide (e.2.2 = .x ∧ e.2.1.2 = 2 * (k : Int) + 2), ?_, ?_⟩
      · rintro ⟨q, s, k'⟩ he hP
        simp only [decide_eq_true_eq] at hP
        obtain ⟨rfl, -⟩ := hP
        exact mem_xOf.2 ⟨s, he⟩
      · rintro q ⟨r, c⟩ hq
        rw [rot_cover_col h.grid (by simpa [lineCount] using hk) hq]
        simp only [rotLine, if_true]
        push_cast
        omega

theorem IsUnrot.lines (h : IsUnrot a dx dz l) (hdx : 1 ≤ dx) (hdz : 1 ≤ dz) (rb : Bool) :
    Lines l (dataOf (unrotEntries a dx dz)) (stabsOf (unrotEntries a dx dz) rb)
      (if rb then logXList a dx (2 * dz - 1) else logZList a dz)
      fun j : Fin (lineCount dx dz rb) => onLine (unrotEntries a dx dz) (unrotLine rb j) := by
  have hc := h.codeGrid hdx hdz
  cases rb
  · refine lines_grid h.grid (unrotLine_one false) (logZList_nodup _ _) hc.subZ ?_ (fun a ha => stabsOf_sub ha) ?_
    · rintro q ⟨r, c⟩ hq
      simpa [unrotLine] using unrot_mem_logZ hdx hq
    · intro k hk
      refine ⟨fun e => decide (e.2.2 = .z ∧ e.2.1.1 = 2 * (k : Int) + 1), ?_, ?_⟩
      · rintro ⟨q, s, k'⟩ he hP
        simp only [decide_eq_true_eq] at hP
        obtain ⟨rfl, -⟩ := hP
        exact mem_zOf.2 ⟨s, he⟩
      · rintro q ⟨r, c⟩ hq
        rw [unrot_cover_row h.grid (by simpa [lineCount] using hk) hq]
        simp only [unrotLine, Bool.false_eq_true, if_false]
        push_cast
        omega
  · refine lines_grid h.grid (unrotLine_one true) (logXList_nodup _ _ (by omega)) hc.subX ?_ (fun a ha => stabsOf_sub ha) ?_
    · rintro q ⟨r, c⟩ hq
      simpa [unrotLine] using unrot_mem_logX hq
    · intro k hk
      refine ⟨fun e => decide (e.2.2 = .x ∧ e.2.1.2 = 2 * (k : Int) + 1), ?_, ?_⟩
      · rintro ⟨q, s, k'⟩ he hP
        simp only [decide_eq_true_eq] at hP
        obtain ⟨rfl, -⟩ := hP
        exact mem_xOf.2 ⟨s, he⟩
      · rintro q ⟨r, c⟩ hq
        rw [unrot_cover_col h.grid (by simpa [lineCount] using hk) hq]
        simp only [unrotLine, if_true]
        push_cast
        omega

end SurfaceSim
