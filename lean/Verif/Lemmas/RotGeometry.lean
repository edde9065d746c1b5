/-
Geometry of the rotated surface code.
-/
import Verif.Lemmas.Grid

namespace SurfaceSim
namespace LayoutLib

variable {l : Layout} {a : Args} {dx dz : Int}

theorem mem_rotNames {sh : Site} {d : String} : (sh, d) ∈ names rotDirs ↔
    (sh = (1, 1) ∧ d = "north_east") ∨ (sh = (1, -1) ∧ d = "north_west") ∨
    (sh = (-1, 1) ∧ d = "south_east") ∨ (sh = (-1, -1) ∧ d = "south_west") := by
  have : names rotDirs = [((1, 1), "north_east"), ((1, -1), "north_west"),
      ((-1, 1), "south_east"), ((-1, -1), "south_west")] := by
    decide +kernel
  rw [this]
  simp only [List.mem_cons, Prod.mk.injEq, List.not_mem_nil, or_false]

/-- An entry of the rotated layout. -/
theorem rotEntry {q : String} {r c : Int} {k : Kind} (h : (q, (r, c), k) ∈ rotEntries a dx dz) :
    RotSite dx dz r c k := mem_rotSites.1 (mem_labelSites_snd h)

theorem exists_rotEntry {r c : Int} {k : Kind} (h : RotSite dx dz r c k) :
    ∃ q, (q, (r, c), k) ∈ rotEntries a dx dz := exists_labelSites (mem_rotSites.2 h)

theorem mem_rotEntries_data {q : String} {r c : Int} :
    (q, (r, c), Kind.data) ∈ rotEntries a dx dz ↔
      q = rotDataLabel a dz (r, c) ∧ RotSite dx dz r c .data := by
  unfold rotEntries
  rw [mem_labelSites_data, mem_rotSites]

theorem rotN (h : OnGrid l (rotEntries a dx dz) (names rotDirs)) {x q : String} {r c r' c' : Int}
    {k : Kind} (hx : (x, (r, c), k) ∈ rotEntries a dx dz) (hk : k ≠ .data)
    (hq : (q, (r', c'), Kind.data) ∈ rotEntries a dx dz) :
    q ∈ l.getNeighbors [x] none ↔ (r' = r + 1 ∨ r' = r - 1) ∧ (c' = c + 1 ∨ c' = c - 1) := by
  rw [h.mem_neighbors_anc hx hk]
  constructor
  · rintro ⟨sh, dir, hd, hq'⟩
    have := (h.unique hq hq').1
    rcases mem_rotNames.1 hd with ⟨rfl, -⟩ | ⟨rfl, -⟩ | ⟨rfl, -⟩ | ⟨rfl, -⟩ <;>
    simp only [Prod.mk_add_mk, Prod.mk.injEq] at this <;> omega
  · rintro ⟨h1 | h1, h2 | h2⟩ <;> subst h1 <;> subst h2
    · exact ⟨(1, 1), _, mem_rotNames.2 (Or.inl ⟨rfl, rfl⟩), hq⟩
    · exact ⟨(1, -1), _, mem_rotNames.2 (Or.inr (Or.inl ⟨rfl, rfl⟩)), hq⟩
    · exact ⟨(-1, 1), _, mem_rotNames.2 (Or.inr (Or.inr (Or.inl ⟨rfl, rfl⟩))), hq⟩
    · exact ⟨(-1, -1), _, mem_rotNames.2 (Or.inr (Or.inr (Or.inr ⟨rfl, rfl⟩))), hq⟩

theorem neighbors_data (h : OnGrid l L dirs) {x q : String} {s : Site} {k : Kind} (hx : (x, s, k) ∈ L)
    (hk : k ≠ .data) (hq : q ∈ l.getNeighbors [x] none) : ∃ s', (q, s', Kind.data) ∈ L := by
  obtain ⟨sh, dir, -, hq⟩ := (h.mem_neighbors_anc hx hk).1 hq
  exact ⟨_, hq⟩

theorem rot_overlap (h : OnGrid l (rotEntries a dx dz) (names rotDirs)) {x z : String}
    {s s' : Site} (hx : (x, s, Kind.x) ∈ rotEntries a dx dz) (hz : (z, s', Kind.z) ∈ rotEntries a dx dz) :
    overlap (l.getNeighbors [x] none) (l.getNeighbors [z] none) = 0 ∨
    overlap (l.getNeighbors [x] none) (l.getNeighbors [z] none) = 2 := by
  obtain ⟨r, c⟩ := s
  obtain ⟨r', c'⟩ := s'
  have gx := rotEntry hx
  have gz := rotEntry hz
  simp only [RotSite] at gx gz
  have key : ∀ T : List Site, T.Nodup → (∀ t ∈ T, RotSite dx dz t.1 t.2 .data) →
      (∀ r0 c0, RotSite dx dz r0 c0 .data → ((((r0 = r + 1 ∨ r0 = r - 1) ∧ (c0 = c + 1 ∨ c0 = c - 1)) ∧
        ((r0 = r' + 1 ∨ r0 = r' - 1) ∧ (c0 = c' + 1 ∨ c0 = c' - 1))) ↔ (r0, c0) ∈ T)) →
      overlap (l.getNeighbors [x] none) (l.getNeighbors [z] none) = T.length := by
    intro T hT hTd hiff
    unfold overlap
    refine h.countP_sites (h.neighbors_nodup x) (fun q hq => neighbors_data h hx (by simp) hq) T hT
      (fun t ht => exists_rotEntry (hTd t ht)) ?_
    rintro q ⟨r0, c0⟩ hq
    rw [decide_eq_true_eq, rotN h hx (by simp) hq, rotN h hz (by simp) hq]
    exact hiff r0 c0 (rotEntry hq)
  by_cases h1 : r' = r + 2 ∧ c' = c
  · right
    refine key [(r + 1, c + 1), (r + 1, c - 1)] ?_ ?_ ?_
    · simp; omega
    · simp only [List.mem_cons, List.not_mem_nil, or_false]
      rintro t (rfl | rfl) <;> simp only [RotSite] <;> omega
    · intro r0 c0 h0
      simp only [List.mem_cons, List.not_mem_nil, or_false, Prod.mk.injEq]
      omega
  by_cases h2 : r' = r - 2 ∧ c' = c
  · right
    refine key [(r - 1, c + 1), (r - 1, c - 1)] ?_ ?_ ?_
    · simp; omega
    · simp only [List.mem_cons, List.not_mem_nil, or_false]
      rintro t (rfl | rfl) <;> simp only [RotSite] <;> omega
    · intro r0 c0 h0
      simp only [List.mem_cons, List.not_mem_nil, or_false, Prod.mk.injEq]
      omega
  by_cases h3 : r' = r ∧ c' = c + 2
  · right
    refine key [(r + 1, c + 1), (r - 1, c + 1)] ?_ ?_ ?_
    · simp; omega
    · simp only [List.mem_cons, List.not_mem_nil, or_false]
      rintro t (rfl | rfl) <;> simp only [RotSite] <;> omega
    · intro r0 c0 h0
      simp only [List.mem_cons, List.not_mem_nil, or_false, Prod.mk.injEq]
      omega
  by_cases h4 : r' = r ∧ c' = c - 2
  · right
    refine key [(r + 1, c - 1), (r - 1, c - 1)] ?_ ?_ ?_
    · simp; omega
    · simp only [List.mem_cons, List.not_mem_nil, or_false]
      rintro t (rfl | rfl) <;> simp only [RotSite] <;> omega
    · intro r0 c0 h0
      simp only [List.mem_cons, List.not_mem_nil, or_false, Prod.mk.injEq]
      omega
  · left
    refine key [] (by simp) (by simp) ?_
    intro r0 c0 h0
    simp only [List.not_mem_nil, iff_false]
    omega

/-! ### logical operators -/

/-- The qubits of `log_z`. -/
def logZList (a : Args) (dz : Int) : List String :=
  (List.range dz.toNat).map fun (i : Nat) => "D" ++ Int.repr (i + a.initData)

/-- The qubits of `log_x`, with the given row length. -/
def logXList (a : Args) (dx n : Int) : List String :=
  (List.range dx.toNat).map fun (i : Nat) => "D" ++ Int.repr (i * n + a.initData)

theorem logZList_nodup (a : Args) (dz : Int) : (logZList a dz).Nodup := by
  refine List.Nodup.map ?_ List.nodup_range
  intro i j h
  simp only [label_int_inj] at h
  omega

theorem logXList_nodup (a : Args) (dx : Int) {n : Int} (hn : 0 < n) : (logXList a dx n).Nodup := by
  refine List.Nodup.map ?_ List.nodup_range
  intro i j h
  simp only [label_int_inj, add_left_inj] at h
  have := mul_right_cancel₀ hn.ne' h
  omega

theorem rot_mem_logZ {q : String} {r c : Int} (hx : 1 ≤ dx)
    (hq : (q, (r, c), Kind.data) ∈ rotEntries a dx dz) : q ∈ logZList a dz ↔ r = 1 := by
  obtain ⟨rfl, hs⟩ := mem_rotEntries_data.1 hq
  simp only [RotSite] at hs
  unfold logZList
  simp only [List.mem_map, List.mem_range, rotDataLabel, rotDataIndex]
  constructor
  · rintro ⟨i, hi, he⟩
    rw [label_int_inj] at he
    obtain ⟨e1, e2⟩ := digits_inj (n := dz) (i := 0) (j := i) (i' := r / 2) (j' := c / 2)
      (by omega) (by omega) (by omega) (by omega) (by linarith)
    omega
  · rintro rfl
    refine ⟨(c / 2).toNat, by omega, ?_⟩
    rw [label_int_inj]
    have : (1 : Int) / 2 = 0 := by decide
    rw [this]
    omega

theorem rot_mem_logX {q : String} {r c : Int}
    (hq : (q, (r, c), Kind.data) ∈ rotEntries a dx dz) : q ∈ logXList a dx dz ↔ c = 1 := by
  obtain ⟨rfl, hs⟩ := mem_rotEntries_data.1 hq
  simp only [RotSite] at hs
  unfold logXList
  simp only [List.mem_map, List.mem_range, rotDataLabel, rotDataIndex]
  constructor
  · rintro ⟨i, hi, he⟩
    rw [label_int_inj] at he
    obtain ⟨e1, e2⟩ := digits_inj (n := dz) (i := i) (j := 0) (i' := r / 2) (j' := c / 2)
      (by omega) (by omega) (by omega) (by omega) (by linarith)
    omega
  · rintro rfl
    refine ⟨(r / 2).toNat, by omega, ?_⟩
    rw [label_int_inj]
    have : (1 : Int) / 2 = 0 := by decide
    rw [this, Int.toNat_of_nonneg (by omega)]
    omega

theorem rot_logZ_data {q : String} (hx : 1 ≤ dx) (hq : q ∈ logZList a dz) :
    ∃ s, (q, s, Kind.data) ∈ rotEntries a dx dz := by
  unfold logZList at hq
  simp only [List.mem_map, List.mem_range] at hq
  obtain ⟨i, hi, rfl⟩ := hq
  refine ⟨(1, 2 * i + 1), mem_rotEntries_data.2 ⟨?_, ?_⟩⟩
  · unfold rotDataLabel rotDataIndex
    rw [label_int_inj]
    have : (1 : Int) / 2 = 0 := by decide
    simp only [this]
    omega
  · simp only [RotSite]; omega

theorem rot_logX_data {q : String} (hz : 1 ≤ dz) (hq : q ∈ logXList a dx dz) :
    ∃ s, (q, s, Kind.data) ∈ rotEntries a dx dz := by
  unfold logXList at hq
  simp only [List.mem_map, List.mem_range] at hq
  obtain ⟨i, hi, rfl⟩ := hq
  refine ⟨(2 * i + 1, 1), mem_rotEntries_data.2 ⟨?_, ?_⟩⟩
  · unfold rotDataLabel rotDataIndex
    rw [label_int_inj]
    have h1 : (1 : Int) / 2 = 0 := by decide
    have h2 : (2 * (i : Int) + 1) / 2 = i := by omega
    simp only [h1, h2]
    omega
  · simp only [RotSite]; omega

theorem rot_overlap_logZ (h : OnGrid l (rotEntries a dx dz) (names rotDirs)) (hdx : 1 ≤ dx) {x : String}
    {s : Site} (hx : (x, s, Kind.x) ∈ rotEntries a dx dz) :
    overlap (logZList a dz) (l.getNeighbors [x] none) = 0 ∨
    overlap (logZList a dz) (l.getNeighbors [x] none) = 2 := by
  obtain ⟨r, c⟩ := s
  have gx := rotEntry hx
  simp only [RotSite] at gx
  have key : ∀ T : List Site, T.Nodup → (∀ t ∈ T, RotSite dx dz t.1 t.2 .data) →
      (∀ r0 c0, RotSite dx dz r0 c0 .data → ((r0 = 1 ∧ ((r0 = r + 1 ∨ r0 = r - 1) ∧
        (c0 = c + 1 ∨ c0 = c - 1))) ↔ (r0, c0) ∈ T)) →
      overlap (logZList a dz) (l.getNeighbors [x] none) = T.length := by
    intro T hT hTd hiff
    unfold overlap
    refine h.countP_sites (logZList_nodup a dz) (fun q hq => rot_logZ_data hdx hq) T hT
      (fun t ht => exists_rotEntry (hTd t ht)) ?_
    rintro q ⟨r0, c0⟩ hq
    rw [decide_eq_true_eq, rotN h hx (by simp) hq, rot_mem_logZ hdx hq]
    exact hiff r0 c0 (rotEntry hq)
  by_cases h1 : r = 0 ∨ r = 2
  · right
    refine key [(1, c + 1), (1, c - 1)] ?_ ?_ ?_
    · simp; omega
    · simp only [List.mem_cons, List.not_mem_nil, or_false]
      rintro t (rfl | rfl) <;> simp only [RotSite] <;> omega
    · intro r0 c0 h0
      simp only [List.mem_cons, List.not_mem_nil, or_false, Prod.mk.injEq]
      omega
  · left
    refine key [] (by simp) (by simp) ?_
    intro r0 c0 h0
    simp only [List.not_mem_nil, iff_false]
    omega

theorem rot_overlap_logX (h : OnGrid l (rotEntries a dx dz) (names rotDirs)) (hdz : 1 ≤ dz) {z : String}
    {s : Site} (hz : (z, s, Kind.z) ∈ rotEntries a dx dz) :
    overlap (logXList a dx dz) (l.getNeighbors [z] none) = 0 ∨
    overlap (logXList a dx dz) (l.getNeighbors [z] none) = 2 := by
  obtain ⟨r, c⟩ := s
  have gz := rotEntry hz
  simp only [RotSite] at gz
  have key : ∀ T : List Site, T.Nodup → (∀ t ∈ T, RotSite dx dz t.1 t.2 .data) →
      (∀ r0 c0, RotSite dx dz r0 c0 .data → ((c0 = 1 ∧ ((r0 = r + 1 ∨ r0 = r - 1) ∧
        (c0 = c + 1 ∨ c0 = c - 1))) ↔ (r0, c0) ∈ T)) →
      overlap (logXList a dx dz) (l.getNeighbors [z] none) = T.length := by
    intro T hT hTd hiff
    unfold overlap
    refine h.countP_sites (logXList_nodup a dx (by omega)) (fun q hq => rot_logX_data hdz hq) T hT
      (fun t ht => exists_rotEntry (hTd t ht)) ?_
    rintro q ⟨r0, c0⟩ hq
    rw [decide_eq_true_eq, rotN h hz (by simp) hq, rot_mem_logX hq]
    exact hiff r0 c0 (rotEntry hq)
  by_cases h1 : c = 0 ∨ c = 2
  · right
    refine key [(r + 1, 1), (r - 1, 1)] ?_ ?_ ?_
    · simp; omega
    · simp only [List.mem_cons, List.not_mem_nil, or_false]
      rintro t (rfl | rfl) <;> simp only [RotSite] <;> omega
    · intro r0 c0 h0
      simp only [List.mem_cons, List.not_mem_nil, or_false, Prod.mk.injEq]
      omega
  · left
    refine key [] (by simp) (by simp) ?_
    intro r0 c0 h0
    simp only [List.not_mem_nil, iff_false]
    omega

theorem rot_logs_overlap (h : OnGrid l (rotEntries a dx dz) (names rotDirs)) (hdx : 1 ≤ dx) (hdz : 1 ≤ dz) :
    overlap (logXList a dx dz) (logZList a dz) = 1 ∧ overlap (logZList a dz) (logXList a dx dz) = 1 := by
  unfold overlap
  constructor
  · refine h.countP_sites (logXList_nodup a dx (by omega)) (fun q hq => rot_logX_data hdz hq) [(1, 1)]
      (by simp) ?_ ?_
    · simp only [List.mem_singleton, forall_eq]
      exact exists_rotEntry (by simp only [RotSite]; omega)
    · rintro q ⟨r0, c0⟩ hq
      rw [decide_eq_true_eq, rot_mem_logX hq, rot_mem_logZ hdx hq]
      simp; omega
  · refine h.countP_sites (logZList_nodup a dz) (fun q hq => rot_logZ_data hdx hq) [(1, 1)]
      (by simp) ?_ ?_
    · simp only [List.mem_singleton, forall_eq]
      exact exists_rotEntry (by simp only [RotSite]; omega)
    · rintro q ⟨r0, c0⟩ hq
      rw [decide_eq_true_eq, rot_mem_logX hq, rot_mem_logZ hdx hq]
      simp

/-! ### distance -/

theorem rot_row_bound (h : OnGrid l (rotEntries a dx dz) (names rotDirs)) (hdx : 1 ≤ dx) {S : List String}
    (hSd : ∀ q ∈ S, ∃ s, (q, s, Kind.data) ∈ rotEntries a dx dz)
    (hst : ∀ z s, (z, s, Kind.z) ∈ rotEntries a dx dz → Even (overlap S (l.getNeighbors [z] none)))
    (hlog : Odd (overlap S (logZList a dz))) : dx ≤ S.length := by
  classical
  let site : String → Site := fun q => if h : ∃ s, (q, s, Kind.data) ∈ rotEntries a dx dz then h.choose else (0, 0)
  have hsite : ∀ q r c, (q, (r, c), Kind.data) ∈ rotEntries a dx dz → site q = (r, c) := by
    intro q r c hq
    have hex : ∃ s, (q, s, Kind.data) ∈ rotEntries a dx dz := ⟨_, hq⟩
    simp only [site, dif_pos hex]
    exact (h.unique hex.choose_spec hq).1
  have := length_of_slots S dx.toNat (fun q => (site q).1 / 2) ?_ ?_
  · omega
  · convert hlog using 1
    unfold overlap
    refine List.countP_congr fun q hq => ?_
    obtain ⟨⟨r, c⟩, hq⟩ := hSd q hq
    have hs := rotEntry hq
    simp only [RotSite] at hs
    simp only [hsite q r c hq, decide_eq_true_eq, rot_mem_logZ hdx hq]
    omega
  · intro k hk
    refine even_countP_of_cover (A := (rotEntries a dx dz).filter fun e => e.2.2 = .z ∧ e.2.1.1 = 2 * (k : Int) + 2)
      (N := fun e q => decide (q ∈ l.getNeighbors [e.1] none)) ?_ ?_
    · intro e he
      obtain ⟨q, s, k'⟩ := e
      simp only [List.mem_filter, decide_eq_true_eq] at he
      obtain ⟨he, rfl, -⟩ := he
      exact hst q s he
    · intro q hq
      obtain ⟨⟨r, c⟩, hq⟩ := hSd q hq
      have hs := rotEntry hq
      simp only [RotSite] at hs
      rw [List.countP_filter, hsite q r c hq]
      have key : ∀ T : List Site, T.Nodup → (∀ t ∈ T, RotSite dx dz t.1 t.2 .z) →
          (∀ r0 c0, RotSite dx dz r0 c0 .z → ((((r = r0 + 1 ∨ r = r0 - 1) ∧ (c = c0 + 1 ∨ c = c0 - 1)) ∧
            r0 = 2 * (k : Int) + 2) ↔ (r0, c0) ∈ T)) →
          (rotEntries a dx dz).countP (fun e => decide (q ∈ l.getNeighbors [e.1] none) &&
            decide (e.2.2 = .z ∧ e.2.1.1 = 2 * (k : Int) + 2)) = T.length := by
        intro T hT hTd hiff
        refine h.countP_entries .z T hT (fun t ht => exists_rotEntry (hTd t ht)) ?_ ?_
        · intro e he hP
          simp only [Bool.and_eq_true, decide_eq_true_eq] at hP
          exact hP.2.1
        · rintro q' ⟨r0, c0⟩ hq'
          simp only [Bool.and_eq_true, decide_eq_true_eq, true_and]
          rw [rotN h hq' (by simp) hq]
          exact hiff r0 c0 (rotEntry hq')
      by_cases hr : r = 2 * (k : Int) + 1 ∨ r = 2 * (k : Int) + 3
      · have hP : decide (r / 2 = (k : Int) ∨ r / 2 = (k : Int) + 1) = true := by
          rw [decide_eq_true_eq]; omega
        simp only [hP, Bool.true_eq_false, iff_false, Nat.not_even_iff_odd]
        by_cases hm : (2 * (k : Int) + 2 - c - 1) % 4 = 0
        · rw [key [(2 * (k : Int) + 2, c + 1)] (by simp) ?_ ?_]
          · simp
          · simp only [List.mem_singleton, forall_eq, RotSite]; omega
          · intro r0 c0 h0
            simp only [RotSite] at h0
            simp only [List.mem_singleton, Prod.mk.injEq]
            omega
        · rw [key [(2 * (k : Int) + 2, c - 1)] (by simp) ?_ ?_]
          · simp
          · simp only [List.mem_singleton, forall_eq, RotSite]; omega
          · intro r0 c0 h0
            simp only [RotSite] at h0
            simp only [List.mem_singleton, Prod.mk.injEq]
            omega
      · have hP : decide (r / 2 = (k : Int) ∨ r / 2 = (k : Int) + 1) = false := by
          rw [decide_eq_false_iff_not]; omega
        simp only [hP, iff_true]
        rw [key [] (by simp) (by simp) ?_]
        · simp
        · intro r0 c0 h0
          simp only [List.not_mem_nil, iff_false]
          omega

theorem rot_col_bound (h : OnGrid l (rotEntries a dx dz) (names rotDirs)) {S : List String}
    (hSd : ∀ q ∈ S, ∃ s, (q, s, Kind.data) ∈ rotEntries a dx dz)
    (hst : ∀ x s, (x, s, Kind.x) ∈ rotEntries a dx dz → Even (overlap S (l.getNeighbors [x] none)))
    (hlog : Odd (overlap S (logXList a dx dz))) : dz ≤ S.length := by
  classical
  let site : String → Site := fun q => if h : ∃ s, (q, s, Kind.data) ∈ rotEntries a dx dz then h.choose else (0, 0)
  have hsite : ∀ q r c, (q, (r, c), Kind.data) ∈ rotEntries a dx dz → site q = (r, c) := by
    intro q r c hq
    have hex : ∃ s, (q, s, Kind.data) ∈ rotEntries a dx dz := ⟨_, hq⟩
    simp only [site, dif_pos hex]
    exact (h.unique hex.choose_spec hq).1
  have := length_of_slots S dz.toNat (fun q => (site q).2 / 2) ?_ ?_
  · omega
  · convert hlog using 1
    unfold overlap
    refine List.countP_congr fun q hq => ?_
    obtain ⟨⟨r, c⟩, hq⟩ := hSd q hq
    have hs := rotEntry hq
    simp only [RotSite] at hs
    simp only [hsite q r c hq, decide_eq_true_eq, rot_mem_logX hq]
    omega
  · intro k hk
    refine even_countP_of_cover (A := (rotEntries a dx dz).filter fun e => e.2.2 = .x ∧ e.2.1.2 = 2 * (k : Int) + 2)
      (N := fun e q => decide (q ∈ l.getNeighbors [e.1] none)) ?_ ?_
    · intro e he
      obtain ⟨q, s, k'⟩ := e
      simp only [List.mem_filter, decide_eq_true_eq] at he
      obtain ⟨he, rfl, -⟩ := he
      exact hst q s he
    · intro q hq
      obtain ⟨⟨r, c⟩, hq⟩ := hSd q hq
      have hs := rotEntry hq
      simp only [RotSite] at hs
      rw [List.countP_filter, hsite q r c hq]
      have key : ∀ T : List Site, T.Nodup → (∀ t ∈ T, RotSite dx dz t.1 t.2 .x) →
          (∀ r0 c0, RotSite dx dz r0 c0 .x → ((((r = r0 + 1 ∨ r = r0 - 1) ∧ (c = c0 + 1 ∨ c = c0 - 1)) ∧
            c0 = 2 * (k : Int) + 2) ↔ (r0, c0) ∈ T)) →
          (rotEntries a dx dz).countP (fun e => decide (q ∈ l.getNeighbors [e.1] none) &&
            decide (e.2.2 = .x ∧ e.2.1.2 = 2 * (k : Int) + 2)) = T.length := by
        intro T hT hTd hiff
        refine h.countP_entries .x T hT (fun t ht => exists_rotEntry (hTd t ht)) ?_ ?_
        · intro e he hP
          simp only [Bool.and_eq_true, decide_eq_true_eq] at hP
          exact hP.2.1
        · rintro q' ⟨r0, c0⟩ hq'
          simp only [Bool.and_eq_true, decide_eq_true_eq, true_and]
          rw [rotN h hq' (by simp) hq]
          exact hiff r0 c0 (rotEntry hq')
      by_cases hr : c = 2 * (k : Int) + 1 ∨ c = 2 * (k : Int) + 3
      · have hP : decide (c / 2 = (k : Int) ∨ c / 2 = (k : Int) + 1) = true := by
          rw [decide_eq_true_eq]; omega
        simp only [hP, Bool.true_eq_false, iff_false, Nat.not_even_iff_odd]
        by_cases hm : (r + 1 - (2 * (k : Int) + 2)) % 4 = 2
        · rw [key [(r + 1, 2 * (k : Int) + 2)] (by simp) ?_ ?_]
          · simp
          · simp only [List.mem_singleton, forall_eq, RotSite]; omega
          · intro r0 c0 h0
            simp only [RotSite] at h0
            simp only [List.mem_singleton, Prod.mk.injEq]
            omega
        · rw [key [(r - 1, 2 * (k : Int) + 2)] (by simp) ?_ ?_]
          · simp
          · simp only [List.mem_singleton, forall_eq, RotSite]; omega
          · intro r0 c0 h0
            simp only [RotSite] at h0
            simp only [List.mem_singleton, Prod.mk.injEq]
            omega
      · have hP : decide (c / 2 = (k : Int) ∨ c / 2 = (k : Int) + 1) = false := by
          rw [decide_eq_false_iff_not]; omega
        simp only [hP, iff_true]
        rw [key [] (by simp) (by simp) ?_]
        · simp
        · intro r0 c0 h0
          simp only [List.not_mem_nil, iff_false]
          omega

end LayoutLib
end SurfaceSim
