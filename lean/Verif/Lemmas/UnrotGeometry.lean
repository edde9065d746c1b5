/-
Geometry of the unrotated surface code.
-/
import Verif.Lemmas.RotCount

namespace SurfaceSim
namespace LayoutLib

variable {l : Layout} {a : Args} {dx dz : Int}

theorem mem_unrotNames {sh : Site} {d : String} : (sh, d) ∈ names unrotDirs ↔
    (sh = (0, 1) ∧ d = "north") ∨ (sh = (0, -1) ∧ d = "south") ∨
    (sh = (1, 0) ∧ d = "east") ∨ (sh = (-1, 0) ∧ d = "west") := by
  have : names unrotDirs = [((0, 1), "north"), ((0, -1), "south"),
      ((1, 0), "east"), ((-1, 0), "west")] := by
    decide +kernel
  rw [this]
  simp only [List.mem_cons, Prod.mk.injEq, List.not_mem_nil, or_false]

/-- An entry of the unrotated layout. -/
theorem unrotEntry {q : String} {r c : Int} {k : Kind} (h : (q, (r, c), k) ∈ unrotEntries a dx dz) :
    UnrotSite dx dz r c k := mem_unrotSites.1 (mem_labelSites_snd h)

theorem exists_unrotEntry {r c : Int} {k : Kind} (h : UnrotSite dx dz r c k) :
    ∃ q, (q, (r, c), k) ∈ unrotEntries a dx dz := exists_labelSites (mem_unrotSites.2 h)

theorem mem_unrotEntries_data {q : String} {r c : Int} :
    (q, (r, c), Kind.data) ∈ unrotEntries a dx dz ↔
      q = unrotDataLabel a dz (r, c) ∧ UnrotSite dx dz r c .data := by
  unfold unrotEntries
  rw [mem_labelSites_data, mem_unrotSites]

theorem unrotN (h : OnGrid l (unrotEntries a dx dz) (names unrotDirs)) {x q : String} {r c r' c' : Int}
    {k : Kind} (hx : (x, (r, c), k) ∈ unrotEntries a dx dz) (hk : k ≠ .data)
    (hq : (q, (r', c'), Kind.data) ∈ unrotEntries a dx dz) :
    q ∈ l.getNeighbors [x] none ↔
      (r' = r ∧ (c' = c + 1 ∨ c' = c - 1)) ∨ ((r' = r + 1 ∨ r' = r - 1) ∧ c' = c) := by
  rw [h.mem_neighbors_anc hx hk]
  constructor
  · rintro ⟨sh, dir, hd, hq'⟩
    have := (h.unique hq hq').1
    rcases mem_unrotNames.1 hd with ⟨rfl, -⟩ | ⟨rfl, -⟩ | ⟨rfl, -⟩ | ⟨rfl, -⟩ <;>
    simp only [Prod.mk_add_mk, Prod.mk.injEq] at this <;> omega
  · rintro (⟨rfl, h2 | h2⟩ | ⟨h2 | h2, rfl⟩) <;> subst h2
    · exact ⟨(0, 1), _, mem_unrotNames.2 (Or.inl ⟨rfl, rfl⟩), by simpa using hq⟩
    · exact ⟨(0, -1), _, mem_unrotNames.2 (Or.inr (Or.inl ⟨rfl, rfl⟩)),
        by simpa [sub_eq_add_neg] using hq⟩
    · exact ⟨(1, 0), _, mem_unrotNames.2 (Or.inr (Or.inr (Or.inl ⟨rfl, rfl⟩))), by simpa using hq⟩
    · exact ⟨(-1, 0), _, mem_unrotNames.2 (Or.inr (Or.inr (Or.inr ⟨rfl, rfl⟩))),
        by simpa [sub_eq_add_neg] using hq⟩

theorem unrot_overlap (h : OnGrid l (unrotEntries a dx dz) (names unrotDirs)) {x z : String}
    {s s' : Site} (hx : (x, s, Kind.x) ∈ unrotEntries a dx dz)
    (hz : (z, s', Kind.z) ∈ unrotEntries a dx dz) :
    overlap (l.getNeighbors [x] none) (l.getNeighbors [z] none) = 0 ∨
    overlap (l.getNeighbors [x] none) (l.getNeighbors [z] none) = 2 := by
  obtain ⟨r, c⟩ := s
  obtain ⟨r', c'⟩ := s'
  have gx := unrotEntry hx
  have gz := unrotEntry hz
  simp only [UnrotSite] at gx gz
  have key : ∀ T : List Site, T.Nodup → (∀ t ∈ T, UnrotSite dx dz t.1 t.2 .data) →
      (∀ r0 c0, UnrotSite dx dz r0 c0 .data →
        ((((r0 = r ∧ (c0 = c + 1 ∨ c0 = c - 1)) ∨ ((r0 = r + 1 ∨ r0 = r - 1) ∧ c0 = c)) ∧
        ((r0 = r' ∧ (c0 = c' + 1 ∨ c0 = c' - 1)) ∨ ((r0 = r' + 1 ∨ r0 = r' - 1) ∧ c0 = c'))) ↔
          (r0, c0) ∈ T)) →
      overlap (l.getNeighbors [x] none) (l.getNeighbors [z] none) = T.length := by
    intro T hT hTd hiff
    unfold overlap
    refine h.countP_sites (h.neighbors_nodup x) (fun q hq => neighbors_data h hx (by simp) hq) T hT
      (fun t ht => exists_unrotEntry (hTd t ht)) ?_
    rintro q ⟨r0, c0⟩ hq
    rw [decide_eq_true_eq, unrotN h hx (by simp) hq, unrotN h hz (by simp) hq]
    exact hiff r0 c0 (unrotEntry hq)
  by_cases h1 : (r' = r + 1 ∨ r' = r - 1) ∧ (c' = c + 1 ∨ c' = c - 1)
  · right
    refine key [(r, c'), (r', c)] ?_ ?_ ?_
    · simp; omega
    · simp only [List.mem_cons, List.not_mem_nil, or_false]
      rintro t (rfl | rfl) <;> simp only [UnrotSite] <;> omega
    · intro r0 c0 h0
      simp only [List.mem_cons, List.not_mem_nil, or_false, Prod.mk.injEq]
      omega
  · left
    refine key [] (by simp) (by simp) ?_
    intro r0 c0 h0
    simp only [UnrotSite] at h0
    simp only [List.not_mem_nil, iff_false]
    omega

/-! ### logical operators -/

theorem unrot_mem_logZ {q : String} {r c : Int} (hx : 1 ≤ dx)
    (hq : (q, (r, c), Kind.data) ∈ unrotEntries a dx dz) : q ∈ logZList a dz ↔ r = 0 := by
  obtain ⟨rfl, hs⟩ := mem_unrotEntries_data.1 hq
  simp only [UnrotSite] at hs
  have hiff : ∀ i : Nat, "D" ++ Int.repr (i + a.initData) = unrotDataLabel a dz (r, c) ↔
      (i : Int) + a.initData = unrotDataIndex r c (2 * dz - 1) a.initData := by
    intro i; unfold unrotDataLabel; rw [label_int_inj]
  unfold logZList
  simp only [List.mem_map, List.mem_range, hiff]
  rcases Int.emod_two_eq_zero_or_one r with hr | hr
  · rw [unrotIndex_even hr]
    constructor
    · rintro ⟨i, hi, he⟩
      obtain ⟨e1, e2⟩ := digits_inj (n := 2 * dz - 1) (i := 0) (j := i) (i' := r / 2) (j' := c / 2)
        (by omega) (by omega) (by omega) (by omega) (by linarith)
      omega
    · rintro rfl
      refine ⟨(c / 2).toNat, by omega, ?_⟩
      have : (0 : Int) / 2 = 0 := by decide
      rw [this]
      omega
  · rw [unrotIndex_odd hr (by omega)]
    constructor
    · rintro ⟨i, hi, he⟩
      obtain ⟨e1, e2⟩ := digits_inj (n := 2 * dz - 1) (i := 0) (j := i) (i' := r / 2) (j' := c / 2 + dz)
        (by omega) (by omega) (by omega) (by omega) (by linarith)
      omega
    · rintro rfl; simp at hr

theorem unrot_mem_logX {q : String} {r c : Int}
    (hq : (q, (r, c), Kind.data) ∈ unrotEntries a dx dz) : q ∈ logXList a dx (2 * dz - 1) ↔ c = 0 := by
  obtain ⟨rfl, hs⟩ := mem_unrotEntries_data.1 hq
  simp only [UnrotSite] at hs
  have hiff : ∀ i : Nat, "D" ++ Int.repr (i * (2 * dz - 1) + a.initData) = unrotDataLabel a dz (r, c) ↔
      (i : Int) * (2 * dz - 1) + a.initData = unrotDataIndex r c (2 * dz - 1) a.initData := by
    intro i; unfold unrotDataLabel; rw [label_int_inj]
  unfold logXList
  simp only [List.mem_map, List.mem_range, hiff]
  rcases Int.emod_two_eq_zero_or_one r with hr | hr
  · rw [unrotIndex_even hr]
    constructor
    · rintro ⟨i, hi, he⟩
      obtain ⟨e1, e2⟩ := digits_inj (n := 2 * dz - 1) (i := i) (j := 0) (i' := r / 2) (j' := c / 2)
        (by omega) (by omega) (by omega) (by omega) (by linarith)
      omega
    · rintro rfl
      refine ⟨(r / 2).toNat, by omega, ?_⟩
      have : (0 : Int) / 2 = 0 := by decide
      rw [this, Int.toNat_of_nonneg (by omega)]
      omega
  · rw [unrotIndex_odd hr (by omega)]
    constructor
    · rintro ⟨i, hi, he⟩
      obtain ⟨e1, e2⟩ := digits_inj (n := 2 * dz - 1) (i := i) (j := 0) (i' := r / 2) (j' := c / 2 + dz)
        (by omega) (by omega) (by omega) (by omega) (by linarith)
      omega
    · rintro rfl; omega

theorem unrot_logZ_data {q : String} (hx : 1 ≤ dx) (hq : q ∈ logZList a dz) :
    ∃ s, (q, s, Kind.data) ∈ unrotEntries a dx dz := by
  unfold logZList at hq
  simp only [List.mem_map, List.mem_range] at hq
  obtain ⟨i, hi, rfl⟩ := hq
  refine ⟨(0, 2 * i), mem_unrotEntries_data.2 ⟨?_, ?_⟩⟩
  · unfold unrotDataLabel
    rw [label_int_inj, unrotIndex_even (by simp)]
    have : (0 : Int) / 2 = 0 := by decide
    simp only [this]
    omega
  · simp only [UnrotSite]; omega

theorem unrot_logX_data {q : String} (hz : 1 ≤ dz) (hq : q ∈ logXList a dx (2 * dz - 1)) :
    ∃ s, (q, s, Kind.data) ∈ unrotEntries a dx dz := by
  unfold logXList at hq
  simp only [List.mem_map, List.mem_range] at hq
  obtain ⟨i, hi, rfl⟩ := hq
  refine ⟨(2 * i, 0), mem_unrotEntries_data.2 ⟨?_, ?_⟩⟩
  · unfold unrotDataLabel
    rw [label_int_inj, unrotIndex_even (by simp)]
    have h1 : (0 : Int) / 2 = 0 := by decide
    have h2 : (2 * (i : Int)) / 2 = i := by omega
    simp only [h1, h2]
    omega
  · simp only [UnrotSite]; omega

theorem unrot_overlap_logZ (h : OnGrid l (unrotEntries a dx dz) (names unrotDirs)) (hdx : 1 ≤ dx) {x : String}
    {s : Site} (hx : (x, s, Kind.x) ∈ unrotEntries a dx dz) :
    overlap (logZList a dz) (l.getNeighbors [x] none) = 0 ∨
    overlap (logZList a dz) (l.getNeighbors [x] none) = 2 := by
  obtain ⟨r, c⟩ := s
  have gx := unrotEntry hx
  simp only [UnrotSite] at gx
  have key : ∀ T : List Site, T.Nodup → (∀ t ∈ T, UnrotSite dx dz t.1 t.2 .data) →
      (∀ r0 c0, UnrotSite dx dz r0 c0 .data → ((r0 = 0 ∧ ((r0 = r ∧ (c0 = c + 1 ∨ c0 = c - 1)) ∨
        ((r0 = r + 1 ∨ r0 = r - 1) ∧ c0 = c))) ↔ (r0, c0) ∈ T)) →
      overlap (logZList a dz) (l.getNeighbors [x] none) = T.length := by
    intro T hT hTd hiff
    unfold overlap
    refine h.countP_sites (logZList_nodup a dz) (fun q hq => unrot_logZ_data hdx hq) T hT
      (fun t ht => exists_unrotEntry (hTd t ht)) ?_
    rintro q ⟨r0, c0⟩ hq
    rw [decide_eq_true_eq, unrotN h hx (by simp) hq, unrot_mem_logZ hdx hq]
    exact hiff r0 c0 (unrotEntry hq)
  by_cases h1 : r = 0
  · right
    refine key [(0, c + 1), (0, c - 1)] ?_ ?_ ?_
    · simp; omega
    · simp only [List.mem_cons, List.not_mem_nil, or_false]
      rintro t (rfl | rfl) <;> simp only [UnrotSite] <;> omega
    · intro r0 c0 h0
      simp only [List.mem_cons, List.not_mem_nil, or_false, Prod.mk.injEq]
      omega
  · left
    refine key [] (by simp) (by simp) ?_
    intro r0 c0 h0
    simp only [List.not_mem_nil, iff_false]
    omega

theorem unrot_overlap_logX (h : OnGrid l (unrotEntries a dx dz) (names unrotDirs)) (hdz : 1 ≤ dz) {z : String}
    {s : Site} (hz : (z, s, Kind.z) ∈ unrotEntries a dx dz) :
    overlap (logXList a dx (2 * dz - 1)) (l.getNeighbors [z] none) = 0 ∨
    overlap (logXList a dx (2 * dz - 1)) (l.getNeighbors [z] none) = 2 := by
  obtain ⟨r, c⟩ := s
  have gz := unrotEntry hz
  simp only [UnrotSite] at gz
  have key : ∀ T : List Site, T.Nodup → (∀ t ∈ T, UnrotSite dx dz t.1 t.2 .data) →
      (∀ r0 c0, UnrotSite dx dz r0 c0 .data → ((c0 = 0 ∧ ((r0 = r ∧ (c0 = c + 1 ∨ c0 = c - 1)) ∨
        ((r0 = r + 1 ∨ r0 = r - 1) ∧ c0 = c))) ↔ (r0, c0) ∈ T)) →
      overlap (logXList a dx (2 * dz - 1)) (l.getNeighbors [z] none) = T.length := by
    intro T hT hTd hiff
    unfold overlap
    refine h.countP_sites (logXList_nodup a dx (by omega)) (fun q hq => unrot_logX_data hdz hq) T hT
      (fun t ht => exists_unrotEntry (hTd t ht)) ?_
    rintro q ⟨r0, c0⟩ hq
    rw [decide_eq_true_eq, unrotN h hz (by simp) hq, unrot_mem_logX hq]
    exact hiff r0 c0 (unrotEntry hq)
  by_cases h1 : c = 0
  · right
    refine key [(r + 1, 0), (r - 1, 0)] ?_ ?_ ?_
    · simp; omega
    · simp only [List.mem_cons, List.not_mem_nil, or_false]
      rintro t (rfl | rfl) <;> simp only [UnrotSite] <;> omega
    · intro r0 c0 h0
      simp only [List.mem_cons, List.not_mem_nil, or_false, Prod.mk.injEq]
      omega
  · left
    refine key [] (by simp) (by simp) ?_
    intro r0 c0 h0
    simp only [List.not_mem_nil, iff_false]
    omega

theorem unrot_logs_overlap (h : OnGrid l (unrotEntries a dx dz) (names unrotDirs)) (hdx : 1 ≤ dx) (hdz : 1 ≤ dz) :
    overlap (logXList a dx (2 * dz - 1)) (logZList a dz) = 1 ∧ overlap (logZList a dz) (logXList a dx (2 * dz - 1)) = 1 := by
  unfold overlap
  constructor
  · refine h.countP_sites (logXList_nodup a dx (by omega)) (fun q hq => unrot_logX_data hdz hq) [(0, 0)]
      (by simp) ?_ ?_
    · simp only [List.mem_singleton, forall_eq]
      exact exists_unrotEntry (by simp only [UnrotSite]; omega)
    · rintro q ⟨r0, c0⟩ hq
      rw [decide_eq_true_eq, unrot_mem_logX hq, unrot_mem_logZ hdx hq]
      simp; omega
  · refine h.countP_sites (logZList_nodup a dz) (fun q hq => unrot_logZ_data hdx hq) [(0, 0)]
      (by simp) ?_ ?_
    · simp only [List.mem_singleton, forall_eq]
      exact exists_unrotEntry (by simp only [UnrotSite]; omega)
    · rintro q ⟨r0, c0⟩ hq
      rw [decide_eq_true_eq, unrot_mem_logX hq, unrot_mem_logZ hdx hq]
      simp

/-! ### distance -/

theorem unrot_row_bound (h : OnGrid l (unrotEntries a dx dz) (names unrotDirs)) (hdx : 1 ≤ dx) {S : List String}
    (hSd : ∀ q ∈ S, ∃ s, (q, s, Kind.data) ∈ unrotEntries a dx dz)
    (hst : ∀ z s, (z, s, Kind.z) ∈ unrotEntries a dx dz → Even (overlap S (l.getNeighbors [z] none)))
    (hlog : Odd (overlap S (logZList a dz))) : dx ≤ S.length := by
  classical
  let site : String → Site := fun q => if h : ∃ s, (q, s, Kind.data) ∈ unrotEntries a dx dz then h.choose else (0, 0)
  have hsite : ∀ q r c, (q, (r, c), Kind.data) ∈ unrotEntries a dx dz → site q = (r, c) := by
    intro q r c hq
    have hex : ∃ s, (q, s, Kind.data) ∈ unrotEntries a dx dz := ⟨_, hq⟩
    simp only [site, dif_pos hex]
    exact (h.unique hex.choose_spec hq).1
  have := length_of_slots S dx.toNat (fun q => if (site q).1 % 2 = 0 then (site q).1 / 2 else -1) ?_ ?_
  · omega
  · convert hlog using 1
    unfold overlap
    refine List.countP_congr fun q hq => ?_
    obtain ⟨⟨r, c⟩, hq⟩ := hSd q hq
    have hs := unrotEntry hq
    simp only [UnrotSite] at hs
    simp only [hsite q r c hq, decide_eq_true_eq, unrot_mem_logZ hdx hq]
    split <;> omega
  · intro k hk
    refine even_countP_of_cover (A := (unrotEntries a dx dz).filter fun e => e.2.2 = .z ∧ e.2.1.1 = 2 * (k : Int) + 1)
      (N := fun e q => decide (q ∈ l.getNeighbors [e.1] none)) ?_ ?_
    · intro e he
      obtain ⟨q, s, k'⟩ := e
      simp only [List.mem_filter, decide_eq_true_eq] at he
      obtain ⟨he, rfl, -⟩ := he
      exact hst q s he
    · intro q hq
      obtain ⟨⟨r, c⟩, hq⟩ := hSd q hq
      have hs := unrotEntry hq
      simp only [UnrotSite] at hs
      rw [List.countP_filter, hsite q r c hq]
      have key : ∀ T : List Site, T.Nodup → (∀ t ∈ T, UnrotSite dx dz t.1 t.2 .z) →
          (∀ r0 c0, UnrotSite dx dz r0 c0 .z → ((((r = r0 ∧ (c = c0 + 1 ∨ c = c0 - 1)) ∨ ((r = r0 + 1 ∨ r = r0 - 1) ∧ c = c0)) ∧
            r0 = 2 * (k : Int) + 1) ↔ (r0, c0) ∈ T)) →
          (unrotEntries a dx dz).countP (fun e => decide (q ∈ l.getNeighbors [e.1] none) &&
            decide (e.2.2 = .z ∧ e.2.1.1 = 2 * (k : Int) + 1)) = T.length := by
        intro T hT hTd hiff
        refine h.countP_entries .z T hT (fun t ht => exists_unrotEntry (hTd t ht)) ?_ ?_
        · intro e he hP
          simp only [Bool.and_eq_true, decide_eq_true_eq] at hP
          exact hP.2.1
        · rintro q' ⟨r0, c0⟩ hq'
          simp only [Bool.and_eq_true, decide_eq_true_eq, true_and]
          rw [unrotN h hq' (by simp) hq]
          exact hiff r0 c0 (unrotEntry hq')
      by_cases hr : r = 2 * (k : Int) ∨ r = 2 * (k : Int) + 2
      · have hP : decide ((if r % 2 = 0 then r / 2 else -1) = (k : Int) ∨
            (if r % 2 = 0 then r / 2 else -1) = (k : Int) + 1) = true := by
          rw [decide_eq_true_eq]; split <;> omega
        simp only [hP, Bool.true_eq_false, iff_false, Nat.not_even_iff_odd]
        rw [key [(2 * (k : Int) + 1, c)] (by simp) ?_ ?_]
        · simp
        · simp only [List.mem_singleton, forall_eq, UnrotSite]; omega
        · intro r0 c0 h0
          simp only [UnrotSite] at h0
          simp only [List.mem_singleton, Prod.mk.injEq]
          omega
      · have hP : decide ((if r % 2 = 0 then r / 2 else -1) = (k : Int) ∨
            (if r % 2 = 0 then r / 2 else -1) = (k : Int) + 1) = false := by
          rw [decide_eq_false_iff_not]; split <;> omega
        simp only [hP, iff_true]
        by_cases hm : r = 2 * (k : Int) + 1
        · rw [key [(2 * (k : Int) + 1, c + 1), (2 * (k : Int) + 1, c - 1)] (by simp; omega) ?_ ?_]
          · simp
          · simp only [List.mem_cons, List.not_mem_nil, or_false]
            rintro t (rfl | rfl) <;> simp only [UnrotSite] <;> omega
          · intro r0 c0 h0
            simp only [UnrotSite] at h0
            simp only [List.mem_cons, List.not_mem_nil, or_false, Prod.mk.injEq]
            omega
        · rw [key [] (by simp) (by simp) ?_]
          · simp
          · intro r0 c0 h0
            simp only [UnrotSite] at h0
            simp only [List.not_mem_nil, iff_false]
            omega

theorem unrot_col_bound (h : OnGrid l (unrotEntries a dx dz) (names unrotDirs)) {S : List String}
    (hSd : ∀ q ∈ S, ∃ s, (q, s, Kind.data) ∈ unrotEntries a dx dz)
    (hst : ∀ x s, (x, s, Kind.x) ∈ unrotEntries a dx dz → Even (overlap S (l.getNeighbors [x] none)))
    (hlog : Odd (overlap S (logXList a dx (2 * dz - 1)))) : dz ≤ S.length := by
  classical
  let site : String → Site := fun q => if h : ∃ s, (q, s, Kind.data) ∈ unrotEntries a dx dz then h.choose else (0, 0)
  have hsite : ∀ q r c, (q, (r, c), Kind.data) ∈ unrotEntries a dx dz → site q = (r, c) := by
    intro q r c hq
    have hex : ∃ s, (q, s, Kind.data) ∈ unrotEntries a dx dz := ⟨_, hq⟩
    simp only [site, dif_pos hex]
    exact (h.unique hex.choose_spec hq).1
  have := length_of_slots S dz.toNat (fun q => if (site q).2 % 2 = 0 then (site q).2 / 2 else -1) ?_ ?_
  · omega
  · convert hlog using 1
    unfold overlap
    refine List.countP_congr fun q hq => ?_
    obtain ⟨⟨r, c⟩, hq⟩ := hSd q hq
    have hs := unrotEntry hq
    simp only [UnrotSite] at hs
    simp only [hsite q r c hq, decide_eq_true_eq, unrot_mem_logX hq]
    split <;> omega
  · intro k hk
    refine even_countP_of_cover (A := (unrotEntries a dx dz).filter fun e => e.2.2 = .x ∧ e.2.1.2 = 2 * (k : Int) + 1)
      (N := fun e q => decide (q ∈ l.getNeighbors [e.1] none)) ?_ ?_
    · intro e he
      obtain ⟨q, s, k'⟩ := e
      simp only [List.mem_filter, decide_eq_true_eq] at he
      obtain ⟨he, rfl, -⟩ := he
      exact hst q s he
    · intro q hq
      obtain ⟨⟨r, c⟩, hq⟩ := hSd q hq
      have hs := unrotEntry hq
      simp only [UnrotSite] at hs
      rw [List.countP_filter, hsite q r c hq]
      have key : ∀ T : List Site, T.Nodup → (∀ t ∈ T, UnrotSite dx dz t.1 t.2 .x) →
          (∀ r0 c0, UnrotSite dx dz r0 c0 .x → ((((r = r0 ∧ (c = c0 + 1 ∨ c = c0 - 1)) ∨ ((r = r0 + 1 ∨ r = r0 - 1) ∧ c = c0)) ∧
            c0 = 2 * (k : Int) + 1) ↔ (r0, c0) ∈ T)) →
          (unrotEntries a dx dz).countP (fun e => decide (q ∈ l.getNeighbors [e.1] none) &&
            decide (e.2.2 = .x ∧ e.2.1.2 = 2 * (k : Int) + 1)) = T.length := by
        intro T hT hTd hiff
        refine h.countP_entries .x T hT (fun t ht => exists_unrotEntry (hTd t ht)) ?_ ?_
        · intro e he hP
          simp only [Bool.and_eq_true, decide_eq_true_eq] at hP
          exact hP.2.1
        · rintro q' ⟨r0, c0⟩ hq'
          simp only [Bool.and_eq_true, decide_eq_true_eq, true_and]
          rw [unrotN h hq' (by simp) hq]
          exact hiff r0 c0 (unrotEntry hq')
      by_cases hr : c = 2 * (k : Int) ∨ c = 2 * (k : Int) + 2
      · have hP : decide ((if c % 2 = 0 then c / 2 else -1) = (k : Int) ∨
            (if c % 2 = 0 then c / 2 else -1) = (k : Int) + 1) = true := by
          rw [decide_eq_true_eq]; split <;> omega
        simp only [hP, Bool.true_eq_false, iff_false, Nat.not_even_iff_odd]
        rw [key [(r, 2 * (k : Int) + 1)] (by simp) ?_ ?_]
        · simp
        · simp only [List.mem_singleton, forall_eq, UnrotSite]; omega
        · intro r0 c0 h0
          simp only [UnrotSite] at h0
          simp only [List.mem_singleton, Prod.mk.injEq]
          omega
      · have hP : decide ((if c % 2 = 0 then c / 2 else -1) = (k : Int) ∨
            (if c % 2 = 0 then c / 2 else -1) = (k : Int) + 1) = false := by
          rw [decide_eq_false_iff_not]; split <;> omega
        simp only [hP, iff_true]
        by_cases hm : c = 2 * (k : Int) + 1
        · rw [key [(r + 1, 2 * (k : Int) + 1), (r - 1, 2 * (k : Int) + 1)] (by simp; omega) ?_ ?_]
          · simp
          · simp only [List.mem_cons, List.not_mem_nil, or_false]
            rintro t (rfl | rfl) <;> simp only [UnrotSite] <;> omega
          · intro r0 c0 h0
            simp only [UnrotSite] at h0
            simp only [List.mem_cons, List.not_mem_nil, or_false, Prod.mk.injEq]
            omega
        · rw [key [] (by simp) (by simp) ?_]
          · simp
          · intro r0 c0 h0
            simp only [UnrotSite] at h0
            simp only [List.not_mem_nil, iff_false]
            omega

end LayoutLib
end SurfaceSim
