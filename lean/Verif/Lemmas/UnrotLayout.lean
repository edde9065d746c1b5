/-
The unrotated layouts as grids.
-/
import Verif.Lemmas.RotLayout

namespace SurfaceSim
namespace LayoutLib

/-- The positions of the qubits of the unrotated code. -/
def UnrotSite (dx dz : Int) (r c : Int) : Kind → Prop
  | .data => 0 ≤ r ∧ r < 2 * dx - 1 ∧ 0 ≤ c ∧ c < 2 * dz - 1 ∧ (r + c) % 2 = 0
  | .x => 0 ≤ r ∧ r < 2 * dx - 1 ∧ 0 ≤ c ∧ c < 2 * dz - 1 ∧ r % 2 = 0 ∧ c % 2 = 1
  | .z => 0 ≤ r ∧ r < 2 * dx - 1 ∧ 0 ≤ c ∧ c < 2 * dz - 1 ∧ r % 2 = 1 ∧ c % 2 = 0

theorem unrotKind_data {r c : Int} : unrotKind (r, c) = .data ↔ (r + c) % 2 = 0 := by
  unfold unrotKind
  by_cases h : (r + c) % 2 = 0
  · simp [h]
  · simp only [h, if_false, iff_false]; split <;> simp

theorem unrotKind_x {r c : Int} : unrotKind (r, c) = .x ↔ r % 2 = 0 ∧ c % 2 = 1 := by
  unfold unrotKind
  by_cases h : (r + c) % 2 = 0
  · simp only [h, if_true, reduceCtorEq, false_iff]; omega
  · by_cases h' : r % 2 = 0
    · simp only [h, h', if_false, if_true, true_and, true_iff]; omega
    · simp [h, h']

theorem unrotKind_z {r c : Int} : unrotKind (r, c) = .z ↔ r % 2 = 1 ∧ c % 2 = 0 := by
  unfold unrotKind
  by_cases h : (r + c) % 2 = 0
  · simp only [h, if_true, reduceCtorEq, false_iff]; omega
  · by_cases h' : r % 2 = 0
    · simp [h, h']
    · simp only [h, h', if_false, true_iff]; omega

theorem mem_unrotSites {dx dz r c : Int} {k : Kind} :
    ((r, c), k) ∈ unrotSites dx dz ↔ UnrotSite dx dz r c k := by
  unfold unrotSites
  simp only [List.mem_flatMap, List.mem_map, Prod.mk.injEq,
    mem_pyRange (show (0 : Int) < 1 by decide)]
  constructor
  · rintro ⟨r', hr, c', hc, ⟨rfl, rfl⟩, rfl⟩
    rcases h : unrotKind (r', c') with _ | _ | _ <;> simp only [UnrotSite]
    · have := unrotKind_data.1 h; omega
    · have := unrotKind_x.1 h; omega
    · have := unrotKind_z.1 h; omega
  · intro h
    refine ⟨r, ?_, c, ?_, ⟨rfl, rfl⟩, ?_⟩
    · cases k <;> simp only [UnrotSite] at h <;> omega
    · cases k <;> simp only [UnrotSite] at h <;> omega
    · cases k <;> simp only [UnrotSite] at h
      · rw [unrotKind_data]; omega
      · rw [unrotKind_x]; omega
      · rw [unrotKind_z]; omega

theorem unrotSites_nodup (dx dz : Int) : ((unrotSites dx dz).map Prod.fst).Nodup := by
  have h1 : (0 : Int) < 1 := by decide
  exact flatMap_sites_nodup _ _ (fun r c => unrotKind (r, c)) (pyRange_nodup h1)
    fun _ _ => pyRange_nodup h1

theorem unrotIndex_even {r c n i : Int} (hr : r % 2 = 0) :
    unrotDataIndex r c n i = i + (r / 2) * n + c / 2 := by
  unfold unrotDataIndex
  rw [if_neg (by omega)]

theorem unrotIndex_odd {r c m i : Int} (hr : r % 2 = 1) (hc : c % 2 = 1) :
    unrotDataIndex r c (2 * m - 1) i = i + (r / 2) * (2 * m - 1) + (c / 2 + m) := by
  unfold unrotDataIndex
  rw [if_pos hr]
  simp only
  have e1 : (r - 1) / 2 = r / 2 := by omega
  have e2 : (c + (2 * m - 1)) / 2 = c / 2 + m := by omega
  rw [e1, e2]

theorem unrotDataLabel_inj {a : Args} {dz r c r' c' : Int} (h : (r + c) % 2 = 0)
    (h0 : 0 ≤ c) (h1 : c < 2 * dz - 1) (h' : (r' + c') % 2 = 0) (h0' : 0 ≤ c')
    (h1' : c' < 2 * dz - 1) (he : unrotDataLabel a dz (r, c) = unrotDataLabel a dz (r', c')) :
    (r, c) = (r', c') := by
  unfold unrotDataLabel at he
  rw [label_int_inj] at he
  simp only at he
  simp only [Prod.mk.injEq]
  rcases Int.emod_two_eq_zero_or_one r with hr | hr <;>
  rcases Int.emod_two_eq_zero_or_one r' with hr' | hr'
  · rw [unrotIndex_even hr, unrotIndex_even hr'] at he
    obtain ⟨e1, e2⟩ := digits_inj (n := 2 * dz - 1) (i := r / 2) (j := c / 2) (i' := r' / 2)
      (j' := c' / 2) (by omega) (by omega) (by omega) (by omega) (by linarith)
    omega
  · rw [unrotIndex_even hr, unrotIndex_odd hr' (by omega)] at he
    obtain ⟨e1, e2⟩ := digits_inj (n := 2 * dz - 1) (i := r / 2) (j := c / 2) (i' := r' / 2)
      (j' := c' / 2 + dz) (by omega) (by omega) (by omega) (by omega) (by linarith)
    omega
  · rw [unrotIndex_odd hr (by omega), unrotIndex_even hr'] at he
    obtain ⟨e1, e2⟩ := digits_inj (n := 2 * dz - 1) (i := r / 2) (j := c / 2 + dz) (i' := r' / 2)
      (j' := c' / 2) (by omega) (by omega) (by omega) (by omega) (by linarith)
    omega
  · rw [unrotIndex_odd hr (by omega), unrotIndex_odd hr' (by omega)] at he
    obtain ⟨e1, e2⟩ := digits_inj (n := 2 * dz - 1) (i := r / 2) (j := c / 2 + dz) (i' := r' / 2)
      (j' := c' / 2 + dz) (by omega) (by omega) (by omega) (by omega) (by linarith)
    omega

/-- The directions of the unrotated code. -/
def unrotDirs : List (Site × String × String) :=
  [((0, 1), "north", "south"), ((0, -1), "south", "north"), ((1, 0), "east", "west"),
   ((-1, 0), "west", "east")]

theorem unrotDirs_eq : mapExcept unrotShifts unrotDir = .ok unrotDirs := by decide +kernel

theorem mem_unrotDirs {sh : Site} {d d' : String} : (sh, d, d') ∈ unrotDirs ↔
    (sh = (0, 1) ∧ d = "north" ∧ d' = "south") ∨
    (sh = (0, -1) ∧ d = "south" ∧ d' = "north") ∨
    (sh = (1, 0) ∧ d = "east" ∧ d' = "west") ∨
    (sh = (-1, 0) ∧ d = "west" ∧ d' = "east") := by
  unfold unrotDirs
  simp only [List.mem_cons, Prod.mk.injEq, List.not_mem_nil, or_false]

theorem unrot_gridData (a : Args) (dx dz : Int) :
    GridData (unrotEntries a dx dz) (unrotDataLabel a dz) (unrotValid dx dz) unrotDirs where
  labels := by
    refine labelSites_nodup _ _ (unrotSites_nodup dx dz) (fun s => ⟨_, rfl⟩) ?_
    rintro ⟨r, c⟩ ⟨r', c'⟩ h h' he
    obtain ⟨-, -, h1, h2, h3⟩ := mem_unrotSites.1 h
    obtain ⟨-, -, h1', h2', h3'⟩ := mem_unrotSites.1 h'
    exact unrotDataLabel_inj h3 h1 h2 h3' h1' h2' he
  sites := by
    unfold unrotEntries
    rw [labelSites_sites]; exact unrotSites_nodup dx dz
  data_label := by
    rintro q ⟨r, c⟩ h
    obtain ⟨h1, h2⟩ := mem_labelSites_data.1 h
    refine ⟨h1, ?_⟩
    have := mem_unrotSites.1 h2
    simp only [UnrotSite] at this
    have h1 : 0 ≤ r ∧ r < 2 * dx - 1 := by omega
    have h2 : 0 ≤ c ∧ c < 2 * dz - 1 := by omega
    simp [unrotValid, isValid, h1, h2]
  target := by
    rintro q ⟨r, c⟩ k sh d d' h hk hd hv
    refine mem_labelSites_data.2 ⟨rfl, ?_⟩
    have hs := mem_unrotSites.1 (mem_labelSites_snd h)
    have hv' : 0 ≤ r + sh.1 ∧ r + sh.1 < 2 * dx - 1 ∧ 0 ≤ c + sh.2 ∧ c + sh.2 < 2 * dz - 1 := by
      unfold unrotValid isValid at hv
      simp only [Prod.fst_add, Prod.snd_add] at hv
      split at hv
      · simp at hv
      · split at hv
        · simp at hv
        · omega
    show ((r + sh.1, c + sh.2), Kind.data) ∈ _
    rw [mem_unrotSites]
    cases k with
    | data => exact absurd rfl hk
    | _ =>
      simp only [UnrotSite] at hs ⊢
      rcases mem_unrotDirs.1 hd with ⟨rfl, -⟩ | ⟨rfl, -⟩ | ⟨rfl, -⟩ | ⟨rfl, -⟩ <;> simp only at hv' ⊢ <;>
        omega
  inv := by
    intro sh d d' h
    rw [mem_unrotDirs] at h ⊢
    rcases h with ⟨rfl, rfl, rfl⟩ | ⟨rfl, rfl, rfl⟩ | ⟨rfl, rfl, rfl⟩ | ⟨rfl, rfl, rfl⟩ <;> decide
  shifts := by
    intro sh sh' d d1 d2 h h'
    rw [mem_unrotDirs] at h h'
    rcases h with ⟨rfl, rfl, rfl⟩ | ⟨rfl, rfl, rfl⟩ | ⟨rfl, rfl, rfl⟩ | ⟨rfl, rfl, rfl⟩ <;>
    simp at h' <;> exact h'.1.symm
  names := by
    intro sh d d' d1 d2 h h'
    rw [mem_unrotDirs] at h h'
    rcases h with ⟨rfl, rfl, rfl⟩ | ⟨rfl, rfl, rfl⟩ | ⟨rfl, rfl, rfl⟩ | ⟨rfl, rfl, rfl⟩ <;>
    simp at h' <;> exact h'.1.symm

/-- The coordinates of a grid position. -/
def unrotCoord (a : Args) (s : Site) : List Rat :=
  [(s.1 : Rat) + a.initPoint.1, (s.2 : Rat) + a.initPoint.2]

theorem unrot_infoData (a : Args) (dx dz : Int) :
    InfoData (unrotEntries a dx dz) unrotDirs a.initInd (unrotCoord a)
      (unrotInfo a (neighborData (unrotDataLabel a dz) (unrotValid dx dz) unrotDirs
        (unrotEntries a dx dz))) where
  qubit _ _ := rfl
  nodup e k := by
    have : (unrotInfo a (neighborData (unrotDataLabel a dz) (unrotValid dx dz) unrotDirs
      (unrotEntries a dx dz)) e k).attrs.keys =
        ["role", "coords", "stab_type", "ind", "neighbors"] := rfl
    rw [this]; decide
  role _ _ := rfl
  stab _ _ := rfl
  coords _ _ := rfl
  ind _ _ := rfl
  nbrs e k := by
    have hn := inner_nodup ((unrotEntries a dx dz).flatMap
      (nbrWrites (unrotDataLabel a dz) (unrotValid dx dz) unrotDirs))
    refine ⟨_, rfl, nbrsOf_nodup hn _, fun dir v => ?_⟩
    exact (mem_nbrsOf hn _ _ _).trans (look_neighborData (unrot_gridData a dx dz) _ _ _)

theorem unrot_ok (a : Args) {dx dz : Int} (hx : 0 ≤ dx) (hz : 0 ≤ dz) :
    ∃ l, unrotSurfaceCodeRectangle dx dz a = .ok l ∧
      Layout.init (unrotSetup a dx dz unrotDirs) = .ok l := by
  have hg := setup_good (unrot_gridData a dx dz) (unrot_infoData a dx dz)
    (s := unrotSetup a dx dz unrotDirs) rfl (by intro x; simp [unrotSetup, Dict.keys])
  obtain ⟨l, hl⟩ := (C07_accepts_iff _).2 ⟨_, _, hg⟩
  refine ⟨l, ?_, hl⟩
  unfold unrotSurfaceCodeRectangle checkDistance
  rw [if_neg (by omega), if_neg (by omega), unrotDirs_eq]
  exact hl

theorem unrot_init {a : Args} {dx dz : Int} {l : Layout}
    (h : unrotSurfaceCodeRectangle dx dz a = .ok l) :
    0 ≤ dx ∧ 0 ≤ dz ∧ Layout.init (unrotSetup a dx dz unrotDirs) = .ok l := by
  unfold unrotSurfaceCodeRectangle checkDistance at h
  rw [unrotDirs_eq] at h
  by_cases hx : dx < 0
  · simp [hx] at h
  · by_cases hz : dz < 0
    · simp [hx, hz] at h
    · simp only [hx, hz, if_false] at h
      exact ⟨by omega, by omega, h⟩

theorem unrot_onGrid {a : Args} {dx dz : Int} {l : Layout}
    (h : unrotSurfaceCodeRectangle dx dz a = .ok l) :
    OnGrid l (unrotEntries a dx dz) (names unrotDirs) :=
  (onGrid_of_init (unrot_gridData a dx dz) (unrot_infoData a dx dz) rfl (unrot_init h).2.2).1

end LayoutLib
end SurfaceSim
