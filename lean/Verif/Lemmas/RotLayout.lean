/-
The rotated layouts as grids.
-/
import Verif.Lemmas.GridLabels

namespace SurfaceSim
namespace LayoutLib

/-- The positions of the qubits of the rotated code. -/
def RotSite (dx dz : Int) (r c : Int) : Kind → Prop
  | .data => r % 2 = 1 ∧ c % 2 = 1 ∧ 0 < r ∧ r < 2 * dx ∧ 0 < c ∧ c < 2 * dz
  | .x => r % 2 = 0 ∧ 0 ≤ r ∧ r ≤ 2 * dx ∧ 0 < c ∧ c < 2 * dz ∧ (r - c) % 4 = 2
  | .z => r % 2 = 0 ∧ 0 < r ∧ r < 2 * dx ∧ 0 ≤ c ∧ c ≤ 2 * dz ∧ (r - c) % 4 = 0

theorem mem_rotSites {dx dz r c : Int} {k : Kind} :
    ((r, c), k) ∈ rotSites dx dz ↔ RotSite dx dz r c k := by
  unfold rotSites
  simp only [List.mem_append, List.mem_flatMap, List.mem_map, Prod.mk.injEq,
    mem_pyRange (show (0 : Int) < 2 by decide), mem_pyRange (show (0 : Int) < 4 by decide)]
  constructor
  · rintro ((⟨r', hr, c', hc, ⟨rfl, rfl⟩, rfl⟩ | ⟨r', hr, c', hc, ⟨rfl, rfl⟩, rfl⟩) |
      ⟨r', hr, c', hc, ⟨rfl, rfl⟩, rfl⟩) <;> simp only [RotSite] <;> omega
  · intro h
    cases k <;> simp only [RotSite] at h
    · exact Or.inl (Or.inl ⟨r, by omega, c, by omega, ⟨rfl, rfl⟩, rfl⟩)
    · exact Or.inl (Or.inr ⟨r, by omega, c, by omega, ⟨rfl, rfl⟩, rfl⟩)
    · exact Or.inr ⟨r, by omega, c, by omega, ⟨rfl, rfl⟩, rfl⟩

theorem flatMap_sites_nodup (R : List Int) (C : Int → List Int) (k : Int → Int → Kind) (hR : R.Nodup)
    (hC : ∀ r ∈ R, (C r).Nodup) :
    ((R.flatMap fun r => (C r).map fun c => (((r, c) : Site), k r c)).map Prod.fst).Nodup := by
  rw [List.map_flatMap, List.nodup_flatMap]
  constructor
  · intro r hr
    rw [List.map_map]
    exact (hC r hr).map fun a b h => by simpa using h
  · refine hR.imp fun {a b} hab => ?_
    simp only [Function.onFun, List.disjoint_left, List.map_map, List.mem_map, Function.comp_apply]
    rintro s ⟨c, -, rfl⟩ ⟨c', -, h⟩
    simp only [Prod.mk.injEq] at h
    exact hab h.1.symm

theorem rotSites_nodup (dx dz : Int) : ((rotSites dx dz).map Prod.fst).Nodup := by
  have h2 : (0 : Int) < 2 := by decide
  have h4 : (0 : Int) < 4 := by decide
  unfold rotSites
  rw [List.map_append, List.map_append, List.nodup_append, List.nodup_append]
  refine ⟨⟨flatMap_sites_nodup _ _ (fun _ _ => .data) (pyRange_nodup h2) fun _ _ => pyRange_nodup h2,
    flatMap_sites_nodup _ _ (fun _ _ => .x) (pyRange_nodup h2) fun _ _ => pyRange_nodup h4, ?_⟩,
    flatMap_sites_nodup _ _ (fun _ _ => .z) (pyRange_nodup h2) fun _ _ => pyRange_nodup h4, ?_⟩
  · rintro s hs _ hs' rfl
    simp only [List.mem_flatMap, List.mem_map, mem_pyRange h2, mem_pyRange h4] at hs hs'
    obtain ⟨-, ⟨r, hr, c, hc, rfl⟩, rfl⟩ := hs
    obtain ⟨-, ⟨r', hr', c', hc', rfl⟩, he⟩ := hs'
    simp only [Prod.mk.injEq] at he
    omega
  · rintro s hs _ hs' rfl
    simp only [List.mem_append, List.mem_flatMap, List.mem_map, mem_pyRange h2, mem_pyRange h4] at hs hs'
    obtain ⟨-, ⟨r', hr', c', hc', rfl⟩, he⟩ := hs'
    rcases hs with ⟨-, ⟨r, hr, c, hc, rfl⟩, rfl⟩ | ⟨-, ⟨r, hr, c, hc, rfl⟩, rfl⟩ <;>
    simp only [Prod.mk.injEq] at he <;> omega

theorem digits_inj {n i j i' j' : Int} (hj : 0 ≤ j) (hjn : j < n) (hj' : 0 ≤ j') (hjn' : j' < n)
    (h : i * n + j = i' * n + j') : i = i' ∧ j = j' := by
  have h1 : i = i' := by
    have e1 : (i * n + j) / n = i := by
      rw [add_comm, Int.add_mul_ediv_right _ _ (by omega), Int.ediv_eq_zero_of_lt hj hjn]; ring
    have e2 : (i' * n + j') / n = i' := by
      rw [add_comm, Int.add_mul_ediv_right _ _ (by omega), Int.ediv_eq_zero_of_lt hj' hjn']; ring
    rw [← e1, h, e2]
  subst h1
  exact ⟨rfl, by omega⟩

theorem rotDataLabel_inj {a : Args} {dz r c r' c' : Int} (hr : r % 2 = 1) (hc : c % 2 = 1)
    (h0 : 0 < c) (h1 : c < 2 * dz) (hr' : r' % 2 = 1) (hc' : c' % 2 = 1) (h0' : 0 < c')
    (h1' : c' < 2 * dz) (h : rotDataLabel a dz (r, c) = rotDataLabel a dz (r', c')) :
    (r, c) = (r', c') := by
  unfold rotDataLabel rotDataIndex at h
  rw [label_int_inj] at h
  obtain ⟨e1, e2⟩ := digits_inj (n := dz) (i := r / 2) (j := c / 2) (i' := r' / 2) (j' := c' / 2)
    (by omega) (by omega) (by omega) (by omega) (by simp only at h; linarith)
  simp only [Prod.mk.injEq]
  omega

theorem mem_rotDirs {sh : Site} {d d' : String} : (sh, d, d') ∈ rotDirs ↔
    (sh = (1, 1) ∧ d = "north_east" ∧ d' = "south_west") ∨
    (sh = (1, -1) ∧ d = "north_west" ∧ d' = "south_east") ∨
    (sh = (-1, 1) ∧ d = "south_east" ∧ d' = "north_west") ∨
    (sh = (-1, -1) ∧ d = "south_west" ∧ d' = "north_east") := by
  have : rotDirs = [((1, 1), "north_east", "south_west"), ((1, -1), "north_west", "south_east"),
      ((-1, 1), "south_east", "north_west"), ((-1, -1), "south_west", "north_east")] := by
    decide +kernel
  rw [this]
  simp only [List.mem_cons, Prod.mk.injEq, List.not_mem_nil, or_false]

theorem rot_gridData (a : Args) (dx dz : Int) :
    GridData (rotEntries a dx dz) (rotDataLabel a dz) (rotValid dx dz) rotDirs where
  labels := by
    refine labelSites_nodup _ _ (rotSites_nodup dx dz) (fun s => ⟨_, rfl⟩) ?_
    rintro ⟨r, c⟩ ⟨r', c'⟩ h h' he
    obtain ⟨h1, h2, -, -, h3, h4⟩ := mem_rotSites.1 h
    obtain ⟨h1', h2', -, -, h3', h4'⟩ := mem_rotSites.1 h'
    exact rotDataLabel_inj h1 h2 h3 h4 h1' h2' h3' h4' he
  sites := by
    unfold rotEntries
    rw [labelSites_sites]; exact rotSites_nodup dx dz
  data_label := by
    rintro q ⟨r, c⟩ h
    obtain ⟨h1, h2⟩ := mem_labelSites_data.1 h
    refine ⟨h1, ?_⟩
    have := mem_rotSites.1 h2
    simp only [RotSite] at this
    have h1 : 0 ≤ r ∧ r < 2 * dx + 1 := by omega
    have h2 : 0 ≤ c ∧ c < 2 * dz + 1 := by omega
    simp [rotValid, isValid, h1, h2]
  target := by
    rintro q ⟨r, c⟩ k sh d d' h hk hd hv
    refine mem_labelSites_data.2 ⟨rfl, ?_⟩
    have hs := mem_rotSites.1 (mem_labelSites_snd h)
    have hv' : 0 ≤ r + sh.1 ∧ r + sh.1 < 2 * dx + 1 ∧ 0 ≤ c + sh.2 ∧ c + sh.2 < 2 * dz + 1 := by
      unfold rotValid isValid at hv
      simp only [Prod.fst_add, Prod.snd_add] at hv
      split at hv
      · simp at hv
      · split at hv
        · simp at hv
        · omega
    show ((r + sh.1, c + sh.2), Kind.data) ∈ _
    rw [mem_rotSites]
    cases k with
    | data => exact absurd rfl hk
    | _ =>
      simp only [RotSite] at hs ⊢
      rcases mem_rotDirs.1 hd with ⟨rfl, -⟩ | ⟨rfl, -⟩ | ⟨rfl, -⟩ | ⟨rfl, -⟩ <;> simp only at hv' ⊢ <;>
        omega
  inv := by
    intro sh d d' h
    rw [mem_rotDirs] at h ⊢
    rcases h with ⟨rfl, rfl, rfl⟩ | ⟨rfl, rfl, rfl⟩ | ⟨rfl, rfl, rfl⟩ | ⟨rfl, rfl, rfl⟩ <;> decide
  shifts := by
    intro sh sh' d d1 d2 h h'
    rw [mem_rotDirs] at h h'
    rcases h with ⟨rfl, rfl, rfl⟩ | ⟨rfl, rfl, rfl⟩ | ⟨rfl, rfl, rfl⟩ | ⟨rfl, rfl, rfl⟩ <;>
    simp at h' <;> exact h'.1.symm
  names := by
    intro sh d d' d1 d2 h h'
    rw [mem_rotDirs] at h h'
    rcases h with ⟨rfl, rfl, rfl⟩ | ⟨rfl, rfl, rfl⟩ | ⟨rfl, rfl, rfl⟩ | ⟨rfl, rfl, rfl⟩ <;>
    simp at h' <;> exact h'.1.symm

/-- The coordinates of a grid position. -/
def rotCoord (a : Args) (s : Site) : List Rat :=
  [(s.1 : Rat) + (a.initPoint.1 - 1), (s.2 : Rat) + (a.initPoint.2 - 1)]

theorem rot_infoData (a : Args) (dx dz : Int) :
    InfoData (rotEntries a dx dz) rotDirs a.initInd (rotCoord a)
      (rotInfo a (neighborData (rotDataLabel a dz) (rotValid dx dz) rotDirs (rotEntries a dx dz))) where
  qubit _ _ := rfl
  nodup e k := by
    have : (rotInfo a (neighborData (rotDataLabel a dz) (rotValid dx dz) rotDirs
      (rotEntries a dx dz)) e k).attrs.keys =
        ["role", "coords", "freq_group", "stab_type", "ind", "neighbors"] := rfl
    rw [this]; decide
  role _ _ := rfl
  stab _ _ := rfl
  coords _ _ := rfl
  ind _ _ := rfl
  nbrs e k := by
    have hn := inner_nodup ((rotEntries a dx dz).flatMap
      (nbrWrites (rotDataLabel a dz) (rotValid dx dz) rotDirs))
    refine ⟨_, rfl, addMissing_nodup hn _, fun dir v => ?_⟩
    exact (mem_addMissing hn _ _ _).trans (look_neighborData (rot_gridData a dx dz) _ _ _)

theorem rot_ok (a : Args) {dx dz : Int} (hx : 0 ≤ dx) (hz : 0 ≤ dz) :
    ∃ l, rotSurfaceCodeRectangle dx dz a = .ok l ∧ Layout.init (rotSetup a dx dz) = .ok l := by
  have hg := setup_good (rot_gridData a dx dz) (rot_infoData a dx dz) (s := rotSetup a dx dz) rfl
    (by intro x; simp [rotSetup, Dict.keys])
  obtain ⟨l, hl⟩ := (C07_accepts_iff _).2 ⟨_, _, hg⟩
  refine ⟨l, ?_, hl⟩
  unfold rotSurfaceCodeRectangle checkDistance
  rw [if_neg (by omega), if_neg (by omega)]
  exact hl

theorem rot_init {a : Args} {dx dz : Int} {l : Layout} (h : rotSurfaceCodeRectangle dx dz a = .ok l) :
    0 ≤ dx ∧ 0 ≤ dz ∧ Layout.init (rotSetup a dx dz) = .ok l := by
  unfold rotSurfaceCodeRectangle checkDistance at h
  by_cases hx : dx < 0
  · simp [hx] at h
  · by_cases hz : dz < 0
    · simp [hx, hz] at h
    · simp only [hx, hz, if_false] at h
      exact ⟨by omega, by omega, h⟩

theorem rot_onGrid {a : Args} {dx dz : Int} {l : Layout} (h : rotSurfaceCodeRectangle dx dz a = .ok l) :
    OnGrid l (rotEntries a dx dz) (names rotDirs) :=
  (onGrid_of_init (rot_gridData a dx dz) (rot_infoData a dx dz) rfl (rot_init h).2.2).1

end LayoutLib
end SurfaceSim
