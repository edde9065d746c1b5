/-
The generated layouts: overlaps, types and the stabilizers around a data qubit.
-/
import Verif.Lemmas.Commute

namespace SurfaceSim
open Spec NoiseModel Blocks LayoutLib

variable {l : Layout} {a : Args} {dx dz : Int} {L : List (String × Site × Kind)} {dirs : List (Site × String)}

theorem typed_css (hg : OnGrid l L dirs) : Typed l L (cssType L) (fun _ => false) := by
  constructor
  · intro x s d hx hd
    obtain ⟨s', hs'⟩ := neighbors_data hg hx (by simp) hd
    simpa using (cssType_iff hg x d s _ s' hx (by simp) hs').2 rfl
  · intro x s d hx hd
    obtain ⟨s', hs'⟩ := neighbors_data hg hx (by simp) hd
    have := cssType_iff hg x d s _ s' hx (by simp) hs'
    simpa using this

theorem IsRot.rotated (h : IsRot a dx dz l) {d : String} {r c : Int} (hd : (d, (r, c), Kind.data) ∈ rotEntries a dx dz) :
    xzzxRotated l (zOf (rotEntries a dx dz)) d = true ↔
      RotSite dx dz (r - 1) (c + 1) .z ∨ RotSite dx dz (r + 1) (c - 1) .z := by
  have hg := h.grid
  unfold xzzxRotated
  rw [List.any_eq_true]
  constructor
  · rintro ⟨z, hz, ht⟩
    obtain ⟨⟨r', c'⟩, k, hk⟩ := (at_z hg).sub z hz
    obtain rfl := ((at_z hg).mem z _ k hk).1 hz
    have hv := rotEntry hk
    rcases (xzzxType_iff h z d _ _ _ hk (by simp) hd).1 ht with e | e <;> simp at e <;> obtain ⟨rfl, rfl⟩ := e
    · left; rwa [show r' + 1 - 1 = r' by ring, show c' + -1 + 1 = c' by ring]
    · right; rwa [show r' + -1 + 1 = r' by ring, show c' + 1 - 1 = c' by ring]
  · rintro (hv | hv)
    · obtain ⟨z, hz⟩ := exists_rotEntry (a := a) hv
      refine ⟨z, ((at_z hg).mem z _ _ hz).2 rfl, (xzzxType_iff h z d _ _ _ hz (by simp) hd).2 (Or.inl ?_)⟩
      ext <;> simp
    · obtain ⟨z, hz⟩ := exists_rotEntry (a := a) hv
      refine ⟨z, ((at_z hg).mem z _ _ hz).2 rfl, (xzzxType_iff h z d _ _ _ hz (by simp) hd).2 (Or.inr ?_)⟩
      ext <;> simp

theorem IsRot.typed_xzzx (h : IsRot a dx dz l) (hdx : 2 ≤ dx) (hdz : 2 ≤ dz) :
    Typed l (rotEntries a dx dz) (xzzxType l) (xzzxRotated l (zOf (rotEntries a dx dz))) := by
  have hg := h.grid
  constructor
  · rintro x ⟨r, c⟩ d hx hd
    obtain ⟨⟨r', c'⟩, hs'⟩ := neighbors_data hg hx (by simp) hd
    have h1 := xzzxType_iff h x d _ _ _ hx (by simp) hs'
    have h2 := h.rotated hs'
    have h3 := (rotN hg hx (by simp) hs').1 hd
    have gx := rotEntry hx
    have gd := rotEntry hs'
    rw [Bool.eq_iff_iff, Bool.not_eq_true', ← Bool.not_eq_true, h1, h2]
    simp [RotSite] at gx gd h3 ⊢
    omega
  · rintro x ⟨r, c⟩ d hx hd
    obtain ⟨⟨r', c'⟩, hs'⟩ := neighbors_data hg hx (by simp) hd
    have h1 := xzzxType_iff h x d _ _ _ hx (by simp) hs'
    have h2 := h.rotated hs'
    have h3 := (rotN hg hx (by simp) hs').1 hd
    have gx := rotEntry hx
    have gd := rotEntry hs'
    rw [Bool.eq_iff_iff, h1, h2]
    simp [RotSite] at gx gd h3 ⊢
    omega

theorem even_of {n : Nat} (h : n = 0 ∨ n = 2) : Even n := by
  rcases h with h | h <;> subst h <;> decide

theorem IsRot.codeGrid (h : IsRot a dx dz l) (hdx : 1 ≤ dx) (hdz : 1 ≤ dz) :
    CodeGrid l (rotEntries a dx dz) (logXList a dx dz) (logZList a dz) where
  over _ _ _ _ hx hz := even_of (rot_overlap h.grid hx hz)
  logZ _ _ hx := even_of (rot_overlap_logZ h.grid hdx hx)
  logX _ _ hz := even_of (rot_overlap_logX h.grid hdz hz)
  subX _ hq := mem_dataOf.2 (rot_logX_data hdz hq)
  subZ _ hq := mem_dataOf.2 (rot_logZ_data hdx hq)

theorem IsUnrot.codeGrid (h : IsUnrot a dx dz l) (hdx : 1 ≤ dx) (hdz : 1 ≤ dz) :
    CodeGrid l (unrotEntries a dx dz) (logXList a dx (2 * dz - 1)) (logZList a dz) where
  over _ _ _ _ hx hz := even_of (unrot_overlap h.grid hx hz)
  logZ _ _ hx := even_of (unrot_overlap_logZ h.grid hdx hx)
  logX _ _ hz := even_of (unrot_overlap_logX h.grid hdz hz)
  subX _ hq := mem_dataOf.2 (unrot_logX_data hdz hq)
  subZ _ hq := mem_dataOf.2 (unrot_logZ_data hdx hq)

/-- The distances of a generated layout are positive. -/
theorem rot_pos {l0 : Layout} (h : rotSurfaceCodeRectangle dx dz a = .ok l0) : 0 ≤ dx ∧ 0 ≤ dz := by
  have := rot_init h
  omega

theorem exists_of_site {V : Site → Kind → Prop} (hg : OnGrid l L dirs) (hV : Sites L V) {d : String} {s' : Site}
    (hd : (d, s', Kind.data) ∈ L) {k : Kind} (hk : k ≠ .data) (h : ∃ σ dir, (σ, dir) ∈ dirs ∧ V (s' - σ) k) :
    ∃ x s, (x, s, k) ∈ L ∧ d ∈ l.getNeighbors [x] none := by
  obtain ⟨σ, dir, hσ, hv⟩ := h
  obtain ⟨x, hx⟩ := hV.ex _ _ hv
  refine ⟨x, _, hx, (hg.mem_neighbors_anc hx hk).2 ⟨σ, dir, hσ, ?_⟩⟩
  rwa [sub_add_cancel]

theorem exists_typed (hg : OnGrid l L dirs) {isX : String → String → Bool} {rot : String → Bool}
    (ht : Typed l L isX rot)
    (hx : ∀ d s, (d, s, Kind.data) ∈ L → ∃ x s', (x, s', Kind.x) ∈ L ∧ d ∈ l.getNeighbors [x] none)
    (hz : ∀ d s, (d, s, Kind.data) ∈ L → ∃ x s', (x, s', Kind.z) ∈ L ∧ d ∈ l.getNeighbors [x] none)
    (d : String) (hd : d ∈ dataOf L) (v : Bool) : ∃ x ∈ ancOf L, d ∈ l.getNeighbors [x] none ∧ isX x d = v := by
  obtain ⟨s, hs⟩ := mem_dataOf.1 hd
  obtain ⟨x, sx, h1, h2⟩ := hx d s hs
  obtain ⟨z, sz, h3, h4⟩ := hz d s hs
  have hX := ht.x _ _ _ h1 h2
  have hZ := ht.z _ _ _ h3 h4
  by_cases e : rot d = v
  · exact ⟨z, mem_ancOf.2 ⟨sz, _, h3, by simp⟩, h4, by rw [hZ, e]⟩
  · refine ⟨x, mem_ancOf.2 ⟨sx, _, h1, by simp⟩, h2, ?_⟩
    rw [hX]
    revert e
    cases rot d <;> cases v <;> simp

theorem IsRot.around (h : IsRot a dx dz l) (hdx : 2 ≤ dx) (hdz : 2 ≤ dz) {k : Kind} (hk : k ≠ .data) (d : String)
    (s : Site) (hd : (d, s, Kind.data) ∈ rotEntries a dx dz) :
    ∃ x s', (x, s', k) ∈ rotEntries a dx dz ∧ d ∈ l.getNeighbors [x] none := by
  refine exists_of_site h.grid (rot_sites a dx dz) hd hk ?_
  obtain ⟨r, c⟩ := s
  have gd := rotEntry hd
  have key : ∀ σ : Site, (σ = (1, 1) ∨ σ = (1, -1) ∨ σ = (-1, 1) ∨ σ = (-1, -1)) →
      RotSite dx dz (r - σ.1) (c - σ.2) k →
      ∃ σ dir, (σ, dir) ∈ names rotDirs ∧ RotSite dx dz ((r, c) - σ).1 ((r, c) - σ).2 k := by
    intro σ h1 h2
    obtain ⟨dir, hdir⟩ := rot_shift.2 h1
    exact ⟨σ, dir, hdir, h2⟩
  have : RotSite dx dz (r - 1) (c - 1) k ∨ RotSite dx dz (r - 1) (c - -1) k ∨ RotSite dx dz (r - -1) (c - 1) k ∨
      RotSite dx dz (r - -1) (c - -1) k := by
    cases k <;> simp [RotSite] at hk gd ⊢ <;> omega
  rcases this with g | g | g | g
  · exact key (1, 1) (by simp) g
  · exact key (1, -1) (by simp) g
  · exact key (-1, 1) (by simp) g
  · exact key (-1, -1) (by simp) g

theorem IsUnrot.around (h : IsUnrot a dx dz l) (hdx : 2 ≤ dx) (hdz : 2 ≤ dz) {k : Kind} (hk : k ≠ .data) (d : String)
    (s : Site) (hd : (d, s, Kind.data) ∈ unrotEntries a dx dz) :
    ∃ x s', (x, s', k) ∈ unrotEntries a dx dz ∧ d ∈ l.getNeighbors [x] none := by
  refine exists_of_site h.grid (unrot_sites a dx dz) hd hk ?_
  obtain ⟨r, c⟩ := s
  have gd := unrotEntry hd
  have key : ∀ σ : Site, (σ = (0, 1) ∨ σ = (0, -1) ∨ σ = (1, 0) ∨ σ = (-1, 0)) →
      UnrotSite dx dz (r - σ.1) (c - σ.2) k →
      ∃ σ dir, (σ, dir) ∈ names unrotDirs ∧ UnrotSite dx dz ((r, c) - σ).1 ((r, c) - σ).2 k := by
    intro σ h1 h2
    obtain ⟨dir, hdir⟩ := unrot_shift.2 h1
    exact ⟨σ, dir, hdir, h2⟩
  have : UnrotSite dx dz (r - 0) (c - 1) k ∨ UnrotSite dx dz (r - 0) (c - -1) k ∨ UnrotSite dx dz (r - 1) (c - 0) k ∨
      UnrotSite dx dz (r - -1) (c - 0) k := by
    cases k <;> simp [UnrotSite] at hk gd ⊢ <;> omega
  rcases this with g | g | g | g
  · exact key (0, 1) (by simp) g
  · exact key (0, -1) (by simp) g
  · exact key (1, 0) (by simp) g
  · exact key (-1, 0) (by simp) g

end SurfaceSim
