/-
The pipelined and the XZZX rounds on rotated surface codes: positions.
-/
import Verif.Lemmas.PipeRounds

namespace SurfaceSim
open Spec NoiseModel Blocks LayoutLib

variable {a : Args} {dx dz : Int} {l : Layout} {L : List (String × Site × Kind)} {dirs : List (Site × String)}

/-- The layer with all gates of one type of ancilla, for the rotated code. -/
def rotSh (k0 : Kind) (s0 s1 s2 s3 : Site) : Kind → List Site := fun k => if k = k0 then [s0, s1, s2, s3] else []

theorem rot_layer_x (h : IsRot a dx dz l) :
    Layer (rotEntries a dx dz)
      (pairs4 l (xOf (rotEntries a dx dz)) "north_east" "north_west" "south_east" "south_west")
      (rotSh .x (1, 1) (1, -1) (-1, 1) (-1, -1)) :=
  (layer_pairs4 h.grid (p := fun k => k = .x) (by simp) (σ0 := (1, 1)) (σ1 := (1, -1)) (σ2 := (-1, 1))
    (σ3 := (-1, -1)) (by decide) (by decide) (by decide) (by decide) (by decide)).congr
    (by intro k _; simp [rotSh]) (by intro k; cases k <;> decide)

theorem rot_layer_z (h : IsRot a dx dz l) :
    Layer (rotEntries a dx dz)
      (pairs4 l (zOf (rotEntries a dx dz)) "north_east" "south_east" "north_west" "south_west")
      (rotSh .z (1, 1) (-1, 1) (1, -1) (-1, -1)) :=
  (layer_pairs4 h.grid (p := fun k => k = .z) (by simp) (σ0 := (1, 1)) (σ1 := (-1, 1)) (σ2 := (1, -1))
    (σ3 := (-1, -1)) (by decide) (by decide) (by decide) (by decide) (by decide)).congr
    (by intro k _; simp [rotSh]) (by intro k; cases k <;> decide)

theorem layer_nil' (L : List (String × Site × Kind)) : Layer L [] (fun _ => []) := Layer.nil L

theorem at_nil (L : List (String × Site × Kind)) : At L [] (fun _ _ => False) :=
  ⟨by simp, by simp, by simp⟩

set_option maxHeartbeats 1000000 in
/-- Ancillas of different type share an even number of data qubits. -/
theorem rot_pipe_cross (C C' C'' : Site → Prop) (hC : ∀ s, C s) (s : Site) (k : Kind) (s' : Site) (k' : Kind)
    (hv : RotSite dx dz s.1 s.2 k) (hv' : RotSite dx dz s'.1 s'.2 k') (hk : k ≠ .data) (hk' : k' ≠ .data) :
    Even (meets (fun s k => RotSite dx dz s.1 s.2 k) (rotSh .x (1, 1) (1, -1) (-1, 1) (-1, -1))
          (rotSh .z (1, 1) (-1, 1) (1, -1) (-1, -1)) C s k s' k' +
        meets (fun s k => RotSite dx dz s.1 s.2 k) (rotSh .x (1, 1) (1, -1) (-1, 1) (-1, -1))
          (fun _ => []) C' s k s' k' +
        meets (fun s k => RotSite dx dz s.1 s.2 k) (rotSh .z (1, 1) (-1, 1) (1, -1) (-1, -1))
          (fun _ => []) C'' s k s' k') := by
  obtain ⟨r, c⟩ := s
  obtain ⟨r', c'⟩ := s'
  unfold meets
  cases k <;> cases k' <;> simp [rotSh, RotSite, List.countP_cons, hC] at hk hk' hv hv' ⊢
  have hc : (r = r' + 2 ∧ c = c') ∨ (r = r' - 2 ∧ c = c') ∨ (r = r' ∧ c = c' + 2) ∨ (r = r' ∧ c = c' - 2) ∨
      (r - r' > 2 ∨ r' - r > 2 ∨ c - c' > 2 ∨ c' - c > 2) := by omega
  rcases hc with ⟨rfl, rfl⟩ | ⟨rfl, rfl⟩ | ⟨rfl, rfl⟩ | ⟨rfl, rfl⟩ | hc
  all_goals
    iterate 4 first
      | (rw [if_pos]; swap; · omega)
      | (rw [if_neg]; swap; · omega)
    decide

theorem rot_cssPipe_coherent (h : IsRot a dx dz l) (o : SetOrder) :
    Coherent (fun q => decide (q ∈ ancOf (rotEntries a dx dz))) (cssType (rotEntries a dx dz))
      (o.ord (cssPipeRot (dataOf (rotEntries a dx dz)) "x_type" (xOf (rotEntries a dx dz))))
      (o.ord (allOf (rotEntries a dx dz)))
      (o.ord (cssPipeRot (dataOf (rotEntries a dx dz)) "z_type" (zOf (rotEntries a dx dz)))) []
      (pairs4 l (xOf (rotEntries a dx dz)) "north_east" "north_west" "south_east" "south_west")
      (pairs4 l (zOf (rotEntries a dx dz)) "north_east" "south_east" "north_west" "south_west") [] := by
  have hg := h.grid
  have hV := rot_sites a dx dz
  have r1 : At (rotEntries a dx dz)
      (cssPipeRot (dataOf (rotEntries a dx dz)) "x_type" (xOf (rotEntries a dx dz)))
      (fun _ k => k = .x ∨ k = .data) := by
    unfold cssPipeRot
    rw [if_pos rfl]
    exact (at_x hg).setOf.union (at_data hg).sub (at_data hg).mem
  have r2 : At (rotEntries a dx dz)
      (cssPipeRot (dataOf (rotEntries a dx dz)) "z_type" (zOf (rotEntries a dx dz)))
      (fun _ k => k = .z) := by
    unfold cssPipeRot
    rw [if_neg (by decide)]
    exact (at_z hg).setOf
  refine Coherent.ofGrid hg hV (isA_anc hg) ?_ (T := fun _ k _ => k = .x) (cssType_iff hg)
    (rot_layer_x h) (rot_layer_z h) (layer_nil' _) (r1.ord o) ((at_all _).ord o) (r2.ord o) (at_nil _) ?_ ?_ ?_ ?_ ?_
  · intro q hq
    exact (at_anc hg).sub q (by simpa using hq)
  · rintro s k σ - hk hσ -
    cases k <;> simp [rotSh] at hk hσ ⊢
  · rintro s k σ - hk hσ -
    cases k <;> simp [rotSh] at hk hσ ⊢
  · rintro s k σ - hk hσ -
    simp at hσ
  · intro s k _
    cases k <;> simp
  · intro s k s' k' hv hv' hk hk'
    exact rot_pipe_cross _ _ _ (by simp) s k s' k' hv hv' hk hk'

theorem xzzxType_iff (h : IsRot a dx dz l) (x d : String) (s : Site) (k : Kind) (s' : Site)
    (hx : (x, s, k) ∈ rotEntries a dx dz) (hk : k ≠ .data) (hd : (d, s', Kind.data) ∈ rotEntries a dx dz) :
    (xzzxType l x d = true ↔ s' = s + (1, -1) ∨ s' = s + (-1, 1)) := by
  have hg := h.grid
  have key : ∀ (σ : Site) (dir : String), (σ, dir) ∈ names rotDirs →
      (d ∈ l.getNeighbors [x] (some dir) ↔ s' = s + σ) := by
    intro σ dir hσ
    rw [grid_neighbors hg]
    constructor
    · rintro ⟨p, hp, s1, k1, s2, k2, sh, h1, h2, hsh, rfl, -⟩
      obtain rfl : p = x := by simpa using hp
      obtain ⟨rfl, -⟩ := hg.unique hx h1
      obtain ⟨rfl, -⟩ := hg.unique hd h2
      rw [hg.shifts _ _ _ hsh hσ]
    · rintro rfl
      exact ⟨x, by simp, s, k, _, .data, σ, hx, hd, hσ, rfl, by simpa using hk⟩
  unfold xzzxType
  rw [decide_eq_true_eq, key _ _ (by decide : (((1, -1) : Site), "north_west") ∈ names rotDirs),
    key _ _ (by decide : (((-1, 1) : Site), "south_east") ∈ names rotDirs)]

theorem diag_mem (h : IsRot a dx dz l) {S : List String} {P : Site → Kind → Prop}
    (hS : At (rotEntries a dx dz) S P) (hP : ∀ s k, P s k → k ≠ .data) (q : String) (s : Site) (k : Kind)
    (hq : (q, s, k) ∈ rotEntries a dx dz) :
    q ∈ diagonalNeighbors l S ↔ k = .data ∧
      ((∃ k', RotSite dx dz (s.1 - 1) (s.2 + 1) k' ∧ P (s.1 - 1, s.2 + 1) k') ∨
        ∃ k', RotSite dx dz (s.1 + 1) (s.2 - 1) k' ∧ P (s.1 + 1, s.2 - 1) k') := by
  have hV := rot_sites a dx dz
  unfold diagonalNeighbors
  rw [List.mem_append,
    nbrs_at h.grid hV hS hP (by decide : (((1, -1) : Site), "north_west") ∈ names rotDirs) q s k hq,
    nbrs_at h.grid hV hS hP (by decide : (((-1, 1) : Site), "south_east") ∈ names rotDirs) q s k hq, ← and_or_left]
  have e1 : s - (1, -1) = (s.1 - 1, s.2 + 1) := by ext <;> simp
  have e2 : s - (-1, 1) = (s.1 + 1, s.2 - 1) := by ext <;> simp
  rw [e1, e2]

theorem rot_xzzxPipe_coherent (h : IsRot a dx dz l) (hdx : 2 ≤ dx) (hdz : 2 ≤ dz) (o : SetOrder) :
    Coherent (fun q => decide (q ∈ ancOf (rotEntries a dx dz))) (xzzxType l)
      (o.ord (xzzxPipeRot l (dataOf (rotEntries a dx dz)) "x_type" (xOf (rotEntries a dx dz))))
      (o.ord (allOf (rotEntries a dx dz)))
      (o.ord (xzzxPipeRot l (dataOf (rotEntries a dx dz)) "z_type" (zOf (rotEntries a dx dz)))) []
      (pairs4 l (xOf (rotEntries a dx dz)) "north_east" "north_west" "south_east" "south_west")
      (pairs4 l (zOf (rotEntries a dx dz)) "north_east" "south_east" "north_west" "south_west") [] := by
  have hg := h.grid
  have hV := rot_sites a dx dz
  have r1 : At (rotEntries a dx dz)
      (xzzxPipeRot l (dataOf (rotEntries a dx dz)) "x_type" (xOf (rotEntries a dx dz))) _ :=
    (at_x hg).setOf.union (fun q hq => diagonal_known hg hq)
      (diag_mem h (at_x hg) (by rintro s k rfl; simp))
  have r2 : At (rotEntries a dx dz)
      (xzzxPipeRot l (dataOf (rotEntries a dx dz)) "z_type" (zOf (rotEntries a dx dz))) _ :=
    (at_z hg).setOf.union (fun q hq => diagonal_known hg hq)
      (diag_mem h (at_z hg) (by rintro s k rfl; simp))
  refine Coherent.ofGrid hg hV (isA_anc hg) ?_ (T := fun s _ s' => s' = s + (1, -1) ∨ s' = s + (-1, 1))
    (xzzxType_iff h) (rot_layer_x h) (rot_layer_z h) (layer_nil' _) (r1.ord o) ((at_all _).ord o) (r2.ord o)
    (at_nil _) ?_ ?_ ?_ ?_ ?_
  · intro q hq
    exact (at_anc hg).sub q (by simpa using hq)
  · rintro ⟨r, c⟩ k ⟨r1, c1⟩ hv hk hσ hd
    cases k <;> simp [rotSh, RotSite] at hk hσ hv hd ⊢ <;>
      rcases hσ with ⟨rfl, rfl⟩ | ⟨rfl, rfl⟩ | ⟨rfl, rfl⟩ | ⟨rfl, rfl⟩ <;> omega
  · rintro ⟨r, c⟩ k ⟨r1, c1⟩ hv hk hσ hd
    cases k <;> simp [rotSh, RotSite] at hk hσ hv hd ⊢ <;>
      rcases hσ with ⟨rfl, rfl⟩ | ⟨rfl, rfl⟩ | ⟨rfl, rfl⟩ | ⟨rfl, rfl⟩ <;> omega
  · rintro s k σ - hk hσ -
    simp at hσ
  · rintro ⟨r, c⟩ k hv
    cases k <;> simp [RotSite] at hv ⊢
    omega
  · intro s k s' k' hv hv' hk hk'
    exact rot_pipe_cross _ _ _ (by simp) s k s' k' hv hv' hk hk'

theorem rot_xzzx_coherent (h : IsRot a dx dz l) (hdx : 2 ≤ dx) (hdz : 2 ≤ dz) (o : SetOrder) :
    Coherent (fun q => decide (q ∈ ancOf (rotEntries a dx dz))) (xzzxType l)
      (o.ord (xzzxRotSet l (rotEntries a dx dz) "north_east" "south_west")) (dataOf (rotEntries a dx dz))
      (dataOf (rotEntries a dx dz)) (o.ord (xzzxRotSet l (rotEntries a dx dz) "north_east" "south_west"))
      (czPairs l (rotEntries a dx dz) "north_east" "north_east")
      (czPairs l (rotEntries a dx dz) "north_west" "south_east" ++
        czPairs l (rotEntries a dx dz) "south_east" "north_west")
      (czPairs l (rotEntries a dx dz) "south_west" "south_west") := by
  have hg := h.grid
  have hV := rot_sites a dx dz
  have ne : (((1, 1) : Site), "north_east") ∈ names rotDirs := by decide
  have nw : (((1, -1) : Site), "north_west") ∈ names rotDirs := by decide
  have se : (((-1, 1) : Site), "south_east") ∈ names rotDirs := by decide
  have sw : (((-1, -1) : Site), "south_west") ∈ names rotDirs := by decide
  have hdiag : At (rotEntries a dx dz) (Blocks.setOf (diagonalNeighbors l (zOf (rotEntries a dx dz)))) _ :=
    ⟨setOf_nodup _, fun q hq => diagonal_known hg (mem_setOf.1 hq), fun q s k hq => by
      rw [mem_setOf]; exact diag_mem h (at_z hg) (by rintro s k rfl; simp) q s k hq⟩
  have hrot := ((at_cssRot hg hV ne sw).symmDiff hdiag).ord o
  refine Coherent.ofGrid hg hV (isA_anc hg) ?_ (T := fun s _ s' => s' = s + (1, -1) ∨ s' = s + (-1, 1))
    (xzzxType_iff h)
    (layer_cz hg ne ne) (Layer.append hg (layer_cz hg nw se) (layer_cz hg se nw) ?_) (layer_cz hg sw sw)
    hrot (at_data hg) (at_data hg) hrot ?_ ?_ ?_ ?_ ?_
  · intro q hq
    exact (at_anc hg).sub q (by simpa using hq)
  · intro k; cases k <;> decide
  · rintro ⟨r, c⟩ k ⟨r1, c1⟩ hv hk hσ hd
    cases k <;> simp [czSh, RotSite] at hk hσ hv hd ⊢ <;> obtain ⟨rfl, rfl⟩ := hσ <;> omega
  · rintro ⟨r, c⟩ k ⟨r1, c1⟩ hv hk hσ hd
    cases k <;> simp [czSh, RotSite] at hk hσ hv hd ⊢ <;> rcases hσ with ⟨rfl, rfl⟩ | ⟨rfl, rfl⟩ <;> omega
  · rintro ⟨r, c⟩ k ⟨r1, c1⟩ hv hk hσ hd
    cases k <;> simp [czSh, RotSite] at hk hσ hv hd ⊢ <;> obtain ⟨rfl, rfl⟩ := hσ <;> omega
  · intro s k _
    exact toggle_twice
  · intro s k s' k' hv hv' hk hk'
    exact rot_css_cross s k s' k' hv hv' hk hk'

end SurfaceSim
