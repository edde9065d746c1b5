/-
The rounds on rotated surface codes: the coherent part measures the stabilizers.
-/
import Verif.Lemmas.CssRounds
import Verif.Lemmas.RotGeometry

namespace SurfaceSim
open Spec NoiseModel Blocks LayoutLib

/-- What the rounds use of a rotated surface code; it is kept by storing further parameters. -/
structure IsRot (a : Args) (dx dz : Int) (l : Layout) : Prop where
  grid : OnGrid l (rotEntries a dx dz) (names rotDirs)
  code : l.code = "rotated_surface_code"
  order : l.interactionOrder = order4 "north_east" "north_west" "south_east" "south_west"
    "north_east" "south_east" "north_west" "south_west"
  log : l.logQubits = [a.label]
  logZ : l.logZ = [(a.label, logZList a dz)]
  logX : l.logX = [(a.label, logXList a dx dz)]

theorem isRot_of_ok {a : Args} {dx dz : Int} {l : Layout} (h : rotSurfaceCodeRectangle dx dz a = .ok l) :
    IsRot a dx dz l := by
  obtain ⟨-, -, -, h1, h2, -, -, -, h3, h4, -, h5⟩ := (Layout.init_ok_iff _ _).1 (rot_init h).2.2
  exact ⟨rot_onGrid h, h1, h5, h2, h3, h4⟩

theorem IsRot.setParam {a : Args} {dx dz : Int} {l l' : Layout} (h : IsRot a dx dz l) {key q : String} {v : Val}
    (hs : l.setParam key q v = .ok l') (h1 : key ≠ "ind") (h2 : key ≠ "role") (h3 : key ≠ "stab_type") :
    IsRot a dx dz l' := by
  refine ⟨h.grid.setParam hs h1 h2 h3, ?_, ?_, ?_, ?_, ?_⟩ <;>
  · unfold Layout.setParam at hs
    split at hs
    · simp at hs
    · simp only [Except.ok.injEq] at hs
      subst hs
      first | exact h.code | exact h.order | exact h.log | exact h.logZ | exact h.logX

theorem isRot_of_params {a : Args} {dx dz : Int} {l0 l : Layout}
    (h : rotSurfaceCodeRectangle dx dz a = .ok l0) (hw : WithParams l0 l) : IsRot a dx dz l := by
  induction hw with
  | refl => exact isRot_of_ok h
  | set _ hk hs ih =>
    simp only [List.mem_cons, List.not_mem_nil, or_false, not_or] at hk
    exact ih.setParam hs hk.1 hk.2.1 hk.2.2.1

theorem rot_sites (a : Args) (dx dz : Int) :
    Sites (rotEntries a dx dz) (fun s k => RotSite dx dz s.1 s.2 k) :=
  ⟨fun _ _ _ h => rotEntry h, fun _ _ h => exists_rotEntry h⟩

variable {a : Args} {dx dz : Int} {l : Layout} {L : List (String × Site × Kind)} {dirs : List (Site × String)}

set_option maxHeartbeats 1000000 in
theorem rot_css_cross {dx dz : Int} (s : Site) (k : Kind) (s' : Site) (k' : Kind)
    (hv : RotSite dx dz s.1 s.2 k) (hv' : RotSite dx dz s'.1 s'.2 k') (hk : k ≠ .data) (hk' : k' ≠ .data) :
    Even (meets (fun s k => RotSite dx dz s.1 s.2 k) (czSh (1, 1) (1, 1))
          (fun k => czSh (1, -1) (-1, 1) k ++ czSh (-1, 1) (1, -1) k) (fun _ => Kind.data = .data) s k s' k' +
        meets (fun s k => RotSite dx dz s.1 s.2 k) (czSh (1, 1) (1, 1)) (czSh (-1, -1) (-1, -1))
          (fun _ => (Kind.data = .data ↔ ¬ Kind.data = .data)) s k s' k' +
        meets (fun s k => RotSite dx dz s.1 s.2 k) (fun k => czSh (1, -1) (-1, 1) k ++ czSh (-1, 1) (1, -1) k)
          (czSh (-1, -1) (-1, -1)) (fun _ => Kind.data = .data) s k s' k') := by
  obtain ⟨r, c⟩ := s
  obtain ⟨r', c'⟩ := s'
  unfold meets
  cases k <;> cases k' <;>
    simp [czSh, RotSite, List.countP_cons] at hk hk' hv hv' ⊢ <;>
    split_ifs <;> first | decide | (exfalso; omega)

theorem rot_css_coherent (h : IsRot a dx dz l) (hdz : 2 ≤ dz) (o : SetOrder) :
    Coherent (fun q => decide (q ∈ ancOf (rotEntries a dx dz))) (cssType (rotEntries a dx dz))
      (o.ord (cssRotSet l (rotEntries a dx dz) "north_east" "south_west")) (dataOf (rotEntries a dx dz))
      (dataOf (rotEntries a dx dz)) (o.ord (cssRotSet l (rotEntries a dx dz) "north_east" "south_west"))
      (czPairs l (rotEntries a dx dz) "north_east" "north_east")
      (czPairs l (rotEntries a dx dz) "north_west" "south_east" ++
        czPairs l (rotEntries a dx dz) "south_east" "north_west")
      (czPairs l (rotEntries a dx dz) "south_west" "south_west") := by
  have hg := h.grid
  have hV := rot_sites a dx dz
  have ne : (((1, 1) : Site), "north_east") ∈ names rotDirs := by decide
  have nw : (((1, -1) : Site), "north_west") ∈ names rotDirs := by decide
  have se : (((-1, 1) : Site), "south_east") ∈ names rotDirs := by decide
  have sw : (((-1, -1) : Site), "south_west") ∈ names rotDirs := by decide
  have hrot := (at_cssRot hg hV ne sw).ord o
  refine Coherent.ofGrid hg hV (isA_anc hg) ?_ (T := fun _ k _ => k = .x) (cssType_iff hg)
    (layer_cz hg ne ne) (Layer.append hg (layer_cz hg nw se) (layer_cz hg se nw) ?_) (layer_cz hg sw sw)
    hrot (at_data hg) (at_data hg) hrot ?_ ?_ ?_ ?_ ?_
  · intro q hq
    exact (at_anc hg).sub q (by simpa using hq)
  · intro k; cases k <;> decide
  · rintro ⟨r, c⟩ k ⟨r1, c1⟩ hv hk hσ hd
    cases k <;> simp [czSh, RotSite] at hk hσ hv hd ⊢ <;> obtain ⟨rfl, rfl⟩ := hσ <;> omega
  · rintro ⟨r, c⟩ k ⟨r1, c1⟩ hv hk hσ hd
    cases k <;> simp [czSh, RotSite] at hk hσ hv hd ⊢ <;> rcases hσ with ⟨rfl, rfl⟩ | ⟨rfl, rfl⟩ <;> omega
  · rintro ⟨r, c⟩ k ⟨r1, c1⟩ hv hk hσ hd
    cases k <;> simp [czSh, RotSite] at hk hσ hv hd ⊢ <;> obtain ⟨rfl, rfl⟩ := hσ <;> omega
  · intro s k _
    exact toggle_twice
  · intro s k s' k' hv hv' hk hk'
    exact rot_css_cross s k s' k' hv hv' hk hk'

end SurfaceSim
