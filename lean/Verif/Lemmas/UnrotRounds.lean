/-
The rounds on unrotated surface codes: the coherent part measures the stabilizers.
-/
import Verif.Lemmas.CssRounds
import Verif.Lemmas.UnrotGeometry

namespace SurfaceSim
open Spec NoiseModel Blocks LayoutLib

/-- What the rounds use of an unrotated surface code; it is kept by storing further parameters. -/
structure IsUnrot (a : Args) (dx dz : Int) (l : Layout) : Prop where
  grid : OnGrid l (unrotEntries a dx dz) (names unrotDirs)
  code : l.code = "unrotated_surface_code"
  order : l.interactionOrder = order4 "north" "west" "east" "south" "north" "east" "west" "south"
  log : l.logQubits = [a.label]
  logZ : l.logZ = [(a.label, logZList a dz)]
  logX : l.logX = [(a.label, logXList a dx (2 * dz - 1))]

theorem isUnrot_of_ok {a : Args} {dx dz : Int} {l : Layout} (h : unrotSurfaceCodeRectangle dx dz a = .ok l) :
    IsUnrot a dx dz l := by
  obtain ⟨-, -, -, h1, h2, -, -, -, h3, h4, -, h5⟩ := (Layout.init_ok_iff _ _).1 (unrot_init h).2.2
  exact ⟨unrot_onGrid h, h1, h5, h2, h3, h4⟩

theorem IsUnrot.setParam {a : Args} {dx dz : Int} {l l' : Layout} (h : IsUnrot a dx dz l) {key q : String} {v : Val}
    (hs : l.setParam key q v = .ok l') (h1 : key ≠ "ind") (h2 : key ≠ "role") (h3 : key ≠ "stab_type") :
    IsUnrot a dx dz l' := by
  refine ⟨h.grid.setParam hs h1 h2 h3, ?_, ?_, ?_, ?_, ?_⟩ <;>
  · unfold Layout.setParam at hs
    split at hs
    · simp at hs
    · simp only [Except.ok.injEq] at hs
      subst hs
      first | exact h.code | exact h.order | exact h.log | exact h.logZ | exact h.logX

theorem isUnrot_of_params {a : Args} {dx dz : Int} {l0 l : Layout}
    (h : unrotSurfaceCodeRectangle dx dz a = .ok l0) (hw : WithParams l0 l) : IsUnrot a dx dz l := by
  induction hw with
  | refl => exact isUnrot_of_ok h
  | set _ hk hs ih =>
    simp only [List.mem_cons, List.not_mem_nil, or_false, not_or] at hk
    exact ih.setParam hs hk.1 hk.2.1 hk.2.2.1

theorem unrot_sites (a : Args) (dx dz : Int) :
    Sites (unrotEntries a dx dz) (fun s k => UnrotSite dx dz s.1 s.2 k) :=
  ⟨fun _ _ _ h => unrotEntry h, fun _ _ h => exists_unrotEntry h⟩

variable {a : Args} {dx dz : Int} {l : Layout} {L : List (String × Site × Kind)} {dirs : List (Site × String)}

set_option maxHeartbeats 1000000 in
theorem unrot_css_cross {dx dz : Int} (s : Site) (k : Kind) (s' : Site) (k' : Kind)
    (hv : UnrotSite dx dz s.1 s.2 k) (hv' : UnrotSite dx dz s'.1 s'.2 k') (hk : k ≠ .data) (hk' : k' ≠ .data) :
    Even (meets (fun s k => UnrotSite dx dz s.1 s.2 k) (czSh (0, 1) (0, 1))
          (fun k => czSh (-1, 0) (1, 0) k ++ czSh (1, 0) (-1, 0) k) (fun _ => Kind.data = .data) s k s' k' +
        meets (fun s k => UnrotSite dx dz s.1 s.2 k) (czSh (0, 1) (0, 1)) (czSh (0, -1) (0, -1))
          (fun _ => (Kind.data = .data ↔ ¬ Kind.data = .data)) s k s' k' +
        meets (fun s k => UnrotSite dx dz s.1 s.2 k) (fun k => czSh (-1, 0) (1, 0) k ++ czSh (1, 0) (-1, 0) k)
          (czSh (0, -1) (0, -1)) (fun _ => Kind.data = .data) s k s' k') := by
  obtain ⟨r, c⟩ := s
  obtain ⟨r', c'⟩ := s'
  unfold meets
  cases k <;> cases k' <;>
    simp [czSh, UnrotSite, List.countP_cons] at hk hk' hv hv' ⊢ <;>
    split_ifs <;> first | decide | (exfalso; omega)

theorem unrot_css_coherent (h : IsUnrot a dx dz l) (hdz : 2 ≤ dz) (o : SetOrder) :
    Coherent (fun q => decide (q ∈ ancOf (unrotEntries a dx dz))) (cssType (unrotEntries a dx dz))
      (o.ord (cssRotSet l (unrotEntries a dx dz) "north" "south")) (dataOf (unrotEntries a dx dz))
      (dataOf (unrotEntries a dx dz)) (o.ord (cssRotSet l (unrotEntries a dx dz) "north" "south"))
      (czPairs l (unrotEntries a dx dz) "north" "north")
      (czPairs l (unrotEntries a dx dz) "west" "east" ++
        czPairs l (unrotEntries a dx dz) "east" "west")
      (czPairs l (unrotEntries a dx dz) "south" "south") := by
  have hg := h.grid
  have hV := unrot_sites a dx dz
  have ne : (((0, 1) : Site), "north") ∈ names unrotDirs := by decide
  have nw : (((-1, 0) : Site), "west") ∈ names unrotDirs := by decide
  have se : (((1, 0) : Site), "east") ∈ names unrotDirs := by decide
  have sw : (((0, -1) : Site), "south") ∈ names unrotDirs := by decide
  have hrot := (at_cssRot hg hV ne sw).ord o
  refine Coherent.ofGrid hg hV (isA_anc hg) ?_ (T := fun _ k _ => k = .x) (cssType_iff hg)
    (layer_cz hg ne ne) (Layer.append hg (layer_cz hg nw se) (layer_cz hg se nw) ?_) (layer_cz hg sw sw)
    hrot (at_data hg) (at_data hg) hrot ?_ ?_ ?_ ?_ ?_
  · intro q hq
    exact (at_anc hg).sub q (by simpa using hq)
  · intro k; cases k <;> decide
  · rintro ⟨r, c⟩ k ⟨r1, c1⟩ hv hk hσ hd
    cases k <;> simp [czSh, UnrotSite] at hk hσ hv hd ⊢ <;> obtain ⟨rfl, rfl⟩ := hσ <;> omega
  · rintro ⟨r, c⟩ k ⟨r1, c1⟩ hv hk hσ hd
    cases k <;> simp [czSh, UnrotSite] at hk hσ hv hd ⊢ <;> rcases hσ with ⟨rfl, rfl⟩ | ⟨rfl, rfl⟩ <;> omega
  · rintro ⟨r, c⟩ k ⟨r1, c1⟩ hv hk hσ hd
    cases k <;> simp [czSh, UnrotSite] at hk hσ hv hd ⊢ <;> obtain ⟨rfl, rfl⟩ := hσ <;> omega
  · intro s k _
    exact toggle_twice
  · intro s k s' k' hv hv' hk hk'
    exact unrot_css_cross s k s' k' hv hv' hk hk'

end SurfaceSim
