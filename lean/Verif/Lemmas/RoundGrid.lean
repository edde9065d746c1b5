/-
The rounds of all modules on the generated layouts.
-/
import Verif.Lemmas.Invariant
import Verif.Lemmas.PipeGeometry
import Verif.Lemmas.UnrotRounds

namespace SurfaceSim
open Spec NoiseModel Blocks LayoutLib

/-- The shifts of the rotated code. -/
theorem rot_shift {σ : Site} : (∃ dir, (σ, dir) ∈ names rotDirs) ↔
    σ = (1, 1) ∨ σ = (1, -1) ∨ σ = (-1, 1) ∨ σ = (-1, -1) := by
  constructor
  · rintro ⟨dir, h⟩
    rcases mem_rotNames.1 h with ⟨h, -⟩ | ⟨h, -⟩ | ⟨h, -⟩ | ⟨h, -⟩ <;> simp [h]
  · rintro (rfl | rfl | rfl | rfl)
    · exact ⟨_, mem_rotNames.2 (Or.inl ⟨rfl, rfl⟩)⟩
    · exact ⟨_, mem_rotNames.2 (Or.inr (Or.inl ⟨rfl, rfl⟩))⟩
    · exact ⟨_, mem_rotNames.2 (Or.inr (Or.inr (Or.inl ⟨rfl, rfl⟩)))⟩
    · exact ⟨_, mem_rotNames.2 (Or.inr (Or.inr (Or.inr ⟨rfl, rfl⟩)))⟩

theorem unrot_shift {σ : Site} : (∃ dir, (σ, dir) ∈ names unrotDirs) ↔
    σ = (0, 1) ∨ σ = (0, -1) ∨ σ = (1, 0) ∨ σ = (-1, 0) := by
  constructor
  · rintro ⟨dir, h⟩
    rcases mem_unrotNames.1 h with ⟨h, -⟩ | ⟨h, -⟩ | ⟨h, -⟩ | ⟨h, -⟩ <;> simp [h]
  · rintro (rfl | rfl | rfl | rfl)
    · exact ⟨_, mem_unrotNames.2 (Or.inl ⟨rfl, rfl⟩)⟩
    · exact ⟨_, mem_unrotNames.2 (Or.inr (Or.inl ⟨rfl, rfl⟩))⟩
    · exact ⟨_, mem_unrotNames.2 (Or.inr (Or.inr (Or.inl ⟨rfl, rfl⟩)))⟩
    · exact ⟨_, mem_unrotNames.2 (Or.inr (Or.inr (Or.inr ⟨rfl, rfl⟩)))⟩

variable {l l0 : Layout} {a : Args} {dx dz : Int}

theorem rot_css_layers (h : IsRot a dx dz l) :
    ∃ sh, Layer (rotEntries a dx dz) (czPairs l (rotEntries a dx dz) "north_east" "north_east" ++
      (czPairs l (rotEntries a dx dz) "north_west" "south_east" ++
        czPairs l (rotEntries a dx dz) "south_east" "north_west") ++
      czPairs l (rotEntries a dx dz) "south_west" "south_west") sh ∧
      ∀ k, k ≠ .data → ∀ σ, σ ∈ sh k ↔ ∃ dir, (σ, dir) ∈ names rotDirs := by
  have hg := h.grid
  have ne : (((1, 1) : Site), "north_east") ∈ names rotDirs := by decide
  have nw : (((1, -1) : Site), "north_west") ∈ names rotDirs := by decide
  have se : (((-1, 1) : Site), "south_east") ∈ names rotDirs := by decide
  have sw : (((-1, -1) : Site), "south_west") ∈ names rotDirs := by decide
  refine ⟨_, Layer.append hg (Layer.append hg (layer_cz hg ne ne)
    (Layer.append hg (layer_cz hg nw se) (layer_cz hg se nw) ?_) ?_) (layer_cz hg sw sw) ?_, ?_⟩
  · intro k; cases k <;> decide
  · intro k; cases k <;> decide
  · intro k; cases k <;> decide
  · intro k hk σ
    rw [rot_shift]
    cases k <;> simp [czSh] at hk ⊢ <;> tauto

theorem rot_pipe_layers (h : IsRot a dx dz l) :
    ∃ sh, Layer (rotEntries a dx dz)
      (pairs4 l (xOf (rotEntries a dx dz)) "north_east" "north_west" "south_east" "south_west" ++
      pairs4 l (zOf (rotEntries a dx dz)) "north_east" "south_east" "north_west" "south_west" ++ []) sh ∧
      ∀ k, k ≠ .data → ∀ σ, σ ∈ sh k ↔ ∃ dir, (σ, dir) ∈ names rotDirs := by
  have hd : ∀ k, ∀ σ ∈ rotSh .x (1, 1) (1, -1) (-1, 1) (-1, -1) k,
      σ ∉ rotSh .z (1, 1) (-1, 1) (1, -1) (-1, -1) k := by
    intro k; cases k <;> decide
  refine ⟨_, by rw [List.append_nil]; exact Layer.append h.grid (rot_layer_x h) (rot_layer_z h) hd, ?_⟩
  · intro k hk σ
    rw [rot_shift]
    cases k <;> simp [rotSh] at hk ⊢ <;> tauto

theorem unrot_css_layers (h : IsUnrot a dx dz l) :
    ∃ sh, Layer (unrotEntries a dx dz) (czPairs l (unrotEntries a dx dz) "north" "north" ++
      (czPairs l (unrotEntries a dx dz) "west" "east" ++
        czPairs l (unrotEntries a dx dz) "east" "west") ++
      czPairs l (unrotEntries a dx dz) "south" "south") sh ∧
      ∀ k, k ≠ .data → ∀ σ, σ ∈ sh k ↔ ∃ dir, (σ, dir) ∈ names unrotDirs := by
  have hg := h.grid
  have ne : (((0, 1) : Site), "north") ∈ names unrotDirs := by decide
  have nw : (((-1, 0) : Site), "west") ∈ names unrotDirs := by decide
  have se : (((1, 0) : Site), "east") ∈ names unrotDirs := by decide
  have sw : (((0, -1) : Site), "south") ∈ names unrotDirs := by decide
  refine ⟨_, Layer.append hg (Layer.append hg (layer_cz hg ne ne)
    (Layer.append hg (layer_cz hg nw se) (layer_cz hg se nw) ?_) ?_) (layer_cz hg sw sw) ?_, ?_⟩
  · intro k; cases k <;> decide
  · intro k; cases k <;> decide
  · intro k; cases k <;> decide
  · intro k hk σ
    rw [unrot_shift]
    cases k <;> simp [czSh] at hk ⊢ <;> tauto

theorem sub_append4 {L : List (String × Site × Kind)} {S0 S1 S2 S3 : List String}
    (h0 : ∀ q ∈ S0, ∃ s k, (q, s, k) ∈ L) (h1 : ∀ q ∈ S1, ∃ s k, (q, s, k) ∈ L)
    (h2 : ∀ q ∈ S2, ∃ s k, (q, s, k) ∈ L) (h3 : ∀ q ∈ S3, ∃ s k, (q, s, k) ∈ L) :
    ∀ q ∈ S0 ++ S1 ++ S2 ++ S3, ∃ s k, (q, s, k) ∈ L := by
  intro q hq
  simp only [List.mem_append] at hq
  rcases hq with ((hq | hq) | hq) | hq
  · exact h0 q hq
  · exact h1 q hq
  · exact h2 q hq
  · exact h3 q hq

/-! ### rounds on grids with stored parameters -/

theorem IsRot.css (h : IsRot a dx dz l) (hdz : 2 ≤ dz) {nm : NoiseModel} (hr : CanRun nm l) (o : SetOrder)
    (reset : Bool) : RoundMeasures nm l (sumGen (cssIter "rotated_surface_code" o nm l reset))
      (cssType (rotEntries a dx dz)) reset := by
  obtain ⟨sh, h1, h2⟩ := rot_css_layers h
  have hd := css_does hr.faithful h.grid (CanRun.usable hr h.grid) o h.order reset
  rw [h.code] at hd
  exact roundMeasures_grid h.grid hr hd (rot_css_coherent h hdz o) h1 h2
    (sub_append4 (fun q hq => cssRotSet_known h.grid ((mem_ord o).1 hq)) (at_data h.grid).sub (at_data h.grid).sub
      (fun q hq => cssRotSet_known h.grid ((mem_ord o).1 hq)))

theorem IsUnrot.css (h : IsUnrot a dx dz l) (hdz : 2 ≤ dz) {nm : NoiseModel} (hr : CanRun nm l) (o : SetOrder)
    (reset : Bool) : RoundMeasures nm l (sumGen (cssIter "unrotated_surface_code" o nm l reset))
      (cssType (unrotEntries a dx dz)) reset := by
  obtain ⟨sh, h1, h2⟩ := unrot_css_layers h
  have hd := css_does hr.faithful h.grid (CanRun.usable hr h.grid) o h.order reset
  rw [h.code] at hd
  exact roundMeasures_grid h.grid hr hd (unrot_css_coherent h hdz o) h1 h2
    (sub_append4 (fun q hq => cssRotSet_known h.grid ((mem_ord o).1 hq)) (at_data h.grid).sub (at_data h.grid).sub
      (fun q hq => cssRotSet_known h.grid ((mem_ord o).1 hq)))

theorem IsRot.cssPipe (h : IsRot a dx dz l) {nm : NoiseModel} (hr : CanRun nm l) (o : SetOrder)
    (reset : Bool) : RoundMeasures nm l (sumGen (cssPipeIter o nm l reset))
      (cssType (rotEntries a dx dz)) reset := by
  obtain ⟨sh, h1, h2⟩ := rot_pipe_layers h
  have hg := h.grid
  have k1 : ∀ q ∈ cssPipeRot (dataOf (rotEntries a dx dz)) "x_type" (xOf (rotEntries a dx dz)),
      ∃ s k, (q, s, k) ∈ rotEntries a dx dz := by
    unfold cssPipeRot
    rw [if_pos rfl]
    intro q hq
    rcases mem_union.1 hq with hq | hq
    · exact (at_x hg).sub q (mem_setOf.1 hq)
    · exact (at_data hg).sub q hq
  have k2 : ∀ q ∈ cssPipeRot (dataOf (rotEntries a dx dz)) "z_type" (zOf (rotEntries a dx dz)),
      ∃ s k, (q, s, k) ∈ rotEntries a dx dz := by
    unfold cssPipeRot
    rw [if_neg (by decide)]
    intro q hq
    exact (at_z hg).sub q (mem_setOf.1 hq)
  exact roundMeasures_grid hg hr
    (pipe_does hr.faithful hg (CanRun.usable hr hg) o h.code h.order reset cssPipeRot k1 k2)
    (rot_cssPipe_coherent h o) h1 h2
    (sub_append4 (fun q hq => k1 q ((mem_ord o).1 hq)) (fun q hq => (at_all _).sub q ((mem_ord o).1 hq))
      (fun q hq => k2 q ((mem_ord o).1 hq)) (by simp))

theorem IsRot.xzzxPipe (h : IsRot a dx dz l) (hdx : 2 ≤ dx) (hdz : 2 ≤ dz) {nm : NoiseModel} (hr : CanRun nm l)
    (o : SetOrder) (reset : Bool) : RoundMeasures nm l (sumGen (xzzxPipeIter o nm l reset)) (xzzxType l) reset := by
  obtain ⟨sh, h1, h2⟩ := rot_pipe_layers h
  have hg := h.grid
  have k1 : ∀ q ∈ xzzxPipeRot l (dataOf (rotEntries a dx dz)) "x_type" (xOf (rotEntries a dx dz)),
      ∃ s k, (q, s, k) ∈ rotEntries a dx dz := by
    intro q hq
    rcases mem_union.1 hq with hq | hq
    · exact (at_x hg).sub q (mem_setOf.1 hq)
    · exact diagonal_known hg hq
  have k2 : ∀ q ∈ xzzxPipeRot l (dataOf (rotEntries a dx dz)) "z_type" (zOf (rotEntries a dx dz)),
      ∃ s k, (q, s, k) ∈ rotEntries a dx dz := by
    intro q hq
    rcases mem_union.1 hq with hq | hq
    · exact (at_z hg).sub q (mem_setOf.1 hq)
    · exact diagonal_known hg hq
  exact roundMeasures_grid hg hr
    (pipe_does hr.faithful hg (CanRun.usable hr hg) o h.code h.order reset (xzzxPipeRot l) k1 k2)
    (rot_xzzxPipe_coherent h hdx hdz o) h1 h2
    (sub_append4 (fun q hq => k1 q ((mem_ord o).1 hq)) (fun q hq => (at_all _).sub q ((mem_ord o).1 hq))
      (fun q hq => k2 q ((mem_ord o).1 hq)) (by simp))

theorem IsRot.xzzxFixed (h : IsRot a dx dz l) (hdx : 2 ≤ dx) (hdz : 2 ≤ dz) {nm : NoiseModel} (hr : CanRun nm l)
    (o : SetOrder) (reset : Bool) :
    RoundMeasures nm l (sumGen (xzzxFixedIter o nm l reset)) (xzzxType l) reset := by
  obtain ⟨sh, h1, h2⟩ := rot_css_layers h
  have hg := h.grid
  have hu := CanRun.usable hr hg
  have k : ∀ q ∈ o.ord (xzzxRotSet l (rotEntries a dx dz) "north_east" "south_west"),
      ∃ s k, (q, s, k) ∈ rotEntries a dx dz := by
    intro q hq
    rcases mem_symmDiff.1 ((mem_ord o).1 hq) with ⟨h, -⟩ | ⟨h, -⟩
    · exact cssRotSet_known hg h
    · exact diagonal_known hg (mem_setOf.1 h)
  exact roundMeasures_grid hg hr
    (xzzx_does hr.faithful hg hu o h.code h.order reset
      (does_czLayer4 hr.faithful hg hu o h.order 3 (by decide)))
    (rot_xzzx_coherent h hdx hdz o) h1 h2 (sub_append4 k (at_data hg).sub (at_data hg).sub k)

end SurfaceSim
