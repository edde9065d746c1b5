/-
The pipelined and the XZZX rounds on rotated surface codes.
-/
import Verif.Lemmas.RotRounds

namespace SurfaceSim
open Spec NoiseModel Blocks LayoutLib

variable {a : Args} {dx dz : Int} {l : Layout} {L : List (String × Site × Kind)} {dirs : List (Site × String)}

/-- The gates of the ancillas `stabs` in four directions. -/
def pairs4 (l : Layout) (stabs : List String) (d0 d1 d2 d3 : String) : List (String × String) :=
  l.getNeighborPairs stabs (some d0) ++ (l.getNeighborPairs stabs (some d1) ++
    (l.getNeighborPairs stabs (some d2) ++ l.getNeighborPairs stabs (some d3)))

section
variable {nm : NoiseModel} (hn : Faithful nm) (hg : OnGrid l L dirs) (hu : Usable nm.inds L)
  (o : SetOrder)
include hn hg hu

theorem allOf_known : ∀ q ∈ allOf L, q ∈ nm.inds.keys := by
  intro q hq
  obtain ⟨s, k, hq⟩ := mem_allOf.1 hq
  exact hu.known _ _ _ hq

theorem does_pipeCz (stabs : List String) (dir : String) :
    Does nm.inds (pipeCz o nm l (allOf L) stabs dir)
      ((l.getNeighborPairs stabs (some dir)).map fun p => Op.cz p.1 p.2) :=
  ((does_cz hn _ (hu.pairs hg _ _)).bind_concat
    (does_idle hn _ fun q h => allOf_known hn hg hu q (mem_diff.1 ((mem_ord o).1 h)).1)).congr (by simp)

/-- The operations of a pipelined round. -/
theorem pipe_does {x0 x1 x2 x3 z0 z1 z2 z3 : String} (hcode : l.code = "rotated_surface_code")
    (ho : l.interactionOrder = order4 x0 x1 x2 x3 z0 z1 z2 z3) (reset : Bool)
    (rotOf : List String → String → List String → List String)
    (h1 : ∀ q ∈ rotOf (dataOf L) "x_type" (xOf L), ∃ s k, (q, s, k) ∈ L)
    (h2 : ∀ q ∈ rotOf (dataOf L) "z_type" (zOf L), ∃ s k, (q, s, k) ∈ L) :
    Does nm.inds (sumGen (pipeIter o nm l reset rotOf)) (roundOps reset (ancOf L)
      (coherentOps (o.ord (rotOf (dataOf L) "x_type" (xOf L))) (o.ord (allOf L))
        (o.ord (rotOf (dataOf L) "z_type" (zOf L))) []
        (pairs4 l (xOf L) x0 x1 x2 x3) (pairs4 l (zOf L) z0 z1 z2 z3) [])) := by
  have hd : dataQubits l = .ok (dataOf L) := hg.getQubits_data
  have ha : ancQubits l = .ok (ancOf L) := hg.getQubits_anc
  have hx : stabQubits l "x_type" = .ok (xOf L) := hg.getQubits_x
  have hz : stabQubits l "z_type" = .ok (zOf L) := hg.getQubits_z
  have kd : ∀ q ∈ dataOf L, q ∈ nm.inds.keys := hu.labels (fun k => k = .data)
  have ka : ∀ q ∈ ancOf L, q ∈ nm.inds.keys := hu.labels (fun k => k ≠ .data)
  have kq := allOf_known hn hg hu
  have hH := does_h hn (o.ord (allOf L)) fun q h => kq q ((mem_ord o).1 h)
  have hM : Does nm.inds (plus (nm.measure (ancOf L)) (nm.idle (dataOf L))) ((ancOf L).map Op.m) :=
    ((does_m hn _ ka).bind_concat (does_idle hn _ kd)).congr (by simp)
  have hR1 := does_rotLayer hn o (allOf L) (rotOf (dataOf L) "x_type" (xOf L)) kq fun q h => by
    obtain ⟨s, k, hq⟩ := h1 q h
    exact hu.known _ _ _ hq
  have hR2 := does_rotLayer hn o (allOf L) (rotOf (dataOf L) "z_type" (zOf L)) kq fun q h => by
    obtain ⟨s, k, hq⟩ := h2 q h
    exact hu.known _ _ _ hq
  have c := fun stabs dir => does_pipeCz hn hg hu o stabs dir
  have t := Does.tick nm.inds
  have hall := (does_roundHead hn (dataOf L) (ancOf L) reset kd ka)
  have e1 : l.interactionOrder.keys.zipIdx = [("x_type", 0), ("z_type", 1)] := by rw [ho]; rfl
  have e2 : l.interactionOrder.getE "x_type" = .ok [x0, x1, x2, x3] := by rw [ho]; rfl
  have e3 : l.interactionOrder.getE "z_type" = .ok [z0, z1, z2, z3] := by rw [ho]; rfl
  unfold pipeIter pipeBody
  rw [if_neg (by simp [hcode]), hd, ha, e1]
  simp only [withE, List.flatMap_cons, List.flatMap_nil, hx, hz, e2, e3, if_true]
  rw [if_neg (by decide), if_neg (by decide)]
  simp only [List.append_assoc, List.nil_append, List.append_nil, List.cons_append]
  refine (Does.sumGen (List.rel_append hall (.cons hR1 (.cons t
    (.cons (c _ x0) (.cons t (.cons (c _ x1) (.cons t (.cons (c _ x2) (.cons t (.cons (c _ x3) (.cons t
    (.cons hH (.cons t
    (.cons (c _ z0) (.cons t (.cons (c _ z1) (.cons t (.cons (c _ z2) (.cons t (.cons (c _ z3) (.cons t
    (.cons hR2 (.cons t (.cons hM (.cons t .nil)))))))))))))))))))))))))).congr ?_
  unfold roundOps coherentOps pairs4
  cases reset <;> simp

/-- The rotated qubits of the XZZX round. -/
def xzzxRotSet (l : Layout) (L : List (String × Site × Kind)) (d0 d3 : String) : List String :=
  Blocks.symmDiff (cssRotSet l L d0 d3) (Blocks.setOf (diagonalNeighbors l (zOf L)))

omit hn hu in
theorem diagonal_known {stabs : List String} {q : String} (h : q ∈ diagonalNeighbors l stabs) :
    ∃ s k, (q, s, k) ∈ L := by
  unfold diagonalNeighbors at h
  rcases List.mem_append.1 h with h | h <;> exact getNeighbors_known hg h

theorem does_xzzxRot {x0 x1 x2 x3 z0 z1 z2 z3 : String}
    (ho : l.interactionOrder = order4 x0 x1 x2 x3 z0 z1 z2 z3) :
    Does nm.inds (xzzxRotLayer o nm l (allOf L) (ancOf L) (xOf L)) ((o.ord (xzzxRotSet l L x0 x3)).map Op.h) := by
  have hr : rotSet l (ancOf L) (xOf L) = .ok (cssRotSet l L x0 x3) := by
    simp [rotSet, orderDir, ho, order4, Dict.getE, pyIndex, cssRotSet]
  have hz : stabQubits l "z_type" = .ok (zOf L) := hg.getQubits_z
  have := does_rotLayer hn o (allOf L) (xzzxRotSet l L x0 x3) (allOf_known hn hg hu) (fun q h => by
    have : ∃ s k, (q, s, k) ∈ L := by
      rcases mem_symmDiff.1 h with ⟨h, -⟩ | ⟨h, -⟩
      · exact cssRotSet_known hg h
      · exact diagonal_known hg (mem_setOf.1 h)
    obtain ⟨s, k, hq⟩ := this
    exact hu.known _ _ _ hq)
  refine ⟨this.1, fun s hist ht => ?_⟩
  obtain ⟨c, s', e, rest⟩ := this.2 s hist ht
  refine ⟨c, s', ?_, rest⟩
  unfold xzzxRotLayer
  rw [hr, hz, PyM.bind_ok (PyM.ofExcept_apply _ _), PyM.bind_ok (PyM.ofExcept_apply _ _)]
  exact e

/-- The operations of the XZZX round, with any block as step g. -/
theorem xzzx_does {x0 x1 x2 x3 z0 z1 z2 z3 : String} (hcode : l.code = "rotated_surface_code")
    (ho : l.interactionOrder = order4 x0 x1 x2 x3 z0 z1 z2 z3) (reset : Bool)
    {stepG : List String → Call1} {E : List (String × String)}
    (h3 : Does nm.inds (stepG (allOf L)) (E.map fun p => Op.cz p.1 p.2)) :
    Does nm.inds (sumGen (xzzxIterWith stepG o nm l reset)) (roundOps reset (ancOf L)
      (coherentOps (o.ord (xzzxRotSet l L x0 x3)) (dataOf L) (dataOf L) (o.ord (xzzxRotSet l L x0 x3))
        (czPairs l L x0 z0) (czPairs l L x1 z1 ++ czPairs l L x2 z2) E)) := by
  have hd : dataQubits l = .ok (dataOf L) := hg.getQubits_data
  have ha : ancQubits l = .ok (ancOf L) := hg.getQubits_anc
  have hx : stabQubits l "x_type" = .ok (xOf L) := hg.getQubits_x
  have kd : ∀ q ∈ dataOf L, q ∈ nm.inds.keys := hu.labels (fun k => k = .data)
  have ka : ∀ q ∈ ancOf L, q ∈ nm.inds.keys := hu.labels (fun k => k ≠ .data)
  have hH : Does nm.inds (plus (nm.hadamard (dataOf L)) (nm.idle (ancOf L))) ((dataOf L).map Op.h) :=
    ((does_h hn _ kd).bind_concat (does_idle hn _ ka)).congr (by simp)
  have hM : Does nm.inds (plus (nm.measure (ancOf L)) (nm.idle (dataOf L))) ((ancOf L).map Op.m) :=
    ((does_m hn _ ka).bind_concat (does_idle hn _ kd)).congr (by simp)
  have hR := does_xzzxRot hn hg hu o ho
  have h0 := does_czLayer4 hn hg hu o ho 0 (by decide)
  have h1 := does_czLayer4 hn hg hu o ho 1 (by decide)
  have h2 := does_czLayer4 hn hg hu o ho 2 (by decide)
  have t := Does.tick nm.inds
  have hall := (does_roundHead hn (dataOf L) (ancOf L) reset kd ka)
  unfold xzzxIterWith
  rw [if_neg (by simp [hcode]), hd, ha, hx]
  simp only [withE]
  refine (Does.sumGen (List.rel_append hall (.cons hR (.cons t (.cons h0 (.cons t (.cons hH (.cons t
    (.cons h1 (.cons t (.cons h2 (.cons t (.cons hH (.cons t (.cons h3 (.cons t (.cons hR (.cons t
    (.cons hM (.cons t .nil)))))))))))))))))))).congr ?_
  unfold roundOps coherentOps
  cases reset <;> simp

end

/-! ### positions -/

theorem layer_pairs4 (hg : OnGrid l L dirs) {p : Kind → Bool} (hp : p .data = false) {σ0 σ1 σ2 σ3 : Site}
    {d0 d1 d2 d3 : String} (h0 : (σ0, d0) ∈ dirs) (h1 : (σ1, d1) ∈ dirs) (h2 : (σ2, d2) ∈ dirs)
    (h3 : (σ3, d3) ∈ dirs) (hd : [σ0, σ1, σ2, σ3].Nodup) :
    Layer L (pairs4 l (labelsOf L p) d0 d1 d2 d3) (fun k => if p k then [σ0, σ1, σ2, σ3] else []) := by
  have l0 := Layer.ofDir hg hp h0
  have l1 := Layer.ofDir hg hp h1
  have l2 := Layer.ofDir hg hp h2
  have l3 := Layer.ofDir hg hp h3
  simp only [List.nodup_cons, List.mem_cons, List.not_mem_nil, or_false, not_or] at hd
  refine (Layer.append hg l0 (Layer.append hg l1 (Layer.append hg l2 l3 ?_) ?_) ?_).congr ?_ ?_
  · intro k; cases p k <;> simp <;> tauto
  · intro k; cases p k <;> simp <;> tauto
  · intro k; cases p k <;> simp <;> tauto
  · intro k; cases p k <;> simp <;> tauto
  · intro k; cases p k <;> simp <;> tauto

end SurfaceSim
