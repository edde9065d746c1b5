/-
Specification of `layouts/util.py`.
-/
import Verif.Spec.Layout

namespace SurfaceSim.Spec
open SurfaceSim

/-- One can go from `q` to `q'` along neighbours. -/
inductive Leads (l : Layout) (q : String) : String → Prop
  | refl : Leads l q q
  | step {a b : String} : Leads l q a → b ∈ l.getNeighbors [a] none → Leads l q b

/-- The layouts agree in everything but the attribute `key` of the qubits. -/
structure OnlyAttr (key : String) (l0 l : Layout) : Prop where
  fields : l = { l0 with graph := ⟨l.graph.nodes, l0.graph.adj⟩ }
  qubits : l.getQubits [] = l0.getQubits []
  params : ∀ p q, p ≠ key → l.param p q = l0.param p q

/-- How far a neighbour in the given direction is. -/
def compass : List (String × Rat × Rat) :=
  [("north_east", 1, 1), ("north_west", 1, -1), ("south_east", -1, 1), ("south_west", -1, -1)]

/-- The layout is drawn in the plane: the qubit `q` is at `pos q`, and neighbours are where their directions say. -/
def Drawn (l : Layout) (pos : String → Rat × Rat) : Prop :=
  ∀ q q' dir, (q, q') ∈ l.getNeighborPairs [q] (some dir) → ∃ sh, (dir, sh) ∈ compass ∧ pos q' = ((pos q).1 + sh.1, (pos q).2 + sh.2)

/-- The qubits of the layout are `qs`, in some order, and each of them has exactly the ones before and after it as
neighbours. -/
structure IsPath (l : Layout) (qs : List String) : Prop where
  nodup : qs.Nodup
  qubits : ∀ all, l.getQubits [] = .ok all → ∀ q, q ∈ all ↔ q ∈ qs
  nbrs : ∀ i (h : i < qs.length) q, q ∈ l.getNeighbors [qs[i]] none ↔
    ∃ j, ∃ h' : j < qs.length, qs[j] = q ∧ (j = i + 1 ∨ i = j + 1)

end SurfaceSim.Spec
