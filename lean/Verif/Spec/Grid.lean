/-
Specification of layouts drawn on a grid: which qubits sit where, and which are neighbours.
-/
import Verif.Spec.Layout
import Verif.Model.LayoutLib
import Mathlib.Algebra.Group.Prod

namespace SurfaceSim

/-- The layout `l` has exactly the qubits `L` (label, grid position, kind), and two qubits are
neighbours in direction `dir` when one is a data qubit, the other is an ancilla, and they are
apart by the shift of `dir`. -/
structure OnGrid (l : Layout) (L : List (String × Site × Kind)) (dirs : List (Site × String)) :
    Prop where
  reach : Reachable l
  keys : l.graph.nodes.keys = L.map Prod.fst
  labels : (L.map Prod.fst).Nodup
  sites : (L.map fun e => e.2.1).Nodup
  attrs : ∀ q s k, (q, s, k) ∈ L → ∃ attrs, (q, attrs) ∈ l.graph.nodes ∧
    attrs.get? "role" = some (LayoutLib.roleOf k) ∧
    attrs.get? "stab_type" = some (LayoutLib.stabOf k)
  shifts : ∀ sh sh' d, (sh, d) ∈ dirs → (sh', d) ∈ dirs → sh = sh'
  names : ∀ sh d d', (sh, d) ∈ dirs → (sh, d') ∈ dirs → d = d'
  nbr : ∀ q q' dir, (q, q') ∈ l.getNeighborPairs [q] (some dir) ↔
    ∃ s k s' k' sh, (q, s, k) ∈ L ∧ (q', s', k') ∈ L ∧ (sh, dir) ∈ dirs ∧ s' = s + sh ∧
      (k = .data ↔ k' ≠ .data)

end SurfaceSim
