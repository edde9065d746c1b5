/-
Specification of stabilizer codes of layouts: supports of stabilizers, overlaps and logical
operators.  The support of a stabilizer is the set of neighbours of its ancilla.
-/
import Verif.Spec.Layout
import Mathlib.Algebra.Group.Even
import Mathlib.Algebra.Ring.Parity

namespace SurfaceSim

/-- The number of elements of `A` that are in `B`. -/
def overlap (A B : List String) : Nat := A.countP fun q => decide (q ∈ B)

/-- The data qubits, the ancillas of both types and the logical operators of `l`, as reported by
the layout. -/
structure CodeOf (l : Layout) (label : String) (data xs zs lx lz : List String) : Prop where
  data : l.getQubits [("role", .str "data")] = .ok data
  xs : l.getQubits [("role", .str "anc"), ("stab_type", .str "x_type")] = .ok xs
  zs : l.getQubits [("role", .str "anc"), ("stab_type", .str "z_type")] = .ok zs
  lx : l.logX.get? label = some lx
  lz : l.logZ.get? label = some lz

/-- Operators on the qubits `S` commute with the operators on the neighbours of the ancillas `ancs`
(the operators on the two sets being of different type, X and Z) and anticommute with the operator on
`L`. -/
def IsLogical (l : Layout) (ancs L S : List String) : Prop :=
  (∀ a ∈ ancs, Even (overlap S (l.getNeighbors [a] none))) ∧ Odd (overlap S L)

/-- The opposite of a direction. -/
def opposite : String → String
  | "north_east" => "south_west"
  | "north_west" => "south_east"
  | "south_east" => "north_west"
  | "south_west" => "north_east"
  | "north" => "south"
  | "south" => "north"
  | "east" => "west"
  | "west" => "east"
  | d => d

end SurfaceSim
