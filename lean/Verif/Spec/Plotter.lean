/-
Specification for drawing layouts: polygons in the plane and what a picture has to show.
-/
import Verif.Model.Plotter

namespace SurfaceSim
namespace Spec
open Plotter

/-- Twice the signed area of the triangle `p q r`: negative when `r` is to the right of the way from `p` to `q`, with
the first coordinate to the right and the second one up. -/
def turn (p q r : Rat × Rat) : Rat := (q.1 - p.1) * (r.2 - p.2) - (q.2 - p.2) * (r.1 - p.1)

/-- The corners of a convex polygon in clockwise order: there are three or more, and each side has all the other
corners strictly to its right. -/
def ClockwisePolygon (c : List (Rat × Rat)) : Prop :=
  3 ≤ c.length ∧ ∀ i < c.length, ∀ j < c.length, j ≠ i → j ≠ (i + 1) % c.length →
    turn (c.getD i (0, 0)) (c.getD ((i + 1) % c.length) (0, 0)) (c.getD j (0, 0)) < 0

instance (c : List (Rat × Rat)) : Decidable (ClockwisePolygon c) := by
  unfold ClockwisePolygon
  infer_instance

/-- A point in the form in which layouts store it. -/
def asList (p : Rat × Rat) : List Rat := [p.1, p.2]

/-- The number is between the limits of an axis, which may be inverted. -/
def InView (lim : Rat × Rat) (x : Rat) : Prop := min lim.1 lim.2 ≤ x ∧ x ≤ max lim.1 lim.2

/-- The qubit is at this point of the plane. -/
def DrawnAt (l : Layout) (q : String) (p : Rat × Rat) : Prop := l.param "coords" q = .ok (.coords (asList p))

/-- A kind of shape: 0 for polygons, 1 for lines, 2 for circles, 3 for texts. -/
def layer : Shape → Nat
  | .polygon _ => 0
  | .line _ _ => 1
  | .circle _ _ => 2
  | .text _ _ _ => 3

/-- A label of letters followed by digits, as `D12`. -/
def Regular (q : String) : Prop :=
  ∃ name ind : List Char, q.toList = name ++ ind ∧ name ≠ [] ∧ ind ≠ [] ∧ (∀ c ∈ name, c.isAlpha) ∧ ∀ c ∈ ind, c.isDigit

/-- The colour that belongs to the stabilizer type of a qubit. -/
def paint (l : Layout) (q z x other : String) : String :=
  if l.param "stab_type" q = .ok (.str "z_type") then z
  else if l.param "stab_type" q = .ok (.str "x_type") then x
  else other

/-- The value of an option that the layout stores for this kind of artist of a qubit, if any.  (The last entry counts; in
dictionaries there is only one for a key.) -/
def stored (m : Meta) (q kind k : String) : Option OptVal :=
  ((m q).bind fun d => d.get? kind).bind fun s => Dict.get? s.reverse k

/-- The option is as stored in the layout, or else it has this default. -/
def Styled (m : Meta) (q kind : String) (style default : Style) (k : String) : Prop :=
  style.get? k = (stored m q kind k).or (default.get? k)

/-- The artist is the circle of the qubit: white for data qubits, otherwise blue, red or green by stabilizer type, unless
the layout says otherwise. -/
def IsCircle (l : Layout) (m : Meta) (q : String) (a : Artist) : Prop :=
  ∃ p, DrawnAt l q p ∧ a.shape = .circle (asList p) ((stored m q "circle" "radius").getD (.num (3 / 10))) ∧
    ∀ k ≠ "radius", Styled m q "circle" a.style [("edgecolor", .str "black"), ("facecolor", .str
      (if l.param "role" q = .ok (.str "data") then "white" else paint l q "#377eb8ff" "#e41a1cff" "#4daf4aff"))] k

/-- The artist is the label of the qubit. -/
def IsLabel (l : Layout) (m : Meta) (fontsize : Rat) (q : String) (a : Artist) : Prop :=
  ∃ p, DrawnAt l q p ∧ a.shape = .text p.1 p.2 (labelText q) ∧
    ∀ k, Styled m q "text" a.style [("color", .str "black"), ("verticalalignment", .str "center"),
      ("horizontalalignment", .str "center"), ("fontsize", .num fontsize)] k

/-- The artist is the line from the ancilla to its neighbour. -/
def IsLine (l : Layout) (m : Meta) (pair : String × String) (a : Artist) : Prop :=
  ∃ p p', DrawnAt l pair.1 p ∧ DrawnAt l pair.2 p' ∧ a.shape = .line [p.1, p'.1] [p.2, p'.2] ∧
    ∀ k, Styled m pair.1 "line" a.style
      [("linestyle", .str "--"), ("color", .str (paint l pair.1 "#377eb8ff" "#e41a1cff" "#4daf4aff"))] k

/-- The artist is the patch of the ancilla: its corners are the neighbours, and the ancilla if there are only two; if
they are the corners of a convex polygon, then it is that polygon. -/
def IsPatch (l : Layout) (m : Meta) (q : String) (a : Artist) : Prop :=
  ∃ p ps c, DrawnAt l q p ∧ List.Forall₂ (DrawnAt l) (l.getNeighbors [q] none) ps ∧
    a.shape = .polygon (c.map asList) ∧ c.Perm (if ps.length = 2 then ps ++ [p] else ps) ∧
    ((∃ t, t.Perm c ∧ ClockwisePolygon t) → ClockwisePolygon c) ∧
    ∀ k, Styled m q "patch" a.style
      [("edgecolor", .str "black"), ("facecolor", .str (paint l q "#90bbdfff" "#f07f80ff" "#9dd49bff"))] k

/-- What `plot` adds: a circle for each qubit, and if wanted a label for each qubit, a patch for each ancilla and a
line for each neighbour of each ancilla; patches are below lines, lines below circles, and circles below labels. -/
structure Picture (l : Layout) (m : Meta) (o : Options) (qubits ancs : List String) (new : List Artist) : Prop where
  circles : List.Forall₂ (IsCircle l m) qubits (new.filter fun a => layer a.shape = 2)
  labels : List.Forall₂ (IsLabel l m o.labelFontsize) (if o.addLabels then qubits else []) (new.filter fun a => layer a.shape = 3)
  patches : List.Forall₂ (IsPatch l m) (if o.addPatches then ancs else []) (new.filter fun a => layer a.shape = 0)
  lines : List.Forall₂ (IsLine l m)
    (if o.addConnections then ancs.flatMap fun q => (l.getNeighbors [q] none).map fun q' => (q, q') else [])
    (new.filter fun a => layer a.shape = 1)
  order : ∀ a ∈ new, ∀ b ∈ new, layer a.shape < layer b.shape → a.zorder < b.zorder

end Spec
end SurfaceSim
