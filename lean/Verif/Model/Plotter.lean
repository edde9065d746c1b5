/-
Model of layouts/plotter.py: drawing a layout with matplotlib.

The pieces of matplotlib that the code uses are modelled as far as the module is concerned: an
artist is what was given to its constructor, and `ax` is the record of the calls made on it.
Coordinates are exact rationals and angles are real numbers, so rounding is not modelled.
`layout.param("metaparams", q)` is not one of the values `Val` has, so it is an argument of the
functions here: `none` when it is not a dictionary.
-/
import Verif.Model.Layout
import Mathlib.Analysis.SpecialFunctions.Complex.Arg

namespace SurfaceSim
namespace Plotter

/-- A value in the dictionary of drawing options: a colour or another name, or a number. -/
inductive OptVal where
  | str (s : String)
  | num (q : Rat)
  deriving DecidableEq, Repr

/-- Drawing options, passed on as keyword arguments. -/
abbrev Style := Dict String OptVal

/-- What is drawn: `Circle`, `Polygon`, `Line2D` and `Text` of matplotlib. -/
inductive Shape where
  | circle (center : List Rat) (radius : OptVal)
  | polygon (corners : List (List Rat))
  | line (xs ys : List Rat)
  | text (x y : Rat) (text : String)
  deriving DecidableEq, Repr

/-- An artist of matplotlib: its shape, its `zorder` and its other options. -/
structure Artist where
  shape : Shape
  zorder : Nat
  style : Style
  deriving DecidableEq, Repr

/-- The axes of matplotlib: the artists that were added, and what was set. -/
structure Axes where
  artists : List Artist
  xlim : Rat × Rat
  ylim : Rat × Rat
  xlabel : String
  ylabel : String
  aspect : String
  deriving DecidableEq, Repr

/-- `metaparams` of each qubit, `none` when it is not a dictionary. -/
abbrev Meta := String → Option (Dict String Style)

/-- `np.argsort`: some order of the indices that sorts the keys.  Its default algorithm is not stable,
so equal keys may come in any order. -/
structure ArgSort where
  /-- the indices in sorted order -/
  sort : List ℝ → List Nat
  /-- each index once -/
  perm : ∀ keys, (sort keys).Perm (List.range keys.length)
  /-- the keys do not decrease -/
  sorted : ∀ keys, (sort keys).Pairwise fun i j => keys.getD i 0 ≤ keys.getD j 0

/-- `ZORDERS` (plotter.py 22). -/
def zCircle : Nat := 3
/-- `ZORDERS` (plotter.py 22). -/
def zPatch : Nat := 1
/-- `ZORDERS` (plotter.py 22). -/
def zLine : Nat := 2
/-- `ZORDERS` (plotter.py 22). -/
def zText : Nat := 4

/-- `COLORS` (plotter.py 25-38), those that are used. -/
def red : OptVal := .str "#e41a1cff"
/-- `COLORS` (plotter.py 25-38). -/
def redLight : OptVal := .str "#f07f80ff"
/-- `COLORS` (plotter.py 25-38). -/
def green : OptVal := .str "#4daf4aff"
/-- `COLORS` (plotter.py 25-38). -/
def greenLight : OptVal := .str "#9dd49bff"
/-- `COLORS` (plotter.py 25-38). -/
def blue : OptVal := .str "#377eb8ff"
/-- `COLORS` (plotter.py 25-38). -/
def blueLight : OptVal := .str "#90bbdfff"

/-- The number of tuples in `zip(*cs)`: the length of the shortest one. -/
def width : List (List Rat) → Nat
  | [] => 0
  | [c] => c.length
  | c :: cs => min c.length (width cs)

/-- `x_coords, y_coords = zip(*cs)` (plotter.py 57, 149, 338): `ValueError` unless there are two. -/
def columns (cs : List (List Rat)) : Except Err (List Rat × List Rat) :=
  if width cs = 2 then .ok (cs.map fun c => c.getD 0 0, cs.map fun c => c.getD 1 0) else .error .valueError

/-- `np.mean` (plotter.py 59-60), without rounding. -/
def mean (xs : List Rat) : Rat := xs.sum / xs.length

/-- `np.arctan2(x, y)` (plotter.py 65), without rounding: the angle with first argument over second. -/
noncomputable def angle (x y : Rat) : ℝ := Complex.arg ⟨(y : ℝ), (x : ℝ)⟩

/-- `clockwise_sort` (plotter.py 41-68). -/
noncomputable def clockwiseSort (as : ArgSort) (coords : List (List Rat)) : Except Err (List (List Rat)) :=
  match columns coords with
  | .error e => .error e
  | .ok (xs, ys) =>
    let xv := xs.map fun x => x - mean xs
    let yv := ys.map fun y => y - mean ys
    .ok ((as.sort (List.zipWith angle xv yv)).map fun i => coords.getD i [])

/-- `RE_FILTER.match` (plotter.py 18, 86): the letters at the start and the digits that follow.  The two
classes have no common character, so the longest runs are the only candidates. -/
def labelParts (q : String) : Option (String × String) :=
  let name := q.toList.takeWhile Char.isAlpha
  let ind := (q.toList.dropWhile Char.isAlpha).takeWhile Char.isDigit
  if name = [] ∨ ind = [] then none else some (String.ofList name, String.ofList ind)

/-- The text of a label (plotter.py 83-89). -/
def labelText (q : String) : String :=
  match labelParts q with
  | none => q
  | some (name, ind) => "$" ++ name ++ "_\\mathrm{" ++ ind ++ "}$"

/-- A call with keyword arguments: `TypeError` when one of them is a parameter that is given otherwise. -/
def withStyle (taken : List String) (style : Style) (a : Artist) : Except Err Artist :=
  if style.keys.any fun k => taken.contains k then .error .typeError else .ok { a with style := style }

/-- `get_label` (plotter.py 71-94). -/
def getLabel (q : String) (coords : List Rat) (style : Style) : Except Err Artist :=
  match coords with
  | [x, y] => withStyle ["qubit", "coords", "x", "y", "text", "zorder"] style ⟨.text x y (labelText q), zText, []⟩
  | _ => .error .valueError

/-- `get_circle` (plotter.py 97-116). -/
def getCircle (center : List Rat) (radius : OptVal) (style : Style) : Except Err Artist :=
  withStyle ["center", "radius", "xy", "zorder"] style ⟨.circle center radius, zCircle, []⟩

/-- `get_patch` (plotter.py 119-131). -/
def getPatch (corners : List (List Rat)) (style : Style) : Except Err Artist :=
  withStyle ["patch_coords", "xy", "closed", "zorder"] style ⟨.polygon corners, zPatch, []⟩

/-- `get_line` (plotter.py 134-152). -/
def getLine (coordinates : List (List Rat)) (style : Style) : Except Err Artist :=
  match columns coordinates with
  | .error e => .error e
  | .ok (xs, ys) => withStyle ["coordinates", "xdata", "ydata", "zorder"] style ⟨.line xs ys, zLine, []⟩

/-- `layout.param("coords", qubit)` as a list of numbers; `len` of `None` or of a number, and its iteration, raise
`TypeError`. -/
def coordsParam (l : Layout) (q : String) : Except Err (List Rat) :=
  match l.param "coords" q with
  | .error e => .error e
  | .ok v => Layout.asCoords v

/-- The coordinates of a qubit that is drawn (plotter.py 173-178, 203-208, 243-248, 283-288). -/
def coords2 (l : Layout) (q : String) : Except Err (List Rat) :=
  match coordsParam l q with
  | .error e => .error e
  | .ok c => if c.length ≠ 2 then .error .valueError else .ok c

/-- The colour by `stab_type` (plotter.py 212-218, 256-262, 303-309). -/
def stabColor (l : Layout) (q : String) (z x other : OptVal) : Except Err OptVal :=
  match l.param "stab_type" q with
  | .error e => .error e
  | .ok v => .ok (if v = .str "z_type" then z else if v = .str "x_type" then x else other)

/-- `metaparams.get(kind, {})` when it is a dictionary (plotter.py 182-184, 219-221, 264-266, 311-313). -/
def custom (m : Meta) (q kind : String) (style : Style) : Style :=
  match m q with
  | none => style
  | some d => style.update ((d.get? kind).getD [])

/-- One iteration of `qubit_labels` (plotter.py 172-186). -/
def labelOf (l : Layout) (m : Meta) (fontsize : Rat) (q : String) : Except Err Artist :=
  match coords2 l q with
  | .error e => .error e
  | .ok c =>
    getLabel q c (custom m q "text"
      [("color", .str "black"), ("verticalalignment", .str "center"), ("horizontalalignment", .str "center"), ("fontsize", .num fontsize)])

/-- One iteration of `qubit_connections` (plotter.py 202-227): the artists that are yielded, in order.  An
exception ends the iteration. -/
def linesOf (l : Layout) (m : Meta) (q : String) : List (Except Err Artist) :=
  match coords2 l q with
  | .error e => [.error e]
  | .ok c =>
    match stabColor l q blue red green with
    | .error e => [.error e]
    | .ok color =>
      let style := custom m q "line" [("linestyle", .str "--"), ("color", color)]
      (l.getNeighbors [q] none).map fun nbr =>
        match coordsParam l nbr with
        | .error e => .error e
        | .ok c' => getLine [c, c'] style

/-- The face colour of a qubit (plotter.py 253-262). -/
def faceOf (l : Layout) (q : String) : Except Err OptVal :=
  match l.param "role" q with
  | .error e => .error e
  | .ok v => if v = .str "data" then .ok (.str "white") else stabColor l q blue red green

/-- One iteration of `qubit_artists` (plotter.py 242-269). -/
def circleOf (l : Layout) (m : Meta) (q : String) : Except Err Artist :=
  match coords2 l q with
  | .error e => .error e
  | .ok c =>
    match faceOf l q with
    | .error e => .error e
    | .ok face =>
      let style := custom m q "circle" [("edgecolor", .str "black"), ("facecolor", face)]
      match m q with
      | none => getCircle c (.num (3 / 10)) style
      | some _ => getCircle c ((style.get? "radius").getD (.num (3 / 10))) (style.erase "radius")

/-- One iteration of `patch_artists` (plotter.py 282-314). -/
noncomputable def patchOf (as : ArgSort) (l : Layout) (m : Meta) (q : String) : Except Err Artist :=
  match coords2 l q with
  | .error e => .error e
  | .ok c =>
    let nbrs := l.getNeighbors [q] none
    match mapExcept nbrs (coordsParam l) with
    | .error e => .error e
    | .ok cs =>
      match clockwiseSort as (if nbrs.length = 2 then cs ++ [c] else cs) with
      | .error e => .error e
      | .ok corners =>
        match stabColor l q blueLight redLight greenLight with
        | .error e => .error e
        | .ok color => getPatch corners (custom m q "patch" [("edgecolor", .str "black"), ("facecolor", color)])

/-- `min` of a non-empty sequence (plotter.py 340-341). -/
def minOf : List Rat → Rat
  | [] => 0
  | x :: xs => xs.foldl min x

/-- `max` of a non-empty sequence (plotter.py 340-341). -/
def maxOf : List Rat → Rat
  | [] => 0
  | x :: xs => xs.foldl max x

/-- `get_coord_range` (plotter.py 317-342). -/
def getCoordRange (l : Layout) : Except Err ((Rat × Rat) × (Rat × Rat)) :=
  match l.getQubits [] with
  | .error e => .error e
  | .ok qubits =>
    match mapExcept qubits (coordsParam l) with
    | .error e => .error e
    | .ok cs =>
      if cs.any fun c => c.length ≠ 2 then .error .valueError
      else
        match columns cs with
        | .error e => .error e
        | .ok (xs, ys) => .ok ((minOf xs, maxOf xs), (minOf ys, maxOf ys))

/-- `for artist in ...: ax.add_artist(artist)` (plotter.py 384-397): what was added before an exception stays. -/
def addArtists : List (Except Err Artist) → PyM Axes Unit
  | [] => pure ()
  | .error e :: _ => PyM.raise e
  | .ok a :: rest => fun ax => addArtists rest { ax with artists := ax.artists ++ [a] }

/-- `qubit_artists` (plotter.py 230-269). -/
def qubitArtists (l : Layout) (m : Meta) : List (Except Err Artist) :=
  match l.getQubits [] with
  | .error e => [.error e]
  | .ok qubits => qubits.map (circleOf l m)

/-- `patch_artists` (plotter.py 272-314). -/
noncomputable def patchArtists (as : ArgSort) (l : Layout) (m : Meta) : List (Except Err Artist) :=
  match l.getQubits [("role", .str "anc")] with
  | .error e => [.error e]
  | .ok qubits => qubits.map (patchOf as l m)

/-- `qubit_connections` (plotter.py 189-227). -/
def qubitConnections (l : Layout) (m : Meta) : List (Except Err Artist) :=
  match l.getQubits [("role", .str "anc")] with
  | .error e => [.error e]
  | .ok qubits => qubits.flatMap (linesOf l m)

/-- `qubit_labels` (plotter.py 155-186). -/
def qubitLabels (l : Layout) (m : Meta) (fontsize : Rat) : List (Except Err Artist) :=
  match l.getQubits [] with
  | .error e => [.error e]
  | .ok qubits => qubits.map (labelOf l m fontsize)

/-- The options of `plot` with their defaults (plotter.py 345-354). -/
structure Options where
  addLabels : Bool := true
  addPatches : Bool := true
  addConnections : Bool := true
  pad : Rat := 1
  stimOrientation : Bool := true
  labelFontsize : Rat := 11

/-- The end of `plot` (plotter.py 399-409).  matplotlib widens limits that are equal; that is not modelled. -/
def setView (l : Layout) (o : Options) : PyM Axes Unit := fun ax =>
  match getCoordRange l with
  | .error e => (.error e, ax)
  | .ok (xr, yr) =>
    let ylim := (yr.1 - o.pad, yr.2 + o.pad)
    (.ok (), { ax with
      xlim := (xr.1 - o.pad, xr.2 + o.pad)
      ylim := if o.stimOrientation then (ylim.2, ylim.1) else ylim
      xlabel := "$x$ coordinate"
      ylabel := "$y$ coordinate"
      aspect := "equal" })

/-- `plot` (plotter.py 345-411), as a change of `ax`, which it returns. -/
noncomputable def plot (as : ArgSort) (l : Layout) (m : Meta) (o : Options) : PyM Axes Unit := do
  addArtists (qubitArtists l m)
  if o.addPatches then addArtists (patchArtists as l m)
  if o.addConnections then addArtists (qubitConnections l m)
  if o.addLabels then addArtists (qubitLabels l m o.labelFontsize)
  setView l o

end Plotter
end SurfaceSim
