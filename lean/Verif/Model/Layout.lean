/-
Model of `surface_sim/layouts/layout.py` and `surface_sim/layouts/operations.py`.

Simplifications.  Qubit labels are strings, coordinates are rationals, `deepcopy` is the identity
(values are immutable here), yaml reading and writing is not modelled.  Attribute values are the
ones the library stores (`Val`); an `ind` that is not an integer, a `neighbors` that is not a
dictionary of labels and a `coords` that is not a list of numbers give `typeError` in the model.
-/
import Verif.Model.Py
import Mathlib.Data.Rat.Defs

namespace SurfaceSim

/-- Values inside the dictionary of a logical gate (log_gates/*.py): `None`, a string or a list of
strings. -/
inductive Atom where
  | none
  | str (s : String)
  | strs (l : List String)
  deriving DecidableEq, Repr

/-- Attribute values of the nodes of the graph (layout.py 54-77, log_gates/*.py `set_param`). -/
inductive Val where
  | none
  | int (i : Int)
  | real (q : Rat)
  | str (s : String)
  /-- a list of numbers -/
  | coords (l : List Rat)
  /-- a dictionary from directions to qubit labels or `None` -/
  | nbrs (d : Dict String (Option String))
  /-- the description of a logical gate -/
  | gate (d : Dict String Atom)
  deriving DecidableEq, Repr

/-- One dictionary of `setup["layout"]`: the value at `"qubit"` and the other items. -/
structure QubitInfo where
  qubit : Option String
  attrs : Dict String Val
  deriving DecidableEq, Repr

/-- The argument of `Layout.__init__` (layout.py 54-104); a missing key is `none`. -/
structure LayoutSetup where
  name : Option String
  code : Option String
  logQubits : Option (List String)
  distance : Option Int
  distanceZ : Option Int
  distanceX : Option Int
  logZ : Option (Dict String (List String))
  logX : Option (Dict String (List String))
  description : Option String
  interactionOrder : Option (Dict String (List String))
  layout : Option (List QubitInfo)
  deriving DecidableEq, Repr

/-- The `networkx.DiGraph` of a layout: ordered nodes with attributes, and for each node its
successors with the `direction` of the edge. -/
structure Graph where
  nodes : Dict String (Dict String Val)
  adj : Dict String (Dict String String)
  deriving DecidableEq, Repr

/-- The object state of `Layout` (layout.py 82-101). -/
structure Layout where
  name : String
  code : String
  logQubits : List String
  distance : Int
  distanceZ : Int
  distanceX : Int
  logZ : Dict String (List String)
  logX : Dict String (List String)
  description : Option String
  interactionOrder : Dict String (List String)
  qubitInds : Dict String Int
  graph : Graph
  deriving DecidableEq, Repr

namespace Layout

/-- `qubit_info.get("ind", None)` (layout.py 487). -/
def readInd (attrs : Dict String Val) : Except Err (Option Int) :=
  match attrs.get? "ind" with
  | none => .ok none
  | some .none => .ok none
  | some (.int i) => .ok (some i)
  | some _ => .error .typeError

/-- The loop adding the nodes (layout.py 478-489), on the nodes and indices added so far. -/
def loadNodes : List QubitInfo → Dict String (Dict String Val) → Dict String (Option Int) →
    Except Err (Dict String (Dict String Val) × Dict String (Option Int))
  | [], nodes, inds => .ok (nodes, inds)
  | info :: rest, nodes, inds =>
    match info.qubit with
    | none => .error .valueError
    | some q =>
      if nodes.has q then .error .valueError
      else
        match readInd info.attrs with
        | .error e => .error e
        | .ok i => loadNodes rest (nodes.set q info.attrs) (inds.set q i)

/-- `add_edge` for one neighbour different from `None` (layout.py 499-500). -/
def addEdge (acc : Dict String String) (kv : String × Option String) : Dict String String :=
  match kv.2 with
  | none => acc
  | some q => acc.set q kv.1

/-- The edges out of one node (layout.py 498-500); the last direction given for a neighbour
stays. -/
def outEdges (d : Dict String (Option String)) : Dict String String := d.foldl addEdge []

/-- The iteration adding the edges of one node (layout.py 491-500).  `add_edge` with a label which
is not a node adds that node, after which the iteration over the nodes raises `RuntimeError`. -/
def nodeEdges (nodes : Dict String (Dict String Val)) (node : String × Dict String Val) :
    Except Err (String × Dict String String) :=
  match node.2.get? "neighbors" with
  | none => .error .valueError
  | some .none => .error .valueError
  | some (.nbrs d) =>
    if (outEdges d).keys.all fun q => nodes.has q then .ok (node.1, outEdges d)
    else .error .runtimeError
  | some _ => .error .typeError

/-- The check that an index is not `None` (layout.py 506-507). -/
def someInd (kv : String × Option Int) : Except Err (String × Int) :=
  match kv.2 with
  | none => .error .valueError
  | some i => .ok (kv.1, i)

/-- The indices (layout.py 502-510). -/
def loadInds (qubits : List String) (inds : Dict String (Option Int)) :
    Except Err (Dict String Int) :=
  let inds := if inds.all (fun kv => kv.2.isNone) then
      (qubits.zipIdx).map (fun qi => (qi.1, some (qi.2 : Int))) else inds
  match mapExcept inds someInd with
  | .error e => .error e
  | .ok r => if (r.map Prod.snd).Nodup then .ok r else .error .valueError

/-- `_load_layout` (layout.py 456-512). -/
def loadLayout (layout : Option (List QubitInfo)) : Except Err (Graph × Dict String Int) :=
  match layout with
  | none => .error .valueError
  | some infos =>
    match loadNodes infos [] [] with
    | .error e => .error e
    | .ok (nodes, inds) =>
      match mapExcept nodes (nodeEdges nodes) with
      | .error e => .error e
      | .ok adj =>
        match loadInds nodes.keys inds with
        | .error e => .error e
        | .ok inds => .ok (⟨nodes, adj⟩, inds)

/-- `set(a) == set(b)`. -/
def sameSet (a b : List String) : Bool := a.all (fun x => b.contains x) && b.all (fun x => a.contains x)

/-- `Layout.__init__` (layout.py 54-104); the check that the argument is a dictionary is the type. -/
def init (s : LayoutSetup) : Except Err Layout :=
  let logQubits := s.logQubits.getD []
  let logZ := s.logZ.getD []
  let logX := s.logX.getD []
  if !sameSet logQubits logZ.keys || !sameSet logQubits logX.keys then .error .valueError
  else
    match loadLayout s.layout with
    | .error e => .error e
    | .ok (graph, inds) =>
      .ok
        { name := s.name.getD ""
          code := s.code.getD ""
          logQubits := logQubits
          distance := s.distance.getD (-1)
          distanceZ := s.distanceZ.getD (-1)
          distanceX := s.distanceX.getD (-1)
          logZ := logZ
          logX := logX
          description := s.description
          interactionOrder := s.interactionOrder.getD []
          qubitInds := inds
          graph := graph }

/-- The diagonal directions in the order of layout.py 141-143. -/
def diagonals : List String := ["north_east", "north_west", "south_east", "south_west"]

/-- The dictionary of neighbours written by `to_dict` (layout.py 134-145). -/
def nbrDict (adj : Dict String String) : Dict String (Option String) :=
  let d := adj.foldl (fun acc kv => Dict.set acc kv.2 (some kv.1)) []
  diagonals.foldl (fun acc k => if Dict.has acc k then acc else Dict.set acc k none) d

/-- The dictionary of one qubit written by `to_dict` (layout.py 129-149). -/
def nodeInfo (l : Layout) (node : String × Dict String Val) : QubitInfo :=
  { qubit := some node.1
    attrs := (node.2.erase "qubit").set "neighbors" (.nbrs (nbrDict ((l.graph.adj.get? node.1).getD []))) }

/-- `to_dict` (layout.py 110-154). -/
def toDict (l : Layout) : LayoutSetup :=
  { name := some l.name
    code := some l.code
    logQubits := some l.logQubits
    distance := some l.distance
    distanceZ := some l.distanceZ
    distanceX := some l.distanceX
    logZ := some l.logZ
    logX := some l.logX
    description := l.description
    interactionOrder := some l.interactionOrder
    layout := some (l.graph.nodes.map l.nodeInfo) }

/-- `__copy__` (layout.py 106-108). -/
def copy (l : Layout) : Except Err Layout := init l.toDict

/-- `get_inds` (layout.py 156-168). -/
def getInds (l : Layout) (qubits : List String) : Except Err (List Int) :=
  mapExcept qubits l.qubitInds.getE

/-- `valid_attrs` (layout.py 515-534). -/
def validAttrs (attrs : Dict String Val) : Dict String Val → Except Err Bool
  | [] => .ok true
  | (key, val) :: conds =>
    match attrs.get? key with
    | none => .error .keyError
    | some a => if a = .none ∨ a ≠ val then .ok false else validAttrs attrs conds

/-- `[node for node, attrs in node_view if valid_attrs(attrs, **conds)]` (layout.py 205). -/
def filterNodes (conds : Dict String Val) :
    Dict String (Dict String Val) → Except Err (List String)
  | [] => .ok []
  | (node, attrs) :: rest =>
    match validAttrs attrs conds with
    | .error e => .error e
    | .ok b =>
      match filterNodes conds rest with
      | .error e => .error e
      | .ok r => .ok (if b then node :: r else r)

/-- `get_qubits` (layout.py 182-209). -/
def getQubits (l : Layout) (conds : Dict String Val) : Except Err (List String) :=
  if conds.isEmpty then .ok l.graph.nodes.keys else filterNodes conds l.graph.nodes

/-- Keep the first occurrence of each element (`dict.fromkeys`). -/
def dedup {α : Type} [DecidableEq α] : List α → List α
  | [] => []
  | q :: qs => q :: (dedup qs).filter (· ≠ q)

/-- `graph.out_edges(qubits, data=True)`: nodes of the graph among `qubits`, each once, with their
out-edges (layout.py 243). -/
def outEdgeView (l : Layout) (qubits : List String) : List (String × String × String) :=
  ((dedup qubits).filter fun q => l.graph.nodes.has q).flatMap fun q =>
    ((l.graph.adj.get? q).getD []).map fun kv => (q, kv.1, kv.2)

/-- `get_neighbors(qubits, direction, as_pairs=True)` (layout.py 215-256). -/
def getNeighborPairs (l : Layout) (qubits : List String) (direction : Option String) :
    List (String × String) :=
  (((l.outEdgeView qubits).filter fun e => direction = none ∨ some e.2.2 = direction)).map
    fun e => (e.1, e.2.1)

/-- `get_neighbors(qubits, direction)` (layout.py 215-256). -/
def getNeighbors (l : Layout) (qubits : List String) (direction : Option String) : List String :=
  (l.getNeighborPairs qubits direction).map Prod.snd

/-- `nx.get_node_attributes(graph, "coords")` (layout.py 270, 279). -/
def qubitCoords (l : Layout) : Dict String Val :=
  l.graph.nodes.filterMap fun n => (n.2.get? "coords").map fun c => (n.1, c)

/-- `set(a) > set(b)`. -/
def strictSuperset (a b : List String) : Bool :=
  b.all (fun x => a.contains x) && a.any (fun x => !b.contains x)

/-- A stored coordinate as a list of numbers. -/
def asCoords : Val → Except Err (List Rat)
  | .coords c => .ok c
  | _ => .error .typeError

/-- `all_coords[q]` (layout.py 275). -/
def coordOf (l : Layout) (q : String) : Except Err (List Rat) :=
  match l.qubitCoords.getE q with
  | .error e => .error e
  | .ok v => asCoords v

/-- `get_coords` (layout.py 258-275). -/
def getCoords (l : Layout) (qubits : List String) : Except Err (List (List Rat)) :=
  if strictSuperset qubits l.qubitCoords.keys then .error .valueError
  else mapExcept qubits l.coordOf

/-- `anc_coords` (layout.py 281-285). -/
def ancCoords (l : Layout) : Except Err (Dict String (List Rat)) :=
  match l.getQubits [("role", .str "anc")] with
  | .error e => .error e
  | .ok anc =>
    match l.getCoords anc with
    | .error e => .error e
    | .ok cs => .ok (anc.zip cs)

/-- `adjacency_matrix` (layout.py 287-309), entry `(from, to)`. -/
def adjacency (l : Layout) (q q' : String) : Bool :=
  ((l.graph.adj.get? q).getD []).has q'

/-- `projection_matrix` (layout.py 348-375): the data qubits, the ancillas and the entries. -/
def projection (l : Layout) (stabType : Val) :
    Except Err (List String × List String × List (List Bool)) :=
  match l.getQubits [("role", .str "anc"), ("stab_type", stabType)] with
  | .error e => .error e
  | .ok anc =>
    match l.getQubits [("role", .str "data")] with
    | .error e => .error e
    | .ok data => .ok (data, anc, data.map fun d => anc.map fun a => l.adjacency d a)

/-- `index_coords` (layout.py 537-563). -/
def indexCoords (so : SetOrder) (coords : List Rat) (reverse : Bool) :
    Except Err (List Nat × Nat) :=
  let unique := so.ord (dedup coords)
  let n := unique.length
  let inds := if reverse then (List.range n).reverse else List.range n
  let mapping : Dict Rat Nat := unique.zip inds
  match mapExcept coords mapping.getE with
  | .error e => .error e
  | .ok r => .ok (r, n)

/-- The two entries of a 2D coordinate (`zip(*coords)`, layout.py 327). -/
def pairOf : List Rat → Except Err (Rat × Rat)
  | [r, c] => .ok (r, c)
  | _ => .error .valueError

/-- The row and the column of a node (layout.py 325-327). -/
def gridCoord (n : String × Dict String Val) : Except Err (Rat × Rat) :=
  match n.2.getE "coords" with
  | .error e => .error e
  | .ok v =>
    match asCoords v with
    | .error e => .error e
    | .ok c => pairOf c

/-- `expansion_matrix` (layout.py 311-346): the ancillas with the cell in which each of them has
its `True`, the number of rows and the number of columns.  The role and the coordinates are read
for every node (`data["role"]` raises `KeyError`); for no ancillas `zip(*[])` fails. -/
def expansion (so : SetOrder) (l : Layout) :
    Except Err (List (String × Nat × Nat) × Nat × Nat) :=
  match mapExcept l.graph.nodes (fun n => n.2.getE "role") with
  | .error e => .error e
  | .ok _ =>
    let anc := l.graph.nodes.filter fun n => n.2.get? "role" = some (.str "anc")
    match mapExcept anc gridCoord with
    | .error e => .error e
    | .ok cs =>
      if cs.isEmpty then .error .valueError
      else
        match indexCoords so (cs.map Prod.fst) true with
        | .error e => .error e
        | .ok (rows, nr) =>
          match indexCoords so (cs.map Prod.snd) false with
          | .error e => .error e
          | .ok (cols, nc) => .ok ((anc.map Prod.fst).zip (rows.zip cols), nr, nc)

/-- `param` (layout.py 421-440): `graph.nodes[qubit]` raises `KeyError`. -/
def param (l : Layout) (param qubit : String) : Except Err Val :=
  match l.graph.nodes.get? qubit with
  | none => .error .keyError
  | some attrs => .ok ((attrs.get? param).getD .none)

/-- `set_param` (layout.py 442-454). -/
def setParam (l : Layout) (param qubit : String) (value : Val) : Except Err Layout :=
  match l.graph.nodes.get? qubit with
  | none => .error .keyError
  | some attrs =>
    .ok { l with graph := { l.graph with nodes := l.graph.nodes.set qubit (attrs.set param value) } }

/-- `not set(a).isdisjoint(set(b))`. -/
def meets {α : Type} [DecidableEq α] (a b : List α) : Bool := a.any fun x => b.contains x

/-- `check_overlap_layout_pair` (operations.py 4-38).  The sets are iterated by `get_inds` and
`get_coords`, but their order does not matter for the sets computed. -/
def checkOverlapPair (l₁ l₂ : Layout) : Except Err Unit :=
  let q₁ := l₁.graph.nodes.keys
  let q₂ := l₂.graph.nodes.keys
  if meets q₁ q₂ then .error .valueError
  else
    match l₁.getInds q₁ with
    | .error e => .error e
    | .ok i₁ =>
      match l₂.getInds q₂ with
      | .error e => .error e
      | .ok i₂ =>
        if meets i₁ i₂ then .error .valueError
        else
          match l₁.getCoords q₁ with
          | .error e => .error e
          | .ok c₁ =>
            match l₂.getCoords q₂ with
            | .error e => .error e
            | .ok c₂ =>
              if meets c₁ c₂ then .error .valueError
              else if meets l₁.logQubits l₂.logQubits then .error .valueError
              else .ok ()

/-- The loop of `check_overlap_layouts` (operations.py 56-58). -/
def checkOverlapLoop : List Layout → Except Err Unit
  | [] => .ok ()
  | l :: ls =>
    match mapExcept ls (checkOverlapPair l) with
    | .error e => .error e
    | .ok _ => checkOverlapLoop ls

/-- `check_overlap_layouts` (operations.py 41-60). -/
def checkOverlap (ls : List Layout) : Except Err Unit :=
  if ls.length = 1 then .ok () else checkOverlapLoop ls

end Layout

end SurfaceSim
