/-
Model of `surface_sim/layouts/util.py`.

The queues are lists: `queue.pop()` takes the head, `queue.appendleft(x)` appends at the end.  The set of visited nodes is a
list, used only for membership.  The `while` loops have fuel; running out of it raises `RuntimeError`, which the code never
does (lemmas `coordsLoop_spec`, `chainLoop_spec`).
-/
import Verif.Model.Layout

namespace SurfaceSim.LayoutUtil
open SurfaceSim

/-- `s.split("_")` on the characters (util.py 45): the characters before the first separator, and the other parts. -/
def splitParts : List Char → List Char × List (List Char)
  | [] => ([], [])
  | c :: cs =>
    let r := splitParts cs
    if c = '_' then ([], r.1 :: r.2) else (c :: r.1, r.2)

/-- `ord_dir.split("_")` (util.py 45). -/
def splitDir (s : String) : List String :=
  let r := splitParts s.toList
  (r.1 :: r.2).map String.ofList

/-- `get_shift` (util.py 23-26). -/
def getShift (direction : String) : Rat := if direction = "south" ∨ direction = "west" then -1 else 1

/-- `list(map(sum, zip(coords, shifts)))` (util.py 45-47). -/
def moveBy (coords : List Rat) (ordDir : String) : List Rat :=
  List.zipWith (· + ·) coords ((splitDir ordDir).map getShift)

/-- `layout.graph.nodes[node][key] = value` (util.py 39, 82, 104). -/
def writeAttr (key node : String) (value : Val) : PyM Layout Unit := do
  let l ← PyM.get
  let l' ← PyM.ofExcept (l.setParam key node value)
  PyM.put l'

/-- The successors of a node with the directions of the edges (util.py 42, 85). -/
def succs (l : Layout) (node : String) : Dict String String := (l.graph.adj.get? node).getD []

/-- The loop of `set_coords` (util.py 36-48). -/
def coordsLoop : Nat → List String → List (String × List Rat) → PyM Layout Unit
  | _, _, [] => pure ()
  | 0, _, _ :: _ => PyM.raise .runtimeError
  | fuel + 1, setNodes, (node, coords) :: queue => do
    writeAttr "coords" node (.coords coords)
    let l ← PyM.get
    let setNodes := node :: setNodes
    coordsLoop fuel setNodes
      (queue ++ ((succs l node).filter fun e => e.1 ∉ setNodes).map fun e => (e.1, moveBy coords e.2))

/-- Enough iterations for the loops. -/
def fuel (l : Layout) : Nat := (l.graph.nodes.length + 1) ^ l.graph.nodes.length

/-- `set_coords` (util.py 11-48); `nodes.pop()` takes the last node and raises `IndexError` if there is none. -/
def setCoords (override : Bool) : PyM Layout Unit := do
  let l ← PyM.get
  if !override && !l.qubitCoords.isEmpty then PyM.raise .valueError
  else
    match l.graph.nodes.keys.getLast? with
    | none => PyM.raise .indexError
    | some node => coordsLoop (fuel l) [] [(node, [0, 0])]

/-- The loop of `index_chain` (util.py 79-100); the result is `set_nodes`. -/
def chainLoop : Nat → Nat → List String → List String → PyM Layout (List String)
  | _, _, setNodes, [] => pure setNodes
  | 0, _, _, _ :: _ => PyM.raise .runtimeError
  | fuel + 1, ind, setNodes, node :: queue => do
    writeAttr "chain_ind" node (.int ind)
    let l ← PyM.get
    let setNodes := node :: setNodes
    let neighbors := (succs l node).keys
    if neighbors.length > 2 then PyM.raise .valueError
    else if neighbors.length = 0 then PyM.raise .valueError
    else chainLoop fuel (ind + 1) setNodes (queue ++ neighbors.filter fun n => n ∉ setNodes)

/-- `index_chain` (util.py 51-104). -/
def indexChain (initNode : String) : PyM Layout Unit := do
  let l ← PyM.get
  let nodes := l.graph.nodes.keys
  if initNode ∉ nodes then PyM.raise .valueError
  else
    let setNodes ← chainLoop (fuel l) 0 [] [initNode]
    PyM.forEach nodes fun node => if node ∉ setNodes then writeAttr "chain_ind" node .none else pure ()

end SurfaceSim.LayoutUtil
