/-
Model of `surface_sim/circuit_blocks/*.py` and of `get_new_stab_dict_from_layout`,
`get_support_from_adj_matrix` (detectors.py 573-659).

A generator of circuits is the list of computations between its `yield`s: asking for the next item
runs the next computation, which may raise.  A python set is the duplicate free list of its elements
in insertion order, and is iterated in an arbitrary order (`SetOrder`).
-/
import Verif.Model.NoiseModels
import Verif.Model.CircuitOps
import Verif.Model.Detectors
import Verif.Model.Layout

namespace SurfaceSim

/-- A method call on the noise model. -/
abbrev Call1 := PyM MeasState Circuit

/-- The circuits yielded by a generator, as suspended computations. -/
abbrev Gen := List Call1

/-- The two mutable objects of an experiment: the model (its record) and the detectors. -/
abbrev Sim (cfg : Detectors.Config) := MeasState × Detectors.State cfg

namespace Blocks
open Layout (dedup)

/-! ### Python pieces -/

/-- `set(l)`. -/
def setOf {α : Type} [DecidableEq α] (l : List α) : List α := dedup l

/-- `a.update(b)` for sets. -/
def union {α : Type} [DecidableEq α] (a b : List α) : List α := a ++ (setOf b).filter (· ∉ a)

/-- `a - b` for sets. -/
def diff {α : Type} [DecidableEq α] (a b : List α) : List α := a.filter (· ∉ b)

/-- `a.intersection(b)` for sets. -/
def inter {α : Type} [DecidableEq α] (a b : List α) : List α := a.filter (· ∈ b)

/-- `a.symmetric_difference_update(b)` for sets. -/
def symmDiff {α : Type} [DecidableEq α] (a b : List α) : List α := diff a b ++ diff b a

/-- `list(chain.from_iterable(pairs))`. -/
def chain (ps : List (String × String)) : List String := ps.flatMap fun p => [p.1, p.2]

/-- `a + b` of two freshly built circuits. -/
def plus (a b : Call1) : Call1 := do
  let x ← a
  let y ← b
  return x.concat y

/-- `model.tick()`. -/
def tick : Call1 := pure NoiseModel.tick

/-- `sum(generator, start=acc)`. -/
def sumFrom (acc : Circuit) : Gen → Call1
  | [] => pure acc
  | b :: g => do
    let c ← b
    sumFrom (acc.concat c) g

/-- `sum(generator, start=Circuit())`. -/
def sumGen (g : Gen) : Call1 := sumFrom [] g

/-- Values computed by a generator before its next `yield`; an exception comes out at the next
item. -/
def withE {α : Type} (e : Except Err α) (f : α → Gen) : Gen :=
  match e with
  | .error err => [PyM.raise err]
  | .ok a => f a

/-- A call on the noise model. -/
def onModel {cfg : Detectors.Config} {α : Type} (m : PyM MeasState α) : PyM (Sim cfg) α := fun s =>
  match m s.1 with
  | (r, s1) => (r, (s1, s.2))

/-- A call on the detectors, which is given `model.meas_target`. -/
def onDets {cfg : Detectors.Config} {α : Type}
    (f : (String → Int → Except Err Int) → PyM (Detectors.State cfg) α) : PyM (Sim cfg) α := fun s =>
  match f s.1.measTarget s.2 with
  | (r, d) => (r, (s.1, d))

/-! ### Queries of the layout -/

/-- `layout.get_qubits(role="data")`. -/
def dataQubits (l : Layout) : Except Err (List String) := l.getQubits [("role", .str "data")]

/-- `layout.get_qubits(role="anc")`. -/
def ancQubits (l : Layout) : Except Err (List String) := l.getQubits [("role", .str "anc")]

/-- `layout.get_qubits(role="anc", stab_type=stab_type)`. -/
def stabQubits (l : Layout) (stabType : String) : Except Err (List String) :=
  l.getQubits [("role", .str "anc"), ("stab_type", .str stabType)]

/-- `"x_type" if rot_basis else "z_type"`. -/
def stabType (rotBasis : Bool) : String := if rotBasis then "x_type" else "z_type"

/-- `int_order[stab_type][k]`. -/
def orderDir (l : Layout) (stabType : String) (k : Nat) : Except Err String :=
  match l.interactionOrder.getE stabType with
  | .error e => .error e
  | .ok dirs => pyIndex dirs k

/-- `layout.get_logical_qubits()[0]`. -/
def firstLogical (l : Layout) : Except Err String := pyIndex l.logQubits 0

/-- The neighbours in the directions `("north_west", "south_east")` used by the xzzx blocks. -/
def diagonalNeighbors (l : Layout) (stabs : List String) : List String :=
  l.getNeighbors stabs (some "north_west") ++ l.getNeighbors stabs (some "south_east")

/-- `get_support_from_adj_matrix(layout.adjacency_matrix(), anc_qubits)` (detectors.py 618-659). -/
def support (l : Layout) (ancs : List String) : Except Err (Dict String (List String)) :=
  match l.getQubits [] with
  | .error e => .error e
  | .ok qubits =>
    if ancs.all fun a => decide (a ∈ qubits) then
      .ok (ancs.foldl (fun acc a => Dict.set acc a (qubits.filter fun q => l.adjacency a q)) [])
    else .error .keyError

/-- `layout.param(label, qubit)` checked against `None` and used as a dictionary. -/
def gateAttrs (l : Layout) (label q : String) : Except Err (Dict String Atom) :=
  match l.param label q with
  | .error e => .error e
  | .ok .none => .error .valueError
  | .ok (.gate d) => .ok d
  | .ok _ => .error .typeError

/-- The value at `"new_stab_gen"`, a list of labels. -/
def newStabOf (d : Dict String Atom) : Except Err (List String) :=
  match d.getE "new_stab_gen" with
  | .error e => .error e
  | .ok (.strs l) => .ok l
  | .ok _ => .error .typeError

/-- The loop of `get_new_stab_dict_from_layout` (detectors.py 605-613). -/
def newStabLoop (l : Layout) (label : String) :
    List String → Dict String (List String) → Except Err (Dict String (List String))
  | [], acc => .ok acc
  | a :: as, acc =>
    match gateAttrs l label a with
    | .error e => .error e
    | .ok d =>
      match newStabOf d with
      | .error e => .error e
      | .ok g => newStabLoop l label as (acc.set a g)

/-- `get_new_stab_dict_from_layout` (detectors.py 573-615). -/
def newStabDict (l : Layout) (label : String) : Except Err (Dict String (List String)) :=
  match ancQubits l with
  | .error e => .error e
  | .ok ancs => newStabLoop l label ancs []

/-- `layout.qubit_coords()` as numbers. -/
def coordDict (l : Layout) : Except Err (Dict String (List Rat)) :=
  mapExcept l.qubitCoords fun kv =>
    match Layout.asCoords kv.2 with
    | .error e => .error e
    | .ok c => .ok (kv.1, c)

/-! ### circuit_blocks/util.py -/

/-- The loop of `qubit_coords` (util.py 17-20). -/
def qubitCoordsLoop (nm : NoiseModel) : List Layout → Circuit → Except Err Circuit
  | [], acc => .ok acc
  | l :: ls, acc =>
    match coordDict l with
    | .error e => .error e
    | .ok d =>
      match NoiseModel.qubitCoords nm.inds d with
      | .error e => .error e
      | .ok c => qubitCoordsLoop nm ls (acc.concat c)

/-- `qubit_coords` (util.py 15-21). -/
def qubitCoords (nm : NoiseModel) (ls : List Layout) : Except Err Circuit := qubitCoordsLoop nm ls []

/-- `log_meas_iterator` (util.py 93-124). -/
def logMeasIter (nm : NoiseModel) (l : Layout) (rotBasis : Bool) : Gen :=
  withE (ancQubits l) fun anc =>
  withE (dataQubits l) fun data =>
  [nm.incomingNoise data, tick]
    ++ (if rotBasis then [plus (nm.hadamard data) (nm.idle anc), tick] else [])
    ++ [plus (nm.measure data) (nm.idle anc), tick]

/-- The check of `anc_detectors` shared by all blocks: default, strict superset (e.g. util.py 56-60). -/
def checkAncDetectors (l : Layout) (ancDetectors : Option (List String)) :
    Except Err (List String) :=
  match ancQubits l with
  | .error e => .error e
  | .ok anc =>
    let sel := ancDetectors.getD anc
    if NoiseModel.strictSuperset sel anc then .error .valueError else .ok sel

/-- The logical operator `log_x`/`log_z` of the first logical qubit (util.py 80-83). -/
def logicalSupport (l : Layout) (rotBasis : Bool) : Except Err (List String) :=
  match firstLogical l with
  | .error e => .error e
  | .ok lab => (if rotBasis then l.logX else l.logZ).getE lab

/-- `circuit.append("OBSERVABLE_INCLUDE", targets, k)` with the last outcomes of `qs`
(util.py 84-85). -/
def observable (k : Nat) (qs : List String) : PyM MeasState Instr := do
  let s ← PyM.get
  let recs ← PyM.ofExcept (mapExcept qs fun q => s.measTarget q (-1))
  PyM.ofExcept (mkInstr .OBSERVABLE_INCLUDE (recs.map Target.record) [.num k])

/-- Detectors and observable after the data measurement (util.py 67-88, 511-530,
rot_surface_code_xzzx_google.py 101-120). -/
def finishMeas {cfg : Detectors.Config} (l : Layout) (rotBasis reset : Bool) (sel : List String)
    (circuit : Circuit) : PyM (Sim cfg) Circuit := do
  let stabs ← PyM.ofExcept (stabQubits l (stabType rotBasis))
  let supp ← PyM.ofExcept (support l stabs)
  let dets ← onDets fun getRec => Detectors.buildFromData getRec supp reset stabs (some sel)
  let log ← PyM.ofExcept (logicalSupport l rotBasis)
  let obs ← onModel (observable 0 log)
  let anc ← PyM.ofExcept (ancQubits l)
  onDets fun _ => Detectors.deactivate anc
  return (circuit.concat dets).append obs

/-- `log_meas` (util.py 24-90). -/
def logMeas {cfg : Detectors.Config} (nm : NoiseModel) (l : Layout) (rotBasis reset : Bool)
    (ancDetectors : Option (List String)) : PyM (Sim cfg) Circuit := do
  let sel ← PyM.ofExcept (checkAncDetectors l ancDetectors)
  let circuit ← onModel (sumGen (logMeasIter nm l rotBasis))
  finishMeas l rotBasis reset sel circuit

/-- `set([q for q, s in data_init.items() if s])` (util.py 176, 702). -/
def excited (dataInit : Dict String Int) : List String :=
  setOf ((dataInit.filter fun kv => kv.2 ≠ 0).map Prod.fst)

/-- Resets and bit flips of an initialization (util.py 169-182, 695-708). -/
def initHead (o : SetOrder) (nm : NoiseModel) (qubits : List String) (dataInit : Dict String Int) :
    Gen :=
  let exc := excited dataInit
  [nm.reset (o.ord qubits), tick,
   plus (if exc.isEmpty then pure [] else nm.xGate (o.ord exc)) (nm.idle (o.ord (diff qubits exc))),
   tick]

/-- `init_qubits_iterator` (util.py 157-187). -/
def initIter (o : SetOrder) (nm : NoiseModel) (l : Layout) (dataInit : Dict String Int)
    (rotBasis : Bool) : Gen :=
  withE (ancQubits l) fun anc =>
  withE (dataQubits l) fun data =>
  initHead o nm (setOf (data ++ anc)) dataInit
    ++ (if rotBasis then [plus (nm.hadamard data) (nm.idle anc), tick] else [])

/-- `detectors.activate_detectors(anc_qubits)` followed by the sum of a generator
(util.py 144-154, 663-672). -/
def activateAndSum {cfg : Detectors.Config} (l : Layout) (g : Gen) : PyM (Sim cfg) Circuit := do
  let anc ← PyM.ofExcept (ancQubits l)
  onDets fun _ => Detectors.activate anc
  onModel (sumGen g)

/-- `init_qubits` (util.py 127-154). -/
def initQubits {cfg : Detectors.Config} (o : SetOrder) (nm : NoiseModel) (l : Layout)
    (dataInit : Dict String Int) (rotBasis : Bool) : PyM (Sim cfg) Circuit :=
  activateAndSum l (initIter o nm l dataInit rotBasis)

/-- `log_x_iterator` (util.py 199-216). -/
def logXIter (o : SetOrder) (nm : NoiseModel) (l : Layout) : Gen :=
  withE (ancQubits l) fun anc =>
  withE (dataQubits l) fun data =>
  withE (logicalSupport l true) fun log =>
  [nm.incomingNoise data, tick,
   plus (nm.xGate log) (nm.idle (o.ord (diff (setOf (anc ++ data)) (setOf log)))), tick]

/-- `log_x` (util.py 190-196). -/
def logX (o : SetOrder) (nm : NoiseModel) (l : Layout) : Call1 := sumGen (logXIter o nm l)

/-- `log_z_iterator` (util.py 228-245). -/
def logZIter (o : SetOrder) (nm : NoiseModel) (l : Layout) : Gen :=
  withE (ancQubits l) fun anc =>
  withE (dataQubits l) fun data =>
  withE (logicalSupport l false) fun log =>
  [nm.incomingNoise data, tick,
   plus (nm.zGate log) (nm.idle (o.ord (diff (setOf (anc ++ data)) (setOf log)))), tick]

/-- `log_z` (util.py 219-225). -/
def logZ (o : SetOrder) (nm : NoiseModel) (l : Layout) : Call1 := sumGen (logZIter o nm l)

/-- `tuple(sorted([a, b]))` (util.py 297, 361). -/
def sortedPair (a b : String) : String × String := if b < a then (b, a) else (a, b)

/-- `s.add(x)` for a set. -/
def add {α : Type} [DecidableEq α] (s : List α) (x : α) : List α := if x ∈ s then s else s ++ [x]

/-- The partner stored under `key`, if it is not `None`. -/
def partner (d : Dict String Atom) (key : String) : Except Err (Option String) :=
  match d.getE key with
  | .error e => .error e
  | .ok .none => .ok none
  | .ok (.str q) => .ok (some q)
  | .ok (.strs _) => .error .typeError

/-- The loop collecting the gates of `log_trans_s`/`log_trans_h` (util.py 283-301, 350-365): pairs at
`key`, and the qubits with local gate `g1` and `g2`. -/
def transLoop (l : Layout) (label key g1 g2 : String) :
    List String → List (String × String) → List String → List String →
    Except Err (List (String × String) × List String × List String)
  | [], ps, a, b => .ok (ps, a, b)
  | d :: ds, ps, a, b =>
    match gateAttrs l label d with
    | .error e => .error e
    | .ok attrs =>
      match partner attrs key with
      | .error e => .error e
      | .ok p =>
        let ps := match p with
          | none => ps
          | some q => add ps (sortedPair d q)
        match attrs.getE "local" with
        | .error e => .error e
        | .ok g =>
          if g = .str g1 then transLoop l label key g1 g2 ds ps (add a d) b
          else if g = .str g2 then transLoop l label key g1 g2 ds ps a (add b d)
          else transLoop l label key g1 g2 ds ps a b

/-- `log_trans_s_iterator` (util.py 265-320). -/
def transSIter (o : SetOrder) (nm : NoiseModel) (l : Layout) : Gen :=
  if l.code ≠ "rotated_surface_code" ∧ l.code ≠ "unrotated_surface_code" then
    [PyM.raise .typeError]
  else
    withE (dataQubits l) fun data =>
    withE (l.getQubits []) fun all =>
    withE (firstLogical l) fun lab =>
    withE (transLoop l ("trans-s_" ++ lab) "cz" "S" "S_DAG" data [] [] []) fun r =>
    let qubits := setOf all
    let int := chain (o.ord r.1)
    [nm.incomingNoise data, tick,
     plus (plus (nm.sGate (o.ord r.2.1)) (nm.sDagGate (o.ord r.2.2)))
       (nm.idle (o.ord (diff (diff qubits r.2.1) r.2.2))), tick,
     plus (nm.cphase int) (nm.idle (o.ord (diff qubits (setOf int)))), tick]

/-- `log_trans_s` (util.py 248-262). -/
def transS {cfg : Detectors.Config} (o : SetOrder) (nm : NoiseModel) (l : Layout) :
    PyM (Sim cfg) Circuit := do
  let lab ← PyM.ofExcept (firstLogical l)
  let d ← PyM.ofExcept (newStabDict l ("trans-s_" ++ lab))
  onDets fun _ => Detectors.updateFromDict d
  onModel (sumGen (transSIter o nm l))

/-- `log_trans_h_iterator` (util.py 336-380); there is one kind of local gate. -/
def transHIter (o : SetOrder) (nm : NoiseModel) (l : Layout) : Gen :=
  if l.code ≠ "unrotated_surface_code" then [PyM.raise .typeError]
  else
    withE (dataQubits l) fun data =>
    withE (l.getQubits []) fun all =>
    withE (firstLogical l) fun lab =>
    withE (transLoop l ("trans-h_" ++ lab) "swap" "H" "H" data [] [] []) fun r =>
    let qubits := setOf all
    let int := chain (o.ord r.1)
    [nm.incomingNoise data, tick,
     plus (nm.hadamard (o.ord r.2.1)) (nm.idle (o.ord (diff qubits r.2.1))), tick,
     plus (nm.swap int) (nm.idle (o.ord (diff qubits (setOf int)))), tick]

/-- `log_trans_h` (util.py 323-333). -/
def transH {cfg : Detectors.Config} (o : SetOrder) (nm : NoiseModel) (l : Layout) :
    PyM (Sim cfg) Circuit := do
  let lab ← PyM.ofExcept (firstLogical l)
  let d ← PyM.ofExcept (newStabDict l ("trans-h_" ++ lab))
  onDets fun _ => Detectors.updateFromDict d
  onModel (sumGen (transHIter o nm l))

/-- The gate label of a transversal CNOT (util.py 399). -/
def cnotLabel (lc lt : Layout) : Except Err String :=
  match firstLogical lc with
  | .error e => .error e
  | .ok a =>
    match firstLogical lt with
    | .error e => .error e
    | .ok b => .ok ("trans-cnot_" ++ a ++ "_" ++ b)

/-- The loop collecting the CNOT pairs (util.py 440-449).  A partner that is not a label would make
`model.cnot` raise `KeyError`; here it raises `TypeError`. -/
def cnotLoop (l : Layout) (label : String) :
    List String → List (String × String) → Except Err (List (String × String))
  | [], ps => .ok ps
  | d :: ds, ps =>
    match gateAttrs l label d with
    | .error e => .error e
    | .ok attrs =>
      match partner attrs "cnot" with
      | .error e => .error e
      | .ok none => .error .typeError
      | .ok (some q) => cnotLoop l label ds (add ps (d, q))

/-- `log_trans_cnot_iterator` (util.py 409-460). -/
def transCnotIter (o : SetOrder) (nm : NoiseModel) (lc lt : Layout) : Gen :=
  if lc.code ≠ "rotated_surface_code" ∧ lc.code ≠ "unrotated_surface_code" then
    [PyM.raise .typeError]
  else if lt.code ≠ "rotated_surface_code" ∧ lt.code ≠ "unrotated_surface_code" then
    [PyM.raise .typeError]
  else
    withE (dataQubits lc) fun dataC =>
    withE (dataQubits lt) fun dataT =>
    withE (lc.getQubits []) fun allC =>
    withE (lt.getQubits []) fun allT =>
    withE (cnotLabel lc lt) fun label =>
    withE (cnotLoop lc label dataC []) fun ps =>
    let int := chain (o.ord ps)
    [plus (nm.incomingNoise dataC) (nm.incomingNoise dataT), tick,
     plus (nm.cnot int) (nm.idle (o.ord (diff (setOf (allC ++ allT)) (setOf int)))), tick]

/-- `log_trans_cnot` (util.py 383-406). -/
def transCnot {cfg : Detectors.Config} (o : SetOrder) (nm : NoiseModel) (lc lt : Layout) :
    PyM (Sim cfg) Circuit := do
  let label ← PyM.ofExcept (cnotLabel lc lt)
  let dc ← PyM.ofExcept (newStabDict lc label)
  let dt ← PyM.ofExcept (newStabDict lt label)
  onDets fun _ => Detectors.updateFromDict (dc.update dt)
  onModel (sumGen (transCnotIter o nm lc lt))

/-- `log_meas_xzzx_iterator` (util.py 535-575). -/
def logMeasXzzxIter (o : SetOrder) (nm : NoiseModel) (l : Layout) (rotBasis : Bool) : Gen :=
  withE (ancQubits l) fun anc =>
  withE (dataQubits l) fun data =>
  withE (stabQubits l (stabType rotBasis)) fun stabs =>
  let rot := setOf (diagonalNeighbors l stabs)
  [nm.incomingNoise data, tick,
   plus (nm.hadamard (o.ord rot)) (nm.idle (o.ord (diff (setOf (data ++ anc)) rot))), tick,
   plus (nm.measure data) (nm.idle anc), tick]

/-- `log_meas_xzzx` (util.py 463-532). -/
def logMeasXzzx {cfg : Detectors.Config} (o : SetOrder) (nm : NoiseModel) (l : Layout)
    (rotBasis reset : Bool) (ancDetectors : Option (List String)) : PyM (Sim cfg) Circuit := do
  if l.code ≠ "rotated_surface_code" then PyM.raise .typeError
  else
    let sel ← PyM.ofExcept (checkAncDetectors l ancDetectors)
    let circuit ← onModel (sumGen (logMeasXzzxIter o nm l rotBasis))
    finishMeas l rotBasis reset sel circuit

/-- The qubits that are rotated in the xzzx logical gates (util.py 602-605, 637-640). -/
def xzzxRot (l : Layout) : Except Err (List String) :=
  match stabQubits l "z_type" with
  | .error e => .error e
  | .ok stabs => .ok (diagonalNeighbors l stabs)

/-- `log_x_xzzx_iterator` (util.py 587-610).  The layout query inside the second block is done at the
beginning: it raises only if a query before does. -/
def logXXzzxIter (o : SetOrder) (nm : NoiseModel) (l : Layout) : Gen :=
  withE (ancQubits l) fun anc =>
  withE (dataQubits l) fun data =>
  withE (logicalSupport l true) fun log =>
  withE (xzzxRot l) fun rot =>
  let pz := setOf (log.filter (· ∈ rot))
  let px := diff (setOf log) pz
  [nm.incomingNoise data, tick,
   plus (plus (nm.xGate (o.ord px)) (nm.zGate (o.ord pz))) (nm.idle anc), tick]

/-- `log_x_xzzx` (util.py 578-584). -/
def logXXzzx (o : SetOrder) (nm : NoiseModel) (l : Layout) : Call1 := sumGen (logXXzzxIter o nm l)

/-- `log_z_xzzx_iterator` (util.py 622-645), with the same remark. -/
def logZXzzxIter (o : SetOrder) (nm : NoiseModel) (l : Layout) : Gen :=
  withE (ancQubits l) fun anc =>
  withE (dataQubits l) fun data =>
  withE (logicalSupport l false) fun log =>
  withE (xzzxRot l) fun rot =>
  let px := setOf (log.filter (· ∈ rot))
  let pz := diff (setOf log) px
  [nm.incomingNoise data, tick,
   plus (plus (nm.xGate (o.ord px)) (nm.zGate (o.ord pz))) (nm.idle anc), tick]

/-- `log_z_xzzx` (util.py 613-619). -/
def logZXzzx (o : SetOrder) (nm : NoiseModel) (l : Layout) : Call1 := sumGen (logZXzzxIter o nm l)

/-- `init_qubits_xzzx_iterator` (util.py 675-718). -/
def initXzzxIter (o : SetOrder) (nm : NoiseModel) (l : Layout) (dataInit : Dict String Int)
    (rotBasis : Bool) : Gen :=
  if l.code ≠ "rotated_surface_code" then [PyM.raise .typeError]
  else
    withE (ancQubits l) fun anc =>
    withE (dataQubits l) fun data =>
    let qubits := setOf (data ++ anc)
    initHead o nm qubits dataInit ++
      withE (stabQubits l (stabType rotBasis)) fun stabs =>
      let rot := setOf (diagonalNeighbors l stabs)
      [plus (nm.hadamard (o.ord rot)) (nm.idle (o.ord (diff qubits rot))), tick]

/-- `init_qubits_xzzx` (util.py 648-672). -/
def initQubitsXzzx {cfg : Detectors.Config} (o : SetOrder) (nm : NoiseModel) (l : Layout)
    (dataInit : Dict String Int) (rotBasis : Bool) : PyM (Sim cfg) Circuit :=
  activateAndSum l (initXzzxIter o nm l dataInit rotBasis)

/-! ### QEC rounds -/

/-- A layer of Hadamards on a set, the other qubits idle. -/
def rotLayer (o : SetOrder) (nm : NoiseModel) (qubits rot : List String) : Call1 :=
  plus (nm.hadamard (o.ord rot)) (nm.idle (o.ord (diff qubits rot)))

/-- The loop over the stabilizer types in one CZ layer (rot_surface_code_css.py 146-153), starting from
the given circuit; returns the circuit and the qubits that interact. -/
def czLoop (nm : NoiseModel) (l : Layout) (k : Nat) :
    List String → Circuit → List String → PyM MeasState (Circuit × List String)
  | [], c, acc => pure (c, acc)
  | st :: sts, c, acc => do
    let stabs ← PyM.ofExcept (stabQubits l st)
    let dir ← PyM.ofExcept (orderDir l st k)
    let int := chain (l.getNeighborPairs stabs (some dir))
    let cz ← nm.cphase int
    czLoop nm l k sts (c.concat cz) (union acc int)

/-- One CZ layer (rot_surface_code_css.py 143-157): the `k`-th direction of every stabilizer type, the
other qubits idle. -/
def czLayer (o : SetOrder) (nm : NoiseModel) (l : Layout) (qubits : List String) (k : Nat) :
    Call1 := do
  let r ← czLoop nm l k l.interactionOrder.keys [] []
  let i ← nm.idle (o.ord (diff qubits r.2))
  return r.1.concat i

/-- `rot_qubits` of steps a and h (rot_surface_code_css.py 133-136). -/
def rotSet (l : Layout) (anc xStabs : List String) : Except Err (List String) :=
  match orderDir l "x_type" 0 with
  | .error e => .error e
  | .ok d0 =>
    match orderDir l "x_type" 3 with
    | .error e => .error e
    | .ok d3 =>
      .ok (union (union (setOf anc) (l.getNeighbors xStabs (some d0)))
        (l.getNeighbors xStabs (some d3)))

/-- Steps a and h of the CSS round (rot_surface_code_css.py 132-140, 213-221). -/
def cssRot (o : SetOrder) (nm : NoiseModel) (l : Layout) (qubits anc xStabs : List String) :
    Call1 := do
  let rot ← PyM.ofExcept (rotSet l anc xStabs)
  rotLayer o nm qubits rot

/-- Start of every QEC round: incoming noise and resets (rot_surface_code_css.py 125-131). -/
def roundHead (nm : NoiseModel) (data anc : List String) (reset : Bool) : Gen :=
  [nm.incomingNoise data, tick]
    ++ (if reset then [plus (nm.reset anc) (nm.idle data), tick] else [])

/-- `qec_round_iterator` of rot_surface_code_css.py 88-227 and unrot_surface_code_css.py 90-229, which
differ in the name of the code. -/
def cssIter (code : String) (o : SetOrder) (nm : NoiseModel) (l : Layout) (reset : Bool) : Gen :=
  if l.code ≠ code then [PyM.raise .typeError]
  else
    withE (dataQubits l) fun data =>
    withE (ancQubits l) fun anc =>
    withE (stabQubits l "x_type") fun xStabs =>
    let qubits := setOf (data ++ anc)
    roundHead nm data anc reset ++
      [cssRot o nm l qubits anc xStabs, tick,
       czLayer o nm l qubits 0, tick,
       plus (nm.hadamard data) (nm.idle anc), tick,
       czLayer o nm l qubits 1, tick,
       czLayer o nm l qubits 2, tick,
       plus (nm.hadamard data) (nm.idle anc), tick,
       czLayer o nm l qubits 3, tick,
       cssRot o nm l qubits anc xStabs, tick,
       plus (nm.measure anc) (nm.idle data), tick]

/-- One CZ layer of a pipelined round (rot_surface_code_css_pipelined.py 138-147). -/
def pipeCz (o : SetOrder) (nm : NoiseModel) (l : Layout) (qubits stabs : List String)
    (dir : String) : Call1 :=
  let int := chain (l.getNeighborPairs stabs (some dir))
  plus (nm.cphase int) (nm.idle (o.ord (diff qubits (setOf int))))

/-- The body of the loop over stabilizer types in the pipelined rounds
(rot_surface_code_css_pipelined.py 127-153, rot_surface_code_xzzx_pipelined.py 120-149); `rotOf` gives the
set of rotated qubits. -/
def pipeBody (o : SetOrder) (nm : NoiseModel) (l : Layout) (qubits : List String)
    (rotOf : String → List String → List String) (i : Nat) (st : String) : Gen :=
  withE (stabQubits l st) fun stabs =>
  let rot := rotOf st stabs
  (if i = 0 then [rotLayer o nm qubits rot, tick] else []) ++
    (withE (l.interactionOrder.getE st) fun dirs =>
      (dirs.flatMap fun dir => [pipeCz o nm l qubits stabs dir, tick]) ++
        [if i = 0 then nm.hadamard (o.ord qubits) else rotLayer o nm qubits rot, tick])

/-- A pipelined round: all stabilizers of one type after the other.  A raising block ends the
generator, so what the list has after it is never run. -/
def pipeIter (o : SetOrder) (nm : NoiseModel) (l : Layout) (reset : Bool)
    (rotOf : List String → String → List String → List String) : Gen :=
  if l.code ≠ "rotated_surface_code" then [PyM.raise .typeError]
  else
    withE (dataQubits l) fun data =>
    withE (ancQubits l) fun anc =>
    let qubits := setOf (data ++ anc)
    roundHead nm data anc reset
      ++ (l.interactionOrder.keys.zipIdx.flatMap fun sti =>
          pipeBody o nm l qubits (rotOf data) sti.2 sti.1)
      ++ [plus (nm.measure anc) (nm.idle data), tick]

/-- Rotated qubits of the CSS pipelined round (rot_surface_code_css_pipelined.py 129-131). -/
def cssPipeRot (data : List String) (st : String) (stabs : List String) : List String :=
  if st = "x_type" then union (setOf stabs) data else setOf stabs

/-- `qec_round_iterator` of rot_surface_code_css_pipelined.py 88-156. -/
def cssPipeIter (o : SetOrder) (nm : NoiseModel) (l : Layout) (reset : Bool) : Gen :=
  pipeIter o nm l reset cssPipeRot

/-- Rotated qubits of the XZZX pipelined round (rot_surface_code_xzzx_pipelined.py 123-126). -/
def xzzxPipeRot (l : Layout) (_data : List String) (_st : String) (stabs : List String) :
    List String :=
  union (setOf stabs) (diagonalNeighbors l stabs)

/-- `qec_round_iterator` of rot_surface_code_xzzx_pipelined.py 82-152. -/
def xzzxPipeIter (o : SetOrder) (nm : NoiseModel) (l : Layout) (reset : Bool) : Gen :=
  pipeIter o nm l reset (xzzxPipeRot l)

/-- Steps a and h of the XZZX round (rot_surface_code_xzzx.py 125-139, 213-227). -/
def xzzxRotLayer (o : SetOrder) (nm : NoiseModel) (l : Layout) (qubits anc xStabs : List String) :
    Call1 := do
  let rot ← PyM.ofExcept (rotSet l anc xStabs)
  let zStabs ← PyM.ofExcept (stabQubits l "z_type")
  rotLayer o nm qubits (symmDiff rot (setOf (diagonalNeighbors l zStabs)))

/-- Step g of the XZZX round (rot_surface_code_xzzx.py 198-211).  Line 199 assigns `cz_circit`, so the
gates are added to the circuit of step e.  That circuit is computed again here, which is the same for
all models of the library because `cphase` does not change the record. -/
def xzzxStepG (o : SetOrder) (nm : NoiseModel) (l : Layout) (qubits : List String) : Call1 := do
  let e ← czLoop nm l 2 l.interactionOrder.keys [] []
  let r ← czLoop nm l 3 l.interactionOrder.keys e.1 []
  let i ← nm.idle (o.ord (diff qubits r.2))
  return r.1.concat i

/-- `qec_round_iterator` of rot_surface_code_xzzx.py 81-232; `stepG` is the block of step g. -/
def xzzxIterWith (stepG : List String → Call1) (o : SetOrder) (nm : NoiseModel) (l : Layout)
    (reset : Bool) : Gen :=
  if l.code ≠ "rotated_surface_code" then [PyM.raise .typeError]
  else
    withE (dataQubits l) fun data =>
    withE (ancQubits l) fun anc =>
    withE (stabQubits l "x_type") fun xStabs =>
    let qubits := setOf (data ++ anc)
    roundHead nm data anc reset ++
      [xzzxRotLayer o nm l qubits anc xStabs, tick,
       czLayer o nm l qubits 0, tick,
       plus (nm.hadamard data) (nm.idle anc), tick,
       czLayer o nm l qubits 1, tick,
       czLayer o nm l qubits 2, tick,
       plus (nm.hadamard data) (nm.idle anc), tick,
       stepG qubits, tick,
       xzzxRotLayer o nm l qubits anc xStabs, tick,
       plus (nm.measure anc) (nm.idle data), tick]

/-- `qec_round_iterator` of rot_surface_code_xzzx.py 81-232, as it is. -/
def xzzxIter (o : SetOrder) (nm : NoiseModel) (l : Layout) (reset : Bool) : Gen :=
  xzzxIterWith (xzzxStepG o nm l) o nm l reset

/-- The same round with the variable of line 199 spelled `cz_circuit`.  This is not in the
repository; it is used to state what the round is meant to do. -/
def xzzxFixedIter (o : SetOrder) (nm : NoiseModel) (l : Layout) (reset : Bool) : Gen :=
  xzzxIterWith (fun qubits => czLayer o nm l qubits 3) o nm l reset

/-- `qec_round` of the CSS, pipelined and XZZX modules (rot_surface_code_css.py 36-85). -/
def qecRound {cfg : Detectors.Config} (iter : Gen) (l : Layout) (reset : Bool)
    (ancDetectors : Option (List String)) : PyM (Sim cfg) Circuit := do
  let circuit ← onModel (sumGen iter)
  let sel ← PyM.ofExcept (checkAncDetectors l ancDetectors)
  let dets ← onDets fun getRec => Detectors.buildFromAnc getRec reset (some sel)
  return circuit.concat dets

/-! ### rot_surface_code_xzzx_google.py -/

/-- CZ gates on a list of pairs, the other qubits idle, as two additions
(rot_surface_code_xzzx_google.py 152-158). -/
def googleCz (o : SetOrder) (nm : NoiseModel) (qubits : List String) (ps : List (String × String)) :
    Gen :=
  [nm.cphase (chain ps), nm.idle (o.ord (diff qubits (setOf (chain ps)))), tick]

/-- `coherent_qec_part` (rot_surface_code_xzzx_google.py 125-214), the circuits that are added up. -/
def googleCoherent (o : SetOrder) (nm : NoiseModel) (l : Layout) : Gen :=
  withE (dataQubits l) fun data =>
  withE (stabQubits l "x_type") fun x =>
  withE (stabQubits l "z_type") fun z =>
  let anc := x ++ z
  let qubits := setOf (data ++ anc)
  [nm.incomingNoise data, tick,
   nm.hadamard (o.ord (setOf anc)), nm.xGate (o.ord (setOf data)), tick]
  ++ googleCz o nm qubits (l.getNeighborPairs anc (some "north_east"))
  ++ [nm.hadamard (o.ord (setOf data)), nm.xGate (o.ord (setOf anc)), tick]
  ++ googleCz o nm qubits
      (l.getNeighborPairs x (some "north_west") ++ l.getNeighborPairs z (some "south_east"))
  ++ [nm.xGate (o.ord qubits), tick]
  ++ googleCz o nm qubits
      (l.getNeighborPairs x (some "south_east") ++ l.getNeighborPairs z (some "north_west"))
  ++ [nm.hadamard (o.ord (setOf data)), nm.xGate (o.ord (setOf anc)), tick]
  ++ googleCz o nm qubits (l.getNeighborPairs anc (some "south_west"))

/-- The circuits added up by `qec_round` of the Google module before the detectors
(rot_surface_code_xzzx_google.py 239-266). -/
def googleIter (o : SetOrder) (nm : NoiseModel) (l : Layout) : Gen :=
  withE (dataQubits l) fun data =>
  withE (ancQubits l) fun anc =>
  googleCoherent o nm l ++
    [nm.hadamard (o.ord (setOf anc)), nm.xGate data, tick,
     nm.measure anc, nm.idle data, tick,
     nm.reset anc, nm.idle data, tick]

/-- `qec_round` of the Google module (rot_surface_code_xzzx_google.py 217-274). -/
def googleRound {cfg : Detectors.Config} (o : SetOrder) (nm : NoiseModel) (l : Layout)
    (ancDetectors : Option (List String)) : PyM (Sim cfg) Circuit := do
  if l.code ≠ "rotated_surface_code" then PyM.raise .typeError
  else
    let circuit ← onModel (sumGen (googleIter o nm l))
    let dets ← onDets fun getRec => Detectors.buildFromAnc getRec true ancDetectors
    return circuit.concat dets

/-- The circuits added up by `qec_round_with_log_meas` before the detectors
(rot_surface_code_xzzx_google.py 68-93). -/
def googleFinalIter (o : SetOrder) (nm : NoiseModel) (l : Layout) (rotBasis : Bool) : Gen :=
  withE (ancQubits l) fun anc =>
  withE (dataQubits l) fun data =>
  googleCoherent o nm l ++
    withE (stabQubits l (stabType rotBasis)) fun stabs =>
    let rot := union (setOf anc) (diagonalNeighbors l stabs)
    [nm.hadamard (o.ord rot), nm.idle (o.ord (diff (setOf (data ++ anc)) rot)), tick,
     nm.measure anc, nm.measure data]

/-- `qec_round_with_log_meas` (rot_surface_code_xzzx_google.py 31-122). -/
def googleFinal {cfg : Detectors.Config} (o : SetOrder) (nm : NoiseModel) (l : Layout)
    (ancDetectors : Option (List String)) (rotBasis : Bool) : PyM (Sim cfg) Circuit := do
  if l.code ≠ "rotated_surface_code" then PyM.raise .typeError
  else
    let sel ← PyM.ofExcept (checkAncDetectors l ancDetectors)
    let circuit ← onModel (sumGen (googleFinalIter o nm l rotBasis))
    let dets ← onDets fun getRec => Detectors.buildFromAnc getRec true (some sel)
    finishMeas l rotBasis true sel (circuit.concat dets)

end Blocks
end SurfaceSim
