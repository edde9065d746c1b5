/-
Model of `surface_sim/detectors/detectors.py`.

Generator matrices are square integer matrices indexed by the positions of the ancilla labels;
`np.linalg.inv` is the exact rational inverse (the floating-point rounding of numpy is not modelled).
Ancilla labels are assumed to be pairwise different (xarray selections by repeated labels are not
modelled).  Type checks of the arguments are not modelled: the arguments have the annotated types.
-/
import Verif.Model.NoiseModels
import Mathlib.LinearAlgebra.Matrix.Adjugate
import Mathlib.Data.ZMod.Basic

namespace SurfaceSim
namespace Detectors

/-- `remove_pairs` (detectors.py 662-668). -/
def removePairs {α : Type} [DecidableEq α] (l : List α) : List α :=
  l.filter fun e => l.count e % 2 = 1

/-- The admitted values of `frame` (detectors.py 53). -/
inductive Frame where
  | preGate
  | postGate
  | gateIndependent
  deriving DecidableEq, Repr

/-- Check of `frame` (detectors.py 53-57). -/
def Frame.parse : String → Except Err Frame
  | "pre-gate" => .ok .preGate
  | "post-gate" => .ok .postGate
  | "gate-independent" => .ok .gateIndependent
  | _ => .error .valueError

/-- Immutable attributes of a `Detectors` object (detectors.py 71-73). -/
structure Config where
  anc : List String
  frame : Frame
  coords : Dict String (List Rat)

/-- `set(a) == set(b)`. -/
def sameSet (a b : List String) : Bool :=
  a.all (fun x => decide (x ∈ b)) && b.all (fun x => decide (x ∈ a))

/-- `Detectors.__init__` up to `new_circuit` (detectors.py 16-73). -/
def Config.make (anc : List String) (frame : String) (coords : Option (Dict String (List Rat))) :
    Except Err Config :=
  match Frame.parse frame with
  | .error e => .error e
  | .ok f =>
    let coords := coords.getD (anc.map fun a => (a, []))
    if !sameSet coords.keys anc then .error .valueError
    else
      match coords with
      | [] => .error .valueError
      | (_, c) :: rest =>
        if rest.any fun kv => kv.2.length ≠ c.length then .error .valueError
        else .ok ⟨anc, f, coords⟩

/-- Number of ancillas. -/
abbrev Config.n (cfg : Config) : Nat := cfg.anc.length

/-- Square matrices with one row and column per ancilla. -/
abbrev Config.Mat (cfg : Config) (R : Type) : Type := Matrix (Fin cfg.n) (Fin cfg.n) R

/-- Label of the `i`-th ancilla. -/
def Config.label (cfg : Config) (i : Fin cfg.n) : String := cfg.anc.get i

/-- Position of a label (`anc_qubit_labels.index`, xarray label lookup); `KeyError` if unknown. -/
def Config.idx (cfg : Config) (a : String) : Except Err (Fin cfg.n) :=
  match cfg.anc.finIdxOf? a with
  | some i => .ok i
  | none => .error .keyError

/-- Mutable attributes (detectors.py 91-96).  `order` is the order of the rows of `curr_gen`, the
order in which detectors are emitted. -/
structure State (cfg : Config) where
  prev : cfg.Mat Int
  curr : cfg.Mat Int
  order : List (Fin cfg.n)
  active : Dict String Bool
  rounds : Dict String Nat
  total : Nat

variable {cfg : Config}

/-- State set by `new_circuit` (detectors.py 83-96). -/
def State.fresh (cfg : Config) : State cfg where
  prev := 1
  curr := 1
  order := List.finRange cfg.n
  active := cfg.anc.map fun a => (a, false)
  rounds := cfg.anc.map fun a => (a, 0)
  total := 0

/-- `Detectors.new_circuit` (detectors.py 79-98). -/
def newCircuit (cfg : Config) : PyM (State cfg) Unit := PyM.put (State.fresh cfg)

/-- Loop body of `activate_detectors` (detectors.py 111-116). -/
def activateOne (a : String) : PyM (State cfg) Unit := fun s =>
  match s.active.get? a with
  | none => (.error .keyError, s)
  | some true => (.error .valueError, s)
  | some false => (.ok (), { s with active := s.active.set a true, rounds := s.rounds.set a 0 })

/-- `Detectors.activate_detectors` (detectors.py 100-118). -/
def activate (ancs : List String) : PyM (State cfg) Unit := fun s =>
  if NoiseModel.strictSuperset ancs s.active.keys then (.error .valueError, s)
  else PyM.forEach ancs activateOne s

/-- Lines 139-149: row and column `i` become those of the identity. -/
def isolate (M : cfg.Mat Int) (i : Fin cfg.n) : cfg.Mat Int := fun a b =>
  if a = i ∧ b = i then 1 else if a = i ∨ b = i then 0 else M a b

/-- Loop body of `deactivate_detectors` (detectors.py 131-149). -/
def deactivateOne (a : String) : PyM (State cfg) Unit := fun s =>
  match s.active.get? a with
  | none => (.error .keyError, s)
  | some false => (.error .valueError, s)
  | some true =>
    let s' := { s with active := s.active.set a false }
    match cfg.idx a with
    | .error e => (.error e, s')
    | .ok i => (.ok (), { s' with curr := isolate s.curr i, prev := isolate s.prev i })

/-- `Detectors.deactivate_detectors` (detectors.py 120-151). -/
def deactivate (ancs : List String) : PyM (State cfg) Unit := fun s =>
  if NoiseModel.strictSuperset ancs s.active.keys then (.error .valueError, s)
  else PyM.forEach ancs deactivateOne s

/-- `Detectors.update` (detectors.py 204-260).  `U a b` is the entry `(new_stab_gen=a, stab_gen=b)`
and `rows` the order of the `new_stab_gen` coordinate.  Raises if the coordinates are not the ancilla
labels, if an entry is not a bit (`GF2(...)`, line 253) or if the matrix is singular mod 2. -/
def update (rows : List (Fin cfg.n)) (U : cfg.Mat Int) : PyM (State cfg) Unit := fun s =>
  if (List.finRange cfg.n).any fun i => decide (i ∉ rows) then (.error .valueError, s)
  else if (List.finRange cfg.n).any fun a => (List.finRange cfg.n).any fun b =>
      decide (U a b ≠ 0 ∧ U a b ≠ 1) then (.error .valueError, s)
  else if (U.map (Int.cast : Int → ZMod 2)).det = 0 then (.error .valueError, s)
  else (.ok (), { s with curr := (U * s.curr).map (· % 2), order := rows })

/-- Inner loop of `update_from_dict` (detectors.py 194-195). -/
def setOnes (i : Fin cfg.n) : List String → cfg.Mat Int → Except Err (cfg.Mat Int)
  | [], U => .ok U
  | o :: olds, U =>
    match cfg.idx o with
    | .error e => .error e
    | .ok j => setOnes i olds (fun a b => if a = i ∧ b = j then 1 else U a b)

/-- Loop of `update_from_dict` (detectors.py 191-195). -/
def dictMatrix : Dict String (List String) → cfg.Mat Int → Except Err (cfg.Mat Int)
  | [], U => .ok U
  | (new, olds) :: d, U =>
    match cfg.idx new with
    | .error e => .error e
    | .ok i =>
      match setOnes i olds (fun a b => if a = i ∧ b = i then 0 else U a b) with
      | .error e => .error e
      | .ok U' => dictMatrix d U'

/-- `Detectors.update_from_dict` (detectors.py 153-202). -/
def updateFromDict (d : Dict String (List String)) : PyM (State cfg) Unit := fun s =>
  if NoiseModel.strictSuperset d.keys cfg.anc then (.error .valueError, s)
  else
    match dictMatrix d (1 : cfg.Mat Int) with
    | .error e => (.error e, s)
    | .ok U => update (List.finRange cfg.n) U s

/-- `A @ np.linalg.inv(B)` over the rationals; `LinAlgError` (a `ValueError`) if `B` is singular. -/
def mulInv (A B : cfg.Mat Int) : Except Err (cfg.Mat Rat) :=
  let A' := A.map (Int.cast : Int → Rat)
  let B' := B.map (Int.cast : Int → Rat)
  if B'.det = 0 then .error .valueError else .ok (A' * (B'.det⁻¹ • B'.adjugate))

/-- Measurements XORed in a detector: `(ancilla, relative index)`. -/
abbrev MeasTerm := String × Int

/-- `np.where(row)[0]` translated to labels with the given relative index. -/
def nonzero (order : List (Fin cfg.n)) (row : Fin cfg.n → Rat) (rel : Int) : List MeasTerm :=
  (order.filter fun j => decide (row j ≠ 0)).map fun j => (cfg.label j, rel)

/-- Targets for one ancilla (detectors.py 555-568). -/
def ancTargets (order : List (Fin cfg.n)) (c p : Fin cfg.n → Rat) (nr : Nat)
    (resetCurr resetPrev : Bool) : List MeasTerm :=
  nonzero order c (-1)
    ++ (if 2 ≤ nr then nonzero order p (-2) else [])
    ++ (if !resetCurr ∧ 2 ≤ nr then nonzero order c (-2) else [])
    ++ (if !resetPrev ∧ 3 ≤ nr then nonzero order p (-3) else [])

/-- `num_rounds[anc]`. -/
def nrOf (rounds : Dict String Nat) (a : String) : Nat := (rounds.get? a).getD 0

/-- `_get_ancilla_meas_for_detectors` (detectors.py 507-570).  The matrices are multiplied in the order
of the labels instead of the order of the rows of `curr_gen`, which gives the same entries. -/
def ancMeasForDetectors (curr prev basis : cfg.Mat Int) (order : List (Fin cfg.n))
    (rounds : Dict String Nat) (resetCurr resetPrev : Bool) :
    Except Err (List (Fin cfg.n × List MeasTerm)) :=
  match mulInv curr basis with
  | .error e => .error e
  | .ok c =>
    match mulInv prev basis with
    | .error e => .error e
    | .ok p =>
      .ok (order.map fun i =>
        (i, ancTargets order (c i) (p i) (nrOf rounds (cfg.label i)) resetCurr resetPrev))

/-- Lines 304-306 / 426-428: the selected active ancillas; `KeyError` for an unknown label. -/
def selected (s : State cfg) (ancs : Option (List String)) : Except Err (List String) :=
  let l := ancs.getD (s.order.map cfg.label)
  match mapExcept l fun a => s.active.getE a with
  | .error e => .error e
  | .ok flags => .ok ((l.zip flags).filterMap fun p => if p.2 then some p.1 else none)

/-- `{anc: num_rounds[anc] + 1 if active else num_rounds[anc]}` (lines 309-312, 434-437). -/
def bumped (s : State cfg) : Dict String Nat :=
  s.active.map fun kv => (kv.1, if kv.2 then nrOf s.rounds kv.1 + 1 else nrOf s.rounds kv.1)

/-- Loop that turns targets into `DETECTOR` instructions (lines 335-349 / 485-499). -/
def emit (getRec : String → Int → Except Err Int) (sel : List String) (time : Rat) :
    List (Fin cfg.n × List MeasTerm) → Except Err Circuit
  | [] => .ok []
  | (i, targets) :: rest =>
    let anc := cfg.label i
    let recs : Except Err (List Int) :=
      if anc ∈ sel then mapExcept (removePairs targets) fun t => getRec t.1 t.2 else .ok []
    match recs with
    | .error e => .error e
    | .ok recs =>
      match cfg.coords.getE anc with
      | .error e => .error e
      | .ok coords =>
        match mkInstr .DETECTOR (recs.map Target.record) ((coords ++ [time]).map Arg.num) with
        | .error e => .error e
        | .ok instr =>
          match emit getRec sel time rest with
          | .error e => .error e
          | .ok c => .ok (instr :: c)

/-- Targets of the gate-independent frame (lines 326-332). -/
def gateIndepAnc (rounds : Dict String Nat) (reset : Bool) (a : String) : List MeasTerm :=
  let comp : Int := if reset then -2 else -3
  [(a, -1)] ++ (if 0 ≤ comp + (nrOf rounds a : Int) then [(a, comp)] else [])

/-- Terms of all detectors of a round (detectors.py 297-302, 316-332). -/
def ancDets (s : State cfg) (rounds : Dict String Nat) (reset : Bool) :
    Except Err (List (Fin cfg.n × List MeasTerm)) :=
  match cfg.frame with
  | .postGate => ancMeasForDetectors s.curr s.prev s.curr s.order rounds reset reset
  | .preGate => ancMeasForDetectors s.curr s.prev s.prev s.order rounds reset reset
  | .gateIndependent =>
      .ok ((List.finRange cfg.n).map fun i => (i, gateIndepAnc rounds reset (cfg.label i)))

/-- `Detectors.build_from_anc` (detectors.py 262-354). -/
def buildFromAnc (getRec : String → Int → Except Err Int) (reset : Bool) (ancs : Option (List String)) :
    PyM (State cfg) Circuit := fun s =>
  match selected s ancs with
  | .error e => (.error e, s)
  | .ok sel =>
    let s1 := { s with total := s.total + 1, rounds := bumped s }
    match ancDets s s1.rounds reset with
    | .error e => (.error e, s1)
    | .ok dets =>
      match emit getRec sel ((s1.total : Rat) - 1) dets with
      | .error e => (.error e, s1)
      | .ok c => (.ok c, { s1 with prev := s.curr })

/-- Targets of the gate-independent frame for data measurements (lines 452-458). -/
def gateIndepData (rounds : Dict String Nat) (reset : Bool) (a : String) : List MeasTerm :=
  [(a, -1)] ++ (if 1 < nrOf rounds a then [(a, -2)] else [])
    ++ (if !reset ∧ 2 < nrOf rounds a then [(a, -3)] else [])

/-- Terms of all detectors of a logical measurement, as if the ancillas had been measured
(detectors.py 419-424, 441-458). -/
def dataDets (s : State cfg) (fake : Dict String Nat) (reset : Bool) :
    Except Err (List (Fin cfg.n × List MeasTerm)) :=
  match cfg.frame with
  | .gateIndependent =>
      .ok ((List.finRange cfg.n).map fun i => (i, gateIndepData fake reset (cfg.label i)))
  | _ => ancMeasForDetectors s.curr s.prev s.curr s.order fake true reset

/-- Lines 467-479: `(anc, -1)` becomes the data qubits of the support, other indices move by one. -/
def toData (support : Dict String (List String)) : List MeasTerm → Except Err (List MeasTerm)
  | [] => .ok []
  | (a, rel) :: l =>
    let new : Except Err (List MeasTerm) :=
      if rel ≠ -1 then .ok [(a, rel + 1)]
      else
        match support.getE a with
        | .error e => .error e
        | .ok qs => .ok (qs.map fun q => (q, -1))
    match new with
    | .error e => .error e
    | .ok new =>
      match toData support l with
      | .error e => .error e
      | .ok r => .ok (new ++ r)

/-- Lines 467-479 for one ancilla. -/
def toDataDet (support : Dict String (List String)) (d : Fin cfg.n × List MeasTerm) :
    Except Err (Fin cfg.n × List MeasTerm) :=
  match toData support d.2 with
  | .error e => .error e
  | .ok t => .ok (d.1, t)

/-- `set(a) < set(b)`: strict subset. -/
def strictSubset (a b : List String) : Bool := NoiseModel.strictSuperset b a

/-- `Detectors.build_from_data` (detectors.py 356-504). -/
def buildFromData (getRec : String → Int → Except Err Int) (support : Dict String (List String))
    (reset : Bool) (reconstructable : List String) (ancs : Option (List String)) :
    PyM (State cfg) Circuit := fun s =>
  if strictSubset support.keys reconstructable then (.error .valueError, s)
  else
    match selected s ancs with
    | .error e => (.error e, s)
    | .ok sel =>
      let fake := bumped s
      match dataDets s fake reset with
      | .error e => (.error e, s)
      | .ok dets =>
        let dets := dets.filter fun d => decide (cfg.label d.1 ∈ reconstructable)
        match mapExcept dets (toDataDet support) with
        | .error e => (.error e, s)
        | .ok dets =>
          match emit getRec sel ((s.total : Rat) - 1/2) dets with
          | .error e => (.error e, s)
          | .ok c => (.ok c, { s with prev := s.curr })

end Detectors
end SurfaceSim
