/-
Model of the measurement bookkeeping of `surface_sim/models/model.py` (class `Model`).
-/
import Verif.Model.Stim

namespace SurfaceSim

/-- Mutable part of a `Model` object (model.py 12-13): per-qubit lists of absolute measurement
indices and the number of measurements so far. -/
structure MeasState where
  order : Dict String (List Nat)
  num : Nat
  deriving DecidableEq, Repr

namespace MeasState

/-- The state set by `Model.__init__` and `Model.new_circuit` (model.py 12-13, 95-100). -/
def fresh (inds : Dict String Nat) : MeasState := ⟨inds.map fun kv => (kv.1, []), 0⟩

/-- `Model.new_circuit` (model.py 95-100). -/
def newCircuit (inds : Dict String Nat) : PyM MeasState Unit := PyM.put (fresh inds)

/-- `Model.add_meas` (model.py 37-46).  `_meas_order` has the keys of `_qubit_inds`; if it had
not, line 44 would raise `KeyError`. -/
def addMeas (inds : Dict String Nat) (q : String) : PyM MeasState Unit := fun s =>
  if inds.has q then
    match s.order.get? q with
    | none => (.error .keyError, s)
    | some l => (.ok (), ⟨s.order.set q (l ++ [s.num]), s.num + 1⟩)
  else (.error .valueError, s)

/-- `Model.meas_target` (model.py 48-93).  The result is the lookback given to
`stim.target_rec`. -/
def measTarget (s : MeasState) (q : String) (rel : Int) : Except Err Int :=
  match s.order.get? q with
  | none => .error .keyError
  | some l =>
    if rel > l.length ∨ rel < -(l.length : Int) then .error .valueError
    else
      match pyIndex l rel with
      | .error e => .error e
      | .ok a => .ok ((a : Int) - s.num)

end MeasState
end SurfaceSim
