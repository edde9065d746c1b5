/-
Model of `surface_sim/setup/setup.py` and `surface_sim/setup/library.py`.
-/
import Verif.Model.Py
import Mathlib.Data.Rat.Defs
import Mathlib.Algebra.Order.Ring.Rat

namespace SurfaceSim

/-- Values of setup parameters: numbers, booleans, strings (possibly the name of a variable
parameter). -/
inductive PVal where
  | num (q : Rat)
  | flag (b : Bool)
  | str (s : String)
  deriving DecidableEq, Repr

/-- Which qubits an entry of `setup["setup"]` refers to: the `"qubit"` key, the `"qubits"` key or
neither (setup.py 52-58; an entry with both keys is not modelled). -/
inductive QKey where
  | none
  | qubit (q : String)
  | qubits (l : List String)
  deriving DecidableEq, Repr

/-- One dictionary of the list `setup["setup"]`. -/
structure SetupEntry where
  key : QKey
  params : Dict String PVal
  deriving DecidableEq, Repr

/-- The argument of `Setup.__init__` (setup.py 23-44). -/
structure SetupDict where
  name : Option String
  description : Option String
  gateDurations : Dict String Rat
  /-- `setup.get("setup")` -/
  setup : Option (List SetupEntry)
  deriving DecidableEq, Repr

/-- The object state of `Setup` (setup.py 35-43). -/
structure Setup where
  name : Option String
  description : Option String
  gateDurations : Dict String Rat
  qubitParams : Dict (List String) (Dict String PVal)
  globalParams : Dict String PVal
  varParams : Dict String (Option PVal)
  deriving DecidableEq, Repr

namespace Setup

/-- `Setup.PARENTS` (setup.py 9-21). -/
def parents : Dict String String :=
  [("cz_error_prob", "tq_error_prob"),
   ("cnot_error_prob", "tq_error_prob"),
   ("swap_error_prob", "tq_error_prob"),
   ("h_error_prob", "sq_error_prob"),
   ("s_error_prob", "sq_error_prob"),
   ("sdag_error_prob", "sq_error_prob"),
   ("x_error_prob", "sq_error_prob"),
   ("z_error_prob", "sq_error_prob"),
   ("reset_error_prob", "sq_error_prob"),
   ("meas_error_prob", "sq_error_prob"),
   ("idle_error_prob", "sq_error_prob")]

/-- The tuple computed in setup.py 52-58; the empty tuple stands for `None`/`()`, which
`if qubits:` (line 60) treats alike. -/
def QKey.tuple : QKey → List String
  | .none => []
  | .qubit q => [q]
  | .qubits l => l

/-- The loop registering variable parameters (setup.py 67-69).  Note the membership test is on
the parameter name, not on its value. -/
def registerVars (vars : Dict String (Option PVal)) :
    Dict String PVal → Dict String (Option PVal)
  | [] => vars
  | (p, .str v) :: ps =>
      if vars.has p then registerVars vars ps else registerVars (vars.set v none) ps
  | (_, .num _) :: ps => registerVars vars ps
  | (_, .flag _) :: ps => registerVars vars ps

/-- One iteration of the loop of `_load_setup` (setup.py 51-69). -/
def loadEntry (s : Setup) (e : SetupEntry) : Except Err Setup :=
  if QKey.tuple e.key ≠ [] then
    if s.qubitParams.has (QKey.tuple e.key) then .error .valueError
    else .ok { s with
      qubitParams := s.qubitParams.set (QKey.tuple e.key) e.params
      varParams := registerVars s.varParams e.params }
  else .ok { s with
      globalParams := s.globalParams.update e.params
      varParams := registerVars s.varParams e.params }

/-- The loop of `_load_setup`. -/
def loadEntries (s : Setup) : List SetupEntry → Except Err Setup
  | [] => .ok s
  | e :: es =>
    match loadEntry s e with
    | .error err => .error err
    | .ok s' => loadEntries s' es

/-- `Setup.__init__` with `_load_setup` (setup.py 23-69). -/
def init (d : SetupDict) : Except Err Setup :=
  match d.setup with
  | none => .error .valueError
  | some [] => .error .valueError
  | some (e :: es) =>
    loadEntries
      { name := d.name, description := d.description, gateDurations := d.gateDurations,
        qubitParams := [], globalParams := [], varParams := [] } (e :: es)

/-- `Setup.free_params` (setup.py 71-74). -/
def freeParams (s : Setup) : List String :=
  s.varParams.filterMap fun kv => if kv.2 = none then some kv.1 else none

/-- The key written by `to_dict` for a qubit tuple (setup.py 109-113): tuples of three or more
qubits get no key. -/
def keyOf : List String → QKey
  | [q] => .qubit q
  | [p, q] => .qubits [p, q]
  | _ => .none

/-- `Setup.to_dict` (setup.py 95-118). -/
def toDict (s : Setup) : SetupDict where
  name := s.name
  description := s.description
  gateDurations := s.gateDurations
  setup := some <|
    (if s.globalParams = [] then [] else [⟨.none, s.globalParams⟩]) ++
      s.qubitParams.map fun kv => ⟨keyOf kv.1, kv.2⟩

/-- `Setup.var_param` (setup.py 135-153); parents have no parents, so one level is enough. -/
def varParam (s : Setup) (v : String) : Except Err PVal :=
  match s.varParams.get? v with
  | some (some q) => .ok q
  | _ =>
    match parents.get? v with
    | some p =>
      match s.varParams.get? p with
      | some (some q) => .ok q
      | _ => .error .valueError
    | none => .error .valueError

/-- `Setup.set_var_param` (setup.py 155-170).  The type of the value is not checked by the code, so
any parameter value is allowed; setting `None` is not modelled. -/
def setVarParam (s : Setup) (v : String) (q : PVal) : Setup :=
  { s with varParams := s.varParams.set v (some q) }

/-- `Setup.set_param` (setup.py 172-199). -/
def setParam (s : Setup) (p : String) (v : PVal) (qubits : List String) : Except Err Setup :=
  if qubits = [] then .ok { s with globalParams := s.globalParams.set p v }
  else
    match s.qubitParams.get? qubits with
    | none => .error .keyError
    | some d => .ok { s with qubitParams := s.qubitParams.set qubits (d.set p v) }

/-- `Setup._eval_param_val` (setup.py 236-244). -/
def evalParamVal (s : Setup) (v : PVal) : Except Err PVal :=
  match v with
  | .str n =>
    match s.varParams.get? n with
    | none => .ok (.str n)
    | some none => .error .valueError
    | some (some w) => .ok w
  | v => .ok v

/-- `Setup.param` without the fall back to the parent (setup.py 221-226). -/
def paramOwn (s : Setup) (p : String) (qubits : List String) : Option (Except Err PVal) :=
  match (s.qubitParams.get? qubits).bind (fun d => d.get? p) with
  | some v => some (s.evalParamVal v)
  | none =>
    match s.globalParams.get? p with
    | some v => some (s.evalParamVal v)
    | none => none

/-- `Setup.param` (setup.py 201-234).  The recursive call drops the qubits (line 229); parents
have no parents (lemma `parents_depth_one`), so the recursion is unfolded once. -/
def param (s : Setup) (p : String) (qubits : List String) : Except Err PVal :=
  match s.paramOwn p qubits with
  | some r => r
  | none =>
    match parents.get? p with
    | some p' =>
      match s.paramOwn p' [] with
      | some r => r
      | none => .error .keyError
    | none => .error .keyError

/-- `Setup.gate_duration` (setup.py 246-261). -/
def gateDuration (s : Setup) (name : String) : Except Err Rat :=
  match s.gateDurations.get? name with
  | some q => .ok q
  | none => .error .valueError

/-- `CircuitNoiseSetup.__init__` (setup/library.py 4-27). -/
def circuitNoiseSetupDict : SetupDict where
  name := some "Circuit-level noise setup"
  description := some "Setup for a circuit-level noise model that can be used for any distance."
  gateDurations := []
  setup := some [⟨.none,
    [("sq_error_prob", .str "prob"), ("tq_error_prob", .str "prob"),
     ("meas_error_prob", .str "prob"), ("reset_error_prob", .str "prob"),
     ("idle_error_prob", .str "prob"), ("assign_error_flag", .flag true),
     ("assign_error_prob", .str "prob")]⟩]

end Setup

/-- A parameter used as a number by stim (`True` counts as 1, a string is a `TypeError`). -/
def PVal.toNum : PVal → Except Err Rat
  | .num q => .ok q
  | .flag b => .ok (if b then 1 else 0)
  | .str _ => .error .typeError

/-- Truth value of a parameter (`if self.param("assign_error_flag", qubit)`). -/
def PVal.truthy : PVal → Bool
  | .num q => q ≠ 0
  | .flag b => b
  | .str s => s ≠ ""

end SurfaceSim
