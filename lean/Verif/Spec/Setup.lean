/-
Specification of parameter lookup, on the raw setup dictionary (not on the `Setup` object).
-/
import Verif.Model.Setup

namespace SurfaceSim.Spec
open SurfaceSim

/-- The qubits named by an entry of `setup["setup"]` (empty: a global entry). -/
def entryQubits : SetupEntry → List String
  | ⟨.none, _⟩ => []
  | ⟨.qubit q, _⟩ => [q]
  | ⟨.qubits l, _⟩ => l

/-- The last value in a list of dictionaries' key/value pairs wins. -/
def lastValue (kvs : List (String × PVal)) (p : String) : Option PVal :=
  ((kvs.filter fun kv => kv.1 = p).getLast?).map Prod.snd

/-- Value of `p` in the global entries: later entries override earlier ones. -/
def globalValue (es : List SetupEntry) (p : String) : Option PVal :=
  lastValue ((es.filter fun e => entryQubits e = []).flatMap SetupEntry.params) p

/-- Value of `p` in the entry for exactly these qubits (non-empty). -/
def qubitValue (es : List SetupEntry) (p : String) (qs : List String) : Option PVal :=
  if qs = [] then none
  else lastValue ((es.filter fun e => entryQubits e = qs).flatMap SetupEntry.params) p

/-- The error probability of a two-qubit gate falls back to `tq_error_prob`, that of any other operation on single
qubits to `sq_error_prob`; no other parameter has a fallback. -/
def fallback (p : String) : Option String :=
  if p ∈ ["cz", "cnot", "swap"].map (· ++ "_error_prob") then some "tq_error_prob"
  else if p ∈ ["h", "s", "sdag", "x", "z", "reset", "meas", "idle"].map (· ++ "_error_prob") then some "sq_error_prob"
  else none

/-- Resolution order: these qubits, global, global value of the parent parameter. -/
def rawValue (es : List SetupEntry) (p : String) (qs : List String) : Option PVal :=
  match qubitValue es p qs with
  | some v => some v
  | none =>
    match globalValue es p with
    | some v => some v
    | none =>
      match fallback p with
      | some p' => globalValue es p'
      | none => none

/-- Each dictionary of the input has distinct keys (it is a python dict). -/
def EntriesNodup (es : List SetupEntry) : Prop := ∀ e ∈ es, (e.params.map Prod.fst).Nodup

end SurfaceSim.Spec
