/-
Specification vocabulary for detectors: values of detectors, histories of API calls.
-/
import Verif.Model.Detectors
import Verif.Spec.Frame

namespace SurfaceSim.Spec
open SurfaceSim Detectors

/-- Value of a detector: XOR of the record entries it names. -/
def detValue (v : Int → ZMod 2) (i : Instr) : ZMod 2 := (i.recs.map v).sum

/-- `getRec` is a correct lookup: the `k`-th last measurement of `q` is found, for `k = 1..N`, and has
outcome `m q k`. -/
def Resolves (getRec : String → Int → Except Err Int) (v : Int → ZMod 2) (m : String → Nat → ZMod 2)
    (q : String) (N : Nat) : Prop :=
  ∀ k, 1 ≤ k → k ≤ N → ∃ j, getRec q (-(k : Int)) = .ok j ∧ v j = m q k

/-- The syndrome bit that a round contributes to the outcome of an ancilla, `back` rounds ago, if `nr`
rounds have been measured: without reset the outcome also contains the previous one (and the ancilla
starts in 0). -/
def syndrome (reset : Bool) (nr : Nat) (m : String → Nat → ZMod 2) (a : String) (back : Nat) : ZMod 2 :=
  if reset then m a (back + 1)
  else m a (back + 1) + (if back + 2 ≤ nr then m a (back + 2) else 0)

/-- Calls of the public API of a `Detectors` object. -/
inductive Call (cfg : Config) where
  | newCircuit
  | activate (l : List String)
  | deactivate (l : List String)
  | update (rows : List (Fin cfg.n)) (U : cfg.Mat Int)
  | updateFromDict (d : Dict String (List String))
  | buildFromAnc (getRec : String → Int → Except Err Int) (reset : Bool) (l : Option (List String))
  | buildFromData (getRec : String → Int → Except Err Int) (support : Dict String (List String))
      (reset : Bool) (stabs : List String) (l : Option (List String))

variable {cfg : Config}

/-- Effect of a call: did it return, and the object afterwards (also if it raised). -/
def Call.exec (s : State cfg) : Call cfg → Bool × State cfg
  | .newCircuit => let r := Detectors.newCircuit cfg s; (r.1.isOk, r.2)
  | .activate l => let r := Detectors.activate l s; (r.1.isOk, r.2)
  | .deactivate l => let r := Detectors.deactivate l s; (r.1.isOk, r.2)
  | .update rows U => let r := Detectors.update rows U s; (r.1.isOk, r.2)
  | .updateFromDict d => let r := Detectors.updateFromDict d s; (r.1.isOk, r.2)
  | .buildFromAnc g r l => let r := Detectors.buildFromAnc g r l s; (r.1.isOk, r.2)
  | .buildFromData g sup r st l => let r := Detectors.buildFromData g sup r st l s; (r.1.isOk, r.2)

/-- xarray coordinates without repeated labels (the only restriction on the arguments). -/
def Call.Valid : Call cfg → Prop
  | .update rows _ => rows.Nodup
  | _ => True

/-- The object after a history of calls on a new object; exceptions are caught by the caller. -/
def afterHistory (h : List (Call cfg)) : State cfg :=
  h.foldl (fun s c => (c.exec s).2) (State.fresh cfg)

end SurfaceSim.Spec

namespace SurfaceSim.Spec
open SurfaceSim Detectors
variable {cfg : Config}

/-- A generator matrix mod 2. -/
def mod2 (M : cfg.Mat Int) : cfg.Mat (ZMod 2) := M.map Int.cast

/-- A usable `Detectors` object: pairwise different labels, each with coordinates. -/
def ConfigOk (cfg : Config) : Prop := cfg.anc.Nodup ∧ ∀ a ∈ cfg.anc, a ∈ cfg.coords.keys

/-- The ancillas selected by the argument `anc_qubits`. -/
def Selects (cfg : Config) (ancs : Option (List String)) (a : String) : Prop :=
  match ancs with
  | none => True
  | some l => a ∈ l

end SurfaceSim.Spec

namespace SurfaceSim.Spec
open SurfaceSim Detectors
variable {cfg : Config}

/-- Every call of the history returned without exception. -/
def AllReturned (hist : List (Call cfg)) : Prop :=
  ∀ p c q, hist = p ++ c :: q → (c.exec (afterHistory p)).1 = true

/-- Number of `build_from_anc` calls since the last `new_circuit`. -/
def roundCount (hist : List (Call cfg)) : Nat :=
  hist.foldl (fun n c => match c with
    | .newCircuit => 0
    | .buildFromAnc .. => n + 1
    | _ => n) 0

/-- Is the ancilla active, and how many rounds have been built since it was activated? -/
def ancTrack (a : String) (hist : List (Call cfg)) : Bool × Nat :=
  hist.foldl (fun t c => match c with
    | .newCircuit => (false, 0)
    | .activate l => if a ∈ l then (true, 0) else t
    | .deactivate l => if a ∈ l then (false, t.2) else t
    | .buildFromAnc .. => if t.1 then (true, t.2 + 1) else t
    | _ => t) (false, 0)

/-- The call does not declare a logical gate. -/
def Call.NoGate : Call cfg → Prop
  | .update .. => False
  | .updateFromDict .. => False
  | _ => True

/-- A matrix given to `update` lists its rows in the order of the labels. -/
def Call.InOrder : Call cfg → Prop
  | .update rows _ => rows = List.finRange cfg.n
  | _ => True

/-! ### rounds with gates -/

/-- Product of the gates applied between two rounds (the last one on the left). -/
def gateProd (gs : List (cfg.Mat Int)) : cfg.Mat Int := gs.foldl (fun M U => U * M) 1

/-- Product of all gates up to the round `r`, as a matrix of bits. -/
def genAt (gates : Nat → List (cfg.Mat Int)) : Nat → cfg.Mat Int
  | 0 => (gateProd (gates 0)).map (· % 2)
  | r + 1 => (gateProd (gates (r + 1)) * genAt gates r).map (· % 2)

/-- Declares gates one after the other. -/
def declare (gs : List (cfg.Mat Int)) (s : State cfg) : State cfg :=
  gs.foldl (fun s U => ((Call.update (List.finRange cfg.n) U).exec s).2) s

/-- A circuit of QEC rounds: all ancillas are activated, then, for every round `r`, the gates `gates r`
are declared and the detectors of the round are built.  State before the detectors of round `r`. -/
def beforeRound (gates : Nat → List (cfg.Mat Int)) (getRec : Nat → String → Int → Except Err Int)
    (reset : Bool) (ancs : Nat → Option (List String)) : Nat → State cfg
  | 0 => declare (gates 0) (afterHistory [Call.activate cfg.anc])
  | r + 1 => declare (gates (r + 1))
      ((Call.buildFromAnc (getRec r) reset (ancs r)).exec (beforeRound gates getRec reset ancs r)).2

/-- Noiseless outcome of an ancilla in round `r`: the syndrome bit, XORed with the previous outcome if
the ancillas are not reset. -/
def outcome (reset : Bool) (syn : Nat → Fin cfg.n → ZMod 2) (i : Fin cfg.n) : Nat → ZMod 2
  | 0 => syn 0 i
  | r + 1 => if reset then syn (r + 1) i else syn (r + 1) i + outcome reset syn i r

/-- In round `r` the lookup `getRec r` finds the last (up to three) outcomes of every ancilla. -/
def FindsOutcomes (getRec : Nat → String → Int → Except Err Int) (v : Nat → Int → ZMod 2)
    (reset : Bool) (syn : Nat → Fin cfg.n → ZMod 2) : Prop :=
  ∀ (r : Nat) (i : Fin cfg.n) (k : Nat), 1 ≤ k → k ≤ 3 → k ≤ r + 1 →
    ∃ j, getRec r (cfg.label i) (-(k : Int)) = .ok j ∧ v r j = outcome reset syn i (r + 1 - k)

/-- A gate `update` accepts: bits, invertible mod 2. -/
def GateOk (U : cfg.Mat Int) : Prop := (∀ a b, U a b = 0 ∨ U a b = 1) ∧ (mod2 U).det ≠ 0

end SurfaceSim.Spec

namespace SurfaceSim.Spec
open SurfaceSim Detectors
variable {cfg : Config}

/-- No generator outside `l` depends on ancillas in `l`, or no generator in `l` depends on ancillas
outside `l`. -/
def Decoupled (l : List String) (M : cfg.Mat Int) : Prop :=
  (∀ i j, cfg.label i ∈ l → cfg.label j ∉ l → M i j = 0) ∨
  (∀ i j, cfg.label i ∉ l → cfg.label j ∈ l → M i j = 0)

/-- A deactivation in state `s` that returns and only concerns ancillas that are decoupled from the
others; all other calls are admitted. -/
def Call.CleanDeactivation (s : State cfg) : Call cfg → Prop
  | .deactivate l => ((Call.deactivate l).exec s).1 = true ∧ Decoupled l s.curr ∧ Decoupled l s.prev
  | _ => True

end SurfaceSim.Spec

namespace SurfaceSim.Spec
open SurfaceSim Detectors
variable {cfg : Config}

/-- `A` is an integer multiple `V * B` of `B` and the entries of `V` are 0 or odd (so that the positions
of the non-zero entries of the real quotient are those of the quotient mod 2). -/
def CleanQuotient (A B : cfg.Mat Int) : Prop :=
  ∃ V : cfg.Mat Int, V * B = A ∧ ∀ a b, V a b = 0 ∨ Odd (V a b)

/-- The quotient of the generators of rounds `r` and `r + 1` used in the frame. -/
def FrameQuotient (f : Frame) (gPrev gCurr : cfg.Mat Int) : Prop :=
  match f with
  | .preGate => CleanQuotient gCurr gPrev
  | _ => CleanQuotient gPrev gCurr

/-- The syndromes evolve as declared. -/
def SyndromesFollow (gates : Nat → List (cfg.Mat Int)) (syn : Nat → Fin cfg.n → ZMod 2) : Prop :=
  ∀ r, syn (r + 1) = (mod2 (gateProd (gates (r + 1)))).mulVec (syn r)

end SurfaceSim.Spec
