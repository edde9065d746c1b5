/-
C42: orientation of the gates in `repeated_cnot_experiment`.
-/
import Verif.Lemmas.Witness
import Verif.Model.Experiments

namespace SurfaceSim.Props
open Spec NoiseModel Blocks Experiments

variable {cfg : Detectors.Config}

/-- A sequence of CNOT gates between two layouts, each followed by `rounds` rounds of both layouts (control first).
`pairs` lists control and target of the gates. -/
def cnotSequence (o : SetOrder) (nm : NoiseModel) (round : List Layout → PyM (Sim cfg) Circuit) (rounds : Nat)
    (pairs : List (Layout × Layout)) (e : Circuit) : PyM (Sim cfg) Circuit :=
  pairs.foldlM (fun e ct => gateAndRounds (transCnot o nm ct.1 ct.2) rounds (round [ct.1, ct.2]) e) e

/-- Control and target of a gate, exchanged if `swapped`. -/
def oriented (ct : Layout × Layout) (swapped : Bool) : Layout × Layout := if swapped then (ct.2, ct.1) else ct

/-- Whether the code exchanges control and target for the gate number `k`: no, yes, yes, no, no, yes, yes, ... -/
def codeSwaps (k : Nat) : Bool := ((k + 1) / 2) % 2 = 1

theorem oriented_step (ct : Layout × Layout) (k : Nat) :
    (if k % 2 = 1 then ((oriented ct (decide ((k / 2) % 2 = 1))).2, (oriented ct (decide ((k / 2) % 2 = 1))).1)
      else oriented ct (decide ((k / 2) % 2 = 1))) = oriented ct (codeSwaps k) := by
  unfold codeSwaps oriented
  by_cases h : k % 2 = 1
  · have e : (k + 1) / 2 = k / 2 + 1 := by omega
    rw [if_pos h, e]
    by_cases h2 : (k / 2) % 2 = 1
    · have : ¬ (k / 2 + 1) % 2 = 1 := by omega
      simp [h2, this]
    · have : (k / 2 + 1) % 2 = 1 := by omega
      simp [h2, this]
  · have e : (k + 1) / 2 = k / 2 := by omega
    rw [if_neg h, e]

theorem pyM_bind_assoc {σ α β γ : Type} (m : PyM σ α) (f : α → PyM σ β) (g : β → PyM σ γ) :
    (m >>= f) >>= g = m >>= fun a => f a >>= g := by
  funext s
  simp only [bind, PyM.bind]
  cases m s with
  | mk r s' => cases r <;> rfl

theorem pyM_bind_pure {σ α : Type} (m : PyM σ α) : (m >>= fun a => pure a) = m := by
  funext s
  simp only [bind, PyM.bind, pure, PyM.pure]
  cases m s with
  | mk r s' => cases r <;> rfl

theorem cnotLoop_alternating (o : SetOrder) (nm : NoiseModel) (round : List Layout → PyM (Sim cfg) Circuit)
    (rounds : Nat) (ct : Layout × Layout) (n k : Nat) (e : Circuit) :
    Experiments.cnotLoop o nm round true rounds k n (oriented ct (decide ((k / 2) % 2 = 1))) e =
      (do let e ← cnotSequence o nm round rounds ((List.range' k n).map fun j => oriented ct (codeSwaps j)) e
          pure (e, oriented ct (decide (((k + n) / 2) % 2 = 1)))) := by
  induction n generalizing k e with
  | zero => rfl
  | succ n ih =>
    rw [List.range'_succ, List.map_cons, cnotSequence, List.foldlM_cons, pyM_bind_assoc]
    unfold Experiments.cnotLoop
    simp only [true_and]
    rw [oriented_step ct k]
    congr 1
    funext e1
    have := ih (k + 1) e1
    rw [show (decide ((k + 1) / 2 % 2 = 1)) = codeSwaps k from rfl] at this
    rw [this, show k + (n + 1) = k + 1 + n by omega]
    rfl

theorem cnotLoop_constant (o : SetOrder) (nm : NoiseModel) (round : List Layout → PyM (Sim cfg) Circuit)
    (rounds : Nat) (ct : Layout × Layout) (n k : Nat) (e : Circuit) :
    Experiments.cnotLoop o nm round false rounds k n ct e =
      (do let e ← cnotSequence o nm round rounds (List.replicate n ct) e
          pure (e, ct)) := by
  induction n generalizing k e with
  | zero => rfl
  | succ n ih =>
    rw [List.replicate_succ, cnotSequence, List.foldlM_cons, pyM_bind_assoc]
    unfold Experiments.cnotLoop
    simp only [Bool.false_eq_true, false_and, if_false]
    congr 1
    funext e1
    rw [ih (k + 1) e1]
    rfl

/-- The experiment with the given gates: preparation and first round, the gates with their rounds, measurement of the
layouts in the order of `final`. -/
def cnotExperiment (iter : Layout → Bool → Gen) (o : SetOrder) (nm : NoiseModel)
    (lc lt : Layout) (numRounds : Int) (dataInit : Dict String Int) (rotBasis reset : Bool)
    (ancDetectors : Option (List String)) (gauge : Bool) (pairs : List (Layout × Layout)) (final : Layout × Layout) :
    PyM (Sim cfg) Circuit := do
  if numRounds < 0 then PyM.raise .valueError
  else
    let sel ← PyM.ofExcept (ancDefault [lc, lt] ancDetectors)
    let qc ← PyM.ofExcept (lc.getQubits [])
    let qt ← PyM.ofExcept (lt.getQubits [])
    let e ← start nm [lc, lt]
    let ic ← initQubits o nm lc (dataInit.filter fun kv => kv.1 ∈ qc) rotBasis
    let it ← initQubits o nm lt (dataInit.filter fun kv => kv.1 ∈ qt) rotBasis
    let m ← PyM.ofExcept (CircuitOps.mergeCircuits [ic, it] true)
    let first ← PyM.ofExcept (firstSel o [lc, lt] rotBasis sel gauge)
    let e ← addTo (e.concat m) (mergeQecRounds iter [lc, lt] reset (some first))
    let e ← cnotSequence o nm (fun ls => mergeQecRounds iter ls reset (some sel)) numRounds.toNat pairs e
    addTo e (mergeLogMeas (fun l b => logMeasIter nm l b) [final.1, final.2] [rotBasis, rotBasis] reset (some sel))

/-- **C42** With the orientation "constant" all gates have the same control and target. -/
theorem C42_constant (iter : Layout → Bool → Gen) (o : SetOrder) (nm : NoiseModel) (lc lt : Layout) (n : Nat)
    (numRounds : Int) (dataInit : Dict String Int) (rotBasis reset : Bool) (ancDetectors : Option (List String))
    (gauge : Bool) :
    repeatedCnot (cfg := cfg) iter o nm lc lt n numRounds dataInit "constant" rotBasis reset ancDetectors gauge =
      cnotExperiment iter o nm lc lt numRounds dataInit rotBasis reset ancDetectors gauge
        (List.replicate n (lc, lt)) (lc, lt) := by
  unfold repeatedCnot cnotExperiment
  have h : ¬ ((n : Int) < 0) := by omega
  simp only [h, if_false, ne_eq, not_true_eq_false, false_and, show ("constant" : String) = "alternating" ↔ False by decide,
    decide_false, Int.toNat_natCast, cnotLoop_constant, pyM_bind_assoc]
  rfl

/-- **C42** What happens with the orientation "alternating": the gates are C→T, T→C, T→C, C→T, C→T, T→C, ..., for any
number of gates. -/
theorem C42_alternating_actual (iter : Layout → Bool → Gen) (o : SetOrder) (nm : NoiseModel) (lc lt : Layout) (n : Nat)
    (numRounds : Int) (dataInit : Dict String Int) (rotBasis reset : Bool) (ancDetectors : Option (List String))
    (gauge : Bool) :
    repeatedCnot (cfg := cfg) iter o nm lc lt n numRounds dataInit "alternating" rotBasis reset ancDetectors gauge =
      cnotExperiment iter o nm lc lt numRounds dataInit rotBasis reset ancDetectors gauge
        ((List.range n).map fun k => if ((k + 1) / 2) % 2 = 1 then (lt, lc) else (lc, lt))
        (if (n / 2) % 2 = 1 then (lt, lc) else (lc, lt)) := by
  unfold repeatedCnot cnotExperiment
  have h : ¬ ((n : Int) < 0) := by omega
  have key := fun (sel : List String) (e : Circuit) => cnotLoop_alternating (cfg := cfg) o nm
    (fun ls => mergeQecRounds iter ls reset (some sel)) numRounds.toNat (lc, lt) n 0 e
  have hs : (decide (0 / 2 % 2 = 1)) = false := by decide
  simp only [hs, oriented, Bool.false_eq_true, if_false, Nat.zero_add, decide_eq_true_eq, codeSwaps,
    ← List.range_eq_range'] at key
  simp only [h, if_false, ne_eq, not_true_eq_false, and_false, decide_true, Int.toNat_natCast, key, pyM_bind_assoc]
  rfl

/-- **C42** (missing: three and more gates, for which the claim is false, see `C42_alternating_wrong`).  With at most
two gates the orientation "alternating" alternates. -/
theorem C42_alternating_partial (iter : Layout → Bool → Gen) (o : SetOrder) (nm : NoiseModel) (lc lt : Layout) (n : Nat)
    (hn : n ≤ 2) (numRounds : Int) (dataInit : Dict String Int) (rotBasis reset : Bool)
    (ancDetectors : Option (List String)) (gauge : Bool) :
    repeatedCnot (cfg := cfg) iter o nm lc lt n numRounds dataInit "alternating" rotBasis reset ancDetectors gauge =
      cnotExperiment iter o nm lc lt numRounds dataInit rotBasis reset ancDetectors gauge
        ((List.range n).map fun k => if k % 2 = 1 then (lt, lc) else (lc, lt))
        (if n = 2 then (lt, lc) else (lc, lt)) := by
  rw [C42_alternating_actual]
  congr 1
  · refine List.map_congr_left fun k hk => ?_
    rw [List.mem_range] at hk
    have : ((k + 1) / 2) % 2 = k % 2 := by
      have : k = 0 ∨ k = 1 := by omega
      rcases this with rfl | rfl <;> rfl
    rw [this]
  · have : n = 0 ∨ n = 1 ∨ n = 2 := by omega
    rcases this with rfl | rfl | rfl <;> rfl

/-! ### A concrete case -/

/-- A code with one data qubit and one ancilla that measures Z, with a transversal CNOT in both directions. -/
def tiny (log data anc other dataOther ancOther : String) (i : Int) : Layout :=
  layoutOf (Layout.init
  { name := none, code := some "rotated_surface_code", logQubits := some [log], distance := none,
    distanceZ := none, distanceX := none, logZ := some [(log, [data])],
    logX := some [(log, [data])], description := none,
    interactionOrder := some [("x_type", ["a", "b", "c", "d"]), ("z_type", ["a", "b", "c", "d"])],
    layout := some [
      ⟨some data, [("role", .str "data"), ("coords", .coords [i, 0]), ("ind", .int i), ("neighbors", .nbrs []),
        ("trans-cnot_" ++ log ++ "_" ++ other, .gate [("cnot", .str dataOther)]),
        ("trans-cnot_" ++ other ++ "_" ++ log, .gate [("cnot", .str dataOther)])]⟩,
      ⟨some anc, [("role", .str "anc"), ("stab_type", .str "z_type"), ("coords", .coords [i, 1]), ("ind", .int (i + 1)),
        ("neighbors", .nbrs [("a", some data)]),
        ("trans-cnot_" ++ log ++ "_" ++ other, .gate [("new_stab_gen", .strs [anc])]),
        ("trans-cnot_" ++ other ++ "_" ++ log, .gate [("new_stab_gen", .strs [anc, ancOther])])]⟩] })

/-- The control of the first gate, with stim index 0 for its data qubit. -/
def tinyC : Layout := tiny "Lc" "D0" "Z0" "Lt" "D1" "Z1" 0

/-- The target of the first gate, with stim index 2 for its data qubit. -/
def tinyT : Layout := tiny "Lt" "D1" "Z1" "Lc" "D0" "Z0" 2

/-- Indices of both. -/
def tinyInds : Dict String Nat := [("D0", 0), ("Z0", 1), ("D1", 2), ("Z1", 3)]

/-- Detectors of both. -/
def tinyConfig : Detectors.Config := ⟨["Z0", "Z1"], .postGate, [("Z0", []), ("Z1", [])]⟩

/-- The experiment with three gates, one round after each, and alternating orientation. -/
def tinyCnots : Except Err Circuit × Sim tinyConfig :=
  repeatedCnot (cssIter "rotated_surface_code" .insertion (noiseless tinyInds)) .insertion (noiseless tinyInds)
    tinyC tinyT 3 1 [("D0", 0), ("D1", 0)] "alternating" false true none false
    (MeasState.fresh tinyInds, Detectors.State.fresh tinyConfig)

/-- **C42** With three gates the second and the third one have the same control and target (stim indices 2 and 0). -/
theorem C42_alternating_wrong : ∃ c s', tinyCnots = (.ok c, s') ∧
    (c.filter fun i => i.gate = .CX).map (fun i => i.targets) =
      [[.qubit 0, .qubit 2], [.qubit 2, .qubit 0], [.qubit 2, .qubit 0]] := by
  cases h : tinyCnots with
  | mk r s' =>
    cases r with
    | error e =>
      have : (tinyCnots).1.isOk = true := by decide +kernel
      rw [h] at this; simp [Except.isOk, Except.toBool] at this
    | ok c =>
      refine ⟨c, s', rfl, ?_⟩
      have : (match tinyCnots.1 with
        | .ok c => (c.filter fun i => i.gate = .CX).map (fun i => i.targets) | .error _ => []) =
          [[.qubit 0, .qubit 2], [.qubit 2, .qubit 0], [.qubit 2, .qubit 0]] := by
        decide +kernel
      rw [h] at this; exact this


end SurfaceSim.Props
