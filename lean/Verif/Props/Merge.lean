/-
Merged logical measurements: indices of the observables (C43), different bases (C49).
-/
import Verif.Lemmas.MergeMeas
import Verif.Lemmas.Witness
import Verif.Model.LayoutLib

namespace SurfaceSim.Props
open Spec NoiseModel Blocks Experiments

/-- **C43** What `merge_log_meas` declares: one observable for each logical qubit of each layout, in order, with the
last measurements of the support of its logical operator, and with index `k * n + i` for the `i`-th logical qubit of the
`k`-th layout, which has `n` logical qubits. -/
theorem C43_declared {cfg : Detectors.Config} (nm : NoiseModel) (hn : NoObservables nm) (ls : List Layout)
    (rots : List Bool) (reset : Bool) (sel : Option (List String)) (s s' : Sim cfg) (c : Circuit)
    (h : mergeLogMeas (logMeasIter nm) ls rots reset sel s = (.ok c, s')) :
    rots.length = ls.length ∧
    List.Forall₂ (fun e o => o.1 = ((e.1 * numLogical e.2.2.1 + e.2.1 : Nat) : Rat) ∧
      mapExcept e.2.2.2 (fun q => s'.1.measTarget q (-1)) = .ok o.2) (logicals (ls.zip rots)) (declared c) :=
  mergeLogMeas_declared (logMeasIter_none hn) h

theorem flatMap_range_const (n k0 m : Nat) :
    ((List.range' k0 m).flatMap fun k => (List.range n).map fun i => k * n + i) = List.range' (k0 * n) (m * n) := by
  induction m generalizing k0 with
  | zero => simp
  | succ m ih =>
    rw [List.range'_succ, List.flatMap_cons, ih, Nat.add_mul m 1 n, Nat.one_mul, Nat.add_comm (m * n) n,
      ← List.range'_append, Nat.one_mul]
    congr 1
    · rw [List.range_eq_range', List.map_add_range']; simp
    · congr 1; ring

/-- **C43** (missing: layouts with different numbers of logical qubits, for which the claim is false, see
`C43_indices_wrong`).  If all layouts have the same number of logical qubits, the observables are numbered 0, 1, 2, ... -/
theorem C43_indices_partial {cfg : Detectors.Config} (nm : NoiseModel) (hn : NoObservables nm) (ls : List Layout)
    (rots : List Bool) (reset : Bool) (sel : Option (List String)) (s s' : Sim cfg) (c : Circuit)
    (h : mergeLogMeas (logMeasIter nm) ls rots reset sel s = (.ok c, s')) (n : Nat)
    (hl : ∀ l ∈ ls, numLogical l = n) :
    (declared c).map Prod.fst = (List.range (ls.length * n)).map fun i : Nat => (i : Rat) := by
  obtain ⟨h1, h2⟩ := C43_declared nm hn ls rots reset sel s s' c h
  have h3 : (declared c).map Prod.fst =
      (logicals (ls.zip rots)).map fun e => ((e.1 * numLogical e.2.2.1 + e.2.1 : Nat) : Rat) := by
    clear h h1 hl
    revert h2
    generalize logicals (ls.zip rots) = A
    generalize declared c = B
    intro h2
    induction h2 with
    | nil => rfl
    | cons hd _ ih => simp only [List.map_cons, ih, hd.1]
  have h4 : ∀ (lrs : List (Layout × Bool)) (k : Nat), (∀ e ∈ lrs, numLogical e.1 = n) →
      (lrs.zipIdx k).flatMap (fun e => e.1.1.logQubits.zipIdx.map fun q => e.2 * numLogical e.1.1 + q.2) =
        (List.range' k lrs.length).flatMap fun k => (List.range n).map fun i => k * n + i := by
    intro lrs
    induction lrs with
    | nil => intro k _; rfl
    | cons e lrs ih =>
      intro k he
      rw [List.zipIdx_cons, List.flatMap_cons, ih (k + 1) fun e' h' => he e' (by simp [h']), List.length_cons,
        List.range'_succ, List.flatMap_cons]
      congr 1
      have hn := he e (by simp)
      rw [hn, ← hn]
      unfold numLogical
      have : ∀ (L : List String) (j m : Nat), (L.zipIdx j).map (fun q => m + q.2) =
          (List.range' j L.length).map fun i => m + i := by
        intro L
        induction L with
        | nil => simp
        | cons a L ih => intro j m; simp [List.zipIdx_cons, List.range'_succ, ih]
      rw [this, List.range_eq_range']
  have h5 := h4 (ls.zip rots) 0 (fun e he => hl e.1 (List.of_mem_zip (a := e.1) (b := e.2) he).1)
  rw [flatMap_range_const, List.length_zip, h1, Nat.min_self, Nat.zero_mul, ← List.range_eq_range'] at h5
  rw [h3, ← h5]
  unfold logicals
  simp only [List.map_flatMap, List.map_map]
  rfl

/-- So they are pairwise different. -/
theorem C43_distinct_partial {cfg : Detectors.Config} (nm : NoiseModel) (hn : NoObservables nm) (ls : List Layout)
    (rots : List Bool) (reset : Bool) (sel : Option (List String)) (s s' : Sim cfg) (c : Circuit)
    (h : mergeLogMeas (logMeasIter nm) ls rots reset sel s = (.ok c, s')) (n : Nat)
    (hl : ∀ l ∈ ls, numLogical l = n) : ((declared c).map Prod.fst).Nodup := by
  rw [C43_indices_partial nm hn ls rots reset sel s s' c h n hl]
  refine List.Nodup.map ?_ List.nodup_range
  intro a b hab
  simpa using hab

/-- A layout of bare qubits, each of them a logical qubit. -/
def bare (qs : List (String × String × Int)) : Layout :=
  layoutOf (Layout.init
  { name := none, code := none, logQubits := some (qs.map fun q => q.2.1), distance := none,
    distanceZ := none, distanceX := none, logZ := some (qs.map fun q => (q.2.1, [q.1])),
    logX := some (qs.map fun q => (q.2.1, [q.1])), description := none, interactionOrder := none,
    layout := some (qs.map fun q => ⟨some q.1, [("role", .str "data"), ("coords", .coords [q.2.2, 0]),
      ("ind", .int q.2.2), ("neighbors", .nbrs [])]⟩) })

/-- A layout with the logical qubits La, Lb. -/
def bareTwo : Layout := bare [("D0", "La", 0), ("D1", "Lb", 1)]

/-- A layout with the logical qubit Lc. -/
def bareOne : Layout := bare [("D2", "Lc", 2)]

/-- Indices for the qubits of both. -/
def bareInds : Dict String Nat := [("D0", 0), ("D1", 1), ("D2", 2)]

/-- A detectors object with one ancilla. -/
def bareConfig : Detectors.Config := ⟨["A"], .postGate, [("A", [])]⟩

/-- The measurement of both layouts. -/
def bareMeas : Except Err Circuit × Sim bareConfig :=
  mergeLogMeas (logMeasIter (noiseless bareInds)) [bareTwo, bareOne] [true, true] true none
    (MeasState.fresh bareInds, Detectors.State.fresh bareConfig)

/-- **C43** With two and one logical qubits, two observables get the index 1. -/
theorem C43_indices_wrong : ∃ c s', bareMeas = (.ok c, s') ∧ numLogical bareTwo = 2 ∧ numLogical bareOne = 1 ∧
    (declared c).map Prod.fst = [0, 1, 1] := by
  cases h : bareMeas with
  | mk r s' =>
    cases r with
    | error e =>
      have : (bareMeas).1.isOk = true := by decide +kernel
      rw [h] at this; simp [Except.isOk, Except.toBool] at this
    | ok c =>
      refine ⟨c, s', rfl, by decide +kernel, by decide +kernel, ?_⟩
      have : (match bareMeas.1 with | .ok c => (declared c).map Prod.fst | .error _ => []) = [0, 1, 1] := by
        decide +kernel
      rw [h] at this; exact this

/-- With one and two logical qubits the index 1 is skipped. -/
example : (match (mergeLogMeas (logMeasIter (noiseless bareInds)) [bareOne, bareTwo] [true, true] true none
    (MeasState.fresh bareInds, Detectors.State.fresh bareConfig)).1 with
      | .ok c => (declared c).map Prod.fst | .error _ => []) = [0, 2, 3] := by decide +kernel

/-- A non-trivial case of `C43_indices_partial`: two layouts with two logical qubits. -/
example : numLogical bareTwo = numLogical (bare [("D2", "Lc", 2), ("D3", "Ld", 3)]) ∧
    (match (mergeLogMeas (cfg := bareConfig) (logMeasIter (noiseless (bareInds ++ [("D3", 3)])))
      [bareTwo, bare [("D2", "Lc", 2), ("D3", "Ld", 3)]] [true, true] true none
      (MeasState.fresh (bareInds ++ [("D3", 3)]), Detectors.State.fresh bareConfig)).1 with
      | .ok c => declared c | .error _ => []) = [(0, [-4]), (1, [-3]), (2, [-2]), (3, [-1])] := by decide +kernel

/-! ### C49: bases that differ -/

/-- Measurement of the first layout in the X basis and of the second one in the Z basis, or the other way round. -/
def mixedMeas (rots : List Bool) : Except Err Circuit × Sim bareConfig :=
  mergeLogMeas (logMeasIter (noiseless bareInds)) [bareTwo, bareOne] rots true none
    (MeasState.fresh bareInds, Detectors.State.fresh bareConfig)

/-- **C49** With the X basis for the first layout (D0, D1) and the Z basis for the second one (D2), the circuit only
measures D2 (stim index 2), but the observables refer to three measurements, two of which do not exist. -/
theorem C49_x_then_z_wrong : ∃ c s', mixedMeas [true, false] = (.ok c, s') ∧ measOrder c = [2] ∧
    declared c = [(0, [-2]), (1, [-1]), (1, [-3])] := by
  cases h : mixedMeas [true, false] with
  | mk r s' =>
    cases r with
    | error e =>
      have : (mixedMeas [true, false]).1.isOk = true := by decide +kernel
      rw [h] at this; simp [Except.isOk, Except.toBool] at this
    | ok c =>
      have : (match (mixedMeas [true, false]).1 with
          | .ok c => (measOrder c, declared c) | .error _ => ([], [])) =
            ([2], [(0, [-2]), (1, [-1]), (1, [-3])]) := by
        decide +kernel
      rw [h] at this
      simp only [Prod.mk.injEq] at this
      exact ⟨c, s', rfl, this.1, this.2⟩

/-- **C49** With the Z basis for the first layout and the X basis for the second one the call raises, because the
second layout has not been measured when its observable is defined. -/
theorem C49_z_then_x_raises : (mixedMeas [false, true]).1.isOk = false := by decide +kernel

end SurfaceSim.Props
