/-
Programs of logical operations on two codes have fixed detectors and observables (C63).
-/
import Verif.Lemmas.PairProgram
import Verif.Props.CnotTurns

namespace SurfaceSim
open Spec NoiseModel Blocks Experiments LayoutLib LogGates

/-- The logical X and Z of both codes. -/
theorem Pair.paulis {code : String} {dx dz : Int} {ac a_t : Args} {lc lt : Layout} {Lc Lt : List (String × Site × Kind)}
    {dirs : List (Site × String)} {oc ot : Vec} {nm : NoiseModel} {Xc Zc Xt Zt : List String}
    (hp : Pair code dx dz ac a_t lc lt Lc Lt dirs oc ot) (gc : GridCode code lc Lc ac.label Xc Zc)
    (gt : GridCode code lt Lt a_t.label Xt Zt) (hx : 1 ≤ dx) (hz : 1 ≤ dz) (hrc : CanRun nm lc) (hrt : CanRun nm lt)
    (o : SetOrder) : PaulisCss nm lc Lc Xc Zc o ∧ PaulisCss nm lt Lt Xt Zt o := by
  have same : ∀ {lab : String} {x y : List String} {d : Dict String (List String)}, d = [(lab, x)] → d = [(lab, y)] → x = y := by
    intro lab x y d h1 h2
    rw [h1] at h2
    simpa using h2
  rcases hp.shape with ⟨-, rfl, rfl, ic, it⟩ | ⟨-, rfl, rfl, ic, it⟩
  · rw [same gc.logX ic.logX, same gc.logZ ic.logZ, same gt.logX it.logX, same gt.logZ it.logZ]
    exact ⟨ic.pauli_css hrc o hx hz, it.pauli_css hrt o hx hz⟩
  · rw [same gc.logX ic.logX, same gc.logZ ic.logZ, same gt.logX it.logX, same gt.logZ it.logZ]
    exact ⟨ic.pauli_css hrc o hx hz, it.pauli_css hrt o hx hz⟩

end SurfaceSim

namespace SurfaceSim.Props
open Spec NoiseModel Blocks Experiments LayoutLib LogGates

variable {cfg : Detectors.Config} {code : String} {dx dz dx' dz' : Int} {ac a_t : Args} {lc0 lt0 lc lt : Layout}
  {dataInit : Dict String Int} {ancDetectors : Option (List String)} {nm : NoiseModel}

/-- The logical operators of the two codes, and what a program gives. -/
theorem pair_program_gives (hc : MadeBy code dx dz ac lc0) (ht : MadeBy code dx' dz' a_t lt0)
    (e : StoredCnot code ("trans-cnot_" ++ ac.label ++ "_" ++ a_t.label) lc0 lt0 lc lt)
    (e' : StoredCnot code ("trans-cnot_" ++ a_t.label ++ "_" ++ ac.label) lt0 lc0 lt lc) (hx : 1 ≤ dx) (hz : 2 ≤ dz)
    (hrc : CanRun nm lc) (hrt : CanRun nm lt) (nt : NoTicks nm) (um : UniformMeas nm)
    (hargs : PairArgs cfg lc lt ancDetectors) (hargs' : GateArgs cfg [lc, lt] dataInit) (o₁ o₂ : SetOrder) :
    ∃ Lc Lt dirs oc ot, Pair code dx dz ac a_t lc lt Lc Lt dirs oc ot ∧ Twins lc lt Lc Lt dirs ∧
    ∃ Xc Zc Xt Zt, lc.logX.get? ac.label = some Xc ∧ lc.logZ.get? ac.label = some Zc ∧
      lt.logX.get? a_t.label = some Xt ∧ lt.logZ.get? a_t.label = some Zt ∧
      ∀ (rb reset gauge : Bool) (steps : List PairStep), GatesApart none steps → ∀ (final : Bool) (s : Sim cfg),
        Gives (MergesOk code o₁ o₂ nm lc lt Lc Lt dataInit rb reset ∧ MergesOk code o₁ o₂ nm lt lc Lt Lc dataInit rb reset)
          (pairProgram (cfg := cfg) (cssIter code o₁ nm) o₂ nm lc lt dataInit rb reset ancDetectors gauge steps final) s
          fun c _ => FixedTurnValues cfg nm lc lt (roundsOf steps) 1 final dataInit rb gauge ancDetectors
            (afterSteps rb steps (bits dataInit (if rb then Xc else Zc), bits dataInit (if rb then Xt else Zt))) c := by
  obtain ⟨Lc, Lt, dirs, oc, ot, Xc, Zc, Xt, Zt, hp, hT, htab, htab', gc, gt, h5, h6, -⟩ := turn_codes hc ht e e' hx hz
  obtain ⟨hpc, hpt⟩ := hp.paulis gc gt hx (by omega) hrc hrt o₂
  refine ⟨Lc, Lt, dirs, oc, ot, hp, hT, Xc, Zc, Xt, Zt, by rw [gc.logX]; simp [Dict.get?], by rw [gc.logZ]; simp [Dict.get?],
    by rw [gt.logX]; simp [Dict.get?], by rw [gt.logZ]; simp [Dict.get?], fun rb reset gauge steps hap final s => ?_⟩
  exact pairProgram_fixed hT gc gt hrc hrt nt um hp.isCode (cnotLabel_of hp.logC hp.logT) htab
    (cnotLabel_of hp.logT hp.logC) htab' h5 h6 hargs hargs' o₁ o₂ hpc hpt rb gauge steps hap final s

/-- **C63** A user prepares two codes, does a merged QEC round, and then any sequence of merged rounds, transversal CNOT gates in
both directions, and logical X and Z gates of either code, such that the CNOT gates between two rounds have the same direction.  Whatever
the random outcomes, all detectors have fixed values, zero after the first round, and the two observables have the values that the
logical operators have after the logical gates. -/
theorem C63_values (hc : MadeBy code dx dz ac lc0) (ht : MadeBy code dx' dz' a_t lt0)
    (e : StoredCnot code ("trans-cnot_" ++ ac.label ++ "_" ++ a_t.label) lc0 lt0 lc lt)
    (e' : StoredCnot code ("trans-cnot_" ++ a_t.label ++ "_" ++ ac.label) lt0 lc0 lt lc) (hx : 1 ≤ dx) (hz : 2 ≤ dz)
    (hrc : CanRun nm lc) (hrt : CanRun nm lt) (nt : NoTicks nm) (um : UniformMeas nm)
    (hargs : PairArgs cfg lc lt ancDetectors) (hargs' : GateArgs cfg [lc, lt] dataInit) (o₁ o₂ : SetOrder) :
    ∃ Xc Zc Xt Zt, lc.logX.get? ac.label = some Xc ∧ lc.logZ.get? ac.label = some Zc ∧
      lt.logX.get? a_t.label = some Xt ∧ lt.logZ.get? a_t.label = some Zt ∧
      ∀ (rb reset gauge : Bool) (steps : List PairStep), GatesApart none steps →
        ∀ (final : Bool) (s : Sim cfg) (c : Circuit) (s' : Sim cfg),
        pairProgram (cfg := cfg) (cssIter code o₁ nm) o₂ nm lc lt dataInit rb reset ancDetectors gauge steps final s = (.ok c, s') →
        FixedTurnValues cfg nm lc lt (roundsOf steps) 1 final dataInit rb gauge ancDetectors
          (afterSteps rb steps (bits dataInit (if rb then Xc else Zc), bits dataInit (if rb then Xt else Zt))) c := by
  obtain ⟨_, _, _, _, _, -, -, Xc, Zc, Xt, Zt, h1, h2, h3, h4, h⟩ :=
    pair_program_gives hc ht e e' hx hz hrc hrt nt um hargs hargs' o₁ o₂
  exact ⟨Xc, Zc, Xt, Zt, h1, h2, h3, h4, fun rb reset gauge steps hap final s => (h rb reset gauge steps hap final s).1⟩

/-- **C63** With a noise model whose circuits for equally many qubits differ only in their targets, the calls do return a circuit. -/
theorem C63_returns (hc : MadeBy code dx dz ac lc0) (ht : MadeBy code dx' dz' a_t lt0)
    (e : StoredCnot code ("trans-cnot_" ++ ac.label ++ "_" ++ a_t.label) lc0 lt0 lc lt)
    (e' : StoredCnot code ("trans-cnot_" ++ a_t.label ++ "_" ++ ac.label) lt0 lc0 lt lc) (hx : 1 ≤ dx) (hz : 2 ≤ dz)
    (hrc : CanRun nm lc) (hrt : CanRun nm lt) (nt : NoTicks nm) (um : UniformMeas nm) (un : UniformModel nm)
    (hargs : PairArgs cfg lc lt ancDetectors) (hargs' : GateArgs cfg [lc, lt] dataInit) (o₁ o₂ : SetOrder)
    (rb reset gauge : Bool) (steps : List PairStep) (hap : GatesApart none steps) (final : Bool) (s : Sim cfg) :
    ∃ c s', pairProgram (cfg := cfg) (cssIter code o₁ nm) o₂ nm lc lt dataInit rb reset ancDetectors gauge steps final s =
      (.ok c, s') := by
  obtain ⟨_, _, _, _, _, hp, hT, Xc, Zc, Xt, Zt, h1, h2, h3, h4, h⟩ :=
    pair_program_gives hc ht e e' hx hz hrc hrt nt um hargs hargs' o₁ o₂
  obtain ⟨⟨_, _, gc⟩, _, _, gt⟩ := hp.codes hx hz
  exact (h rb reset gauge steps hap final s).2 ⟨mergesOk hT gc gt hp.order hrc hrt nt um un o₁ o₂ dataInit rb reset,
    mergesOk hT.symm gt gc hp.order.symm hrt hrc nt um un o₁ o₂ dataInit rb reset⟩

/-- **C63** All outcomes of the quantum circuit have the same detectors and observables. -/
theorem C63_deterministic (hc : MadeBy code dx dz ac lc0) (ht : MadeBy code dx' dz' a_t lt0)
    (e : StoredCnot code ("trans-cnot_" ++ ac.label ++ "_" ++ a_t.label) lc0 lt0 lc lt)
    (e' : StoredCnot code ("trans-cnot_" ++ a_t.label ++ "_" ++ ac.label) lt0 lc0 lt lc) (hx : 1 ≤ dx) (hz : 2 ≤ dz)
    (hrc : CanRun nm lc) (hrt : CanRun nm lt) (nt : NoTicks nm) (um : UniformMeas nm)
    (hargs : PairArgs cfg lc lt ancDetectors) (hargs' : GateArgs cfg [lc, lt] dataInit) (o₁ o₂ : SetOrder)
    (rb reset : Bool) (steps : List PairStep) (hap : GatesApart none steps) (final : Bool) (s : Sim cfg) (c : Circuit) (s' : Sim cfg)
    (h : pairProgram (cfg := cfg) (cssIter code o₁ nm) o₂ nm lc lt dataInit rb reset ancDetectors false steps final s =
      (.ok c, s')) : Deterministic (ops c) := by
  obtain ⟨_, _, _, _, -, -, -, -, hf⟩ := C63_values hc ht e e' hx hz hrc hrt nt um hargs hargs' o₁ o₂
  obtain ⟨_, _, _, _, _, _, -, -, -, -, -, -, hp, -, hv⟩ := hf rb reset false steps hap final s c s' h
  refine (C51_deterministic hp.2).2 fun ζ ρ ζ' ρ' => ?_
  have v1 := hv ζ ρ
  have v2 := hv ζ' ρ'
  simp only [Bool.false_eq_true, if_false] at v1 v2
  rw [v1.1, v1.2, v2.1, v2.2]
  exact ⟨rfl, rfl⟩

/-! ### CNOT gates in both directions between two rounds -/

/-- A CNOT gate in each direction without a round in between, on the codes of one data qubit of `tinyCnots`; the bit of the first is one. -/
def tinyPair (steps : List PairStep) : Except Err Circuit × Sim tinyConfig :=
  pairProgram (cssIter "rotated_surface_code" .insertion (noiseless tinyInds)) .insertion (noiseless tinyInds)
    tinyC tinyT [("D0", 1), ("D1", 0)] false true none false steps false
    (MeasState.fresh tinyInds, Detectors.State.fresh tinyConfig)

/-- **C63** The condition on the CNOT gates between two rounds is needed: with two gates in opposite directions the detectors of the
next round are wrong, two gates in the same direction or a round in between are fine. -/
theorem C63_directions_needed :
    (match (tinyPair [.cnot false, .cnot true, .round false]).1 with
      | .ok c => some (detectors 0 0 c)
      | .error _ => none) = some [1, 0, 1, 0, 0, 0] ∧
    (match (tinyPair [.cnot false, .cnot false, .round false]).1 with
      | .ok c => some (detectors 0 0 c)
      | .error _ => none) = some [1, 0, 0, 0, 0, 0] ∧
    (match (tinyPair [.cnot false, .round true, .cnot true, .round false]).1 with
      | .ok c => some (detectors 0 0 c)
      | .error _ => none) = some [1, 0, 0, 0, 0, 0, 0, 0] := by
  refine ⟨?_, ?_, ?_⟩ <;> decide +kernel

/-! ### an example -/

/-- Swapping two logical qubits with three CNOT gates, a merged round between any two of them, and an X on the first code before and on the second
after it. -/
def swapProgram : List PairStep := [.x false, .cnot false, .round false, .cnot true, .round true, .cnot false, .x true, .round false]

/-- The program on two rotated codes of distances 2 and 3 returns; the first X undoes the bit of the first code that was set to one, so that only the
second X counts: the observables have the values zero and one. -/
example (o o₁ o₂ : SetOrder) : GatesApart none swapProgram ∧ roundsOf swapProgram = [false, true, false] ∧ ∃ lc lt : Layout,
    StoredCnot "rotated_surface_code" "trans-cnot_L0_L1" firstCode secondCode lc lt ∧
    StoredCnot "rotated_surface_code" "trans-cnot_L1_L0" secondCode firstCode lt lc ∧
    ∀ s, ∃ c s', pairProgram (cfg := bothConfig) (cssIter "rotated_surface_code" o₁ (noiselessBoth firstCode secondCode)) o₂
        (noiselessBoth firstCode secondCode) lc lt [("D1", 1)] false true none false swapProgram false s = (.ok c, s') ∧
      FixedTurnValues bothConfig (noiselessBoth firstCode secondCode) lc lt [false, true, false] 1 false [("D1", 1)] false false none
        (0, 1) c := by
  have hap : GatesApart none swapProgram := by simp [swapProgram, GatesApart]
  refine ⟨hap, rfl, ?_⟩
  obtain ⟨lc, lt, m1, m2, w1', w2', s1, s2, ha, hg⟩ := both_stored o
  have r1 : CanRun (noiselessBoth firstCode secondCode) firstCode := by
    refine ⟨(C34_noiseless _).toFaithful, by decide +kernel, fun qs hqs => ?_⟩
    rw [getQubits_nil hqs]
    decide +kernel
  have r2 : CanRun (noiselessBoth firstCode secondCode) secondCode := by
    refine ⟨(C34_noiseless _).toFaithful, by decide +kernel, fun qs hqs => ?_⟩
    rw [getQubits_nil hqs]
    decide +kernel
  have r1' := canRun_made m1 .refl w1' r1
  have r2' := canRun_made m2 .refl w2' r2
  have hu := (C53_models ((firstCode.qubitInds.map fun kv => (kv.1, kv.2.toNat)) ++
    secondCode.qubitInds.map fun kv => (kv.1, kv.2.toNat))).1
  obtain ⟨Xc, Zc, Xt, Zt, -, k1, -, k2, hf⟩ := C63_values m1 m2 s1 s2 (by omega) (by omega) r1' r2' hu.1 hu.2.1 ha hg o₁ o₂
  refine ⟨lc, lt, s1, s2, fun s => ?_⟩
  obtain ⟨c, s', hr⟩ := C63_returns m1 m2 s1 s2 (by omega) (by omega) r1' r2' hu.1 hu.2.1 hu.2.2 ha hg o₁ o₂
    false true false swapProgram hap false s
  have v1 : Zc = ["D1", "D2", "D3"] := by
    rw [logZ_params w1'] at k1
    have : firstCode.logZ.get? rotDefault.label = some ["D1", "D2", "D3"] := by decide +kernel
    exact Option.some.inj (k1.symm.trans this)
  have v2 : Zt = ["D10", "D11", "D12"] := by
    rw [logZ_params w2'] at k2
    have : secondCode.logZ.get? secondArgs.label = some ["D10", "D11", "D12"] := by decide +kernel
    exact Option.some.inj (k2.symm.trans this)
  subst v1 v2
  refine ⟨c, s', hr, ?_⟩
  have := hf false true false swapProgram hap false s c s' hr
  have t2 : afterSteps false swapProgram (bits [("D1", 1)] ["D1", "D2", "D3"], bits [("D1", 1)] ["D10", "D11", "D12"]) = (0, 1) := by
    decide +kernel
  simp only [Bool.false_eq_true, if_false] at this
  rw [t2] at this
  exact this

end SurfaceSim.Props
