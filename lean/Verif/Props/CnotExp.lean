/-
Theorems about experiments with transversal CNOT gates between two codes.
-/
import Verif.Lemmas.CnotFixed
import Verif.Lemmas.UniformModel
import Verif.Props.GateExp
import Verif.Props.TransCnot

namespace SurfaceSim.Props
open Spec NoiseModel Blocks Experiments LayoutLib LogGates

variable {cfg : Detectors.Config} {code : String} {dx dz dx' dz' : Int} {ac a_t : Args} {lc0 lt0 lc lt lc' lt' lc'' lt'' : Layout}
  {mt : Matcher} {o : SetOrder} {dataInit : Dict String Int} {ancDetectors : Option (List String)} {nm : NoiseModel}

/-- The logical operators of the two codes, and what the experiment gives. -/
theorem cnot_gives (hc : MadeBy code dx dz ac lc0) (ht : MadeBy code dx' dz' a_t lt0) (hwc : WithParams lc0 lc)
    (hwt : WithParams lt0 lt) (hn : CoordsNear lc lt) (e : setTransCnot code mt o (lc, lt) = (.ok (), (lc', lt')))
    (hkc : KeptGate ("trans-cnot_" ++ ac.label ++ "_" ++ a_t.label) lc' lc'')
    (hkt : KeptGate ("trans-cnot_" ++ ac.label ++ "_" ++ a_t.label) lt' lt'') (hx : 1 ≤ dx) (hz : 2 ≤ dz)
    (hrc : CanRun nm lc'') (hrt : CanRun nm lt'') (nt : NoTicks nm) (um : UniformMeas nm)
    (hargs : PairArgs cfg lc'' lt'' ancDetectors) (hargs' : GateArgs cfg [lc'', lt''] dataInit) (o₁ o₂ : SetOrder) :
    ∃ Lc Lt dirs oc ot, Pair code dx dz ac a_t lc'' lt'' Lc Lt dirs oc ot ∧ Twins lc'' lt'' Lc Lt dirs ∧
    ∃ Xc Zc Xt Zt, lc''.logX.get? ac.label = some Xc ∧ lc''.logZ.get? ac.label = some Zc ∧
      lt''.logX.get? a_t.label = some Xt ∧ lt''.logZ.get? a_t.label = some Zt ∧
      ∀ (rb reset gauge : Bool) (n m : Nat) (s : Sim cfg),
        Gives (MergesOk code o₁ o₂ nm lc'' lt'' Lc Lt dataInit rb reset)
          (repeatedCnot (cfg := cfg) (cssIter code o₁ nm) o₂ nm lc'' lt'' n m dataInit "constant" rb reset ancDetectors gauge) s
          fun c _ => FixedPairValues cfg nm lc'' lt'' (n * m) dataInit rb gauge ancDetectors
            (bits dataInit (if rb then Xc else Zc) + if rb then n * bits dataInit Xt else 0)
            (bits dataInit (if rb then Xt else Zt) + if rb then 0 else n * bits dataInit Zc) c := by
  obtain ⟨Lc, Lt, dirs, oc, ot, hp, hT, htab, -⟩ := cnot_done hc ht hwc hwt hn e hkc hkt
  obtain ⟨Xc, Zc, Xt, Zt, h1, h2, h3, h4, h5, h6⟩ := hp.logicals hx (by omega) hT
  obtain ⟨⟨lx, lz, gc⟩, lx', lz', gt⟩ := hp.codes hx hz
  have f1 : lx = Xc := by simpa [gc.logX, Dict.get?] using h1
  have f2 : lz = Zc := by simpa [gc.logZ, Dict.get?] using h2
  have f3 : lx' = Xt := by simpa [gt.logX, Dict.get?] using h3
  have f4 : lz' = Zt := by simpa [gt.logZ, Dict.get?] using h4
  subst f1 f2 f3 f4
  refine ⟨Lc, Lt, dirs, oc, ot, hp, hT, lx, lz, lx', lz', h1, h2, h3, h4, fun rb reset gauge n m s => ?_⟩
  exact cnot_fixed hT gc gt hrc hrt nt um hp.isCode (cnotLabel_of hp.logC hp.logT) htab h5 h6 hargs hargs' o₁ o₂ rb gauge n m s

/-- **C53** Experiments `repeated_cnot_experiment` with the gate always in the same direction: whatever the number of gates, the number of rounds per
gate and the random outcomes, all detectors have fixed values, zero after the first round, and the two observables have the values of a
logical CNOT applied `n` times. -/
theorem C53_fixed (hc : MadeBy code dx dz ac lc0) (ht : MadeBy code dx' dz' a_t lt0) (hwc : WithParams lc0 lc)
    (hwt : WithParams lt0 lt) (hn : CoordsNear lc lt) (e : setTransCnot code mt o (lc, lt) = (.ok (), (lc', lt')))
    (hkc : KeptGate ("trans-cnot_" ++ ac.label ++ "_" ++ a_t.label) lc' lc'')
    (hkt : KeptGate ("trans-cnot_" ++ ac.label ++ "_" ++ a_t.label) lt' lt'') (hx : 1 ≤ dx) (hz : 2 ≤ dz)
    (hrc : CanRun nm lc'') (hrt : CanRun nm lt'') (nt : NoTicks nm) (um : UniformMeas nm)
    (hargs : PairArgs cfg lc'' lt'' ancDetectors) (hargs' : GateArgs cfg [lc'', lt''] dataInit) (o₁ o₂ : SetOrder) :
    ∃ Xc Zc Xt Zt, lc''.logX.get? ac.label = some Xc ∧ lc''.logZ.get? ac.label = some Zc ∧
      lt''.logX.get? a_t.label = some Xt ∧ lt''.logZ.get? a_t.label = some Zt ∧
      ∀ (rb reset gauge : Bool) (n m : Nat) (s : Sim cfg) (c : Circuit) (s' : Sim cfg),
        repeatedCnot (cfg := cfg) (cssIter code o₁ nm) o₂ nm lc'' lt'' n m dataInit "constant" rb reset ancDetectors gauge s =
          (.ok c, s') →
        FixedPairValues cfg nm lc'' lt'' (n * m) dataInit rb gauge ancDetectors
          (bits dataInit (if rb then Xc else Zc) + if rb then n * bits dataInit Xt else 0)
          (bits dataInit (if rb then Xt else Zt) + if rb then 0 else n * bits dataInit Zc) c := by
  obtain ⟨_, _, _, _, _, -, -, Xc, Zc, Xt, Zt, h1, h2, h3, h4, h⟩ :=
    cnot_gives hc ht hwc hwt hn e hkc hkt hx hz hrc hrt nt um hargs hargs' o₁ o₂
  exact ⟨Xc, Zc, Xt, Zt, h1, h2, h3, h4, fun rb reset gauge n m s => (h rb reset gauge n m s).1⟩

/-- **C53** With a noise model whose circuits for equally many qubits differ only in their targets, the experiment does return a
circuit, for all numbers of gates and rounds and all states of the objects. -/
theorem C53_returns (hc : MadeBy code dx dz ac lc0) (ht : MadeBy code dx' dz' a_t lt0) (hwc : WithParams lc0 lc)
    (hwt : WithParams lt0 lt) (hn : CoordsNear lc lt) (e : setTransCnot code mt o (lc, lt) = (.ok (), (lc', lt')))
    (hkc : KeptGate ("trans-cnot_" ++ ac.label ++ "_" ++ a_t.label) lc' lc'')
    (hkt : KeptGate ("trans-cnot_" ++ ac.label ++ "_" ++ a_t.label) lt' lt'') (hx : 1 ≤ dx) (hz : 2 ≤ dz)
    (hrc : CanRun nm lc'') (hrt : CanRun nm lt'') (nt : NoTicks nm) (um : UniformMeas nm) (un : UniformModel nm)
    (hargs : PairArgs cfg lc'' lt'' ancDetectors) (hargs' : GateArgs cfg [lc'', lt''] dataInit) (o₁ o₂ : SetOrder)
    (rb reset gauge : Bool) (n m : Nat) (s : Sim cfg) :
    ∃ c s', repeatedCnot (cfg := cfg) (cssIter code o₁ nm) o₂ nm lc'' lt'' n m dataInit "constant" rb reset ancDetectors gauge s =
      (.ok c, s') := by
  obtain ⟨_, _, _, _, _, hp, hT, Xc, Zc, Xt, Zt, h1, h2, h3, h4, h⟩ :=
    cnot_gives hc ht hwc hwt hn e hkc hkt hx hz hrc hrt nt um hargs hargs' o₁ o₂
  obtain ⟨⟨_, _, gc⟩, _, _, gt⟩ := hp.codes hx hz
  exact (h rb reset gauge n m s).2 (mergesOk hT gc gt hp.order hrc hrt nt um un o₁ o₂ dataInit rb reset)

/-- A noise model satisfies the three conditions of `C53_returns`. -/
def Uniform (nm : NoiseModel) : Prop := NoTicks nm ∧ UniformMeas nm ∧ UniformModel nm

/-- **C53** The noiseless model satisfies the conditions of `C53_returns`, and so do the circuit-level model, the biased model, the
incoming and the phenomenological ones if no parameter differs between qubits. -/
theorem C53_models (inds : Dict String Nat) : Uniform (noiseless inds) ∧ ∀ st : Setup, SameParams st →
    Uniform (circuitNoise st inds) ∧ Uniform (biasedNoise st inds) ∧ Uniform (incoming st inds) ∧
      Uniform (phenomenological st inds) :=
  ⟨⟨noTicks_noiseless _, uniformMeas_noiseless _, uniform_noiseless _⟩, fun st hs =>
    ⟨⟨noTicks_circuitNoise _ _, uniformMeas_circuitNoise _ _ (hs.forAll _) (hs.forAll _) (hs.forAll _) (hs.forAll _),
        uniform_circuitNoise hs _⟩,
      ⟨noTicks_biasedNoise _ _, uniformMeas_biasedNoise hs _, uniform_biasedNoise hs _⟩,
      ⟨noTicks_incoming _ _, uniformMeas_incoming _ _, uniform_incoming hs _⟩,
      ⟨noTicks_phenomenological _ _, uniformMeas_phenomenological _ _ (hs.forAll _) (hs.forAll _) (hs.forAll _),
        uniform_phenomenological hs _⟩⟩⟩

/-- **C53** A setup without parameters of particular qubits, like `CircuitNoiseSetup`, has the same parameters for all qubits. -/
theorem C53_circuit_noise_setup {p : Rat} {st : Setup} (h : circuitNoiseSetup p = .ok st) : SameParams st := by
  have : st.qubitParams = [] := by
    cases h
    rfl
  intro p qs qs' _
  unfold Setup.param Setup.paramOwn
  rw [this]
  rfl

/-- **C53** All outcomes of the quantum circuit have the same detectors and observables. -/
theorem C53_deterministic (hc : MadeBy code dx dz ac lc0) (ht : MadeBy code dx' dz' a_t lt0) (hwc : WithParams lc0 lc)
    (hwt : WithParams lt0 lt) (hn : CoordsNear lc lt) (e : setTransCnot code mt o (lc, lt) = (.ok (), (lc', lt')))
    (hkc : KeptGate ("trans-cnot_" ++ ac.label ++ "_" ++ a_t.label) lc' lc'')
    (hkt : KeptGate ("trans-cnot_" ++ ac.label ++ "_" ++ a_t.label) lt' lt'') (hx : 1 ≤ dx) (hz : 2 ≤ dz)
    (hrc : CanRun nm lc'') (hrt : CanRun nm lt'') (nt : NoTicks nm) (um : UniformMeas nm)
    (hargs : PairArgs cfg lc'' lt'' ancDetectors) (hargs' : GateArgs cfg [lc'', lt''] dataInit) (o₁ o₂ : SetOrder)
    (rb reset : Bool) (n m : Nat) (s : Sim cfg) (c : Circuit) (s' : Sim cfg)
    (h : repeatedCnot (cfg := cfg) (cssIter code o₁ nm) o₂ nm lc'' lt'' n m dataInit "constant" rb reset ancDetectors false s =
      (.ok c, s')) : Deterministic (ops c) := by
  obtain ⟨_, _, _, _, -, -, -, -, hf⟩ := C53_fixed hc ht hwc hwt hn e hkc hkt hx hz hrc hrt nt um hargs hargs' o₁ o₂
  obtain ⟨_, _, _, _, _, _, -, -, -, -, -, -, hp, -, hv⟩ := hf rb reset false n m s c s' h
  refine (C51_deterministic hp.2).2 fun ζ ρ ζ' ρ' => ?_
  have v1 := hv ζ ρ
  have v2 := hv ζ' ρ'
  simp only [Bool.false_eq_true, if_false] at v1 v2
  rw [v1.1, v1.2, v2.1, v2.2]
  exact ⟨rfl, rfl⟩

/-! ### an example -/

theorem logZ_params {l0 l : Layout} (hw : WithParams l0 l) : l.logZ = l0.logZ := by
  induction hw with
  | refl => rfl
  | @set l l' _ _ _ _ _ hs ih =>
    rw [← ih]
    unfold Layout.setParam at hs
    split at hs
    · simp at hs
    · simp only [Except.ok.injEq] at hs
      subst hs
      rfl

/-- Detectors for all ancillas of both codes. -/
def bothConfig : Detectors.Config :=
  ⟨ancOfLayout firstCode ++ ancOfLayout secondCode, .postGate, (ancOfLayout firstCode ++ ancOfLayout secondCode).map fun a => (a, [])⟩

/-- Two rotated codes of distances 2 and 3, one initial bit of the first set to one: with three gates and two rounds after each of
them, the experiment returns, and both of its observables are one. -/
example (o o₁ o₂ : SetOrder) : ∃ lc lt lc' lt' : Layout, MadeBy "rotated_surface_code" 2 3 rotDefault lc ∧
    MadeBy "rotated_surface_code" 2 3 secondArgs lt ∧
    setTransCnot "rotated_surface_code" matcher o (lc, lt) = (.ok (), (lc', lt')) ∧
    ∀ s, ∃ c s', repeatedCnot (cfg := bothConfig) (cssIter "rotated_surface_code" o₁ (noiselessBoth lc lt)) o₂
        (noiselessBoth lc lt) lc' lt' 3 2 [("D1", 1)] "constant" false true none false s = (.ok c, s') ∧
      FixedPairValues bothConfig (noiselessBoth lc lt) lc' lt' (3 * 2) [("D1", 1)] false false none 1 1 c := by
  have h1 : rotSurfaceCodeRectangle 2 3 rotDefault = .ok firstCode :=
    ok_layoutOf (by decide +kernel)
  have h2 : rotSurfaceCodeRectangle 2 3 secondArgs = .ok secondCode :=
    ok_layoutOf (by decide +kernel)
  have m1 : MadeBy "rotated_surface_code" 2 3 rotDefault _ := Or.inl ⟨rfl, h1⟩
  have m2 : MadeBy "rotated_surface_code" 2 3 secondArgs _ := Or.inl ⟨rfl, h2⟩
  have hn : CoordsNear firstCode secondCode :=
    coordsNear_of (by decide +kernel)
  obtain ⟨_, _, _, _, _, hp⟩ := pair_of_made m1 m2
  have hp0 := hp _ _ .refl .refl
  have hd : Layout.DisjointFrom firstCode secondCode := by
    have := (C10_accepts_iff_disjoint [firstCode, secondCode]
      (by simp [hp0.c.grid.reach, hp0.t.grid.reach])).1 (by decide +kernel)
    rcases this with h | ⟨-, h⟩
    · simp at h
    · simpa using h
  obtain ⟨⟨lc', lt'⟩, e⟩ := C38_returns m1 m2 .refl .refl (by omega) (by omega) hd matcher o
  obtain ⟨w1, w2, -⟩ := C38_only_stores m1 m2 .refl .refl hn e
  have r1 : CanRun (noiselessBoth firstCode secondCode) firstCode := by
    refine ⟨(C34_noiseless _).toFaithful, by decide +kernel, fun qs hqs => ?_⟩
    rw [getQubits_nil hqs]
    decide +kernel
  have r2 : CanRun (noiselessBoth firstCode secondCode) secondCode := by
    refine ⟨(C34_noiseless _).toFaithful, by decide +kernel, fun qs hqs => ?_⟩
    rw [getQubits_nil hqs]
    decide +kernel
  have r1' := canRun_made m1 .refl w1 r1
  have r2' := canRun_made m2 .refl w2 r2
  have hp1 := hp _ _ w1 w2
  have ac : ancOfLayout lc' = ancOfLayout firstCode := by
    rw [ancOfLayout_grid hp1.c.grid, ← ancOfLayout_grid hp0.c.grid]
  have a_t : ancOfLayout lt' = ancOfLayout secondCode := by
    rw [ancOfLayout_grid hp1.t.grid, ← ancOfLayout_grid hp0.t.grid]
  have ha : PairArgs bothConfig lc' lt' none := by
    refine ⟨⟨by decide +kernel, by decide +kernel⟩, fun l hl a ha => ?_, fun sel h => by simp at h⟩
    simp only [List.mem_cons, List.not_mem_nil, or_false] at hl
    rcases hl with rfl | rfl
    · rw [ac] at ha
      exact List.mem_append_left _ ha
    · rw [a_t] at ha
      exact List.mem_append_right _ ha
  have hg : GateArgs bothConfig [lc', lt'] [("D1", 1)] := by
    refine ⟨by decide, fun a h => ?_, fun l hl => ?_⟩
    · rcases List.mem_append.1 h with h | h
      · exact ⟨lc', by simp, by rw [ac]; exact h⟩
      · exact ⟨lt', by simp, by rw [a_t]; exact h⟩
    · simp only [List.mem_cons, List.not_mem_nil, or_false] at hl
      rcases hl with rfl | rfl
      · rw [ac]; decide +kernel
      · rw [a_t]; decide +kernel
  have hu := (C53_models ((firstCode.qubitInds.map fun kv => (kv.1, kv.2.toNat)) ++
    secondCode.qubitInds.map fun kv => (kv.1, kv.2.toNat))).1
  obtain ⟨Xc, Zc, Xt, Zt, -, k1, -, k2, hf⟩ := C53_fixed m1 m2 .refl .refl hn e ⟨.refl, fun _ => rfl⟩ ⟨.refl, fun _ => rfl⟩
    (by omega) (by omega) r1' r2' hu.1 hu.2.1 ha hg o₁ o₂
  refine ⟨_, _, lc', lt', m1, m2, e, fun s => ?_⟩
  obtain ⟨c, s', hr⟩ := C53_returns m1 m2 .refl .refl hn e ⟨.refl, fun _ => rfl⟩ ⟨.refl, fun _ => rfl⟩
    (by omega) (by omega) r1' r2' hu.1 hu.2.1 hu.2.2 ha hg o₁ o₂ false true false 3 2 s
  have v1 : Zc = ["D1", "D2", "D3"] := by
    rw [logZ_params w1] at k1
    have : firstCode.logZ.get? rotDefault.label = some ["D1", "D2", "D3"] := by decide +kernel
    exact Option.some.inj (k1.symm.trans this)
  have v2 : Zt = ["D10", "D11", "D12"] := by
    rw [logZ_params w2] at k2
    have : secondCode.logZ.get? secondArgs.label = some ["D10", "D11", "D12"] := by decide +kernel
    exact Option.some.inj (k2.symm.trans this)
  subst v1 v2
  refine ⟨c, s', hr, ?_⟩
  have := hf false true false 3 2 s c s' hr
  exact this

end SurfaceSim.Props
