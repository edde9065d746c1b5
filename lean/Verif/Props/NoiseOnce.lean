/-
With the circuit-level noise models every qubit has exactly one noise channel in each time step (C56).
-/
import Verif.Props.UsageTrans

namespace SurfaceSim.Props
open Spec NoiseModel Blocks LayoutLib LogGates

variable {l0 l l' l'' : Layout} {a : Args} {dx dz dx' dz' : Int} {q : String} {nm : NoiseModel} {cfg : Detectors.Config}
  {st : Setup} {inds : Dict String Nat}

/-- **C56** A gate, reset, measurement or idling of `CircuitNoiseModel` and `BiasedCircuitNoiseModel` has one noise channel
on each of its qubits, `incoming_noise` has none. -/
theorem C56_models (st : Setup) (inds : Dict String Nat) :
    Uses Gate.isNoise true (circuitNoise st inds) ∧ Uses Gate.isNoise true (biasedNoise st inds) :=
  ⟨noise_circuitNoise st inds, noise_biasedNoise st inds⟩

theorem noise_of (hn : nm = circuitNoise st inds ∨ nm = biasedNoise st inds) : Uses Gate.isNoise true nm := by
  rcases hn with rfl | rfl
  · exact noise_circuitNoise st inds
  · exact noise_biasedNoise st inds

/-- **C56** In the rounds on rotated codes every qubit has exactly one noise channel between TICKs. -/
theorem C56_rot_rounds (h : rotSurfaceCodeRectangle dx dz a = .ok l0) (hw : WithParams l0 l)
    (hn : nm = circuitNoise st inds ∨ nm = biasedNoise st inds) (o : SetOrder) (reset rot : Bool) (sel : Option (List String)) :
    OncePerTick Gate.isNoise true nm.inds l true (if reset then 10 else 9) true
      (qecRound (cfg := cfg) (cssIter "rotated_surface_code" o nm l reset) l reset sel) ∧
    OncePerTick Gate.isNoise true nm.inds l true (if reset then 13 else 12) true
      (qecRound (cfg := cfg) (cssPipeIter o nm l reset) l reset sel) ∧
    OncePerTick Gate.isNoise true nm.inds l true (if reset then 13 else 12) true
      (qecRound (cfg := cfg) (xzzxPipeIter o nm l reset) l reset sel) ∧
    OncePerTick Gate.isNoise true nm.inds l true 11 true (googleRound (cfg := cfg) o nm l sel) ∧
    OncePerTick Gate.isNoise true nm.inds l true 10 false (googleFinal (cfg := cfg) o nm l sel rot) :=
  have hu := noise_of hn
  have hp := C28_pipelined h hw hu o reset sel
  have hg := C28_google h hw hu o sel rot
  ⟨C28_rot_css h hw hu o reset sel, hp.1, hp.2, hg.1, hg.2⟩

/-- **C56** Same for the initialization, the logical measurement and the logical gates of rotated codes. -/
theorem C56_rot_blocks (h : rotSurfaceCodeRectangle dx dz a = .ok l0) (hw : WithParams l0 l)
    (hn : nm = circuitNoise st inds ∨ nm = biasedNoise st inds) (o : SetOrder) (reset rot : Bool) (sel : Option (List String))
    (dataInit : Dict String Int) {qs : List String} (hq : l.getQubits [] = .ok qs)
    (hk : ∀ q v, (q, v) ∈ dataInit → v ≠ 0 → q ∈ qs) (hdx : 1 ≤ dx) (hdz : 1 ≤ dz) :
    OncePerTick Gate.isNoise true nm.inds l false (if rot then 3 else 2) true (initQubits (cfg := cfg) o nm l dataInit rot) ∧
    OncePerTick Gate.isNoise true nm.inds l false 3 true (initQubitsXzzx (cfg := cfg) o nm l dataInit rot) ∧
    OncePerTick Gate.isNoise true nm.inds l true (if rot then 2 else 1) true (logMeas (cfg := cfg) nm l rot reset sel) ∧
    OncePerTick Gate.isNoise true nm.inds l true 2 true (logMeasXzzx (cfg := cfg) o nm l rot reset sel) ∧
    OncePerTick Gate.isNoise true nm.inds l true 1 true (logX o nm l) ∧
    OncePerTick Gate.isNoise true nm.inds l true 1 true (logZ o nm l) :=
  have hu := noise_of hn
  have h1 := C28_rot_init (cfg := cfg) h hw hu o dataInit hq hk rot
  have h2 := C28_rot_meas (cfg := cfg) h hw hu o rot reset sel
  have h3 := C28_rot_log h hw hdx hdz hu o
  ⟨h1.1, h1.2, h2.1, h2.2, h3.1, h3.2⟩

/-- **C56** Same for the round, the initialization, the logical measurement and the logical gates of unrotated codes. -/
theorem C56_unrot (h : unrotSurfaceCodeRectangle dx dz a = .ok l0) (hw : WithParams l0 l)
    (hn : nm = circuitNoise st inds ∨ nm = biasedNoise st inds) (o : SetOrder) (reset rot : Bool) (sel : Option (List String))
    (dataInit : Dict String Int) {qs : List String} (hq : l.getQubits [] = .ok qs)
    (hk : ∀ q v, (q, v) ∈ dataInit → v ≠ 0 → q ∈ qs) (hdx : 1 ≤ dx) (hdz : 1 ≤ dz) :
    OncePerTick Gate.isNoise true nm.inds l true (if reset then 10 else 9) true
      (qecRound (cfg := cfg) (cssIter "unrotated_surface_code" o nm l reset) l reset sel) ∧
    OncePerTick Gate.isNoise true nm.inds l false (if rot then 3 else 2) true (initQubits (cfg := cfg) o nm l dataInit rot) ∧
    OncePerTick Gate.isNoise true nm.inds l true (if rot then 2 else 1) true (logMeas (cfg := cfg) nm l rot reset sel) ∧
    OncePerTick Gate.isNoise true nm.inds l true 1 true (logX o nm l) ∧
    OncePerTick Gate.isNoise true nm.inds l true 1 true (logZ o nm l) :=
  have hu := noise_of hn
  have h3 := C28_unrot_log h hw hdx hdz hu o
  ⟨C28_unrot_css h hw hu o reset sel, C28_unrot_init h hw hu o dataInit hq hk rot, C28_unrot_meas h hw hu rot reset sel, h3.1, h3.2⟩

/-- **C56** Same for the transversal gates. -/
theorem C56_transversal (hn : nm = circuitNoise st inds ∨ nm = biasedNoise st inds) (o : SetOrder) :
    (∀ l0 l l' l'', unrotSurfaceCodeRectangle dx dz a = .ok l0 → WithParams l0 l →
      unrotSetTransS q l = (.ok (), l') → KeptGate ("trans-s_" ++ a.label) l' l'' →
      OncePerTick Gate.isNoise true nm.inds l'' true 2 true (transS (cfg := cfg) o nm l'')) ∧
    (∀ l0 l l' l'', rotSurfaceCodeRectangle dx dz a = .ok l0 → WithParams l0 l →
      rotSetTransS q l = (.ok (), l') → KeptGate ("trans-s_" ++ a.label) l' l'' →
      OncePerTick Gate.isNoise true nm.inds l'' true 2 true (transS (cfg := cfg) o nm l'')) ∧
    (∀ l0 l l' l'', unrotSurfaceCodeRectangle dx dz a = .ok l0 → WithParams l0 l →
      unrotSetTransH q l = (.ok (), l') → KeptGate ("trans-h_" ++ a.label) l' l'' →
      OncePerTick Gate.isNoise true nm.inds l'' true 2 true (transH (cfg := cfg) o nm l'')) ∧
    (∀ code ac a_t lc0 lt0 lc lt lc' lt' lc'' lt'' mt o', MadeBy code dx dz ac lc0 → MadeBy code dx' dz' a_t lt0 →
      WithParams lc0 lc → WithParams lt0 lt → CoordsNear lc lt → setTransCnot code mt o' (lc, lt) = (.ok (), (lc', lt')) →
      KeptGate ("trans-cnot_" ++ ac.label ++ "_" ++ a_t.label) lc' lc'' →
      KeptGate ("trans-cnot_" ++ ac.label ++ "_" ++ a_t.label) lt' lt'' →
      ∃ qc qt, lc''.getQubits [] = .ok qc ∧ lt''.getQubits [] = .ok qt ∧ (qc ++ qt).Nodup ∧
        ∀ s c s', transCnot (cfg := cfg) o nm lc'' lt'' s = (.ok c, s') →
          EachOnce Gate.isNoise true ((qc ++ qt).map (ind nm.inds)) true 1 true c) :=
  have hu := noise_of hn
  ⟨fun _ _ _ _ h hw e hk => C28_unrot_trans_s h hw e hk hu o, fun _ _ _ _ h hw e hk => C28_rot_trans_s h hw e hk hu o,
    fun _ _ _ _ h hw e hk => C28_unrot_trans_h h hw e hk hu o,
    fun _ _ _ _ _ _ _ _ _ _ _ _ _ hc ht hwc hwt hn' e hkc hkt => C28_trans_cnot hc ht hwc hwt hn' e hkc hkt hu o⟩

/-! ### cases -/

/-- `CircuitNoiseSetup()` with `prob = 1/100`. -/
def noisySetup : Setup :=
  match circuitNoiseSetup (1/100) with
  | .ok s => s
  | .error _ => ⟨none, none, [], [], [], []⟩

/-- `CircuitNoiseModel` with this setup and the indices of a layout. -/
def noisyFor (l : Layout) : NoiseModel := circuitNoise noisySetup (noiselessFor l).inds

/-- **C56** `log_x_xzzx` and `log_z_xzzx` leave data qubits without noise. -/
theorem C56_log_xzzx_wrong : ∃ l, rotSurfaceCode 2 rotDefault = .ok l ∧
    ¬ OncePerTick Gate.isNoise true (noisyFor l).inds l true 1 true (logXXzzx .insertion (noisyFor l) l) ∧
    ¬ OncePerTick Gate.isNoise true (noisyFor l).inds l true 1 true (logZXzzx .insertion (noisyFor l) l) := by
  refine ⟨_, ok_layoutOf (by decide +kernel), ?_, ?_⟩ <;>
  · rintro ⟨qs, h1, -, h3⟩
    obtain ⟨bs, h4, h5, h6⟩ :=
      h3 (.fresh (noisyFor (layoutOf (rotSurfaceCode 2 rotDefault))).inds) _ _ (ok_result (by decide +kernel))
    have hq : (layoutOf (rotSurfaceCode 2 rotDefault)).getQubits [] = .ok ["D1", "D2", "D3", "D4", "X1", "X2", "Z1"] := by
      decide +kernel
    rw [hq, Except.ok.injEq] at h1
    subst h1
    obtain ⟨u, rfl⟩ := List.length_eq_one_iff.1 h5
    have h7 := (h6 u (by simp)).length_eq
    have h8 := congrArg (fun bs => (bs[1]?).map List.length) h4
    simp only [if_pos, List.cons_append, List.nil_append, List.getElem?_cons_succ, List.getElem?_cons_zero, Option.map_some,
      h7] at h8
    exact absurd h8 (by decide +kernel)

/-- **C56** The round of rot_surface_code_xzzx.py as it is has two noise channels on some qubits in step g. -/
theorem C56_xzzx_wrong : ∃ l, rotSurfaceCode 2 rotDefault = .ok l ∧
    ∀ n, ¬ OncePerTick Gate.isNoise true (noisyFor l).inds l true n true
      (sumGen (xzzxIter .insertion (noisyFor l) l false)) := by
  refine ⟨_, ok_layoutOf (by decide +kernel), ?_⟩
  rintro n ⟨qs, h1, -, h3⟩
  have e := h3 (.fresh (noisyFor (layoutOf (rotSurfaceCode 2 rotDefault))).inds) _ _ (ok_result (by decide +kernel))
  have hq : (layoutOf (rotSurfaceCode 2 rotDefault)).getQubits [] = .ok ["D1", "D2", "D3", "D4", "X1", "X2", "Z1"] := by
    decide +kernel
  rw [hq, Except.ok.injEq] at h1
  subst h1
  exact absurd (eachOnce_nodup e (by decide +kernel)) (by decide +kernel)

/-- C56: the round on the rotated code of distance 2 returns, and these qubits have noise in its steps. -/
example : ∃ c s', sumGen (cssIter "rotated_surface_code" .insertion (noisyFor (layoutOf (rotSurfaceCode 2 rotDefault)))
      (layoutOf (rotSurfaceCode 2 rotDefault)) true) (.fresh (noisyFor (layoutOf (rotSurfaceCode 2 rotDefault))).inds) =
      (.ok c, s') ∧ ((tickBlocks c).map (used Gate.isNoise)).take 4 =
        [[], [4, 5, 6, 0, 1, 2, 3], [4, 5, 6, 1, 2, 0, 3], [4, 1, 6, 3, 0, 2, 5]] :=
  ⟨_, _, ok_result (by decide +kernel), by decide +kernel⟩

/-- C56: the hypotheses hold for the code of distance 2 with this setup, and the S gate of the unrotated code. -/
example (o : SetOrder) (reset : Bool) :
    ∃ l lu lu' : Layout, rotSurfaceCode 2 rotDefault = .ok l ∧ unrotSurfaceCode 2 unrotDefault = .ok lu ∧
    unrotSetTransS "D1" lu = (.ok (), lu') ∧
    OncePerTick Gate.isNoise true (noisyFor l).inds l true (if reset then 10 else 9) true
      (qecRound (cfg := cfg) (cssIter "rotated_surface_code" o (noisyFor l) l reset) l reset none) ∧
    OncePerTick Gate.isNoise true (noisyFor lu').inds lu' true 2 true (transS (cfg := cfg) o (noisyFor lu') lu') := by
  have h0 : rotSurfaceCode 2 rotDefault = .ok (layoutOf (rotSurfaceCode 2 rotDefault)) := ok_layoutOf (by decide +kernel)
  have h1 : unrotSurfaceCode 2 unrotDefault = .ok (layoutOf (unrotSurfaceCode 2 unrotDefault)) := ok_layoutOf (by decide +kernel)
  have h2 : unrotSetTransS "D1" (layoutOf (unrotSurfaceCode 2 unrotDefault)) = (.ok (), sExample) :=
    Prod.ext (by decide +kernel) rfl
  exact ⟨_, _, _, h0, h1, h2, (C56_rot_rounds h0 .refl (.inl rfl) o reset true none).1,
    (C56_transversal (dx' := 0) (dz' := 0) (.inl rfl) o).1 _ _ _ _ h1 .refl h2 ⟨.refl, fun _ => rfl⟩⟩

end SurfaceSim.Props
