/-
C28, C56, C60: time steps and noise of experiments with transversal CNOT gates in both directions.
-/
import Verif.Props.CnotNoise
import Verif.Props.CnotTurnDistance

namespace SurfaceSim.Props
open Spec NoiseModel Blocks Experiments LayoutLib LogGates

variable {cfg : Detectors.Config} {code : String} {dx dz dx' dz' : Int} {ac a_t : Args} {lc0 lt0 lc lt : Layout}
  {dataInit : Dict String Int} {ancDetectors : Option (List String)} {nm : NoiseModel} {p : Gate → Bool} {ex : Bool}

/-- **C28** In experiments with repeated CNOT gates in both directions every qubit of both layouts is used once between TICKs. -/
theorem C28_repeated_cnot_alternating (hc : MadeBy code dx dz ac lc0) (ht : MadeBy code dx' dz' a_t lt0)
    (e : StoredCnot code ("trans-cnot_" ++ ac.label ++ "_" ++ a_t.label) lc0 lt0 lc lt)
    (e' : StoredCnot code ("trans-cnot_" ++ a_t.label ++ "_" ++ ac.label) lt0 lc0 lt lc) (hu : Uses p ex nm) (o₁ o₂ : SetOrder)
    (gates rounds : Int) (rot reset gauge : Bool) (sel : Option (List String)) (s : Sim cfg) (c : Circuit) (s' : Sim cfg)
    (hr : repeatedCnot (cssIter code o₁ nm) o₂ nm lc lt gates rounds dataInit "alternating" rot reset sel gauge s = (.ok c, s')) :
    ∃ qc qt, lc.getQubits [] = .ok qc ∧ lt.getQubits [] = .ok qt ∧ (qc ++ qt).Nodup ∧
      Timeline p ex ((qc ++ qt).map (ind nm.inds)) (cycle (if rot then 3 else 2) ++ cycle (if reset then 10 else 9) ++
        (List.replicate gates.toNat (cycle 1 ++ (List.replicate rounds.toNat (cycle (if reset then 10 else 9))).flatten)).flatten ++
        cycle (if rot then 2 else 1)) c := by
  obtain ⟨mt, o, l₁, l₂, l₁', l₂', hw1, hw2, hn, he, hk1, hk2⟩ := e
  obtain ⟨mt', o', k₁, k₂, k₁', k₂', hw1', hw2', hn', he', hk1', hk2'⟩ := e'
  obtain ⟨_, _, _, _, _, -, -, -, x1, x2, -⟩ := cnot_done hc ht hw1 hw2 hn he hk1 hk2
  obtain ⟨qc, qt, hqc, hqt, hnd, hg⟩ := C28_trans_cnot (cfg := cfg) hc ht hw1 hw2 hn he hk1 hk2 hu o₂
  obtain ⟨qt', qc', hqt', hqc', -, hg'⟩ := C28_trans_cnot (cfg := cfg) ht hc hw1' hw2' hn' he' hk1' hk2' hu o₂
  rw [hqc, Except.ok.injEq] at hqc'
  rw [hqt, Except.ok.injEq] at hqt'
  subst hqc' hqt'
  refine ⟨qc, qt, hqc, hqt, hnd, ?_⟩
  rw [List.map_append] at hg hg'
  refine time_cnots hc ht (WithParams.trans hw1 (WithParams.trans x1 hk1.1)) (WithParams.trans hw2 (WithParams.trans x2 hk2.1)) hu
    o₁ o₂ hqc hqt hnd (C := fun ct => ct = (lc, lt) ∨ ct = (lt, lc)) (.inl rfl) (fun _ ct h => ?_) (fun _ h => h) (fun ct h => ?_)
    gates rounds rot reset gauge sel s c s' hr
  · rcases h with rfl | rfl
    · exact .inr rfl
    · exact .inl rfl
  · rcases h with rfl | rfl
    · exact hg
    · exact fun s c s' h => (hg' s c s' h).perm List.perm_append_comm

/-- **C56** Every qubit has exactly one noise channel between TICKs of such an experiment. -/
theorem C56_repeated_cnot_alternating {st : Setup} {inds : Dict String Nat} (hc : MadeBy code dx dz ac lc0)
    (ht : MadeBy code dx' dz' a_t lt0) (e : StoredCnot code ("trans-cnot_" ++ ac.label ++ "_" ++ a_t.label) lc0 lt0 lc lt)
    (e' : StoredCnot code ("trans-cnot_" ++ a_t.label ++ "_" ++ ac.label) lt0 lc0 lt lc)
    (hm : nm = circuitNoise st inds ∨ nm = biasedNoise st inds) (o₁ o₂ : SetOrder)
    (gates rounds : Int) (rot reset gauge : Bool) (sel : Option (List String)) (s : Sim cfg) (c : Circuit) (s' : Sim cfg)
    (hr : repeatedCnot (cssIter code o₁ nm) o₂ nm lc lt gates rounds dataInit "alternating" rot reset sel gauge s = (.ok c, s')) :
    ∃ qc qt, lc.getQubits [] = .ok qc ∧ lt.getQubits [] = .ok qt ∧ (qc ++ qt).Nodup ∧
      Timeline Gate.isNoise true ((qc ++ qt).map (ind nm.inds)) (cycle (if rot then 3 else 2) ++ cycle (if reset then 10 else 9) ++
        (List.replicate gates.toNat (cycle 1 ++ (List.replicate rounds.toNat (cycle (if reset then 10 else 9))).flatten)).flatten ++
        cycle (if rot then 2 else 1)) c :=
  C28_repeated_cnot_alternating hc ht e e' (noise_of hm) o₁ o₂ gates rounds rot reset gauge sel s c s' hr

/-- **C60** The noise of experiments with gates in both directions: as long as the noise channels and wrong outcomes cause fewer
errors than the codes have rows (for the Z basis) or columns (for the X basis), a detector changes or the two observables do
not.  Some errors of this number go unnoticed, so that it is exact. -/
theorem C60_noise_alternating_circuit (hc : MadeBy code dx dz ac lc0) (ht : MadeBy code dx' dz' a_t lt0)
    (e : StoredCnot code ("trans-cnot_" ++ ac.label ++ "_" ++ a_t.label) lc0 lt0 lc lt)
    (e' : StoredCnot code ("trans-cnot_" ++ a_t.label ++ "_" ++ ac.label) lt0 lc0 lt lc) (hx : 1 ≤ dx) (hz : 2 ≤ dz)
    (hrc : CanRun nm lc) (hrt : CanRun nm lt) (nt : NoTicks nm) (um : UniformMeas nm) (hu : Uses acts ex nm) (hl : LocalNoise nm)
    (hargs : PairArgs cfg lc lt ancDetectors) (hargs' : GateArgs cfg [lc, lt] dataInit) (o₁ o₂ : SetOrder)
    (rb reset gauge : Bool) (hselc : SelectsBasis lc rb ancDetectors) (hselt : SelectsBasis lt rb ancDetectors)
    (n : Nat) {m : Nat} (hm : 1 ≤ m) (s : Sim cfg) (c : Circuit) (s' : Sim cfg)
    (h : repeatedCnot (cfg := cfg) (cssIter code o₁ nm) o₂ nm lc lt n m dataInit "alternating" rb reset ancDetectors gauge s =
      (.ok c, s')) : Protects (if rb then dz else dx).toNat c ∧ ¬ Protects ((if rb then dz else dx).toNat + 1) c := by
  have h' := h
  rw [alternating_turns] at h'
  obtain ⟨h1, h2⟩ := turn_distance hc ht e e' hx hz hrc hrt nt um hargs hargs' o₁ o₂ rb reset gauge hselc hselt _ _ hm s c s' h'
  refine ⟨?_, h2.not_protects⟩
  obtain ⟨_, _, _, _, _, _, _, _, _, -, tw, -, -, -, -, -, -, w1, w2, -⟩ := turn_codes hc ht e e' hx hz
  obtain ⟨qc, qt, hqc, hqt, hnd, htime⟩ := C28_repeated_cnot_alternating hc ht e e' hu o₁ o₂ n m rb reset gauge ancDetectors
    s c s' h
  refine protects_of_detects (htime.nodup ?_) (local_cnot hc ht w1 w2 hrc hrt hu hl tw.c tw.t o₁ o₂ n m _ rb reset gauge _ _ _ h).2 h1
  rw [List.nodup_map_iff_inj_on hnd]
  have known : ∀ q ∈ qc ++ qt, q ∈ nm.inds.keys := fun q hq =>
    (List.mem_append.1 hq).elim (hrc.known _ hqc q) (hrt.known _ hqt q)
  exact fun x hx y hy e => hrc.inj x (known x hx) y (known y hy) e

/-- **C60** With a noise model whose circuits for equally many qubits differ only in their targets, the experiment does return
such a circuit. -/
theorem C60_noise_alternating (hc : MadeBy code dx dz ac lc0) (ht : MadeBy code dx' dz' a_t lt0)
    (e : StoredCnot code ("trans-cnot_" ++ ac.label ++ "_" ++ a_t.label) lc0 lt0 lc lt)
    (e' : StoredCnot code ("trans-cnot_" ++ a_t.label ++ "_" ++ ac.label) lt0 lc0 lt lc) (hx : 1 ≤ dx) (hz : 2 ≤ dz)
    (hrc : CanRun nm lc) (hrt : CanRun nm lt) (hu' : Uniform nm) (hu : Uses acts ex nm) (hl : LocalNoise nm)
    (hargs : PairArgs cfg lc lt ancDetectors) (hargs' : GateArgs cfg [lc, lt] dataInit) (o₁ o₂ : SetOrder)
    (rb reset gauge : Bool) (hselc : SelectsBasis lc rb ancDetectors) (hselt : SelectsBasis lt rb ancDetectors)
    (n : Nat) {m : Nat} (hm : 1 ≤ m) :
    NoiseDistance cfg (if rb then dz else dx).toNat
      (repeatedCnot (cssIter code o₁ nm) o₂ nm lc lt n m dataInit "alternating" rb reset ancDetectors gauge) := fun s => by
  obtain ⟨nt, um, un⟩ := hu'
  obtain ⟨c, s', h⟩ := C53_alternating_returns hc ht e e' hx hz hrc hrt nt um un hargs hargs' o₁ o₂ rb reset gauge n hm s
  exact ⟨c, s', h, C60_noise_alternating_circuit hc ht e e' hx hz hrc hrt nt um hu hl hargs hargs' o₁ o₂ rb reset gauge hselc hselt
    n hm s c s' h⟩

/-! ### an example -/

/-- Two rotated codes of distances 2 and 3 with `CircuitNoiseModel`, with any number of gates and at least one round after each of
them. -/
example (o o₁ o₂ : SetOrder) (rb reset gauge : Bool) (n m : Nat) : ∃ lc lt : Layout,
    StoredCnot "rotated_surface_code" "trans-cnot_L0_L1" firstCode secondCode lc lt ∧
    StoredCnot "rotated_surface_code" "trans-cnot_L1_L0" secondCode firstCode lt lc ∧
    NoiseDistance bothConfig (if rb then 3 else 2) (repeatedCnot (cssIter "rotated_surface_code" o₁ (noisyBoth firstCode secondCode)) o₂
      (noisyBoth firstCode secondCode) lc lt n (m + 1 : Nat) [("D1", 1)] "alternating" rb reset none gauge) := by
  obtain ⟨lc, lt, m1, m2, w1, w2, s1, s2, ha, hg⟩ := both_stored o
  have hf : Faithful (noisyBoth firstCode secondCode) := (C34_circuit_noise _ _ (noisySetup_ok _)).toFaithful
  have r1 : CanRun (noisyBoth firstCode secondCode) firstCode := by
    refine ⟨hf, by decide +kernel, fun qs hqs => ?_⟩
    rw [getQubits_nil hqs]
    decide +kernel
  have r2 : CanRun (noisyBoth firstCode secondCode) secondCode := by
    refine ⟨hf, by decide +kernel, fun qs hqs => ?_⟩
    rw [getQubits_nil hqs]
    decide +kernel
  have hs : SameParams noisySetup := by
    obtain ⟨st, k1, -⟩ := C34_circuit_noise_setup_ok (1/100) (by norm_num) (by norm_num) []
    have : noisySetup = st := by unfold noisySetup; rw [k1]
    rw [this]
    exact C53_circuit_noise_setup k1
  have hu := ((C53_models (noiselessBoth firstCode secondCode).inds).2 noisySetup hs).1
  refine ⟨lc, lt, s1, s2, ?_⟩
  have := C60_noise_alternating m1 m2 s1 s2 (by omega) (by omega) (canRun_made m1 .refl w1 r1) (canRun_made m2 .refl w2 r2)
    hu (uses_circuitNoise _ _) (local_circuitNoise _ _) ha hg o₁ o₂ rb reset gauge (fun _ h => nomatch h) (fun _ h => nomatch h) n
    (m := m + 1) (by omega)
  cases rb <;> exact this

end SurfaceSim.Props
