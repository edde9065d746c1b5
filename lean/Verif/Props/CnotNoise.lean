/-
C60: the noise of experiments with transversal CNOT gates must cause as many errors as the distance of the code.
-/
import Verif.Lemmas.NoiseLocalCnot
import Verif.Props.CnotDistance
import Verif.Props.NoiseDistance

namespace SurfaceSim.Props
open Spec NoiseModel Blocks Experiments LayoutLib LogGates

variable {cfg : Detectors.Config} {code : String} {dx dz dx' dz' : Int} {ac a_t : Args} {lc0 lt0 lc lt lc' lt' lc'' lt'' : Layout}
  {mt : Matcher} {o : SetOrder} {dataInit : Dict String Int} {ancDetectors : Option (List String)} {nm : NoiseModel} {ex : Bool}

theorem local_cnot (hc : MadeBy code dx dz ac lc0) (ht : MadeBy code dx' dz' a_t lt0) (hwc : WithParams lc0 lc'')
    (hwt : WithParams lt0 lt'') (hrc : CanRun nm lc'') (hrt : CanRun nm lt'') (hu : Uses acts ex nm) (hl : LocalNoise nm)
    {Lc Lt : List (String × Site × Kind)} {dirs : List (Site × String)} (hgc : OnGrid lc'' Lc dirs) (hgt : OnGrid lt'' Lt dirs)
    (o₁ o₂ : SetOrder) (n m : Int) (orient : String) (rb reset gauge : Bool) :
    IsLocal (repeatedCnot (cfg := cfg) (cssIter code o₁ nm) o₂ nm lc'' lt'' n m dataInit orient rb reset ancDetectors gauge) := by
  have hn := localModel_of hrc.faithful hl
  have hone : ∀ {l : Layout} {qs : List String}, l.getQubits [] = .ok qs → CanRun nm l →
      ∀ q, isOne (dataInit.filter fun kv => decide (kv.1 ∈ qs)) q = 1 → q ∈ nm.inds.keys := by
    intro l qs h1 h2 q hq
    refine h2.known _ h1 q ?_
    rw [isOne_filter] at hq
    by_contra hn
    rw [if_neg hn] at hq
    exact absurd hq (by decide)
  refine local_repeatedCnot hn hgc.getQubits_all hgt.getQubits_all
    (isBare_initIter hrc hn hgc _ (hone hgc.getQubits_all hrc) _) (isBare_initIter hrt hn hgt _ (hone hgt.getQubits_all hrt) _)
    (C := fun ct => ct = (lc'', lt'') ∨ ct = (lt'', lc'')) (.inl rfl) (fun _ ct h => ?_) (fun ct hct sel => ?_) fun ct hct sel => ?_
  · rcases h with rfl | rfl
    · exact .inr rfl
    · exact .inl rfl
  · refine isLocal_mergeQecRounds (p := acts) (ex := ex) (inds := nm.inds) (n := if reset then 10 else 9) (by simp) reset sel
      (fun l h => ?_) fun l h => hn.cssIter _ _ _ _
    have h : l = lc'' ∨ l = lt'' := by
      rcases hct with rfl | rfl
      · simpa using h
      · exact Or.symm (by simpa using h)
    rcases h with rfl | rfl
    · rcases hc with ⟨rfl, hc⟩ | ⟨rfl, hc⟩
      · exact alt_rot_css hc hwc hu o₁ reset
      · exact alt_unrot_css hc hwc hu o₁ reset
    · rcases ht with ⟨rfl, ht⟩ | ⟨rfl, ht⟩
      · exact alt_rot_css ht hwt hu o₁ reset
      · exact alt_unrot_css ht hwt hu o₁ reset
  · refine isLocal_mergeLogMeas (p := acts) (ex := ex) (inds := nm.inds) (n := if rb then 2 else 1) (by simp) rb [rb, rb] (by simp)
      reset sel (fun l h => ?_) fun l h => hn.logMeasIter _ _
    have h : l = lc'' ∨ l = lt'' := by
      rcases hct with rfl | rfl
      · simpa using h
      · exact Or.symm (by simpa using h)
    rcases h with rfl | rfl
    · exact alt_logMeas hu hgc rb
    · exact alt_logMeas hu hgt rb

/-- **C60** The noise of such an experiment: whenever the experiment returns a circuit, let each of the noise channels in it put
any Pauli error on any of its qubits or pairs of qubits, and let any measurement have a wrong outcome.  As long as this happens
fewer times than the codes have rows (for the Z basis) or columns (for the X basis), a detector changes or the two observables
do not.  Some errors of this number go unnoticed, so that it is exact. -/
theorem C60_noise_circuit (hc : MadeBy code dx dz ac lc0) (ht : MadeBy code dx' dz' a_t lt0) (hwc : WithParams lc0 lc)
    (hwt : WithParams lt0 lt) (hn : CoordsNear lc lt) (e : setTransCnot code mt o (lc, lt) = (.ok (), (lc', lt')))
    (hkc : KeptGate ("trans-cnot_" ++ ac.label ++ "_" ++ a_t.label) lc' lc'')
    (hkt : KeptGate ("trans-cnot_" ++ ac.label ++ "_" ++ a_t.label) lt' lt'') (hx : 1 ≤ dx) (hz : 2 ≤ dz)
    (hrc : CanRun nm lc'') (hrt : CanRun nm lt'') (nt : NoTicks nm) (um : UniformMeas nm) (hu : Uses acts ex nm) (hl : LocalNoise nm)
    (hargs : PairArgs cfg lc'' lt'' ancDetectors) (hargs' : GateArgs cfg [lc'', lt''] dataInit) (o₁ o₂ : SetOrder)
    (rb reset gauge : Bool) (hselc : SelectsBasis lc'' rb ancDetectors) (hselt : SelectsBasis lt'' rb ancDetectors)
    (n m : Nat) (s : Sim cfg) (c : Circuit) (s' : Sim cfg)
    (h : repeatedCnot (cfg := cfg) (cssIter code o₁ nm) o₂ nm lc'' lt'' n m dataInit "constant" rb reset ancDetectors gauge s =
      (.ok c, s')) : Protects (if rb then dz else dx).toNat c ∧ ¬ Protects ((if rb then dz else dx).toNat + 1) c := by
  obtain ⟨_, _, _, _, _, -, tw, hg⟩ := cnot_distance hc ht hwc hwt hn e hkc hkt hx hz hrc hrt nt um hargs hargs' o₁ o₂ rb reset gauge
    hselc hselt n m s
  obtain ⟨h1, h2⟩ := hg.1 c s' h
  refine ⟨?_, h2.not_protects⟩
  obtain ⟨_, _, _, _, _, -, -, -, k1, k2, -⟩ := cnot_done hc ht hwc hwt hn e hkc hkt
  obtain ⟨qc, qt, hqc, hqt, hnd, htime⟩ := C28_repeated_cnot hc ht hwc hwt hn e hkc hkt hu o₁ o₂ n m rb reset gauge ancDetectors
    s c s' h
  refine protects_of_detects (htime.nodup ?_) (local_cnot hc ht (WithParams.trans hwc (WithParams.trans k1 hkc.1))
    (WithParams.trans hwt (WithParams.trans k2 hkt.1)) hrc hrt hu hl tw.c tw.t o₁ o₂ n m _ rb reset gauge _ _ _ h).2 h1
  rw [List.nodup_map_iff_inj_on hnd]
  have known : ∀ q ∈ qc ++ qt, q ∈ nm.inds.keys := fun q hq =>
    (List.mem_append.1 hq).elim (hrc.known _ hqc q) (hrt.known _ hqt q)
  exact fun x hx y hy e => hrc.inj x (known x hx) y (known y hy) e

/-- **C60** With a noise model whose circuits for equally many qubits differ only in their targets, the experiment does return
such a circuit. -/
theorem C60_noise (hc : MadeBy code dx dz ac lc0) (ht : MadeBy code dx' dz' a_t lt0) (hwc : WithParams lc0 lc)
    (hwt : WithParams lt0 lt) (hn : CoordsNear lc lt) (e : setTransCnot code mt o (lc, lt) = (.ok (), (lc', lt')))
    (hkc : KeptGate ("trans-cnot_" ++ ac.label ++ "_" ++ a_t.label) lc' lc'')
    (hkt : KeptGate ("trans-cnot_" ++ ac.label ++ "_" ++ a_t.label) lt' lt'') (hx : 1 ≤ dx) (hz : 2 ≤ dz)
    (hrc : CanRun nm lc'') (hrt : CanRun nm lt'') (hm : Uniform nm) (hu : Uses acts ex nm) (hl : LocalNoise nm)
    (hargs : PairArgs cfg lc'' lt'' ancDetectors) (hargs' : GateArgs cfg [lc'', lt''] dataInit) (o₁ o₂ : SetOrder)
    (rb reset gauge : Bool) (hselc : SelectsBasis lc'' rb ancDetectors) (hselt : SelectsBasis lt'' rb ancDetectors) (n m : Nat) :
    NoiseDistance cfg (if rb then dz else dx).toNat
      (repeatedCnot (cssIter code o₁ nm) o₂ nm lc'' lt'' n m dataInit "constant" rb reset ancDetectors gauge) := fun s => by
  obtain ⟨nt, um, un⟩ := hm
  obtain ⟨c, s', h⟩ := C53_returns hc ht hwc hwt hn e hkc hkt hx hz hrc hrt nt um un hargs hargs' o₁ o₂ rb reset gauge n m s
  exact ⟨c, s', h, C60_noise_circuit hc ht hwc hwt hn e hkc hkt hx hz hrc hrt nt um hu hl hargs hargs' o₁ o₂ rb reset gauge hselc
    hselt n m s c s' h⟩

/-! ### an example -/

/-- `CircuitNoiseModel` for the qubits of two layouts. -/
def noisyBoth (lc lt : Layout) : NoiseModel := circuitNoise noisySetup (noiselessBoth lc lt).inds

/-- Two rotated codes of distances 2 and 3 with `CircuitNoiseModel`, with any number of gates and of rounds after each of them. -/
example (o o₁ o₂ : SetOrder) (rb reset gauge : Bool) (n m : Nat) : ∃ lc lt lc' lt' : Layout,
    MadeBy "rotated_surface_code" 2 3 rotDefault lc ∧ MadeBy "rotated_surface_code" 2 3 secondArgs lt ∧
    setTransCnot "rotated_surface_code" matcher o (lc, lt) = (.ok (), (lc', lt')) ∧
    NoiseDistance bothConfig (if rb then 3 else 2) (repeatedCnot (cssIter "rotated_surface_code" o₁ (noisyBoth lc lt)) o₂
      (noisyBoth lc lt) lc' lt' n m [("D1", 1)] "constant" rb reset none gauge) := by
  have h1 : rotSurfaceCodeRectangle 2 3 rotDefault = .ok firstCode :=
    ok_layoutOf (by decide +kernel)
  have h2 : rotSurfaceCodeRectangle 2 3 secondArgs = .ok secondCode :=
    ok_layoutOf (by decide +kernel)
  have m1 : MadeBy "rotated_surface_code" 2 3 rotDefault _ := Or.inl ⟨rfl, h1⟩
  have m2 : MadeBy "rotated_surface_code" 2 3 secondArgs _ := Or.inl ⟨rfl, h2⟩
  have hn : CoordsNear firstCode secondCode :=
    coordsNear_of (by decide +kernel)
  obtain ⟨_, _, _, _, _, hp⟩ := pair_of_made m1 m2
  have hp0 := hp _ _ .refl .refl
  have hd : Layout.DisjointFrom firstCode secondCode := by
    have := (C10_accepts_iff_disjoint [firstCode, secondCode]
      (by simp [hp0.c.grid.reach, hp0.t.grid.reach])).1 (by decide +kernel)
    rcases this with h | ⟨-, h⟩
    · simp at h
    · simpa using h
  obtain ⟨⟨lc', lt'⟩, e⟩ := C38_returns m1 m2 .refl .refl (by omega) (by omega) hd matcher o
  obtain ⟨w1, w2, -⟩ := C38_only_stores m1 m2 .refl .refl hn e
  have hf : Faithful (noisyBoth firstCode secondCode) := (C34_circuit_noise _ _ (noisySetup_ok _)).toFaithful
  have r1 : CanRun (noisyBoth firstCode secondCode) firstCode := by
    refine ⟨hf, by decide +kernel, fun qs hqs => ?_⟩
    rw [getQubits_nil hqs]
    decide +kernel
  have r2 : CanRun (noisyBoth firstCode secondCode) secondCode := by
    refine ⟨hf, by decide +kernel, fun qs hqs => ?_⟩
    rw [getQubits_nil hqs]
    decide +kernel
  have hp1 := hp _ _ w1 w2
  have ac : ancOfLayout lc' = ancOfLayout firstCode := by
    rw [ancOfLayout_grid hp1.c.grid, ← ancOfLayout_grid hp0.c.grid]
  have a_t : ancOfLayout lt' = ancOfLayout secondCode := by
    rw [ancOfLayout_grid hp1.t.grid, ← ancOfLayout_grid hp0.t.grid]
  have ha : PairArgs bothConfig lc' lt' none := by
    refine ⟨⟨by decide +kernel, by decide +kernel⟩, fun l hl a ha => ?_, fun sel h => by simp at h⟩
    simp only [List.mem_cons, List.not_mem_nil, or_false] at hl
    rcases hl with rfl | rfl
    · rw [ac] at ha
      exact List.mem_append_left _ ha
    · rw [a_t] at ha
      exact List.mem_append_right _ ha
  have hg : GateArgs bothConfig [lc', lt'] [("D1", 1)] := by
    refine ⟨by decide, fun a h => ?_, fun l hl => ?_⟩
    · rcases List.mem_append.1 h with h | h
      · exact ⟨lc', by simp, by rw [ac]; exact h⟩
      · exact ⟨lt', by simp, by rw [a_t]; exact h⟩
    · simp only [List.mem_cons, List.not_mem_nil, or_false] at hl
      rcases hl with rfl | rfl
      · rw [ac]; decide +kernel
      · rw [a_t]; decide +kernel
  have hs : SameParams noisySetup := by
    obtain ⟨st, k1, -⟩ := C34_circuit_noise_setup_ok (1/100) (by norm_num) (by norm_num) []
    have : noisySetup = st := by unfold noisySetup; rw [k1]
    rw [this]
    exact C53_circuit_noise_setup k1
  have hu := ((C53_models (noiselessBoth firstCode secondCode).inds).2 noisySetup hs).1
  refine ⟨_, _, lc', lt', m1, m2, e, ?_⟩
  have := C60_noise m1 m2 .refl .refl hn e ⟨.refl, fun _ => rfl⟩ ⟨.refl, fun _ => rfl⟩ (by omega) (by omega)
    (canRun_made m1 .refl w1 r1) (canRun_made m2 .refl w2 r2) hu (uses_circuitNoise _ _) (local_circuitNoise _ _) ha hg o₁ o₂
    rb reset gauge (fun _ h => nomatch h) (fun _ h => nomatch h) n m
  cases rb <;> exact this

end SurfaceSim.Props
