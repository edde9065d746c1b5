/-
C28, C56, C64: time steps and noise of programs of logical operations on two codes.
-/
import Verif.Lemmas.UsagePair
import Verif.Props.PairProgramDistance
import Verif.Props.CnotTurnNoise

namespace SurfaceSim.Props
open Spec NoiseModel Blocks Experiments LayoutLib LogGates

variable {cfg : Detectors.Config} {code : String} {dx dz dx' dz' : Int} {ac a_t : Args} {lc0 lt0 lc lt : Layout}
  {dataInit : Dict String Int} {ancDetectors : Option (List String)} {nm : NoiseModel} {p : Gate → Bool} {ex : Bool}

theorem log_once (hc : MadeBy code dx dz ac lc0) (hw : WithParams lc0 lc) (hdx : 1 ≤ dx) (hdz : 1 ≤ dz) (hu : Uses p ex nm)
    (o : SetOrder) :
    OncePerTick p ex nm.inds lc true 1 true (logX o nm lc) ∧ OncePerTick p ex nm.inds lc true 1 true (logZ o nm lc) := by
  rcases hc with ⟨rfl, hc⟩ | ⟨rfl, hc⟩
  · exact C28_rot_log hc hw hdx hdz hu o
  · exact C28_unrot_log hc hw hdx hdz hu o

/-- **C28** In programs of logical operations on two codes no qubit is used twice between TICKs, and every qubit is used once if there
is no logical X or Z gate, which acts on one of the codes only.  A merged round takes ten or nine time steps and any other operation
one. -/
theorem C28_pair_program (hc : MadeBy code dx dz ac lc0) (ht : MadeBy code dx' dz' a_t lt0)
    (e : StoredCnot code ("trans-cnot_" ++ ac.label ++ "_" ++ a_t.label) lc0 lt0 lc lt)
    (e' : StoredCnot code ("trans-cnot_" ++ a_t.label ++ "_" ++ ac.label) lt0 lc0 lt lc) (hx : 1 ≤ dx) (hz : 1 ≤ dz)
    (hx' : 1 ≤ dx') (hz' : 1 ≤ dz') (hu : Uses p ex nm) (o₁ o₂ : SetOrder)
    (rot reset gauge : Bool) (sel : Option (List String)) (steps : List PairStep) (final : Bool) (s : Sim cfg) (c : Circuit)
    (s' : Sim cfg)
    (hr : pairProgram (cssIter code o₁ nm) o₂ nm lc lt dataInit rot reset sel gauge steps final s = (.ok c, s')) :
    ∃ qc qt, lc.getQubits [] = .ok qc ∧ lt.getQubits [] = .ok qt ∧ (qc ++ qt).Nodup ∧
      Timeline p (ex && steps.all PairStep.onBoth) ((qc ++ qt).map (ind nm.inds)) (cycle (if rot then 3 else 2) ++ cycle (if reset then 10 else 9) ++
        (steps.flatMap fun x => cycle (x.ticks reset)) ++ cycle (if rot then 2 else 1)) c := by
  obtain ⟨mt, o, l₁, l₂, l₁', l₂', hw1, hw2, hn, he, hk1, hk2⟩ := e
  obtain ⟨mt', o', k₁, k₂, k₁', k₂', hw1', hw2', hn', he', hk1', hk2'⟩ := e'
  obtain ⟨_, _, _, _, _, -, -, -, x1, x2, -⟩ := cnot_done hc ht hw1 hw2 hn he hk1 hk2
  obtain ⟨qc, qt, hqc, hqt, hnd, hg⟩ := C28_trans_cnot (cfg := cfg) hc ht hw1 hw2 hn he hk1 hk2 hu o₂
  obtain ⟨qt', qc', hqt', hqc', -, hg'⟩ := C28_trans_cnot (cfg := cfg) ht hc hw1' hw2' hn' he' hk1' hk2' hu o₂
  rw [hqc, Except.ok.injEq] at hqc'
  rw [hqt, Except.ok.injEq] at hqt'
  subst hqc' hqt'
  refine ⟨qc, qt, hqc, hqt, hnd, ?_⟩
  have hwc := WithParams.trans hw1 (WithParams.trans x1 hk1.1)
  have hwt := WithParams.trans hw2 (WithParams.trans x2 hk2.1)
  rw [List.map_append] at hg hg' ⊢
  have hd : NoCommonQubit [lc, lt] := by
    refine List.pairwise_pair.2 fun qs qs' h1 h2 => ?_
    rw [hqc, Except.ok.injEq] at h1
    rw [hqt, Except.ok.injEq] at h2
    subst h1 h2
    exact fun q h1 h2 => (List.nodup_append.1 hnd).2.2 q h1 q h2 rfl
  have hd' : NoCommonQubit [lt, lc] := by
    refine List.pairwise_pair.2 fun qs qs' h1 h2 => ?_
    rw [hqt, Except.ok.injEq] at h1
    rw [hqc, Except.ok.injEq] at h2
    subst h1 h2
    exact fun q h1 h2 => (List.nodup_append.1 hnd).2.2 q h2 q h1 rfl
  have hfil : ∀ (qs : List String) q v, (q, v) ∈ (dataInit.filter fun kv => kv.1 ∈ qs) → v ≠ 0 → q ∈ qs := by
    intro qs q v h _
    simpa using (List.mem_filter.1 h).2
  have hf : (ex && steps.all PairStep.onBoth) = true → ex = true := fun h => (Bool.and_eq_true_iff.1 h).1
  have both : ∀ {n : Nat} {b : List Layout → PyM (Sim cfg) Circuit},
      OncePerTickAll p ex nm.inds [lc, lt] true n true (b [lc, lt]) → OncePerTickAll p ex nm.inds [lt, lc] true n true (b [lt, lc]) →
      ∀ d, Adds p (ex && steps.all PairStep.onBoth) (qc.map (ind nm.inds) ++ qt.map (ind nm.inds)) n (b (inOrder lc lt d)) := by
    intro n b h1 h2 d s c s' h
    cases d
    · exact (h1.of hqc hqt h).relax hf (List.Perm.refl _)
    · exact (h2.of hqt hqc h).relax hf List.perm_append_comm
  have hic : ∀ s c s', initQubits (cfg := cfg) o₂ nm lc (dataInit.filter fun kv => kv.1 ∈ qc) rot s = (.ok c, s') →
      EachOnce p (ex && steps.all PairStep.onBoth) (qc.map (ind nm.inds)) false (if rot then 3 else 2) true c := by
    intro s c s' h
    rcases hc with ⟨rfl, hc⟩ | ⟨rfl, hc⟩
    · exact ((C28_rot_init hc hwc hu o₂ _ hqc (hfil qc) rot).1.of hqc h).relax hf (List.Perm.refl _)
    · exact ((C28_unrot_init hc hwc hu o₂ _ hqc (hfil qc) rot).of hqc h).relax hf (List.Perm.refl _)
  have hit : ∀ s c s', initQubits (cfg := cfg) o₂ nm lt (dataInit.filter fun kv => kv.1 ∈ qt) rot s = (.ok c, s') →
      EachOnce p (ex && steps.all PairStep.onBoth) (qt.map (ind nm.inds)) false (if rot then 3 else 2) true c := by
    intro s c s' h
    rcases ht with ⟨rfl, ht⟩ | ⟨rfl, ht⟩
    · exact ((C28_rot_init ht hwt hu o₂ _ hqt (hfil qt) rot).1.of hqt h).relax hf (List.Perm.refl _)
    · exact ((C28_unrot_init ht hwt hu o₂ _ hqt (hfil qt) rot).of hqt h).relax hf (List.Perm.refl _)
  have hround : ∀ sel d, Adds (cfg := cfg) p (ex && steps.all PairStep.onBoth) (qc.map (ind nm.inds) ++ qt.map (ind nm.inds)) (if reset then 10 else 9)
      (mergeQecRounds (cssIter code o₁ nm) (inOrder lc lt d) reset sel) := by
    intro sel
    refine both (b := fun ls => mergeQecRounds (cssIter code o₁ nm) ls reset sel) ?_ ?_
    all_goals
      rcases hc with ⟨rfl, hc⟩ | ⟨rfl, hc⟩ <;> rcases ht with ⟨h1, ht⟩ | ⟨h1, ht⟩
      · first
          | refine ((C28_merged_rounds hu _ (by simp) hd o₁ reset sel).1 ?_).1
          | refine ((C28_merged_rounds hu _ (by simp) hd' o₁ reset sel).1 ?_).1
        simp only [List.mem_cons, List.not_mem_nil, or_false]
        rintro l (rfl | rfl) <;> first | exact ⟨_, _, _, _, hc, hwc⟩ | exact ⟨_, _, _, _, ht, hwt⟩
      · exact absurd h1 (by decide)
      · exact absurd h1 (by decide)
      · first
          | refine (C28_merged_rounds hu _ (by simp) hd o₁ reset sel).2 ?_
          | refine (C28_merged_rounds hu _ (by simp) hd' o₁ reset sel).2 ?_
        simp only [List.mem_cons, List.not_mem_nil, or_false]
        rintro l (rfl | rfl) <;> first | exact ⟨_, _, _, _, hc, hwc⟩ | exact ⟨_, _, _, _, ht, hwt⟩
  have hmade : ∀ l, l = lc ∨ l = lt → ∃ a dx dz l0,
      (rotSurfaceCodeRectangle dx dz a = .ok l0 ∨ unrotSurfaceCodeRectangle dx dz a = .ok l0) ∧ WithParams l0 l := by
    rintro l (rfl | rfl)
    · rcases hc with ⟨-, hc⟩ | ⟨-, hc⟩
      · exact ⟨_, _, _, _, .inl hc, hwc⟩
      · exact ⟨_, _, _, _, .inr hc, hwc⟩
    · rcases ht with ⟨-, ht⟩ | ⟨-, ht⟩
      · exact ⟨_, _, _, _, .inl ht, hwt⟩
      · exact ⟨_, _, _, _, .inr ht, hwt⟩
  have hmeas : ∀ sel, Adds (cfg := cfg) p (ex && steps.all PairStep.onBoth) (qc.map (ind nm.inds) ++ qt.map (ind nm.inds)) (if rot then 2 else 1)
      (mergeLogMeas (fun l b => logMeasIter nm l b) (inOrder lc lt final) [rot, rot] reset sel) := fun sel =>
    both (b := fun ls => mergeLogMeas (fun l b => logMeasIter nm l b) ls [rot, rot] reset sel)
      (C28_merged_meas hu _ (by simp) hd (fun l h => hmade l (by simpa using h)) rot _ (by simp) reset sel)
      (C28_merged_meas hu _ (by simp) hd' (fun l h => hmade l (Or.symm (by simpa using h))) rot _ (by simp) reset sel) final
  have hlc := log_once hc hwc hx hz hu o₂
  have hlt := log_once ht hwt hx' hz' hu o₂
  have subc : (qc.map (ind nm.inds)).Subperm (qc.map (ind nm.inds) ++ qt.map (ind nm.inds)) :=
    (List.sublist_append_left _ _).subperm
  have subt : (qt.map (ind nm.inds)).Subperm (qc.map (ind nm.inds) ++ qt.map (ind nm.inds)) :=
    (List.sublist_append_right _ _).subperm
  have model : ∀ {b : PyM MeasState Circuit} {s s' : Sim cfg} {c : Circuit}, onModel b s = (.ok c, s') → ∃ t t', b t = (.ok c, t') := by
    intro b s s' c h
    unfold onModel at h
    simp only [Prod.mk.injEq] at h
    exact ⟨_, _, Prod.ext h.1 rfl⟩
  refine time_pair hu.marks hqc hqt hic hit (fun sel => hround sel false) hmeas (fun sel P e s e' s' hcy h => ?_) hr
  refine hcy.addEach (fun x hx => ?_) h
  cases x with
  | round d => exact hround _ d
  | cnot d =>
    cases d
    · exact fun s c s' h => (hg s c s' h).relax hf (List.Perm.refl _)
    · exact fun s c s' h => (hg' s c s' h).relax hf List.perm_append_comm
  | x d =>
    have hn : (ex && steps.all PairStep.onBoth) = false := by
      rw [Bool.and_eq_false_iff]
      exact .inr (List.all_eq_false.2 ⟨_, hx, by simp [PairStep.onBoth]⟩)
    rw [hn]
    intro s c s' h
    obtain ⟨t, t', h⟩ := model h
    cases d
    · exact (hlc.1.of hqc h).loose subc
    · exact (hlt.1.of hqt h).loose subt
  | z d =>
    have hn : (ex && steps.all PairStep.onBoth) = false := by
      rw [Bool.and_eq_false_iff]
      exact .inr (List.all_eq_false.2 ⟨_, hx, by simp [PairStep.onBoth]⟩)
    rw [hn]
    intro s c s' h
    obtain ⟨t, t', h⟩ := model h
    cases d
    · exact (hlc.2.of hqc h).loose subc
    · exact (hlt.2.of hqt h).loose subt

/-- **C56** With `CircuitNoiseModel` and `BiasedCircuitNoiseModel`, every qubit has exactly one noise channel between TICKs of a program
of merged rounds and CNOT gates. -/
theorem C56_pair_program {st : Setup} {inds : Dict String Nat} (hc : MadeBy code dx dz ac lc0) (ht : MadeBy code dx' dz' a_t lt0)
    (e : StoredCnot code ("trans-cnot_" ++ ac.label ++ "_" ++ a_t.label) lc0 lt0 lc lt)
    (e' : StoredCnot code ("trans-cnot_" ++ a_t.label ++ "_" ++ ac.label) lt0 lc0 lt lc) (hx : 1 ≤ dx) (hz : 1 ≤ dz)
    (hx' : 1 ≤ dx') (hz' : 1 ≤ dz') (hm : nm = circuitNoise st inds ∨ nm = biasedNoise st inds) (o₁ o₂ : SetOrder)
    (rot reset gauge : Bool) (sel : Option (List String)) (steps : List PairStep) (hb : ∀ x ∈ steps, x.onBoth = true) (final : Bool)
    (s : Sim cfg) (c : Circuit) (s' : Sim cfg)
    (hr : pairProgram (cssIter code o₁ nm) o₂ nm lc lt dataInit rot reset sel gauge steps final s = (.ok c, s')) :
    ∃ qc qt, lc.getQubits [] = .ok qc ∧ lt.getQubits [] = .ok qt ∧ (qc ++ qt).Nodup ∧
      Timeline Gate.isNoise true ((qc ++ qt).map (ind nm.inds)) (cycle (if rot then 3 else 2) ++ cycle (if reset then 10 else 9) ++
        (steps.flatMap fun x => cycle (x.ticks reset)) ++ cycle (if rot then 2 else 1)) c := by
  have := C28_pair_program hc ht e e' hx hz hx' hz' (noise_of hm) o₁ o₂ rot reset gauge sel steps final s c s' hr
  rwa [List.all_eq_true.2 hb] at this

theorem local_program (hc : MadeBy code dx dz ac lc0) (ht : MadeBy code dx' dz' a_t lt0) (hwc : WithParams lc0 lc)
    (hwt : WithParams lt0 lt) (hrc : CanRun nm lc) (hrt : CanRun nm lt) (hu : Uses acts ex nm) (hl : LocalNoise nm)
    {Lc Lt : List (String × Site × Kind)} {dirs : List (Site × String)} (hgc : OnGrid lc Lc dirs) (hgt : OnGrid lt Lt dirs)
    (o₁ o₂ : SetOrder) (rb reset gauge : Bool) (steps : List PairStep) (final : Bool) :
    IsLocal (pairProgram (cfg := cfg) (cssIter code o₁ nm) o₂ nm lc lt dataInit rb reset ancDetectors gauge steps final) := by
  have hn := localModel_of hrc.faithful hl
  have hone : ∀ {l : Layout} {qs : List String}, l.getQubits [] = .ok qs → CanRun nm l →
      ∀ q, isOne (dataInit.filter fun kv => decide (kv.1 ∈ qs)) q = 1 → q ∈ nm.inds.keys := by
    intro l qs h1 h2 q hq
    refine h2.known _ h1 q ?_
    rw [isOne_filter] at hq
    by_contra hn
    rw [if_neg hn] at hq
    exact absurd hq (by decide)
  have hmem : ∀ {d : Bool} {l : Layout}, l ∈ inOrder lc lt d → l = lc ∨ l = lt := by
    intro d l h
    cases d
    · simpa [inOrder] using h
    · exact Or.symm (by simpa [inOrder] using h)
  have hne : ∀ d, inOrder lc lt d ≠ [] := by
    intro d
    cases d <;> simp [inOrder]
  have hround : ∀ sel d, IsLocal (mergeQecRounds (cfg := cfg) (cssIter code o₁ nm) (inOrder lc lt d) reset sel) := by
    intro sel d
    refine isLocal_mergeQecRounds (p := acts) (ex := ex) (inds := nm.inds) (n := if reset then 10 else 9) (hne d) reset sel
      (fun l h => ?_) fun l h => hn.cssIter _ _ _ _
    rcases hmem h with rfl | rfl
    · rcases hc with ⟨rfl, hc⟩ | ⟨rfl, hc⟩
      · exact alt_rot_css hc hwc hu o₁ reset
      · exact alt_unrot_css hc hwc hu o₁ reset
    · rcases ht with ⟨rfl, ht⟩ | ⟨rfl, ht⟩
      · exact alt_rot_css ht hwt hu o₁ reset
      · exact alt_unrot_css ht hwt hu o₁ reset
  refine local_pair hgc.getQubits_all hgt.getQubits_all
    (isBare_initIter hrc hn hgc _ (hone hgc.getQubits_all hrc) _) (isBare_initIter hrt hn hgt _ (hone hgt.getQubits_all hrt) _)
    (fun sel => hround sel false) (fun sel => ?_) (fun sel e he => isLocal_addAll he (fun x => ?_) _)
  · refine isLocal_mergeLogMeas (p := acts) (ex := ex) (inds := nm.inds) (n := if rb then 2 else 1) (hne final) rb [rb, rb] (by simp)
      reset sel (fun l h => ?_) fun l h => hn.logMeasIter _ _
    rcases hmem h with rfl | rfl
    · exact alt_logMeas hu hgc rb
    · exact alt_logMeas hu hgt rb
  · cases x with
    | round d => exact hround _ d
    | cnot d =>
      cases d
      · exact hn.transCnot _ _ _
      · exact hn.transCnot _ _ _
    | x d => exact isLocal_onModel (hn.logX _ _)
    | z d => exact isLocal_onModel (hn.logZ _ _)

/-- **C64** The noise of such a program: as long as the noise channels and wrong outcomes cause fewer errors than the codes have rows
(for the Z basis) or columns (for the X basis), a detector changes or the two observables do not.  Some errors of this number go
unnoticed, so that it is exact. -/
theorem C64_noise_circuit (hc : MadeBy code dx dz ac lc0) (ht : MadeBy code dx' dz' a_t lt0)
    (e : StoredCnot code ("trans-cnot_" ++ ac.label ++ "_" ++ a_t.label) lc0 lt0 lc lt)
    (e' : StoredCnot code ("trans-cnot_" ++ a_t.label ++ "_" ++ ac.label) lt0 lc0 lt lc) (hx : 1 ≤ dx) (hz : 2 ≤ dz)
    (hx' : 1 ≤ dx') (hz' : 1 ≤ dz')
    (hrc : CanRun nm lc) (hrt : CanRun nm lt) (nt : NoTicks nm) (um : UniformMeas nm) (hu : Uses acts ex nm) (hl : LocalNoise nm)
    (hargs : PairArgs cfg lc lt ancDetectors) (hargs' : GateArgs cfg [lc, lt] dataInit) (o₁ o₂ : SetOrder)
    (rb reset gauge : Bool) (hselc : SelectsBasis lc rb ancDetectors) (hselt : SelectsBasis lt rb ancDetectors)
    (steps : List PairStep) (hap : GatesApart none steps) (final : Bool) (s : Sim cfg) (c : Circuit) (s' : Sim cfg)
    (h : pairProgram (cfg := cfg) (cssIter code o₁ nm) o₂ nm lc lt dataInit rb reset ancDetectors gauge steps final s = (.ok c, s')) :
    Protects (if rb then dz else dx).toNat c ∧ ¬ Protects ((if rb then dz else dx).toNat + 1) c := by
  obtain ⟨h1, h2⟩ := program_distance hc ht e e' hx hz hrc hrt nt um hargs hargs' o₁ o₂ rb reset gauge hselc hselt steps hap final
    s c s' h
  refine ⟨?_, h2.not_protects⟩
  obtain ⟨_, _, _, _, _, _, _, _, _, -, tw, -, -, -, -, -, -, w1, w2, -⟩ := turn_codes hc ht e e' hx hz
  obtain ⟨qc, qt, hqc, hqt, hnd, htime⟩ := C28_pair_program hc ht e e' hx (by omega) hx' hz' hu o₁ o₂ rb reset gauge ancDetectors
    steps final s c s' h
  refine protects_of_detects (htime.nodup ?_) (local_program hc ht w1 w2 hrc hrt hu hl tw.c tw.t o₁ o₂ rb reset gauge steps final
    _ _ _ h).2 h1
  rw [List.nodup_map_iff_inj_on hnd]
  have known : ∀ q ∈ qc ++ qt, q ∈ nm.inds.keys := fun q hq =>
    (List.mem_append.1 hq).elim (hrc.known _ hqc q) (hrt.known _ hqt q)
  exact fun x hx y hy e => hrc.inj x (known x hx) y (known y hy) e

/-- **C64** With a noise model whose circuits for equally many qubits differ only in their targets, the calls do return such a
circuit. -/
theorem C64_noise (hc : MadeBy code dx dz ac lc0) (ht : MadeBy code dx' dz' a_t lt0)
    (e : StoredCnot code ("trans-cnot_" ++ ac.label ++ "_" ++ a_t.label) lc0 lt0 lc lt)
    (e' : StoredCnot code ("trans-cnot_" ++ a_t.label ++ "_" ++ ac.label) lt0 lc0 lt lc) (hx : 1 ≤ dx) (hz : 2 ≤ dz)
    (hx' : 1 ≤ dx') (hz' : 1 ≤ dz')
    (hrc : CanRun nm lc) (hrt : CanRun nm lt) (hu' : Uniform nm) (hu : Uses acts ex nm) (hl : LocalNoise nm)
    (hargs : PairArgs cfg lc lt ancDetectors) (hargs' : GateArgs cfg [lc, lt] dataInit) (o₁ o₂ : SetOrder)
    (rb reset gauge : Bool) (hselc : SelectsBasis lc rb ancDetectors) (hselt : SelectsBasis lt rb ancDetectors)
    (steps : List PairStep) (hap : GatesApart none steps) (final : Bool) :
    NoiseDistance cfg (if rb then dz else dx).toNat
      (pairProgram (cssIter code o₁ nm) o₂ nm lc lt dataInit rb reset ancDetectors gauge steps final) := fun s => by
  obtain ⟨nt, um, un⟩ := hu'
  obtain ⟨c, s', h⟩ := C63_returns hc ht e e' hx hz hrc hrt nt um un hargs hargs' o₁ o₂ rb reset gauge steps hap final s
  exact ⟨c, s', h, C64_noise_circuit hc ht e e' hx hz hx' hz' hrc hrt nt um hu hl hargs hargs' o₁ o₂ rb reset gauge hselc hselt
    steps hap final s c s' h⟩

/-! ### an example -/

/-- Swapping two logical qubits of two rotated codes of distances 2 and 3 with three CNOT gates, with `CircuitNoiseModel`. -/
example (o o₁ o₂ : SetOrder) (rb reset gauge : Bool) : ∃ lc lt : Layout,
    StoredCnot "rotated_surface_code" "trans-cnot_L0_L1" firstCode secondCode lc lt ∧
    StoredCnot "rotated_surface_code" "trans-cnot_L1_L0" secondCode firstCode lt lc ∧
    NoiseDistance bothConfig (if rb then 3 else 2) (pairProgram (cssIter "rotated_surface_code" o₁ (noisyBoth firstCode secondCode)) o₂
      (noisyBoth firstCode secondCode) lc lt [("D1", 1)] rb reset none gauge swapProgram true) := by
  obtain ⟨lc, lt, m1, m2, w1, w2, s1, s2, ha, hg⟩ := both_stored o
  have hf : Faithful (noisyBoth firstCode secondCode) := (C34_circuit_noise _ _ (noisySetup_ok _)).toFaithful
  have r1 : CanRun (noisyBoth firstCode secondCode) firstCode := by
    refine ⟨hf, by decide +kernel, fun qs hqs => ?_⟩
    rw [getQubits_nil hqs]
    decide +kernel
  have r2 : CanRun (noisyBoth firstCode secondCode) secondCode := by
    refine ⟨hf, by decide +kernel, fun qs hqs => ?_⟩
    rw [getQubits_nil hqs]
    decide +kernel
  have hs : SameParams noisySetup := by
    obtain ⟨st, k1, -⟩ := C34_circuit_noise_setup_ok (1/100) (by norm_num) (by norm_num) []
    have : noisySetup = st := by unfold noisySetup; rw [k1]
    rw [this]
    exact C53_circuit_noise_setup k1
  have hu := ((C53_models (noiselessBoth firstCode secondCode).inds).2 noisySetup hs).1
  refine ⟨lc, lt, s1, s2, ?_⟩
  have := C64_noise m1 m2 s1 s2 (by omega) (by omega) (by omega) (by omega) (canRun_made m1 .refl w1 r1) (canRun_made m2 .refl w2 r2)
    hu (uses_circuitNoise _ _) (local_circuitNoise _ _) ha hg o₁ o₂ rb reset gauge (fun _ h => nomatch h) (fun _ h => nomatch h)
    swapProgram (by simp [swapProgram, GatesApart]) true
  cases rb <;> exact this

end SurfaceSim.Props
