/-
C60: experiments with transversal CNOT gates in both directions have the distance of the code at the circuit level.
-/
import Verif.Lemmas.FaultsTurn
import Verif.Props.CnotTurns
import Verif.Props.CnotDistance

namespace SurfaceSim.Props
open Spec NoiseModel Blocks Experiments LayoutLib LogGates

variable {cfg : Detectors.Config} {code : String} {dx dz dx' dz' : Int} {ac a_t : Args} {lc0 lt0 lc lt : Layout}
  {dataInit : Dict String Int} {ancDetectors : Option (List String)} {nm : NoiseModel}

/-- Experiments with transversal CNOT gates in any directions, with rounds after each of them. -/
theorem turn_distance (hc : MadeBy code dx dz ac lc0) (ht : MadeBy code dx' dz' a_t lt0)
    (e : StoredCnot code ("trans-cnot_" ++ ac.label ++ "_" ++ a_t.label) lc0 lt0 lc lt)
    (e' : StoredCnot code ("trans-cnot_" ++ a_t.label ++ "_" ++ ac.label) lt0 lc0 lt lc) (hx : 1 ≤ dx) (hz : 2 ≤ dz)
    (hrc : CanRun nm lc) (hrt : CanRun nm lt) (nt : NoTicks nm) (um : UniformMeas nm)
    (hargs : PairArgs cfg lc lt ancDetectors) (hargs' : GateArgs cfg [lc, lt] dataInit) (o₁ o₂ : SetOrder)
    (rb reset gauge : Bool) (hselc : SelectsBasis lc rb ancDetectors) (hselt : SelectsBasis lt rb ancDetectors)
    (ds : List Bool) (final : Bool) {m : Nat} (hm : 1 ≤ m) (s : Sim cfg) (c : Circuit) (s' : Sim cfg)
    (h : cnotExperiment (cfg := cfg) (cssIter code o₁ nm) o₂ nm lc lt m dataInit rb reset ancDetectors gauge
      (ds.map (turned lc lt)) (turned lc lt final) s = (.ok c, s')) :
    Detects (lineCount dx dz rb) c ∧ Unseen (lineCount dx dz rb) c := by
  obtain ⟨Lc, Lt, dirs, oc, ot, Xc, Zc, Xt, Zt, hp, hT, htab, htab', gc, gt, -, -, -, -, dirs', ot', oc', hp', hT'⟩ :=
    turn_codes hc ht e e' hx hz
  obtain ⟨lnc, lnt, hl, pc, pt, n1, n2, v1, v2, hlen⟩ := hp.faults hT hx hz hrc hrt o₁ reset rb gc.logX gc.logZ gt.logX gt.logZ
  obtain ⟨_, _, -, -, -, n1', n2', v1', v2', hlen'⟩ := hp'.faults hT' hx hz hrt hrc o₁ reset rb gt.logX gt.logZ gc.logX gc.logZ
  obtain ⟨hd, hu⟩ := (turn_detects hT gc gt hrc hrt nt um hp.isCode (cnotLabel_of hp.logC hp.logT) htab (cnotLabel_of hp.logT hp.logC)
    htab' hargs hargs'.frame hargs'.anc o₁ o₂ hl pc pt hselc hselt gauge ds final hm s).1 c s' h
  rw [Fintype.card_fin] at hd
  refine ⟨hd, ?_⟩
  have key : ∀ {l : Layout} {L : List (String × Site × Kind)} {dirs : List (Site × String)} {lab : String} {X Z : List String},
      GridCode code l L lab X Z → OnGrid l L dirs → X.Nodup → Z.Nodup → overlap X Z = 1 → overlap Z X = 1 →
      (if rb then Z else X).Nodup ∧ (∀ q ∈ (if rb then Z else X), q ∈ dataOf L) ∧
      (∀ a ∈ stabsOf L rb, ((l.getNeighbors [a] none).map fun q => if q ∈ (if rb then Z else X) then (1 : ZMod 2) else 0).sum = 0) ∧
      ((if rb then X else Z).map fun q => if q ∈ (if rb then Z else X) then (1 : ZMod 2) else 0).sum = 1 := by
    intro l L dirs lab X Z g hg n1 n2 v1 v2
    refine ⟨by cases rb <;> assumption, ?_, fun x hxx => ?_, ?_⟩
    · cases rb
      · exact g.grid.subX
      · exact g.grid.subZ
    · rw [sum_indicator_overlap, overlap_comm (hg.neighbors_nodup x) (by cases rb <;> assumption), ZMod.natCast_eq_zero_iff_even]
      cases rb
      · obtain ⟨s, hs⟩ := mem_zOf.1 hxx
        exact g.grid.logX x s hs
      · obtain ⟨s, hs⟩ := mem_xOf.1 hxx
        exact g.grid.logZ x s hs
    · rw [sum_indicator_overlap]
      cases rb
      · simp [v2]
      · simp [v1]
  cases final
  · obtain ⟨k1, k2, k3, k4⟩ := key gc hT.c n1 n2 v1 v2
    rw [← hlen]
    exact hu _ k1 k2 k3 k4
  · obtain ⟨k1, k2, k3, k4⟩ := key gt hT.t n1' n2' v1' v2'
    rw [← hlen']
    exact hu _ k1 k2 k3 k4

/-- **C60** Experiments `repeated_cnot_experiment` with the orientation "alternating" and at least one round after each gate, in both
frames that depend on the gates: whatever the number of gates and of rounds, fewer faults than the codes have rows (for the Z basis)
or columns (for the X basis) change a detector or change neither of the two observables, although the gates copy the errors of each
code to the other.  As many faults as rows or columns can go unnoticed, so that the number is exact. -/
theorem C60_alternating (hc : MadeBy code dx dz ac lc0) (ht : MadeBy code dx' dz' a_t lt0)
    (e : StoredCnot code ("trans-cnot_" ++ ac.label ++ "_" ++ a_t.label) lc0 lt0 lc lt)
    (e' : StoredCnot code ("trans-cnot_" ++ a_t.label ++ "_" ++ ac.label) lt0 lc0 lt lc) (hx : 1 ≤ dx) (hz : 2 ≤ dz)
    (hrc : CanRun nm lc) (hrt : CanRun nm lt) (nt : NoTicks nm) (um : UniformMeas nm)
    (hargs : PairArgs cfg lc lt ancDetectors) (hargs' : GateArgs cfg [lc, lt] dataInit) (o₁ o₂ : SetOrder)
    (rb reset gauge : Bool) (hselc : SelectsBasis lc rb ancDetectors) (hselt : SelectsBasis lt rb ancDetectors)
    (n : Nat) {m : Nat} (hm : 1 ≤ m) (s : Sim cfg) (c : Circuit) (s' : Sim cfg)
    (h : repeatedCnot (cfg := cfg) (cssIter code o₁ nm) o₂ nm lc lt n m dataInit "alternating" rb reset ancDetectors gauge s =
      (.ok c, s')) : Detects (if rb then dz else dx).toNat c ∧ ¬ Detects ((if rb then dz else dx).toNat + 1) c := by
  rw [alternating_turns] at h
  obtain ⟨h1, h2⟩ := turn_distance hc ht e e' hx hz hrc hrt nt um hargs hargs' o₁ o₂ rb reset gauge hselc hselt _ _ hm s c s' h
  exact ⟨h1, h2.not_detects⟩

/-- **C60** With a noise model whose circuits for equally many qubits differ only in their targets, the experiment does return a
circuit. -/
theorem C60_alternating_distance (hc : MadeBy code dx dz ac lc0) (ht : MadeBy code dx' dz' a_t lt0)
    (e : StoredCnot code ("trans-cnot_" ++ ac.label ++ "_" ++ a_t.label) lc0 lt0 lc lt)
    (e' : StoredCnot code ("trans-cnot_" ++ a_t.label ++ "_" ++ ac.label) lt0 lc0 lt lc) (hx : 1 ≤ dx) (hz : 2 ≤ dz)
    (hrc : CanRun nm lc) (hrt : CanRun nm lt) (nt : NoTicks nm) (um : UniformMeas nm) (un : UniformModel nm)
    (hargs : PairArgs cfg lc lt ancDetectors) (hargs' : GateArgs cfg [lc, lt] dataInit) (o₁ o₂ : SetOrder)
    (rb reset gauge : Bool) (hselc : SelectsBasis lc rb ancDetectors) (hselt : SelectsBasis lt rb ancDetectors)
    (n : Nat) {m : Nat} (hm : 1 ≤ m) :
    FaultDistance cfg (if rb then dz else dx).toNat
      (repeatedCnot (cssIter code o₁ nm) o₂ nm lc lt n m dataInit "alternating" rb reset ancDetectors gauge) := fun s => by
  obtain ⟨c, s', h⟩ := C53_alternating_returns hc ht e e' hx hz hrc hrt nt um un hargs hargs' o₁ o₂ rb reset gauge n hm s
  exact ⟨c, s', h, C60_alternating hc ht e e' hx hz hrc hrt nt um hargs hargs' o₁ o₂ rb reset gauge hselc hselt n hm s c s' h⟩

/-! ### an example -/

/-- Two rotated codes of distances 2 and 3, with any number of gates and at least one round after each of them: in the X basis any two
faults are seen or harmless, in the Z basis any fault. -/
example (o o₁ o₂ : SetOrder) (rb reset gauge : Bool) (n m : Nat) : ∃ lc lt : Layout,
    StoredCnot "rotated_surface_code" "trans-cnot_L0_L1" firstCode secondCode lc lt ∧
    StoredCnot "rotated_surface_code" "trans-cnot_L1_L0" secondCode firstCode lt lc ∧
    FaultDistance bothConfig (if rb then 3 else 2) (repeatedCnot (cssIter "rotated_surface_code" o₁ (noiselessBoth firstCode secondCode)) o₂
      (noiselessBoth firstCode secondCode) lc lt n (m + 1 : Nat) [("D1", 1)] "alternating" rb reset none gauge) := by
  obtain ⟨lc, lt, m1, m2, w1, w2, s1, s2, ha, hg⟩ := both_stored o
  have r1 : CanRun (noiselessBoth firstCode secondCode) firstCode := by
    refine ⟨(C34_noiseless _).toFaithful, by decide +kernel, fun qs hqs => ?_⟩
    rw [getQubits_nil hqs]
    decide +kernel
  have r2 : CanRun (noiselessBoth firstCode secondCode) secondCode := by
    refine ⟨(C34_noiseless _).toFaithful, by decide +kernel, fun qs hqs => ?_⟩
    rw [getQubits_nil hqs]
    decide +kernel
  have hu := (C53_models ((firstCode.qubitInds.map fun kv => (kv.1, kv.2.toNat)) ++
    secondCode.qubitInds.map fun kv => (kv.1, kv.2.toNat))).1
  refine ⟨lc, lt, s1, s2, ?_⟩
  have := C60_alternating_distance m1 m2 s1 s2 (by omega) (by omega) (canRun_made m1 .refl w1 r1) (canRun_made m2 .refl w2 r2)
    hu.1 hu.2.1 hu.2.2 ha hg o₁ o₂ rb reset gauge (fun _ h => nomatch h) (fun _ h => nomatch h) n (m := m + 1) (by omega)
  cases rb <;> exact this

end SurfaceSim.Props
