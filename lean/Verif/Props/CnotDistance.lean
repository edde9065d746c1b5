/-
C60: experiments with transversal CNOT gates have the distance of the code at the circuit level.
-/
import Verif.Lemmas.FaultsCnotCodes
import Verif.Props.CnotExp
import Verif.Props.FaultDistance

namespace SurfaceSim.Props
open Spec NoiseModel Blocks Experiments LayoutLib LogGates

variable {cfg : Detectors.Config} {code : String} {dx dz dx' dz' : Int} {ac a_t : Args} {lc0 lt0 lc lt lc' lt' lc'' lt'' : Layout}
  {mt : Matcher} {o : SetOrder} {dataInit : Dict String Int} {ancDetectors : Option (List String)} {nm : NoiseModel}

/-- **C60** Experiments `repeated_cnot_experiment` with the gate always in the same direction, in both frames that depend on the
gates: whatever the number of gates and of rounds after each gate, fewer faults than the codes have rows (for the Z basis) or
columns (for the X basis) change a detector or change neither of the two observables, although the gates copy the errors of one
code to the other.  As many faults as rows or columns can go unnoticed, so that the number is exact. -/
theorem C60_circuit (hc : MadeBy code dx dz ac lc0) (ht : MadeBy code dx' dz' a_t lt0) (hwc : WithParams lc0 lc)
    (hwt : WithParams lt0 lt) (hn : CoordsNear lc lt) (e : setTransCnot code mt o (lc, lt) = (.ok (), (lc', lt')))
    (hkc : KeptGate ("trans-cnot_" ++ ac.label ++ "_" ++ a_t.label) lc' lc'')
    (hkt : KeptGate ("trans-cnot_" ++ ac.label ++ "_" ++ a_t.label) lt' lt'') (hx : 1 ≤ dx) (hz : 2 ≤ dz)
    (hrc : CanRun nm lc'') (hrt : CanRun nm lt'') (nt : NoTicks nm) (um : UniformMeas nm)
    (hargs : PairArgs cfg lc'' lt'' ancDetectors) (hargs' : GateArgs cfg [lc'', lt''] dataInit) (o₁ o₂ : SetOrder)
    (rb reset gauge : Bool) (hselc : SelectsBasis lc'' rb ancDetectors) (hselt : SelectsBasis lt'' rb ancDetectors)
    (n m : Nat) (s : Sim cfg) (c : Circuit) (s' : Sim cfg)
    (h : repeatedCnot (cfg := cfg) (cssIter code o₁ nm) o₂ nm lc'' lt'' n m dataInit "constant" rb reset ancDetectors gauge s =
      (.ok c, s')) : Detects (if rb then dz else dx).toNat c ∧ ¬ Detects ((if rb then dz else dx).toNat + 1) c := by
  obtain ⟨_, _, _, _, _, -, -, hg⟩ := cnot_distance hc ht hwc hwt hn e hkc hkt hx hz hrc hrt nt um hargs hargs' o₁ o₂ rb reset gauge
    hselc hselt n m s
  obtain ⟨h1, h2⟩ := hg.1 c s' h
  exact ⟨h1, h2.not_detects⟩

/-- **C60** With a noise model whose circuits for equally many qubits differ only in their targets, the experiment does return a
circuit. -/
theorem C60_distance (hc : MadeBy code dx dz ac lc0) (ht : MadeBy code dx' dz' a_t lt0) (hwc : WithParams lc0 lc)
    (hwt : WithParams lt0 lt) (hn : CoordsNear lc lt) (e : setTransCnot code mt o (lc, lt) = (.ok (), (lc', lt')))
    (hkc : KeptGate ("trans-cnot_" ++ ac.label ++ "_" ++ a_t.label) lc' lc'')
    (hkt : KeptGate ("trans-cnot_" ++ ac.label ++ "_" ++ a_t.label) lt' lt'') (hx : 1 ≤ dx) (hz : 2 ≤ dz)
    (hrc : CanRun nm lc'') (hrt : CanRun nm lt'') (nt : NoTicks nm) (um : UniformMeas nm) (un : UniformModel nm)
    (hargs : PairArgs cfg lc'' lt'' ancDetectors) (hargs' : GateArgs cfg [lc'', lt''] dataInit) (o₁ o₂ : SetOrder)
    (rb reset gauge : Bool) (hselc : SelectsBasis lc'' rb ancDetectors) (hselt : SelectsBasis lt'' rb ancDetectors) (n m : Nat) :
    FaultDistance cfg (if rb then dz else dx).toNat
      (repeatedCnot (cssIter code o₁ nm) o₂ nm lc'' lt'' n m dataInit "constant" rb reset ancDetectors gauge) := fun s => by
  obtain ⟨c, s', h⟩ := C53_returns hc ht hwc hwt hn e hkc hkt hx hz hrc hrt nt um un hargs hargs' o₁ o₂ rb reset gauge n m s
  exact ⟨c, s', h, C60_circuit hc ht hwc hwt hn e hkc hkt hx hz hrc hrt nt um hargs hargs' o₁ o₂ rb reset gauge hselc hselt n m s c s' h⟩

/-! ### an example -/

/-- Two rotated codes of distances 2 and 3, with any number of gates and of rounds after each of them: in the X basis any two
faults are seen or harmless, in the Z basis any fault. -/
example (o o₁ o₂ : SetOrder) (rb reset gauge : Bool) (n m : Nat) : ∃ lc lt lc' lt' : Layout,
    MadeBy "rotated_surface_code" 2 3 rotDefault lc ∧ MadeBy "rotated_surface_code" 2 3 secondArgs lt ∧
    setTransCnot "rotated_surface_code" matcher o (lc, lt) = (.ok (), (lc', lt')) ∧
    FaultDistance bothConfig (if rb then 3 else 2) (repeatedCnot (cssIter "rotated_surface_code" o₁ (noiselessBoth lc lt)) o₂
      (noiselessBoth lc lt) lc' lt' n m [("D1", 1)] "constant" rb reset none gauge) := by
  have h1 : rotSurfaceCodeRectangle 2 3 rotDefault = .ok firstCode :=
    ok_layoutOf (by decide +kernel)
  have h2 : rotSurfaceCodeRectangle 2 3 secondArgs = .ok secondCode :=
    ok_layoutOf (by decide +kernel)
  have m1 : MadeBy "rotated_surface_code" 2 3 rotDefault _ := Or.inl ⟨rfl, h1⟩
  have m2 : MadeBy "rotated_surface_code" 2 3 secondArgs _ := Or.inl ⟨rfl, h2⟩
  have hn : CoordsNear firstCode secondCode :=
    coordsNear_of (by decide +kernel)
  obtain ⟨_, _, _, _, _, hp⟩ := pair_of_made m1 m2
  have hp0 := hp _ _ .refl .refl
  have hd : Layout.DisjointFrom firstCode secondCode := by
    have := (C10_accepts_iff_disjoint [firstCode, secondCode]
      (by simp [hp0.c.grid.reach, hp0.t.grid.reach])).1 (by decide +kernel)
    rcases this with h | ⟨-, h⟩
    · simp at h
    · simpa using h
  obtain ⟨⟨lc', lt'⟩, e⟩ := C38_returns m1 m2 .refl .refl (by omega) (by omega) hd matcher o
  obtain ⟨w1, w2, -⟩ := C38_only_stores m1 m2 .refl .refl hn e
  have r1 : CanRun (noiselessBoth firstCode secondCode) firstCode := by
    refine ⟨(C34_noiseless _).toFaithful, by decide +kernel, fun qs hqs => ?_⟩
    rw [getQubits_nil hqs]
    decide +kernel
  have r2 : CanRun (noiselessBoth firstCode secondCode) secondCode := by
    refine ⟨(C34_noiseless _).toFaithful, by decide +kernel, fun qs hqs => ?_⟩
    rw [getQubits_nil hqs]
    decide +kernel
  have hp1 := hp _ _ w1 w2
  have ac : ancOfLayout lc' = ancOfLayout firstCode := by
    rw [ancOfLayout_grid hp1.c.grid, ← ancOfLayout_grid hp0.c.grid]
  have a_t : ancOfLayout lt' = ancOfLayout secondCode := by
    rw [ancOfLayout_grid hp1.t.grid, ← ancOfLayout_grid hp0.t.grid]
  have ha : PairArgs bothConfig lc' lt' none := by
    refine ⟨⟨by decide +kernel, by decide +kernel⟩, fun l hl a ha => ?_, fun sel h => by simp at h⟩
    simp only [List.mem_cons, List.not_mem_nil, or_false] at hl
    rcases hl with rfl | rfl
    · rw [ac] at ha
      exact List.mem_append_left _ ha
    · rw [a_t] at ha
      exact List.mem_append_right _ ha
  have hg : GateArgs bothConfig [lc', lt'] [("D1", 1)] := by
    refine ⟨by decide, fun a h => ?_, fun l hl => ?_⟩
    · rcases List.mem_append.1 h with h | h
      · exact ⟨lc', by simp, by rw [ac]; exact h⟩
      · exact ⟨lt', by simp, by rw [a_t]; exact h⟩
    · simp only [List.mem_cons, List.not_mem_nil, or_false] at hl
      rcases hl with rfl | rfl
      · rw [ac]; decide +kernel
      · rw [a_t]; decide +kernel
  have hu := (C53_models ((firstCode.qubitInds.map fun kv => (kv.1, kv.2.toNat)) ++
    secondCode.qubitInds.map fun kv => (kv.1, kv.2.toNat))).1
  refine ⟨_, _, lc', lt', m1, m2, e, ?_⟩
  have := C60_distance m1 m2 .refl .refl hn e ⟨.refl, fun _ => rfl⟩ ⟨.refl, fun _ => rfl⟩ (by omega) (by omega)
    (canRun_made m1 .refl w1 r1) (canRun_made m2 .refl w2 r2) hu.1 hu.2.1 hu.2.2 ha hg o₁ o₂ rb reset gauge
    (fun _ h => nomatch h) (fun _ h => nomatch h) n m
  cases rb <;> exact this

end SurfaceSim.Props
