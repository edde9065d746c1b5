/-
Theorems about experiments with transversal CNOT gates in both directions between two codes.
-/
import Verif.Lemmas.AltFixed
import Verif.Props.CnotExp
import Verif.Props.RepeatedCnot

namespace SurfaceSim.Props
open Spec NoiseModel Blocks Experiments LayoutLib LogGates

variable {cfg : Detectors.Config} {code : String} {dx dz dx' dz' : Int} {ac a_t : Args} {lc0 lt0 lc lt : Layout}
  {dataInit : Dict String Int} {ancDetectors : Option (List String)} {nm : NoiseModel}

/-- `set_trans_cnot(lc, lt)` has been called, with some result of `linear_sum_assignment`, for layouts that come from `lc0` and `lt0` by calls of `set_param`, and
the parameters that it stored under `label` are those of `lc` and `lt`. -/
def StoredCnot (code label : String) (lc0 lt0 lc lt : Layout) : Prop :=
  ∃ (mt : Matcher) (o : SetOrder) (l₁ l₂ l₁' l₂' : Layout), WithParams lc0 l₁ ∧ WithParams lt0 l₂ ∧ CoordsNear l₁ l₂ ∧
    setTransCnot code mt o (l₁, l₂) = (.ok (), (l₁', l₂')) ∧ KeptGate label l₁' lc ∧ KeptGate label l₂' lt

/-- The directions of the gates of `repeated_cnot_experiment` with orientation "alternating": `true` if the second code is the control. -/
def alternatingTurns (n : Nat) : List Bool := (List.range n).map fun k => decide (((k + 1) / 2) % 2 = 1)

/-- The two codes with the parameters of both gates. -/
theorem turn_codes (hc : MadeBy code dx dz ac lc0) (ht : MadeBy code dx' dz' a_t lt0)
    (e : StoredCnot code ("trans-cnot_" ++ ac.label ++ "_" ++ a_t.label) lc0 lt0 lc lt)
    (e' : StoredCnot code ("trans-cnot_" ++ a_t.label ++ "_" ++ ac.label) lt0 lc0 lt lc) (hx : 1 ≤ dx) (hz : 2 ≤ dz) :
    ∃ Lc Lt dirs oc ot Xc Zc Xt Zt, Pair code dx dz ac a_t lc lt Lc Lt dirs oc ot ∧ Twins lc lt Lc Lt dirs ∧
      CnotTable lc lt Lc Lt ("trans-cnot_" ++ ac.label ++ "_" ++ a_t.label) ∧
      CnotTable lt lc Lt Lc ("trans-cnot_" ++ a_t.label ++ "_" ++ ac.label) ∧
      GridCode code lc Lc ac.label Xc Zc ∧ GridCode code lt Lt a_t.label Xt Zt ∧ TwinSets Lc Lt Xc Xt ∧ TwinSets Lc Lt Zc Zt ∧
      WithParams lc0 lc ∧ WithParams lt0 lt ∧
      ∃ dirs' ot' oc', Pair code dx dz a_t ac lt lc Lt Lc dirs' ot' oc' ∧ Twins lt lc Lt Lc dirs' := by
  obtain ⟨mt, o, l₁, l₂, l₁', l₂', hw1, hw2, hn, he, hk1, hk2⟩ := e
  obtain ⟨mt', o', k₁, k₂, k₁', k₂', hw1', hw2', hn', he', hk1', hk2'⟩ := e'
  obtain ⟨Lc, Lt, dirs, oc, ot, hp, hT, htab, x1, x2, -⟩ := cnot_done hc ht hw1 hw2 hn he hk1 hk2
  obtain ⟨Lt', Lc', dirs', ot', oc', hp', hT', htab', -⟩ := cnot_done ht hc hw1' hw2' hn' he' hk1' hk2'
  have hd : dx' = dx ∧ dz' = dz := by
    obtain ⟨-, -, h3, h4, -⟩ := setTransCnot_checks he
    rw [(made_distances hc hw1).1, (made_distances ht hw2).1] at h3
    rw [(made_distances hc hw1).2, (made_distances ht hw2).2] at h4
    exact ⟨h3.symm, h4.symm⟩
  obtain ⟨rfl, rfl⟩ := hd
  have hL : Lc' = Lc ∧ Lt' = Lt := by
    rcases hp.shape with ⟨rfl, q1, q2, -⟩ | ⟨rfl, q1, q2, -⟩
    · rcases hp'.shape with ⟨-, r1, r2, -⟩ | ⟨h, -⟩
      · rw [q1, q2, r1, r2]
        exact ⟨rfl, rfl⟩
      · exact absurd h (by decide)
    · rcases hp'.shape with ⟨h, -⟩ | ⟨-, r1, r2, -⟩
      · exact absurd h (by decide)
      · rw [q1, q2, r1, r2]
        exact ⟨rfl, rfl⟩
  obtain ⟨rfl, rfl⟩ := hL
  obtain ⟨Xc, Zc, Xt, Zt, h1, h2, h3, h4, h5, h6⟩ := hp.logicals hx (by omega) hT
  obtain ⟨⟨lx, lz, gc⟩, lx', lz', gt⟩ := hp.codes hx hz
  have f1 : lx = Xc := by simpa [gc.logX, Dict.get?] using h1
  have f2 : lz = Zc := by simpa [gc.logZ, Dict.get?] using h2
  have f3 : lx' = Xt := by simpa [gt.logX, Dict.get?] using h3
  have f4 : lz' = Zt := by simpa [gt.logZ, Dict.get?] using h4
  subst f1 f2 f3 f4
  exact ⟨Lc', Lt', dirs, oc, ot, lx, lz, lx', lz', hp, hT, htab, htab', gc, gt, h5, h6, WithParams.trans hw1 (WithParams.trans x1 hk1.1),
    WithParams.trans hw2 (WithParams.trans x2 hk2.1), dirs', ot', oc', hp', hT'⟩

/-- The experiment as one with given directions. -/
theorem alternating_turns {iter : Layout → Bool → Gen} {o₂ : SetOrder} {rb reset gauge : Bool} (n m : Nat) :
    repeatedCnot (cfg := cfg) iter o₂ nm lc lt n m dataInit "alternating" rb reset ancDetectors gauge =
      cnotExperiment iter o₂ nm lc lt m dataInit rb reset ancDetectors gauge ((alternatingTurns n).map (turned lc lt))
        (turned lc lt (decide ((n / 2) % 2 = 1))) := by
  rw [C42_alternating_actual]
  have t1 : (alternatingTurns n).map (turned lc lt) =
      (List.range n).map fun k => if ((k + 1) / 2) % 2 = 1 then (lt, lc) else (lc, lt) := by
    unfold alternatingTurns turned
    simp [List.map_map, Function.comp_def]
  have t2 : turned lc lt (decide ((n / 2) % 2 = 1)) = if (n / 2) % 2 = 1 then (lt, lc) else (lc, lt) := by
    unfold turned
    simp
  rw [t1, t2]

/-- The logical operators of the two codes, and what the experiment gives. -/
theorem cnot_turn_gives (hc : MadeBy code dx dz ac lc0) (ht : MadeBy code dx' dz' a_t lt0)
    (e : StoredCnot code ("trans-cnot_" ++ ac.label ++ "_" ++ a_t.label) lc0 lt0 lc lt)
    (e' : StoredCnot code ("trans-cnot_" ++ a_t.label ++ "_" ++ ac.label) lt0 lc0 lt lc) (hx : 1 ≤ dx) (hz : 2 ≤ dz)
    (hrc : CanRun nm lc) (hrt : CanRun nm lt) (nt : NoTicks nm) (um : UniformMeas nm)
    (hargs : PairArgs cfg lc lt ancDetectors) (hargs' : GateArgs cfg [lc, lt] dataInit) (o₁ o₂ : SetOrder) :
    ∃ Lc Lt dirs oc ot, Pair code dx dz ac a_t lc lt Lc Lt dirs oc ot ∧ Twins lc lt Lc Lt dirs ∧
    ∃ Xc Zc Xt Zt, lc.logX.get? ac.label = some Xc ∧ lc.logZ.get? ac.label = some Zc ∧
      lt.logX.get? a_t.label = some Xt ∧ lt.logZ.get? a_t.label = some Zt ∧
      ∀ (rb reset gauge : Bool) (n m : Nat), 1 ≤ m → ∀ s : Sim cfg,
        Gives (MergesOk code o₁ o₂ nm lc lt Lc Lt dataInit rb reset ∧ MergesOk code o₁ o₂ nm lt lc Lt Lc dataInit rb reset)
          (repeatedCnot (cfg := cfg) (cssIter code o₁ nm) o₂ nm lc lt n m dataInit "alternating" rb reset ancDetectors gauge) s
          fun c _ => FixedTurnValues cfg nm lc lt (alternatingTurns n) m (decide ((n / 2) % 2 = 1)) dataInit rb gauge ancDetectors
            (afterCnots rb (alternatingTurns n)
              (bits dataInit (if rb then Xc else Zc), bits dataInit (if rb then Xt else Zt))) c := by
  obtain ⟨Lc, Lt, dirs, oc, ot, Xc, Zc, Xt, Zt, hp, hT, htab, htab', gc, gt, h5, h6, -⟩ := turn_codes hc ht e e' hx hz
  refine ⟨Lc, Lt, dirs, oc, ot, hp, hT, Xc, Zc, Xt, Zt, by rw [gc.logX]; simp [Dict.get?], by rw [gc.logZ]; simp [Dict.get?],
    by rw [gt.logX]; simp [Dict.get?], by rw [gt.logZ]; simp [Dict.get?], fun rb reset gauge n m hm s => ?_⟩
  rw [alternating_turns]
  exact turn_fixed (reset := reset) hT gc gt hrc hrt nt um hp.isCode (cnotLabel_of hp.logC hp.logT) htab
    (cnotLabel_of hp.logT hp.logC) htab' h5 h6 hargs hargs' o₁ o₂ rb gauge (alternatingTurns n) (decide ((n / 2) % 2 = 1)) hm s

/-- **C53** Experiments `repeated_cnot_experiment` with the orientation "alternating" and at least one round after each gate: whatever the number of gates
and the random outcomes, all detectors have fixed values, zero after the first round, and the two observables have the values of the logical
operators after the logical CNOTs in the directions `alternatingTurns`. -/
theorem C53_alternating (hc : MadeBy code dx dz ac lc0) (ht : MadeBy code dx' dz' a_t lt0)
    (e : StoredCnot code ("trans-cnot_" ++ ac.label ++ "_" ++ a_t.label) lc0 lt0 lc lt)
    (e' : StoredCnot code ("trans-cnot_" ++ a_t.label ++ "_" ++ ac.label) lt0 lc0 lt lc) (hx : 1 ≤ dx) (hz : 2 ≤ dz)
    (hrc : CanRun nm lc) (hrt : CanRun nm lt) (nt : NoTicks nm) (um : UniformMeas nm)
    (hargs : PairArgs cfg lc lt ancDetectors) (hargs' : GateArgs cfg [lc, lt] dataInit) (o₁ o₂ : SetOrder) :
    ∃ Xc Zc Xt Zt, lc.logX.get? ac.label = some Xc ∧ lc.logZ.get? ac.label = some Zc ∧
      lt.logX.get? a_t.label = some Xt ∧ lt.logZ.get? a_t.label = some Zt ∧
      ∀ (rb reset gauge : Bool) (n m : Nat), 1 ≤ m → ∀ (s : Sim cfg) (c : Circuit) (s' : Sim cfg),
        repeatedCnot (cfg := cfg) (cssIter code o₁ nm) o₂ nm lc lt n m dataInit "alternating" rb reset ancDetectors gauge s =
          (.ok c, s') →
        FixedTurnValues cfg nm lc lt (alternatingTurns n) m (decide ((n / 2) % 2 = 1)) dataInit rb gauge ancDetectors
          (afterCnots rb (alternatingTurns n)
            (bits dataInit (if rb then Xc else Zc), bits dataInit (if rb then Xt else Zt))) c := by
  obtain ⟨_, _, _, _, _, -, -, Xc, Zc, Xt, Zt, h1, h2, h3, h4, h⟩ :=
    cnot_turn_gives hc ht e e' hx hz hrc hrt nt um hargs hargs' o₁ o₂
  exact ⟨Xc, Zc, Xt, Zt, h1, h2, h3, h4, fun rb reset gauge n m hm s => (h rb reset gauge n m hm s).1⟩

/-- **C53** With a noise model whose circuits for equally many qubits differ only in their targets, the experiment does return a circuit. -/
theorem C53_alternating_returns (hc : MadeBy code dx dz ac lc0) (ht : MadeBy code dx' dz' a_t lt0)
    (e : StoredCnot code ("trans-cnot_" ++ ac.label ++ "_" ++ a_t.label) lc0 lt0 lc lt)
    (e' : StoredCnot code ("trans-cnot_" ++ a_t.label ++ "_" ++ ac.label) lt0 lc0 lt lc) (hx : 1 ≤ dx) (hz : 2 ≤ dz)
    (hrc : CanRun nm lc) (hrt : CanRun nm lt) (nt : NoTicks nm) (um : UniformMeas nm) (un : UniformModel nm)
    (hargs : PairArgs cfg lc lt ancDetectors) (hargs' : GateArgs cfg [lc, lt] dataInit) (o₁ o₂ : SetOrder)
    (rb reset gauge : Bool) (n : Nat) {m : Nat} (hm : 1 ≤ m) (s : Sim cfg) :
    ∃ c s', repeatedCnot (cfg := cfg) (cssIter code o₁ nm) o₂ nm lc lt n m dataInit "alternating" rb reset ancDetectors gauge s =
      (.ok c, s') := by
  obtain ⟨_, _, _, _, _, hp, hT, Xc, Zc, Xt, Zt, h1, h2, h3, h4, h⟩ :=
    cnot_turn_gives hc ht e e' hx hz hrc hrt nt um hargs hargs' o₁ o₂
  obtain ⟨⟨_, _, gc⟩, _, _, gt⟩ := hp.codes hx hz
  exact (h rb reset gauge n m hm s).2 ⟨mergesOk hT gc gt hp.order hrc hrt nt um un o₁ o₂ dataInit rb reset,
    mergesOk hT.symm gt gc hp.order.symm hrt hrc nt um un o₁ o₂ dataInit rb reset⟩

/-- **C53** All outcomes of the quantum circuit have the same detectors and observables. -/
theorem C53_alternating_deterministic (hc : MadeBy code dx dz ac lc0) (ht : MadeBy code dx' dz' a_t lt0)
    (e : StoredCnot code ("trans-cnot_" ++ ac.label ++ "_" ++ a_t.label) lc0 lt0 lc lt)
    (e' : StoredCnot code ("trans-cnot_" ++ a_t.label ++ "_" ++ ac.label) lt0 lc0 lt lc) (hx : 1 ≤ dx) (hz : 2 ≤ dz)
    (hrc : CanRun nm lc) (hrt : CanRun nm lt) (nt : NoTicks nm) (um : UniformMeas nm)
    (hargs : PairArgs cfg lc lt ancDetectors) (hargs' : GateArgs cfg [lc, lt] dataInit) (o₁ o₂ : SetOrder)
    (rb reset : Bool) (n : Nat) {m : Nat} (hm : 1 ≤ m) (s : Sim cfg) (c : Circuit) (s' : Sim cfg)
    (h : repeatedCnot (cfg := cfg) (cssIter code o₁ nm) o₂ nm lc lt n m dataInit "alternating" rb reset ancDetectors false s =
      (.ok c, s')) : Deterministic (ops c) := by
  obtain ⟨_, _, _, _, -, -, -, -, hf⟩ := C53_alternating hc ht e e' hx hz hrc hrt nt um hargs hargs' o₁ o₂
  obtain ⟨_, _, _, _, _, _, -, -, -, -, -, -, hp, -, hv⟩ := hf rb reset false n m hm s c s' h
  refine (C51_deterministic hp.2).2 fun ζ ρ ζ' ρ' => ?_
  have v1 := hv ζ ρ
  have v2 := hv ζ' ρ'
  simp only [Bool.false_eq_true, if_false] at v1 v2
  rw [v1.1, v1.2, v2.1, v2.2]
  exact ⟨rfl, rfl⟩

/-! ### no rounds after the gates -/

/-- Two gates in opposite directions, without rounds after them, on the codes of one data qubit of `tinyCnots`; the bit of the first is one. -/
def tinyNoRounds (rounds : Int) : Except Err Circuit × Sim tinyConfig :=
  repeatedCnot (cssIter "rotated_surface_code" .insertion (noiseless tinyInds)) .insertion (noiseless tinyInds)
    tinyC tinyT 2 rounds [("D0", 1), ("D1", 0)] "alternating" false true none false
    (MeasState.fresh tinyInds, Detectors.State.fresh tinyConfig)

/-- **C53** Without rounds between gates in different directions the detectors are wrong: the circuit without noise has a
detector of value one after the data qubits are measured.  With a round after each gate only the detectors of the first round may
be one. -/
theorem C53_alternating_no_rounds :
    (match (tinyNoRounds 0).1 with
      | .ok c => some (detectors 0 0 c)
      | .error _ => none) = some [1, 0, 1, 0] ∧
    (match (tinyNoRounds 1).1 with
      | .ok c => some (detectors 0 0 c)
      | .error _ => none) = some [1, 0, 0, 0, 0, 0, 0, 0] := by
  constructor <;> decide +kernel

/-! ### an example -/

theorem nodes_set_coords {d : Dict String (Dict String Val)} {q key : String} {attrs : Dict String Val} {v : Val} (h : d.get? q = some attrs)
    (hk : key ≠ "coords") : ((d.set q (attrs.set key v)).filterMap fun n => (n.2.get? "coords").map fun c => (n.1, c)) =
      d.filterMap fun n => (n.2.get? "coords").map fun c => (n.1, c) := by
  induction d with
  | nil => simp [Dict.get?] at h
  | cons x d ih =>
    obtain ⟨k, w⟩ := x
    simp only [Dict.get?] at h
    simp only [Dict.set]
    split at h
    · rename_i hkq
      simp only [Option.some.injEq] at h
      subst h
      rw [if_pos hkq, List.filterMap_cons, List.filterMap_cons]
      simp only [Dict.get?_set_ne _ hk]
    · rename_i hkq
      rw [if_neg hkq, List.filterMap_cons, List.filterMap_cons, ih h]

theorem params_same {l0 l : Layout} (hw : WithParams l0 l) : l.graph.nodes.keys = l0.graph.nodes.keys ∧
    l.qubitInds = l0.qubitInds ∧ l.logQubits = l0.logQubits ∧ l.qubitCoords = l0.qubitCoords ∧
    ∀ q, l.param "coords" q = l0.param "coords" q := by
  induction hw with
  | refl => exact ⟨rfl, rfl, rfl, rfl, fun _ => rfl⟩
  | @set l l' key q v _ hkey hs ih =>
    have hk : key ≠ "coords" := by
      rintro rfl
      simp at hkey
    obtain ⟨i1, i2, i3, i4, i5⟩ := ih
    rw [← i1, ← i2, ← i3, ← i4]
    simp only [← i5]
    unfold Layout.setParam at hs
    split at hs
    · simp at hs
    · rename_i attrs ha
      simp only [Except.ok.injEq] at hs
      subst hs
      refine ⟨?_, rfl, rfl, nodes_set_coords ha hk, fun q' => ?_⟩
      · dsimp only
        rw [Dict.keys_set, if_pos]
        exact (Dict.get?_isSome_iff _ _).1 (by rw [ha]; rfl)
      · unfold Layout.param
        dsimp only
        rw [Dict.get?_set]
        by_cases hq : q = q'
        · subst hq
          simp only [if_pos, ha, Dict.get?_set_ne _ hk]
        · rw [if_neg hq]

theorem disjoint_params {l0 l k0 k : Layout} (hw : WithParams l0 l) (hw' : WithParams k0 k) (h : Layout.DisjointFrom l0 k0) :
    Layout.DisjointFrom k l := by
  obtain ⟨a1, a2, a3, a4, a5⟩ := params_same hw
  obtain ⟨b1, b2, b3, b4, b5⟩ := params_same hw'
  refine ⟨fun q h1 h2 => ?_, fun q₁ q₂ i h1 h2 => ?_, fun q₁ q₂ c h1 h2 => ?_, fun x h1 h2 => ?_⟩
  · rw [b1] at h1
    rw [a1] at h2
    exact h.labels q h2 h1
  · rw [b2] at h1
    rw [a2] at h2
    exact h.inds q₂ q₁ i h2 h1
  · rw [b5] at h1
    rw [a5] at h2
    exact h.coords q₂ q₁ c h2 h1
  · rw [b3] at h1
    rw [a3] at h2
    exact h.logical x h2 h1

/-- Two rotated codes of distances 2 and 3 with gates in both directions. -/
theorem both_stored (o : SetOrder) : ∃ lc lt : Layout,
    MadeBy "rotated_surface_code" 2 3 rotDefault firstCode ∧ MadeBy "rotated_surface_code" 2 3 secondArgs secondCode ∧
    WithParams firstCode lc ∧ WithParams secondCode lt ∧
    StoredCnot "rotated_surface_code" "trans-cnot_L0_L1" firstCode secondCode lc lt ∧
    StoredCnot "rotated_surface_code" "trans-cnot_L1_L0" secondCode firstCode lt lc ∧
    PairArgs bothConfig lc lt none ∧ GateArgs bothConfig [lc, lt] [("D1", 1)] := by
  have h1 : rotSurfaceCodeRectangle 2 3 rotDefault = .ok firstCode :=
    ok_layoutOf (by decide +kernel)
  have h2 : rotSurfaceCodeRectangle 2 3 secondArgs = .ok secondCode :=
    ok_layoutOf (by decide +kernel)
  have m1 : MadeBy "rotated_surface_code" 2 3 rotDefault _ := Or.inl ⟨rfl, h1⟩
  have m2 : MadeBy "rotated_surface_code" 2 3 secondArgs _ := Or.inl ⟨rfl, h2⟩
  have hn : CoordsNear firstCode secondCode :=
    coordsNear_of (by decide +kernel)
  have hn' : CoordsNear secondCode firstCode :=
    coordsNear_of (by decide +kernel)
  obtain ⟨_, _, _, _, _, hp⟩ := pair_of_made m1 m2
  obtain ⟨_, _, _, _, _, hq⟩ := pair_of_made m2 m1
  have hp0 := hp _ _ .refl .refl
  have hd : Layout.DisjointFrom firstCode secondCode := by
    have := (C10_accepts_iff_disjoint [firstCode, secondCode]
      (by simp [hp0.c.grid.reach, hp0.t.grid.reach])).1 (by decide +kernel)
    rcases this with h | ⟨-, h⟩
    · simp at h
    · simpa using h
  obtain ⟨⟨la, lb⟩, e⟩ := C38_returns m1 m2 .refl .refl (by omega) (by omega) hd matcher o
  obtain ⟨w1, w2, p1⟩ := C38_only_stores m1 m2 .refl .refl hn e
  have hpa := hp _ _ w1 w2
  have hn2 : CoordsNear lb la := by
    intro q q' u v u' v' k1 k2
    unfold Layout.getCoords Layout.coordOf at k1 k2
    rw [(params_same w2).2.2.2.1] at k1
    rw [(params_same w1).2.2.2.1] at k2
    exact hn' q q' u v u' v' k1 k2
  have hd2 : Layout.DisjointFrom lb la := disjoint_params w1 w2 hd
  obtain ⟨⟨lt, lc⟩, e'⟩ := C38_returns m2 m1 w2 w1 (by omega) (by omega) hd2 matcher o
  obtain ⟨x2, x1, p2⟩ := C38_only_stores m2 m1 w2 w1 hn2 e'
  have w1' := WithParams.trans w1 x1
  have w2' := WithParams.trans w2 x2
  have s1 : StoredCnot "rotated_surface_code" "trans-cnot_L0_L1" firstCode secondCode lc lt :=
    ⟨matcher, o, _, _, la, lb, .refl, .refl, hn, e, ⟨x1, fun q => (p2 _ q (by decide +kernel)).2⟩,
      ⟨x2, fun q => (p2 _ q (by decide +kernel)).1⟩⟩
  have s2 : StoredCnot "rotated_surface_code" "trans-cnot_L1_L0" secondCode firstCode lt lc :=
    ⟨matcher, o, _, _, lt, lc, w2, w1, hn2, e', ⟨.refl, fun _ => rfl⟩, ⟨.refl, fun _ => rfl⟩⟩
  have hp1 := hp _ _ w1' w2'
  have ac : ancOfLayout lc = ancOfLayout firstCode := by
    rw [ancOfLayout_grid hp1.c.grid, ← ancOfLayout_grid hp0.c.grid]
  have a_t : ancOfLayout lt = ancOfLayout secondCode := by
    rw [ancOfLayout_grid hp1.t.grid, ← ancOfLayout_grid hp0.t.grid]
  have ha : PairArgs bothConfig lc lt none := by
    refine ⟨⟨by decide +kernel, by decide +kernel⟩, fun l hl a ha => ?_, fun sel h => by simp at h⟩
    simp only [List.mem_cons, List.not_mem_nil, or_false] at hl
    rcases hl with rfl | rfl
    · rw [ac] at ha
      exact List.mem_append_left _ ha
    · rw [a_t] at ha
      exact List.mem_append_right _ ha
  have hg : GateArgs bothConfig [lc, lt] [("D1", 1)] := by
    refine ⟨by decide, fun a h => ?_, fun l hl => ?_⟩
    · rcases List.mem_append.1 h with h | h
      · exact ⟨lc, by simp, by rw [ac]; exact h⟩
      · exact ⟨lt, by simp, by rw [a_t]; exact h⟩
    · simp only [List.mem_cons, List.not_mem_nil, or_false] at hl
      rcases hl with rfl | rfl
      · rw [ac]; decide +kernel
      · rw [a_t]; decide +kernel
  exact ⟨lc, lt, m1, m2, w1', w2', s1, s2, ha, hg⟩

/-- Two rotated codes of distances 2 and 3, one initial bit of the first set to one, with a gate in each direction and two rounds after each of
them: both calls of `set_trans_cnot` and the experiment return; after the first gate both logical operators are one, after the second only that of the target. -/
example (o o₁ o₂ : SetOrder) : ∃ lc lt : Layout,
    StoredCnot "rotated_surface_code" "trans-cnot_L0_L1" firstCode secondCode lc lt ∧
    StoredCnot "rotated_surface_code" "trans-cnot_L1_L0" secondCode firstCode lt lc ∧
    ∀ s, ∃ c s', repeatedCnot (cfg := bothConfig) (cssIter "rotated_surface_code" o₁ (noiselessBoth firstCode secondCode)) o₂
        (noiselessBoth firstCode secondCode) lc lt 2 2 [("D1", 1)] "alternating" false true none false s = (.ok c, s') ∧
      FixedTurnValues bothConfig (noiselessBoth firstCode secondCode) lc lt [false, true] 2 true [("D1", 1)] false false none
        (0, 1) c := by
  obtain ⟨lc, lt, m1, m2, w1', w2', s1, s2, ha, hg⟩ := both_stored o
  have r1 : CanRun (noiselessBoth firstCode secondCode) firstCode := by
    refine ⟨(C34_noiseless _).toFaithful, by decide +kernel, fun qs hqs => ?_⟩
    rw [getQubits_nil hqs]
    decide +kernel
  have r2 : CanRun (noiselessBoth firstCode secondCode) secondCode := by
    refine ⟨(C34_noiseless _).toFaithful, by decide +kernel, fun qs hqs => ?_⟩
    rw [getQubits_nil hqs]
    decide +kernel
  have r1' := canRun_made m1 .refl w1' r1
  have r2' := canRun_made m2 .refl w2' r2
  have hu := (C53_models ((firstCode.qubitInds.map fun kv => (kv.1, kv.2.toNat)) ++
    secondCode.qubitInds.map fun kv => (kv.1, kv.2.toNat))).1
  obtain ⟨Xc, Zc, Xt, Zt, -, k1, -, k2, hf⟩ := C53_alternating m1 m2 s1 s2 (by omega) (by omega) r1' r2' hu.1 hu.2.1 ha hg o₁ o₂
  refine ⟨lc, lt, s1, s2, fun s => ?_⟩
  obtain ⟨c, s', hr⟩ := C53_alternating_returns m1 m2 s1 s2 (by omega) (by omega) r1' r2' hu.1 hu.2.1 hu.2.2 ha hg o₁ o₂
    false true false 2 (m := 2) (by omega) s
  have v1 : Zc = ["D1", "D2", "D3"] := by
    rw [logZ_params w1'] at k1
    have : firstCode.logZ.get? rotDefault.label = some ["D1", "D2", "D3"] := by decide +kernel
    exact Option.some.inj (k1.symm.trans this)
  have v2 : Zt = ["D10", "D11", "D12"] := by
    rw [logZ_params w2'] at k2
    have : secondCode.logZ.get? secondArgs.label = some ["D10", "D11", "D12"] := by decide +kernel
    exact Option.some.inj (k2.symm.trans this)
  subst v1 v2
  refine ⟨c, s', hr, ?_⟩
  have := hf false true false 2 2 (by omega) s c s' hr
  have t1 : alternatingTurns 2 = [false, true] := by decide
  have t2 : afterCnots false [false, true] (bits [("D1", 1)] ["D1", "D2", "D3"], bits [("D1", 1)] ["D10", "D11", "D12"]) = (0, 1) := by
    decide +kernel
  rw [t1] at this
  simp only [Bool.false_eq_true, if_false] at this
  rw [t2] at this
  exact this

end SurfaceSim.Props
