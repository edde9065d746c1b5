/-
Experiments with transversal CNOT gates in both directions: the values.
-/
import Verif.Lemmas.AltRun
import Verif.Spec.PairProgram

namespace SurfaceSim
open Spec NoiseModel Blocks Experiments LayoutLib LogGates

variable {cfg : Detectors.Config} {nm : NoiseModel} {lc lt : Layout} {Lc Lt : List (String × Site × Kind)}
  {dirs : List (Site × String)} {code A B label label' : String} {Xc Zc Xt Zt : List String} {reset : Bool}

theorem foldl_logStep (rb : Bool) (ds : List Bool) : ∀ f : Bool × Bool → ZMod 2,
    (fun f : Bool × Bool → ZMod 2 => (f (false, rb), f (true, rb))) (ds.foldl (fun f d => logStep d f) f) =
      afterCnots rb ds (f (false, rb), f (true, rb)) := by
  induction ds with
  | nil => intro f; rfl
  | cons d ds ih =>
    intro f
    rw [List.foldl_cons, ih]
    unfold afterCnots
    rw [List.foldl_cons]
    congr 1
    cases d <;> cases rb <;> simp [logStep, cnotImage, add_comm]

/-- A merged round of the two codes. -/
theorem pair_round (h : Twins lc lt Lc Lt dirs) (gc : GridCode code lc Lc A Xc Zc)
    (gt : GridCode code lt Lt B Xt Zt) (hrc : CanRun nm lc) (hrt : CanRun nm lt) (nt : NoTicks nm) (um : UniformMeas nm)
    (hcfg : ConfigOk cfg) (hf : cfg.frame ≠ .gateIndependent)
    (hall : ∀ q, q ∈ cfg.anc ↔ q ∈ ancOf Lc ++ ancOf Lt)
    {sel : List String} (hsel : ∀ a ∈ sel, a ∈ ancOf Lc ++ ancOf Lt) (o : SetOrder) {R : Prop}
    (hR : R → ∀ (s : MeasState) (hist : List String), s.Tracks nm.inds hist →
      ∃ c s', mergeGens [cssIter code o nm lc reset, cssIter code o nm lt reset] s = (.ok c, s'))
    {H : List String} {V : (Nat → ZMod 2) → (Nat → ZMod 2) → Values (Bool × Bool)} {D : (Nat → ZMod 2) → (Nat → ZMod 2) → List (ZMod 2)}
    {M M' : cfg.Mat Int} {N : cfg.Mat (ZMod 2)} {r : Nat} {e : Circuit} {s : Sim cfg} (hS : FrameSteps M M' N) (hN : N * N = 1)
    (hi : HInv nm (ancOf Lc ++ ancOf Lt) (pairValues nm lc lt Lc Lt A B) reset H r V D M M' N e s) (h0 : r = 0 → N = 1) :
    Gives R (mergeQecRounds (cssIter code o nm) [lc, lt] reset (some sel)) s fun c s' =>
      HInv nm (ancOf Lc ++ ancOf Lt) (pairValues nm lc lt Lc Lt A B) reset (H ++ (ancOf Lc ++ ancOf Lt)) (r + 1) V
        (fun ζ ρ => D ζ ρ ++ cfg.anc.map fun q => if q ∈ sel ∧ r = 0 then (V ζ ρ).2 q else 0) M' M' 1 (e.concat c) s' := by
  have hk : ∀ d ∈ ancOf Lc ++ ancOf Lt, d ∈ nm.inds.keys := by
    intro d hd
    rcases List.mem_append.1 hd with hd | hd
    · exact (gc.memCode h.c hrc false).known (List.mem_append_right _ hd)
    · exact (gt.memCode h.t hrt false).known (List.mem_append_right _ hd)
  exact hi.mergedRound h hcfg hf hS hN hk hall (iter := cssIter code o nm)
    (fun s hist ht => ⟨fun c s' e => pair_roundAt h gc gt hrc hrt nt um o reset ht e, fun r => hR r s hist ht⟩)
    (fun st st' h1 h2 => pairValues_congr h gc gt fun q _ => by rw [h1, h2]; exact ⟨rfl, rfl⟩) h0 hsel

theorem pair_roundH (h : Twins lc lt Lc Lt dirs) (gc : GridCode code lc Lc A Xc Zc)
    (gt : GridCode code lt Lt B Xt Zt) (hrc : CanRun nm lc) (hrt : CanRun nm lt) (nt : NoTicks nm) (um : UniformMeas nm)
    (hcfg : ConfigOk cfg) (hf : cfg.frame ≠ .gateIndependent)
    (hall : ∀ q, q ∈ cfg.anc ↔ q ∈ ancOf Lc ++ ancOf Lt)
    {sel : List String} (hsel : ∀ a ∈ sel, a ∈ ancOf Lc ++ ancOf Lt) (o : SetOrder) {R : Prop}
    (hR : R → ∀ (s : MeasState) (hist : List String), s.Tracks nm.inds hist →
      ∃ c s', mergeGens [cssIter code o nm lc reset, cssIter code o nm lt reset] s = (.ok c, s')) :
    RoundGivesH cfg R nm (ancOf Lc ++ ancOf Lt) (pairValues nm lc lt Lc Lt A B) reset
      (mergeQecRounds (cssIter code o nm) [lc, lt] reset (some sel)) := by
  intro H V D M M' N e s r hr hS hN hi
  refine (pair_round h gc gt hrc hrt nt um hcfg hf hall hsel o hR hS hN hi (by omega)).mono fun c s' h2 => ?_
  convert h2 using 4 with ζ ρ
  have hr0 : r ≠ 0 := by omega
  simp only [hr0, and_false, if_false]
  rw [List.map_const']

/-- The values of the logical operators that matter. -/
def pairOf (rb : Bool) (f : Bool × Bool → ZMod 2) : ZMod 2 × ZMod 2 := (f (false, rb), f (true, rb))

open Classical in
/-- The values of the detectors and the observables. -/
theorem pair_values (h : Twins lc lt Lc Lt dirs) (gc : GridCode code lc Lc A Xc Zc)
    (gt : GridCode code lt Lt B Xt Zt) (hrc : CanRun nm lc) (hrt : CanRun nm lt) (nt : NoTicks nm) (um : UniformMeas nm)
    (hcfg : ConfigOk cfg) (hf : cfg.frame ≠ .gateIndependent)
    (hall : ∀ q, q ∈ cfg.anc ↔ q ∈ ancOf Lc ++ ancOf Lt)
    {dataInit : Dict String Int} (hz : ∀ a ∈ ancOf Lc ++ ancOf Lt, isOne dataInit a = 0) (o o' : SetOrder)
    (ancDetectors : Option (List String)) (hsel : ∀ sel, ancDetectors = some sel → ∀ a ∈ sel, a ∈ ancOf Lc ++ ancOf Lt)
    (rb reset gauge : Bool) (ds : List Bool) (final : Bool) {m : Nat} {F : ZMod 2 × ZMod 2 → ZMod 2 × ZMod 2}
    {body : List String → Circuit → PyM (Sim cfg) Circuit} {R : Prop}
    (hR : R → MergesOk code o o' nm lc lt Lc Lt dataInit rb reset ∧ MergesOk code o o' nm lt lc Lt Lc dataInit rb reset)
    (hbody : ∀ sel : List String, (∀ a ∈ sel, a ∈ ancOf Lc ++ ancOf Lt) → ∀ V D e s,
      HInv nm (ancOf Lc ++ ancOf Lt) (pairValues nm lc lt Lc Lt A B) reset (ancOf Lc ++ ancOf Lt) 1 V D 1 1 1 e s →
      Gives R (body sel e) s fun e' s' => ∃ M M' N V', FrameSteps M M' N ∧
        (∀ ζ ρ, pairOf rb (V' ζ ρ).1 = F (pairOf rb (V ζ ρ).1)) ∧
        HInv nm (ancOf Lc ++ ancOf Lt) (pairValues nm lc lt Lc Lt A B) reset
          ((ancOf Lc ++ ancOf Lt) ++ ds.flatMap fun d => (List.replicate m (turnedAnc Lc Lt d)).flatten) (1 + ds.length * m) V'
          (fun ζ ρ => D ζ ρ ++ List.replicate (ds.length * m * cfg.anc.length) 0) M M' N e' s') (s : Sim cfg) :
    Gives R (pairExperiment (cfg := cfg) (cssIter code o nm) o' nm lc lt dataInit rb reset ancDetectors gauge body final) s fun c _ => PairsOk c ∧
      measOrder c = ((ancOf Lc ++ ancOf Lt) ++ (ds.flatMap fun d => (List.replicate m (turnedAnc Lc Lt d)).flatten) ++
        (if final then dataOf Lt ++ dataOf Lc else dataOf Lc ++ dataOf Lt)).map (ind nm.inds) ∧
      ∀ ζ ρ : Nat → ZMod 2, ∃ st0 : FState Nat,
        (∀ S : List String, (∀ d ∈ S, d ∈ dataOf Lc ++ dataOf Lt) →
          anticommutes (ind nm.inds) st0 S (fun d => decide (d ∈ if rb then dataOf Lc ++ dataOf Lt else [])) =
            bits dataInit S) ∧
        detectors ζ ρ c = (cfg.anc.map fun q => if q ∈ ancDetectors.getD (ancOf Lc ++ ancOf Lt) ∧
            (gauge = true ∨ q ∈ stabsOf Lc rb ++ stabsOf Lt rb) then
            (pairValues nm lc lt Lc Lt A B st0).2 q else 0) ++ List.replicate (ds.length * m * cfg.anc.length +
              (cfg.anc.filter (· ∈ stabsOf Lc rb ++ stabsOf Lt rb)).length) 0 ∧
        observables ζ ρ c =
          let v := F ((pairValues nm lc lt Lc Lt A B st0).1 (false, rb), (pairValues nm lc lt Lc Lt A B st0).1 (true, rb))
          if final then [(0, v.2), (1, v.1)] else [(0, v.1), (1, v.2)] := by
  have hmc := gc.memCode h.c hrc rb
  have hmt := gt.memCode h.t hrt rb
  set sel := ancDetectors.getD (ancOf Lc ++ ancOf Lt) with hseld
  have hsel' : ∀ a ∈ sel, a ∈ ancOf Lc ++ ancOf Lt := by
    cases ancDetectors with
    | none => exact fun a ha => ha
    | some x => exact hsel x rfl
  set first := (if gauge then sel else o'.ord (inter (setOf sel) (stabsOf Lc rb ++ stabsOf Lt rb))) with hfirst
  have hmf : ∀ q, q ∈ first ↔ q ∈ sel ∧ (gauge = true ∨ q ∈ stabsOf Lc rb ++ stabsOf Lt rb) := by
    intro q
    rw [hfirst]
    cases gauge
    · simp only [Bool.false_eq_true, if_false, mem_first, false_or]
    · simp
  obtain ⟨q0, hq0, hq1, hq2⟩ := qubitCoords_two gc.num (grid_nodes h.c hrc) gt.num (grid_nodes h.t hrt)
  have hq4 := ops_concat (a := []) (fun i hi => by simp at hi) hq1
  have p0 : PairsOk (Circuit.concat [] q0) := .of_nil hq4.2 (by rw [hq4.1, hq2]; rfl)
  have o0 : ops (Circuit.concat [] q0) = [] := by rw [hq4.1, hq2]; rfl
  have h0 : start nm [lc, lt] s = (.ok (Circuit.concat [] q0), (MeasState.fresh nm.inds, Detectors.State.fresh cfg)) := by
    unfold start
    rw [PyM.bind_ok (show onModel (cfg := cfg) (MeasState.newCircuit nm.inds) s = (.ok (), (MeasState.fresh nm.inds, s.2))
      from rfl)]
    rw [PyM.bind_ok (show onDets (cfg := cfg) (fun _ => Detectors.newCircuit cfg) (MeasState.fresh nm.inds, s.2) =
      (.ok (), (MeasState.fresh nm.inds, Detectors.State.fresh cfg)) from rfl)]
    rw [hq0]
    rfl
  obtain ⟨d1, hd1, hd1'⟩ := DetAt.activate hcfg.1 hmc.ancN (fun a ha => (hall a).2 (List.mem_append_left _ ha))
    (DetAt.new (cfg := cfg))
  obtain ⟨d2, hd2, hd2'⟩ := DetAt.activateMore hcfg.1 hmt.ancN (fun a ha => (hall a).2 (List.mem_append_right _ ha))
    (fun a ha hc => (List.nodup_append.1 (anc_two_nodup h)).2.2 a hc a ha rfl) hd1'
  obtain ⟨c₁, s₁, c₂, s₂, e1, e2, t2, hinit⟩ := merged_init_frame h hrc hrt nt o' dataInit rb
    (MeasState.tracks_fresh nm.inds)
  unfold pairExperiment
  refine .bind_ok (s' := s) (a := sel) ?_ ?_
  · cases ancDetectors with
    | some x => rfl
    | none =>
      unfold ancDefault
      rw [allAnc_two h]
      rfl
  refine .bind_ok (show PyM.ofExcept (lc.getQubits []) s = (.ok (Lc.map Prod.fst), s) by rw [h.c.getQubits_all]; rfl) ?_
  refine .bind_ok (show PyM.ofExcept (lt.getQubits []) s = (.ok (Lt.map Prod.fst), s) by rw [h.t.getQubits_all]; rfl) ?_
  refine .bind_ok h0 ?_
  refine .bind_ok (activateAndSum_ok h.c.getQubits_anc hd1 e1) ?_
  refine .bind_ok (activateAndSum_ok (s := (s₁, d1)) h.t.getQubits_anc hd2 e2) ?_
  refine Gives.bind (Q := fun m s' => s' = (s₂, d2) ∧ CircuitOps.mergeCircuits [c₁, c₂] true = .ok m) ?_ fun m' s' hq => ?_
  · refine ⟨fun a s' ha => ?_, fun hR' => ?_⟩
    · cases hmm : CircuitOps.mergeCircuits [c₁, c₂] true with
      | error e => rw [hmm] at ha; cases ha
      | ok x => rw [hmm] at ha; cases ha; exact ⟨rfl, rfl⟩
    · obtain ⟨x, hx⟩ := (hR hR').1.init _ [] (MeasState.tracks_fresh nm.inds) _ _ _ _ e1 e2
      exact ⟨x, (s₂, d2), by rw [hx]; rfl⟩
  obtain ⟨rfl, hmm⟩ := hq
  obtain ⟨pm, mo, fm⟩ := hinit m' hmm
  refine .bind_ok (s' := (s₂, d2)) (a := first) ?_ ?_
  · unfold firstSel
    rw [hfirst]
    cases gauge
    · simp only [Bool.false_eq_true, if_false]
      unfold firstDets
      simp only [mapExcept, hmc.qStabs, hmt.qStabs]
      show (Except.ok (o'.ord (inter (setOf sel) (stabsOf Lc rb ++ (stabsOf Lt rb ++ [])))), _) = _
      rw [List.append_nil]
    · rfl
  have hom := p0.concat pm
  have hall' : ∀ q, q ∈ cfg.anc ↔ q ∈ ancOf Lt ++ ancOf Lc := fun q => by rw [hall]; simp [or_comm]
  have hsel'' : ∀ a ∈ sel, a ∈ ancOf Lt ++ ancOf Lc := fun a ha => by simpa [or_comm] using hsel' a ha
  have i1 : HInv nm (ancOf Lc ++ ancOf Lt) (pairValues nm lc lt Lc Lt A B) reset []  0
      (fun ζ ρ => pairValues nm lc lt Lc Lt A B (run ρ (FState.start ζ) (ops m'))) (fun _ _ => []) 1 1 1
      ((Circuit.concat [] q0).concat m') (s₂, d2) := by
    refine ⟨t2, fun q _ => rfl, by simp, hom.2, ?_, ?_, fun ζ ρ => ?_⟩
    · rw [measOrder_ops, hom.1, o0, List.nil_append, ← measOrder_ops, mo]; rfl
    · have := hd2'.toG hcfg.1 (fun a ha => (hall a).1 ha)
      exact this
    · obtain ⟨g1, g2, g3, g4, g5⟩ := fm ζ ρ
      dsimp only
      rw [hom.1, o0, List.nil_append]
      refine ⟨by rw [g1]; rfl, g3, by rw [g2]; rfl, rfl, fun q hq => ?_, fun i => ?_⟩
      · rw [if_pos rfl, g4 q hq, hz q hq]
      · rw [if_pos rfl]
  refine (Gives.addTo (pair_round h gc gt hrc hrt nt um hcfg hf hall (sel := first) (fun q hq => hsel' q ((hmf q).1 hq).1) o
    (fun hR' => (hR hR').1.round) (steps_self (by simp [mod2_one])) (one_mul 1) i1 (fun _ => rfl))).bind fun e2 s2 i2 => ?_
  refine (hbody sel hsel' _ _ _ _ i2).bind fun e3 s3 i3 => ?_
  obtain ⟨M3, M3', N3, V3, o3, l3, i3⟩ := i3
  have hl3 : ∀ ζ ρ, ((V3 ζ ρ).1 (false, rb), (V3 ζ ρ).1 (true, rb)) = F
      ((pairValues nm lc lt Lc Lt A B (run ρ (FState.start ζ) (ops m'))).1 (false, rb),
        (pairValues nm lc lt Lc Lt A B (run ρ (FState.start ζ) (ops m'))).1 (true, rb)) := l3
  refine (Gives.addTo (Q := fun c _ => _) ?_)
  cases final
  · refine (i3.mergedMeas h gc gt hrc hrt hcfg hf o3 hall (iter := fun l b => logMeasIter nm l b) (rb := rb)
      (fun s hist ht => ⟨fun c s' e => pair_meas h gc gt hrc hrt nt um rb ht e, fun hR' => (hR hR').1.meas s hist ht⟩)
      (by omega) hsel').mono fun c s' hc => ?_
    obtain ⟨k1, k2, k3⟩ := hc
    refine ⟨k1, k2, fun ζ ρ => ⟨run ρ (FState.start ζ) (ops m'), (fm ζ ρ).2.2.2.2, ?_, ?_⟩⟩
    · rw [(k3 ζ ρ).1]
      simp only [List.nil_append, and_true, hmf, List.append_assoc, List.replicate_append_replicate]
    · rw [(k3 ζ ρ).2, ← hl3 ζ ρ]
      rfl
  · refine ((i3.swap h).mergedMeas h.symm gt gc hrt hrc hcfg hf o3 hall' (iter := fun l b => logMeasIter nm l b) (rb := rb)
      (fun s hist ht => ⟨fun c s' e => pair_meas h.symm gt gc hrt hrc nt um rb ht e, fun hR' => (hR hR').2.meas s hist ht⟩)
      (by omega) hsel'').mono fun c s' hc => ?_
    obtain ⟨k1, k2, k3⟩ := hc
    refine ⟨k1, k2, fun ζ ρ => ⟨run ρ (FState.start ζ) (ops m'), (fm ζ ρ).2.2.2.2, ?_, ?_⟩⟩
    · have hfil : (cfg.anc.filter (· ∈ stabsOf Lt rb ++ stabsOf Lc rb)) = cfg.anc.filter (· ∈ stabsOf Lc rb ++ stabsOf Lt rb) := by
        refine List.filter_congr fun q _ => ?_
        simp only [List.mem_append, or_comm]
      rw [(k3 ζ ρ).1, hfil]
      simp only [List.nil_append, and_true, hmf, List.append_assoc, List.replicate_append_replicate]
    · rw [(k3 ζ ρ).2, ← hl3 ζ ρ]
      rfl

/-- The experiments on the codes on two grids. -/
theorem pair_fixed (h : Twins lc lt Lc Lt dirs) (gc : GridCode code lc Lc A Xc Zc) (gt : GridCode code lt Lt B Xt Zt)
    (hrc : CanRun nm lc) (hrt : CanRun nm lt) (nt : NoTicks nm) (um : UniformMeas nm)
    {dataInit : Dict String Int} {ancDetectors : Option (List String)} (hargs : PairArgs cfg lc lt ancDetectors)
    (hargs' : GateArgs cfg [lc, lt] dataInit) (o o' : SetOrder) (rb gauge : Bool) (ds : List Bool) (final : Bool) {m : Nat}
    {F : ZMod 2 × ZMod 2 → ZMod 2 × ZMod 2} {body : List String → Circuit → PyM (Sim cfg) Circuit} {R : Prop}
    (hR : R → MergesOk code o o' nm lc lt Lc Lt dataInit rb reset ∧ MergesOk code o o' nm lt lc Lt Lc dataInit rb reset)
    (hbody : (∀ q, q ∈ cfg.anc ↔ q ∈ ancOf Lc ++ ancOf Lt) → ∀ sel : List String, (∀ a ∈ sel, a ∈ ancOf Lc ++ ancOf Lt) → ∀ V D e s,
      HInv nm (ancOf Lc ++ ancOf Lt) (pairValues nm lc lt Lc Lt A B) reset (ancOf Lc ++ ancOf Lt) 1 V D 1 1 1 e s →
      Gives R (body sel e) s fun e' s' => ∃ M M' N V', FrameSteps M M' N ∧
        (∀ ζ ρ, pairOf rb (V' ζ ρ).1 = F (pairOf rb (V ζ ρ).1)) ∧
        HInv nm (ancOf Lc ++ ancOf Lt) (pairValues nm lc lt Lc Lt A B) reset
          ((ancOf Lc ++ ancOf Lt) ++ ds.flatMap fun d => (List.replicate m (turnedAnc Lc Lt d)).flatten) (1 + ds.length * m) V'
          (fun ζ ρ => D ζ ρ ++ List.replicate (ds.length * m * cfg.anc.length) 0) M M' N e' s') (s : Sim cfg) :
    Gives R (pairExperiment (cfg := cfg) (cssIter code o nm) o' nm lc lt dataInit rb reset ancDetectors gauge body final) s
      fun c _ => FixedTurnValues cfg nm lc lt ds m final dataInit rb gauge ancDetectors
        (F (bits dataInit (if rb then Xc else Zc), bits dataInit (if rb then Xt else Zt))) c := by
  have hall : ∀ q, q ∈ cfg.anc ↔ q ∈ ancOf Lc ++ ancOf Lt := by
    intro q
    rw [List.mem_append]
    constructor
    · intro hq
      obtain ⟨l, hl, hq⟩ := hargs'.anc q hq
      simp only [List.mem_cons, List.not_mem_nil, or_false] at hl
      rcases hl with rfl | rfl
      · rw [ancOfLayout_grid h.c] at hq
        exact Or.inl hq
      · rw [ancOfLayout_grid h.t] at hq
        exact Or.inr hq
    · rintro (hq | hq)
      · exact hargs.anc lc (by simp) q (by rw [ancOfLayout_grid h.c]; exact hq)
      · exact hargs.anc lt (by simp) q (by rw [ancOfLayout_grid h.t]; exact hq)
  have hz : ∀ a ∈ ancOf Lc ++ ancOf Lt, isOne dataInit a = 0 := by
    intro q hq
    rcases List.mem_append.1 hq with hq | hq
    · exact hargs'.init lc (by simp) q (by rw [ancOfLayout_grid h.c]; exact hq)
    · exact hargs'.init lt (by simp) q (by rw [ancOfLayout_grid h.t]; exact hq)
  have hsel : ∀ sel, ancDetectors = some sel → ∀ a ∈ sel, a ∈ ancOf Lc ++ ancOf Lt := by
    intro sel hs q hq
    obtain ⟨l, hl, hq⟩ := hargs.sel sel hs q hq
    simp only [List.mem_cons, List.not_mem_nil, or_false] at hl
    rw [List.mem_append]
    rcases hl with rfl | rfl
    · rw [ancOfLayout_grid h.c] at hq
      exact Or.inl hq
    · rw [ancOfLayout_grid h.t] at hq
      exact Or.inr hq
  refine (pair_values h gc gt hrc hrt nt um hargs.config hargs'.frame hall hz o o'
    ancDetectors hsel rb reset gauge ds final hR (hbody hall) s).mono fun c _ hc => ?_
  obtain ⟨h1, h2, h3⟩ := hc
  refine ⟨dataOf Lc, ancOf Lc, stabsOf Lc rb, dataOf Lt, ancOf Lt, stabsOf Lt rb, h.c.getQubits_data, h.c.getQubits_anc,
    stabs_grid h.c rb, h.t.getQubits_data, h.t.getQubits_anc, stabs_grid h.t rb, h1, h2, fun ζ ρ => ?_⟩
  obtain ⟨st0, hst0, hdet, hobs⟩ := h3 ζ ρ
  obtain ⟨b1, b2, b3, b4⟩ := pairValues_basis (nm := nm) h gc gt st0 rb
  have hval : ∀ S : List String, (∀ d ∈ S, d ∈ dataOf Lc ++ dataOf Lt) →
      anticommutes (ind nm.inds) st0 S (fun _ => rb) = bits dataInit S := by
    intro S hS
    rw [← hst0 S hS]
    refine anticommutes_congr fun d hd => ?_
    have := hS d hd
    cases rb
    · rfl
    · simpa using this
  have hfirst : ∀ a ∈ stabsOf Lc rb ++ stabsOf Lt rb, (pairValues nm lc lt Lc Lt A B st0).2 a =
      bits dataInit (if a ∈ ancOf Lc then lc.getNeighbors [a] none else lt.getNeighbors [a] none) := by
    intro a ha
    rcases List.mem_append.1 ha with ha | ha
    · rw [b1 a ha, if_pos (stabsOf_sub ha)]
      exact hval _ fun d hd => List.mem_append_left _ (nbrs_data h.c (stabsOf_sub ha) hd)
    · rw [b2 a ha, if_neg]
      · exact hval _ fun d hd => List.mem_append_right _ (nbrs_data h.t (stabsOf_sub ha) hd)
      · intro hc
        exact (List.nodup_append.1 (anc_two_nodup h)).2.2 a hc a (stabsOf_sub ha) rfl
  constructor
  · cases gauge
    · simp only [Bool.false_eq_true, if_false]
      rw [hdet]
      unfold gateDetectors
      congr 1
      refine List.map_congr_left fun a _ => ?_
      simp only [Bool.false_eq_true, false_or]
      split
      · rename_i h
        exact hfirst a h.2
      · rfl
    · simp only [if_true]
      rw [hdet]
      unfold gateDetectors
      refine ⟨by simp, fun i hi => ?_⟩
      by_cases hil : i < cfg.anc.length
      · rw [List.getElem?_append_left (by simpa using hil), List.getElem?_append_left (by simpa using hil),
          List.getElem?_map, List.getElem?_map]
        obtain ⟨a, hai⟩ : ∃ a, cfg.anc[i]? = some a := ⟨_, List.getElem?_eq_getElem hil⟩
        rw [hai]
        have haa : a ∈ ancOf Lc ++ ancOf Lt := (hall a).1 (List.mem_of_getElem? hai)
        have hi := hi (by omega) a hai
        simp only [Option.map_some, true_or, and_true]
        congr 1
        by_cases hs : a ∈ ancDetectors.getD (ancOf Lc ++ ancOf Lt)
        · have hs' := hi hs haa
          simp only [hs, hs', true_and, if_true]
          exact hfirst a hs'
        · simp only [hs, false_and, if_false]
      · rw [List.getElem?_append_right (by simpa using hil), List.getElem?_append_right (by simpa using hil)]
        simp
  · have hs : ∀ d ∈ (if rb then Xc else Zc), d ∈ dataOf Lc := by cases rb; exacts [gc.grid.subZ, gc.grid.subX]
    have hs' : ∀ d ∈ (if rb then Xt else Zt), d ∈ dataOf Lt := by cases rb; exacts [gt.grid.subZ, gt.grid.subX]
    rw [hobs, b3, b4, hval _ fun d hd => List.mem_append_left _ (hs d hd), hval _ fun d hd => List.mem_append_right _ (hs' d hd)]

/-- The experiment with CNOT gates in both directions between the codes on two grids. -/
theorem turn_fixed (h : Twins lc lt Lc Lt dirs) (gc : GridCode code lc Lc A Xc Zc) (gt : GridCode code lt Lt B Xt Zt)
    (hrc : CanRun nm lc) (hrt : CanRun nm lt) (nt : NoTicks nm) (um : UniformMeas nm)
    (isCode : code = "rotated_surface_code" ∨ code = "unrotated_surface_code")
    (hlab : cnotLabel lc lt = .ok label) (ht : CnotTable lc lt Lc Lt label)
    (hlab' : cnotLabel lt lc = .ok label') (ht' : CnotTable lt lc Lt Lc label')
    (tX : TwinSets Lc Lt Xc Xt) (tZ : TwinSets Lc Lt Zc Zt)
    {dataInit : Dict String Int} {ancDetectors : Option (List String)} (hargs : PairArgs cfg lc lt ancDetectors)
    (hargs' : GateArgs cfg [lc, lt] dataInit) (o o' : SetOrder) (rb gauge : Bool) (ds : List Bool) (final : Bool) {m : Nat}
    (hm : 1 ≤ m) (s : Sim cfg) :
    Gives (MergesOk code o o' nm lc lt Lc Lt dataInit rb reset ∧ MergesOk code o o' nm lt lc Lt Lc dataInit rb reset)
      (Props.cnotExperiment (cfg := cfg) (cssIter code o nm) o' nm lc lt m dataInit rb reset ancDetectors gauge
        (ds.map (turned lc lt)) (turned lc lt final)) s
      fun c _ => FixedTurnValues cfg nm lc lt ds m final dataInit rb gauge ancDetectors
        (afterCnots rb ds (bits dataInit (if rb then Xc else Zc), bits dataInit (if rb then Xt else Zt))) c := by
  have key : Props.cnotExperiment (cfg := cfg) (cssIter code o nm) o' nm lc lt m dataInit rb reset ancDetectors gauge
      (ds.map (turned lc lt)) (turned lc lt final) = pairExperiment (cssIter code o nm) o' nm lc lt dataInit rb reset ancDetectors
        gauge (fun sel => Props.cnotSequence o' nm (fun ls => mergeQecRounds (cssIter code o nm) ls reset (some sel)) m
          (ds.map (turned lc lt))) final := by
    unfold Props.cnotExperiment
    rw [if_neg (by omega)]
    cases final <;> rfl
  rw [key]
  refine pair_fixed (F := afterCnots rb ds) h gc gt hrc hrt nt um hargs hargs' o o' rb gauge ds final id
    (fun hall sel hsel V D e s hi => ?_) s
  obtain ⟨t, sg, τ, hx⟩ := exists_twinIndex h hall
  refine (hi.turns h gc gt hrc hrt isCode hlab ht hlab' ht' tX tZ hargs.config.1 hall hx o'
    (round := fun ls => mergeQecRounds (cssIter code o nm) ls reset (some sel))
    (pair_roundH h gc gt hrc hrt nt um hargs.config hargs'.frame hall hsel o fun hR => hR.1.round)
    (pair_roundH h.symm gt gc hrt hrc nt um hargs.config hargs'.frame (fun q => by rw [hall]; simp [or_comm])
      (fun a ha => by simpa [or_comm] using hsel a ha) o fun hR => hR.2.round) hm ds orbit_one
    (by omega)).mono fun e3 s3 i3 => ?_
  obtain ⟨G3, V3, o3, l3, i3⟩ := i3
  refine ⟨G3, G3, 1, V3, steps_self o3.1, fun ζ ρ => ?_, i3⟩
  rw [l3]
  exact foldl_logStep rb ds _

end SurfaceSim
