/-
Experiments with transversal CNOT gates between two layouts, with faults: the whole experiment.
-/
import Verif.Lemmas.FaultsCnot

namespace SurfaceSim
open Spec NoiseModel Blocks Experiments LayoutLib LogGates

variable {cfg : Detectors.Config} {nm : NoiseModel} {lc lt : Layout} {Lc Lt : List (String × Site × Kind)}
  {dirs : List (Site × String)} {reset rb : Bool} {code A B label : String} {Xc Zc Xt Zt : List String} {J : Type}
  {lnc lnt : J → String → ZMod 2} {Sc St : List String}

/-- The merged initialization of two layouts. -/
theorem pair_initPres (h : Twins lc lt Lc Lt dirs) (hrc : CanRun nm lc) (hrt : CanRun nm lt) (nt : NoTicks nm)
    (hl : TwinLines lc lt Lc Lt rb Sc St lnc lnt) (o : SetOrder) (dataInit : Dict String Int) {s : MeasState} {hist : List String}
    (ht : s.Tracks nm.inds hist) :
    ∃ c₁ s₁ c₂ s₂, sumGen (initIter o nm lc (dataInit.filter fun kv => decide (kv.1 ∈ Lc.map Prod.fst)) rb) s = (.ok c₁, s₁) ∧
      sumGen (initIter o nm lt (dataInit.filter fun kv => decide (kv.1 ∈ Lt.map Prod.fst)) rb) s₁ = (.ok c₂, s₂) ∧
      s₂.Tracks nm.inds hist ∧ ∀ m, CircuitOps.mergeCircuits [c₁, c₂] true = .ok m → PairsOk m ∧
        ∃ M, ops m = M.map (Op.rename (ind nm.inds)) ∧ Loud M ∧ measured M = [] ∧
          ∀ α, ∃ W0, Pres nm.inds.keys.toFinset M (jointW rb lnc lnt α) W0 := by
  have kc := grid_known hrc h.c
  have kt := grid_known hrt h.t
  have hone : ∀ {L : List (String × Site × Kind)} {q : String},
      isOne (dataInit.filter fun kv => decide (kv.1 ∈ L.map Prod.fst)) q = 1 → q ∈ L.map Prod.fst := by
    intro L q hq
    rw [isOne_filter] at hq
    by_contra hn
    rw [if_neg hn] at hq
    exact absurd hq (by decide)
  obtain ⟨c₁, s₁, c₂, s₂, e1, e2, t2, -, hm⟩ := merged_init hrc hrt nt h.c h.t o
    (fun q hq => kc q (mem_grid_label.2 (hone hq))) (fun q hq => kt q (mem_grid_label.2 (hone hq))) rb ht
  refine ⟨c₁, s₁, c₂, s₂, e1, e2, t2, fun m hmm => ?_⟩
  obtain ⟨hev, AA, E, H, hA, hE, hH, ho⟩ := hm m hmm
  have kA : ∀ q ∈ AA, q ∈ nm.inds.keys := by
    intro q hq
    rw [hA.mem_iff, List.mem_append, mem_ord, mem_ord, mem_setOf, mem_setOf] at hq
    rcases hq with hq | hq
    · exact kc q hq
    · exact kt q hq
  have kE : ∀ q ∈ E, q ∈ nm.inds.keys := by
    intro q hq
    rw [hE.mem_iff, List.mem_append, mem_ord, mem_ord, mem_excited, mem_excited] at hq
    rcases hq with hq | hq
    · exact kc q (mem_grid_label.2 (hone hq))
    · exact kt q (mem_grid_label.2 (hone hq))
  have hHm : ∀ q, q ∈ H ↔ q ∈ (if rb then dataOf Lc ++ dataOf Lt else []) := fun q => hH.mem_iff
  have kH : ∀ q ∈ H, q ∈ nm.inds.keys := by
    intro q hq
    rw [hHm] at hq
    cases rb
    · simp at hq
    · rcases List.mem_append.1 hq with hq | hq
      · exact kc q (List.mem_append_left _ hq)
      · exact kt q (List.mem_append_left _ hq)
  have hHn : H.Nodup := by
    rw [hH.nodup_iff]
    cases rb
    · exact List.nodup_nil
    · exact data_two_nodup h
  have hmem : ∀ {op : Op String}, op ∈ AA.map Op.r ++ E.map Op.x ++ H.map Op.h →
      (∃ q ∈ AA, op = .r q) ∨ (∃ q ∈ E, op = .x q) ∨ ∃ q ∈ H, op = .h q := by
    intro op hop
    simp only [List.mem_append, List.mem_map] at hop
    rcases hop with (⟨q, hq, rfl⟩ | ⟨q, hq, rfl⟩) | ⟨q, hq, rfl⟩
    · exact Or.inl ⟨q, hq, rfl⟩
    · exact Or.inr (Or.inl ⟨q, hq, rfl⟩)
    · exact Or.inr (Or.inr ⟨q, hq, rfl⟩)
  refine ⟨pairsOk_of_ops hrc.inj hev ho (fun op hop q hq => ?_) (fun op hop => ?_), _, ho, fun op hop => ?_, ?_, fun α => ?_⟩
  · rcases hmem hop with ⟨q', h1, rfl⟩ | ⟨q', h1, rfl⟩ | ⟨q', h1, rfl⟩ <;>
      simp only [Op.qubits, List.mem_singleton] at hq <;> rw [hq]
    · exact kA q' h1
    · exact kE q' h1
    · exact kH q' h1
  · rcases hmem hop with ⟨q', h1, rfl⟩ | ⟨q', h1, rfl⟩ | ⟨q', h1, rfl⟩ <;> trivial
  · rcases hmem hop with ⟨q', h1, rfl⟩ | ⟨q', h1, rfl⟩ | ⟨q', h1, rfl⟩ <;> simp
  · simp only [measured_append]
    rw [measured_map_none _ _ (by simp), measured_map_none _ _ (by simp), measured_map_none _ _ (by simp)]
    rfl
  · refine pres_init (fun q hq => by simpa using kA q hq) (fun q hq => by simpa using kE q hq) hHn
      (fun q hq => by simpa using kH q hq) (fun q _ => joint_one h hl α q) ?_
    intro j q hq
    have hqd : q ∈ dataOf Lc ++ dataOf Lt := by
      by_cases hqt : q ∈ dataOf Lt
      · exact List.mem_append_right _ hqt
      · rw [joint_c h hl α j hqt] at hq
        exact List.mem_append_left _ (hl.c.sub j q (right_ne_zero_of_mul hq))
    simp only [hHm q]
    cases rb
    · simp
    · simpa using hqd

open Classical in
/-- Fewer faults than lines change the observables of an experiment with CNOT gates only if a detector reports them; wrong
outcomes on the support of a logical operator of the first layout change them without. -/
theorem cnot_detects [Fintype J] (h : Twins lc lt Lc Lt dirs) (gc : GridCode code lc Lc A Xc Zc)
    (gt : GridCode code lt Lt B Xt Zt) (hrc : CanRun nm lc) (hrt : CanRun nm lt) (nt : NoTicks nm) (um : UniformMeas nm)
    (isCode : code = "rotated_surface_code" ∨ code = "unrotated_surface_code")
    (hlab : cnotLabel lc lt = .ok label) (ht : CnotTable lc lt Lc Lt label) (tX : TwinSets Lc Lt Xc Xt) (tZ : TwinSets Lc Lt Zc Zt)
    {dataInit : Dict String Int} {ancDetectors : Option (List String)} (hargs : PairArgs cfg lc lt ancDetectors)
    (hf : cfg.frame ≠ .gateIndependent) (hanc : ∀ a ∈ cfg.anc, ∃ l ∈ [lc, lt], a ∈ ancOfLayout l) (o o' : SetOrder)
    (hl : TwinLines lc lt Lc Lt rb (if rb then Xc else Zc) (if rb then Xt else Zt) lnc lnt)
    (pc : RoundPres nm (ancOf Lc) nm.inds.keys.toFinset (fun j => fn (fun _ => rb) (lnc j)) (sumGen (cssIter code o nm lc reset)))
    (pt : RoundPres nm (ancOf Lt) nm.inds.keys.toFinset (fun j => fn (fun _ => rb) (lnt j)) (sumGen (cssIter code o nm lt reset)))
    (hselc : SelectsBasis lc rb ancDetectors) (hselt : SelectsBasis lt rb ancDetectors)
    (gauge : Bool) (n m : Nat) (s : Sim cfg) :
    Gives (MergesOk code o o' nm lc lt Lc Lt dataInit rb reset)
      (repeatedCnot (cfg := cfg) (cssIter code o nm) o' nm lc lt n m dataInit "constant" rb reset ancDetectors gauge) s
      fun c _ => Detects (Fintype.card J) c ∧
      ∀ S : List String, S.Nodup → (∀ q ∈ S, q ∈ dataOf Lc) →
        (∀ a ∈ stabsOf Lc rb, ((lc.getNeighbors [a] none).map fun q => if q ∈ S then (1 : ZMod 2) else 0).sum = 0) →
        ((if rb then Xc else Zc).map fun q => if q ∈ S then (1 : ZMod 2) else 0).sum = 1 → Unseen S.length c := by
  have hcfg := hargs.config
  have hn := hcfg.1
  have hall : ∀ q, q ∈ cfg.anc ↔ q ∈ ancOf Lc ++ ancOf Lt := by
    intro q
    rw [List.mem_append]
    constructor
    · intro hq
      obtain ⟨l, hl, hq⟩ := hanc q hq
      simp only [List.mem_cons, List.not_mem_nil, or_false] at hl
      rcases hl with rfl | rfl
      · rw [ancOfLayout_grid h.c] at hq
        exact Or.inl hq
      · rw [ancOfLayout_grid h.t] at hq
        exact Or.inr hq
    · rintro (hq | hq)
      · exact hargs.anc lc (by simp) q (by rw [ancOfLayout_grid h.c]; exact hq)
      · exact hargs.anc lt (by simp) q (by rw [ancOfLayout_grid h.t]; exact hq)
  have hsel : ∀ sel, ancDetectors = some sel → ∀ a ∈ sel, a ∈ ancOf Lc ++ ancOf Lt := by
    intro sel hs q hq
    obtain ⟨l, hl, hq⟩ := hargs.sel sel hs q hq
    simp only [List.mem_cons, List.not_mem_nil, or_false] at hl
    rw [List.mem_append]
    rcases hl with rfl | rfl
    · rw [ancOfLayout_grid h.c] at hq
      exact Or.inl hq
    · rw [ancOfLayout_grid h.t] at hq
      exact Or.inr hq
  have hgood := goodTable_cnot h ht
  have hU := clean_genMat hn hall hgood
  have hclosed := closed_cnot (cfg := cfg) h ht hall rb
  have gX : ∀ {l : Layout} {L : List (String × Site × Kind)} {lab : String} {lx lz : List String}, GridCode code l L lab lx lz →
      l.logX.get? lab = some lx ∧ l.logZ.get? lab = some lz := by
    intro l L lab lx lz g
    rw [g.logX, g.logZ]
    simp [Dict.get?]
  have hcc : lc.code = "rotated_surface_code" ∨ lc.code = "unrotated_surface_code" := by rw [gc.name]; exact isCode
  have hct : lt.code = "rotated_surface_code" ∨ lt.code = "unrotated_surface_code" := by rw [gt.name]; exact isCode
  have hgate := pair_gate (cfg := cfg) h hl hrc hrt o' hcc hct hlab ht
    (gateG_transCnot (cfg := cfg) h hrc hrt o' hcc hct hlab ht (gX gc).1 (gX gc).2 (gX gt).1 (gX gt).2 tX tZ hn hall)
  rw [Props.C42_constant]
  have hmc := gc.memCode h.c hrc rb
  have hmt := gt.memCode h.t hrt rb
  have hk : ∀ d ∈ ancOf Lc ++ ancOf Lt, d ∈ nm.inds.keys := by
    intro d hd
    rcases List.mem_append.1 hd with hd | hd
    · exact hmc.known (List.mem_append_right _ hd)
    · exact hmt.known (List.mem_append_right _ hd)
  set sel := ancDetectors.getD (ancOf Lc ++ ancOf Lt) with hseld
  have hsel' : ∀ a ∈ sel, a ∈ ancOf Lc ++ ancOf Lt := by
    cases ancDetectors with
    | none => exact fun a ha => ha
    | some x => exact hsel x rfl
  have hTa : ∀ q ∈ stabsOf Lc rb ++ stabsOf Lt rb, q ∈ ancOf Lc ++ ancOf Lt := by
    intro q hq
    rcases List.mem_append.1 hq with hq | hq
    · exact List.mem_append_left _ (stabsOf_sub hq)
    · exact List.mem_append_right _ (stabsOf_sub hq)
  have hselT : ∀ q ∈ stabsOf Lc rb ++ stabsOf Lt rb, q ∈ sel := by
    intro q hq
    cases ancDetectors with
    | none => exact hTa q hq
    | some x =>
      rcases List.mem_append.1 hq with hq | hq
      · exact hselc x rfl _ (stabs_grid h.c rb) q hq
      · exact hselt x rfl _ (stabs_grid h.t rb) q hq
  set first := (if gauge then sel else o'.ord (inter (setOf sel) (stabsOf Lc rb ++ stabsOf Lt rb))) with hfirst
  have hmf : ∀ q, q ∈ first ↔ q ∈ sel ∧ (gauge = true ∨ q ∈ stabsOf Lc rb ++ stabsOf Lt rb) := by
    intro q
    rw [hfirst]
    cases gauge
    · simp only [Bool.false_eq_true, if_false, mem_first, false_or]
    · simp
  obtain ⟨q0, hq0, hq1, hq2⟩ := qubitCoords_two gc.num (grid_nodes h.c hrc) gt.num (grid_nodes h.t hrt)
  have hq4 := ops_concat (a := []) (fun i hi => by simp at hi) hq1
  have p0 : PairsOk (Circuit.concat [] q0) := .of_nil hq4.2 (by rw [hq4.1, hq2]; rfl)
  have o0 : ops (Circuit.concat [] q0) = [] := by rw [hq4.1, hq2]; rfl
  have h0 : start nm [lc, lt] s = (.ok (Circuit.concat [] q0), (MeasState.fresh nm.inds, Detectors.State.fresh cfg)) := by
    unfold start
    rw [PyM.bind_ok (show onModel (cfg := cfg) (MeasState.newCircuit nm.inds) s = (.ok (), (MeasState.fresh nm.inds, s.2))
      from rfl)]
    rw [PyM.bind_ok (show onDets (cfg := cfg) (fun _ => Detectors.newCircuit cfg) (MeasState.fresh nm.inds, s.2) =
      (.ok (), (MeasState.fresh nm.inds, Detectors.State.fresh cfg)) from rfl)]
    rw [hq0]
    rfl
  obtain ⟨d1, hd1, hd1'⟩ := DetAt.activate hcfg.1 hmc.ancN (fun a ha => (hall a).2 (List.mem_append_left _ ha))
    (DetAt.new (cfg := cfg))
  obtain ⟨d2, hd2, hd2'⟩ := DetAt.activateMore hcfg.1 hmt.ancN (fun a ha => (hall a).2 (List.mem_append_right _ ha))
    (fun a ha hc => (List.nodup_append.1 (anc_two_nodup h)).2.2 a hc a ha rfl) hd1'
  obtain ⟨c₁, s₁, c₂, s₂, e1, e2, t2, hinit⟩ := pair_initPres h hrc hrt nt hl o' dataInit
    (MeasState.tracks_fresh nm.inds)
  unfold Props.cnotExperiment
  rw [if_neg (by omega)]
  refine .bind_ok (s' := s) (a := sel) ?_ ?_
  · cases ancDetectors with
    | some x => rfl
    | none =>
      unfold ancDefault
      rw [allAnc_two h]
      rfl
  refine .bind_ok (show PyM.ofExcept (lc.getQubits []) s = (.ok (Lc.map Prod.fst), s) by rw [h.c.getQubits_all]; rfl) ?_
  refine .bind_ok (show PyM.ofExcept (lt.getQubits []) s = (.ok (Lt.map Prod.fst), s) by rw [h.t.getQubits_all]; rfl) ?_
  refine .bind_ok h0 ?_
  refine .bind_ok (activateAndSum_ok h.c.getQubits_anc hd1 e1) ?_
  refine .bind_ok (activateAndSum_ok (s := (s₁, d1)) h.t.getQubits_anc hd2 e2) ?_
  refine Gives.bind (Q := fun m s' => s' = (s₂, d2) ∧ CircuitOps.mergeCircuits [c₁, c₂] true = .ok m) ?_ fun m' s' hq => ?_
  · refine ⟨fun a s' ha => ?_, fun hR => ?_⟩
    · cases hmm : CircuitOps.mergeCircuits [c₁, c₂] true with
      | error e => rw [hmm] at ha; cases ha
      | ok x => rw [hmm] at ha; cases ha; exact ⟨rfl, rfl⟩
    · obtain ⟨x, hx⟩ := hR.init _ [] (MeasState.tracks_fresh nm.inds) _ _ _ _ e1 e2
      exact ⟨x, (s₂, d2), by rw [hx]; rfl⟩
  obtain ⟨rfl, hmm⟩ := hq
  obtain ⟨pm, MI, oM, lM, mM, prM⟩ := hinit m' hmm
  refine .bind_ok (s' := (s₂, d2)) (a := first) ?_ ?_
  · unfold firstSel
    rw [hfirst]
    cases gauge
    · simp only [Bool.false_eq_true, if_false]
      unfold firstDets
      simp only [mapExcept, hmc.qStabs, hmt.qStabs]
      show (Except.ok (o'.ord (inter (setOf sel) (stabsOf Lc rb ++ (stabsOf Lt rb ++ [])))), _) = _
      rw [List.append_nil]
    · rfl
  have hom := p0.concat pm
  have i1 : CInv nm (ancOf Lc ++ ancOf Lt) nm.inds.keys.toFinset (jointW rb lnc lnt) (stabsOf Lc rb ++ stabsOf Lt rb)
      (genMat cfg (pairGen lc lt Lc label)) 0 false false ((Circuit.concat [] q0).concat m') (s₂, d2) := by
    have hrec : ∀ P L k, Faulty P MI L k → ∀ ρ (st : FState String), st.recs = [] → st.obs = [] →
        (run ρ st L).recs = [] ∧ (run ρ st L).obs = [] ∧ (run ρ st L).dets = st.dets := by
      intro P L k hfl ρ st h1 h2
      obtain ⟨⟨v, g1, g2⟩, g3, g4⟩ := hfl.records lM ρ st
      rw [mM] at g1
      obtain rfl : v = [] := by simpa using g1
      exact ⟨by rw [g2, h1]; rfl, by rw [g4, h2], g3⟩
    refine ⟨t2, hom.2, hd2'.toG hcfg.1 (fun a ha => (hall a).1 ha), MI, ?_, prM, ?_, ?_⟩
    · rw [hom.1, o0, List.nil_append, oM]
    · intro P L k hfl ρ st h1 h2
      obtain ⟨r1, r2, -⟩ := hrec P L k hfl ρ st h1 h2
      exact ⟨by rw [r1]; rfl, r2⟩
    · intro P L k P' L' k' hfl hfl' ρ st h1 h2
      obtain ⟨r1, -, r3⟩ := hrec P L k hfl ρ st h1 h2
      obtain ⟨r1', -, r3'⟩ := hrec P' L' k' hfl' ρ st h1 h2
      rw [r1, r1', r3, r3']
      exact ⟨rfl, fun _ _ _ => rfl⟩
  have hround : ∀ {r : Nat} {a b : Bool} {e : Circuit} {s : Sim cfg},
      CInv nm (ancOf Lc ++ ancOf Lt) nm.inds.keys.toFinset (jointW rb lnc lnt) (stabsOf Lc rb ++ stabsOf Lt rb)
        (genMat cfg (pairGen lc lt Lc label)) r a b e s → ∀ {sel : List String}, (∀ q ∈ sel, q ∈ ancOf Lc ++ ancOf Lt) →
      (∀ q ∈ stabsOf Lc rb ++ stabsOf Lt rb, q ∈ sel) →
      Gives (MergesOk code o o' nm lc lt Lc Lt dataInit rb reset) (mergeQecRounds (cssIter code o nm) [lc, lt] reset (some sel)) s
        fun c s' => CInv nm (ancOf Lc ++ ancOf Lt) nm.inds.keys.toFinset (jointW rb lnc lnt) (stabsOf Lc rb ++ stabsOf Lt rb)
          (genMat cfg (pairGen lc lt Lc label)) (r + 1) b b (e.concat c) s' := by
    intro r a b e s hi sel hs hsT
    unfold mergeQecRounds
    refine .bind_ok (show PyM.ofExcept (checkAnc [lc, lt] (some sel)) s = (.ok (), s) by rw [checkAnc_two h hs]; rfl) ?_
    refine (onModel_gives (Q := fun c s' => ∃ M, ops c = M.map (Op.rename (ind nm.inds)) ∧ PairsOk c ∧
      s'.Tracks nm.inds (histOf (ancOf Lc ++ ancOf Lt) r ++ (ancOf Lc ++ ancOf Lt)) ∧ Loud M ∧
      measured M = ancOf Lc ++ ancOf Lt ∧ ∀ α, Pres nm.inds.keys.toFinset M (jointW rb lnc lnt α) (jointW rb lnc lnt α))
      ⟨fun c s' e => pair_roundPres h gc gt hrc hrt nt um o hl pc pt hi.tracks e, fun hR => hR.round _ _ hi.tracks⟩).bind
      fun c s1 hq => ?_
    obtain ⟨h2, M, ho, p1, t1, hloud, hmeas, hpres⟩ := hq
    obtain ⟨s1, d1⟩ := s1
    obtain rfl : d1 = s.2 := h2
    obtain ⟨c', d', e2, h3⟩ := hi.roundAt (reset := reset) hcfg hf hU hclosed (anc_two_nodup h) hk hall hTa t1 p1 ho hloud hmeas hpres
      sel hs hsT
    refine .bind_ok (onDets_ok (s := (s1, s.2)) (f := fun getRec => Detectors.buildFromAnc getRec reset (some sel)) e2) ?_
    exact .pure h3
  refine (Gives.addTo (hround i1 (fun q hq => hsel' q ((hmf q).1 hq).1)
    (fun q hq => (hmf q).2 ⟨hselT q hq, Or.inr hq⟩))).bind fun e2 s2 i2 => ?_
  refine (i2.cnots (anc_two_nodup h) hgate (round := fun ls => mergeQecRounds (cssIter code o nm) ls reset (some sel)) ?_ m n).bind
    fun e3 s3 i3 => ?_
  · intro r a b e s hi
    exact hround hi hsel' hselT
  obtain ⟨a3, b3, i3⟩ := i3
  refine (Gives.addTo (Q := fun c _ => _) ?_)
  exact i3.mergedMeas h gc gt hrc hrt hcfg hf hU hclosed hall (iter := fun l b => logMeasIter nm l b) hl
    (fun s hist ht => ⟨fun c s' e => pair_measPres h gc gt hrc hrt nt um hl ht e, fun hR => hR.meas s hist ht⟩)
    (by omega) hsel' hselT

end SurfaceSim
