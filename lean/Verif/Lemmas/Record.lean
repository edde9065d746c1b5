/-
The measurement record of memory experiments whose rounds measure the ancillas, whatever they do otherwise.
-/
import Verif.Lemmas.MemoryCodes

namespace SurfaceSim
open Spec NoiseModel Blocks Experiments LayoutLib

variable {nm : NoiseModel} {l : Layout} {rb : Bool} {data anc stabs log : List String} {isX : String → String → Bool}
  {R : List String} {cfg : Detectors.Config}

/-- The round measures the ancillas in order. -/
def RoundRec (nm : NoiseModel) (anc : List String) (b : Call1) : Prop :=
  ∀ (s : MeasState) (hist : List String), s.Tracks nm.inds hist →
    ∃ c s', b s = (.ok c, s') ∧ PairsOk c ∧ s'.Tracks nm.inds (hist ++ anc) ∧ measOrder c = anc.map (ind nm.inds)

/-- The state of a memory experiment after `r` rounds. -/
structure RecInv (nm : NoiseModel) (anc : List String) (r : Nat) (e : Circuit) (s : Sim cfg) : Prop where
  tracks : s.1.Tracks nm.inds (histOf anc r)
  even : PairsOk e
  order : measOrder e = (histOf anc r).map (ind nm.inds)
  det : DetAt anc r s.2

theorem recInv_round (hm : MemCode nm l rb data anc stabs log isX R) (hcfg : ConfigOk cfg)
    {b : Call1} (hb : RoundRec nm anc b) {r : Nat} {e : Circuit} {s : Sim cfg} (h : RecInv nm anc r e s) (rs : Bool)
    (sel : List String) (hsel : ∀ a ∈ sel, a ∈ cfg.anc) :
    ∃ c s1 c' d', b s.1 = (.ok c, s1) ∧ Detectors.buildFromAnc s1.measTarget rs (some sel) s.2 = (.ok c', d') ∧
      RecInv nm anc (r + 1) (e.concat (c.concat c')) (s1, d') := by
  obtain ⟨c, s1, e1, p1, t1, mo⟩ := hb _ _ h.tracks
  have hcount : ∀ a ∈ anc, (histOf anc r ++ anc).count a = r + 1 := by
    intro a ha; rw [← histOf_succ, count_histOf hm.ancN ha]
  have hfind : ∀ a ∈ anc, Props.FindsAt s1.measTarget (lookOf s1) a (min 3 (r + 1)) := by
    intro a ha k hk1 hk2
    exact (lookOf_spec t1 (hm.known (List.mem_append_right _ ha)) hk1 (by rw [hcount a ha]; omega)).1
  obtain ⟨c', d', e2, p2, hd, f2⟩ := DetAt.round hcfg h.det s1.measTarget (lookOf s1) rs sel hsel hfind
  have o1 := p1.concat p2
  have o2 := h.even.concat o1.2
  refine ⟨c, s1, c', d', e1, e2, by rw [histOf_succ]; exact t1, o2.2, ?_, hd⟩
  rw [measOrder_ops, o2.1, o1.1, measured_append, measured_append, ← measOrder_ops, ← measOrder_ops, h.order, mo,
    measured_eq_nil (ρ := 0) (st := FState.init Nat) (by rw [f2]), List.append_nil, histOf_succ, List.map_append]

theorem record_rounds (hm : MemCode nm l rb data anc stabs log isX R) (hcfg : ConfigOk cfg) (hsub : ∀ a ∈ anc, a ∈ cfg.anc)
    {fam : Family cfg} {iter : Gen} {reset : Bool} (hf : ∀ sel, fam.round l reset sel = qecRound iter l reset sel)
    (hb : RoundRec nm anc (sumGen iter)) (o : SetOrder) {sel : List String} (hsel : ∀ a ∈ sel, a ∈ anc) (gauge : Bool)
    (m : Nat) : ∀ (r : Nat) (e : Circuit) (s : Sim cfg), RecInv nm anc r e s →
    ∃ e' s', addAll e (List.range' r m) (memoryRound fam o l rb reset sel gauge) s = (.ok e', s') ∧
      RecInv nm anc (r + m) e' s' := by
  induction m with
  | zero => exact fun r e s h => ⟨e, s, rfl, h⟩
  | succ m ih =>
    intro r e s h
    set sel' := roundSel o stabs sel gauge r with hsel'
    have hs1 : ∀ a ∈ sel', a ∈ anc := fun a ha => hsel a (roundSel_sub a ha)
    obtain ⟨c, s1, c', d', h1, h2, h3⟩ := recInv_round hm hcfg hb h reset sel' (fun a ha => hsub a (hs1 a ha))
    have hround : memoryRound fam o l rb reset sel gauge r s = (.ok (c.concat c'), (s1, d')) := by
      have key : qecRound iter l reset (some sel') s = (.ok (c.concat c'), (s1, d')) := by
        unfold qecRound
        rw [PyM.bind_ok (onModel_ok h1)]
        rw [PyM.bind_ok (show PyM.ofExcept (checkAncDetectors l (some sel')) (s1, s.2) = (.ok sel', (s1, s.2)) by
          rw [checkAnc_ok hm hs1]; rfl)]
        rw [PyM.bind_ok (onDets_ok (s := (s1, s.2)) (f := fun getRec => Detectors.buildFromAnc getRec reset (some sel')) h2)]
        rfl
      unfold memoryRound
      by_cases h0 : r = 0 ∧ gauge = false
      · rw [if_pos (by simpa using h0)]
        rw [PyM.bind_ok (show PyM.ofExcept (firstDets o [l] rb sel) s = (.ok (o.ord (inter (setOf sel) stabs)), s) by
          rw [firstDets_ok hm]; rfl)]
        rw [hf, ← key, hsel']
        unfold roundSel
        rw [if_pos h0]
      · rw [if_neg (by simpa using h0), hf, ← key, hsel']
        unfold roundSel
        rw [if_neg h0]
    obtain ⟨e', s', h4, h5⟩ := ih _ _ _ h3
    refine ⟨e', s', ?_, by rw [show r + (m + 1) = r + 1 + m by omega]; exact h5⟩
    rw [List.range'_succ]
    show ((addTo e (memoryRound fam o l rb reset sel gauge r)) >>= fun e =>
      addAll e (List.range' (r + 1) m) (memoryRound fam o l rb reset sel gauge)) s = _
    have : addTo e (memoryRound fam o l rb reset sel gauge r) s = (.ok (e.concat (c.concat c')), (s1, d')) := by
      unfold addTo
      rw [PyM.bind_ok hround]
      rfl
    rw [PyM.bind_ok this]
    exact h4

theorem memory_record (hm : MemCode nm l rb data anc stabs log isX R) (hcfg : ConfigOk cfg) (hsub : ∀ a ∈ anc, a ∈ cfg.anc)
    (hdata : ∀ d ∈ data, d ∉ cfg.anc) {dataInit : Dict String Int} {fam : Family cfg} {gi iter gm : Gen} {reset : Bool}
    (hfi : fam.init l dataInit rb = activateAndSum l gi)
    (hfr : ∀ sel, fam.round l reset sel = qecRound iter l reset sel)
    (hfm : ∀ sel, fam.meas l rb reset sel = (do
      let sel ← PyM.ofExcept (checkAncDetectors l sel)
      let circuit ← onModel (sumGen gm)
      finishMeas l rb reset sel circuit))
    (hi : InitEff nm data anc R dataInit (sumGen gi)) (hb : RoundRec nm anc (sumGen iter))
    (hM : MeasEff nm data R (sumGen gm)) (o : SetOrder) (ancDetectors : Option (List String))
    (hsel : ∀ sel, ancDetectors = some sel → ∀ a ∈ sel, a ∈ anc) (gauge : Bool) (n : Nat) (s : Sim cfg) :
    ∃ c s', memory fam o nm l n dataInit rb reset ancDetectors gauge s = (.ok c, s') ∧ PairsOk c ∧
      s'.1.Tracks nm.inds (histOf anc n ++ data) ∧ measOrder c = (histOf anc n ++ data).map (ind nm.inds) := by
  set sel := ancDetectors.getD anc with hseld
  have hsel' : ∀ a ∈ sel, a ∈ anc := by
    cases ancDetectors with
    | none => exact fun a ha => ha
    | some x => exact hsel x rfl
  obtain ⟨e0, h0, p0, o0⟩ := start_ok hm s
  obtain ⟨c1, s1, h1, i1⟩ := memInv_init hm hcfg hsub hi reset false 0 0 0 p0 o0
    (s := (MeasState.fresh nm.inds, Detectors.State.fresh cfg)) (MeasState.tracks_fresh _) DetAt.new
  obtain ⟨e2, s2, h2, i2⟩ := record_rounds hm hcfg hsub hfr hb o hsel' gauge n _ _ _
    (RecInv.mk i1.tracks i1.even i1.order i1.det)
  rw [Nat.zero_add] at i2
  obtain ⟨c3, s3, h3, p3, t3, mo, -⟩ := MeasEff.frame hm hM i2.tracks
  obtain ⟨c4, s4, h4, p4, hs4, T, hT, f4⟩ := finish_values hm hcfg hsub hdata (s := (s3, s2.2)) t3 p3 i2.det sel
    (fun a ha => hsub a (hsel' a ha)) reset (fun a ha => hm.sup a (hm.stabsSub a ha))
  have o4 := i2.even.concat p4
  refine ⟨e2.concat c4, s4, ?_, o4.2, by rw [hs4]; exact t3, ?_⟩
  · unfold memory
    rw [if_neg (by simp)]
    have k0 : PyM.ofExcept (ancDefault [l] ancDetectors) s = (.ok sel, s) := by
      cases ancDetectors with
      | some x => rfl
      | none =>
        unfold ancDefault allAnc ancQubits
        simp only [mapExcept, hm.qAnc]
        simp [hseld]
    rw [PyM.bind_ok k0, PyM.bind_ok h0]
    have k1 : addTo e0 (fam.init l dataInit rb) (MeasState.fresh nm.inds, Detectors.State.fresh cfg) =
        (.ok (e0.concat c1), s1) := by
      unfold addTo
      rw [hfi, PyM.bind_ok h1]
      rfl
    rw [PyM.bind_ok k1]
    rw [Int.toNat_natCast, List.range_eq_range', PyM.bind_ok h2]
    unfold addTo
    have k2 : fam.meas l rb reset (some sel) s2 = (.ok c4, s4) := by
      rw [hfm]
      rw [PyM.bind_ok (show PyM.ofExcept (checkAncDetectors l (some sel)) s2 = (.ok sel, s2) by
          rw [checkAnc_ok hm hsel']; rfl)]
      rw [PyM.bind_ok (onModel_ok h3)]
      exact h4
    rw [PyM.bind_ok k2]
    rfl
  · have hT0 : measured T = [] := measured_eq_nil (ρ := 0) (by
      rw [f4 0 ⟨0, 0, (data.map 0).reverse ++ List.replicate (histOf anc n).length 0, [], [], 0⟩ 0 _ rfl (by simp)])
    rw [measOrder_ops, o4.1, hT, measured_append, measured_append, hT0, List.append_nil, ← measOrder_ops, ← measOrder_ops,
      i2.order, mo, List.map_append]

section
variable {L : List (String × Site × Kind)} {dirs : List (Site × String)}

theorem does_xzzxStepG (hn : Faithful nm) (hg : OnGrid l L dirs) (hu : Usable nm.inds L) (o : SetOrder)
    {x0 x1 x2 x3 z0 z1 z2 z3 : String} (ho : l.interactionOrder = order4 x0 x1 x2 x3 z0 z1 z2 z3) :
    Does nm.inds (xzzxStepG o nm l (allOf L))
      ((czPairs l L x2 z2 ++ czPairs l L x3 z3).map fun p => Op.cz p.1 p.2) := by
  have hkeys : l.interactionOrder.keys = ["x_type", "z_type"] := by rw [ho]; rfl
  have hq := allOf_known hn hg hu
  have hs : ∀ st ∈ l.interactionOrder.keys, stabQubits l st = .ok (if st = "x_type" then xOf L else zOf L) := by
    rw [hkeys]
    intro st hst
    simp only [List.mem_cons, List.not_mem_nil, or_false] at hst
    rcases hst with rfl | rfl
    · rw [if_pos rfl]; exact hg.getQubits_x
    · rw [if_neg (by decide)]; exact hg.getQubits_z
  have hdir : ∀ (k : Nat) (x z : String), orderDir l "x_type" k = .ok x → orderDir l "z_type" k = .ok z →
      ∀ st ∈ l.interactionOrder.keys, orderDir l st k = .ok (if st = "x_type" then x else z) := by
    intro k x z h1 h2
    rw [hkeys]
    intro st hst
    simp only [List.mem_cons, List.not_mem_nil, or_false] at hst
    rcases hst with rfl | rfl
    · rw [if_pos rfl]; exact h1
    · rw [if_neg (by decide)]; exact h2
  have d2 := hdir 2 x2 z2 (by unfold orderDir; rw [ho]; rfl) (by unfold orderDir; rw [ho]; rfl)
  have d3 := hdir 3 x3 z3 (by unfold orderDir; rw [ho]; rfl) (by unfold orderDir; rw [ho]; rfl)
  have fm : ∀ x z : String, (l.interactionOrder.keys.flatMap fun st =>
      l.getNeighborPairs (if st = "x_type" then xOf L else zOf L) (some (if st = "x_type" then x else z))) =
      czPairs l L x z := by
    intro x z; rw [hkeys]; simp [czPairs, List.flatMap_cons]
  refine ⟨?_, fun s hist ht => ?_⟩
  · intro op hop q hq'
    obtain ⟨p, hp, rfl⟩ := List.mem_map.1 hop
    have : ∃ s d, p ∈ l.getNeighborPairs s (some d) := by
      unfold czPairs at hp
      simp only [List.mem_append] at hp
      rcases hp with (hp | hp) | (hp | hp) <;> exact ⟨_, _, hp⟩
    obtain ⟨s, d, hp⟩ := this
    have k := (does_cz hn _ (hu.pairs hg s d)).1 (Op.cz p.1 p.2) (List.mem_map.2 ⟨p, hp, rfl⟩)
    exact k q hq'
  obtain ⟨c1, s1, e1, p1, o1, t1⟩ := czLoop_does hn l 2 l.interactionOrder.keys _ _ hs d2
    (fun st _ => hu.pairs hg _ _) [] [] s hist (by intro i hi; simp at hi) ht
  obtain ⟨c2, s2, e2, p2, o2, t2⟩ := czLoop_does hn l 3 l.interactionOrder.keys _ _ hs d3
    (fun st _ => hu.pairs hg _ _) c1 [] s1 hist p1 t1
  obtain ⟨c3, s3, e3, p3, o3, t3⟩ := (does_idle hn (o.ord (diff (allOf L) (l.interactionOrder.keys.foldl (fun a st =>
      union a (chain (l.getNeighborPairs (if st = "x_type" then xOf L else zOf L)
        (some (if st = "x_type" then x3 else z3))))) []))) (fun q h => hq q (mem_diff.1 ((mem_ord o).1 h)).1)).2 s2 hist t2
  obtain ⟨k1, k2⟩ := ops_concat p2 p3
  refine ⟨c2.concat c3, s3, ?_, k2, ?_, ?_⟩
  · unfold xzzxStepG
    rw [PyM.bind_ok e1, PyM.bind_ok e2, PyM.bind_ok e3]
    rfl
  · rw [k1, o3, o2, o1, fm, fm]
    simp [ops]
  · rw [measured_map_pair_none _ _ (by simp)]
    simpa using t3

/-- A block made of the layers of a round measures the ancillas in order. -/
theorem roundRec_of_does (hr : CanRun nm l) {b : Call1} {reset : Bool} {S0 S1 S2 S3 : List String}
    {E0 E1 E2 : List (String × String)}
    (hb : Does nm.inds b (roundOps reset anc (coherentOps S0 S1 S2 S3 E0 E1 E2)))
    (hE : ∀ e ∈ E0 ++ E1 ++ E2, e.1 ≠ e.2) : RoundRec nm anc b := by
  intro s hist ht
  obtain ⟨c, s', e, he, ho, ht'⟩ := hb.2 s hist ht
  rw [measured_roundOps] at ht'
  refine ⟨c, s', e, pairsOk_of_ops hr.inj he ho hb.1 (distinct_ops_of_pairs hE), ht', ?_⟩
  rw [measOrder_ops, ho, measured_rename, measured_roundOps]

theorem czPairs_ne (hg : OnGrid l L dirs) (hr : CanRun nm l) {x z : String} :
    ∀ e ∈ czPairs l L x z, e.1 ≠ e.2 := by
  intro e he h
  have hu := CanRun.usable hr hg
  unfold czPairs at he
  rcases List.mem_append.1 he with he | he <;>
    exact (hu.pairs hg _ _ e he).2.2 (by rw [h])

variable {a : Args} {dx dz : Int}

theorem IsRot.xzzx_record (h : IsRot a dx dz l) (hr : CanRun nm l) (o : SetOrder) (reset : Bool) :
    RoundRec nm (ancOf (rotEntries a dx dz)) (sumGen (xzzxIter o nm l reset)) := by
  have hg := h.grid
  have hu := CanRun.usable hr hg
  refine roundRec_of_does hr (xzzx_does hr.faithful hg hu o h.code h.order reset
    (does_xzzxStepG hr.faithful hg hu o h.order)) fun e he => ?_
  simp only [List.mem_append] at he
  rcases he with (he | he | he) | (he | he) <;> exact czPairs_ne hg hr e he

theorem IsRot.css_record (h : IsRot a dx dz l) (hr : CanRun nm l) (o : SetOrder) (reset : Bool) :
    RoundRec nm (ancOf (rotEntries a dx dz)) (sumGen (cssIter "rotated_surface_code" o nm l reset)) := by
  have hg := h.grid
  have hd := css_does hr.faithful hg (CanRun.usable hr hg) o h.order reset
  rw [h.code] at hd
  refine roundRec_of_does hr hd fun e he => ?_
  simp only [List.mem_append] at he
  rcases he with (he | he | he) | he <;> exact czPairs_ne hg hr e he

theorem IsUnrot.css_record (h : IsUnrot a dx dz l) (hr : CanRun nm l) (o : SetOrder) (reset : Bool) :
    RoundRec nm (ancOf (unrotEntries a dx dz)) (sumGen (cssIter "unrotated_surface_code" o nm l reset)) := by
  have hg := h.grid
  have hd := css_does hr.faithful hg (CanRun.usable hr hg) o h.order reset
  rw [h.code] at hd
  refine roundRec_of_does hr hd fun e he => ?_
  simp only [List.mem_append] at he
  rcases he with (he | he | he) | he <;> exact czPairs_ne hg hr e he

theorem record_grid (hg : OnGrid l L dirs) (hr : CanRun nm l) (hnum : NumCoords l) {label : String}
    {lx lz : List String} (h1 : l.logQubits = [label]) (h2 : l.logX = [(label, lx)]) (h3 : l.logZ = [(label, lz)])
    (hc : CodeGrid l L lx lz)
    (rb : Bool) (hR : ∀ d ∈ R, d ∈ dataOf L)
    (hty : ∀ x ∈ stabsOf L rb, ∀ d ∈ l.getNeighbors [x] none, isX x d = decide (d ∈ R))
    {dataInit : Dict String Int} {ancDetectors : Option (List String)}
    (hargs : MemoryArgs cfg nm l dataInit ancDetectors) {fam : Family cfg} {gi iter gm : Gen} {reset : Bool}
    (hfi : fam.init l dataInit rb = activateAndSum l gi)
    (hfr : ∀ sel, fam.round l reset sel = qecRound iter l reset sel)
    (hfm : ∀ sel, fam.meas l rb reset sel = (do
      let sel ← PyM.ofExcept (checkAncDetectors l sel)
      let circuit ← onModel (sumGen gm)
      finishMeas l rb reset sel circuit))
    (hi : InitEff nm (dataOf L) (ancOf L) R dataInit (sumGen gi)) (hb : RoundRec nm (ancOf L) (sumGen iter))
    (hM : MeasEff nm (dataOf L) R (sumGen gm)) (o : SetOrder) (gauge : Bool) (n : Nat) :
    RecordOrder cfg nm l n (memory fam o nm l n dataInit rb reset ancDetectors gauge) := by
  have hlog := logicalSupport_of h1 h2 h3 rb
  have hsub : ∀ d ∈ (if rb then lx else lz), d ∈ dataOf L := by
    cases rb
    · exact hc.subZ
    · exact hc.subX
  have hm := memCode_grid hg hr hnum hlog hsub hR hty
  obtain ⟨ha1, ha2⟩ := hargs.anc _ hg.getQubits_anc
  refine ⟨dataOf L, ancOf L, hg.getQubits_data, hg.getQubits_anc, fun s => ?_⟩
  obtain ⟨c, s', e1, -, -, e2⟩ := memory_record hm hargs.config ha1 (hargs.data _ hg.getQubits_data) hfi hfr hfm hi hb hM o
    ancDetectors ha2 gauge n s
  exact ⟨c, s', e1, e2⟩

variable {dataInit : Dict String Int} {ancDetectors : Option (List String)}

theorem IsRot.record_css (h : IsRot a dx dz l) (hnum : NumCoords l) (hdx : 1 ≤ dx) (hdz : 1 ≤ dz) (hr : CanRun nm l)
    (hargs : MemoryArgs cfg nm l dataInit ancDetectors) (o o' : SetOrder) (rb reset gauge : Bool) (n : Nat) :
    RecordOrder cfg nm l n (memory (rotCss cfg o nm) o' nm l n dataInit rb reset ancDetectors gauge) :=
  record_grid h.grid hr hnum h.log h.logX h.logZ (h.codeGrid hdx hdz) rb (css_R rb) (css_type h.grid rb) hargs rfl
    (fun _ => rfl) (fun _ => rfl) (initEff_css hr h.grid o hargs.init rb) (h.css_record hr o reset)
    (measEff_css hr h.grid rb) o' gauge n

theorem IsUnrot.record_css (h : IsUnrot a dx dz l) (hnum : NumCoords l) (hdx : 1 ≤ dx) (hdz : 1 ≤ dz) (hr : CanRun nm l)
    (hargs : MemoryArgs cfg nm l dataInit ancDetectors) (o o' : SetOrder) (rb reset gauge : Bool) (n : Nat) :
    RecordOrder cfg nm l n (memory (unrotCss cfg o nm) o' nm l n dataInit rb reset ancDetectors gauge) :=
  record_grid h.grid hr hnum h.log h.logX h.logZ (h.codeGrid hdx hdz) rb (css_R rb) (css_type h.grid rb) hargs rfl
    (fun _ => rfl) (fun _ => rfl) (initEff_css hr h.grid o hargs.init rb) (h.css_record hr o reset)
    (measEff_css hr h.grid rb) o' gauge n

theorem IsRot.record_xzzx (h : IsRot a dx dz l) (hnum : NumCoords l) (hdx : 1 ≤ dx) (hdz : 1 ≤ dz) (hr : CanRun nm l)
    (hargs : MemoryArgs cfg nm l dataInit ancDetectors) (o o' : SetOrder) (rb reset gauge : Bool) (n : Nat) :
    RecordOrder cfg nm l n (memory (xzzx cfg o nm) o' nm l n dataInit rb reset ancDetectors gauge) :=
  have hR : ∀ q ∈ xzzxR l (rotEntries a dx dz) rb, q ∈ dataOf (rotEntries a dx dz) := fun _ hq => xzzxR_data h.grid hq
  record_grid (isX := fun _ d => decide (d ∈ xzzxR l (rotEntries a dx dz) rb)) h.grid hr hnum h.log h.logX h.logZ
    (h.codeGrid hdx hdz) rb hR (fun _ _ _ _ => rfl) hargs
    rfl (fun _ => rfl) (fun sel => logMeasXzzx_eq h.code o rb reset sel)
    (initEff_xzzx hr h.grid o hargs.init h.code rb hR) (h.xzzx_record hr o reset) (measEff_xzzx hr h.grid o rb hR) o'
    gauge n

theorem IsRot.xzzxPipe_record (h : IsRot a dx dz l) (hr : CanRun nm l) (o : SetOrder) (reset : Bool) :
    RoundRec nm (ancOf (rotEntries a dx dz)) (sumGen (xzzxPipeIter o nm l reset)) := by
  have hg := h.grid
  have hu := CanRun.usable hr hg
  have k1 : ∀ q ∈ xzzxPipeRot l (dataOf (rotEntries a dx dz)) "x_type" (xOf (rotEntries a dx dz)),
      ∃ s k, (q, s, k) ∈ rotEntries a dx dz := by
    intro q hq
    rcases mem_union.1 hq with hq | hq
    · exact (at_x hg).sub q (mem_setOf.1 hq)
    · exact diagonal_known hg hq
  have k2 : ∀ q ∈ xzzxPipeRot l (dataOf (rotEntries a dx dz)) "z_type" (zOf (rotEntries a dx dz)),
      ∃ s k, (q, s, k) ∈ rotEntries a dx dz := by
    intro q hq
    rcases mem_union.1 hq with hq | hq
    · exact (at_z hg).sub q (mem_setOf.1 hq)
    · exact diagonal_known hg hq
  refine roundRec_of_does hr (pipe_does hr.faithful hg hu o h.code h.order reset (xzzxPipeRot l) k1 k2) fun e he h' => ?_
  unfold pairs4 at he
  simp only [List.mem_append, List.not_mem_nil, or_false] at he
  rcases he with (he | he | he | he) | (he | he | he | he) <;>
    exact (hu.pairs hg _ _ e he).2.2 (by rw [h'])

theorem IsRot.record_xzzxPipe (h : IsRot a dx dz l) (hnum : NumCoords l) (hdx : 1 ≤ dx) (hdz : 1 ≤ dz) (hr : CanRun nm l)
    (hargs : MemoryArgs cfg nm l dataInit ancDetectors) (o o' : SetOrder) (rb reset gauge : Bool) (n : Nat) :
    RecordOrder cfg nm l n (memory (xzzxPipelined cfg o nm) o' nm l n dataInit rb reset ancDetectors gauge) :=
  have hR : ∀ q ∈ xzzxR l (rotEntries a dx dz) rb, q ∈ dataOf (rotEntries a dx dz) := fun _ hq => xzzxR_data h.grid hq
  record_grid (isX := fun _ d => decide (d ∈ xzzxR l (rotEntries a dx dz) rb)) h.grid hr hnum h.log h.logX h.logZ
    (h.codeGrid hdx hdz) rb hR (fun _ _ _ _ => rfl) hargs
    rfl (fun _ => rfl) (fun sel => logMeasXzzx_eq h.code o rb reset sel)
    (initEff_xzzx hr h.grid o hargs.init h.code rb hR) (h.xzzxPipe_record hr o reset) (measEff_xzzx hr h.grid o rb hR) o'
    gauge n

end
end SurfaceSim
