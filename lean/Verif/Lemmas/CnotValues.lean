/-
Values of the stabilizers and logical operators of two codes: merged rounds and transversal CNOT gates.
-/
import Verif.Lemmas.GateCodes
import Verif.Props.TransCnot

namespace SurfaceSim
open Spec NoiseModel Blocks Experiments LayoutLib LogGates

variable {cfg : Detectors.Config} {nm : NoiseModel} {lc lt : Layout} {Lc Lt : List (String × Site × Kind)}
  {dirs : List (Site × String)} {code A B : String} {Xc Zc Xt Zt : List String}

/-- Values of the logical operators of two layouts (whether of the target, whether X) and of the stabilizers. -/
def pairValues (nm : NoiseModel) (lc lt : Layout) (Lc Lt : List (String × Site × Kind)) (A B : String) :
    FState Nat → Values (Bool × Bool) :=
  valuesOf (fun k st => logicalValue (ind nm.inds) (if k.1 then lt else lc) (if k.1 then B else A) k.2 st)
    (stabValue (ind nm.inds) [lc, lt]) (ancOf Lc ++ ancOf Lt)

theorem pairValues_log (st : FState Nat) (isT isX : Bool) : (pairValues nm lc lt Lc Lt A B st).1 (isT, isX) =
    (codeValues nm (if isT then lt else lc) (if isT then Lt else Lc) (if isT then B else A) st).1 isX := by
  cases isT <;> rfl

theorem pairValues_c (h : Twins lc lt Lc Lt dirs) (st : FState Nat) {a : String} (ha : a ∈ ancOf Lc) :
    (pairValues nm lc lt Lc Lt A B st).2 a = (codeValues nm lc Lc A st).2 a := by
  show (if a ∈ ancOf Lc ++ ancOf Lt then _ else 0) = (if a ∈ ancOf Lc then _ else 0)
  obtain ⟨s, k, has, -⟩ := mem_ancOf.1 ha
  rw [if_pos (List.mem_append_left _ ha), if_pos ha, h.stabValue_c _ _ has, stabValue_grid h.c]

theorem pairValues_t (h : Twins lc lt Lc Lt dirs) (st : FState Nat) {a : String} (ha : a ∈ ancOf Lt) :
    (pairValues nm lc lt Lc Lt A B st).2 a = (codeValues nm lt Lt B st).2 a := by
  show (if a ∈ ancOf Lc ++ ancOf Lt then _ else 0) = (if a ∈ ancOf Lt then _ else 0)
  obtain ⟨s, k, has, -⟩ := mem_ancOf.1 ha
  rw [if_pos (List.mem_append_right _ ha), if_pos ha, h.stabValue_t _ _ has, stabValue_grid h.t]

theorem pairValues_else (st : FState Nat) {a : String} (ha : a ∉ ancOf Lc ++ ancOf Lt) :
    (pairValues nm lc lt Lc Lt A B st).2 a = 0 := if_neg ha

/-- The values are those of both codes. -/
theorem pairValues_ext (h : Twins lc lt Lc Lt dirs) {st st' : FState Nat}
    (hc : codeValues nm lc Lc A st = codeValues nm lc Lc A st') (ht : codeValues nm lt Lt B st = codeValues nm lt Lt B st') :
    pairValues nm lc lt Lc Lt A B st = pairValues nm lc lt Lc Lt A B st' := by
  refine Prod.ext (funext fun k => ?_) (funext fun a => ?_)
  · obtain ⟨isT, isX⟩ := k
    rw [pairValues_log, pairValues_log]
    cases isT
    · exact congrFun (congrArg Prod.fst hc) isX
    · exact congrFun (congrArg Prod.fst ht) isX
  · by_cases h1 : a ∈ ancOf Lc
    · rw [pairValues_c h _ h1, pairValues_c h _ h1, hc]
    · by_cases h2 : a ∈ ancOf Lt
      · rw [pairValues_t h _ h2, pairValues_t h _ h2, ht]
      · rw [pairValues_else _ (by simp [h1, h2]), pairValues_else _ (by simp [h1, h2])]

/-- Products of stabilizers do not change the values. -/
theorem codeValues_kicks {l : Layout} {L : List (String × Site × Kind)} {lab : String} {lx lz : List String}
    (hg : OnGrid l L dirs) (hx : l.logX = [(lab, lx)]) (hz : l.logZ = [(lab, lz)]) (hc : CodeGrid l L lx lz) {st st' : FState Nat}
    (h : ∃ r : String → ZMod 2, ∀ d ∈ dataOf L,
      st'.x (ind nm.inds d) = st.x (ind nm.inds d) +
        total (ancOf L) (fun a => d ∈ l.getNeighbors [a] none ∧ cssType L a d = true) r ∧
      st'.z (ind nm.inds d) = st.z (ind nm.inds d) +
        total (ancOf L) (fun a => d ∈ l.getNeighbors [a] none ∧ cssType L a d = false) r) :
    codeValues nm l L lab st' = codeValues nm l L lab st := by
  have ht' := typed_css hg
  refine Prod.ext (funext fun isX => ?_) (funext fun a => ?_)
  · show logicalValue _ _ _ _ _ = logicalValue _ _ _ _ _
    unfold logicalValue
    cases isX
    · have := kicks_invariant (sup := fun a => l.getNeighbors [a] none) h hc.subZ (hc.logicalZ ht')
      simpa [hz, Dict.get?] using this
    · have := kicks_invariant (sup := fun a => l.getNeighbors [a] none) h hc.subX (hc.logicalX ht')
      simpa [hx, Dict.get?] using this
  · show (if a ∈ ancOf L then _ else 0) = (if a ∈ ancOf L then _ else 0)
    split
    · rename_i ha
      rw [stabValue_css hg, stabValue_css hg]
      exact kicks_invariant (sup := fun a => l.getNeighbors [a] none) h (fun d hd => nbrs_data hg ha hd) (hc.stabs hg ht' ha)
    · rfl

/-- The values depend on the data qubits of both layouts only. -/
theorem pairValues_congr (h : Twins lc lt Lc Lt dirs) (gc : GridCode code lc Lc A Xc Zc) (gt : GridCode code lt Lt B Xt Zt)
    {st st' : FState Nat}
    (hq : ∀ q ∈ dataOf Lc ++ dataOf Lt, st.x (ind nm.inds q) = st'.x (ind nm.inds q) ∧ st.z (ind nm.inds q) = st'.z (ind nm.inds q)) :
    pairValues nm lc lt Lc Lt A B st = pairValues nm lc lt Lc Lt A B st' :=
  pairValues_ext h (codeValues_congr h.c gc.logX gc.logZ gc.grid fun q h => hq q (List.mem_append_left _ h))
    (codeValues_congr h.t gt.logX gt.logZ gt.grid fun q h => hq q (List.mem_append_right _ h))

/-- The patch of a layout on a grid. -/
theorem cssPatch_grid {l : Layout} {L : List (String × Site × Kind)} (hg : OnGrid l L dirs) {p : Patch} (h : CssPatch l p) :
    p.data = dataOf L ∧ p.anc = ancOf L ∧ p.sup = (fun x => l.getNeighbors [x] none) ∧ p.isX = cssType L := by
  obtain ⟨h1, h2, h3, xs, h4, h5⟩ := h
  rw [hg.getQubits_data] at h1
  rw [hg.getQubits_anc] at h2
  rw [hg.getQubits_x] at h4
  cases h4
  exact ⟨(Except.ok.inj h1).symm, (Except.ok.inj h2).symm, funext h3, funext fun x => funext fun d => h5 x d⟩

/-- Whatever the merged round of two layouts returns is a round of both. -/
theorem pair_roundAt (h : Twins lc lt Lc Lt dirs) (gc : GridCode code lc Lc A Xc Zc) (gt : GridCode code lt Lt B Xt Zt)
    (hrc : CanRun nm lc) (hrt : CanRun nm lt) (nt : NoTicks nm) (um : UniformMeas nm) (o : SetOrder) (reset : Bool)
    {s s' : MeasState} {hist : List String} {c : Circuit} (ht : s.Tracks nm.inds hist)
    (hm : mergeGens ([lc, lt].map fun l => cssIter code o nm l reset) s = (.ok c, s')) :
    s'.Tracks nm.inds (hist ++ (ancOf Lc ++ ancOf Lt)) ∧
      RoundAt nm (ancOf Lc ++ ancOf Lt) (pairValues nm lc lt Lc Lt A B) reset c := by
  obtain ⟨sig, hs1, hs⟩ := um
  have hnc : NoCommonQubit [lc, lt] := by
    unfold NoCommonQubit
    simp only [List.pairwise_cons, List.mem_singleton, forall_eq, List.not_mem_nil, false_implies, implies_true,
      List.Pairwise.nil, and_true]
    intro qs qs' h1 h2 q hq
    rw [h.c.getQubits_all] at h1
    rw [h.t.getQubits_all] at h2
    cases h1
    cases h2
    exact h.apart q hq
  obtain ⟨ps, h1, h2, h3, h4, h5⟩ := merged_rounds (P := CssPatch) (iter := fun l reset => cssIter code o nm l reset) hrc.inj hnc
    (oneMeas_round reset sig) (fun l hl => by
      simp only [List.mem_cons, List.not_mem_nil, or_false] at hl
      rcases hl with rfl | rfl
      · obtain ⟨_, _, _, _, _, _, _, _, ho⟩ := gc.order
        exact Props.roundOk_css hrc nt hs1 hs h.c o ho reset gc.data gc.anc gc.name (gc.round nm hrc o reset)
      · obtain ⟨_, _, _, _, _, _, _, _, ho⟩ := gt.order
        exact Props.roundOk_css hrt nt hs1 hs h.t o ho reset gt.data gt.anc gt.name (gt.round nm hrt o reset)) ht hm
  cases h1 with
  | @cons _ pc _ ps p1 h1 =>
  cases h1 with
  | @cons _ pt _ ps p2 h1 =>
  cases h1
  obtain ⟨c1, c2, c3, c4⟩ := cssPatch_grid h.c p1
  obtain ⟨t1, t2, t3, t4⟩ := cssPatch_grid h.t p2
  have e1 : ([pc, pt].flatMap fun p => p.anc) = ancOf Lc ++ ancOf Lt := by simp [c2, t2]
  rw [e1] at h3 h4
  refine ⟨h3, h2, h4, fun ρ st => ?_⟩
  have m := h5 ρ st
  generalize run ρ st (ops c) = st' at m
  have vc : ∀ a ∈ ancOf Lc, (if reset then 0 else st.x (ind nm.inds a)) + (pairValues nm lc lt Lc Lt A B st).2 a =
      ancOutcome (ind nm.inds) reset st pc.sup pc.isX a := by
    intro a ha
    rw [pairValues_c h st ha, c3, c4]
    show _ + (if a ∈ ancOf Lc then _ else 0) = _
    rw [if_pos ha, stabValue_css h.c]
    rfl
  have vt : ∀ a ∈ ancOf Lt, (if reset then 0 else st.x (ind nm.inds a)) + (pairValues nm lc lt Lc Lt A B st).2 a =
      ancOutcome (ind nm.inds) reset st pt.sup pt.isX a := by
    intro a ha
    rw [pairValues_t h st ha, t3, t4]
    show _ + (if a ∈ ancOf Lt then _ else 0) = _
    rw [if_pos ha, stabValue_css h.t]
    rfl
  refine ⟨?_, fun a ha => ?_, ?_, m.dets, m.obs⟩
  · rw [m.recs]
    simp only [List.flatMap_cons, List.flatMap_nil, List.append_nil, List.map_append, c2, t2]
    rw [List.map_congr_left vc, List.map_congr_left vt]
  · rcases List.mem_append.1 ha with ha | ha
    · exact (m.ancilla pc (by simp) a (by rw [c2]; exact ha)).trans (vc a ha).symm
    · exact (m.ancilla pt (by simp) a (by rw [t2]; exact ha)).trans (vt a ha).symm
  · refine pairValues_ext h (codeValues_kicks h.c gc.logX gc.logZ gc.grid ?_) (codeValues_kicks h.t gt.logX gt.logZ gt.grid ?_)
    · have := m.kicks pc (by simp)
      rw [c1, c2, c3, c4] at this
      exact this
    · have := m.kicks pt (by simp)
      rw [t1, t2, t3, t4] at this
      exact this

/-! ### the gate -/

/-- The new generators. -/
def pairGen (lc lt : Layout) (Lc : List (String × Site × Kind)) (label a : String) : List String :=
  if a ∈ ancOf Lc then newGen lc label a else newGen lt label a

/-- The images of the logical operators (whether of the target, whether X). -/
def cnotImage : Bool × Bool → List (Bool × Bool)
  | (false, true) => [(false, true), (true, true)]
  | (true, true) => [(true, true)]
  | (false, false) => [(false, false)]
  | (true, false) => [(false, false), (true, false)]

theorem goodTable_cnot (h : Twins lc lt Lc Lt dirs) {label : String} (ht : CnotTable lc lt Lc Lt label) :
    GoodTable (ancOf Lc ++ ancOf Lt) (pairGen lc lt Lc label) := by
  have gCz : ∀ {a s}, (a, s, Kind.z) ∈ Lc → pairGen lc lt Lc label a = [a] := by
    intro a s has
    unfold pairGen
    rw [if_pos (mem_ancOf.2 ⟨_, _, has, by simp⟩)]
    unfold newGen gateAt; rw [ht.zc a s has]; simp [Dict.get?]
  have gTx : ∀ {a s}, (a, s, Kind.x) ∈ Lt → pairGen lc lt Lc label a = [a] := by
    intro a s has
    unfold pairGen
    rw [if_neg (h.symm.notAnc has)]
    unfold newGen gateAt; rw [ht.xt a s has]; simp [Dict.get?]
  refine Or.inl fun a ha => ?_
  rcases List.mem_append.1 ha with ha | ha
  · obtain ⟨s, k, has, hk⟩ := mem_ancOf.1 ha
    cases k with
    | data => exact absurd rfl hk
    | x =>
      obtain ⟨y, hy, hp⟩ := ht.xc a s has
      have hn : pairGen lc lt Lc label a = [a, y] := by
        unfold pairGen
        rw [if_pos ha]
        unfold newGen gateAt; rw [hp]; simp [Dict.get?]
      have hne : a ≠ y := fun he => h.notT has (he ▸ hy)
      refine ⟨[y], hn, by simp [hne], fun q hq => ?_⟩
      rw [List.mem_singleton.1 hq]
      exact ⟨List.mem_append_right _ (mem_ancOf.2 ⟨_, _, hy, by simp⟩), gTx hy⟩
    | z => exact ⟨[], gCz has, by simp, by simp⟩
  · obtain ⟨s, k, has, hk⟩ := mem_ancOf.1 ha
    cases k with
    | data => exact absurd rfl hk
    | x => exact ⟨[], gTx has, by simp, by simp⟩
    | z =>
      obtain ⟨y, hy, hp⟩ := ht.zt a s has
      have hn : pairGen lc lt Lc label a = [a, y] := by
        unfold pairGen
        rw [if_neg (h.symm.notAnc has)]
        unfold newGen gateAt; rw [hp]; simp [Dict.get?]
      have hne : a ≠ y := fun he => h.notT hy (he ▸ has)
      refine ⟨[y], hn, by simp [hne], fun q hq => ?_⟩
      rw [List.mem_singleton.1 hq]
      exact ⟨List.mem_append_left _ (mem_ancOf.2 ⟨_, _, hy, by simp⟩), gCz hy⟩

/-- The values of the logical operators after the block. -/
theorem cnot_logs (h : Twins lc lt Lc Lt dirs) (hrc : CanRun nm lc) (hrt : CanRun nm lt)
    (hXc : lc.logX.get? A = some Xc) (hZc : lc.logZ.get? A = some Zc) (hXt : lt.logX.get? B = some Xt)
    (hZt : lt.logZ.get? B = some Zt) (tX : TwinSets Lc Lt Xc Xt) (tZ : TwinSets Lc Lt Zc Zt) {st st' : FState Nat}
    (h4 : ∀ q ∈ nm.inds.keys,
      st'.x (ind nm.inds q) = st.x (ind nm.inds q) + (if q ∈ dataOf Lt then st.x (ind nm.inds (SurfaceSim.tw Lt Lc q)) else 0) ∧
      st'.z (ind nm.inds q) = st.z (ind nm.inds q) + (if q ∈ dataOf Lc then st.z (ind nm.inds (SurfaceSim.tw Lc Lt q)) else 0))
    (k : Bool × Bool) : (pairValues nm lc lt Lc Lt A B st').1 k = ((cnotImage k).map (pairValues nm lc lt Lc Lt A B st).1).sum := by
  have hkc := grid_known hrc h.c
  have hkt := grid_known hrt h.t
  obtain ⟨isT, isX⟩ := k
  cases isT <;> cases isX <;>
    simp only [cnotImage, pairValues, valuesOf, logicalValue, anticommutes, hXc, hZc, hXt, hZt, if_true, if_false,
      Option.getD_some, List.map_cons, List.map_nil, List.sum_cons, List.sum_nil, add_zero, Bool.false_eq_true]
  · congr 1
    refine List.map_congr_left fun d hd => ?_
    have hd := tZ.dc d hd
    obtain ⟨s, hs⟩ := mem_dataOf.1 hd
    rw [(h4 d (hkc d (List.mem_append_left _ hd))).1]
    simp [h.notData hs]
  · rw [← tX.sum h, ← List.sum_map_add]
    congr 1
    refine List.map_congr_left fun d hd => ?_
    have hd := tX.dc d hd
    rw [(h4 d (hkc d (List.mem_append_left _ hd))).2]
    simp [hd]
  · rw [add_comm, ← tZ.symm.sum h.symm, ← List.sum_map_add]
    congr 1
    refine List.map_congr_left fun d hd => ?_
    have hd := tZ.dt d hd
    rw [(h4 d (hkt d (List.mem_append_left _ hd))).1]
    simp [hd]
  · congr 1
    refine List.map_congr_left fun d hd => ?_
    have hd := tX.dt d hd
    obtain ⟨s, hs⟩ := mem_dataOf.1 hd
    rw [(h4 d (hkt d (List.mem_append_left _ hd))).2]
    simp [h.symm.notData hs]

section
variable {label : String} (h : Twins lc lt Lc Lt dirs) (hrc : CanRun nm lc) (hrt : CanRun nm lt) (o : SetOrder)
    (hcc : lc.code = "rotated_surface_code" ∨ lc.code = "unrotated_surface_code")
    (hct : lt.code = "rotated_surface_code" ∨ lt.code = "unrotated_surface_code")
    (hlab : cnotLabel lc lt = .ok label) (ht : CnotTable lc lt Lc Lt label)
include h hrc hrt hcc hct hlab ht

theorem pairsOk_transCnot (s : MeasState) (hist : List String) (hs : s.Tracks nm.inds hist) :
    ∃ c s', sumGen (transCnotIter o nm lc lt) s = (.ok c, s') ∧ PairsOk c := by
  obtain ⟨ps, -, k2, hb⟩ := does_transCnot h hrc hrt o hcc hct hlab ht
  obtain ⟨c, s', e, he, ho, -⟩ := hb.2 s hist hs
  refine ⟨c, s', e, pairsOk_of_ops hrc.inj he ho hb.1 fun op hop => ?_⟩
  obtain ⟨p, hp, rfl⟩ := List.mem_map.1 hop
  obtain ⟨h1, h2⟩ := (k2 p).1 hp
  obtain ⟨σ, hσ⟩ := mem_dataOf.1 h1
  show p.1 ≠ p.2
  intro he
  have := h.tw hσ
  rw [← h2, ← he] at this
  exact h.notT hσ this

/-- The change of the values of both codes. -/
theorem blockG_transCnot (hXc : lc.logX.get? A = some Xc) (hZc : lc.logZ.get? A = some Zc) (hXt : lt.logX.get? B = some Xt)
    (hZt : lt.logZ.get? B = some Zt) (tX : TwinSets Lc Lt Xc Xt) (tZ : TwinSets Lc Lt Zc Zt) :
    BlockG nm (ancOf Lc ++ ancOf Lt) (pairValues nm lc lt Lc Lt A B)
      (gateMap (pairGen lc lt Lc label) (ancOf Lc ++ ancOf Lt) cnotImage fun _ => []) (sumGen (transCnotIter o nm lc lt)) := by
  have hgood := goodTable_cnot h ht
  refine blockG_of hgood (by simp) fun s hist hs => ?_
  obtain ⟨c, s', e, ht', -, hc⟩ := applies_transCnot h hrc hrt o hcc hct hlab ht s hist hs
  obtain ⟨c1, s1, e1, hp⟩ := pairsOk_transCnot h hrc hrt o hcc hct hlab ht s hist hs
  cases e.symm.trans e1
  obtain ⟨c2, s2, e2, -, -, hc2⟩ := acts_transCnot h hrc hrt o hcc hct hlab ht s hist hs
  cases e.symm.trans e2
  refine ⟨c, s', e, hp, ht', fun ρ st => ?_⟩
  obtain ⟨r1, r2, r3, r4, r5⟩ := hc ρ st
  refine ⟨r1, r2, r3, fun a ha => ?_, fun a ha => ?_, fun k => ?_⟩
  · rcases List.mem_append.1 ha with ha | ha
    · refine (r4 a (grid_known hrc h.c a (List.mem_append_right _ ha)) fun l hl => ?_).1
      obtain ⟨s, k, has, hk⟩ := mem_ancOf.1 ha
      simp only [List.mem_cons, List.not_mem_nil, or_false] at hl
      rcases hl with rfl | rfl
      · rw [dataOfLayout_grid h.c]
        exact fun hd => (List.nodup_append.1 (data_anc_nodup h.c)).2.2 a hd a ha rfl
      · rw [dataOfLayout_grid h.t]
        exact h.notData has
    · refine (r4 a (grid_known hrt h.t a (List.mem_append_right _ ha)) fun l hl => ?_).1
      obtain ⟨s, k, has, hk⟩ := mem_ancOf.1 ha
      simp only [List.mem_cons, List.not_mem_nil, or_false] at hl
      rcases hl with rfl | rfl
      · rw [dataOfLayout_grid h.c]
        exact h.symm.notData has
      · rw [dataOfLayout_grid h.t]
        exact fun hd => (List.nodup_append.1 (data_anc_nodup h.t)).2.2 a hd a ha rfl
  · unfold pairGen
    split
    · rename_i hac
      exact r5 lc (by simp) a (by rw [ancOfLayout_grid h.c]; exact hac)
    · rename_i hac
      exact r5 lt (by simp) a (by rw [ancOfLayout_grid h.t]; exact (List.mem_append.1 ha).resolve_left hac)
  · rw [List.map_nil, List.sum_nil, add_zero]
    exact cnot_logs (A := A) (B := B) h hrc hrt hXc hZc hXt hZt tX tZ (hc2 ρ st).2.2.2 k

theorem gateG_transCnot (hXc : lc.logX.get? A = some Xc) (hZc : lc.logZ.get? A = some Zc) (hXt : lt.logX.get? B = some Xt)
    (hZt : lt.logZ.get? B = some Zt) (tX : TwinSets Lc Lt Xc Xt) (tZ : TwinSets Lc Lt Zc Zt)
    (hn : cfg.anc.Nodup) (hall : ∀ q, q ∈ cfg.anc ↔ q ∈ ancOf Lc ++ ancOf Lt) :
    GateG nm (ancOf Lc ++ ancOf Lt) (pairValues nm lc lt Lc Lt A B)
      (gateMap (pairGen lc lt Lc label) (ancOf Lc ++ ancOf Lt) cnotImage fun _ => [])
      (genMat cfg (pairGen lc lt Lc label)) (transCnot o nm lc lt) := by
  have hgood := goodTable_cnot h ht
  obtain ⟨D, hDn, hD, hk, hgate⟩ := Props.cnot_dict h ht hlab nm o cfg
  refine gateG_of hn hall hgood hDn (fun a ha => ?_) (fun a => ?_) hgate ?_
  · unfold pairGen
    split
    · rename_i hac
      exact hD lc (by simp) a (by rw [ancOfLayout_grid h.c]; exact hac)
    · rename_i hac
      exact hD lt (by simp) a (by rw [ancOfLayout_grid h.t]; exact (List.mem_append.1 ha).resolve_left hac)
  · rw [hk]
    simp [ancOfLayout_grid h.c, ancOfLayout_grid h.t]
  · exact blockG_transCnot h hrc hrt o hcc hct hlab ht hXc hZc hXt hZt tX tZ

end

/-- The logical operators after several gates. -/
theorem iterate_cnot {gen : String → List String} {anc : List String} (n : Nat) (w : Values (Bool × Bool)) :
    ((gateMap gen anc cnotImage fun _ => [])^[n] w).1 (false, false) = w.1 (false, false) ∧
    ((gateMap gen anc cnotImage fun _ => [])^[n] w).1 (true, true) = w.1 (true, true) ∧
    ((gateMap gen anc cnotImage fun _ => [])^[n] w).1 (true, false) = w.1 (true, false) + n * w.1 (false, false) ∧
    ((gateMap gen anc cnotImage fun _ => [])^[n] w).1 (false, true) = w.1 (false, true) + n * w.1 (true, true) := by
  induction n with
  | zero => simp
  | succ n ih =>
    obtain ⟨h1, h2, h3, h4⟩ := ih
    rw [Function.iterate_succ_apply']
    generalize (gateMap gen anc cnotImage fun _ => [])^[n] w = u at h1 h2 h3 h4
    simp only [gateMap, cnotImage, List.map_cons, List.map_nil, List.sum_cons, List.sum_nil, add_zero, h1, h2, h3, h4]
    refine ⟨trivial, trivial, ?_, ?_⟩ <;> push_cast <;> ring

end SurfaceSim
