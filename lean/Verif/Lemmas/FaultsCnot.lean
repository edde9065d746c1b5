/-
Experiments with transversal CNOT gates between two layouts, with faults: gates, merged rounds and measurements.
-/
import Verif.Lemmas.FaultsFinal
import Verif.Lemmas.CnotFixed

namespace SurfaceSim
open Spec NoiseModel Blocks Experiments LayoutLib LogGates

variable {cfg : Detectors.Config} {nm : NoiseModel} {lc lt : Layout} {Lc Lt : List (String × Site × Kind)}
  {dirs : List (Site × String)} {reset rb : Bool} {code A B label : String} {Xc Zc Xt Zt : List String} {J : Type}
  {lnc lnt : J → String → ZMod 2} {Sc St : List String}

/-- Lines of both layouts, on corresponding qubits. -/
structure TwinLines (lc lt : Layout) (Lc Lt : List (String × Site × Kind)) (rb : Bool) (Sc St : List String)
    (lnc lnt : J → String → ZMod 2) : Prop where
  c : Lines lc (dataOf Lc) (stabsOf Lc rb) Sc lnc
  t : Lines lt (dataOf Lt) (stabsOf Lt rb) St lnt
  twin : ∀ j, ∀ q ∈ dataOf Lc, lnt j (tw Lc Lt q) = lnc j q

/-- Lines of both layouts together. -/
def joint (lnc lnt : J → String → ZMod 2) (α : ZMod 2 × ZMod 2) (j : J) (q : String) : ZMod 2 := α.1 * lnc j q + α.2 * lnt j q

/-- The parities of these lines. -/
def jointW (rb : Bool) (lnc lnt : J → String → ZMod 2) (α : ZMod 2 × ZMod 2) (j : J) : Func String :=
  fn (fun _ => rb) (joint lnc lnt α j)

theorem Twins.dataApart (h : Twins lc lt Lc Lt dirs) {q : String} (hq : q ∈ dataOf Lc) : q ∉ dataOf Lt := by
  obtain ⟨s, hs⟩ := mem_dataOf.1 hq
  exact h.notData hs

theorem joint_c (h : Twins lc lt Lc Lt dirs) (hl : TwinLines lc lt Lc Lt rb Sc St lnc lnt) (α : ZMod 2 × ZMod 2) (j : J) {q : String}
    (hq : q ∉ dataOf Lt) : joint lnc lnt α j q = α.1 * lnc j q := by
  have : lnt j q = 0 := by
    by_contra hn
    exact hq (hl.t.sub j q hn)
  rw [joint, this, mul_zero, add_zero]

theorem joint_t (h : Twins lc lt Lc Lt dirs) (hl : TwinLines lc lt Lc Lt rb Sc St lnc lnt) (α : ZMod 2 × ZMod 2) (j : J) {q : String}
    (hq : q ∈ dataOf Lt) : joint lnc lnt α j q = α.2 * lnt j q := by
  have : lnc j q = 0 := by
    by_contra hn
    exact h.dataApart (hl.c.sub j q hn) hq
  rw [joint, this, mul_zero, zero_add]

theorem joint_one (h : Twins lc lt Lc Lt dirs) (hl : TwinLines lc lt Lc Lt rb Sc St lnc lnt) (α : ZMod 2 × ZMod 2) (q : String) :
    AtMostOne fun j => joint lnc lnt α j q ≠ 0 := by
  by_cases hq : q ∈ dataOf Lt
  · refine (hl.t.one q).mono fun j hj => ?_
    rw [joint_t h hl α j hq] at hj
    exact right_ne_zero_of_mul hj
  · refine (hl.c.one q).mono fun j hj => ?_
    rw [joint_c h hl α j hq] at hj
    exact right_ne_zero_of_mul hj

/-- The parities before CNOT gates on all pairs. -/
theorem joint_cnot (h : Twins lc lt Lc Lt dirs) (hl : TwinLines lc lt Lc Lt rb Sc St lnc lnt) (α : ZMod 2 × ZMod 2) (j : J)
    {ps : List (String × String)} (hn : ps.Nodup) (hp : ∀ p, p ∈ ps ↔ p.1 ∈ dataOf Lc ∧ p.2 = tw Lc Lt p.1) :
    cnotWeight rb ps (joint lnc lnt α j) =
      joint lnc lnt (if rb then (α.1, α.1 + α.2) else (α.1 + α.2, α.2)) j := by
  funext q
  unfold cnotWeight
  cases rb
  · simp only [Bool.false_eq_true, if_false]
    by_cases hq : q ∈ dataOf Lc
    · rw [sumIf_unique (p := fun p : String × String => p.1 = q) hn (a := (q, tw Lc Lt q)) ((hp _).2 ⟨hq, rfl⟩) rfl (fun b hb hbq => by
        obtain ⟨-, h2⟩ := (hp b).1 hb
        exact Prod.ext hbq (by rw [h2, hbq]))]
      obtain ⟨s, hs⟩ := mem_dataOf.1 hq
      rw [joint_c h hl _ j (h.dataApart hq), joint_c h hl _ j (h.dataApart hq),
        joint_t h hl _ j (mem_dataOf.2 ⟨s, h.tw hs⟩), hl.twin j q hq]
      ring
    · rw [sumIf_none (p := fun p : String × String => p.1 = q) fun b hb hbq => hq (hbq ▸ ((hp b).1 hb).1), add_zero]
      have : lnc j q = 0 := by
        by_contra hn
        exact hq (hl.c.sub j q hn)
      simp only [joint, this, mul_zero]
  · simp only [if_true]
    by_cases hq : q ∈ dataOf Lt
    · obtain ⟨s, hs⟩ := mem_dataOf.1 hq
      have hd : tw Lt Lc q ∈ dataOf Lc := mem_dataOf.2 ⟨s, h.symm.tw hs⟩
      have ht : tw Lc Lt (tw Lt Lc q) = q := h.symm.tw_tw hs
      rw [sumIf_unique (p := fun p : String × String => p.2 = q) hn (a := (tw Lt Lc q, q)) ((hp _).2 ⟨hd, ht.symm⟩) rfl (fun b hb hbq => by
        obtain ⟨h1, h2⟩ := (hp b).1 hb
        obtain ⟨s', hs'⟩ := mem_dataOf.1 h1
        refine Prod.ext ?_ hbq
        rw [← hbq, h2, h.tw_tw hs'])]
      have := hl.twin j _ hd
      rw [ht] at this
      rw [joint_t h hl _ j hq, joint_t h hl _ j hq, joint_c h hl _ j (h.dataApart hd), ← this]
      ring
    · rw [sumIf_none (p := fun p : String × String => p.2 = q) fun b hb hbq => hq (by
        obtain ⟨h1, h2⟩ := (hp b).1 hb
        obtain ⟨s', hs'⟩ := mem_dataOf.1 h1
        rw [← hbq, h2]
        exact mem_dataOf.2 ⟨s', h.tw hs'⟩), add_zero]
      have : lnt j q = 0 := by
        by_contra hn
        exact hq (hl.t.sub j q hn)
      simp only [joint, this, mul_zero]

/-- The transversal CNOT gate maps the stabilizers of a basis to products of them. -/
theorem closed_cnot (h : Twins lc lt Lc Lt dirs) (ht : CnotTable lc lt Lc Lt label)
    (hall : ∀ q, q ∈ cfg.anc ↔ q ∈ ancOf Lc ++ ancOf Lt) (rb : Bool) :
    Closed (cfg := cfg) (stabsOf Lc rb ++ stabsOf Lt rb) (genMat cfg (pairGen lc lt Lc label)) := by
  intro i j hi hj
  rw [mod2_genMat, if_neg]
  intro hm
  apply hj
  have hs : ∀ {L : List (String × Site × Kind)} {q : String}, q ∈ stabsOf L rb ↔ ∃ s, (q, s, if rb then Kind.x else Kind.z) ∈ L := by
    intro L q
    cases rb
    · exact mem_zOf
    · exact mem_xOf
  rcases List.mem_append.1 hi with hi' | hi'
  · obtain ⟨s, hs'⟩ := hs.1 hi'
    have ha : cfg.label i ∈ ancOf Lc := stabsOf_sub hi'
    unfold pairGen at hm
    rw [if_pos ha] at hm
    cases rb
    · unfold newGen gateAt at hm
      rw [ht.zc _ s hs'] at hm
      simp [Dict.get?] at hm
      rw [hm]; exact hi
    · obtain ⟨y, hy, hpar⟩ := ht.xc _ s hs'
      unfold newGen gateAt at hm
      rw [hpar] at hm
      simp [Dict.get?] at hm
      rcases hm with hm | hm
      · rw [hm]; exact hi
      · rw [hm]; exact List.mem_append_right _ (hs.2 ⟨s, hy⟩)
  · obtain ⟨s, hs'⟩ := hs.1 hi'
    have ha : cfg.label i ∉ ancOf Lc := by
      obtain ⟨s, k, h1, h2⟩ := mem_ancOf.1 (stabsOf_sub hi')
      exact h.symm.notAnc h1
    unfold pairGen at hm
    rw [if_neg ha] at hm
    cases rb
    · obtain ⟨y, hy, hpar⟩ := ht.zt _ s hs'
      unfold newGen gateAt at hm
      rw [hpar] at hm
      simp [Dict.get?] at hm
      rcases hm with hm | hm
      · rw [hm]; exact hi
      · rw [hm]; exact List.mem_append_left _ (hs.2 ⟨s, hy⟩)
    · unfold newGen gateAt at hm
      rw [ht.xt _ s hs'] at hm
      simp [Dict.get?] at hm
      rw [hm]; exact hi

/-- CNOT gates on all pairs. -/
theorem cnot_pres (h : Twins lc lt Lc Lt dirs) (hl : TwinLines lc lt Lc Lt rb Sc St lnc lnt) {ps : List (String × String)} (hn : ps.Nodup)
    (hps : ∀ p, p ∈ ps ↔ p.1 ∈ dataOf Lc ∧ p.2 = tw Lc Lt p.1)
    (hk : ∀ o ∈ ps.map (fun p => Op.cx p.1 p.2), ∀ q ∈ o.qubits, q ∈ nm.inds.keys) :
    Loud (ps.map fun p => Op.cx p.1 p.2) ∧ measured (ps.map fun p => Op.cx p.1 p.2) = [] ∧
      ∀ α, ∃ α', Pres nm.inds.keys.toFinset (ps.map fun p => Op.cx p.1 p.2) (jointW rb lnc lnt α) (jointW rb lnc lnt α') := by
  refine ⟨?_, ?_, fun α => ?_⟩
  · intro op hop
    obtain ⟨p, -, rfl⟩ := List.mem_map.1 hop
    simp
  · unfold measured
    rw [List.filterMap_eq_nil_iff]
    intro op hop
    obtain ⟨p, -, rfl⟩ := List.mem_map.1 hop
    rfl
  · refine ⟨if rb then (α.1, α.1 + α.2) else (α.1 + α.2, α.2), ?_⟩
    have hk : ∀ p ∈ ps, p.1 ∈ nm.inds.keys ∧ p.2 ∈ nm.inds.keys := by
      intro p hp
      have := hk (.cx p.1 p.2) (List.mem_map_of_mem hp)
      exact ⟨this _ (by simp [Op.qubits]), this _ (by simp [Op.qubits])⟩
    have := (pres_cx (A := nm.inds.keys.toFinset) (rb := rb) (u := joint lnc lnt α) (ps := ps) ?_
      (fun p hp => by simpa using hk p hp) (fun q _ => joint_one h hl α q) ?_).1
    · simp only [joint_cnot h hl α _ hn hps] at this
      exact this
    · rw [List.nodup_append]
      refine ⟨List.Nodup.map_on (fun p hp p' hp' he => ?_) hn, List.Nodup.map_on (fun p hp p' hp' he => ?_) hn, ?_⟩
      · exact Prod.ext he (by rw [((hps p).1 hp).2, ((hps p').1 hp').2, he])
      · obtain ⟨h1, h2⟩ := (hps p).1 hp
        obtain ⟨h1', h2'⟩ := (hps p').1 hp'
        obtain ⟨s, hs⟩ := mem_dataOf.1 h1
        obtain ⟨s', hs'⟩ := mem_dataOf.1 h1'
        refine Prod.ext ?_ he
        rw [← h.tw_tw hs, ← h2, he, h2', h.tw_tw hs']
      · intro q hq q' hq' he
        subst he
        obtain ⟨p, hp, rfl⟩ := List.mem_map.1 hq
        obtain ⟨p', hp', he⟩ := List.mem_map.1 hq'
        obtain ⟨h1, -⟩ := (hps p).1 hp
        obtain ⟨h1', h2'⟩ := (hps p').1 hp'
        obtain ⟨s', hs'⟩ := mem_dataOf.1 h1'
        refine h.dataApart h1 ?_
        rw [← he, h2']
        exact mem_dataOf.2 ⟨s', h.tw hs'⟩
    · intro p hp
      obtain ⟨h1, h2⟩ := (hps p).1 hp
      obtain ⟨s, hs⟩ := mem_dataOf.1 h1
      refine (hl.c.one p.1).mono fun j hj => ?_
      rw [joint_c h hl α j (h.dataApart h1), h2, joint_t h hl α j (mem_dataOf.2 ⟨s, h.tw hs⟩), hl.twin j _ h1] at hj
      rcases hj with hj | hj <;> exact right_ne_zero_of_mul hj

/-- The transversal CNOT gate. -/
theorem pair_gate (h : Twins lc lt Lc Lt dirs) (hl : TwinLines lc lt Lc Lt rb Sc St lnc lnt) (hrc : CanRun nm lc) (hrt : CanRun nm lt)
    (o : SetOrder) (hcc : lc.code = "rotated_surface_code" ∨ lc.code = "unrotated_surface_code")
    (hct : lt.code = "rotated_surface_code" ∨ lt.code = "unrotated_surface_code")
    (hlab : cnotLabel lc lt = .ok label) (ht : CnotTable lc lt Lc Lt label) {K : Type} {anc : List String}
    {v : FState Nat → Values K} {Φ : Values K → Values K} {U : cfg.Mat Int} (hg : GateG nm anc v Φ U (transCnot o nm lc lt)) :
    GatePres (cfg := cfg) nm nm.inds.keys.toFinset (jointW rb lnc lnt) U (transCnot o nm lc lt) := by
  intro s hist r B b ht1 hd
  obtain ⟨c, s', h1, h2, h3, h4, -⟩ := hg s hist r B b ht1 hd
  obtain ⟨ps, hn, hps, hdo⟩ := does_transCnot h hrc hrt o hcc hct hlab ht
  obtain ⟨D, -, -, -, hiff⟩ := Props.cnot_dict h ht hlab nm o cfg
  obtain ⟨-, hsum⟩ := (hiff s.1 s'.1 s.2 s'.2 c).1 h1
  obtain ⟨c', m', e1, e2, e3, e4⟩ := hdo.2 s.1 hist ht1
  rw [hsum] at e1
  cases e1
  obtain ⟨q1, q2, q3⟩ := cnot_pres (nm := nm) h hl hn hps hdo.1
  exact ⟨c, s', ps.map fun p => Op.cx p.1 p.2, h1, h2, h3, h4, e3, q1, q2, q3⟩

/-- The merged round of two layouts. -/
theorem pair_roundPres (h : Twins lc lt Lc Lt dirs) (gc : GridCode code lc Lc A Xc Zc) (gt : GridCode code lt Lt B Xt Zt)
    (hrc : CanRun nm lc) (hrt : CanRun nm lt) (nt : NoTicks nm) (um : UniformMeas nm) (o : SetOrder)
    (hl : TwinLines lc lt Lc Lt rb Sc St lnc lnt)
    (pc : RoundPres nm (ancOf Lc) nm.inds.keys.toFinset (fun j => fn (fun _ => rb) (lnc j)) (sumGen (cssIter code o nm lc reset)))
    (pt : RoundPres nm (ancOf Lt) nm.inds.keys.toFinset (fun j => fn (fun _ => rb) (lnt j)) (sumGen (cssIter code o nm lt reset)))
    {s s' : MeasState} {hist : List String} {c : Circuit} (ht : s.Tracks nm.inds hist)
    (hm : mergeGens ([lc, lt].map fun l => cssIter code o nm l reset) s = (.ok c, s')) :
    ∃ M, ops c = M.map (Op.rename (ind nm.inds)) ∧ PairsOk c ∧ s'.Tracks nm.inds (hist ++ (ancOf Lc ++ ancOf Lt)) ∧ Loud M ∧
      measured M = ancOf Lc ++ ancOf Lt ∧
      ∀ α, Pres nm.inds.keys.toFinset M (jointW rb lnc lnt α) (jointW rb lnc lnt α) := by
  obtain ⟨sig, hs1, hs⟩ := um
  obtain ⟨x0, x1, x2, x3, z0, z1, z2, z3, ho⟩ := gc.order
  obtain ⟨y0, y1, y2, y3, w0, w1, w2, w3, ho'⟩ := gt.order
  obtain ⟨Ls1, a1, a2, a3⟩ := css_genOk hrc.faithful nt hs1 hs h.c (CanRun.usable hrc h.c) o ho reset gc.data gc.anc
  obtain ⟨Ls2, b1, b2, b3⟩ := css_genOk hrt.faithful nt hs1 hs h.t (CanRun.usable hrt h.t) o ho' reset gt.data gt.anc
  rw [gc.name] at a1
  rw [gt.name] at b1
  have sub : ∀ {L : List (String × Site × Kind)} {X : List (Op String)}, OpsIn (fun q => ∃ s k, (q, s, k) ∈ L) X →
      OpsIn (fun q => q ∈ L.map Prod.fst) X := by
    intro L X hX op hop
    obtain ⟨k1, k2, k3⟩ := hX op hop
    refine ⟨k1, k2, fun q hq => ?_⟩
    obtain ⟨s, k, hsk⟩ := k3 q hq
    exact List.mem_map.2 ⟨_, hsk, rfl⟩
  obtain ⟨M, cls, m1, m2, m3, m4, m5, hI⟩ := merge_two hrc.inj (hrc.known _ h.c.getQubits_all) (hrt.known _ h.t.getQubits_all)
    h.apart a1 b1 (oneMeas_round reset sig) (sub a2) (sub b2) ht hm
  rw [a3, b3] at m4 m5
  obtain ⟨M1, p1, p2, -, -, p5⟩ := pc
  obtain ⟨M2, q1, q2, -, -, q5⟩ := pt
  have e1 := p1.unique hrc.inj (Does.sumGen a1.forall₂)
  have e2 := q1.unique hrc.inj (Does.sumGen b1.forall₂)
  subst e1 e2
  refine ⟨M, m1, pairsOk_of_ops hrc.inj m2 m1 m3 (fun op hop => ?_), m5, hI.loud, m4, fun α => ?_⟩
  · rcases hI.mem hop with hop | hop
    · exact p2 op hop
    · exact q2 op hop
  · have s1 := p5.scale α.1
    have s2 := q5.scale α.2
    simp only [scale_fn] at s1 s2
    refine pres_two hI (fun j q hq => ?_) (fun j q hq => ?_) s1 s2
    · exact mem_grid_label.1 (List.mem_append_left _ (hl.c.sub j q (right_ne_zero_of_mul hq)))
    · exact mem_grid_label.1 (List.mem_append_left _ (hl.t.sub j q (right_ne_zero_of_mul hq)))

/-- The merged measurement of two layouts. -/
theorem pair_measPres (h : Twins lc lt Lc Lt dirs) (gc : GridCode code lc Lc A Xc Zc) (gt : GridCode code lt Lt B Xt Zt)
    (hrc : CanRun nm lc) (hrt : CanRun nm lt) (nt : NoTicks nm) (um : UniformMeas nm)
    (hl : TwinLines lc lt Lc Lt rb Sc St lnc lnt)
    {s s' : MeasState} {hist : List String} {c : Circuit} (ht : s.Tracks nm.inds hist)
    (hm : mergeGens [logMeasIter nm lc rb, logMeasIter nm lt rb] s = (.ok c, s')) :
    ∃ M, ops c = M.map (Op.rename (ind nm.inds)) ∧ PairsOk c ∧ s'.Tracks nm.inds (hist ++ (dataOf Lc ++ dataOf Lt)) ∧ Loud M ∧
      measured M = dataOf Lc ++ dataOf Lt ∧ OnlyHM M ∧
      ∀ α, Pres nm.inds.keys.toFinset M (fun j => recF (dataOf Lc ++ dataOf Lt) (joint lnc lnt α j)) (jointW rb lnc lnt α) := by
  obtain ⟨sig, hs1, hs⟩ := um
  obtain ⟨Ls1, a1, a2⟩ := logMeas_genOk hrc.faithful nt hs1 hs h.c (CanRun.usable hrc h.c) rb gc.data gc.anc
  obtain ⟨Ls2, b1, b2⟩ := logMeas_genOk hrt.faithful nt hs1 hs h.t (CanRun.usable hrt h.t) rb gt.data gt.anc
  have hin : ∀ D : List String, OpsIn (fun q => q ∈ D) ((if rb then D.map Op.h else []) ++ D.map Op.m) := by
    intro D op hop
    rcases List.mem_append.1 hop with hop | hop
    · cases rb
      · simp at hop
      · obtain ⟨q, hq, rfl⟩ := List.mem_map.1 hop
        exact ⟨rfl, by simp [Op.qubits], by simpa [Op.qubits] using hq⟩
    · obtain ⟨q, hq, rfl⟩ := List.mem_map.1 hop
      exact ⟨rfl, by simp [Op.qubits], by simpa [Op.qubits] using hq⟩
  have hmeas : ∀ D : List String, measured ((if rb then D.map Op.h else []) ++ D.map Op.m) = D := by
    intro D
    rw [measured_append, measured_m]
    cases rb
    · rfl
    · simp only [if_true]
      rw [measured_map_none _ _ fun _ => rfl, List.nil_append]
  have kc : ∀ q ∈ dataOf Lc, q ∈ nm.inds.keys := fun q hq => grid_known hrc h.c q (List.mem_append_left _ hq)
  have kt : ∀ q ∈ dataOf Lt, q ∈ nm.inds.keys := fun q hq => grid_known hrt h.t q (List.mem_append_left _ hq)
  obtain ⟨M, cls, m1, m2, m3, m4, m5, hI⟩ := merge_two hrc.inj kc kt (fun q hq => h.dataApart hq) a1 b1 (oneMeas_meas rb sig)
    (by rw [a2]; exact hin _) (by rw [b2]; exact hin _) ht hm
  rw [a2, b2, hmeas, hmeas] at m4 m5
  rw [a2, b2] at hI
  have hD : ∀ {D : List String} {op : Op String}, op ∈ (if rb then D.map Op.h else []) ++ D.map Op.m →
      ∃ q ∈ D, op = .h q ∨ op = .m q := by
    intro D op hop
    rcases List.mem_append.1 hop with hop | hop
    · cases rb
      · simp at hop
      · obtain ⟨q, hq, rfl⟩ := List.mem_map.1 hop
        exact ⟨q, hq, Or.inl rfl⟩
    · obtain ⟨q, hq, rfl⟩ := List.mem_map.1 hop
      exact ⟨q, hq, Or.inr rfl⟩
  have hHM : ∀ op ∈ M, ∃ q ∈ nm.inds.keys.toFinset, op = .h q ∨ op = .m q := by
    intro op hop
    rcases hI.mem hop with hop | hop
    · obtain ⟨q, hq, he⟩ := hD hop
      exact ⟨q, by simpa using kc q hq, he⟩
    · obtain ⟨q, hq, he⟩ := hD hop
      exact ⟨q, by simpa using kt q hq, he⟩
  have hHM' : OnlyHM M := fun op hop => by
    obtain ⟨q, -, he⟩ := hHM op hop
    exact ⟨q, he⟩
  have hpd : ∀ {D : List String}, D.Nodup → ((if rb then D.map Op.h else []) ++ D.map Op.m).Pairwise
      (fun o o' : Op String => o ≠ o' ∧ ∀ q, o = .m q → o' ≠ .h q) := by
    intro D hn
    rw [List.pairwise_append]
    refine ⟨?_, ?_, ?_⟩
    · cases rb
      · exact .nil
      · simp only [if_true]
        rw [List.pairwise_map]
        exact List.Pairwise.imp (fun {a b} hab => ⟨by simpa using hab, by simp⟩) hn
    · rw [List.pairwise_map]
      exact List.Pairwise.imp (fun {a b} hab => ⟨by simpa using hab, by simp⟩) hn
    · intro x hx y hy
      cases rb
      · simp at hx
      · obtain ⟨q, -, rfl⟩ := List.mem_map.1 hx
        obtain ⟨q', -, rfl⟩ := List.mem_map.1 hy
        simp
  have hpw : M.Pairwise (fun o o' : Op String => o ≠ o' ∧ ∀ q, o = .m q → o' ≠ .h q) := by
    refine pairwise_classes (cls := opClass cls) M (fun k => ?_) (fun a ha b hb hne => ⟨?_, ?_⟩)
    · by_cases h0 : k = 0
      · subst h0; rw [hI.left]; exact hpd (at_data h.c).nodup
      · by_cases h1 : k = 1
        · subst h1; rw [hI.right]; exact hpd (at_data h.t).nodup
        · rw [hI.other k (by omega)]; exact .nil
    · rintro rfl; exact hne rfl
    · rintro q rfl rfl
      exact hne rfl
  refine ⟨M, m1, pairsOk_of_ops hrc.inj m2 m1 m3 (fun op hop => ?_), m5, hI.loud, m4, hHM', fun α => ?_⟩
  · obtain ⟨q, rfl | rfl⟩ := hHM' op hop <;> trivial
  have hnodup : M.Nodup := hpw.imp fun h => h.1
  have := pres_hm (A := nm.inds.keys.toFinset) (ln := joint lnc lnt α) (fun q _ => joint_one h hl α q) M [] hHM hnodup
    (hpw.imp fun h => h.2) (by rw [List.nil_append, m4]; exact data_two_nodup h)
  rw [List.nil_append, m4] at this
  convert this using 2 with j
  have hz : ∀ q, q ∉ dataOf Lc ++ dataOf Lt → joint lnc lnt α j q = 0 := by
    intro q hq
    rw [List.mem_append, not_or] at hq
    rw [joint_c h hl α j hq.2]
    have : lnc j q = 0 := by
      by_contra hn
      exact hq.1 (hl.c.sub j q hn)
    rw [this, mul_zero]
  have hh : ∀ q ∈ dataOf Lc ++ dataOf Lt, (Op.h q ∈ M ↔ rb = true) := by
    intro q hq
    constructor
    · intro hmem
      have := hI.mem hmem
      cases rb
      · exfalso
        rcases this with h' | h' <;> simp at h'
      · rfl
    · rintro rfl
      rcases List.mem_append.1 hq with hq | hq
      · have : Op.h q ∈ M.filter (fun o => opClass cls o = 0) := by
          rw [hI.left]; exact List.mem_append_left _ (List.mem_map_of_mem hq)
        exact (List.mem_filter.1 this).1
      · have : Op.h q ∈ M.filter (fun o => opClass cls o = 1) := by
          rw [hI.right]; exact List.mem_append_left _ (List.mem_map_of_mem hq)
        exact (List.mem_filter.1 this).1
  unfold jointW fn
  congr 1
  · funext q
    by_cases hq : q ∈ dataOf Lc ++ dataOf Lt
    · simp only [hq, hh q hq, true_and]
      cases rb <;> simp
    · simp [hq, hz q hq]
  · funext q
    by_cases hq : q ∈ dataOf Lc ++ dataOf Lt
    · simp only [hq, hh q hq, true_and]
    · simp [hq, hz q hq]

variable {R : Prop} {U : cfg.Mat Int}

theorem sum_map_zero {α : Type} {l : List α} {f : α → ZMod 2} (h : ∀ x ∈ l, f x = 0) : (l.map f).sum = 0 := by
  rw [List.map_congr_left h]
  simp

/-- The merged measurement of the data qubits. -/
theorem TInv.mergedMeas [Fintype J] {H : List String} {B₁ B₂ : cfg.Mat Int} {N : cfg.Mat (ZMod 2)} (h : Twins lc lt Lc Lt dirs) (gc : GridCode code lc Lc A Xc Zc) (gt : GridCode code lt Lt B Xt Zt)
    (hrc : CanRun nm lc) (hrt : CanRun nm lt) (hcfg : ConfigOk cfg) (hf : cfg.frame ≠ .gateIndependent)
    (hS : FrameSteps B₁ B₂ N) (hclosed : ClosedBits (stabsOf Lc rb ++ stabsOf Lt rb) N)
    (hall : ∀ q, q ∈ cfg.anc ↔ q ∈ ancOf Lc ++ ancOf Lt) {iter : Layout → Bool → Gen}
    (hl : TwinLines lc lt Lc Lt rb (if rb then Xc else Zc) (if rb then Xt else Zt) lnc lnt)
    (hM : ∀ (s : MeasState) (hist : List String), s.Tracks nm.inds hist →
      Gives R (mergeGens [iter lc rb, iter lt rb]) s fun c s' =>
        ∃ M, ops c = M.map (Op.rename (ind nm.inds)) ∧ PairsOk c ∧ s'.Tracks nm.inds (hist ++ (dataOf Lc ++ dataOf Lt)) ∧ Loud M ∧
          measured M = dataOf Lc ++ dataOf Lt ∧ OnlyHM M ∧
          ∀ α, Pres nm.inds.keys.toFinset M (fun j => recF (dataOf Lc ++ dataOf Lt) (joint lnc lnt α j)) (jointW rb lnc lnt α))
    {r : Nat} {e : Circuit} {s : Sim cfg} (hr : 1 ≤ r)
    (hi : TInv nm (ancOf Lc ++ ancOf Lt) nm.inds.keys.toFinset (jointW rb lnc lnt) (stabsOf Lc rb ++ stabsOf Lt rb) H r B₁ B₂ e s)
    {sel : List String} (hsel : ∀ q ∈ sel, q ∈ ancOf Lc ++ ancOf Lt) (hselT : ∀ q ∈ stabsOf Lc rb ++ stabsOf Lt rb, q ∈ sel) :
    Gives R (mergeLogMeas iter [lc, lt] [rb, rb] reset (some sel)) s fun c _ => Detects (Fintype.card J) (e.concat c) ∧
      ∀ S : List String, S.Nodup → (∀ q ∈ S, q ∈ dataOf Lc) →
        (∀ a ∈ stabsOf Lc rb, ((lc.getNeighbors [a] none).map fun q => if q ∈ S then (1 : ZMod 2) else 0).sum = 0) →
        ((if rb then Xc else Zc).map fun q => if q ∈ S then (1 : ZMod 2) else 0).sum = 1 → Unseen S.length (e.concat c) := by
  have hmc := gc.memCode h.c hrc rb
  have hmt := gt.memCode h.t hrt rb
  obtain ⟨E, hE, hEk, hEg⟩ := allSupport_two h hmc hmt
  have kd : ∀ d ∈ dataOf Lc ++ dataOf Lt, d ∈ nm.inds.keys := by
    intro d hd
    rcases List.mem_append.1 hd with hd | hd
    · exact hmc.known (List.mem_append_left _ hd)
    · exact hmt.known (List.mem_append_left _ hd)
  have ka : ∀ d ∈ ancOf Lc ++ ancOf Lt, d ∈ nm.inds.keys := by
    intro d hd
    rcases List.mem_append.1 hd with hd | hd
    · exact hmc.known (List.mem_append_right _ hd)
    · exact hmt.known (List.mem_append_right _ hd)
  have dataN := data_two_nodup h
  have ancN := anc_two_nodup h
  have disj := data_anc_two h
  set data := dataOf Lc ++ dataOf Lt with hdata
  set anc := ancOf Lc ++ ancOf Lt with hanc
  set T := stabsOf Lc rb ++ stabsOf Lt rb with hT
  have hTa : ∀ q ∈ T, q ∈ anc := by
    intro q hq
    rcases List.mem_append.1 hq with hq | hq
    · exact List.mem_append_left _ (stabsOf_sub hq)
    · exact List.mem_append_right _ (stabsOf_sub hq)
  unfold mergeLogMeas
  rw [if_neg (by simp)]
  refine .bind_ok (show PyM.ofExcept (checkAnc [lc, lt] (some sel)) s = (.ok (), s) by rw [checkAnc_two h hsel]; rfl) ?_
  refine (onModel_gives (hM _ _ hi.tracks)).bind fun c3 s3 hq => ?_
  obtain ⟨h2, M, ho3, p3, t3, hloud, hmeas, hHM, hpres⟩ := hq
  obtain ⟨s3, d3⟩ := s3
  obtain rfl : d3 = s.2 := h2
  refine .bind_ok (show PyM.ofExcept (allSupport ([lc, lt].zip [rb, rb]) [] []) (s3, s.2) = (.ok _, (s3, s.2)) by
    rw [show [lc, lt].zip [rb, rb] = [(lc, rb), (lt, rb)] from rfl, hE]; rfl) ?_
  have hEd : ∀ a qs, E.get? a = some qs → ∀ q ∈ qs, q ∈ data := by
    intro a qs hq q hqq
    rcases hEg a qs hq with ⟨k1, k2⟩ | ⟨k1, k2⟩
    · exact List.mem_append_left _ (hmc.sup a (hmc.stabsSub a k1) q (k2.mem_iff.1 hqq))
    · exact List.mem_append_right _ (hmt.sup a (hmt.stabsSub a k1) q (k2.mem_iff.1 hqq))
  have hcd : ∀ d ∈ data, (H ++ data).count d = 1 := by
    intro d hd'
    rw [List.count_append, List.count_eq_one_of_mem dataN hd', List.count_eq_zero.2]
    exact fun h => disj d hd' (hi.only d h)
  have hca : ∀ a ∈ anc, (H ++ data).count a = r := by
    intro a ha
    rw [List.count_append, hi.counts a ha, List.count_eq_zero.2 (fun h => disj a h ha), Nat.add_zero]
  have hlab : ∀ i, cfg.label i ∈ anc := fun i => (hall _).1 (label_mem i)
  obtain ⟨c1, d1, e1, p1, g1, f1⟩ := DetG.dataOf hcfg hf hS hr hi.det s3.measTarget (lookOf s3) reset sel
    (fun q hq => (hall q).2 (hsel q hq)) E T hEk
    (fun x qs hx q hq => by
      have := (lookOf_spec t3 (kd q (hEd x qs hx q hq)) (le_refl 1) (by rw [hcd q (hEd x qs hx q hq)])).1
      simpa using this)
    (fun i k h1 _ h3 => (lookOf_spec t3 (ka _ (hlab i)) h1 (by rw [hca _ (hlab i)]; exact h3)).1)
  refine .bind_ok (onDets_ok (s := (s3, s.2)) (f := fun getRec => Detectors.buildFromData getRec E reset
    T (some sel)) e1) ?_
  set Lx := (if rb then Xc else Zc) with hLx
  set Ly := (if rb then Xt else Zt) with hLy
  have hx : ∀ q ∈ Lx, q ∈ data := fun q hq => List.mem_append_left _ (hmc.logSub q hq)
  have hy : ∀ q ∈ Ly, q ∈ data := fun q hq => List.mem_append_right _ (hmt.logSub q hq)
  have hobs := allObservables_two (rb := rb) gc.log gt.log (Xc := Lx) (Xt := Ly)
    (by rw [gc.logX, gc.logZ, hLx]; cases rb <;> simp [Dict.getE, Dict.get?])
    (by rw [gt.logX, gt.logZ, hLy]; cases rb <;> simp [Dict.getE, Dict.get?]) t3
    (fun q hq => ⟨kd q (hx q hq), by rw [hcd q (hx q hq)]⟩) (fun q hq => ⟨kd q (hy q hq), by rw [hcd q (hy q hq)]⟩)
    (e := c3.concat c1)
  refine .of_ok (onModel_ok (s := (s3, d1)) hobs) ?_
  obtain ⟨pa, oa⟩ := append_obs (p3.concat p1).2 0 (Lx.map (lookOf s3 · 1))
  obtain ⟨pc, oc⟩ := append_obs pa 1 (Ly.map (lookOf s3 · 1))
  have o5 := hi.even.concat pc
  have hops := o5.1
  rw [oc, oa, (p3.concat p1).1] at hops
  obtain ⟨X, hX, hX0, hXf, hXr⟩ := hi.body
  have hquiet : Quiet (ops c1 ++ [Op.obs (0 : Nat) (Lx.map (lookOf s3 · 1))] ++ [Op.obs (1 : Nat) (Ly.map (lookOf s3 · 1))]) := by
    intro op hop
    rcases List.mem_append.1 hop with hop | hop
    · rcases List.mem_append.1 hop with hop | hop
      · exact quiet_ops (fun i hi => Or.inl (buildFromData_gates e1 i hi)) op hop
      · exact Or.inr ⟨_, _, List.mem_singleton.1 hop⟩
    · exact Or.inr ⟨_, _, List.mem_singleton.1 hop⟩
  obtain ⟨TT, hTT, hTq⟩ := hquiet.lift (ind nm.inds)
  have hops' := hops
  rw [hX, ho3, List.append_assoc, List.append_assoc, ← List.append_assoc (ops c1), hTT, ← List.map_append,
    ← List.map_append] at hops'
  -- the values of the last detectors and of the observables
  let bef : List (ZMod 2) → Fin cfg.n → ZMod 2 := fun recs0 j => (outs H recs0 (cfg.label j)).getD 0 0 +
    if reset = false ∧ 2 ≤ r then (outs H recs0 (cfg.label j)).getD 1 0 else 0
  let G : List (ZMod 2) → (String → ZMod 2) → List (ZMod 2) := fun recs0 v =>
    (((List.finRange cfg.n).filter (cfg.label · ∈ T)).map fun i => if cfg.label i ∈ sel then
      (((E.get? (cfg.label i)).getD []).map v).sum + N.mulVec (bef recs0) i else 0).reverse
  let O : (String → ZMod 2) → List (Rat × ZMod 2) := fun v => [((1 : Nat), (Ly.map v).sum), ((0 : Nat), (Lx.map v).sum)]
  have tail : ∀ ρ (st : FState Nat) v recs0, st.recs = (data.map v).reverse ++ recs0 → recs0.length = H.length →
      (run ρ st (TT.map (Op.rename (ind nm.inds)))).dets = G recs0 v ++ st.dets ∧
        (run ρ st (TT.map (Op.rename (ind nm.inds)))).obs = O v ++ st.obs := by
    intro ρ st v recs0 h1 h2
    have hl' : st.recs.length = (H ++ data).length := by
      rw [h1]; simp [h2]; omega
    have vd : ∀ d ∈ data, lookback st.recs (lookOf s3 d 1) = v d := by
      intro d hd'
      rw [(lookOf_spec t3 (kd d hd') (by omega) (by rw [hcd d hd'])).2 _ hl', h1, outs_append dataN, if_pos hd']
      rfl
    have va : ∀ a ∈ anc, ∀ k, 1 ≤ k → k ≤ r →
        lookback st.recs (lookOf s3 a k) = (outs H recs0 a).getD (k - 1) 0 := by
      intro a ha k k1 k2
      rw [(lookOf_spec t3 (ka a ha) k1 (by rw [hca a ha]; exact k2)).2 _ hl', h1, outs_append dataN,
        if_neg (fun h => disj a h ha)]
    rw [← hTT, run_append, run_append, f1]
    simp only [run_cons, run_nil, step]
    have hpar : ∀ S : List String, (∀ q ∈ S, q ∈ data) → parity st.recs (S.map (lookOf s3 · 1)) = (S.map v).sum := by
      intro S hS
      unfold parity
      rw [List.map_map]
      congr 1
      exact List.map_congr_left fun d hd => vd d (hS d hd)
    rw [hpar _ hx, hpar _ hy]
    refine ⟨?_, rfl⟩
    congr 2
    refine List.map_congr_left fun i _ => ?_
    split
    · congr 1
      · congr 1
        refine List.map_congr_left fun q hq => vd q ?_
        cases hg : E.get? (cfg.label i) with
        | none => rw [hg] at hq; simp at hq
        | some qs => rw [hg] at hq; exact hEd _ qs hg q hq
      · congr 1
        funext j
        simp only [bef]
        rw [va _ (hlab j) 1 (by omega) hr]
        congr 1
        by_cases h2r : reset = false ∧ 2 ≤ r
        · rw [if_pos h2r, if_pos h2r, va _ (hlab j) 2 (by omega) h2r.2]
        · rw [if_neg h2r, if_neg h2r]
    · rfl
  have hEv : ∀ {l : Layout} {q : String}, q ∈ T → (q ∈ stabsOf Lc rb → l = lc) → (q ∈ stabsOf Lt rb → l = lt) → ∀ v : String → ZMod 2,
      (((E.get? q).getD []).map v).sum = ((l.getNeighbors [q] none).map v).sum := by
    intro l q hq hc ht v
    cases hg : E.get? q with
    | none =>
      exfalso
      exact (Dict.get?_eq_none_iff E q).1 hg (hEk q hq)
    | some qs =>
      rcases hEg q qs hg with ⟨k1, k2⟩ | ⟨k1, k2⟩
      · rw [hc k1]; exact (k2.map v).sum_eq
      · rw [ht k1]; exact (k2.map v).sum_eq
  have hdis : ∀ q ∈ stabsOf Lc rb, q ∉ stabsOf Lt rb := fun q h1 h2 =>
    (List.nodup_append.1 ancN).2.2 q (stabsOf_sub h1) q (stabsOf_sub h2) rfl
  have hEc : ∀ q ∈ stabsOf Lc rb, ∀ v : String → ZMod 2,
      (((E.get? q).getD []).map v).sum = ((lc.getNeighbors [q] none).map v).sum := fun q hq v =>
    hEv (List.mem_append_left _ hq) (fun _ => rfl) (fun h' => absurd h' (hdis q hq)) v
  have hEt : ∀ q ∈ stabsOf Lt rb, ∀ v : String → ZMod 2,
      (((E.get? q).getD []).map v).sum = ((lt.getNeighbors [q] none).map v).sum := fun q hq v =>
    hEv (List.mem_append_right _ hq) (fun h' => absurd hq (hdis q h')) (fun _ => rfl) v
  have inj : ∀ a b, a ∈ nm.inds.keys → b ∈ nm.inds.keys → ind nm.inds a = ind nm.inds b → a = b :=
    fun a b ha hb => hrc.inj a ha b hb
  refine ⟨?_, fun S hS hSd hSs hSl => ?_⟩
  · refine detects_core (A := nm.inds.keys.toFinset) inj (fun q hq => by simpa using hq) hops' hX0 hXf hXr hloud hmeas dataN hTq tail
      [(1, 0), (0, 1)] (joint lnc lnt) (fun i _ => hpres i) ?_ (by simp)
    intro recs recs' v v' _ _ hout hG hsum
    have hG' := List.reverse_injective hG
    rw [List.map_inj_left] at hG'
    have hb : ∀ j, cfg.label j ∈ T → bef recs j = bef recs' j := fun j hj => by simp only [bef, hout _ hj]
    have hst : ∀ q ∈ T, (((E.get? q).getD []).map v).sum = (((E.get? q).getD []).map v').sum := by
      intro q hq
      obtain ⟨i, rfl⟩ : ∃ i, cfg.label i = q := by
        have : q ∈ (List.finRange cfg.n).map cfg.label := by rw [labels_finRange]; exact (hall q).2 (hTa q hq)
        obtain ⟨i, -, hi⟩ := List.mem_map.1 this
        exact ⟨i, hi⟩
      have := hG' i (List.mem_filter.2 ⟨List.mem_finRange i, by simpa using hq⟩)
      rw [if_pos (hselT _ hq), if_pos (hselT _ hq), hclosed.mulVec hb hq] at this
      exact add_right_cancel this
    have z1 : ∀ j d, d ∈ dataOf Lt → lnc j d = 0 := fun j d hd => by
      by_contra hn; exact h.dataApart (hl.c.sub j d hn) hd
    have z2 : ∀ j d, d ∈ dataOf Lc → lnt j d = 0 := fun j d hd => by
      by_contra hn; exact h.symm.dataApart (hl.t.sub j d hn) hd
    have ec : (Lx.map v).sum = (Lx.map v').sum := by
      obtain ⟨j, hj⟩ := hsum (1, 0) (by simp)
      have key : ∀ w : String → ZMod 2, (data.map fun d => joint lnc lnt (1, 0) j d * w d).sum =
          ((dataOf Lc).map fun d => lnc j d * w d).sum := by
        intro w
        rw [hdata, List.map_append, List.sum_append,
          sum_map_zero (l := dataOf Lt) (fun d hd => by simp [joint, z1 j d hd]), add_zero]
        congr 1
        exact List.map_congr_left fun d _ => by simp [joint]
      rw [key, key] at hj
      obtain ⟨Bs, hB, hs⟩ := hl.c.log j
      rw [hs, hs] at hj
      have e2 : (Bs.map fun a => ((lc.getNeighbors [a] none).map v).sum) =
          Bs.map fun a => ((lc.getNeighbors [a] none).map v').sum := List.map_congr_left fun a ha => by
        rw [← hEc a (hB a ha), ← hEc a (hB a ha)]
        exact hst a (List.mem_append_left _ (hB a ha))
      rw [e2] at hj
      exact add_right_cancel hj
    have et : (Ly.map v).sum = (Ly.map v').sum := by
      obtain ⟨j, hj⟩ := hsum (0, 1) (by simp)
      have key : ∀ w : String → ZMod 2, (data.map fun d => joint lnc lnt (0, 1) j d * w d).sum =
          ((dataOf Lt).map fun d => lnt j d * w d).sum := by
        intro w
        rw [hdata, List.map_append, List.sum_append,
          sum_map_zero (l := dataOf Lc) (fun d hd => by simp [joint, z2 j d hd]), zero_add]
        congr 1
        exact List.map_congr_left fun d _ => by simp [joint]
      rw [key, key] at hj
      obtain ⟨Bs, hB, hs⟩ := hl.t.log j
      rw [hs, hs] at hj
      have e2 : (Bs.map fun a => ((lt.getNeighbors [a] none).map v).sum) =
          Bs.map fun a => ((lt.getNeighbors [a] none).map v').sum := List.map_congr_left fun a ha => by
        rw [← hEt a (hB a ha), ← hEt a (hB a ha)]
        exact hst a (List.mem_append_right _ (hB a ha))
      rw [e2] at hj
      exact add_right_cancel hj
    show O v = O v'
    simp only [O, ec, et]
  · obtain ⟨W0, hW0⟩ := hX0 (1, 0)
    refine unseen_core (G := G) (O := O) inj hops' (fun o ho q hq => by simpa using hW0.known o ho q hq) hXf hHM hmeas dataN kd tail hS
      (fun q hq => List.mem_append_left _ (hSd q hq)) ?_ ?_
    · intro recs0 v _
      simp only [G]
      congr 1
      refine List.map_congr_left fun i hi => ?_
      have hiT : cfg.label i ∈ T := by simpa using (List.mem_filter.1 hi).2
      split
      · congr 1
        rcases List.mem_append.1 hiT with hic | hit
        · rw [hEc _ hic, hEc _ hic, sum_add_map v (fun q => if q ∈ S then (1 : ZMod 2) else 0), hSs _ hic, add_zero]
        · rw [hEt _ hit, hEt _ hit]
          congr 1
          refine List.map_congr_left fun q hq => ?_
          rw [if_neg, add_zero]
          intro hqS
          exact h.dataApart (hSd q hqS) (nbrs_data h.t (stabsOf_sub hit) hq)
      · rfl
    · intro v hO
      simp only [O, List.cons.injEq, Prod.mk.injEq, true_and, and_true] at hO
      have := hO.2
      rw [sum_add_map v (fun q => if q ∈ S then (1 : ZMod 2) else 0) Lx, hSl] at this
      exact zmod_add_one_ne _ this

theorem CInv.mergedMeas [Fintype J] (h : Twins lc lt Lc Lt dirs) (gc : GridCode code lc Lc A Xc Zc) (gt : GridCode code lt Lt B Xt Zt)
    (hrc : CanRun nm lc) (hrt : CanRun nm lt) (hcfg : ConfigOk cfg) (hf : cfg.frame ≠ .gateIndependent)
    (hU : CleanInvolution U) (hclosed : Closed (stabsOf Lc rb ++ stabsOf Lt rb) U)
    (hall : ∀ q, q ∈ cfg.anc ↔ q ∈ ancOf Lc ++ ancOf Lt) {iter : Layout → Bool → Gen}
    (hl : TwinLines lc lt Lc Lt rb (if rb then Xc else Zc) (if rb then Xt else Zt) lnc lnt)
    (hM : ∀ (s : MeasState) (hist : List String), s.Tracks nm.inds hist →
      Gives R (mergeGens [iter lc rb, iter lt rb]) s fun c s' =>
        ∃ M, ops c = M.map (Op.rename (ind nm.inds)) ∧ PairsOk c ∧ s'.Tracks nm.inds (hist ++ (dataOf Lc ++ dataOf Lt)) ∧ Loud M ∧
          measured M = dataOf Lc ++ dataOf Lt ∧ OnlyHM M ∧
          ∀ α, Pres nm.inds.keys.toFinset M (fun j => recF (dataOf Lc ++ dataOf Lt) (joint lnc lnt α j)) (jointW rb lnc lnt α))
    {r : Nat} {a b : Bool} {e : Circuit} {s : Sim cfg} (hr : 1 ≤ r)
    (hi : CInv nm (ancOf Lc ++ ancOf Lt) nm.inds.keys.toFinset (jointW rb lnc lnt) (stabsOf Lc rb ++ stabsOf Lt rb) U r a b e s)
    {sel : List String} (hsel : ∀ q ∈ sel, q ∈ ancOf Lc ++ ancOf Lt) (hselT : ∀ q ∈ stabsOf Lc rb ++ stabsOf Lt rb, q ∈ sel) :
    Gives R (mergeLogMeas iter [lc, lt] [rb, rb] reset (some sel)) s fun c _ => Detects (Fintype.card J) (e.concat c) ∧
      ∀ S : List String, S.Nodup → (∀ q ∈ S, q ∈ dataOf Lc) →
        (∀ a ∈ stabsOf Lc rb, ((lc.getNeighbors [a] none).map fun q => if q ∈ S then (1 : ZMod 2) else 0).sum = 0) →
        ((if rb then Xc else Zc).map fun q => if q ∈ S then (1 : ZMod 2) else 0).sum = 1 → Unseen S.length (e.concat c) :=
  (hi.toT (anc_two_nodup h)).mergedMeas h gc gt hrc hrt hcfg hf (powOf_steps hU a b) (hclosed.powOf _) hall hl hM hr hsel hselT

end SurfaceSim
