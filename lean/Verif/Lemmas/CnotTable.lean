/-
The tables that `set_trans_cnot` stores.
-/
import Verif.Lemmas.CnotMap
import Verif.Lemmas.NewStabDict
import Verif.Props.Layout

namespace SurfaceSim
open Spec LayoutLib LogGates
open Blocks (dataQubits ancQubits stabQubits firstLogical cnotLabel)

theorem gateLabel_cnot (s t : String) : GateLabel ("trans-cnot_" ++ s ++ "_" ++ t) := by
  have := gateLabel_trans "cnot_" (s ++ "_" ++ t)
  simpa [String.append_assoc] using this

theorem storeCnot_ok {label : String} (hk : GateLabel label) {mp : Dict String String} {data : List String}
    {l l' : Layout} (h : storeCnot label mp data l = (.ok (), l')) :
    WithParams l l' ∧ (∀ d ∈ data, ∃ e, mp.get? d = some e ∧ l'.param label d = .ok (.gate [("cnot", .str e)])) ∧
      ∀ p q, (p = label → q ∉ data) → l'.param p q = l.param p q := by
  have he : storeCnot label mp data = PyM.forEach data fun d => PyM.bind (PyM.ofExcept
      (match mp.getE d with
        | .error e => .error e
        | .ok g => .ok (Val.gate [("cnot", .str g)]))) fun v => store label d v := by
    unfold storeCnot
    congr 1
    funext a l
    simp only [Bind.bind, PyM.bind, PyM.ofExcept]
    cases mp.getE a with
    | error e => rfl
    | ok p => rfl
  rw [he] at h
  obtain ⟨h1, h2, h3⟩ := forEach_store hk data h
  refine ⟨h1, fun a ha => ?_, h3⟩
  obtain ⟨v, hv, hv'⟩ := h2 a ha
  cases hc : mp.getE a with
  | error e => simp [hc] at hv
  | ok g =>
    simp only [hc, Except.ok.injEq] at hv
    exact ⟨g, (Dict.getE_ok_iff _ _ _).1 hc, hv ▸ hv'⟩

theorem storeCnot_exists {label : String} {mp : Dict String String} {data : List String} {l : Layout}
    (h : ∀ a ∈ data, a ∈ l.graph.nodes.keys ∧ ∃ g, mp.get? a = some g) :
    ∃ l', storeCnot label mp data l = (.ok (), l') ∧ l'.graph.nodes.keys = l.graph.nodes.keys := by
  induction data generalizing l with
  | nil => exact ⟨l, rfl, rfl⟩
  | cons d ds ih =>
    obtain ⟨h1, g, hg⟩ := h d (by simp)
    obtain ⟨l1, k1, k2⟩ := setParam_ok (key := label) (v := .gate [("cnot", .str g)]) h1
    obtain ⟨l', k3, k4⟩ := ih (l := l1) fun d' hd' => k2 ▸ h d' (by simp [hd'])
    refine ⟨l', ?_, k4.trans k2⟩
    unfold storeCnot at k3 ⊢
    simp only [PyM.forEach, Bind.bind, PyM.bind, PyM.ofExcept, (Dict.getE_ok_iff _ _ _).2 hg, store, k1] at k3 ⊢
    exact k3

theorem get?_keepStabs (anc : List String) (acc : Dict String (List String)) (a : String) :
    (keepStabs anc acc).get? a = if a ∈ anc then some [a] else acc.get? a := by
  unfold keepStabs
  induction anc generalizing acc with
  | nil => simp
  | cons b anc ih =>
    rw [List.foldl_cons, ih, Dict.get?_set]
    by_cases h1 : a ∈ anc
    · simp [h1]
    · by_cases h2 : b = a
      · simp [h2]
      · simp [h1, h2, Ne.symm h2]

theorem addStabs_ok {mp : Dict String String} {as : List String} {acc r : Dict String (List String)}
    (h : addStabs mp as acc = .ok r) : (∀ a ∈ as, ∃ b, mp.get? a = some b ∧ r.get? a = some [a, b]) ∧
      ∀ a, a ∉ as → r.get? a = acc.get? a := by
  induction as generalizing acc with
  | nil =>
    unfold addStabs at h
    rw [← Except.ok.inj h]
    simp
  | cons a as ih =>
    unfold addStabs at h
    cases hm : mp.getE a with
    | error e => simp [hm] at h
    | ok b =>
      simp only [hm] at h
      obtain ⟨h1, h2⟩ := ih h
      refine ⟨fun c hc => ?_, fun c hc => ?_⟩
      · by_cases hca : c ∈ as
        · exact h1 c hca
        · obtain rfl : c = a := by simpa [hca] using hc
          refine ⟨b, (Dict.getE_ok_iff _ _ _).1 hm, ?_⟩
          rw [h2 c hca, Dict.get?_set_self]
      · rw [List.mem_cons, not_or] at hc
        rw [h2 c hc.2, Dict.get?_set_ne _ (Ne.symm hc.1)]

theorem addStabs_exists {mp : Dict String String} {as : List String} (acc : Dict String (List String))
    (h : ∀ a ∈ as, ∃ b, mp.get? a = some b) : ∃ r, addStabs mp as acc = .ok r := by
  induction as generalizing acc with
  | nil => exact ⟨acc, rfl⟩
  | cons a as ih =>
    obtain ⟨b, hb⟩ := h a (by simp)
    unfold addStabs
    simp only [(Dict.getE_ok_iff _ _ _).2 hb]
    exact ih _ fun a ha => h a (by simp [ha])

/-- The inverse of a dictionary. -/
theorem get?_inverse {m : Dict String String} (hm : (m.map Prod.snd).Nodup) (acc : Dict String String) {q q' : String}
    (h : (q, q') ∈ m) : (m.foldl (fun acc kv => Dict.set acc kv.2 kv.1) acc).get? q' = some q := by
  have aux : ∀ (m : Dict String String) (acc : Dict String String), q' ∉ m.map Prod.snd →
      (m.foldl (fun acc kv => Dict.set acc kv.2 kv.1) acc).get? q' = acc.get? q' := by
    intro m
    induction m with
    | nil => intro acc _; rfl
    | cons kv m ih =>
      intro acc hq
      rw [List.map_cons, List.mem_cons, not_or] at hq
      rw [List.foldl_cons, ih _ hq.2, Dict.get?_set_ne _ (Ne.symm hq.1)]
  induction m generalizing acc with
  | nil => simp at h
  | cons kv m ih =>
    rw [List.map_cons, List.nodup_cons] at hm
    rw [List.foldl_cons]
    rcases List.mem_cons.1 h with rfl | h
    · rw [aux m _ hm.1, Dict.get?_set_self]
    · exact ih hm.2 _ h

/-- The stored table of a transversal CNOT: each qubit is related to its twin. -/
structure CnotTable (lc lt : Layout) (Lc Lt : List (String × Site × Kind)) (label : String) : Prop where
  ctrl : ∀ d s, (d, s, Kind.data) ∈ Lc → ∃ e, (e, s, Kind.data) ∈ Lt ∧ lc.param label d = .ok (.gate [("cnot", .str e)])
  targ : ∀ d s, (d, s, Kind.data) ∈ Lt → ∃ e, (e, s, Kind.data) ∈ Lc ∧ lt.param label d = .ok (.gate [("cnot", .str e)])
  xc : ∀ x s, (x, s, Kind.x) ∈ Lc → ∃ y, (y, s, Kind.x) ∈ Lt ∧
    lc.param label x = .ok (.gate [("new_stab_gen", .strs [x, y])])
  zc : ∀ z s, (z, s, Kind.z) ∈ Lc → lc.param label z = .ok (.gate [("new_stab_gen", .strs [z])])
  xt : ∀ x s, (x, s, Kind.x) ∈ Lt → lt.param label x = .ok (.gate [("new_stab_gen", .strs [x])])
  zt : ∀ z s, (z, s, Kind.z) ∈ Lt → ∃ y, (y, s, Kind.z) ∈ Lc ∧
    lt.param label z = .ok (.gate [("new_stab_gen", .strs [z, y])])

theorem CnotTable.congr {lc lt lc' lt' : Layout} {Lc Lt : List (String × Site × Kind)} {label : String}
    (h : CnotTable lc lt Lc Lt label) (h1 : ∀ q, lc'.param label q = lc.param label q)
    (h2 : ∀ q, lt'.param label q = lt.param label q) : CnotTable lc' lt' Lc Lt label := by
  refine ⟨?_, ?_, ?_, ?_, ?_, ?_⟩ <;> intro q s hq
  · rw [h1]; exact h.ctrl q s hq
  · rw [h2]; exact h.targ q s hq
  · rw [h1]; exact h.xc q s hq
  · rw [h1]; exact h.zc q s hq
  · rw [h2]; exact h.xt q s hq
  · rw [h2]; exact h.zt q s hq

section
variable {lc lt : Layout} {Lc Lt : List (String × Site × Kind)} {dirs : List (Site × String)} {oc ot : Vec}

theorem cnotLabel_of {A B : String} (hA : lc.logQubits = [A]) (hB : lt.logQubits = [B]) :
    cnotLabel lc lt = .ok ("trans-cnot_" ++ A ++ "_" ++ B) := by
  unfold cnotLabel
  rw [firstLogical_of hA, firstLogical_of hB]

theorem overlap_labels (hc : OnGrid lc Lc dirs) (ht : OnGrid lt Lt dirs) (h : Layout.checkOverlap [lc, lt] = .ok ()) :
    ∀ q ∈ Lc.map Prod.fst, q ∉ Lt.map Prod.fst := by
  have := (C10_accepts_iff_disjoint [lc, lt] (by simp [hc.reach, ht.reach])).1 h
  simp only [List.length_cons, List.length_nil, List.pairwise_cons, List.mem_singleton, forall_eq, List.not_mem_nil] at this
  rcases this with h | ⟨-, h, -⟩
  · omega
  · intro q hq hq'
    rw [← hc.keys] at hq
    rw [← ht.keys] at hq'
    exact h.1 q hq hq'

theorem ofExcept_onC {σ α : Type} (x : Except Err α) (s : σ) : (PyM.ofExcept x : PyM σ α) s = (x, s) := rfl

/-- What `set_trans_cnot` checks. -/
theorem setTransCnot_checks {code : String} {mt : Matcher} {o : SetOrder} {s : Layout × Layout}
    (e : setTransCnot code mt o (lc, lt) = (.ok (), s)) : lc.code = code ∧ lt.code = code ∧
      lc.distanceX = lt.distanceX ∧ lc.distanceZ = lt.distanceZ ∧ Layout.checkOverlap [lc, lt] = .ok () := by
  unfold setTransCnot at e
  rw [PyM.bind_ok (PyM.get_apply _)] at e
  by_cases h1 : lc.code ≠ code ∨ lt.code ≠ code
  · simp only [if_pos h1] at e
    simp at e
  · by_cases h2 : lc.distanceX ≠ lt.distanceX ∨ lc.distanceZ ≠ lt.distanceZ
    · simp only [if_neg h1, if_pos h2] at e
      simp at e
    · simp only [if_neg h1, if_neg h2] at e
      obtain ⟨_, h3, -⟩ := ofExcept_bind_ok e
      push Not at h1 h2
      exact ⟨h1.1, h1.2, h2.1, h2.2, h3⟩

theorem setTransCnot_ok (hc : Placed lc Lc dirs oc) (ht : Placed lt Lt dirs ot) (hs : Lc.map Prod.snd = Lt.map Prod.snd)
    (hn : NearBy Lc Lt oc ot) {A B : String} (hA : lc.logQubits = [A]) (hB : lt.logQubits = [B]) {code : String}
    {mt : Matcher} {o : SetOrder} {lc' lt' : Layout} (e : setTransCnot code mt o (lc, lt) = (.ok (), (lc', lt'))) :
    WithParams lc lc' ∧ WithParams lt lt' ∧
      (∀ p q, p ≠ "trans-cnot_" ++ A ++ "_" ++ B → lc'.param p q = lc.param p q ∧ lt'.param p q = lt.param p q) ∧
      CnotTable lc' lt' Lc Lt ("trans-cnot_" ++ A ++ "_" ++ B) := by
  obtain ⟨h1, h2, h3, h4, h5⟩ := setTransCnot_checks e
  have hdis := overlap_labels hc.grid ht.grid h5
  have hl := cnotLabel_of hA hB
  set label := "trans-cnot_" ++ A ++ "_" ++ B with hlabel
  have hgl : GateLabel label := gateLabel_cnot A B
  unfold setTransCnot storeTransCnot at e
  rw [PyM.bind_ok (PyM.get_apply _)] at e
  simp only [h1, h2, h3, h4, ne_eq, not_true_eq_false, or_self, if_false] at e
  obtain ⟨_, -, e⟩ := ofExcept_bind_ok e
  obtain ⟨_, e1, e⟩ := ofExcept_bind_ok e
  rw [hl] at e1
  cases e1
  by_cases hms : (mt.all lc.graph lt.graph).isEmpty = true
  · simp only [if_pos hms] at e
    simp at e
  simp only [if_neg hms] at e
  obtain ⟨r, e2, e⟩ := ofExcept_bind_ok e
  cases r with
  | none => simp at e
  | some ct =>
    simp only at e
    obtain ⟨dataC, e3, e⟩ := ofExcept_bind_ok e
    obtain ⟨dataT, e4, e⟩ := ofExcept_bind_ok e
    obtain ⟨_, s1, e5, e⟩ := PyM.bind_eq_ok e
    obtain ⟨_, s2, e6, e⟩ := PyM.bind_eq_ok e
    obtain ⟨zc, e7, e⟩ := ofExcept_bind_ok e
    obtain ⟨xc, e8, e⟩ := ofExcept_bind_ok e
    obtain ⟨new1, e9, e⟩ := ofExcept_bind_ok e
    obtain ⟨zt, e10, e⟩ := ofExcept_bind_ok e
    obtain ⟨new2, e11, e⟩ := ofExcept_bind_ok e
    obtain ⟨xt, e12, e⟩ := ofExcept_bind_ok e
    obtain ⟨ancC, e13, e⟩ := ofExcept_bind_ok e
    obtain ⟨ancT, e14, e⟩ := ofExcept_bind_ok e
    obtain ⟨_, s3, e15, e⟩ := PyM.bind_eq_ok e
    unfold dataQubits at e3 e4
    unfold stabQubits at e7 e8 e10 e12
    unfold ancQubits at e13 e14
    rw [hc.grid.getQubits_data, Except.ok.injEq] at e3
    rw [ht.grid.getQubits_data, Except.ok.injEq] at e4
    rw [hc.grid.getQubits_z, Except.ok.injEq] at e7
    rw [hc.grid.getQubits_x, Except.ok.injEq] at e8
    rw [ht.grid.getQubits_z, Except.ok.injEq] at e10
    rw [ht.grid.getQubits_x, Except.ok.injEq] at e12
    rw [hc.grid.getQubits_anc, Except.ok.injEq] at e13
    rw [ht.grid.getQubits_anc, Except.ok.injEq] at e14
    subst e3 e4 e7 e8 e10 e12 e13 e14
    rcases chooseMap_some e2 with h | ⟨hmem, c0, rest, base, hct, ho, hp⟩
    · simp at h
    have hmono := mt.sound _ _ ct hmem
    have htw := parallel_twins hc ht hs hn hmono hct ho hp
    obtain ⟨p1, p2⟩ := hmono.perm_keys hc.grid ht.grid hs
    have hvN : (ct.map Prod.snd).Nodup := p2.nodup_iff.2 ht.grid.labels
    -- the maps
    have hget : ∀ q e, ct.get? q = some e → ∃ s k, (q, s, k) ∈ Lc ∧ (e, s, k) ∈ Lt := fun q e h =>
      htw q e (Dict.mem_of_get? h)
    have hinv : ∀ q e, (ct.foldl (fun acc kv => Dict.set acc kv.2 kv.1) []).get? q = some e → q ∈ Lt.map Prod.fst →
        ∃ s k, (e, s, k) ∈ Lc ∧ (q, s, k) ∈ Lt := by
      intro q e h hq
      obtain ⟨⟨c, t⟩, hm, he⟩ := List.mem_map.1 (p2.mem_iff.2 hq)
      simp only at he
      subst he
      rw [get?_inverse hvN [] hm, Option.some.injEq] at h
      subst h
      exact htw _ _ hm
    -- the stores
    obtain ⟨t1, f1, rfl⟩ : ∃ lx, storeCnot label ct (o.ord (Blocks.setOf (labelsOf Lc fun k => k = .data))) lc = (.ok (), lx) ∧
        s1 = (lx, lt) := by
      unfold onC at e5
      cases hx : storeCnot label ct (o.ord (Blocks.setOf (labelsOf Lc fun k => k = .data))) lc with
      | mk a b => simp only [hx, Prod.mk.injEq] at e5; exact ⟨b, by rw [e5.1], e5.2.symm⟩
    obtain ⟨t2, f2, rfl⟩ : ∃ lx, storeCnot label (ct.foldl (fun acc kv => Dict.set acc kv.2 kv.1) [])
        (o.ord (Blocks.setOf (labelsOf Lt fun k => k = .data))) lt = (.ok (), lx) ∧ s2 = (t1, lx) := by
      unfold onT at e6
      cases hx : storeCnot label (ct.foldl (fun acc kv => Dict.set acc kv.2 kv.1) [])
        (o.ord (Blocks.setOf (labelsOf Lt fun k => k = .data))) lt with
      | mk a b => simp only [hx, Prod.mk.injEq] at e6; exact ⟨b, by rw [e6.1], e6.2.symm⟩
    obtain ⟨t3, f3, rfl⟩ : ∃ lx, storeAnc label (keepStabs (labelsOf Lt fun k => k = .x) new2) (labelsOf Lc fun k => k ≠ .data) t1 =
        (.ok (), lx) ∧ s3 = (lx, t2) := by
      unfold onC at e15
      cases hx : storeAnc label (keepStabs (labelsOf Lt fun k => k = .x) new2) (labelsOf Lc fun k => k ≠ .data) t1 with
      | mk a b => simp only [hx, Prod.mk.injEq] at e15; exact ⟨b, by rw [e15.1], e15.2.symm⟩
    obtain ⟨f4, rfl⟩ : storeAnc label (keepStabs (labelsOf Lt fun k => k = .x) new2) (labelsOf Lt fun k => k ≠ .data) t2 =
        (.ok (), lt') ∧ t3 = lc' := by
      unfold onT at e
      cases hx : storeAnc label (keepStabs (labelsOf Lt fun k => k = .x) new2) (labelsOf Lt fun k => k ≠ .data) t2 with
      | mk a b => simp only [hx, Prod.mk.injEq] at e; exact ⟨by rw [e.1, e.2.2], e.2.1⟩
    obtain ⟨g1, g2, g3⟩ := storeCnot_ok hgl f1
    obtain ⟨g4, g5, g6⟩ := storeCnot_ok hgl f2
    obtain ⟨g7, g8, g9⟩ := storeAnc_ok hgl f3
    obtain ⟨g10, g11, g12⟩ := storeAnc_ok hgl f4
    obtain ⟨n1, n2⟩ := addStabs_ok e9
    obtain ⟨n3, n4⟩ := addStabs_ok e11
    have notC : ∀ {q s k}, (q, s, k) ∈ Lc → ∀ p, q ∉ labelsOf Lt p := fun {q s k} hq p h => by
      obtain ⟨s', k', h', -⟩ := mem_labelsOf.1 h
      exact hdis q (List.mem_map.2 ⟨_, hq, rfl⟩) (List.mem_map.2 ⟨_, h', rfl⟩)
    have notT : ∀ {q s k}, (q, s, k) ∈ Lt → ∀ p, q ∉ labelsOf Lc p := fun {q s k} hq p h => by
      obtain ⟨s', k', h', -⟩ := mem_labelsOf.1 h
      exact hdis q (List.mem_map.2 ⟨_, h', rfl⟩) (List.mem_map.2 ⟨_, hq, rfl⟩)
    refine ⟨WithParams.trans g1 g7, WithParams.trans g4 g10, fun p q hp => ?_, ?_, ?_, ?_, ?_, ?_, ?_⟩
    · rw [g9 _ _ fun h => absurd h hp, g3 _ _ fun h => absurd h hp, g12 _ _ fun h => absurd h hp, g6 _ _ fun h => absurd h hp]
      exact ⟨rfl, rfl⟩
    · intro d s hd
      obtain ⟨e, k1, k2⟩ := g2 d (by rw [mem_ord, mem_setOf]; exact mem_labelsOf.2 ⟨s, _, hd, by simp⟩)
      obtain ⟨s', k', k3, k4⟩ := hget d e k1
      obtain ⟨rfl, rfl⟩ := hc.grid.unique hd k3
      refine ⟨e, k4, ?_⟩
      rw [g9 _ _ fun _ hm => ?_]
      · exact k2
      · obtain ⟨_, _, h6, h7⟩ := mem_labelsOf.1 hm
        exact absurd (hc.grid.unique hd h6).2.symm (by simpa using h7)
    · intro d s hd
      obtain ⟨e, k1, k2⟩ := g5 d (by rw [mem_ord, mem_setOf]; exact mem_labelsOf.2 ⟨s, _, hd, by simp⟩)
      obtain ⟨s', k', k3, k4⟩ := hinv d e k1 (List.mem_map.2 ⟨_, hd, rfl⟩)
      obtain ⟨rfl, rfl⟩ := ht.grid.unique hd k4
      refine ⟨e, k3, ?_⟩
      rw [g12 _ _ fun _ hm => ?_]
      · exact k2
      · obtain ⟨_, _, h6, h7⟩ := mem_labelsOf.1 hm
        exact absurd (ht.grid.unique hd h6).2.symm (by simpa using h7)
    · intro x s hx
      obtain ⟨g, k1, k2⟩ := g8 x (mem_labelsOf.2 ⟨s, _, hx, by simp⟩)
      rw [get?_keepStabs, if_neg (notC hx _), n4 x (notC hx _)] at k1
      obtain ⟨y, k3, k4⟩ := n1 x (mem_labelsOf.2 ⟨s, _, hx, by simp⟩)
      rw [k4, Option.some.injEq] at k1
      subst k1
      obtain ⟨s', k', k5, k6⟩ := hget x y k3
      obtain ⟨rfl, rfl⟩ := hc.grid.unique hx k5
      exact ⟨y, k6, k2⟩
    · intro z s hz
      obtain ⟨g, k1, k2⟩ := g8 z (mem_labelsOf.2 ⟨s, _, hz, by simp⟩)
      rw [get?_keepStabs, if_neg (notC hz _), n4 z (notC hz _), n2 z, get?_keepStabs, if_pos, Option.some.injEq] at k1
      · subst k1
        exact k2
      · exact mem_labelsOf.2 ⟨s, _, hz, by simp⟩
      · intro hm
        obtain ⟨_, _, h6, h7⟩ := mem_labelsOf.1 hm
        have := (hc.grid.unique hz h6).2
        subst this
        simp at h7
    · intro x s hx
      obtain ⟨g, k1, k2⟩ := g11 x (mem_labelsOf.2 ⟨s, _, hx, by simp⟩)
      rw [get?_keepStabs, if_pos, Option.some.injEq] at k1
      · subst k1
        exact k2
      · exact mem_labelsOf.2 ⟨s, _, hx, by simp⟩
    · intro z s hz
      obtain ⟨g, k1, k2⟩ := g11 z (mem_labelsOf.2 ⟨s, _, hz, by simp⟩)
      obtain ⟨y, k3, k4⟩ := n3 z (mem_labelsOf.2 ⟨s, _, hz, by simp⟩)
      rw [get?_keepStabs, if_neg, k4, Option.some.injEq] at k1
      · subst k1
        obtain ⟨s', k', k5, k6⟩ := hinv z y k3 (List.mem_map.2 ⟨_, hz, rfl⟩)
        obtain ⟨rfl, rfl⟩ := ht.grid.unique hz k6
        exact ⟨y, k5, k2⟩
      · intro hm
        obtain ⟨_, _, h6, h7⟩ := mem_labelsOf.1 hm
        have := (ht.grid.unique hz h6).2
        subst this
        simp at h7

/-- `set_trans_cnot` returns. -/
theorem setTransCnot_exists (hc : Placed lc Lc dirs oc) (ht : Placed lt Lt dirs ot) (hs : Lc.map Prod.snd = Lt.map Prod.snd)
    (hne : Lc ≠ []) {A B : String} (hA : lc.logQubits = [A]) (hB : lt.logQubits = [B]) {code : String}
    (h1 : lc.code = code) (h2 : lt.code = code) (h3 : lc.distanceX = lt.distanceX) (h4 : lc.distanceZ = lt.distanceZ)
    (h5 : Layout.checkOverlap [lc, lt] = .ok ()) (mt : Matcher) (o : SetOrder) :
    ∃ s, setTransCnot code mt o (lc, lt) = (.ok (), s) := by
  obtain ⟨m1, ct, e2⟩ := chooseMap_exists hc ht hs hne mt
  rcases chooseMap_some e2 with h | ⟨hmem, -⟩
  · simp at h
  have hmono := mt.sound _ _ ct hmem
  obtain ⟨p1, p2⟩ := hmono.perm_keys hc.grid ht.grid hs
  have hvN : (ct.map Prod.snd).Nodup := p2.nodup_iff.2 ht.grid.labels
  have hct : ∀ q ∈ Lc.map Prod.fst, ∃ e, ct.get? q = some e := fun q hq =>
    Option.isSome_iff_exists.1 ((Dict.get?_isSome_iff _ _).2 (p1.mem_iff.2 hq))
  have htc : ∀ q ∈ Lt.map Prod.fst, ∃ e, (ct.foldl (fun acc kv => Dict.set acc kv.2 kv.1) [] : Dict String String).get? q = some e := by
    intro q hq
    obtain ⟨⟨c, t⟩, hm, he⟩ := List.mem_map.1 (p2.mem_iff.2 hq)
    simp only at he
    subst he
    exact ⟨_, get?_inverse hvN [] hm⟩
  have lab : ∀ {L : List (String × Site × Kind)} {p : Kind → Prop} [DecidablePred p] {q : String}, q ∈ labelsOf L p → q ∈ L.map Prod.fst := by
    intro L p _ q hq
    obtain ⟨s, k, h, -⟩ := mem_labelsOf.1 hq
    exact List.mem_map.2 ⟨_, h, rfl⟩
  obtain ⟨l1, f1, k1⟩ := storeCnot_exists (label := "trans-cnot_" ++ A ++ "_" ++ B) (mp := ct)
    (data := o.ord (Blocks.setOf (labelsOf Lc fun k => k = .data))) (l := lc) fun q hq => by
      rw [mem_ord, mem_setOf] at hq
      exact ⟨by rw [hc.grid.keys]; exact lab hq, hct q (lab hq)⟩
  obtain ⟨l2, f2, k2⟩ := storeCnot_exists (label := "trans-cnot_" ++ A ++ "_" ++ B)
    (mp := ct.foldl (fun acc kv => Dict.set acc kv.2 kv.1) [])
    (data := o.ord (Blocks.setOf (labelsOf Lt fun k => k = .data))) (l := lt) fun q hq => by
      rw [mem_ord, mem_setOf] at hq
      exact ⟨by rw [ht.grid.keys]; exact lab hq, htc q (lab hq)⟩
  obtain ⟨new1, e9⟩ := addStabs_exists (mp := ct) (as := labelsOf Lc fun k => k = .x)
    (keepStabs (labelsOf Lc fun k => k = .z) []) fun q hq => hct q (lab hq)
  obtain ⟨new2, e11⟩ := addStabs_exists (mp := ct.foldl (fun acc kv => Dict.set acc kv.2 kv.1) [])
    (as := labelsOf Lt fun k => k = .z) new1 fun q hq => htc q (lab hq)
  obtain ⟨n1, n2⟩ := addStabs_ok e9
  obtain ⟨n3, n4⟩ := addStabs_ok e11
  have hdis := overlap_labels hc.grid ht.grid h5
  obtain ⟨l3, f3, k3⟩ := storeAnc_exists (label := "trans-cnot_" ++ A ++ "_" ++ B)
    (new := keepStabs (labelsOf Lt fun k => k = .x) new2) (anc := labelsOf Lc fun k => k ≠ .data) (l := l1) fun q hq => by
      refine ⟨by rw [k1, hc.grid.keys]; exact lab hq, ?_⟩
      obtain ⟨s, k, h, hk⟩ := mem_labelsOf.1 hq
      rw [get?_keepStabs, if_neg fun h' => hdis q (lab hq) (lab h'), n4 q fun h' => hdis q (lab hq) (lab h')]
      by_cases hx : q ∈ labelsOf Lc fun k => k = .x
      · obtain ⟨b, -, h⟩ := n1 q hx
        exact ⟨_, h⟩
      · rw [n2 q hx, get?_keepStabs, if_pos]
        · exact ⟨_, rfl⟩
        · refine mem_labelsOf.2 ⟨s, k, h, ?_⟩
          cases k
          · simp at hk
          · exact absurd (mem_labelsOf.2 ⟨s, _, h, by simp⟩) hx
          · simp
  obtain ⟨l4, f4, k4⟩ := storeAnc_exists (label := "trans-cnot_" ++ A ++ "_" ++ B)
    (new := keepStabs (labelsOf Lt fun k => k = .x) new2) (anc := labelsOf Lt fun k => k ≠ .data) (l := l2) fun q hq => by
      refine ⟨by rw [k2, ht.grid.keys]; exact lab hq, ?_⟩
      obtain ⟨s, k, h, hk⟩ := mem_labelsOf.1 hq
      rw [get?_keepStabs]
      by_cases hx : q ∈ labelsOf Lt fun k => k = .x
      · exact ⟨_, if_pos hx⟩
      · rw [if_neg hx]
        obtain ⟨b, -, h⟩ := n3 q (by
          refine mem_labelsOf.2 ⟨s, k, h, ?_⟩
          cases k
          · simp at hk
          · exact absurd (mem_labelsOf.2 ⟨s, _, h, by simp⟩) hx
          · simp)
        exact ⟨_, h⟩
  refine ⟨(l3, l4), ?_⟩
  unfold setTransCnot storeTransCnot dataQubits stabQubits ancQubits
  rw [PyM.bind_ok (PyM.get_apply _)]
  have hms : ¬ (mt.all lc.graph lt.graph).isEmpty = true := by
    rw [List.isEmpty_iff]; exact m1
  simp only [h1, h2, h3, h4, ne_eq, not_true_eq_false, or_self, if_false, h5, cnotLabel_of hA hB, if_neg hms, e2,
    hc.grid.getQubits_data, hc.grid.getQubits_anc, hc.grid.getQubits_x, hc.grid.getQubits_z,
    ht.grid.getQubits_data, ht.grid.getQubits_anc, ht.grid.getQubits_x, ht.grid.getQubits_z, e9, e11,
    PyM.bind_ok (PyM.ofExcept_apply _ _)]
  simp only [Bind.bind, PyM.bind, PyM.ofExcept, onC, onT, f1, f2, e9, e11, f3, f4, Bool.false_eq_true, if_false]

end

end SurfaceSim
