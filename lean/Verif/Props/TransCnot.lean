/-
The transversal CNOT between two surface codes (C38).
-/
import Verif.Lemmas.CnotCodes
import Verif.Lemmas.Setup
import Verif.Lemmas.Witness

namespace SurfaceSim
open Spec NoiseModel Blocks LayoutLib LogGates

theorem get?_update_nodup {d e : Dict String (List String)} (he : e.keys.Nodup) (k : String) :
    (d.update e).get? k = (e.get? k).or (d.get? k) := by
  rw [Dict.get?_update]
  congr 1
  induction e with
  | nil => rfl
  | cons kv e ih =>
    obtain ⟨a, b⟩ := kv
    simp only [Dict.keys, List.map_cons, List.nodup_cons] at he
    rw [Dict.get?_cons]
    by_cases h : a = k
    · subst h
      have : e.filter (fun kv => decide (kv.1 = a)) = [] := by
        rw [List.filter_eq_nil_iff]
        intro kv hkv
        simp only [decide_eq_true_eq]
        rintro rfl
        exact he.1 (List.mem_map.2 ⟨_, hkv, rfl⟩)
      simp [this]
    · simp only [h, decide_false, Bool.false_eq_true, not_false_eq_true, List.filter_cons_of_neg, if_false]
      exact ih he.2

theorem hasCoords_of {l : Layout} {L : List (String × Site × Kind)} {dirs : List (Site × String)} {o : Vec} (h : Placed l L dirs o) :
    l.HasCoords := by
  intro q hq
  rw [h.grid.keys] at hq
  obtain ⟨⟨q, s, k⟩, hm, rfl⟩ := List.mem_map.1 hq
  exact ⟨_, h.coords q s k hm⟩

namespace Props

variable {code : String} {lc0 lt0 lc lt lc' lt' lc'' lt'' : Layout} {ac a_t : Args} {dx dz dx' dz' : Int} {mt : Matcher} {o : SetOrder}

/-- **C38** `set_trans_cnot` returns for all pairs of rotated (unrotated) codes of equal distances that have no labels,
indices, coordinates or logical labels in common, whatever the order in which networkx finds the matchings. -/
theorem C38_returns (hc : MadeBy code dx dz ac lc0) (ht : MadeBy code dx dz a_t lt0) (hwc : WithParams lc0 lc)
    (hwt : WithParams lt0 lt) (hx : 1 ≤ dx) (hz : 1 ≤ dz) (hd : Layout.DisjointFrom lc lt) (mt : Matcher) (o : SetOrder) :
    ∃ s, setTransCnot code mt o (lc, lt) = (.ok (), s) := by
  obtain ⟨Lc, Lt, dirs, oc, ot, hp⟩ := pair_of_made hc ht
  have h := hp lc lt hwc hwt
  refine setTransCnot_exists h.c h.t h.same (h.full hx hz) h.logC h.logT h.codeC h.codeT h.distX h.distZ ?_ mt o
  rw [C10_accepts_iff_disjoint]
  · exact Or.inr ⟨by simp [hasCoords_of h.c, hasCoords_of h.t], by simpa using hd⟩
  · simp [h.c.grid.reach, h.t.grid.reach]

/-- **C38** If it returns, the layouts are of the required family, have equal distances and nothing in common. -/
theorem C38_requires (hc : MadeBy code dx dz ac lc0) (ht : MadeBy code dx' dz' a_t lt0) (hwc : WithParams lc0 lc)
    (hwt : WithParams lt0 lt) {code' : String} (e : setTransCnot code' mt o (lc, lt) = (.ok (), (lc', lt'))) :
    code' = code ∧ dx = dx' ∧ dz = dz' ∧ Layout.DisjointFrom lc lt := by
  obtain ⟨h1, -, h3, h4, h5⟩ := setTransCnot_checks e
  rw [(made_distances hc hwc).1, (made_distances ht hwt).1] at h3
  rw [(made_distances hc hwc).2, (made_distances ht hwt).2] at h4
  subst h3 h4
  obtain ⟨Lc, Lt, dirs, oc, ot, hp⟩ := pair_of_made hc ht
  have h := hp lc lt hwc hwt
  rw [C10_accepts_iff_disjoint _ (by simp [h.c.grid.reach, h.t.grid.reach])] at h5
  refine ⟨h1.symm.trans h.codeC, rfl, rfl, ?_⟩
  rcases h5 with h5 | ⟨-, h5⟩
  · simp at h5
  · simpa using h5

/-- **C38** `set_trans_cnot` changes nothing but the parameter of the gate. -/
theorem C38_only_stores (hc : MadeBy code dx dz ac lc0) (ht : MadeBy code dx' dz' a_t lt0) (hwc : WithParams lc0 lc)
    (hwt : WithParams lt0 lt) (hn : CoordsNear lc lt) (e : setTransCnot code mt o (lc, lt) = (.ok (), (lc', lt'))) :
    WithParams lc lc' ∧ WithParams lt lt' ∧ ∀ p q, p ≠ "trans-cnot_" ++ ac.label ++ "_" ++ a_t.label →
      lc'.param p q = lc.param p q ∧ lt'.param p q = lt.param p q := by
  obtain ⟨Lc, Lt, dirs, oc, ot, -, -, -, h1, h2, h3⟩ := cnot_done hc ht hwc hwt hn e ⟨.refl, fun _ => rfl⟩ ⟨.refl, fun _ => rfl⟩
  exact ⟨h1, h2, h3⟩

/-- **C38** The stored pairs are a perfect matching between the data qubits of the two layouts. -/
theorem C38_matching (hc : MadeBy code dx dz ac lc0) (ht : MadeBy code dx' dz' a_t lt0) (hwc : WithParams lc0 lc)
    (hwt : WithParams lt0 lt) (hn : CoordsNear lc lt) (e : setTransCnot code mt o (lc, lt) = (.ok (), (lc', lt')))
    (hkc : KeptGate ("trans-cnot_" ++ ac.label ++ "_" ++ a_t.label) lc' lc'')
    (hkt : KeptGate ("trans-cnot_" ++ ac.label ++ "_" ++ a_t.label) lt' lt'') :
    (∀ d ∈ dataOfLayout lc'', ∃ e ∈ dataOfLayout lt'',
      partnerAt lc'' ("trans-cnot_" ++ ac.label ++ "_" ++ a_t.label) "cnot" d = some e ∧
      partnerAt lt'' ("trans-cnot_" ++ ac.label ++ "_" ++ a_t.label) "cnot" e = some d) ∧
    ∀ e ∈ dataOfLayout lt'', ∃ d ∈ dataOfLayout lc'',
      partnerAt lt'' ("trans-cnot_" ++ ac.label ++ "_" ++ a_t.label) "cnot" e = some d ∧
      partnerAt lc'' ("trans-cnot_" ++ ac.label ++ "_" ++ a_t.label) "cnot" d = some e := by
  obtain ⟨Lc, Lt, dirs, oc, ot, hp, hT, htab, -⟩ := cnot_done hc ht hwc hwt hn e hkc hkt
  have pc : ∀ d ∈ dataOf Lc, partnerAt lc'' ("trans-cnot_" ++ ac.label ++ "_" ++ a_t.label) "cnot" d = some (tw Lc Lt d) := by
    intro d hd
    unfold partnerAt gateAt
    rw [htab.param_c hT hd]
    simp [Dict.get?]
  have pt : ∀ d ∈ dataOf Lt, partnerAt lt'' ("trans-cnot_" ++ ac.label ++ "_" ++ a_t.label) "cnot" d = some (tw Lt Lc d) := by
    intro d hd
    unfold partnerAt gateAt
    rw [htab.param_t hT hd]
    simp [Dict.get?]
  rw [dataOfLayout_grid hT.c, dataOfLayout_grid hT.t]
  constructor
  · intro d hd
    obtain ⟨s, hs⟩ := mem_dataOf.1 hd
    have h1 : tw Lc Lt d ∈ dataOf Lt := mem_dataOf.2 ⟨s, hT.tw hs⟩
    exact ⟨_, h1, pc d hd, by rw [pt _ h1, hT.tw_tw hs]⟩
  · intro d hd
    obtain ⟨s, hs⟩ := mem_dataOf.1 hd
    have h1 : tw Lt Lc d ∈ dataOf Lc := mem_dataOf.2 ⟨s, hT.symm.tw hs⟩
    exact ⟨_, h1, pt d hd, by rw [pc _ h1, hT.symm.tw_tw hs]⟩

/-- **C38** The update of the generators is an involution modulo 2. -/
theorem C38_involution (hc : MadeBy code dx dz ac lc0) (ht : MadeBy code dx' dz' a_t lt0) (hwc : WithParams lc0 lc)
    (hwt : WithParams lt0 lt) (hn : CoordsNear lc lt) (e : setTransCnot code mt o (lc, lt) = (.ok (), (lc', lt')))
    (hkc : KeptGate ("trans-cnot_" ++ ac.label ++ "_" ++ a_t.label) lc' lc'')
    (hkt : KeptGate ("trans-cnot_" ++ ac.label ++ "_" ++ a_t.label) lt' lt'') :
    Involutive [lc'', lt''] ("trans-cnot_" ++ ac.label ++ "_" ++ a_t.label) := by
  obtain ⟨Lc, Lt, dirs, oc, ot, hp, hT, htab, -⟩ := cnot_done hc ht hwc hwt hn e hkc hkt
  exact htab.involutive hT

/-- **C38** The block `log_trans_cnot` maps every stabilizer of both codes to its stored new generator. -/
theorem C38_maps_stabilizers (hc : MadeBy code dx dz ac lc0) (ht : MadeBy code dx' dz' a_t lt0) (hwc : WithParams lc0 lc)
    (hwt : WithParams lt0 lt) (hn : CoordsNear lc lt) (e : setTransCnot code mt o (lc, lt) = (.ok (), (lc', lt')))
    (hkc : KeptGate ("trans-cnot_" ++ ac.label ++ "_" ++ a_t.label) lc' lc'')
    (hkt : KeptGate ("trans-cnot_" ++ ac.label ++ "_" ++ a_t.label) lt' lt'') (nm : NoiseModel) (hrc : CanRun nm lc'')
    (hrt : CanRun nm lt'') (o' : SetOrder) :
    AppliesGate nm [lc'', lt''] ("trans-cnot_" ++ ac.label ++ "_" ++ a_t.label) (sumGen (transCnotIter o' nm lc'' lt'')) := by
  obtain ⟨Lc, Lt, dirs, oc, ot, hp, hT, htab, -⟩ := cnot_done hc ht hwc hwt hn e hkc hkt
  exact applies_transCnot hT hrc hrt o' (by rw [hp.codeC]; exact hp.isCode) (by rw [hp.codeT]; exact hp.isCode)
    (cnotLabel_of hp.logC hp.logT) htab

/-- **C38** The images of the stabilizers have sign +. -/
theorem C38_signs (hc : MadeBy code dx dz ac lc0) (ht : MadeBy code dx' dz' a_t lt0) (hwc : WithParams lc0 lc)
    (hwt : WithParams lt0 lt) (hn : CoordsNear lc lt) (e : setTransCnot code mt o (lc, lt) = (.ok (), (lc', lt')))
    (hkc : KeptGate ("trans-cnot_" ++ ac.label ++ "_" ++ a_t.label) lc' lc'')
    (hkt : KeptGate ("trans-cnot_" ++ ac.label ++ "_" ++ a_t.label) lt' lt'') (nm : NoiseModel) (hrc : CanRun nm lc'')
    (hrt : CanRun nm lt'') (o' : SetOrder) : ∀ l ∈ [lc'', lt''], ∀ x ∈ ancOfLayout l,
    MapsSigned nm [lc'', lt''] ("trans-cnot_" ++ ac.label ++ "_" ++ a_t.label) (sumGen (transCnotIter o' nm lc'' lt'')) l x 0 := by
  obtain ⟨Lc, Lt, dirs, oc, ot, hp, hT, htab, -⟩ := cnot_done hc ht hwc hwt hn e hkc hkt
  intro l hl x hx
  exact signed_transCnot hT hrc hrt o' (by rw [hp.codeC]; exact hp.isCode) (by rw [hp.codeT]; exact hp.isCode)
    (cnotLabel_of hp.logC hp.logT) htab (by simpa using hl) hx

/-- **C38** The block is a logical CNOT: it maps the logical X of the control to the product of both logical X, the
logical Z of the target to the product of both logical Z, and keeps the others; all with sign +. -/
theorem C38_maps_logicals (hc : MadeBy code dx dz ac lc0) (ht : MadeBy code dx' dz' a_t lt0) (hwc : WithParams lc0 lc)
    (hwt : WithParams lt0 lt) (hn : CoordsNear lc lt) (e : setTransCnot code mt o (lc, lt) = (.ok (), (lc', lt')))
    (hkc : KeptGate ("trans-cnot_" ++ ac.label ++ "_" ++ a_t.label) lc' lc'')
    (hkt : KeptGate ("trans-cnot_" ++ ac.label ++ "_" ++ a_t.label) lt' lt'') (hx : 1 ≤ dx) (hz : 1 ≤ dz) (nm : NoiseModel)
    (hrc : CanRun nm lc'') (hrt : CanRun nm lt'') (o' : SetOrder) :
    MapsLogicalSigned nm [lc'', lt''] (sumGen (transCnotIter o' nm lc'' lt'')) lc'' ac.label true
      [(lc'', ac.label, true), (lt'', a_t.label, true)] 0 ∧
    MapsLogicalSigned nm [lc'', lt''] (sumGen (transCnotIter o' nm lc'' lt'')) lt'' a_t.label true [(lt'', a_t.label, true)] 0 ∧
    MapsLogicalSigned nm [lc'', lt''] (sumGen (transCnotIter o' nm lc'' lt'')) lc'' ac.label false [(lc'', ac.label, false)] 0 ∧
    MapsLogicalSigned nm [lc'', lt''] (sumGen (transCnotIter o' nm lc'' lt'')) lt'' a_t.label false
      [(lc'', ac.label, false), (lt'', a_t.label, false)] 0 := by
  obtain ⟨Lc, Lt, dirs, oc, ot, hp, hT, htab, -⟩ := cnot_done hc ht hwc hwt hn e hkc hkt
  obtain ⟨Xc, Zc, Xt, Zt, h1, h2, h3, h4, h5, h6⟩ := hp.logicals hx hz hT
  exact logicals_transCnot hT hrc hrt o' (by rw [hp.codeC]; exact hp.isCode) (by rw [hp.codeT]; exact hp.isCode)
    (cnotLabel_of hp.logC hp.logT) htab h1 h2 h3 h4 h5 h6

/-- **C38** The same for the values of the logical operators in frames. -/
theorem C38_frames (hc : MadeBy code dx dz ac lc0) (ht : MadeBy code dx' dz' a_t lt0) (hwc : WithParams lc0 lc)
    (hwt : WithParams lt0 lt) (hn : CoordsNear lc lt) (e : setTransCnot code mt o (lc, lt) = (.ok (), (lc', lt')))
    (hkc : KeptGate ("trans-cnot_" ++ ac.label ++ "_" ++ a_t.label) lc' lc'')
    (hkt : KeptGate ("trans-cnot_" ++ ac.label ++ "_" ++ a_t.label) lt' lt'') (hx : 1 ≤ dx) (hz : 1 ≤ dz) (nm : NoiseModel)
    (hrc : CanRun nm lc'') (hrt : CanRun nm lt'') (o' : SetOrder) :
    MapsLogical nm [lc'', lt''] (sumGen (transCnotIter o' nm lc'' lt'')) lc'' ac.label true
      [(lc'', ac.label, true), (lt'', a_t.label, true)] ∧
    MapsLogical nm [lc'', lt''] (sumGen (transCnotIter o' nm lc'' lt'')) lt'' a_t.label true [(lt'', a_t.label, true)] ∧
    MapsLogical nm [lc'', lt''] (sumGen (transCnotIter o' nm lc'' lt'')) lc'' ac.label false [(lc'', ac.label, false)] ∧
    MapsLogical nm [lc'', lt''] (sumGen (transCnotIter o' nm lc'' lt'')) lt'' a_t.label false
      [(lc'', ac.label, false), (lt'', a_t.label, false)] := by
  obtain ⟨Lc, Lt, dirs, oc, ot, hp, hT, htab, -⟩ := cnot_done hc ht hwc hwt hn e hkc hkt
  obtain ⟨Xc, Zc, Xt, Zt, h1, h2, h3, h4, h5, h6⟩ := hp.logicals hx hz hT
  exact frame_transCnot hT hrc hrt o' (by rw [hp.codeC]; exact hp.isCode) (by rw [hp.codeT]; exact hp.isCode)
    (cnotLabel_of hp.logC hp.logT) htab h1 h2 h3 h4 h5 h6

theorem keys_update_nodup {κ α : Type} [DecidableEq κ] (e d : Dict κ α) (h : d.keys.Nodup) : (d.update e).keys.Nodup := by
  induction e generalizing d with
  | nil => exact h
  | cons kv e ih =>
    rw [Dict.update, List.foldl_cons]
    exact ih _ (Dict.keys_nodup_set h _ _)

/-- The new generators of the detectors, as `log_trans_cnot` collects them. -/
theorem cnot_dict {Lc Lt : List (String × Site × Kind)} {dirs : List (Site × String)} {label : String}
    (hT : Twins lc lt Lc Lt dirs) (htab : CnotTable lc lt Lc Lt label) (hlab : cnotLabel lc lt = .ok label)
    (nm : NoiseModel) (o' : SetOrder) (cfg : Detectors.Config) :
    ∃ D : Dict String (List String), D.keys.Nodup ∧ (∀ l ∈ [lc, lt], ∀ x ∈ ancOfLayout l, D.get? x = some (newGen l label x)) ∧
      (∀ x, x ∈ D.keys ↔ ∃ l ∈ [lc, lt], x ∈ ancOfLayout l) ∧
      ∀ (m m' : MeasState) (s s' : Detectors.State cfg) (c : Circuit),
        transCnot o' nm lc lt (m, s) = (.ok c, (m', s')) ↔
        Detectors.updateFromDict D s = (.ok (), s') ∧ sumGen (transCnotIter o' nm lc lt) m = (.ok c, m') := by
  obtain ⟨Dc, h2, h3, h4⟩ := newStabDict_grid hT.c (label := label) fun x hx => by
    obtain ⟨s, k, hx, hk⟩ := mem_ancOf.1 hx
    cases k with
    | data => exact absurd rfl hk
    | x => obtain ⟨y, -, h⟩ := htab.xc x s hx; exact ⟨_, h⟩
    | z => exact ⟨_, htab.zc x s hx⟩
  obtain ⟨Dt, k2, k3, k4⟩ := newStabDict_grid hT.t (label := label) fun x hx => by
    obtain ⟨s, k, hx, hk⟩ := mem_ancOf.1 hx
    cases k with
    | data => exact absurd rfl hk
    | x => exact ⟨_, htab.xt x s hx⟩
    | z => obtain ⟨y, -, h⟩ := htab.zt x s hx; exact ⟨_, h⟩
  have hnc : Dc.keys.Nodup := by
    have h := h2
    unfold newStabDict ancQubits at h
    rw [hT.c.getQubits_anc] at h
    exact newStabLoop_nodup h (by simp [Dict.keys])
  have hnd : Dt.keys.Nodup := by
    have h := k2
    unfold newStabDict ancQubits at h
    rw [hT.t.getQubits_anc] at h
    exact newStabLoop_nodup h (by simp [Dict.keys])
  have hget : ∀ x, (Dc.update Dt).get? x = (Dt.get? x).or (Dc.get? x) := get?_update_nodup hnd
  refine ⟨Dc.update Dt, keys_update_nodup _ _ hnc, fun l hl x hx => ?_, fun x => ?_, fun m m' s s' c => ?_⟩
  · simp only [List.mem_cons, List.not_mem_nil, or_false] at hl
    rcases hl with rfl | rfl
    · have : Dt.get? x = none := by
        rw [Dict.get?_eq_none_iff, k4]
        rw [ancOfLayout_grid hT.c] at hx
        rw [ancOfLayout_grid hT.t]
        obtain ⟨s, k, hx, -⟩ := mem_ancOf.1 hx
        exact hT.notAnc hx
      rw [hget, this, h3 x hx]
      rfl
    · rw [hget, k3 x hx]
      rfl
  · rw [← Dict.get?_isSome_iff, hget, Option.isSome_or, Bool.or_eq_true, Dict.get?_isSome_iff, Dict.get?_isSome_iff, h4, k4]
    simp [or_comm]
  · rw [← gateBlock_iff]
    unfold transCnot
    rw [hlab, PyM.bind_ok (PyM.ofExcept_apply _ _), h2, PyM.bind_ok (PyM.ofExcept_apply _ _), k2,
      PyM.bind_ok (PyM.ofExcept_apply _ _)]
    rfl

/-- **C38** `log_trans_cnot` returns the circuit of the block and updates the detectors with the stored new generators
of the ancillas of both layouts. -/
theorem C38_updates_detectors (hc : MadeBy code dx dz ac lc0) (ht : MadeBy code dx' dz' a_t lt0) (hwc : WithParams lc0 lc)
    (hwt : WithParams lt0 lt) (hn : CoordsNear lc lt) (e : setTransCnot code mt o (lc, lt) = (.ok (), (lc', lt')))
    (hkc : KeptGate ("trans-cnot_" ++ ac.label ++ "_" ++ a_t.label) lc' lc'')
    (hkt : KeptGate ("trans-cnot_" ++ ac.label ++ "_" ++ a_t.label) lt' lt'') (nm : NoiseModel) (o' : SetOrder)
    (cfg : Detectors.Config) :
    ∃ D, (∀ l ∈ [lc'', lt''], ∀ x ∈ ancOfLayout l,
        D.get? x = some (newGen l ("trans-cnot_" ++ ac.label ++ "_" ++ a_t.label) x)) ∧
      (∀ x, x ∈ D.keys ↔ ∃ l ∈ [lc'', lt''], x ∈ ancOfLayout l) ∧
      ∀ (m m' : MeasState) (s s' : Detectors.State cfg) (c : Circuit),
        transCnot o' nm lc'' lt'' (m, s) = (.ok c, (m', s')) ↔
        Detectors.updateFromDict D s = (.ok (), s') ∧ sumGen (transCnotIter o' nm lc'' lt'') m = (.ok c, m') := by
  obtain ⟨Lc, Lt, dirs, oc, ot, hp, hT, htab, -⟩ := cnot_done hc ht hwc hwt hn e hkc hkt
  obtain ⟨D, -, h⟩ := cnot_dict hT htab (cnotLabel_of hp.logC hp.logT) nm o' cfg
  exact ⟨D, h⟩

/-! ### A concrete case -/

open Classical in
/-- A matcher that lists all monomorphisms. -/
noncomputable def matcher : Matcher where
  all g₁ g₂ := ((g₁.nodes.keys.product g₂.nodes.keys).dedup.sublists).filter fun m => decide (Mono g₁ g₂ m)
  sound := by
    intro g₁ g₂ m hm
    simpa using (List.mem_filter.1 hm).2
  complete := by
    intro g₁ g₂ m hm
    have hn : m.Nodup := List.Nodup.of_map Prod.fst hm.keys
    have hp : ((g₁.nodes.keys.product g₂.nodes.keys).dedup.filter fun x => decide (x ∈ m)).Perm m := by
      rw [List.perm_ext_iff_of_nodup ((List.nodup_dedup _).filter _) hn]
      rintro ⟨x, y⟩
      simp only [List.mem_filter, List.mem_dedup, decide_eq_true_eq, and_iff_right_iff_imp]
      intro h
      exact List.mem_product.2 ⟨hm.dom x (List.mem_map.2 ⟨_, h, rfl⟩), hm.onto.mem_iff.1 (List.mem_map.2 ⟨_, h, rfl⟩)⟩
    refine ⟨_, List.mem_filter.2 ⟨List.mem_sublists.2 List.filter_sublist, ?_⟩, hp⟩
    rw [decide_eq_true_eq]
    refine ⟨(hp.map Prod.fst).nodup_iff.2 hm.keys, fun a ha => hm.dom a ((hp.map Prod.fst).mem_iff.1 ha),
      (hp.map Prod.snd).trans hm.onto, fun a b a' b' h h' => hm.edges a b a' b' (hp.mem_iff.1 h) (hp.mem_iff.1 h')⟩

theorem canRun_made {nm : NoiseModel} {a : Args} {l0 l l' : Layout} (h : MadeBy code dx dz a l0) (hw : WithParams l0 l)
    (hw' : WithParams l l') (hr : CanRun nm l) : CanRun nm l' := by
  obtain ⟨L, _, dirs, o, _, hp⟩ := pair_of_made h h
  refine ⟨hr.faithful, hr.inj, fun qs hqs q hq => hr.known qs ?_ q hq⟩
  rw [← hqs, (hp l l hw hw).c.grid.getQubits_all, (hp l' l' (WithParams.trans hw hw') (WithParams.trans hw hw')).c.grid.getQubits_all]

/-- Coordinates of two layouts compared entry by entry. -/
def nearCheck (lc lt : Layout) : Bool :=
  lc.graph.nodes.keys.all fun q => lt.graph.nodes.keys.all fun q' =>
    match lc.getCoords [q], lt.getCoords [q'] with
    | .ok [[u, v]], .ok [[u', v']] => decide (|u' - u| < 99999) && decide (|v' - v| < 99999)
    | _, _ => true

theorem node_of_coords {l : Layout} {q : String} {cs : List (List Rat)} (h : l.getCoords [q] = .ok cs) :
    q ∈ l.graph.nodes.keys := by
  unfold Layout.getCoords at h
  split at h
  · simp at h
  · simp only [mapExcept, Layout.coordOf] at h
    cases h1 : l.qubitCoords.getE q with
    | error e => simp [h1] at h
    | ok v =>
      have := Dict.mem_of_get? ((Dict.getE_ok_iff ..).1 h1)
      unfold Layout.qubitCoords at this
      obtain ⟨n, hn, hv⟩ := List.mem_filterMap.1 this
      cases hc : n.2.get? "coords" with
      | none => simp [hc] at hv
      | some c =>
        simp only [hc, Option.map_some, Option.some.injEq, Prod.mk.injEq] at hv
        exact List.mem_map.2 ⟨n, hn, hv.1⟩

theorem coordsNear_of {lc lt : Layout} (h : nearCheck lc lt = true) : CoordsNear lc lt := by
  intro q q' u v u' v' h1 h2
  unfold nearCheck at h
  have := List.all_eq_true.1 (List.all_eq_true.1 h q (node_of_coords h1)) q' (node_of_coords h2)
  rw [h1, h2] at this
  simpa using this

/-- A second rotated code, to the right of the default one. -/
def secondArgs : Args := ⟨"L1", (11, 1), 10, 10, 10, 20⟩

/-- The noiseless model for both. -/
def noiselessBoth (lc lt : Layout) : NoiseModel :=
  noiseless ((lc.qubitInds.map fun kv => (kv.1, kv.2.toNat)) ++ lt.qubitInds.map fun kv => (kv.1, kv.2.toNat))

/-- The first layout of the example. -/
def firstCode : Layout := layoutOf (rotSurfaceCodeRectangle 2 3 rotDefault)

/-- The second layout of the example. -/
def secondCode : Layout := layoutOf (rotSurfaceCodeRectangle 2 3 secondArgs)

theorem getQubits_nil {l : Layout} {qs : List String} (h : l.getQubits [] = .ok qs) : qs = l.graph.nodes.keys := by
  simpa [Layout.getQubits, eq_comm] using h

example (o o' : SetOrder) : ∃ lc lt lc' lt' : Layout, MadeBy "rotated_surface_code" 2 3 rotDefault lc ∧
    MadeBy "rotated_surface_code" 2 3 secondArgs lt ∧ CoordsNear lc lt ∧ Layout.DisjointFrom lc lt ∧
    CanRun (noiselessBoth lc lt) lc' ∧ CanRun (noiselessBoth lc lt) lt' ∧
    setTransCnot "rotated_surface_code" matcher o (lc, lt) = (.ok (), (lc', lt')) ∧
    "D6" ∈ dataOfLayout lc' ∧ "X2" ∈ ancOfLayout lc' ∧
    AppliesGate (noiselessBoth lc lt) [lc', lt'] "trans-cnot_L0_L1" (sumGen (transCnotIter o' (noiselessBoth lc lt) lc' lt')) := by
  have h1 : rotSurfaceCodeRectangle 2 3 rotDefault = .ok firstCode :=
    ok_layoutOf (by decide +kernel)
  have h2 : rotSurfaceCodeRectangle 2 3 secondArgs = .ok secondCode :=
    ok_layoutOf (by decide +kernel)
  have m1 : MadeBy "rotated_surface_code" 2 3 rotDefault _ := Or.inl ⟨rfl, h1⟩
  have m2 : MadeBy "rotated_surface_code" 2 3 secondArgs _ := Or.inl ⟨rfl, h2⟩
  have hn : CoordsNear firstCode secondCode :=
    coordsNear_of (by decide +kernel)
  have hd : Layout.DisjointFrom firstCode secondCode := by
    obtain ⟨_, _, _, _, _, hp⟩ := pair_of_made m1 m2
    have hp := hp _ _ .refl .refl
    have := (C10_accepts_iff_disjoint [firstCode, secondCode]
      (by simp [hp.c.grid.reach, hp.t.grid.reach])).1 (by decide +kernel)
    rcases this with h | ⟨-, h⟩
    · simp at h
    · simpa using h
  obtain ⟨⟨lc', lt'⟩, e⟩ := C38_returns m1 m2 .refl .refl (by omega) (by omega) hd matcher o
  obtain ⟨w1, w2, -⟩ := C38_only_stores m1 m2 .refl .refl hn e
  have r1 : CanRun (noiselessBoth firstCode secondCode)
      firstCode := by
    refine ⟨(C34_noiseless _).toFaithful, by decide +kernel, fun qs hqs => ?_⟩
    rw [getQubits_nil hqs]
    decide +kernel
  have r2 : CanRun (noiselessBoth firstCode secondCode)
      secondCode := by
    refine ⟨(C34_noiseless _).toFaithful, by decide +kernel, fun qs hqs => ?_⟩
    rw [getQubits_nil hqs]
    decide +kernel
  have r1' := canRun_made m1 .refl w1 r1
  have r2' := canRun_made m2 .refl w2 r2
  obtain ⟨L, _, _, _, _, hp⟩ := pair_of_made m1 m1
  have e0 := (hp _ _ .refl .refl).c.grid
  have e1 := (hp _ _ w1 w1).c.grid
  refine ⟨_, _, lc', lt', m1, m2, hn, hd, r1', r2', e, ?_, ?_,
    C38_maps_stabilizers m1 m2 .refl .refl hn e ⟨.refl, fun _ => rfl⟩ ⟨.refl, fun _ => rfl⟩ _ r1' r2' o'⟩
  · rw [dataOfLayout_grid e1, ← dataOfLayout_grid e0]; decide +kernel
  · rw [ancOfLayout_grid e1, ← ancOfLayout_grid e0]; decide +kernel

/-! ### Layouts far apart -/

theorem chooseMap_append {lc lt : Layout} {ms ms' : List (Dict String String)} {acc r : Option (Dict String String)}
    (h : chooseMap lc lt ms acc = .ok r) : chooseMap lc lt (ms ++ ms') acc = chooseMap lc lt ms' r := by
  induction ms generalizing acc with
  | nil =>
    unfold chooseMap at h
    rw [← Except.ok.inj h]
    rfl
  | cons m ms ih =>
    cases m with
    | nil => simp [chooseMap] at h
    | cons ct rest =>
      simp only [chooseMap] at h
      simp only [List.cons_append, chooseMap]
      cases h1 : offset lc lt ct with
      | error e => simp [h1] at h
      | ok base =>
        cases h2 : parallel lc lt base (ct :: rest) with
        | error e => simp [h1, h2] at h
        | ok b =>
          simp only [h1, h2] at h ⊢
          exact ih h

/-- A code far away from the default unrotated one. -/
def farArgs : Args := ⟨"L1", (1000000, 1000000), 11, 11, 11, 20⟩

/-- The near layout. -/
def nearCode : Layout := layoutOf (unrotSurfaceCode 2 unrotDefault)

/-- The far layout. -/
def farCode : Layout := layoutOf (unrotSurfaceCode 2 farArgs)

/-- The reflection of a code of distance 2 exchanges the X and the Z ancillas. -/
def reflected : Dict String String :=
  [("D1", "D11"), ("X1", "Z11"), ("D2", "D14"), ("Z1", "X11"), ("D3", "D13"), ("Z2", "X12"), ("D4", "D12"), ("X2", "Z12"),
    ("D5", "D15")]

theorem mono_reflected : Mono nearCode.graph farCode.graph reflected where
  keys := by decide +kernel
  dom := by decide +kernel
  onto := by decide +kernel
  edges a b a' b' h h' := by
    have : ∀ p ∈ reflected, ∀ p' ∈ reflected, ((farCode.graph.adj.get? p.2).getD []).has p'.2 = true →
        ((nearCode.graph.adj.get? p.1).getD []).has p'.1 = true := by decide +kernel
    exact this _ h _ h'

open Classical in
/-- A matcher that finds the reflection last. -/
noncomputable def matcherFar : Matcher where
  all g₁ g₂ := matcher.all g₁ g₂ ++ if Mono g₁ g₂ reflected then [reflected] else []
  sound := by
    intro g₁ g₂ m hm
    rcases List.mem_append.1 hm with hm | hm
    · exact matcher.sound _ _ _ hm
    · split at hm
      · rename_i h
        rw [List.mem_singleton.1 hm]
        exact h
      · simp at hm
  complete := by
    intro g₁ g₂ m hm
    obtain ⟨m', h, hp⟩ := matcher.complete _ _ m hm
    exact ⟨m', List.mem_append_left _ h, hp⟩

/-- What is stored for the reflection. -/
def farResult : Except Err Unit × (Layout × Layout) :=
  storeTransCnot SetOrder.insertion "trans-cnot_L0_L1" nearCode farCode reflected (nearCode, farCode)

theorem triple_eq {α β γ : Type} {r : α × (β × γ)} {a : α} (h : r.1 = a) : r = (a, (r.2.1, r.2.2)) := by
  rw [← h]

theorem far_returns : farResult = (.ok (), (farResult.2.1, farResult.2.2)) := triple_eq (by decide +kernel)

/-- The circuit of the block. -/
def farCircuit : Circuit :=
  result (sumGen (transCnotIter SetOrder.insertion (noiselessBoth nearCode farCode) farResult.2.1 farResult.2.2))
    (MeasState.fresh (noiselessBoth nearCode farCode).inds)

/-- A frame with a Z at one data qubit of the target. -/
def farFrame : FState Nat :=
  ⟨fun _ => 0, fun q => if q = ind (noiselessBoth nearCode farCode).inds "D11" then 1 else 0, [], [], [], 0⟩

theorem result_eq {b : PyM MeasState Circuit} {s s' : MeasState} {c : Circuit} (h : b s = (.ok c, s')) : result b s = c := by
  simp [result, h]

theorem far_anc : "X1" ∈ ancOfLayout farResult.2.1 := by decide +kernel

theorem far_differs : stabValue (ind (noiselessBoth nearCode farCode).inds) [farResult.2.1, farResult.2.2]
      (run (fun _ => 0) farFrame (ops farCircuit)) "X1" ≠
    ((newGen farResult.2.1 "trans-cnot_L0_L1" "X1").map
      (stabValue (ind (noiselessBoth nearCode farCode).inds) [farResult.2.1, farResult.2.2] farFrame)).sum := by
  decide +kernel

/-- **C38** Without the bound on the coordinates it is false: the relative tolerance of `np.allclose` makes all maps
parallel for layouts that are far apart, and with a reflection the stored generators are not those of the gate. -/
theorem C38_far_wrong : ∃ (mt : Matcher) (lc lt lc' lt' : Layout), MadeBy "unrotated_surface_code" 2 2 unrotDefault lc ∧
    MadeBy "unrotated_surface_code" 2 2 farArgs lt ∧ Layout.DisjointFrom lc lt ∧
    setTransCnot "unrotated_surface_code" mt SetOrder.insertion (lc, lt) = (.ok (), (lc', lt')) ∧
    ¬ AppliesGate (noiselessBoth lc lt) [lc', lt'] "trans-cnot_L0_L1"
      (sumGen (transCnotIter SetOrder.insertion (noiselessBoth lc lt) lc' lt')) := by
  have m1 : MadeBy "unrotated_surface_code" 2 2 unrotDefault nearCode := Or.inr ⟨rfl, ok_layoutOf (by decide +kernel)⟩
  have m2 : MadeBy "unrotated_surface_code" 2 2 farArgs farCode := Or.inr ⟨rfl, ok_layoutOf (by decide +kernel)⟩
  obtain ⟨_, _, _, _, _, hp⟩ := pair_of_made m1 m2
  have hp := hp _ _ .refl .refl
  have ho : Layout.checkOverlap [nearCode, farCode] = .ok () := by decide +kernel
  have hd : Layout.DisjointFrom nearCode farCode := by
    rcases (C10_accepts_iff_disjoint [nearCode, farCode] (by simp [hp.c.grid.reach, hp.t.grid.reach])).1 ho with h | ⟨-, h⟩
    · simp at h
    · simpa using h
  refine ⟨matcherFar, nearCode, farCode, farResult.2.1, farResult.2.2, m1, m2, hd, ?_, fun h => ?_⟩
  · obtain ⟨k1, m, k2⟩ := chooseMap_exists hp.c hp.t hp.same (hp.full (by omega) (by omega)) matcher
    have k3 : chooseMap nearCode farCode (matcherFar.all nearCode.graph farCode.graph) none = .ok (some reflected) := by
      have : matcherFar.all nearCode.graph farCode.graph = matcher.all nearCode.graph farCode.graph ++ [reflected] := by
        simp [matcherFar, mono_reflected]
      rw [this, chooseMap_append k2]
      have hb : chooseMap nearCode farCode [reflected] none = .ok (some reflected) := by decide +kernel
      have hr : chooseMap nearCode farCode [reflected] (some m) = chooseMap nearCode farCode [reflected] none := by
        have h1 : offset nearCode farCode ("D1", "D11") = .ok [1000000, 1000000] := by decide +kernel
        have h2 : parallel nearCode farCode [1000000, 1000000] reflected = .ok true := by decide +kernel
        unfold reflected at h2 ⊢
        simp only [chooseMap, h1, h2, if_true]
      rw [hr, hb]
    have hms : ¬ (matcherFar.all nearCode.graph farCode.graph).isEmpty = true := by
      intro h
      rw [List.isEmpty_iff] at h
      simp [h, chooseMap] at k3
    unfold setTransCnot
    rw [PyM.bind_ok (PyM.get_apply _)]
    have hl : cnotLabel nearCode farCode = .ok "trans-cnot_L0_L1" := by decide +kernel
    simp only [hp.codeC, hp.codeT, hp.distX, hp.distZ, ne_eq, not_true_eq_false, or_self, if_false, ho, hl, if_neg hms, k3,
      PyM.bind_ok (PyM.ofExcept_apply _ _)]
    exact far_returns
  · obtain ⟨c, s', hb, -, -, h⟩ := h _ _ (MeasState.tracks_fresh (noiselessBoth nearCode farCode).inds)
    have hc : c = farCircuit := (result_eq hb).symm
    rw [hc] at h
    exact far_differs ((h (fun _ => 0) farFrame).2.2.2.2 farResult.2.1 (List.mem_cons_self ..) "X1" far_anc)

end Props
end SurfaceSim
