/-
Properties C07-C10 (layouts), C46-C48 (neighbours, projection and expansion matrices).
-/
import Verif.Lemmas.LayoutInv
import Mathlib.Data.List.Nodup
import Mathlib.Data.List.Induction

namespace SurfaceSim
open Layout

/-! ### C07 -/

theorem Layout.labels_of_good {s : LayoutSetup} {infos : List QubitInfo} {labels : List String}
    (h : GoodSetup s infos labels) : (nodesOf infos).keys = labels := by
  have := congrArg (List.map fun o : Option String => o.getD "") h.labelled
  simpa [nodesOf, Dict.keys, Function.comp_def] using this

theorem Layout.labelled_of {infos : List QubitInfo} (h : ∀ i ∈ infos, i.qubit ≠ none) :
    infos.map QubitInfo.qubit = (nodesOf infos).keys.map some := by
  simp only [nodesOf, Dict.keys, List.map_map]
  refine List.map_congr_left fun i hi => ?_
  have := h i hi
  cases hq : i.qubit with
  | none => exact absurd hq this
  | some q => simp [hq]

theorem Layout.indsOf_given {infos : List QubitInfo} {r : Dict String Int}
    (h : indsOf infos = r.map fun kv => (kv.1, some kv.2)) :
    infos.map QubitInfo.givenInd = (r.map Prod.snd).map some := by
  have := congrArg (List.map Prod.snd) h
  simpa [indsOf, Function.comp_def] using this

theorem Layout.good_of_init {s : LayoutSetup} {l : Layout} (h : init s = .ok l) :
    ∃ infos, GoodSetup s infos l.graph.nodes.keys ∧ l.graph.nodes = nodesOf infos ∧
      (((∀ i ∈ infos, i.givenInd = none) ∧ l.qubitInds = autoInds l.graph.nodes.keys) ∨
       (indsOf infos = l.qubitInds.map (fun kv => (kv.1, some kv.2)))) ∧
      (l.qubitInds.map Prod.snd).Nodup := by
  obtain ⟨h1, h2, -⟩ := (init_ok_iff s l).1 h
  obtain ⟨infos, hl, hq, ht, hn, hnodes, hadj, hinds⟩ := (loadLayout_ok_iff _ _ _).1 h2
  refine ⟨infos, ⟨hl, ?_, ?_, fun i hi => ht i hi, ?_, ?_, h1⟩, hnodes, ?_, ?_⟩
  · rw [hnodes]; exact labelled_of hq
  · rw [hnodes]; exact hn
  · intro i hi
    have hmem : (i.qubit.getD "", i.attrs) ∈ nodesOf infos :=
      List.mem_map_of_mem (f := fun i : QubitInfo => (i.qubit.getD "", i.attrs)) hi
    rw [hnodes]
    have hall : ∀ n ∈ nodesOf infos, ∃ d, n.2.get? "neighbors" = some (.nbrs d) ∧
        ∀ dir q, (dir, some q) ∈ d → q ∈ (nodesOf infos).keys := by
      have := hadj.flip
      intro n hn'
      obtain ⟨b, -, d, hd, hin, -⟩ := forall₂_mem_right this n hn'
      exact ⟨d, hd, hin⟩
    exact hall _ hmem
  · rcases hinds with ⟨h3, -⟩ | ⟨h3, h4⟩
    · exact Or.inl h3
    · right
      have hg := indsOf_given h3
      constructor
      · intro i hi hnone
        have : (none : Option Int) ∈ infos.map QubitInfo.givenInd := by
          rw [← hnone]; exact List.mem_map_of_mem hi
        rw [hg] at this
        simp at this
      · rw [hg]
        exact h4.map fun a b h => by simpa using h
  · rw [hnodes]
    rcases hinds with h3 | ⟨h3, -⟩
    · exact Or.inl h3
    · exact Or.inr h3
  · rcases hinds with ⟨-, h3⟩ | ⟨-, h3⟩
    · rw [h3]; exact autoInds_vals_nodup _
    · exact h3

/-- **C07** The constructor accepts exactly the setups in which every qubit has a unique label and
neighbours within the layout, either all or no qubits have an index and the indices are unique, and
the logical labels are those of `log_x` and `log_z`. -/
theorem C07_accepts_iff (s : LayoutSetup) :
    (∃ l, Layout.init s = .ok l) ↔ ∃ infos labels, GoodSetup s infos labels := by
  constructor
  · rintro ⟨l, h⟩
    obtain ⟨infos, h, -⟩ := good_of_init h
    exact ⟨infos, _, h⟩
  · rintro ⟨infos, labels, h⟩
    have hk := labels_of_good h
    have hq : ∀ i ∈ infos, i.qubit ≠ none := by
      intro i hi hn
      have : (none : Option String) ∈ infos.map QubitInfo.qubit := by
        rw [← hn]; exact List.mem_map_of_mem hi
      rw [h.labelled] at this
      simp at this
    have hadj : ∃ adj, mapExcept (nodesOf infos) (nodeEdges (nodesOf infos)) = .ok adj := by
      cases hm : mapExcept (nodesOf infos) (nodeEdges (nodesOf infos)) with
      | ok adj => exact ⟨adj, rfl⟩
      | error e =>
        obtain ⟨n, hn, he⟩ := mapExcept_error hm
        simp only [nodesOf, List.mem_map] at hn
        obtain ⟨i, hi, rfl⟩ := hn
        obtain ⟨d, hd, hin⟩ := h.neighbors i hi
        have := (nodeEdges_ok_iff (nodesOf infos) (i.qubit.getD "", i.attrs) _).2
          ⟨d, hd, by rw [hk]; exact hin, rfl⟩
        rw [he] at this
        simp at this
    obtain ⟨adj, hadj⟩ := hadj
    have hinds : ∃ r, loadInds (nodesOf infos).keys (indsOf infos) = .ok r := by
      rcases h.inds with h1 | ⟨h1, h2⟩
      · refine ⟨autoInds (nodesOf infos).keys, ?_⟩
        rw [loadInds_ok_iff _ _ (indsOf_keys infos)]
        left
        refine ⟨?_, rfl⟩
        simpa [indsOf] using h1
      · refine ⟨infos.map fun i => (i.qubit.getD "", i.givenInd.getD 0), ?_⟩
        rw [loadInds_ok_iff _ _ (indsOf_keys infos)]
        right
        have hg : ∀ i ∈ infos, some (i.givenInd.getD 0) = i.givenInd := by
          intro i hi
          cases hgi : i.givenInd with
          | none => exact absurd hgi (h1 i hi)
          | some j => rfl
        constructor
        · simp only [indsOf, List.map_map]
          refine List.map_congr_left fun i hi => ?_
          simp [hg i hi]
        · rw [List.map_map]
          refine List.Nodup.of_map some ?_
          rw [List.map_map]
          have : infos.map (some ∘ Prod.snd ∘ fun i => (i.qubit.getD "", i.givenInd.getD 0)) =
              infos.map QubitInfo.givenInd := by
            refine List.map_congr_left fun i hi => ?_
            simp [hg i hi]
          rw [this]
          exact h2
    obtain ⟨r, hr⟩ := hinds
    have hload : loadLayout s.layout = .ok (⟨nodesOf infos, adj⟩, r) := by
      rw [h.layout]
      unfold loadLayout
      have := (loadNodes_ok_iff infos [] [] rfl (nodesOf infos, indsOf infos)).2
        ⟨hq, fun i hi => h.ind_typed i hi, by rw [hk]; exact h.nodup, by simp [Dict.keys], by simp⟩
      simp only [this, hadj, hr]
    refine ⟨⟨s.name.getD "", s.code.getD "", s.logQubits.getD [], s.distance.getD (-1),
      s.distanceZ.getD (-1), s.distanceX.getD (-1), s.logZ.getD [], s.logX.getD [], s.description,
      s.interactionOrder.getD [], r, ⟨nodesOf infos, adj⟩⟩, ?_⟩
    rw [init_ok_iff]
    exact ⟨h.logical, hload, rfl, rfl, rfl, rfl, rfl, rfl, rfl, rfl, rfl, rfl⟩

/-- **C07** What a loaded layout contains: the qubits in the order of the setup, each label and each
index once, the given indices (or `0, 1, …` when none is given), the given attributes and the
metadata. -/
theorem C07_loaded (s : LayoutSetup) (l : Layout) (h : Layout.init s = .ok l) :
    ∃ infos labels, GoodSetup s infos labels ∧ l.getQubits [] = .ok labels ∧
      (∀ (k : Nat) q, labels[k]? = some q →
        (∃ i, l.getInds [q] = .ok [i] ∧
          (((∀ info ∈ infos, info.givenInd = none) ∧ i = k) ∨
            infos[k]?.map QubitInfo.givenInd = some (some i))) ∧
        ∀ p, ∃ info, infos[k]? = some info ∧
          l.param p q = .ok ((info.attrs.get? p).getD .none)) ∧
      (∀ q q' i, l.getInds [q] = .ok [i] → l.getInds [q'] = .ok [i] → q = q') ∧
      (∀ q, q ∉ labels → l.getInds [q] = .error .keyError ∧ ∀ p, l.param p q = .error .keyError) ∧
      (∀ x, x ∈ l.logQubits ↔ x ∈ l.logZ.keys) ∧ (∀ x, x ∈ l.logQubits ↔ x ∈ l.logX.keys) := by
  obtain ⟨infos, hgood, hnodes, hinds, hnd⟩ := good_of_init h
  obtain ⟨h1, -, -, -, h3, -, -, -, h4, h5, -⟩ := (init_ok_iff s l).1 h
  have hk : l.qubitInds.keys = l.graph.nodes.keys := by
    rcases hinds with ⟨-, h6⟩ | h6
    · rw [h6, autoInds_keys]
    · have := congrArg Dict.keys h6
      rw [indsOf_keys, ← hnodes] at this
      rw [this]
      simp [Dict.keys]
  have hindN : l.qubitInds.keys.Nodup := by rw [hk]; exact hgood.nodup
  have hget : ∀ q i, l.getInds [q] = .ok [i] ↔ l.qubitInds.get? q = some i := by
    intro q i
    unfold getInds
    rw [mapExcept_ok_iff]
    simp [Dict.getE_ok_iff]
  have hlen : infos.map (fun i => i.qubit.getD "") = l.graph.nodes.keys := by
    rw [hnodes]; simp [nodesOf, Dict.keys]
  refine ⟨infos, l.graph.nodes.keys, hgood, rfl, ?_, ?_, ?_, ?_, ?_⟩
  · intro k q hq
    have hq' : (infos.map fun i => i.qubit.getD "")[k]? = some q := by rw [hlen]; exact hq
    rw [List.getElem?_map] at hq'
    obtain ⟨info, hi, rfl⟩ := Option.map_eq_some_iff.1 hq'
    refine ⟨?_, ?_⟩
    · rcases hinds with ⟨h6, h7⟩ | h6
      · refine ⟨k, ?_, Or.inl ⟨h6, rfl⟩⟩
        rw [hget]
        refine Dict.get?_of_mem hindN ?_
        rw [h7]
        unfold autoInds
        rw [List.mem_map]
        refine ⟨(info.qubit.getD "", k), ?_, rfl⟩
        rw [List.mk_mem_zipIdx_iff_getElem?]
        exact hq
      · have hi' : (indsOf infos)[k]? = some (info.qubit.getD "", info.givenInd) := by
          simp [indsOf, hi]
        rw [h6, List.getElem?_map] at hi'
        obtain ⟨⟨q', i⟩, hi2, he⟩ := Option.map_eq_some_iff.1 hi'
        simp only [Prod.mk.injEq] at he
        refine ⟨i, ?_, Or.inr (by rw [hi]; simp [he.2])⟩
        rw [hget]
        refine Dict.get?_of_mem hindN ?_
        rw [← he.1]
        exact List.mem_of_getElem? hi2
    · intro p
      refine ⟨info, hi, ?_⟩
      unfold param
      have : l.graph.nodes.get? (info.qubit.getD "") = some info.attrs := by
        refine Dict.get?_of_mem hgood.nodup ?_
        rw [hnodes]
        exact List.mem_map_of_mem (f := fun i : QubitInfo => (i.qubit.getD "", i.attrs))
          (List.mem_of_getElem? hi)
      rw [this]
  · intro q q' i hq hq'
    rw [hget] at hq hq'
    have m1 := Dict.mem_of_get? hq
    have m2 := Dict.mem_of_get? hq'
    have := List.inj_on_of_nodup_map hnd m1 m2 rfl
    simpa using this
  · intro q hq
    constructor
    · have : l.qubitInds.get? q = none := (Dict.get?_eq_none_iff _ _).2 (by rw [hk]; exact hq)
      simp [getInds, mapExcept, Dict.getE, this]
    · intro p
      have : l.graph.nodes.get? q = none := (Dict.get?_eq_none_iff _ _).2 hq
      simp [param, this]
  · intro x; rw [h3, h4]; exact (h1 x).1
  · intro x; rw [h3, h5]; exact (h1 x).2

/-- **C07** Which exception a rejected setup raises: `ValueError`, except for a neighbour which is
not a qubit of the layout (`RuntimeError` in the iteration over the nodes) and for ill-typed
indices or neighbours. -/
theorem C07_rejected (s : LayoutSetup) (e : Err) (h : Layout.init s = .error e) :
    e = .valueError ∨
    (e = .runtimeError ∧ ∃ infos info d dir q, s.layout = some infos ∧ info ∈ infos ∧
      info.attrs.get? "neighbors" = some (.nbrs d) ∧ (dir, some q) ∈ d ∧
      some q ∉ infos.map QubitInfo.qubit) ∨
    (e = .typeError ∧ ∃ infos info v, s.layout = some infos ∧ info ∈ infos ∧
      ((info.attrs.get? "ind" = some v ∧ v ≠ .none ∧ ∀ i, v ≠ .int i) ∨
       (info.attrs.get? "neighbors" = some v ∧ v ≠ .none ∧ ∀ d, v ≠ .nbrs d))) := by
  unfold Layout.init at h
  simp only at h
  split at h
  · simp at h; exact Or.inl h.symm
  · cases hl : loadLayout s.layout with
    | ok gi => rw [hl] at h; simp at h
    | error e' =>
      rw [hl] at h
      simp only [Except.error.injEq] at h
      subst h
      unfold loadLayout at hl
      cases hs : s.layout with
      | none => rw [hs] at hl; simp at hl; exact Or.inl hl.symm
      | some infos =>
        rw [hs] at hl
        simp only at hl
        cases h1 : loadNodes infos [] [] with
        | error e1 =>
          rw [h1] at hl
          simp only [Except.error.injEq] at hl
          subst hl
          rcases loadNodes_error h1 with h2 | ⟨h2, i, hi, h3⟩
          · exact Or.inl h2
          · refine Or.inr (Or.inr ⟨h2, infos, i, ?_⟩)
            simp only [IndTyped, not_forall, not_or, not_exists] at h3
            obtain ⟨v, hv, h4, h5⟩ := h3
            exact ⟨v, rfl, hi, Or.inl ⟨hv, h4, h5⟩⟩
        | ok r =>
          obtain ⟨hq, -, -, -, rfl⟩ := (loadNodes_ok_iff infos [] [] rfl r).1 h1
          rw [h1] at hl
          simp only [List.nil_append] at hl
          cases h2 : mapExcept (nodesOf infos) (nodeEdges (nodesOf infos)) with
          | error e2 =>
            rw [h2] at hl
            simp only [Except.error.injEq] at hl
            subst hl
            obtain ⟨n, hn, he⟩ := mapExcept_error h2
            simp only [nodesOf, List.mem_map] at hn
            obtain ⟨i, hi, rfl⟩ := hn
            rcases nodeEdges_error he with ⟨h3, -⟩ | ⟨h3, d, dir, q, hd, hm, hqn⟩ | ⟨h3, v, hv, h4, h5⟩
            · exact Or.inl h3
            · refine Or.inr (Or.inl ⟨h3, infos, i, d, dir, q, rfl, hi, hd, hm, ?_⟩)
              rw [labelled_of hq]
              simpa using hqn
            · exact Or.inr (Or.inr ⟨h3, infos, i, v, rfl, hi, Or.inr ⟨hv, h4, h5⟩⟩)
          | ok adj =>
            rw [h2] at hl
            simp only at hl
            cases h3 : loadInds (nodesOf infos).keys (indsOf infos) with
            | error e3 =>
              rw [h3] at hl
              simp only [Except.error.injEq] at hl
              subst hl
              exact Or.inl (loadInds_error h3)
            | ok r => rw [h3] at hl; simp at hl

/-- A two qubit setup: a data qubit and an ancilla, with indices. -/
def exLayoutSetup (iA : Val) (lz : String) (nb : String) : LayoutSetup :=
  { name := some "pair", code := none, logQubits := some ["L0"], distance := none,
    distanceZ := some 1, distanceX := some 1, logZ := some [(lz, ["D1"])],
    logX := some [("L0", ["D1"])], description := none, interactionOrder := none,
    layout := some
      [⟨some "D1", [("role", .str "data"), ("coords", .coords [1, 1]), ("ind", .int 3),
        ("stab_type", .none), ("neighbors", .nbrs [("north_east", some nb), ("south_west", none)])]⟩,
       ⟨some "Z1", [("role", .str "anc"), ("coords", .coords [2, 2]), ("ind", iA),
        ("stab_type", .str "z_type"), ("neighbors", .nbrs [("south_west", some "D1")])]⟩] }

example : GoodSetup (exLayoutSetup (.int 5) "L0" "Z1")
    ((exLayoutSetup (.int 5) "L0" "Z1").layout.getD []) ["D1", "Z1"] := by
  refine ⟨rfl, rfl, by decide, ?_, ?_, Or.inr ⟨?_, ?_⟩, ?_⟩
  · simp [exLayoutSetup, Dict.get?]
  · simp [exLayoutSetup, Dict.get?]
  · simp [exLayoutSetup, QubitInfo.givenInd, Dict.get?]
  · decide
  · intro x; simp [exLayoutSetup, Dict.keys]

example : (Layout.init (exLayoutSetup (.int 5) "L0" "Z1")).isOk = true := by decide +kernel
example : Layout.init (exLayoutSetup (.int 3) "L0" "Z1") = .error .valueError := by decide +kernel
example : Layout.init (exLayoutSetup .none "L0" "Z1") = .error .valueError := by decide +kernel
example : Layout.init (exLayoutSetup (.int 5) "L1" "Z1") = .error .valueError := by decide +kernel
example : Layout.init (exLayoutSetup (.int 5) "L0" "Z9") = .error .runtimeError := by decide +kernel

/-! ### C08 -/

/-- **C08** (missing: layouts whose index attribute was overwritten with `set_param`, for which the
claim is false, see `C08_set_ind_wrong`).  The round trip through `to_dict` keeps the qubits and
their order, the indices, every attribute except `neighbors` (rewritten from the edges) and
`qubit`, the edges with their directions and the metadata; afterwards `to_dict` is stable. -/
theorem C08_round_trip_partial (l : Layout) (h : Reachable l) :
    ∃ l', Layout.init l.toDict = .ok l' ∧ l.copy = .ok l' ∧
      l'.getQubits [] = l.getQubits [] ∧ l'.qubitInds = l.qubitInds ∧
      (∀ p q, p ≠ "neighbors" → p ≠ "qubit" → l'.param p q = l.param p q) ∧
      (∀ qs dir, l'.getNeighborPairs qs dir = l.getNeighborPairs qs dir) ∧
      l'.logZ = l.logZ ∧ l'.logX = l.logX ∧ l'.logQubits = l.logQubits ∧ l'.name = l.name ∧
      l'.code = l.code ∧ l'.distance = l.distance ∧ l'.distanceX = l.distanceX ∧
      l'.distanceZ = l.distanceZ ∧ l'.description = l.description ∧
      l'.interactionOrder = l.interactionOrder ∧ l'.toDict = l.toDict ∧
      Layout.init l'.toDict = .ok l' := by
  have hi := inv_of_reachable h
  have hk : l.reloaded.graph.nodes.keys = l.graph.nodes.keys := by
    simp [reloaded, Dict.keys]
  refine ⟨l.reloaded, init_toDict hi, init_toDict hi, ?_, rfl, ?_, ?_, rfl, rfl, rfl, rfl, rfl, rfl,
    rfl, rfl, rfl, rfl, reloaded_toDict hi, ?_⟩
  · simp only [getQubits, List.isEmpty_nil, if_true, hk]
  · intro p q h1 h2
    unfold param
    have hm : ∀ N : Dict String (Dict String Val),
        Dict.get? (N.map fun n => (n.1, (l.nodeInfo n).attrs)) q =
          (N.get? q).map fun a => (l.nodeInfo (q, a)).attrs := by
      intro N
      induction N with
      | nil => rfl
      | cons n N ih =>
        obtain ⟨a, b⟩ := n
        by_cases ha : a = q
        · subst ha; simp
        · simp [ha, ih]
    show (match Dict.get? (l.graph.nodes.map fun n => (n.1, (l.nodeInfo n).attrs)) q with
      | none => _ | some attrs => _) = _
    rw [hm]
    cases hg : l.graph.nodes.get? q with
    | none => rfl
    | some a =>
      simp only [Option.map_some]
      rw [get?_nodeInfo_ne l (q, a) h1 h2]
  · intro qs dir
    unfold getNeighborPairs outEdgeView
    have : ∀ q, l.reloaded.graph.nodes.has q = l.graph.nodes.has q := by
      intro q
      rw [Bool.eq_iff_iff, Dict.has_iff, Dict.has_iff, hk]
    simp only [this]
    rfl
  · rw [reloaded_toDict hi]; exact init_toDict hi

/-- **C08** fails for a layout whose index was overwritten: `set_param` does not change the index
used by `get_inds`, but the copy uses the new one. -/
theorem C08_set_ind_wrong :
    ∃ s l l' l'', s.Genuine ∧ Layout.init s = .ok l ∧ l.setParam "ind" "Z1" (.int 7) = .ok l' ∧
      l'.copy = .ok l'' ∧ l'.getInds ["Z1"] = .ok [5] ∧ l''.getInds ["Z1"] = .ok [7] := by
  let s := exLayoutSetup (.int 5) "L0" "Z1"
  obtain ⟨l, hl⟩ : ∃ l, Layout.init s = .ok l := by
    rcases h : Layout.init s with e | l
    · have : (Layout.init s).isOk = true := by decide +kernel
      rw [h] at this; simp [Except.isOk, Except.toBool] at this
    · exact ⟨l, rfl⟩
  have h1 : ((Layout.init s).bind fun l => (l.setParam "ind" "Z1" (.int 7)).bind fun l' =>
      l'.copy.bind fun l'' => .ok (l'.getInds ["Z1"], l''.getInds ["Z1"])) =
      .ok (.ok [5], .ok [7]) := by decide +kernel
  rw [hl] at h1
  simp only [Except.bind] at h1
  cases h2 : l.setParam "ind" "Z1" (.int 7) with
  | error e => rw [h2] at h1; simp at h1
  | ok l' =>
    rw [h2] at h1
    simp only at h1
    cases h3 : l'.copy with
    | error e => rw [h3] at h1; simp at h1
    | ok l'' =>
      rw [h3] at h1
      simp only [Except.ok.injEq, Prod.mk.injEq] at h1
      refine ⟨s, l, l', l'', ?_, hl, h2, h3, h1.1, h1.2⟩
      intro infos hi info hinfo
      simp only [s, exLayoutSetup, Option.some.injEq] at hi
      subst hi
      simp only [List.mem_cons, List.not_mem_nil, or_false] at hinfo
      rcases hinfo with rfl | rfl <;>
      · refine ⟨by decide, ?_⟩
        intro d hd
        simp [Dict.get?] at hd
        subst hd
        decide


/-! ### C09 -/

theorem Layout.validAttrs_true_iff (attrs conds : Dict String Val) :
    validAttrs attrs conds = .ok true ↔ ∀ kv ∈ conds, kv.2 ≠ .none ∧ attrs.get? kv.1 = some kv.2 := by
  induction conds with
  | nil => simp [validAttrs]
  | cons kv conds ih =>
    obtain ⟨k, v⟩ := kv
    simp only [validAttrs, List.mem_cons, forall_eq_or_imp]
    cases h : attrs.get? k with
    | none => simp
    | some a =>
      simp only [Option.some.injEq]
      by_cases h1 : a = .none ∨ a ≠ v
      · rw [if_pos h1]
        simp only [Except.ok.injEq, Bool.false_eq_true, false_iff, not_and]
        rintro ⟨h2, rfl⟩
        rcases h1 with h1 | h1
        · exact absurd h1 h2
        · exact absurd rfl h1
      · rw [if_neg h1, ih]
        simp only [not_or, not_not] at h1
        obtain ⟨h2, rfl⟩ := h1
        simp [h2]

theorem Layout.validAttrs_error_iff (attrs conds : Dict String Val) (e : Err) :
    validAttrs attrs conds = .error e ↔ e = .keyError ∧ ∃ pre k v post, conds = pre ++ (k, v) :: post ∧
      attrs.get? k = none ∧ ∀ kv ∈ pre, kv.2 ≠ .none ∧ attrs.get? kv.1 = some kv.2 := by
  induction conds with
  | nil => simp [validAttrs]
  | cons kv conds ih =>
    obtain ⟨k, v⟩ := kv
    simp only [validAttrs]
    cases h : attrs.get? k with
    | none =>
      simp only [Except.error.injEq]
      constructor
      · intro he; exact ⟨he.symm, [], k, v, conds, rfl, h, by simp⟩
      · rintro ⟨he, -⟩; exact he.symm
    | some a =>
      simp only
      by_cases h1 : a = .none ∨ a ≠ v
      · rw [if_pos h1]
        simp only [reduceCtorEq, false_iff, not_and, not_exists]
        intro _ pre k' v' post hc hk' hpre
        cases pre with
        | nil =>
          simp only [List.nil_append, List.cons.injEq, Prod.mk.injEq] at hc
          obtain ⟨⟨rfl, rfl⟩, rfl⟩ := hc
          rw [h] at hk'; simp at hk'
        | cons p pre =>
          simp only [List.cons_append, List.cons.injEq] at hc
          obtain ⟨rfl, rfl⟩ := hc
          have := hpre (k, v) (by simp)
          simp only [h, Option.some.injEq] at this
          obtain ⟨h2, rfl⟩ := this
          rcases h1 with h1 | h1
          · exact h2 h1
          · exact h1 rfl
      · rw [if_neg h1, ih]
        simp only [not_or, not_not] at h1
        obtain ⟨h2, rfl⟩ := h1
        constructor
        · rintro ⟨he, pre, k', v', post, rfl, hk', hpre⟩
          refine ⟨he, (k, a) :: pre, k', v', post, rfl, hk', ?_⟩
          intro kv hkv
          rcases List.mem_cons.1 hkv with rfl | hkv
          · exact ⟨h2, h⟩
          · exact hpre kv hkv
        · rintro ⟨he, pre, k', v', post, hc, hk', hpre⟩
          cases pre with
          | nil =>
            simp only [List.nil_append, List.cons.injEq, Prod.mk.injEq] at hc
            obtain ⟨⟨rfl, rfl⟩, rfl⟩ := hc
            rw [h] at hk'; simp at hk'
          | cons p pre =>
            simp only [List.cons_append, List.cons.injEq] at hc
            obtain ⟨rfl, rfl⟩ := hc
            exact ⟨he, pre, k', v', post, rfl, hk', fun kv hkv => hpre kv (List.mem_cons_of_mem _ hkv)⟩

theorem Layout.filterNodes_ok (conds : Dict String Val) (N : Dict String (Dict String Val))
    (r : List String) (h : filterNodes conds N = .ok r) :
    r = Dict.keys (N.filter fun n => validAttrs n.2 conds = .ok true) := by
  induction N generalizing r with
  | nil => simp [filterNodes] at h; simp [h, Dict.keys]
  | cons n N ih =>
    obtain ⟨q, attrs⟩ := n
    simp only [filterNodes] at h
    cases h1 : validAttrs attrs conds with
    | error e => rw [h1] at h; simp at h
    | ok b =>
      rw [h1] at h
      simp only at h
      cases h2 : filterNodes conds N with
      | error e => rw [h2] at h; simp at h
      | ok r' =>
        rw [h2] at h
        simp only [Except.ok.injEq] at h
        have := ih r' h2
        cases b with
        | true => simp only [Dict.keys] at this ⊢; simp [← h, h1, this]
        | false => simp only [Dict.keys] at this ⊢; simp [← h, h1, this]

theorem Layout.filterNodes_error_iff (conds : Dict String Val) (N : Dict String (Dict String Val)) :
    (∃ e, filterNodes conds N = .error e) ↔ ∃ n ∈ N, ∃ e, validAttrs n.2 conds = .error e := by
  induction N with
  | nil => simp [filterNodes]
  | cons n N ih =>
    obtain ⟨q, attrs⟩ := n
    simp only [filterNodes, List.mem_cons, exists_eq_or_imp]
    cases h1 : validAttrs attrs conds with
    | error e => simp
    | ok b =>
      simp only
      rw [← ih]
      cases h2 : filterNodes conds N with
      | error e => simp
      | ok r => simp

theorem Layout.filterNodes_error {conds : Dict String Val} {N : Dict String (Dict String Val)} {e : Err}
    (h : filterNodes conds N = .error e) : e = .keyError := by
  induction N with
  | nil => simp [filterNodes] at h
  | cons n N ih =>
    obtain ⟨q, attrs⟩ := n
    simp only [filterNodes] at h
    cases h1 : validAttrs attrs conds with
    | error e' =>
      rw [h1] at h
      simp only [Except.error.injEq] at h
      subst h
      exact ((validAttrs_error_iff _ _ _).1 h1).1
    | ok b =>
      rw [h1] at h
      simp only at h
      cases h2 : filterNodes conds N with
      | error e' =>
        rw [h2] at h
        simp only [Except.error.injEq] at h
        subst h
        exact ih h2
      | ok r => rw [h2] at h; simp at h

theorem Layout.param_node {l : Layout} (hl : l.Inv) {n : String × Dict String Val}
    (hn : n ∈ l.graph.nodes) (p : String) : l.param p n.1 = .ok ((n.2.get? p).getD .none) := by
  unfold param
  rw [Dict.get?_of_mem hl.nodup (k := n.1) (v := n.2) hn]

theorem Layout.param_node_iff {l : Layout} (hl : l.Inv) {n : String × Dict String Val}
    (hn : n ∈ l.graph.nodes) (p : String) {v : Val} (hv : v ≠ .none) :
    l.param p n.1 = .ok v ↔ n.2.get? p = some v := by
  rw [param_node hl hn]
  cases h : n.2.get? p with
  | none => simp [Ne.symm hv]
  | some a => simp

theorem Layout.keys_filter_congr (N : Dict String (Dict String Val)) (f : String × Dict String Val → Bool)
    (g : String → Bool) (h : ∀ n ∈ N, f n = g n.1) : Dict.keys (N.filter f) = N.keys.filter g := by
  induction N with
  | nil => rfl
  | cons n N ih =>
    have h1 := h n (by simp)
    have h2 := ih fun n hn => h n (List.mem_cons_of_mem _ hn)
    simp only [Dict.keys] at h2 ⊢
    rw [List.filter_cons, List.map_cons, List.filter_cons, h1]
    split <;> simp [h2]

/-- **C09** `get_qubits(**conds)` lists, in the order of the layout, the qubits whose attributes
equal all conditions (a condition `None` is met by no qubit). -/
theorem C09_exactly_matching (l : Layout) (hl : Reachable l) (conds : Dict String Val)
    (r : List String) (h : l.getQubits conds = .ok r) :
    ∃ all, l.getQubits [] = .ok all ∧ all.Nodup ∧
      r = all.filter fun q => decide (∀ kv ∈ conds, kv.2 ≠ .none ∧ l.param kv.1 q = .ok kv.2) := by
  have hi := inv_of_reachable hl
  refine ⟨l.graph.nodes.keys, rfl, hi.nodup, ?_⟩
  unfold getQubits at h
  split at h
  · rename_i he
    simp only [List.isEmpty_iff] at he
    subst he
    simp only [Except.ok.injEq] at h
    simp [← h]
  · rw [filterNodes_ok _ _ _ h]
    apply keys_filter_congr
    intro n hn
    rw [Bool.eq_iff_iff, decide_eq_true_iff, decide_eq_true_iff, validAttrs_true_iff]
    constructor
    · intro h1 kv hkv
      exact ⟨(h1 kv hkv).1, (param_node_iff hi hn _ (h1 kv hkv).1).2 (h1 kv hkv).2⟩
    · intro h1 kv hkv
      exact ⟨(h1 kv hkv).1, (param_node_iff hi hn _ (h1 kv hkv).1).1 (h1 kv hkv).2⟩

/-- **C09** `get_qubits` raises iff some qubit lacks the attribute of a condition while meeting all
conditions before it, and it raises `KeyError`. -/
theorem C09_missing_attribute (l : Layout) (conds : Dict String Val) :
    (∀ e, l.getQubits conds = .error e → e = .keyError) ∧
    (l.getQubits conds = .error .keyError ↔
      ∃ q attrs pre k v post, (q, attrs) ∈ l.graph.nodes ∧ conds = pre ++ (k, v) :: post ∧
        attrs.get? k = none ∧ ∀ kv ∈ pre, kv.2 ≠ .none ∧ attrs.get? kv.1 = some kv.2) := by
  have h1 : ∀ e, l.getQubits conds = .error e → e = .keyError := by
    intro e h
    unfold getQubits at h
    split at h
    · simp at h
    · exact filterNodes_error h
  refine ⟨h1, ?_⟩
  have h2 : l.getQubits conds = .error .keyError ↔ ∃ e, l.getQubits conds = .error e :=
    ⟨fun h => ⟨_, h⟩, fun ⟨e, h⟩ => by rw [h, h1 e h]⟩
  rw [h2]
  unfold getQubits
  split
  · rename_i he
    simp only [List.isEmpty_iff] at he
    subst he
    simp
  · rw [filterNodes_error_iff]
    constructor
    · rintro ⟨⟨q, attrs⟩, hn, e, he⟩
      obtain ⟨-, pre, k, v, post, h3, h4, h5⟩ := (validAttrs_error_iff _ _ _).1 he
      exact ⟨q, attrs, pre, k, v, post, hn, h3, h4, h5⟩
    · rintro ⟨q, attrs, pre, k, v, post, hn, h3, h4, h5⟩
      exact ⟨(q, attrs), hn, .keyError, (validAttrs_error_iff _ _ _).2 ⟨rfl, pre, k, v, post, h3, h4, h5⟩⟩

/-- **C09** If every qubit is a data qubit or an ancilla, then the data qubits and the ancillas are
a partition of the qubits. -/
theorem C09_data_anc_partition (l : Layout) (hl : Reachable l)
    (hr : ∀ q ∈ l.graph.nodes.keys, l.param "role" q = .ok (.str "data") ∨
      l.param "role" q = .ok (.str "anc")) :
    ∃ all data anc, l.getQubits [] = .ok all ∧ l.getQubits [("role", .str "data")] = .ok data ∧
      l.getQubits [("role", .str "anc")] = .ok anc ∧ (data ++ anc).Perm all ∧
      ∀ q ∈ data, q ∉ anc := by
  have hi := inv_of_reachable hl
  have hex : ∀ x, ∃ r, l.getQubits [("role", .str x)] = .ok r := by
    intro x
    cases h : l.getQubits [("role", .str x)] with
    | ok r => exact ⟨r, rfl⟩
    | error e =>
      exfalso
      obtain ⟨h1, h2⟩ := C09_missing_attribute l [("role", .str x)]
      rw [h1 e h] at h
      obtain ⟨q, attrs, pre, k, v, post, hn, hc, hk, hp⟩ := h2.1 h
      have : k = "role" := by
        cases pre with
        | nil => simp at hc; exact hc.1.1.symm
        | cons p pre =>
          simp only [List.cons_append, List.cons.injEq] at hc
          have := hc.2
          simp at this
      subst this
      have := hr q (List.mem_map_of_mem (f := Prod.fst) hn)
      rw [param_node hi hn, hk] at this
      simp at this
  obtain ⟨data, hd⟩ := hex "data"
  obtain ⟨anc, ha⟩ := hex "anc"
  obtain ⟨_, h0, hn, h1⟩ := C09_exactly_matching l hl _ _ hd
  obtain ⟨_, h0', -, h2⟩ := C09_exactly_matching l hl _ _ ha
  simp only [getQubits, List.isEmpty_nil, if_true, Except.ok.injEq] at h0 h0'
  subst h0; subst h0'
  refine ⟨_, data, anc, rfl, hd, ha, ?_, ?_⟩
  · have hs : anc = l.graph.nodes.keys.filter fun q =>
        !decide (∀ kv ∈ [("role", Val.str "data")], kv.2 ≠ .none ∧ l.param kv.1 q = .ok kv.2) := by
      rw [h2]
      apply List.filter_congr
      intro q hq
      rcases hr q hq with h | h <;> simp [h]
    rw [h1, hs]
    exact List.filter_append_perm _ _
  · intro q hqd hqa
    rw [h1, List.mem_filter] at hqd
    rw [h2, List.mem_filter] at hqa
    simp only [List.mem_singleton, forall_eq, decide_eq_true_eq] at hqd hqa
    have := hqd.2.2.symm.trans hqa.2.2
    simp at this

example : ((Layout.init (exLayoutSetup (.int 5) "L0" "Z1")).bind fun l =>
    l.getQubits [("role", .str "anc"), ("stab_type", .str "z_type")]) = .ok ["Z1"] := by
  decide +kernel

/-! ### C10 -/

theorem Layout.meets_iff {α : Type} [DecidableEq α] (a b : List α) :
    meets a b = false ↔ ∀ x ∈ a, x ∉ b := by
  simp [meets]

theorem Layout.getInds_all {l : Layout} (hl : l.Inv) :
    l.getInds l.graph.nodes.keys = .ok (l.qubitInds.map Prod.snd) := by
  unfold getInds
  rw [← hl.indKeys, mapExcept_ok_iff]
  unfold Dict.keys
  rw [List.forall₂_map_left_iff, List.forall₂_map_right_iff, List.forall₂_same]
  intro kv hkv
  rw [Dict.getE_ok_iff]
  exact Dict.get?_of_mem (by rw [hl.indKeys]; exact hl.nodup) hkv

theorem Layout.get?_qubitCoords {l : Layout} (hl : l.Inv) {q : String} (hq : q ∈ l.graph.nodes.keys)
    (c : List Rat) :
    l.qubitCoords.get? q = some (.coords c) ↔ l.param "coords" q = .ok (.coords c) := by
  obtain ⟨n, hn, rfl⟩ := List.mem_map.1 hq
  rw [param_node_iff hl hn _ (by simp)]
  unfold qubitCoords
  have hnd := hl.nodup
  generalize l.graph.nodes = N at hn hnd
  clear hq hl
  induction N with
  | nil => cases hn
  | cons m N ih =>
    simp only [Dict.keys, List.map_cons, List.nodup_cons] at hnd ih
    rcases List.mem_cons.1 hn with rfl | hn
    · cases hg : n.2.get? "coords" with
      | some v => simp [hg]
      | none =>
        simp only [List.filterMap_cons, hg, Option.map_none, reduceCtorEq, iff_false]
        intro h
        have := Dict.mem_of_get? h
        simp only [List.mem_filterMap, Option.map_eq_some_iff, Prod.mk.injEq] at this
        obtain ⟨m, hm, v, -, he, -⟩ := this
        exact hnd.1 (he ▸ List.mem_map_of_mem (f := Prod.fst) hm)
    · have hne : ¬ m.1 = n.1 := fun h => hnd.1 (h ▸ List.mem_map_of_mem (f := Prod.fst) hn)
      rw [List.filterMap_cons]
      cases hg : m.2.get? "coords" with
      | some v => simpa [hne] using ih hn hnd.2
      | none => simpa using ih hn hnd.2

theorem Layout.mem_qubitCoords_keys {l : Layout} {q : String} (h : q ∈ l.qubitCoords.keys) :
    q ∈ l.graph.nodes.keys := by
  unfold qubitCoords at h
  simp only [Dict.keys, List.mem_map, List.mem_filterMap, Option.map_eq_some_iff] at h ⊢
  obtain ⟨-, ⟨n, hn, v, -, rfl⟩, rfl⟩ := h
  exact ⟨n, hn, rfl⟩

theorem Layout.getCoords_all_ok {l : Layout} (hl : l.Inv) (hc : l.HasCoords) :
    ∃ cs, l.getCoords l.graph.nodes.keys = .ok cs ∧
      ∀ c, c ∈ cs ↔ ∃ q ∈ l.graph.nodes.keys, l.param "coords" q = .ok (.coords c) := by
  have hs : strictSuperset l.graph.nodes.keys l.qubitCoords.keys = false := by
    rw [Bool.eq_false_iff]
    intro h
    simp only [strictSuperset, Bool.and_eq_true, List.any_eq_true] at h
    obtain ⟨-, q, hq, h⟩ := h
    obtain ⟨c, hc⟩ := hc q hq
    have := (get?_qubitCoords hl hq c).2 hc
    have hm : q ∈ l.qubitCoords.keys := by rw [← Dict.get?_isSome_iff, this]; rfl
    simp [hm] at h
  unfold getCoords
  rw [hs]
  simp only [Bool.false_eq_true, if_false]
  cases hm : mapExcept l.graph.nodes.keys l.coordOf with
  | error e =>
    exfalso
    obtain ⟨q, hq, he⟩ := mapExcept_error hm
    obtain ⟨c, hc⟩ := hc q hq
    unfold coordOf at he
    rw [(Dict.getE_ok_iff _ _ _).2 ((get?_qubitCoords hl hq c).2 hc)] at he
    simp [asCoords] at he
  | ok cs =>
    refine ⟨cs, rfl, ?_⟩
    have h1 := (mapExcept_ok_iff _ _ _).1 hm
    have hval : ∀ q ∈ l.graph.nodes.keys, ∀ c, l.coordOf q = .ok c ↔ l.param "coords" q = .ok (.coords c) := by
      intro q hq c
      obtain ⟨c', hc'⟩ := hc q hq
      unfold coordOf
      rw [(Dict.getE_ok_iff _ _ _).2 ((get?_qubitCoords hl hq c').2 hc'), hc']
      simp [asCoords]
    intro c
    constructor
    · intro hcm
      obtain ⟨q, hq, h2⟩ := forall₂_mem_right h1 c hcm
      exact ⟨q, hq, (hval q hq c).1 h2⟩
    · rintro ⟨q, hq, h2⟩
      obtain ⟨b, hb, h3⟩ := mapExcept_map_ok hm q hq
      have := (hval q hq b).1 h3
      rw [h2] at this
      simp only [Except.ok.injEq, Val.coords.injEq] at this
      exact this ▸ hb

theorem Layout.getCoords_all_error {l : Layout} (hl : l.Inv) (hc : ¬ l.HasCoords) :
    ∃ e, l.getCoords l.graph.nodes.keys = .error e := by
  cases h : l.getCoords l.graph.nodes.keys with
  | error e => exact ⟨e, rfl⟩
  | ok cs =>
    exfalso
    apply hc
    unfold getCoords at h
    split at h
    · simp at h
    · intro q hq
      obtain ⟨c, -, h2⟩ := mapExcept_map_ok h q hq
      unfold coordOf at h2
      cases h3 : l.qubitCoords.getE q with
      | error e => rw [h3] at h2; simp at h2
      | ok v =>
        rw [h3] at h2
        cases v with
        | coords c' => exact ⟨c', (get?_qubitCoords hl hq c').1 ((Dict.getE_ok_iff _ _ _).1 h3)⟩
        | none => simp [asCoords] at h2
        | int _ => simp [asCoords] at h2
        | real _ => simp [asCoords] at h2
        | str _ => simp [asCoords] at h2
        | nbrs _ => simp [asCoords] at h2
        | gate _ => simp [asCoords] at h2

theorem Layout.checkOverlapPair_ok_iff {l₁ l₂ : Layout} (h₁ : l₁.Inv) (h₂ : l₂.Inv) :
    checkOverlapPair l₁ l₂ = .ok () ↔ l₁.HasCoords ∧ l₂.HasCoords ∧ l₁.DisjointFrom l₂ := by
  unfold checkOverlapPair
  simp only [getInds_all h₁, getInds_all h₂]
  have hval : ∀ {l : Layout}, l.Inv → ∀ i, i ∈ l.qubitInds.map Prod.snd ↔
      ∃ q, l.qubitInds.get? q = some i := by
    intro l hl i
    simp only [List.mem_map, Prod.exists]
    constructor
    · rintro ⟨q, j, hm, rfl⟩
      exact ⟨q, Dict.get?_of_mem (by rw [hl.indKeys]; exact hl.nodup) hm⟩
    · rintro ⟨q, hq⟩
      exact ⟨q, i, Dict.mem_of_get? hq, rfl⟩
  have hq : ∀ {l : Layout} {q c}, l.param "coords" q = .ok (.coords c) → q ∈ l.graph.nodes.keys := by
    intro l q c h
    unfold param at h
    cases hg : l.graph.nodes.get? q with
    | none => rw [hg] at h; simp at h
    | some a => rw [← Dict.get?_isSome_iff, hg]; rfl
  by_cases m1 : meets l₁.graph.nodes.keys l₂.graph.nodes.keys = true
  · rw [if_pos m1]
    simp only [reduceCtorEq, false_iff, not_and]
    intro _ _ h
    have := (meets_iff _ _).2 h.labels
    rw [this] at m1; simp at m1
  · rw [if_neg m1]
    by_cases m2 : meets (l₁.qubitInds.map Prod.snd) (l₂.qubitInds.map Prod.snd) = true
    · rw [if_pos m2]
      simp only [reduceCtorEq, false_iff, not_and]
      intro _ _ h
      have : meets (l₁.qubitInds.map Prod.snd) (l₂.qubitInds.map Prod.snd) = false := by
        rw [meets_iff]
        intro i hi hi'
        obtain ⟨q, hq⟩ := (hval h₁ i).1 hi
        obtain ⟨q', hq'⟩ := (hval h₂ i).1 hi'
        exact h.inds q q' i hq hq'
      rw [this] at m2; simp at m2
    · rw [if_neg m2]
      by_cases c1 : l₁.HasCoords
      · by_cases c2 : l₂.HasCoords
        · obtain ⟨cs₁, e1, f1⟩ := getCoords_all_ok h₁ c1
          obtain ⟨cs₂, e2, f2⟩ := getCoords_all_ok h₂ c2
          rw [e1, e2]
          simp only
          by_cases m3 : meets cs₁ cs₂ = true
          · rw [if_pos m3]
            simp only [reduceCtorEq, false_iff, not_and]
            intro _ _ h
            have : meets cs₁ cs₂ = false := by
              rw [meets_iff]
              intro c hc hc'
              obtain ⟨q, -, hq⟩ := (f1 c).1 hc
              obtain ⟨q', -, hq'⟩ := (f2 c).1 hc'
              exact h.coords q q' c hq hq'
            rw [this] at m3; simp at m3
          · rw [if_neg m3]
            by_cases m4 : meets l₁.logQubits l₂.logQubits = true
            · rw [if_pos m4]
              simp only [reduceCtorEq, false_iff, not_and]
              intro _ _ h
              have := (meets_iff _ _).2 h.logical
              rw [this] at m4; simp at m4
            · rw [if_neg m4]
              simp only [Bool.not_eq_true] at m1 m2 m3 m4
              rw [meets_iff] at m1 m2 m3 m4
              refine ⟨fun _ => ⟨c1, c2, m1, ?_, ?_, m4⟩, fun _ => rfl⟩
              · intro q q' i h h'
                exact m2 i ((hval h₁ i).2 ⟨q, h⟩) ((hval h₂ i).2 ⟨q', h'⟩)
              · intro q q' c h h'
                exact m3 c ((f1 c).2 ⟨q, hq h, h⟩) ((f2 c).2 ⟨q', hq h', h'⟩)
        · obtain ⟨e, he⟩ := getCoords_all_error h₂ c2
          obtain ⟨cs₁, e1, -⟩ := getCoords_all_ok h₁ c1
          rw [e1, he]
          simp [c2]
      · obtain ⟨e, he⟩ := getCoords_all_error h₁ c1
        rw [he]
        simp [c1]

/-- **C10** `check_overlap_layouts` accepts exactly the sequences with at most one layout, or whose
layouts all have coordinates and are pairwise disjoint in labels, indices, coordinates and logical
labels. -/
theorem C10_accepts_iff_disjoint (ls : List Layout) (hl : ∀ l ∈ ls, Reachable l) :
    Layout.checkOverlap ls = .ok () ↔ ls.length ≤ 1 ∨
      ((∀ l ∈ ls, l.HasCoords) ∧ ls.Pairwise Layout.DisjointFrom) := by
  have key : ∀ ls : List Layout, (∀ l ∈ ls, l.Inv) →
      (checkOverlapLoop ls = .ok () ↔ ls.Pairwise fun l₁ l₂ =>
        l₁.HasCoords ∧ l₂.HasCoords ∧ l₁.DisjointFrom l₂) := by
    intro ls
    induction ls with
    | nil => simp [checkOverlapLoop]
    | cons l ls ih =>
      intro hI
      have ih := ih fun l' hl' => hI l' (List.mem_cons_of_mem _ hl')
      rw [List.pairwise_cons, checkOverlapLoop, ← ih]
      cases hm : mapExcept ls (checkOverlapPair l) with
      | error e =>
        simp only [reduceCtorEq, false_iff, not_and]
        intro h
        obtain ⟨l', hl', he⟩ := mapExcept_error hm
        have := (checkOverlapPair_ok_iff (hI l (by simp)) (hI l' (List.mem_cons_of_mem _ hl'))).2 (h l' hl')
        rw [this] at he
        simp at he
      | ok r =>
        simp only
        refine ⟨fun h => ⟨?_, h⟩, fun h => h.2⟩
        intro l' hl'
        obtain ⟨b, -, hb⟩ := mapExcept_map_ok hm l' hl'
        exact (checkOverlapPair_ok_iff (hI l (by simp)) (hI l' (List.mem_cons_of_mem _ hl'))).1 hb
  have hI : ∀ l ∈ ls, l.Inv := fun l h => inv_of_reachable (hl l h)
  unfold checkOverlap
  by_cases h1 : ls.length = 1
  · rw [if_pos h1]; simp [h1]
  · rw [if_neg h1, key ls hI]
    match ls, h1 with
    | [], _ => simp
    | [a], h => simp at h
    | a :: b :: rest, _ =>
      have : ¬ (a :: b :: rest).length ≤ 1 := by simp
      simp only [this, false_or]
      constructor
      · intro h
        refine ⟨?_, h.imp fun h => h.2.2⟩
        intro l hl
        rw [List.pairwise_cons] at h
        rcases List.mem_cons.1 hl with rfl | hl
        · exact (h.1 b (by simp)).1
        · exact (h.1 l hl).2.1
      · rintro ⟨h2, h3⟩
        refine List.Pairwise.imp_of_mem ?_ h3
        intro x y hx hy hxy
        exact ⟨h2 x hx, h2 y hy, hxy⟩

/-- A copy of the example layout with other labels. -/
def exLayoutSetup' (ind : Int) (row : Rat) : LayoutSetup :=
  { name := none, code := none, logQubits := some ["L1"], distance := none,
    distanceZ := none, distanceX := none, logZ := some [("L1", ["D7"])],
    logX := some [("L1", ["D7"])], description := none, interactionOrder := none,
    layout := some [⟨some "D7", [("role", .str "data"), ("coords", .coords [row, 1]),
      ("ind", .int ind), ("neighbors", .nbrs [])]⟩] }

example : ((Layout.init (exLayoutSetup (.int 5) "L0" "Z1")).bind fun a =>
    (Layout.init (exLayoutSetup' 6 9)).bind fun b => Layout.checkOverlap [a, b]) = .ok () := by
  decide +kernel
example : ((Layout.init (exLayoutSetup (.int 5) "L0" "Z1")).bind fun a =>
    (Layout.init (exLayoutSetup' 5 9)).bind fun b => Layout.checkOverlap [a, b]) =
      .error .valueError := by decide +kernel
example : ((Layout.init (exLayoutSetup (.int 5) "L0" "Z1")).bind fun a =>
    (Layout.init (exLayoutSetup' 6 1)).bind fun b => Layout.checkOverlap [a, b]) =
      .error .valueError := by decide +kernel

/-! ### C46: get_neighbors -/

theorem Layout.get?_outEdges (d : Dict String (Option String)) (q dir : String) :
    (outEdges d).get? q = some dir ↔ ∃ pre post, d = pre ++ (dir, some q) :: post ∧
      ∀ dir', (dir', some q) ∉ post := by
  induction d using List.reverseRecOn with
  | nil => simp [outEdges]
  | append_singleton d kv ih =>
    obtain ⟨k, v⟩ := kv
    have hstep : outEdges (d ++ [(k, v)]) = addEdge (outEdges d) (k, v) := by
      simp [outEdges, List.foldl_append]
    rw [hstep]
    have hold : ∀ (hv : v ≠ some q), (∃ pre post, d ++ [(k, v)] = pre ++ (dir, some q) :: post ∧
        ∀ dir', (dir', some q) ∉ post) ↔ ∃ pre post, d = pre ++ (dir, some q) :: post ∧
        ∀ dir', (dir', some q) ∉ post := by
      intro hv
      constructor
      · rintro ⟨pre, post, he, hp⟩
        rcases List.eq_nil_or_concat post with rfl | ⟨post', x, rfl⟩
        · exfalso
          have := List.append_inj' he rfl
          simp at this
          exact hv this.2.2
        · have : d ++ [(k, v)] = (pre ++ (dir, some q) :: post') ++ [x] := by
            rw [he]; simp
          have := List.append_inj' this rfl
          exact ⟨pre, post', this.1, fun dir' hm => hp dir' (by simp [hm])⟩
      · rintro ⟨pre, post, rfl, hp⟩
        refine ⟨pre, post ++ [(k, v)], by simp, ?_⟩
        intro dir' hm
        rcases List.mem_append.1 hm with hm | hm
        · exact hp dir' hm
        · simp at hm; exact hv hm.2.symm
    cases v with
    | none =>
      rw [hold (by simp), ← ih]
      rfl
    | some q' =>
      by_cases hq : q' = q
      · subst hq
        simp only [addEdge, Dict.get?_set_self, Option.some.injEq]
        constructor
        · rintro rfl
          exact ⟨d, [], rfl, by simp⟩
        · rintro ⟨pre, post, he, hp⟩
          rcases List.eq_nil_or_concat post with rfl | ⟨post', x, rfl⟩
          · have := List.append_inj' he rfl
            simp at this
            exact this.2
          · exfalso
            have : d ++ [(k, some q')] = (pre ++ (dir, some q') :: post') ++ [x] := by
              rw [he]; simp
            have := (List.append_inj' this rfl).2
            simp only [List.cons.injEq, and_true] at this
            exact hp k (by simp [← this])
      · rw [hold (by simpa using hq), ← ih]
        simp only [addEdge]
        rw [Dict.get?_set_ne _ hq]

theorem Layout.mem_dedup {α : Type} [DecidableEq α] (qs : List α) (q : α) : q ∈ dedup qs ↔ q ∈ qs := by
  induction qs with
  | nil => simp [dedup]
  | cons a qs ih =>
    by_cases h : q = a
    · simp [dedup, h]
    · simp [dedup, h, ih]

theorem Layout.nodup_dedup {α : Type} [DecidableEq α] (qs : List α) : (dedup qs).Nodup := by
  induction qs with
  | nil => simp [dedup]
  | cons a qs ih =>
    rw [dedup, List.nodup_cons]
    exact ⟨by simp, ih.filter _⟩

theorem Layout.dedup_of_nodup {α : Type} [DecidableEq α] {qs : List α} (h : qs.Nodup) : dedup qs = qs := by
  induction qs with
  | nil => rfl
  | cons a qs ih =>
    rw [List.nodup_cons] at h
    rw [dedup, ih h.2, List.filter_eq_self.2]
    intro x hx
    simp only [ne_eq, decide_not, Bool.not_eq_eq_eq_not, Bool.not_true, decide_eq_false_iff_not]
    rintro rfl
    exact h.1 hx

theorem Layout.mem_getNeighborPairs {l : Layout} (hl : l.Inv) (qs : List String)
    (dir : Option String) (q q' : String) :
    (q, q') ∈ l.getNeighborPairs qs dir ↔ q ∈ qs ∧ ∃ a d, l.graph.adj.get? q = some a ∧
      a.get? q' = some d ∧ (dir = none ∨ dir = some d) := by
  unfold getNeighborPairs outEdgeView
  simp only [List.mem_map, List.mem_filter, List.mem_flatMap, Bool.decide_or, Bool.or_eq_true,
    decide_eq_true_eq, mem_dedup, Dict.has_iff, Prod.exists, Prod.mk.injEq]
  constructor
  · rintro ⟨x, y, z, ⟨⟨w, ⟨hw, hn⟩, u, d, hm, rfl, rfl, rfl⟩, hdir⟩, rfl, rfl⟩
    refine ⟨hw, ?_⟩
    cases ha : l.graph.adj.get? w with
    | none => rw [ha] at hm; simp at hm
    | some a =>
      rw [ha] at hm
      have hok := (hl.adjOk _ (Dict.mem_of_get? ha)).1
      refine ⟨a, d, rfl, Dict.get?_of_mem hok hm, ?_⟩
      rcases hdir with h | h
      · exact Or.inl h
      · exact Or.inr h.symm
  · rintro ⟨hq, a, d, ha, hd, hdir⟩
    refine ⟨q, q', d, ⟨⟨q, ⟨hq, ?_⟩, q', d, ?_, rfl, rfl, rfl⟩, ?_⟩, rfl, rfl⟩
    · rw [← hl.adjKeys, ← Dict.get?_isSome_iff, ha]; rfl
    · rw [ha]; exact Dict.mem_of_get? hd
    · rcases hdir with h | h
      · exact Or.inl h
      · exact Or.inr h.symm

theorem Layout.adj_of_init {s : LayoutSetup} {l : Layout} (h : Layout.init s = .ok l)
    {infos : List QubitInfo} (hs : s.layout = some infos) {q : String} {a : Dict String String} :
    l.graph.adj.get? q = some a ↔ ∃ info ∈ infos, ∃ d, info.qubit = some q ∧
      info.attrs.get? "neighbors" = some (.nbrs d) ∧ a = outEdges d := by
  obtain ⟨-, h2, -⟩ := (init_ok_iff s l).1 h
  obtain ⟨infos', hl, hq, -, hn, hnodes, hadj, -⟩ := (loadLayout_ok_iff _ _ _).1 h2
  rw [hs] at hl
  simp only [Option.some.injEq] at hl
  subst hl
  have hk : l.graph.adj.keys = (nodesOf infos).keys :=
    forall₂_keys hadj (by rintro n b ⟨d, -, -, rfl⟩; rfl)
  have hlab : ∀ i ∈ infos, i.qubit = some (i.qubit.getD "") := by
    intro i hi
    have := hq i hi
    cases h : i.qubit with
    | none => exact absurd h this
    | some q => rfl
  constructor
  · intro ha
    obtain ⟨n, hn', d, hd, -, he⟩ := forall₂_mem_right hadj _ (Dict.mem_of_get? ha)
    simp only [nodesOf, List.mem_map] at hn'
    obtain ⟨i, hi, rfl⟩ := hn'
    simp only [Prod.mk.injEq] at he
    exact ⟨i, hi, d, by rw [hlab i hi, he.1], hd, he.2⟩
  · rintro ⟨i, hi, d, hiq, hd, rfl⟩
    have hmem : (i.qubit.getD "", i.attrs) ∈ nodesOf infos :=
      List.mem_map_of_mem (f := fun i : QubitInfo => (i.qubit.getD "", i.attrs)) hi
    obtain ⟨b, hb, d', hd', -, rfl⟩ := forall₂_mem_right hadj.flip _ hmem
    simp only at hd' hb
    rw [hd] at hd'
    simp only [Option.some.injEq, Val.nbrs.injEq] at hd'
    subst hd'
    rw [hiq] at hb
    exact Dict.get?_of_mem (by rw [hk]; exact hn) hb

/-- **C46** `get_neighbors` of a loaded layout: `(q, q')` is returned iff `q` was asked for and the
setup names `q'` as neighbour of `q` in the asked direction (if one neighbour is named in several
directions, the last one counts). -/
theorem C46_neighbors_as_given (s : LayoutSetup) (l : Layout) (hs : s.Genuine)
    (h : Layout.init s = .ok l) (infos : List QubitInfo) (hi : s.layout = some infos)
    (qs : List String) (dir : Option String) (q q' : String) :
    (q, q') ∈ l.getNeighborPairs qs dir ↔ q ∈ qs ∧ ∃ info ∈ infos, info.qubit = some q ∧
      ∃ d pre post dir', info.attrs.get? "neighbors" = some (.nbrs d) ∧
        d = pre ++ (dir', some q') :: post ∧ (∀ x, (x, some q') ∉ post) ∧
        (dir = none ∨ dir = some dir') := by
  rw [mem_getNeighborPairs (inv_of_init hs h)]
  refine and_congr_right fun _ => ?_
  constructor
  · rintro ⟨a, d, ha, hd, hdir⟩
    obtain ⟨info, hinfo, dd, hq, hn, rfl⟩ := (adj_of_init h hi).1 ha
    obtain ⟨pre, post, he, hp⟩ := (get?_outEdges _ _ _).1 hd
    exact ⟨info, hinfo, hq, dd, pre, post, d, hn, he, hp, hdir⟩
  · rintro ⟨info, hinfo, hq, dd, pre, post, d, hn, he, hp, hdir⟩
    exact ⟨outEdges dd, d, (adj_of_init h hi).2 ⟨info, hinfo, dd, hq, hn, rfl⟩,
      (get?_outEdges _ _ _).2 ⟨pre, post, he, hp⟩, hdir⟩

/-- **C46** Repeated and unknown labels are dropped, and the answer lists the qubits in the order
asked for; with a direction every qubit has at most one neighbour. -/
theorem C46_order (l : Layout) (hl : Reachable l) (qs : List String) (dir : String) :
    ((l.getNeighborPairs qs (some dir)).map Prod.fst).Sublist (Layout.dedup qs) ∧
    ((l.getNeighborPairs qs (some dir)).map Prod.fst).Nodup ∧
    l.getNeighbors qs (some dir) = (l.getNeighborPairs qs (some dir)).map Prod.snd ∧
    (∀ qs', l.getNeighborPairs (qs ++ qs') (some dir) =
      l.getNeighborPairs qs (some dir) ++
        l.getNeighborPairs (qs'.filter fun q => decide (q ∉ qs)) (some dir)) := by
  have hi := inv_of_reachable hl
  have key : ∀ L : List String, ((((L.filter fun q => l.graph.nodes.has q).flatMap fun q =>
      ((l.graph.adj.get? q).getD []).map fun kv => (q, kv.1, kv.2)).filter
        fun e => some dir = none ∨ some e.2.2 = some dir).map fun e => (e.1, e.2.1)).map Prod.fst
      |>.Sublist L := by
    intro L
    induction L with
    | nil => simp
    | cons q L ih =>
      rw [List.filter_cons]
      split
      · simp only [List.flatMap_cons, List.filter_append, List.map_append]
        have h1 : (((((l.graph.adj.get? q).getD []).map fun kv => (q, kv.1, kv.2)).filter
            fun e => some dir = none ∨ some e.2.2 = some dir).map fun e => (e.1, e.2.1)).map Prod.fst
            |>.Sublist [q] := by
          cases ha : l.graph.adj.get? q with
          | none => simp
          | some a =>
            have hok := (hi.adjOk _ (Dict.mem_of_get? ha)).2.1
            simp only [Option.getD_some]
            clear ha
            induction a with
            | nil => simp
            | cons kv a iha =>
              simp only [List.map_cons, List.nodup_cons] at hok
              rw [List.map_cons, List.filter_cons]
              split
              · rename_i hd
                simp only [reduceCtorEq, Option.some.injEq, false_or, decide_eq_true_eq] at hd
                have : ((a.map fun kv => (q, kv.1, kv.2)).filter
                    fun e => decide (some dir = none ∨ some e.2.2 = some dir)) = [] := by
                  rw [List.filter_eq_nil_iff]
                  intro e he
                  simp only [List.mem_map] at he
                  obtain ⟨kv', hm, rfl⟩ := he
                  simp only [reduceCtorEq, Option.some.injEq, false_or, decide_eq_true_eq]
                  intro h
                  exact hok.1 (hd.trans h.symm ▸ List.mem_map_of_mem (f := Prod.snd) hm)
                rw [this]
                simp
              · exact iha hok.2
        have := h1.append ih
        simpa using this
      · exact ih.trans (List.sublist_cons_self q L)
  have hsub := key (dedup qs)
  refine ⟨hsub, hsub.nodup (nodup_dedup qs), rfl, ?_⟩
  intro qs'
  unfold getNeighborPairs outEdgeView
  have hdd : ∀ xs : List String, dedup (xs ++ qs') = dedup xs ++
      dedup (qs'.filter fun q => decide (q ∉ xs)) := by
    have hf : ∀ (ys : List String) (p : String → Bool), dedup (ys.filter p) = (dedup ys).filter p := by
      intro ys p
      induction ys with
      | nil => rfl
      | cons a ys ih =>
        by_cases hp : p a = true
        · rw [List.filter_cons_of_pos hp, dedup, dedup, List.filter_cons_of_pos hp, ih,
            List.filter_filter, List.filter_filter]
          congr 2
          funext x
          rw [Bool.and_comm]
        · rw [List.filter_cons_of_neg hp, dedup, List.filter_cons_of_neg hp, ih, List.filter_filter]
          apply List.filter_congr
          intro x _
          by_cases hx : x = a
          · subst hx; simp [hp]
          · simp [hx]
    intro xs
    induction xs with
    | nil => simp [dedup]
    | cons x xs ih =>
      rw [List.cons_append, dedup, ih, List.filter_append, dedup, List.cons_append]
      congr 2
      rw [hf, hf, List.filter_filter]
      apply List.filter_congr
      intro y _
      simp [Bool.and_comm]
  rw [hdd qs, List.filter_append, List.flatMap_append, List.filter_append, List.map_append]

example : ((Layout.init (exLayoutSetup (.int 5) "L0" "Z1")).map fun l =>
    (l.getNeighborPairs ["Z1", "D1", "Q9", "Z1"] none,
      l.getNeighbors ["D1", "Z1"] (some "south_west"))) =
    .ok ([("Z1", "D1"), ("D1", "Z1")], ["D1"]) := by decide +kernel

/-! ### C47: projection_matrix -/

/-- **C47** The projection matrix has one row per data qubit and one column per ancilla of the asked
type, in layout order, and an entry is set iff the ancilla is a neighbour of the data qubit. -/
theorem C47_projection (l : Layout) (hl : Reachable l) (t : Val) (data anc : List String)
    (m : List (List Bool)) (h : l.projection t = .ok (data, anc, m)) :
    l.getQubits [("role", .str "data")] = .ok data ∧
    l.getQubits [("role", .str "anc"), ("stab_type", t)] = .ok anc ∧
    m.length = data.length ∧ (∀ row ∈ m, row.length = anc.length) ∧
    ∀ (i j : Nat) d a, data[i]? = some d → anc[j]? = some a →
      (m[i]?.bind (·[j]?) = some true ↔ a ∈ l.getNeighbors [d] none) := by
  unfold projection at h
  cases h1 : l.getQubits [("role", .str "anc"), ("stab_type", t)] with
  | error e => rw [h1] at h; simp at h
  | ok anc' =>
    rw [h1] at h
    simp only at h
    cases h2 : l.getQubits [("role", .str "data")] with
    | error e => rw [h2] at h; simp at h
    | ok data' =>
      rw [h2] at h
      simp only [Except.ok.injEq, Prod.mk.injEq] at h
      obtain ⟨rfl, rfl, rfl⟩ := h
      refine ⟨rfl, rfl, by simp, by simp, ?_⟩
      intro i j d a hd ha
      rw [List.getElem?_map, hd]
      simp only [Option.map_some, Option.bind_some]
      rw [List.getElem?_map, ha]
      simp only [Option.map_some, Option.some.injEq]
      unfold getNeighbors
      simp only [List.mem_map, Prod.exists, exists_eq_right,
        mem_getNeighborPairs (inv_of_reachable hl), List.mem_singleton, true_or, and_true]
      unfold adjacency
      rw [Dict.has_iff, ← Dict.get?_isSome_iff]
      constructor
      · intro h
        cases hadj : l.graph.adj.get? d with
        | none => rw [hadj] at h; simp at h
        | some b =>
          rw [hadj, Option.getD_some] at h
          obtain ⟨x, hx⟩ := Option.isSome_iff_exists.1 h
          exact ⟨d, rfl, b, x, hadj, hx⟩
      · rintro ⟨_, rfl, b, x, hb, hx⟩
        rw [hb, Option.getD_some, hx]
        rfl

/-! ### C48: expansion_matrix -/

theorem Layout.indexCoords_spec (so : SetOrder) (cs : List Rat) (rev : Bool) :
    ∃ f : Rat → Nat, indexCoords so cs rev = .ok (cs.map f, (dedup cs).length) ∧
      (∀ c ∈ cs, f c < (dedup cs).length) ∧ (∀ c ∈ cs, ∀ c' ∈ cs, f c = f c' → c = c') ∧
      ∀ i < (dedup cs).length, ∃ c ∈ cs, f c = i := by
  have hp := so.perm (dedup cs)
  have hnd : (so.ord (dedup cs)).Nodup := hp.nodup_iff.2 (nodup_dedup cs)
  have hlen : (so.ord (dedup cs)).length = (dedup cs).length := hp.length_eq
  generalize hU : so.ord (dedup cs) = U at hp hnd hlen
  obtain ⟨inds, hinds, hil, hin, hib⟩ : ∃ inds : List Nat, inds =
      (if rev then (List.range U.length).reverse else List.range U.length) ∧
      inds.length = U.length ∧ inds.Nodup ∧ ∀ i, i ∈ inds ↔ i < U.length := by
    refine ⟨_, rfl, ?_, ?_, ?_⟩
    · split <;> simp
    · split
      · exact List.nodup_reverse.2 List.nodup_range
      · exact List.nodup_range
    · intro i
      split <;> simp
  have hkeys : Dict.keys (U.zip inds) = U := by
    unfold Dict.keys
    exact List.map_fst_zip (by omega)
  have hvals : (U.zip inds).map Prod.snd = inds := List.map_snd_zip (by omega)
  have hget : ∀ c ∈ cs, ∃ i, Dict.get? (U.zip inds) c = some i := by
    intro c hc
    have : c ∈ Dict.keys (U.zip inds) := by
      rw [hkeys, hp.mem_iff]; exact (mem_dedup _ _).2 hc
    exact Option.isSome_iff_exists.1 ((Dict.get?_isSome_iff _ _).2 this)
  refine ⟨fun c => ((Dict.get? (U.zip inds) c).getD 0), ?_, ?_, ?_, ?_⟩
  · unfold indexCoords
    simp only [hU, ← hinds]
    rw [mapExcept_ok cs _ (fun c => ((Dict.get? (U.zip inds) c).getD 0))]
    · simp only [hlen]
    · intro c hc
      obtain ⟨i, hi⟩ := hget c hc
      rw [Dict.getE_ok_iff, hi]
      rfl
  · intro c hc
    obtain ⟨i, hi⟩ := hget c hc
    simp only
    rw [hi, ← hlen]
    refine (hib i).1 ?_
    rw [← hvals]
    exact List.mem_map_of_mem (f := Prod.snd) (Dict.mem_of_get? hi)
  · intro c hc c' hc' he
    obtain ⟨i, hi⟩ := hget c hc
    obtain ⟨i', hi'⟩ := hget c' hc'
    simp only at he
    rw [hi, hi'] at he
    simp only [Option.getD_some] at he
    subst he
    have := List.inj_on_of_nodup_map (f := Prod.snd) (by rw [hvals]; exact hin)
      (Dict.mem_of_get? hi) (Dict.mem_of_get? hi') rfl
    simpa using this
  · intro i hi
    rw [← hlen, ← hib, ← hvals] at hi
    obtain ⟨⟨c, j⟩, hm, rfl⟩ := List.mem_map.1 hi
    have hg := Dict.get?_of_mem (by rw [hkeys]; exact hnd) hm
    refine ⟨c, ?_, by simp [hg]⟩
    have : c ∈ Dict.keys (U.zip inds) := List.mem_map_of_mem (f := Prod.fst) hm
    rw [hkeys, hp.mem_iff] at this
    exact (mem_dedup _ _).1 this

/-- **C48** `expansion_matrix` places every ancilla in one cell inside the grid; two ancillas are in
the same row (column) of the matrix iff they have the same row (column) coordinate; no row and no
column is empty. -/
theorem C48_expansion (so : SetOrder) (l : Layout) (hl : Reachable l)
    (cells : List (String × Nat × Nat)) (nr nc : Nat)
    (h : l.expansion so = .ok (cells, nr, nc)) :
    ∃ anc, l.getQubits [("role", .str "anc")] = .ok anc ∧ cells.map Prod.fst = anc ∧
      (∀ q i j, (q, i, j) ∈ cells → i < nr ∧ j < nc) ∧
      (∀ i < nr, ∃ q j, (q, i, j) ∈ cells) ∧ (∀ j < nc, ∃ q i, (q, i, j) ∈ cells) ∧
      (∀ q i j q' i' j' r c r' c', (q, i, j) ∈ cells → (q', i', j') ∈ cells →
        l.param "coords" q = .ok (.coords [r, c]) → l.param "coords" q' = .ok (.coords [r', c']) →
        (i = i' ↔ r = r') ∧ (j = j' ↔ c = c')) ∧
      (∀ q i j, (q, i, j) ∈ cells → ∃ r c, l.param "coords" q = .ok (.coords [r, c])) := by
  have hI := inv_of_reachable hl
  unfold expansion at h
  cases h1 : mapExcept l.graph.nodes (fun n => n.2.getE "role") with
  | error e => rw [h1] at h; simp at h
  | ok _ =>
    rw [h1] at h
    simp only at h
    generalize hA : (l.graph.nodes.filter fun n => decide (n.2.get? "role" = some (.str "anc"))) = A at h
    have hAm : ∀ n ∈ A, n ∈ l.graph.nodes := by
      intro n hn; rw [← hA] at hn; exact (List.mem_filter.1 hn).1
    cases h2 : mapExcept A gridCoord with
    | error e => rw [h2] at h; simp at h
    | ok cs =>
      rw [h2] at h
      simp only at h
      obtain ⟨f, hf1, hf2, hf3, hf4⟩ := indexCoords_spec so (cs.map Prod.fst) true
      obtain ⟨g, hg1, hg2, hg3, hg4⟩ := indexCoords_spec so (cs.map Prod.snd) false
      split at h
      · simp at h
      · rw [hf1, hg1] at h
        simp only [Except.ok.injEq, Prod.mk.injEq] at h
        obtain ⟨rfl, rfl, rfl⟩ := h
        have hF := (mapExcept_ok_iff _ _ _).1 h2
        have hcells : List.Forall₂ (fun n x => x.1 = n.1 ∧ ∃ r c, gridCoord n = .ok (r, c) ∧
            (r, c) ∈ cs ∧ x.2 = (f r, g c)) A
            ((A.map Prod.fst).zip (((cs.map Prod.fst).map f).zip ((cs.map Prod.snd).map g))) := by
          clear h2 hf1 hf2 hf3 hg1 hg2 hg3 hAm hA
          have : ∀ (A : List (String × Dict String Val)) (cs' : List (Rat × Rat)),
              (∀ x ∈ cs', x ∈ cs) → List.Forall₂ (fun a b => gridCoord a = .ok b) A cs' →
              List.Forall₂ (fun n x => x.1 = n.1 ∧ ∃ r c, gridCoord n = .ok (r, c) ∧
                (r, c) ∈ cs ∧ x.2 = (f r, g c)) A
                ((A.map Prod.fst).zip (((cs'.map Prod.fst).map f).zip ((cs'.map Prod.snd).map g))) := by
            intro A cs' hsub hF'
            induction hF' with
            | nil => exact List.Forall₂.nil
            | @cons a b A' cs' hab _ ih =>
              simp only [List.map_cons, List.zip_cons_cons]
              refine List.Forall₂.cons ⟨rfl, b.1, b.2, hab, hsub _ (by simp), rfl⟩ ?_
              exact ih (fun x hx => hsub x (List.mem_cons_of_mem _ hx))
          exact this A cs (fun x hx => hx) hF
        have hgrid : ∀ n ∈ A, ∀ r c, gridCoord n = .ok (r, c) ↔
            l.param "coords" n.1 = .ok (.coords [r, c]) := by
          intro n hn r c
          rw [param_node_iff hI (hAm n hn) _ (by simp)]
          unfold gridCoord
          cases hc : n.2.get? "coords" with
          | none => simp [Dict.getE, hc]
          | some v =>
            simp only [Dict.getE, hc]
            cases v with
            | coords xs =>
              simp only [asCoords, Option.some.injEq, Val.coords.injEq]
              match xs with
              | [] => simp [pairOf]
              | [a] => simp [pairOf]
              | [a, b] => simp [pairOf]
              | a :: b :: d :: xs => simp [pairOf]
            | none => simp [asCoords]
            | int _ => simp [asCoords]
            | real _ => simp [asCoords]
            | str _ => simp [asCoords]
            | nbrs _ => simp [asCoords]
            | gate _ => simp [asCoords]
        have hback : ∀ rc ∈ cs, ∃ n ∈ A, gridCoord n = .ok rc := forall₂_mem_right hF
        have hmem : ∀ n ∈ A, ∀ rc, gridCoord n = .ok rc → (n.1, f rc.1, g rc.2) ∈
            (A.map Prod.fst).zip (((cs.map Prod.fst).map f).zip ((cs.map Prod.snd).map g)) := by
          intro n hn rc hrc
          obtain ⟨x, hx, e1, r, c, e2, -, e3⟩ := forall₂_mem_right hcells.flip n hn
          rw [hrc] at e2
          simp only [Except.ok.injEq] at e2
          subst e2
          have : x = (n.1, f r, g c) := Prod.ext e1 e3
          rw [← this]
          exact hx
        refine ⟨A.map Prod.fst, ?_, ?_, ?_, ?_, ?_, ?_, ?_⟩
        · have hok : ∃ r, l.getQubits [("role", .str "anc")] = .ok r := by
            cases hr : l.getQubits [("role", .str "anc")] with
            | ok r => exact ⟨r, rfl⟩
            | error e =>
              exfalso
              obtain ⟨hk1, hk2⟩ := C09_missing_attribute l [("role", .str "anc")]
              rw [hk1 e hr] at hr
              obtain ⟨q, attrs, pre, k, v, post, hn, hc, hk, -⟩ := hk2.1 hr
              have : k = "role" := by
                cases pre with
                | nil => simp at hc; exact hc.1.1.symm
                | cons p pre =>
                  simp only [List.cons_append, List.cons.injEq] at hc
                  have := hc.2
                  simp at this
              subst this
              obtain ⟨b, -, hb⟩ := mapExcept_map_ok h1 _ hn
              rw [Dict.getE_ok_iff, hk] at hb
              simp at hb
          obtain ⟨r, hr⟩ := hok
          rw [hr]
          unfold getQubits at hr
          simp only [List.isEmpty_cons, Bool.false_eq_true, if_false] at hr
          rw [filterNodes_ok _ _ _ hr, ← hA]
          unfold Dict.keys
          congr 2
          apply List.filter_congr
          intro n _
          rw [Bool.eq_iff_iff, decide_eq_true_iff, decide_eq_true_iff, validAttrs_true_iff]
          simp
        · exact List.map_fst_zip (by simp [hF.length_eq])
        · intro q i j hm
          obtain ⟨n, hn, -, r, c, -, hrc, he⟩ := forall₂_mem_right hcells _ hm
          simp only [Prod.mk.injEq] at he
          rw [he.1, he.2]
          exact ⟨hf2 r (List.mem_map_of_mem (f := Prod.fst) hrc),
            hg2 c (List.mem_map_of_mem (f := Prod.snd) hrc)⟩
        · intro i hi
          obtain ⟨r, hr, rfl⟩ := hf4 i hi
          obtain ⟨rc, hrc, rfl⟩ := List.mem_map.1 hr
          obtain ⟨n, hn, hg⟩ := hback rc hrc
          exact ⟨n.1, g rc.2, hmem n hn rc hg⟩
        · intro j hj
          obtain ⟨c, hc, rfl⟩ := hg4 j hj
          obtain ⟨rc, hrc, rfl⟩ := List.mem_map.1 hc
          obtain ⟨n, hn, hg⟩ := hback rc hrc
          exact ⟨n.1, f rc.1, hmem n hn rc hg⟩
        · intro q i j q' i' j' r c r' c' hm hm' hp hp'
          obtain ⟨n, hn, e1, r1, c1, hgc, hrc, he⟩ := forall₂_mem_right hcells _ hm
          obtain ⟨n', hn', e1', r1', c1', hgc', hrc', he'⟩ := forall₂_mem_right hcells _ hm'
          simp only [Prod.mk.injEq] at he he' e1 e1'
          rw [hgrid n hn, ← e1, hp] at hgc
          rw [hgrid n' hn', ← e1', hp'] at hgc'
          simp only [Except.ok.injEq, Val.coords.injEq, List.cons.injEq, and_true] at hgc hgc'
          obtain ⟨rfl, rfl⟩ := hgc
          obtain ⟨rfl, rfl⟩ := hgc'
          rw [he.1, he.2, he'.1, he'.2]
          exact ⟨⟨hf3 _ (List.mem_map_of_mem (f := Prod.fst) hrc) _
              (List.mem_map_of_mem (f := Prod.fst) hrc'), fun h => by rw [h]⟩,
            ⟨hg3 _ (List.mem_map_of_mem (f := Prod.snd) hrc) _
              (List.mem_map_of_mem (f := Prod.snd) hrc'), fun h => by rw [h]⟩⟩
        · intro q i j hm
          obtain ⟨n, hn, e1, r1, c1, hgc, -, -⟩ := forall₂_mem_right hcells _ hm
          rw [hgrid n hn, ← e1] at hgc
          exact ⟨r1, c1, hgc⟩

example : ((Layout.init (exLayoutSetup (.int 5) "L0" "Z1")).bind fun l =>
    l.expansion SetOrder.insertion) = .ok ([("Z1", 0, 0)], 1, 1) := by decide +kernel
example : ((Layout.init (exLayoutSetup (.int 5) "L0" "Z1")).bind fun l =>
    l.projection (.str "z_type")) = .ok (["D1"], ["Z1"], [[true]]) := by decide +kernel

end SurfaceSim
