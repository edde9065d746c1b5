/-
The dictionary `neighbor_data` built by the layout generators, and the layouts built from it.
-/
import Verif.Spec.Grid
import Verif.Props.Layout
import Mathlib.Data.List.Induction
import Mathlib.Tactic.Ring

namespace SurfaceSim
namespace LayoutLib

/-- Looking up `neighbor_data[q][dir]`. -/
def look (nd : Dict String (Dict String String)) (q dir : String) : Option String :=
  ((nd.get? q).getD []).get? dir

theorem look_writeNbr (nd : Dict String (Dict String String)) (w : String × String × String)
    (q dir : String) :
    look (writeNbr nd w) q dir = if w.1 = q ∧ w.2.1 = dir then some w.2.2 else look nd q dir := by
  unfold look writeNbr
  rw [Dict.get?_set]
  by_cases h : w.1 = q
  · subst h
    simp only [if_true, Option.getD_some, Dict.get?_set, true_and]
  · simp [h]

theorem look_foldl (W : List (String × String × String))
    (hf : ∀ q d v v', (q, d, v) ∈ W → (q, d, v') ∈ W → v = v') (q dir v : String) :
    look (W.foldl writeNbr []) q dir = some v ↔ (q, dir, v) ∈ W := by
  induction W using List.reverseRecOn with
  | nil => simp [look]
  | append_singleton W w ih =>
    rw [List.foldl_append, List.foldl_cons, List.foldl_nil, look_writeNbr]
    have ih := ih fun q d v v' h h' => hf q d v v' (List.mem_append_left _ h) (List.mem_append_left _ h')
    obtain ⟨a, b, c⟩ := w
    simp only [List.mem_append, List.mem_singleton, Prod.mk.injEq]
    by_cases h : a = q ∧ b = dir
    · obtain ⟨rfl, rfl⟩ := h
      simp only [and_self, if_true, Option.some.injEq, true_and]
      constructor
      · rintro rfl; exact Or.inr rfl
      · rintro (h | rfl)
        · exact (hf a b v c (List.mem_append_left _ h) (by simp)).symm
        · rfl
    · rw [if_neg h, ih]
      constructor
      · exact Or.inl
      · rintro (h' | ⟨rfl, rfl, -⟩)
        · exact h'
        · exact absurd ⟨rfl, rfl⟩ h

theorem inner_nodup (W : List (String × String × String)) :
    ∀ q d, (W.foldl writeNbr []).get? q = some d → d.keys.Nodup := by
  induction W using List.reverseRecOn with
  | nil => simp
  | append_singleton W w ih =>
    intro q d h
    rw [List.foldl_append, List.foldl_cons, List.foldl_nil, writeNbr, Dict.get?_set] at h
    split at h
    · simp only [Option.some.injEq] at h
      subst h
      apply Dict.keys_nodup_set
      cases h2 : (W.foldl writeNbr []).get? w.1 with
      | none => simp [Dict.keys]
      | some d => simpa using ih _ _ h2
    · exact ih _ _ h

theorem nbrsOf_keys (nd : Dict String (Dict String String)) (q : String) :
    (nbrsOf nd q).keys = Dict.keys ((nd.get? q).getD []) := by
  simp [nbrsOf, Dict.keys, Function.comp_def]

theorem nbrsOf_nodup {nd : Dict String (Dict String String)}
    (h : ∀ q d, nd.get? q = some d → d.keys.Nodup) (q : String) : (nbrsOf nd q).keys.Nodup := by
  rw [nbrsOf_keys]
  cases h2 : nd.get? q with
  | none => simp [Dict.keys]
  | some d => simpa using h _ _ h2

theorem mem_nbrsOf {nd : Dict String (Dict String String)}
    (h : ∀ q d, nd.get? q = some d → d.keys.Nodup) (q dir v : String) :
    (dir, some v) ∈ nbrsOf nd q ↔ look nd q dir = some v := by
  unfold nbrsOf look
  simp only [List.mem_map, Prod.exists, Prod.mk.injEq, Option.some.injEq]
  constructor
  · rintro ⟨a, b, hm, rfl, rfl⟩
    cases h2 : nd.get? q with
    | none => rw [h2] at hm; simp at hm
    | some d => rw [h2] at hm; exact Dict.get?_of_mem (h _ _ h2) hm
  · intro hm
    exact ⟨dir, v, Dict.mem_of_get? hm, rfl, rfl⟩

theorem fill_spec (ks : List String) (d : Dict String (Option String)) (hd : d.keys.Nodup) :
    (Dict.keys (ks.foldl (fun acc k => if Dict.has acc k then acc else Dict.set acc k none) d)).Nodup ∧
    ∀ dir v, (dir, some v) ∈ (ks.foldl (fun acc k => if Dict.has acc k then acc
      else Dict.set acc k none) d) ↔ (dir, some v) ∈ d := by
  induction ks generalizing d with
  | nil => exact ⟨hd, fun _ _ => Iff.rfl⟩
  | cons k ks ih =>
    rw [List.foldl_cons]
    by_cases h : Dict.has d k = true
    · rw [if_pos h]; exact ih d hd
    · rw [if_neg h]
      obtain ⟨h1, h2⟩ := ih _ (Dict.keys_nodup_set hd k none)
      refine ⟨h1, fun dir v => ?_⟩
      rw [h2, Dict.set_fresh (by rw [← Dict.has_iff]; exact h)]
      simp

theorem addMissing_nodup {nd : Dict String (Dict String String)}
    (h : ∀ q d, nd.get? q = some d → d.keys.Nodup) (q : String) : (addMissing nd q).keys.Nodup := by
  unfold addMissing
  split
  · exact (fill_spec _ _ (nbrsOf_nodup h q)).1
  · simp [Dict.keys]

theorem mem_addMissing {nd : Dict String (Dict String String)}
    (h : ∀ q d, nd.get? q = some d → d.keys.Nodup) (q dir v : String) :
    (dir, some v) ∈ addMissing nd q ↔ look nd q dir = some v := by
  unfold addMissing
  split
  · rw [(fill_spec _ _ (nbrsOf_nodup h q)).2, mem_nbrsOf h]
  · rename_i hn
    rw [Dict.has_iff, ← Dict.get?_eq_none_iff] at hn
    simp [look, hn]

/-- What the loops of a generator have to provide. -/
structure GridData (L : List (String × Site × Kind)) (dataLabel : Site → String)
    (valid : Site → Bool) (dirs : List (Site × String × String)) : Prop where
  labels : (L.map Prod.fst).Nodup
  sites : (L.map fun e => e.2.1).Nodup
  data_label : ∀ q s, (q, s, Kind.data) ∈ L → q = dataLabel s ∧ valid s = true
  target : ∀ q s k sh d d', (q, s, k) ∈ L → k ≠ .data → (sh, d, d') ∈ dirs → valid (s + sh) = true →
    (dataLabel (s + sh), s + sh, Kind.data) ∈ L
  inv : ∀ sh d d', (sh, d, d') ∈ dirs → (-sh, d', d) ∈ dirs
  shifts : ∀ sh sh' d d1 d2, (sh, d, d1) ∈ dirs → (sh', d, d2) ∈ dirs → sh = sh'
  names : ∀ sh d d' d1 d2, (sh, d, d1) ∈ dirs → (sh, d', d2) ∈ dirs → d = d'

theorem unique_of_nodup {α β : Type} {L : List α} {f : α → β} (h : (L.map f).Nodup) {a b : α}
    (ha : a ∈ L) (hb : b ∈ L) (hab : f a = f b) : a = b :=
  List.inj_on_of_nodup_map h ha hb hab

variable {L : List (String × Site × Kind)} {dataLabel : Site → String} {valid : Site → Bool}
  {dirs : List (Site × String × String)}

/-- When `q` has `v` as neighbour in a direction. -/
def Rel (L : List (String × Site × Kind)) (dirs : List (Site × String)) (q dir v : String) : Prop :=
  ∃ s k s' k' sh, (q, s, k) ∈ L ∧ (v, s', k') ∈ L ∧ (sh, dir) ∈ dirs ∧ s' = s + sh ∧
    (k = .data ↔ k' ≠ .data)

/-- The shifts with their direction. -/
def names (dirs : List (Site × String × String)) : List (Site × String) :=
  dirs.map fun d => (d.1, d.2.1)

theorem mem_names {sh : Site} {d : String} : (sh, d) ∈ names dirs ↔ ∃ d', (sh, d, d') ∈ dirs := by
  unfold names
  simp only [List.mem_map, Prod.exists, Prod.mk.injEq]
  constructor
  · rintro ⟨a, b, c, d, h, h1, h2⟩
    subst h2
    exact ⟨d, by rw [← h1]; exact h⟩
  · rintro ⟨d', h⟩
    exact ⟨sh.1, sh.2, d, d', h, rfl, rfl⟩

theorem mem_writes (h : GridData L dataLabel valid dirs) (q dir v : String) :
    (q, dir, v) ∈ L.flatMap (nbrWrites dataLabel valid dirs) ↔ Rel L (names dirs) q dir v := by
  unfold Rel
  simp only [List.mem_flatMap, nbrWrites, mem_names]
  constructor
  · rintro ⟨⟨q0, s0, k0⟩, he, hm⟩
    split at hm
    · simp at hm
    · rename_i hk
      simp only [List.mem_flatMap] at hm
      obtain ⟨⟨sh, d, d'⟩, hd, hm⟩ := hm
      have hs : ((s0.1 + sh.1, s0.2 + sh.2) : Site) = s0 + sh := rfl
      simp only [hs] at hm hk
      split at hm
      · rename_i hv
        have ht := h.target q0 s0 k0 sh d d' he hk hd hv
        simp only [List.mem_cons, Prod.mk.injEq, List.not_mem_nil, or_false] at hm
        rcases hm with ⟨rfl, rfl, rfl⟩ | ⟨rfl, rfl, rfl⟩
        · exact ⟨s0, k0, s0 + sh, .data, sh, he, ht, ⟨d', hd⟩, rfl, by simpa using hk⟩
        · refine ⟨s0 + sh, .data, s0, k0, -sh, ht, he, ⟨d, h.inv _ _ _ hd⟩, ?_, by simpa using hk⟩
          rw [add_neg_cancel_right]
      · simp at hm
  · rintro ⟨s, k, s', k', sh, he, he', ⟨d', hd⟩, rfl, hk⟩
    by_cases hkd : k = .data
    · have hk' : k' ≠ .data := hk.1 hkd
      subst hkd
      refine ⟨_, he', ?_⟩
      rw [if_neg hk']
      simp only [List.mem_flatMap]
      refine ⟨_, h.inv _ _ _ hd, ?_⟩
      have hs : (((s + sh).1 + (-sh).1, (s + sh).2 + (-sh).2) : Site) = s := by
        show s + sh + -sh = s
        rw [add_neg_cancel_right]
      simp only [hs]
      obtain ⟨h1, h2⟩ := h.data_label _ _ he
      rw [h2, ← h1]
      simp
    · have hk' : k' = .data := by
        by_contra hc; exact hkd (hk.2 hc)
      subst hk'
      refine ⟨_, he, ?_⟩
      rw [if_neg hkd]
      simp only [List.mem_flatMap]
      refine ⟨_, hd, ?_⟩
      have hs : ((s.1 + sh.1, s.2 + sh.2) : Site) = s + sh := rfl
      simp only [hs]
      obtain ⟨h1, h2⟩ := h.data_label _ _ he'
      rw [h2, ← h1]
      simp

theorem rel_functional (h : GridData L dataLabel valid dirs) {q dir v v' : String}
    (h1 : Rel L (names dirs) q dir v) (h2 : Rel L (names dirs) q dir v') : v = v' := by
  obtain ⟨s, k, _, k', sh, he, he', hd, rfl, hk⟩ := h1
  obtain ⟨s2, k2, _, k2', sh2, he2, he2', hd2, rfl, hk2⟩ := h2
  obtain ⟨d1, hd⟩ := mem_names.1 hd
  obtain ⟨d2, hd2⟩ := mem_names.1 hd2
  have e1 := unique_of_nodup h.labels he he2 rfl
  simp only [Prod.mk.injEq, true_and] at e1
  obtain ⟨rfl, rfl⟩ := e1
  have e2 := h.shifts _ _ _ _ _ hd hd2
  subst e2
  have := unique_of_nodup h.sites he' he2' rfl
  simp only [Prod.mk.injEq] at this
  exact this.1

theorem rel_injective (h : GridData L dataLabel valid dirs) {q dir dir' v : String}
    (h1 : Rel L (names dirs) q dir v) (h2 : Rel L (names dirs) q dir' v) : dir = dir' := by
  obtain ⟨s, k, s', k', sh, he, he', hd, hs, hk⟩ := h1
  obtain ⟨s2, k2, s2', k2', sh2, he2, he2', hd2, hs2, hk2⟩ := h2
  obtain ⟨d1, hd⟩ := mem_names.1 hd
  obtain ⟨d2, hd2⟩ := mem_names.1 hd2
  have e1 := unique_of_nodup h.labels he he2 rfl
  simp only [Prod.mk.injEq, true_and] at e1
  obtain ⟨rfl, rfl⟩ := e1
  have e2 := unique_of_nodup h.labels he' he2' rfl
  simp only [Prod.mk.injEq, true_and] at e2
  obtain ⟨rfl, rfl⟩ := e2
  have : sh = sh2 := by
    rw [hs] at hs2
    exact add_left_cancel hs2
  subst this
  exact h.names _ _ _ _ _ hd hd2

theorem look_neighborData (h : GridData L dataLabel valid dirs) (q dir v : String) :
    look (neighborData dataLabel valid dirs L) q dir = some v ↔ Rel L (names dirs) q dir v := by
  unfold neighborData
  rw [look_foldl, mem_writes h]
  intro q d v v' h1 h2
  exact rel_functional h ((mem_writes h _ _ _).1 h1) ((mem_writes h _ _ _).1 h2)

/-- What the dictionaries of the qubits have to provide. -/
structure InfoData (L : List (String × Site × Kind)) (dirs : List (Site × String × String))
    (i0 : Int) (coord : Site → List Rat) (mk : String × Site × Kind → Nat → QubitInfo) : Prop where
  qubit : ∀ e k, (mk e k).qubit = some e.1
  nodup : ∀ e k, (mk e k).attrs.keys.Nodup
  role : ∀ e k, (mk e k).attrs.get? "role" = some (roleOf e.2.2)
  stab : ∀ e k, (mk e k).attrs.get? "stab_type" = some (stabOf e.2.2)
  coords : ∀ e k, (mk e k).attrs.get? "coords" = some (.coords (coord e.2.1))
  ind : ∀ e (k : Nat), (mk e k).attrs.get? "ind" = some (.int (i0 + k))
  nbrs : ∀ e k, ∃ d, (mk e k).attrs.get? "neighbors" = some (.nbrs d) ∧ d.keys.Nodup ∧
    ∀ dir v, (dir, some v) ∈ d ↔ Rel L (names dirs) e.1 dir v

theorem split_iff {d : Dict String (Option String)} (hn : d.keys.Nodup)
    (hi : ∀ x y v, (x, some v) ∈ d → (y, some v) ∈ d → x = y) (dir v : String) :
    (∃ pre post, d = pre ++ (dir, some v) :: post ∧ ∀ x, (x, some v) ∉ post) ↔ (dir, some v) ∈ d := by
  constructor
  · rintro ⟨pre, post, rfl, -⟩; simp
  · intro h
    obtain ⟨pre, post, rfl⟩ := List.mem_iff_append.1 h
    refine ⟨pre, post, rfl, fun x hx => ?_⟩
    have : x = dir := hi x dir v (by simp [hx]) (by simp)
    subst this
    simp only [Dict.keys, List.map_append, List.map_cons, List.nodup_append, List.nodup_cons] at hn
    exact hn.2.1.1 (List.mem_map_of_mem (f := Prod.fst) hx)

variable {mk : String × Site × Kind → Nat → QubitInfo} {i0 : Int} {coord : Site → List Rat}

/-- The list of qubit dictionaries. -/
def infosOf (L : List (String × Site × Kind)) (mk : String × Site × Kind → Nat → QubitInfo) :
    List QubitInfo := L.zipIdx.map fun ek => mk ek.1 ek.2

theorem mem_infosOf {info : QubitInfo} : info ∈ infosOf L mk ↔
    ∃ e k, L[k]? = some e ∧ info = mk e k := by
  unfold infosOf
  rw [List.mem_map]
  constructor
  · rintro ⟨ek, h, rfl⟩; exact ⟨ek.1, ek.2, List.mem_zipIdx_iff_getElem?.1 h, rfl⟩
  · rintro ⟨e, k, h, rfl⟩; exact ⟨(e, k), List.mem_zipIdx_iff_getElem?.2 h, rfl⟩

theorem givenInds (hm : InfoData L dirs i0 coord mk) :
    (infosOf L mk).map QubitInfo.givenInd =
      (List.range L.length).map fun (k : Nat) => some (i0 + k) := by
  unfold infosOf
  rw [List.map_map]
  have : (QubitInfo.givenInd ∘ fun ek : (String × Site × Kind) × Nat => mk ek.1 ek.2) =
      (fun k : Nat => some (i0 + (k : Int))) ∘ Prod.snd := by
    funext ek
    simp [QubitInfo.givenInd, hm.ind]
  rw [this, ← List.map_map, List.zipIdx_map_snd, ← List.range_eq_range']

theorem setup_good (h : GridData L dataLabel valid dirs) (hm : InfoData L dirs i0 coord mk)
    {s : LayoutSetup} (hl : s.layout = some (infosOf L mk))
    (hlog : ∀ x, (x ∈ s.logQubits.getD [] ↔ x ∈ (s.logZ.getD []).keys) ∧
      (x ∈ s.logQubits.getD [] ↔ x ∈ (s.logX.getD []).keys)) :
    GoodSetup s (infosOf L mk) (L.map Prod.fst) := by
  refine ⟨hl, ?_, h.labels, ?_, ?_, ?_, hlog⟩
  · unfold infosOf
    rw [List.map_map, List.map_map]
    have : (QubitInfo.qubit ∘ fun ek : (String × Site × Kind) × Nat => mk ek.1 ek.2) =
        (fun e : String × Site × Kind => some e.1) ∘ Prod.fst := by
      funext ek
      simp [hm.qubit]
    rw [this, ← List.map_map, List.zipIdx_map_fst]
    rfl
  · intro info hi v hv
    obtain ⟨e, k, -, rfl⟩ := mem_infosOf.1 hi
    rw [hm.ind] at hv
    simp only [Option.some.injEq] at hv
    exact Or.inr ⟨_, hv.symm⟩
  · intro info hi
    obtain ⟨e, k, -, rfl⟩ := mem_infosOf.1 hi
    obtain ⟨d, hd, -, hd'⟩ := hm.nbrs e k
    refine ⟨d, hd, fun dir q hq => ?_⟩
    obtain ⟨s, k, s', k', sh, -, he, -⟩ := (hd' _ _).1 hq
    exact List.mem_map_of_mem (f := Prod.fst) he
  · right
    constructor
    · intro info hi
      obtain ⟨e, k, -, rfl⟩ := mem_infosOf.1 hi
      simp [QubitInfo.givenInd, hm.ind]
    · rw [givenInds hm]
      refine List.Nodup.map ?_ List.nodup_range
      intro a b hab
      simp only [Option.some.injEq, add_right_inj, Nat.cast_inj] at hab
      exact hab

theorem setup_genuine (hm : InfoData L dirs i0 coord mk)
    {s : LayoutSetup} (hl : s.layout = some (infosOf L mk)) : s.Genuine := by
  intro infos hi info hinfo
  rw [hl] at hi
  simp only [Option.some.injEq] at hi
  subst hi
  obtain ⟨e, k, -, rfl⟩ := mem_infosOf.1 hinfo
  refine ⟨hm.nodup e k, fun d hd => ?_⟩
  obtain ⟨d', hd', hn, -⟩ := hm.nbrs e k
  rw [hd] at hd'
  simp only [Option.some.injEq, Val.nbrs.injEq] at hd'
  subst hd'
  exact hn

/-- The layout built from the dictionaries is the grid. -/
theorem onGrid_of_init (h : GridData L dataLabel valid dirs) (hm : InfoData L dirs i0 coord mk)
    {s : LayoutSetup} (hl : s.layout = some (infosOf L mk)) {l : Layout}
    (hi : Layout.init s = .ok l) :
    OnGrid l L (names dirs) ∧
    (∀ (k : Nat) e, L[k]? = some e → l.param "coords" e.1 = .ok (.coords (coord e.2.1)) ∧
      l.getInds [e.1] = .ok [i0 + k]) := by
  have hg := setup_genuine hm hl
  have hinv := Layout.inv_of_init hg hi
  obtain ⟨infos, hgood, hnodes, hinds, -⟩ := Layout.good_of_init hi
  have : infos = infosOf L mk := by
    have := hgood.layout
    rw [hl] at this
    simpa using this.symm
  subst this
  have hkeys : l.graph.nodes.keys = L.map Prod.fst := by
    rw [hnodes]
    unfold Layout.nodesOf Dict.keys infosOf
    rw [List.map_map, List.map_map]
    have : (Prod.fst ∘ fun i : QubitInfo => (i.qubit.getD "", i.attrs)) ∘
        (fun ek : (String × Site × Kind) × Nat => mk ek.1 ek.2) = Prod.fst ∘ Prod.fst := by
      funext ek
      simp [hm.qubit]
    rw [this, ← List.map_map, List.zipIdx_map_fst]
  have hmem : ∀ (k : Nat) e, L[k]? = some e → (e.1, (mk e k).attrs) ∈ l.graph.nodes := by
    intro k e he
    rw [hnodes]
    unfold Layout.nodesOf
    refine List.mem_map.2 ⟨mk e k, mem_infosOf.2 ⟨e, k, he, rfl⟩, ?_⟩
    simp [hm.qubit]
  refine ⟨⟨.init hg hi, hkeys, h.labels, h.sites, ?_, ?_, ?_, ?_⟩, ?_⟩
  · intro q s k he
    obtain ⟨i, hi'⟩ := List.mem_iff_getElem?.1 he
    exact ⟨_, hmem i _ hi', hm.role _ _, hm.stab _ _⟩
  · intro sh sh' d h1 h2
    obtain ⟨d1, h1⟩ := mem_names.1 h1
    obtain ⟨d2, h2⟩ := mem_names.1 h2
    exact h.shifts _ _ _ _ _ h1 h2
  · intro sh d d' h1 h2
    obtain ⟨d1, h1⟩ := mem_names.1 h1
    obtain ⟨d2, h2⟩ := mem_names.1 h2
    exact h.names _ _ _ _ _ h1 h2
  · intro q q' dir
    rw [C46_neighbors_as_given s l hg hi _ hl]
    change _ ↔ Rel L (names dirs) q dir q'
    constructor
    · rintro ⟨-, info, hinfo, hq, d, pre, post, dir', hd, he, hp, hdir⟩
      obtain ⟨e, k, he', rfl⟩ := mem_infosOf.1 hinfo
      obtain ⟨d', hd', hn, hr⟩ := hm.nbrs e k
      rw [hd] at hd'
      simp only [Option.some.injEq, Val.nbrs.injEq] at hd'
      subst hd'
      rw [hm.qubit] at hq
      simp only [Option.some.injEq] at hq
      simp only [reduceCtorEq, Option.some.injEq, false_or] at hdir
      subst hdir
      rw [← hq]
      exact (hr dir q').1 (by rw [he]; simp)
    · intro hrel
      obtain ⟨s0, k0, s', k', sh, he, -⟩ := id hrel
      obtain ⟨i, hi'⟩ := List.mem_iff_getElem?.1 he
      obtain ⟨d, hd, hn, hr⟩ := hm.nbrs (q, s0, k0) i
      obtain ⟨pre, post, h1, h2⟩ := (split_iff hn (fun x y v hx hy =>
        rel_injective h ((hr x v).1 hx) ((hr y v).1 hy)) dir q').2 ((hr dir q').2 hrel)
      exact ⟨by simp, _, mem_infosOf.2 ⟨_, i, hi', rfl⟩, hm.qubit _ _, d, pre, post, dir, hd, h1, h2,
        Or.inr rfl⟩
  · intro k e he
    have hn := hmem k e he
    constructor
    · rw [Layout.param_node hinv hn]
      simp [hm.coords]
    · have hI : Layout.indsOf (infosOf L mk) = l.qubitInds.map (fun kv => (kv.1, some kv.2)) := by
        rcases hinds with ⟨h0, -⟩ | h0
        · exfalso
          have := h0 _ (mem_infosOf.2 ⟨e, k, he, rfl⟩)
          simp [QubitInfo.givenInd, hm.ind] at this
        · exact h0
      have : (e.1, some (i0 + (k : Int))) ∈ Layout.indsOf (infosOf L mk) := by
        unfold Layout.indsOf
        refine List.mem_map.2 ⟨mk e k, mem_infosOf.2 ⟨e, k, he, rfl⟩, ?_⟩
        simp [hm.qubit, QubitInfo.givenInd, hm.ind]
      rw [hI] at this
      simp only [List.mem_map, Prod.mk.injEq, Option.some.injEq, Prod.exists] at this
      obtain ⟨a, b, hab, rfl, hb⟩ := this
      subst hb
      unfold Layout.getInds
      rw [mapExcept_ok_iff]
      refine List.Forall₂.cons ?_ List.Forall₂.nil
      rw [Dict.getE_ok_iff]
      exact Dict.get?_of_mem (by rw [hinv.indKeys]; exact hinv.nodup) hab

end LayoutLib
end SurfaceSim
