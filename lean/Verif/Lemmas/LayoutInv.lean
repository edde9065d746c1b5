/-
Invariants of layouts reached through the public API and the round trip through `to_dict`.
-/
import Verif.Lemmas.Layout

namespace SurfaceSim
namespace Layout

/-- What holds of every reachable layout. -/
structure Inv (l : Layout) : Prop where
  nodup : l.graph.nodes.keys.Nodup
  attrsNodup : ∀ n ∈ l.graph.nodes, n.2.keys.Nodup
  adjKeys : l.graph.adj.keys = l.graph.nodes.keys
  adjOk : ∀ e ∈ l.graph.adj, e.2.keys.Nodup ∧ (e.2.map Prod.snd).Nodup ∧
    ∀ q ∈ e.2.keys, q ∈ l.graph.nodes.keys
  inds : ((∀ n ∈ l.graph.nodes, readInd n.2 = .ok none) ∧
      l.qubitInds = autoInds l.graph.nodes.keys) ∨
    (List.Forall₂ (fun n qi => qi.1 = n.1 ∧ readInd n.2 = .ok (some qi.2)) l.graph.nodes l.qubitInds ∧
      (l.qubitInds.map Prod.snd).Nodup)
  logical : ∀ x, (x ∈ l.logQubits ↔ x ∈ l.logZ.keys) ∧ (x ∈ l.logQubits ↔ x ∈ l.logX.keys)

theorem Inv.indKeys {l : Layout} (h : l.Inv) : l.qubitInds.keys = l.graph.nodes.keys := by
  rcases h.inds with ⟨-, h1⟩ | ⟨h1, -⟩
  · rw [h1, autoInds_keys]
  · generalize l.qubitInds = I at h1
    generalize l.graph.nodes = N at h1
    induction h1 with
    | nil => rfl
    | cons h1 _ ih => simp only [Dict.keys, List.map_cons] at ih ⊢; rw [h1.1, ih]

theorem Inv.indVals {l : Layout} (h : l.Inv) : (l.qubitInds.map Prod.snd).Nodup := by
  rcases h.inds with ⟨-, h1⟩ | ⟨-, h1⟩
  · rw [h1]; exact autoInds_vals_nodup _
  · exact h1

theorem readInd_of_typed {i : QubitInfo} (h : IndTyped i.attrs) :
    readInd i.attrs = .ok i.givenInd := (readInd_ok_iff _ _).2 ⟨h, rfl⟩

theorem forall₂_keys {α β : Type} {R : String × α → String × β → Prop} {N : List (String × α)}
    {A : List (String × β)} (h : List.Forall₂ R N A) (hR : ∀ n b, R n b → b.1 = n.1) :
    Dict.keys A = Dict.keys N := by
  induction h with
  | nil => rfl
  | cons h _ ih => simp only [Dict.keys, List.map_cons] at ih ⊢; rw [hR _ _ h, ih]

theorem forall₂_mem_right {α β : Type} {R : α → β → Prop} {N : List α} {A : List β}
    (h : List.Forall₂ R N A) : ∀ b ∈ A, ∃ a ∈ N, R a b := by
  induction h with
  | nil => intro b hb; cases hb
  | cons h _ ih =>
    intro b hb
    rcases List.mem_cons.1 hb with rfl | hb
    · exact ⟨_, by simp, h⟩
    · obtain ⟨a, ha, hr⟩ := ih b hb
      exact ⟨a, List.mem_cons_of_mem _ ha, hr⟩

theorem forall₂_set {α β : Type} {R : String × α → β → Prop} {N : Dict String α}
    {A : List β} (h : List.Forall₂ R N A) {q : String} (hq : q ∈ N.keys) (v : α)
    (hR : ∀ b old, (q, old) ∈ N → R (q, old) b → R (q, v) b) :
    List.Forall₂ R (N.set q v) A := by
  induction h with
  | nil => simp [Dict.keys] at hq
  | @cons n b N A h _ ih =>
    obtain ⟨a, old⟩ := n
    by_cases h1 : a = q
    · subst h1
      simp only [Dict.set, if_true]
      exact List.Forall₂.cons (hR b old (by simp) h) (by assumption)
    · simp only [Dict.set, h1, if_false]
      refine List.Forall₂.cons h (ih ?_ fun b' old' hm => hR b' old' (List.mem_cons_of_mem _ hm))
      simp only [Dict.keys, List.map_cons, List.mem_cons] at hq
      rcases hq with hq | hq
      · exact absurd hq.symm h1
      · exact hq

theorem inv_of_init {s : LayoutSetup} {l : Layout} (hs : s.Genuine) (h : init s = .ok l) :
    l.Inv := by
  obtain ⟨h1, h2, -, -, h3, -, -, -, h4, h5, -⟩ := (init_ok_iff s l).1 h
  obtain ⟨infos, hl, -, ht, hn, hnodes, hadj, hinds⟩ := (loadLayout_ok_iff _ _ _).1 h2
  refine ⟨by rw [hnodes]; exact hn, ?_, ?_, ?_, ?_, by rw [h3, h4, h5]; exact h1⟩
  · rw [hnodes]
    intro n hn'
    simp only [nodesOf, List.mem_map] at hn'
    obtain ⟨i, hi, rfl⟩ := hn'
    exact (hs infos hl i hi).1
  · rw [hnodes]
    exact forall₂_keys hadj (by rintro n b ⟨d, -, -, rfl⟩; rfl)
  · have hg : ∀ n ∈ nodesOf infos, ∀ d, n.2.get? "neighbors" = some (.nbrs d) → d.keys.Nodup := by
      intro n hn' d hd
      simp only [nodesOf, List.mem_map] at hn'
      obtain ⟨i, hi, rfl⟩ := hn'
      exact (hs infos hl i hi).2 d hd
    rw [hnodes]
    intro e he
    obtain ⟨n, hn', d, hd, hin, rfl⟩ := forall₂_mem_right hadj e he
    refine ⟨outEdges_nodup d, outEdges_dirs_nodup (hg n hn' d hd), ?_⟩
    intro q hq
    obtain ⟨dir, hm⟩ := (mem_outEdges_keys d q).1 hq
    exact hin dir q hm
  · rw [hnodes]
    rcases hinds with ⟨h6, h7⟩ | ⟨h6, h7⟩
    · left
      refine ⟨?_, h7⟩
      intro n hn'
      simp only [nodesOf, List.mem_map] at hn'
      obtain ⟨i, hi, rfl⟩ := hn'
      rw [readInd_of_typed (ht i hi), h6 i hi]
    · right
      refine ⟨?_, h7⟩
      generalize l.qubitInds = I at h6
      clear hadj hn hl hnodes h2 h7
      induction infos generalizing I with
      | nil =>
        cases I with
        | nil => exact List.Forall₂.nil
        | cons a I => simp [indsOf] at h6
      | cons i infos ih =>
        cases I with
        | nil => simp [indsOf] at h6
        | cons a I =>
          simp only [indsOf, List.map_cons, List.cons.injEq, Prod.mk.injEq] at h6
          refine List.Forall₂.cons ⟨h6.1.1.symm, ?_⟩ (ih (fun j hj => ht j (List.mem_cons_of_mem _ hj)) I h6.2)
          simp only
          rw [readInd_of_typed (ht i (by simp)), h6.1.2]

theorem set_mem {κ α : Type} [DecidableEq κ] {d : Dict κ α} {k : κ} {v : α} {p : κ × α}
    (h : p ∈ d.set k v) : p = (k, v) ∨ p ∈ d := by
  induction d with
  | nil => simp [Dict.set] at h; exact Or.inl h
  | cons a d ih =>
    obtain ⟨a, b⟩ := a
    by_cases h1 : a = k
    · subst h1
      simp only [Dict.set, if_true, List.mem_cons] at h ⊢
      tauto
    · simp only [Dict.set, h1, if_false, List.mem_cons] at h ⊢
      rcases h with h | h
      · tauto
      · have := ih h; tauto

theorem keys_set_of_mem {κ α : Type} [DecidableEq κ] {d : Dict κ α} {k : κ} (h : k ∈ d.keys)
    (v : α) : (d.set k v).keys = d.keys := by
  induction d with
  | nil => simp [Dict.keys] at h
  | cons a d ih =>
    obtain ⟨a, b⟩ := a
    by_cases h1 : a = k
    · simp [Dict.set, h1, Dict.keys]
    · simp only [Dict.keys, List.map_cons, List.mem_cons] at h ih
      have h2 : k ∈ d.map Prod.fst := by
        rcases h with h | h
        · exact absurd h.symm h1
        · exact h
      simp [Dict.set, h1, Dict.keys, ih h2]

theorem readInd_set_ne {attrs : Dict String Val} {key : String} (h : key ≠ "ind") (v : Val) :
    readInd (attrs.set key v) = readInd attrs := by
  unfold readInd
  rw [Dict.get?_set_ne _ h]

theorem inv_of_setParam {l l' : Layout} {key q : String} {v : Val} (hl : l.Inv) (hk : key ≠ "ind")
    (h : l.setParam key q v = .ok l') : l'.Inv := by
  unfold setParam at h
  cases hg : l.graph.nodes.get? q with
  | none => rw [hg] at h; simp at h
  | some attrs =>
    rw [hg] at h
    simp only [Except.ok.injEq] at h
    subst h
    have hm : q ∈ l.graph.nodes.keys := by
      rw [← Dict.get?_isSome_iff, hg]; rfl
    have hkeys := keys_set_of_mem hm (attrs.set key v)
    refine ⟨?_, ?_, ?_, ?_, ?_, hl.logical⟩
    · simp only [hkeys]; exact hl.nodup
    · intro n hn
      rcases set_mem hn with rfl | hn
      · exact Dict.keys_nodup_set (hl.attrsNodup _ (Dict.mem_of_get? hg)) _ _
      · exact hl.attrsNodup n hn
    · simp only [hkeys]; exact hl.adjKeys
    · simp only [hkeys]; exact hl.adjOk
    · simp only [hkeys]
      have hmem := Dict.mem_of_get? hg
      rcases hl.inds with ⟨h1, h2⟩ | ⟨h1, h2⟩
      · left
        refine ⟨?_, h2⟩
        intro n hn
        rcases set_mem hn with rfl | hn
        · rw [readInd_set_ne hk]; exact h1 _ hmem
        · exact h1 n hn
      · right
        refine ⟨?_, h2⟩
        refine forall₂_set h1 hm _ ?_
        intro b old hold ⟨e1, e2⟩
        have := Dict.get?_of_mem hl.nodup hold
        rw [hg] at this
        simp only [Option.some.injEq] at this
        subst this
        exact ⟨e1, by rw [readInd_set_ne hk]; exact e2⟩

theorem inv_of_reachable {l : Layout} (h : Reachable l) : l.Inv := by
  induction h with
  | init hs h => exact inv_of_init hs h
  | setParam _ hk h ih => exact inv_of_setParam ih hk h

/-! ### the round trip -/

theorem foldl_set_fresh {κ α β : Type} [DecidableEq κ] (l : List β) (f : β → κ) (g : β → α)
    (acc : Dict κ α) (hn : (l.map f).Nodup) (hx : ∀ b ∈ l, f b ∉ acc.keys) :
    l.foldl (fun acc b => Dict.set acc (f b) (g b)) acc = acc ++ l.map fun b => (f b, g b) := by
  induction l generalizing acc with
  | nil => simp
  | cons b l ih =>
    simp only [List.map_cons, List.nodup_cons] at hn
    rw [List.foldl_cons, Dict.set_fresh (hx b (by simp)), ih _ hn.2]
    · simp
    · intro b' hb'
      simp only [Dict.keys, List.map_append, List.mem_append, List.map_cons, List.map_nil,
        List.mem_singleton, not_or]
      refine ⟨hx b' (List.mem_cons_of_mem _ hb'), ?_⟩
      intro h
      exact hn.1 (h ▸ List.mem_map_of_mem hb')

theorem foldl_missing (ks : List String) (acc : Dict String (Option String)) :
    ∃ ms : List String, ks.foldl (fun acc k => if Dict.has acc k then acc else Dict.set acc k none) acc =
      acc ++ ms.map (fun k => (k, none)) ∧ (∀ k ∈ ms, k ∈ ks ∧ k ∉ acc.keys) ∧ ms.Nodup ∧
      (∀ k ∈ ks, k ∈ acc.keys ∨ k ∈ ms) := by
  induction ks generalizing acc with
  | nil => exact ⟨[], by simp, by simp, by simp, by simp⟩
  | cons k ks ih =>
    rw [List.foldl_cons]
    by_cases h : Dict.has acc k = true
    · rw [if_pos h]
      obtain ⟨ms, h1, h2, h3, h4⟩ := ih acc
      refine ⟨ms, h1, fun k' hk' => ⟨List.mem_cons_of_mem _ (h2 k' hk').1, (h2 k' hk').2⟩, h3, ?_⟩
      intro k' hk'
      rcases List.mem_cons.1 hk' with rfl | hk'
      · exact Or.inl ((Dict.has_iff _ _).1 h)
      · exact h4 k' hk'
    · rw [if_neg h]
      have hk : k ∉ acc.keys := fun hm => h ((Dict.has_iff _ _).2 hm)
      rw [Dict.set_fresh hk]
      obtain ⟨ms, h1, h2, h3, h4⟩ := ih (acc ++ [(k, none)])
      have hkeys : Dict.keys (acc ++ [(k, none)]) = acc.keys ++ [k] := by simp [Dict.keys]
      rw [hkeys] at h2 h4
      refine ⟨k :: ms, by rw [h1]; simp, ?_, ?_, ?_⟩
      · intro k' hk'
        rcases List.mem_cons.1 hk' with rfl | hk'
        · exact ⟨by simp, hk⟩
        · have := h2 k' hk'
          refine ⟨List.mem_cons_of_mem _ this.1, fun hm => this.2 (by simp [hm])⟩
      · rw [List.nodup_cons]
        refine ⟨fun hm => (h2 k hm).2 (by simp), h3⟩
      · intro k' hk'
        rcases List.mem_cons.1 hk' with rfl | hk'
        · simp
        · rcases h4 k' hk' with h5 | h5
          · rw [List.mem_append, List.mem_singleton] at h5
            rcases h5 with h5 | h5
            · exact Or.inl h5
            · subst h5; simp
          · simp [h5]

/-- The dictionary written by `to_dict` lists the edges and then `None` for missing diagonals. -/
theorem nbrDict_eq {adj : Dict String String} (hd : (adj.map Prod.snd).Nodup) :
    ∃ ms : List String, nbrDict adj = adj.map (fun kv => (kv.2, some kv.1)) ++
      ms.map (fun k => (k, none)) ∧ ms.Nodup ∧ (∀ k ∈ ms, k ∈ diagonals ∧ k ∉ adj.map Prod.snd) ∧
      (∀ k ∈ diagonals, k ∈ adj.map Prod.snd ∨ k ∈ ms) := by
  unfold nbrDict
  have := foldl_set_fresh adj Prod.snd (fun kv => some kv.1) [] hd (by simp [Dict.keys])
  simp only [List.nil_append] at this
  simp only [this]
  obtain ⟨ms, h1, h2, h3, h4⟩ := foldl_missing diagonals (adj.map fun kv => (kv.2, some kv.1))
  have hk : Dict.keys (adj.map fun kv => (kv.2, some kv.1)) = adj.map Prod.snd := by
    simp [Dict.keys]
  rw [hk] at h2 h4
  exact ⟨ms, h1, h3, h2, h4⟩

theorem outEdges_nbrDict {adj : Dict String String} (hk : adj.keys.Nodup)
    (hd : (adj.map Prod.snd).Nodup) : outEdges (nbrDict adj) = adj := by
  obtain ⟨ms, h, -, -, -⟩ := nbrDict_eq hd
  rw [h, outEdges_inj]
  · simp [List.filterMap_append, List.filterMap_map, Function.comp_def]
  · unfold Dict.keys at hk
    simpa [List.filterMap_append, List.filterMap_map, Function.comp_def] using hk

theorem readInd_nodeInfo (l : Layout) (n : String × Dict String Val) :
    readInd (l.nodeInfo n).attrs = readInd n.2 := by
  unfold nodeInfo
  simp only
  rw [readInd_set_ne (by decide)]
  unfold readInd
  rw [Dict.get?_erase_ne _ (by decide)]

theorem get?_nodeInfo_neighbors (l : Layout) (n : String × Dict String Val) :
    (l.nodeInfo n).attrs.get? "neighbors" =
      some (.nbrs (nbrDict ((l.graph.adj.get? n.1).getD []))) := by
  unfold nodeInfo
  simp

theorem get?_nodeInfo_ne (l : Layout) (n : String × Dict String Val) {p : String}
    (h1 : p ≠ "neighbors") (h2 : p ≠ "qubit") : (l.nodeInfo n).attrs.get? p = n.2.get? p := by
  unfold nodeInfo
  simp only
  rw [Dict.get?_set_ne _ (Ne.symm h1), Dict.get?_erase_ne _ (Ne.symm h2)]

/-- The layout built from `to_dict()`. -/
def reloaded (l : Layout) : Layout :=
  { l with graph := { nodes := l.graph.nodes.map fun n => (n.1, (l.nodeInfo n).attrs)
                      adj := l.graph.adj } }

theorem Inv.adj_get? {l : Layout} (h : l.Inv) {n : String × Dict String Val}
    (hn : n ∈ l.graph.nodes) : ∃ a, l.graph.adj.get? n.1 = some a ∧ (n.1, a) ∈ l.graph.adj := by
  have hm : n.1 ∈ l.graph.adj.keys := by
    rw [h.adjKeys]; exact List.mem_map_of_mem hn
  have := (Dict.get?_isSome_iff _ _).2 hm
  obtain ⟨a, ha⟩ := Option.isSome_iff_exists.1 this
  exact ⟨a, ha, Dict.mem_of_get? ha⟩

theorem forall₂_of_keys {α β : Type} {N : Dict String α} {A : Dict String β}
    (hk : A.keys = N.keys) (hn : N.keys.Nodup) :
    List.Forall₂ (fun n b => b.1 = n.1 ∧ A.get? n.1 = some b.2) N A := by
  have hA : A.keys.Nodup := hk ▸ hn
  have key : ∀ (N' : Dict String α) (A' : Dict String β), A'.keys = N'.keys →
      (∀ b ∈ A', A.get? b.1 = some b.2) →
      List.Forall₂ (fun n b => b.1 = n.1 ∧ A.get? n.1 = some b.2) N' A' := by
    intro N'
    induction N' with
    | nil =>
      intro A' h _
      cases A' with
      | nil => exact List.Forall₂.nil
      | cons b A' => simp [Dict.keys] at h
    | cons n N' ih =>
      intro A' h hb
      cases A' with
      | nil => simp [Dict.keys] at h
      | cons b A' =>
        simp only [Dict.keys, List.map_cons, List.cons.injEq] at h
        refine List.Forall₂.cons ⟨h.1, ?_⟩ (ih A' h.2 fun b' hb' => hb b' (List.mem_cons_of_mem _ hb'))
        rw [← h.1]
        exact hb b (by simp)
  exact key N A hk fun b hb => Dict.get?_of_mem hA hb

theorem init_toDict {l : Layout} (h : l.Inv) : init l.toDict = .ok l.reloaded := by
  rw [init_ok_iff]
  refine ⟨by simpa [toDict] using h.logical, ?_, rfl, rfl, rfl, rfl, rfl, rfl, rfl, rfl, rfl, rfl⟩
  have hN : nodesOf (l.graph.nodes.map l.nodeInfo) =
      l.graph.nodes.map fun n => (n.1, (l.nodeInfo n).attrs) := by
    simp [nodesOf, nodeInfo]
  have hK : (nodesOf (l.graph.nodes.map l.nodeInfo)).keys = l.graph.nodes.keys := by
    rw [hN]; simp [Dict.keys]
  have hT : ∀ n ∈ l.graph.nodes, ∃ r, readInd n.2 = .ok r := by
    intro n hn
    rcases h.inds with ⟨h1, -⟩ | ⟨h1, -⟩
    · exact ⟨_, h1 n hn⟩
    · clear hN hK
      generalize l.graph.nodes = N at h1 hn
      generalize l.qubitInds = I at h1
      induction h1 with
      | nil => cases hn
      | cons h2 _ ih =>
        rcases List.mem_cons.1 hn with rfl | hn
        · exact ⟨_, h2.2⟩
        · exact ih hn
  have hG : ∀ n ∈ l.graph.nodes, readInd n.2 = .ok (l.nodeInfo n).givenInd := by
    intro n hn
    obtain ⟨r, hr⟩ := hT n hn
    rw [← readInd_nodeInfo l n] at hr ⊢
    rw [hr, ((readInd_ok_iff _ _).1 hr).2]
  rw [loadLayout_ok_iff]
  refine ⟨l.graph.nodes.map l.nodeInfo, rfl, ?_, ?_, ?_, ?_, ?_, ?_⟩
  · intro i hi
    obtain ⟨n, -, rfl⟩ := List.mem_map.1 hi
    simp [nodeInfo]
  · intro i hi
    obtain ⟨n, hn, rfl⟩ := List.mem_map.1 hi
    obtain ⟨r, hr⟩ := hT n hn
    rw [← readInd_nodeInfo l n] at hr
    exact ((readInd_ok_iff _ _).1 hr).1
  · rw [hK]; exact h.nodup
  · rw [hN]; rfl
  · rw [hK, hN, List.forall₂_map_left_iff]
    refine (forall₂_of_keys h.adjKeys h.nodup).imp ?_
    rintro n b ⟨e1, e2⟩
    have hok := h.adjOk _ (Dict.mem_of_get? e2)
    refine ⟨_, get?_nodeInfo_neighbors l n, ?_, ?_⟩
    · intro dir q hq
      rw [e2] at hq
      refine hok.2.2 q ?_
      rw [← outEdges_nbrDict hok.1 hok.2.1, mem_outEdges_keys]
      exact ⟨dir, hq⟩
    · simp only
      rw [e2, Option.getD_some, outEdges_nbrDict hok.1 hok.2.1, ← e1]
  · rw [hK]
    rcases h.inds with ⟨h1, h2⟩ | ⟨h1, h2⟩
    · left
      refine ⟨?_, h2⟩
      intro i hi
      obtain ⟨n, hn, rfl⟩ := List.mem_map.1 hi
      have := hG n hn
      rw [h1 n hn] at this
      simpa using this.symm
    · right
      refine ⟨?_, h2⟩
      show indsOf _ = List.map _ l.qubitInds
      clear hN hK hT
      generalize l.graph.nodes = N at h1 hG
      generalize l.qubitInds = I at h1
      induction h1 with
      | nil => rfl
      | @cons n qi _ _ h3 _ ih =>
        have hg := hG n (by simp)
        rw [h3.2] at hg
        simp only [Except.ok.injEq] at hg
        simp only [indsOf, List.map_cons, List.cons.injEq, Prod.mk.injEq]
        refine ⟨⟨by simp [nodeInfo, h3.1], hg.symm⟩, ?_⟩
        exact ih fun n hn => hG n (List.mem_cons_of_mem _ hn)

theorem erase_nodup {κ α : Type} [DecidableEq κ] {d : Dict κ α} (h : d.keys.Nodup) (k : κ) :
    k ∉ (d.erase k).keys := by
  induction d with
  | nil => simp [Dict.erase, Dict.keys]
  | cons a d ih =>
    obtain ⟨a, b⟩ := a
    simp only [Dict.keys, List.map_cons, List.nodup_cons] at h ih
    by_cases h1 : a = k
    · subst h1
      simp only [Dict.erase, if_true]
      exact h.1
    · have h2 : ¬ k = a := fun e => h1 e.symm
      simp only [Dict.erase, h1, if_false, Dict.keys, List.map_cons, List.mem_cons, h2, false_or]
      exact ih h.2

theorem reloaded_toDict {l : Layout} (h : l.Inv) : l.reloaded.toDict = l.toDict := by
  have key : ∀ n ∈ l.graph.nodes,
      l.reloaded.nodeInfo (n.1, (l.nodeInfo n).attrs) = l.nodeInfo n := by
    intro n hn
    simp only [nodeInfo, reloaded, QubitInfo.mk.injEq, true_and]
    generalize Val.nbrs (nbrDict ((l.graph.adj.get? n.1).getD [])) = v
    rw [Dict.erase_of_notMem (d := (n.2.erase "qubit").set "neighbors" v), Dict.set_set]
    intro hm
    rw [Dict.mem_keys_set] at hm
    have h1 := erase_nodup (h.attrsNodup n hn) "qubit"
    rcases hm with hm | hm
    · first | exact h1 hm | exact absurd hm (by decide)
    · first | exact h1 hm | exact absurd hm (by decide)
  unfold toDict
  simp only [LayoutSetup.mk.injEq, Option.some.injEq]
  refine ⟨rfl, rfl, rfl, rfl, rfl, rfl, rfl, rfl, rfl, rfl, ?_⟩
  simp only [reloaded, List.map_map]
  exact List.map_congr_left key

end Layout
end SurfaceSim
