/-
Lemmas about the model of `Layout`.
-/
import Verif.Spec.Layout
import Verif.Lemmas.Dict
import Mathlib.Data.List.Forall2

namespace SurfaceSim

theorem mapExcept_ok_iff {α β : Type} (l : List α) (f : α → Except Err β) (r : List β) :
    mapExcept l f = .ok r ↔ List.Forall₂ (fun a b => f a = .ok b) l r := by
  induction l generalizing r with
  | nil => cases r <;> simp [mapExcept]
  | cons a l ih =>
    simp only [mapExcept]
    cases h : f a with
    | error e => constructor
                 · intro h'; simp at h'
                 · intro h'; cases h' with | cons h1 _ => simp [h] at h1
    | ok b =>
      cases h2 : mapExcept l f with
      | error e =>
        constructor
        · intro h'; simp at h'
        · intro h'
          cases h' with | cons h1 h3 => rw [← ih] at h3; simp [h2] at h3
      | ok bs =>
        simp only [Except.ok.injEq]
        constructor
        · rintro rfl
          exact List.Forall₂.cons h ((ih _).1 h2)
        · intro h'
          cases h' with
          | cons h1 h3 =>
            rw [← ih, h2] at h3
            rw [h] at h1
            simp at h1 h3
            simp [h1, h3]

theorem mapExcept_error {α β : Type} {l : List α} {f : α → Except Err β} {e : Err}
    (h : mapExcept l f = .error e) : ∃ a ∈ l, f a = .error e := by
  induction l with
  | nil => simp [mapExcept] at h
  | cons a l ih =>
    simp only [mapExcept] at h
    cases h1 : f a with
    | error e' =>
      rw [h1] at h
      simp at h
      exact ⟨a, by simp, by rw [h1, h]⟩
    | ok b =>
      rw [h1] at h
      simp only at h
      cases h2 : mapExcept l f with
      | error e' =>
        rw [h2] at h
        simp only [Except.error.injEq] at h
        subst h
        obtain ⟨a', ha, he⟩ := ih h2
        exact ⟨a', List.mem_cons_of_mem _ ha, he⟩
      | ok bs => rw [h2] at h; simp at h

theorem mapExcept_map_ok {α β : Type} {l : List α} {f : α → Except Err β} {r : List β}
    (h : mapExcept l f = .ok r) : ∀ a ∈ l, ∃ b ∈ r, f a = .ok b := by
  rw [mapExcept_ok_iff] at h
  intro a ha
  induction h with
  | nil => simp at ha
  | cons h1 _ ih =>
    rcases List.mem_cons.1 ha with rfl | h2
    · exact ⟨_, by simp, h1⟩
    · obtain ⟨b, hb, hf⟩ := ih h2
      exact ⟨b, List.mem_cons_of_mem _ hb, hf⟩

namespace Dict
variable {κ α : Type} [DecidableEq κ]

theorem set_fresh {d : Dict κ α} {k : κ} (h : k ∉ keys d) (v : α) : set d k v = d ++ [(k, v)] := by
  induction d with
  | nil => rfl
  | cons p d ih =>
    obtain ⟨a, b⟩ := p
    simp only [keys, List.map_cons, List.mem_cons, not_or] at h
    have : ¬ a = k := fun e => h.1 e.symm
    simp [set, this, ih h.2]

theorem get?_erase_ne (d : Dict κ α) {k k' : κ} (h : k ≠ k') : get? (erase d k) k' = get? d k' := by
  induction d with
  | nil => rfl
  | cons p d ih =>
    obtain ⟨a, b⟩ := p
    by_cases h1 : a = k
    · subst h1; simp [erase, h]
    · simp [erase, h1, ih]

theorem erase_of_notMem {d : Dict κ α} {k : κ} (h : k ∉ keys d) : erase d k = d := by
  induction d with
  | nil => rfl
  | cons p d ih =>
    obtain ⟨a, b⟩ := p
    simp only [keys, List.map_cons, List.mem_cons, not_or] at h
    have : ¬ a = k := fun e => h.1 e.symm
    simp [erase, this, ih h.2]

end Dict

namespace Layout

/-- The nodes described by the list of qubits. -/
def nodesOf (infos : List QubitInfo) : Dict String (Dict String Val) :=
  infos.map fun i => (i.qubit.getD "", i.attrs)

/-- The indices given by the list of qubits. -/
def indsOf (infos : List QubitInfo) : Dict String (Option Int) :=
  infos.map fun i => (i.qubit.getD "", i.givenInd)

/-- The index is an integer or `None`. -/
def IndTyped (attrs : Dict String Val) : Prop :=
  ∀ v, attrs.get? "ind" = some v → v = .none ∨ ∃ i, v = .int i

theorem readInd_ok_iff (info : QubitInfo) (r : Option Int) :
    readInd info.attrs = .ok r ↔ IndTyped info.attrs ∧ r = info.givenInd := by
  unfold readInd IndTyped QubitInfo.givenInd
  cases h : info.attrs.get? "ind" with
  | none => simp [eq_comm]
  | some v => cases v <;> simp [eq_comm]

theorem readInd_error {attrs : Dict String Val} {e : Err} (h : readInd attrs = .error e) :
    e = .typeError ∧ ¬ IndTyped attrs := by
  unfold readInd at h
  unfold IndTyped
  cases h1 : attrs.get? "ind" with
  | none => rw [h1] at h; simp at h
  | some v => rw [h1] at h; cases v <;> simp_all

theorem loadNodes_ok_iff (infos : List QubitInfo) (nodes : Dict String (Dict String Val))
    (inds : Dict String (Option Int)) (hk : inds.keys = nodes.keys)
    (r : Dict String (Dict String Val) × Dict String (Option Int)) :
    loadNodes infos nodes inds = .ok r ↔
      (∀ i ∈ infos, i.qubit ≠ none) ∧ (∀ i ∈ infos, IndTyped i.attrs) ∧
      (nodesOf infos).keys.Nodup ∧ (∀ q ∈ (nodesOf infos).keys, q ∉ nodes.keys) ∧
      r = (nodes ++ nodesOf infos, inds ++ indsOf infos) := by
  induction infos generalizing nodes inds with
  | nil => simp [loadNodes, nodesOf, indsOf, Dict.keys, eq_comm]
  | cons i infos ih =>
    unfold loadNodes
    cases hq : i.qubit with
    | none => simp [hq]
    | some q =>
      by_cases hm : q ∈ nodes.keys
      · have : nodes.has q = true := (Dict.has_iff _ _).2 hm
        simp only [this, if_true]
        constructor
        · intro h; simp at h
        · rintro ⟨-, -, -, h, -⟩
          exact absurd hm (h q (by simp [nodesOf, Dict.keys, hq]))
      · have hf : nodes.has q = false := by
          rw [Bool.eq_false_iff]; intro h; exact hm ((Dict.has_iff _ _).1 h)
        have hm' : q ∉ inds.keys := by rw [hk]; exact hm
        simp only [hf, Bool.false_eq_true, if_false]
        rw [Dict.set_fresh hm, ]
        cases hr : readInd i.attrs with
        | error e =>
          have := (readInd_error hr).2
          simp [this]
        | ok j =>
          obtain ⟨ht, rfl⟩ := (readInd_ok_iff _ _).1 hr
          simp only
          rw [Dict.set_fresh hm', ih]
          · simp only [nodesOf, indsOf, Dict.keys, List.map_cons, List.map_append, List.map_nil,
              List.mem_cons, List.nodup_cons, List.mem_append, hq, Option.getD_some,
              List.append_assoc, List.singleton_append, List.not_mem_nil, or_false, not_or,
              forall_eq_or_imp]
            simp only [Dict.keys] at hm
            constructor
            · rintro ⟨h1, h2, h3, h4, h5⟩
              refine ⟨⟨by simp, h1⟩, ⟨ht, h2⟩, ⟨?_, h3⟩, ⟨hm, fun q' hq' => (h4 q' hq').1⟩, h5⟩
              intro hmem
              exact (h4 _ hmem).2 rfl
            · rintro ⟨⟨-, h1⟩, ⟨-, h2⟩, ⟨h3, h4⟩, ⟨-, h5⟩, h6⟩
              refine ⟨h1, h2, h4, fun q' hq' => ⟨h5 q' hq', ?_⟩, h6⟩
              rintro rfl
              exact h3 hq'
          · simp only [Dict.keys] at hk ⊢
            simp [hk]

theorem loadNodes_error {infos : List QubitInfo} {nodes : Dict String (Dict String Val)}
    {inds : Dict String (Option Int)} {e : Err} (h : loadNodes infos nodes inds = .error e) :
    e = .valueError ∨ (e = .typeError ∧ ∃ i ∈ infos, ¬ IndTyped i.attrs) := by
  induction infos generalizing nodes inds with
  | nil => simp [loadNodes] at h
  | cons i infos ih =>
    unfold loadNodes at h
    cases hq : i.qubit with
    | none => rw [hq] at h; simp at h; exact Or.inl h.symm
    | some q =>
      rw [hq] at h
      simp only at h
      split at h
      · simp at h; exact Or.inl h.symm
      · cases hr : readInd i.attrs with
        | error e' =>
          rw [hr] at h
          simp only [Except.error.injEq] at h
          subst h
          exact Or.inr ⟨(readInd_error hr).1, i, by simp, (readInd_error hr).2⟩
        | ok j =>
          rw [hr] at h
          simp only at h
          rcases ih h with h1 | ⟨h1, i', hi, h2⟩
          · exact Or.inl h1
          · exact Or.inr ⟨h1, i', List.mem_cons_of_mem _ hi, h2⟩

/-! ### edges -/

theorem outEdges_foldl_keys (d : Dict String (Option String)) (acc : Dict String String)
    (q : String) :
    q ∈ Dict.keys (d.foldl addEdge acc) ↔ q ∈ Dict.keys acc ∨ ∃ dir, (dir, some q) ∈ d := by
  induction d generalizing acc with
  | nil => simp
  | cons kv d ih =>
    obtain ⟨dir, v⟩ := kv
    rw [List.foldl_cons, ih]
    cases v with
    | none => simp [addEdge]
    | some q' =>
      simp only [addEdge, Dict.mem_keys_set, List.mem_cons, Prod.mk.injEq, Option.some.injEq]
      constructor
      · rintro ((h | h) | ⟨dir', h⟩)
        · first | exact Or.inl h | exact Or.inr ⟨dir, Or.inl ⟨rfl, h⟩⟩ | exact Or.inr ⟨dir, Or.inl ⟨rfl, h.symm⟩⟩
        · first | exact Or.inl h | exact Or.inr ⟨dir, Or.inl ⟨rfl, h⟩⟩ | exact Or.inr ⟨dir, Or.inl ⟨rfl, h.symm⟩⟩
        · exact Or.inr ⟨dir', Or.inr h⟩
      · rintro (h | ⟨dir', (⟨-, h⟩ | h)⟩)
        · tauto
        · subst h; tauto
        · exact Or.inr ⟨dir', h⟩

theorem mem_outEdges_keys (d : Dict String (Option String)) (q : String) :
    q ∈ (outEdges d).keys ↔ ∃ dir, (dir, some q) ∈ d := by
  unfold outEdges
  rw [outEdges_foldl_keys]
  simp [Dict.keys]

theorem outEdges_foldl_nodup (d : Dict String (Option String)) (acc : Dict String String)
    (h : acc.keys.Nodup) :
    (Dict.keys (d.foldl addEdge acc)).Nodup := by
  induction d generalizing acc with
  | nil => simpa
  | cons kv d ih =>
    obtain ⟨dir, v⟩ := kv
    rw [List.foldl_cons]
    cases v with
    | none => exact ih _ h
    | some q' => exact ih _ (Dict.keys_nodup_set h _ _)

theorem outEdges_nodup (d : Dict String (Option String)) : (outEdges d).keys.Nodup :=
  outEdges_foldl_nodup d [] (by simp [Dict.keys])

theorem set_vals_sub (acc : Dict String String) (q dir x : String)
    (h : x ∈ (Dict.set acc q dir).map Prod.snd) : x = dir ∨ x ∈ acc.map Prod.snd := by
  induction acc with
  | nil => simp [Dict.set] at h; exact Or.inl h
  | cons p acc ih =>
    obtain ⟨a, b⟩ := p
    by_cases h1 : a = q
    · subst h1
      simp only [Dict.set, if_true, List.map_cons, List.mem_cons] at h ⊢
      tauto
    · simp only [Dict.set, h1, if_false, List.map_cons, List.mem_cons] at h ⊢
      rcases h with h | h
      · tauto
      · have := ih h; tauto

theorem set_vals_nodup (acc : Dict String String) (q dir : String)
    (h : (acc.map Prod.snd).Nodup) (hd : dir ∉ acc.map Prod.snd) :
    ((Dict.set acc q dir).map Prod.snd).Nodup := by
  induction acc with
  | nil => simp [Dict.set]
  | cons p acc ih =>
    obtain ⟨a, b⟩ := p
    simp only [List.map_cons, List.nodup_cons, List.mem_cons, not_or] at h hd
    by_cases h1 : a = q
    · subst h1
      simp only [Dict.set, if_true, List.map_cons, List.nodup_cons]
      exact ⟨hd.2, h.2⟩
    · simp only [Dict.set, h1, if_false, List.map_cons, List.nodup_cons]
      refine ⟨?_, ih h.2 hd.2⟩
      intro hm
      rcases set_vals_sub _ _ _ _ hm with h2 | h2
      · exact hd.1 h2.symm
      · exact h.1 h2

theorem outEdges_foldl_vals (d : Dict String (Option String)) (acc : Dict String String)
    (h : (acc.map Prod.snd).Nodup) (hd : d.keys.Nodup)
    (hx : ∀ x ∈ acc.map Prod.snd, x ∉ d.keys) :
    ((d.foldl addEdge acc).map Prod.snd).Nodup := by
  induction d generalizing acc with
  | nil => simpa
  | cons kv d ih =>
    obtain ⟨dir, v⟩ := kv
    rw [List.foldl_cons]
    simp only [Dict.keys, List.map_cons, List.nodup_cons, List.mem_cons, not_or] at hd hx
    cases v with
    | none => exact ih _ h hd.2 fun x hm => (hx x hm).2
    | some q' =>
      refine ih _ (set_vals_nodup _ _ _ h ?_) hd.2 ?_
      · intro hm; exact (hx _ hm).1 rfl
      · intro x hm
        rcases set_vals_sub _ _ _ _ hm with h2 | h2
        · subst h2; exact hd.1
        · exact (hx x h2).2

theorem outEdges_dirs_nodup {d : Dict String (Option String)} (hd : d.keys.Nodup) :
    ((outEdges d).map Prod.snd).Nodup :=
  outEdges_foldl_vals d [] (by simp) hd (by simp)

/-- With distinct neighbours the out-edges are the entries different from `None`. -/
theorem outEdges_foldl_inj (d : Dict String (Option String)) (acc : Dict String String)
    (hn : (d.filterMap Prod.snd).Nodup) (hx : ∀ q ∈ d.filterMap Prod.snd, q ∉ acc.keys) :
    (d.foldl addEdge acc) =
      acc ++ d.filterMap fun kv => kv.2.map fun q => (q, kv.1) := by
  induction d generalizing acc with
  | nil => simp
  | cons kv d ih =>
    obtain ⟨dir, v⟩ := kv
    rw [List.foldl_cons]
    cases v with
    | none =>
      simp only [List.filterMap_cons] at hn hx ⊢
      exact ih _ hn hx
    | some q =>
      simp only [List.filterMap_cons, List.nodup_cons, List.mem_cons, forall_eq_or_imp] at hn hx
      simp only [addEdge]
      rw [Dict.set_fresh hx.1, ih _ hn.2]
      · simp
      · intro q' hq'
        simp only [Dict.keys, List.map_append, List.mem_append, List.map_cons, List.map_nil,
          List.mem_singleton, not_or]
        refine ⟨hx.2 _ hq', ?_⟩
        rintro rfl
        exact hn.1 hq'

theorem outEdges_inj {d : Dict String (Option String)} (hn : (d.filterMap Prod.snd).Nodup) :
    outEdges d = d.filterMap fun kv => kv.2.map fun q => (q, kv.1) := by
  have := outEdges_foldl_inj d [] hn (by simp [Dict.keys])
  simpa [outEdges] using this

theorem nodeEdges_ok_iff (nodes : Dict String (Dict String Val)) (n : String × Dict String Val)
    (r : String × Dict String String) :
    nodeEdges nodes n = .ok r ↔ ∃ d, n.2.get? "neighbors" = some (.nbrs d) ∧
      (∀ dir q, (dir, some q) ∈ d → q ∈ nodes.keys) ∧ r = (n.1, outEdges d) := by
  unfold nodeEdges
  cases h : n.2.get? "neighbors" with
  | none => simp
  | some v =>
    cases v with
    | nbrs d =>
      have : ((outEdges d).keys.all fun q => nodes.has q) = true ↔
          ∀ dir q, (dir, some q) ∈ d → q ∈ nodes.keys := by
        simp only [List.all_eq_true, mem_outEdges_keys, Dict.has_iff]
        constructor
        · intro h dir q hm; exact h q ⟨dir, hm⟩
        · rintro h q ⟨dir, hm⟩; exact h dir q hm
      by_cases hb : ((outEdges d).keys.all fun q => nodes.has q) = true
      · simp only [hb, if_true, Except.ok.injEq]
        constructor
        · rintro rfl
          exact ⟨d, rfl, this.1 hb, rfl⟩
        · rintro ⟨d', hd, -, rfl⟩
          simp only [Option.some.injEq, Val.nbrs.injEq] at hd
          rw [hd]
      · simp only [hb, Bool.false_eq_true, if_false]
        constructor
        · intro h'; simp at h'
        · rintro ⟨d', hd, h', -⟩
          simp only [Option.some.injEq, Val.nbrs.injEq] at hd
          subst hd
          exact absurd (this.2 h') hb
    | none => simp
    | _ => simp

theorem nodeEdges_error {nodes : Dict String (Dict String Val)} {n : String × Dict String Val}
    {e : Err} (h : nodeEdges nodes n = .error e) :
    (e = .valueError ∧ (n.2.get? "neighbors" = none ∨ n.2.get? "neighbors" = some .none)) ∨
    (e = .runtimeError ∧ ∃ d dir q, n.2.get? "neighbors" = some (.nbrs d) ∧ (dir, some q) ∈ d ∧
      q ∉ nodes.keys) ∨
    (e = .typeError ∧ ∃ v, n.2.get? "neighbors" = some v ∧ v ≠ .none ∧ ∀ d, v ≠ .nbrs d) := by
  unfold nodeEdges at h
  cases h1 : n.2.get? "neighbors" with
  | none => rw [h1] at h; simp at h; exact Or.inl ⟨h.symm, Or.inl rfl⟩
  | some v =>
    rw [h1] at h
    cases v with
    | none => simp at h; exact Or.inl ⟨h.symm, Or.inr rfl⟩
    | nbrs d =>
      right; left
      simp only at h
      split at h
      · simp at h
      · rename_i hb
        simp only [Except.error.injEq] at h
        refine ⟨h.symm, ?_⟩
        simp only [List.all_eq_true, mem_outEdges_keys, Dict.has_iff, not_forall] at hb
        obtain ⟨q, ⟨dir, hm⟩, hq⟩ := hb
        exact ⟨d, dir, q, rfl, hm, hq⟩
    | int _ => right; right; simp at h; exact ⟨h.symm, _, rfl, by simp, by simp⟩
    | real _ => right; right; simp at h; exact ⟨h.symm, _, rfl, by simp, by simp⟩
    | str _ => right; right; simp at h; exact ⟨h.symm, _, rfl, by simp, by simp⟩
    | coords _ => right; right; simp at h; exact ⟨h.symm, _, rfl, by simp, by simp⟩
    | gate _ => right; right; simp at h; exact ⟨h.symm, _, rfl, by simp, by simp⟩

/-! ### indices -/

/-- The indices assigned when none is given. -/
def autoInds (qubits : List String) : Dict String Int :=
  qubits.zipIdx.map fun qi => (qi.1, (qi.2 : Int))

theorem autoInds_keys (qubits : List String) : (autoInds qubits).keys = qubits := by
  unfold autoInds Dict.keys
  rw [List.map_map]
  exact List.zipIdx_map_fst 0 qubits

theorem autoInds_vals_nodup (qubits : List String) : ((autoInds qubits).map Prod.snd).Nodup := by
  unfold autoInds
  rw [List.map_map]
  have : (Prod.snd ∘ fun (qi : String × Nat) => (qi.1, (qi.2 : Int))) =
      (fun n : Nat => (n : Int)) ∘ Prod.snd := rfl
  rw [this, ← List.map_map, List.zipIdx_map_snd]
  exact List.Nodup.map (fun a b h => Int.ofNat.inj h) (List.nodup_range' )

theorem someInd_ok_iff (kv : String × Option Int) (r : String × Int) :
    someInd kv = .ok r ↔ kv = (r.1, some r.2) := by
  obtain ⟨k, v⟩ := kv
  obtain ⟨k', v'⟩ := r
  cases v <;> simp [someInd]

theorem loadInds_ok_iff (qubits : List String) (inds : Dict String (Option Int))
    (hq : inds.keys = qubits) (r : Dict String Int) :
    loadInds qubits inds = .ok r ↔
      ((∀ kv ∈ inds, kv.2 = none) ∧ r = autoInds qubits) ∨
      (inds = r.map (fun kv => (kv.1, some kv.2)) ∧ (r.map Prod.snd).Nodup) := by
  unfold loadInds
  have hF : ∀ (l : List (String × Option Int)) (r : List (String × Int)),
      List.Forall₂ (fun a b => someInd a = .ok b) l r ↔ l = r.map (fun kv => (kv.1, some kv.2)) := by
    intro l
    induction l with
    | nil => intro r; cases r <;> simp
    | cons a l ih =>
      intro r
      cases r with
      | nil => simp
      | cons b r => rw [List.forall₂_cons, ih, someInd_ok_iff]; simp
  by_cases hall : (inds.all fun kv => kv.2.isNone) = true
  · have hn : ∀ kv ∈ inds, kv.2 = none := by
      intro kv hkv
      have := List.all_eq_true.1 hall kv hkv
      simpa using this
    have h1 : mapExcept (qubits.zipIdx.map fun qi => (qi.1, some (qi.2 : Int))) someInd =
        .ok (autoInds qubits) := by
      rw [mapExcept_ok_iff, hF]
      simp [autoInds]
    have hs : loadInds qubits inds = .ok (autoInds qubits) := by
      unfold loadInds
      simp only [hall, if_true]
      rw [h1]
      simp only
      rw [if_pos (autoInds_vals_nodup qubits)]
    unfold loadInds at hs
    simp only at hs ⊢
    rw [hs]
    constructor
    · intro h
      simp only [Except.ok.injEq] at h
      exact Or.inl ⟨hn, h.symm⟩
    · rintro (⟨-, rfl⟩ | ⟨h2, h3⟩)
      · rfl
      · cases r with
        | nil =>
          simp at h2
          subst h2
          simp [Dict.keys] at hq
          subst hq
          rfl
        | cons kv r =>
          have := hn (kv.1, some kv.2) (by rw [h2]; simp)
          simp at this
  · simp only [hall, Bool.false_eq_true, if_false]
    cases h : mapExcept inds someInd with
    | error e =>
      simp only [reduceCtorEq, false_iff, not_or, not_and]
      constructor
      · intro hn
        exfalso
        apply hall
        rw [List.all_eq_true]
        intro kv hkv
        simp [hn kv hkv]
      · intro h2
        rw [← hF, ← mapExcept_ok_iff, h] at h2
        simp at h2
    | ok r' =>
      simp only
      rw [mapExcept_ok_iff, hF] at h
      have hinj : ∀ r, inds = r.map (fun kv => (kv.1, some kv.2)) → r = r' := by
        intro r hr
        rw [hr] at h
        refine List.map_injective_iff.2 ?_ h
        rintro ⟨a, b⟩ ⟨c, d⟩ h
        simpa using h
      constructor
      · intro h'
        split at h'
        · rename_i hnd
          simp only [Except.ok.injEq] at h'
          subst h'
          exact Or.inr ⟨h, hnd⟩
        · simp at h'
      · rintro (⟨hn, -⟩ | ⟨h2, h3⟩)
        · exfalso
          apply hall
          rw [List.all_eq_true]
          intro kv hkv
          simp [hn kv hkv]
        · obtain rfl := hinj r h2
          rw [if_pos h3]

theorem someInd_error {kv : String × Option Int} {e : Err} (h : someInd kv = .error e) :
    e = .valueError := by
  obtain ⟨k, v⟩ := kv
  cases v with
  | none => simp [someInd] at h; exact h.symm
  | some i => simp [someInd] at h

theorem loadInds_error {qubits : List String} {inds : Dict String (Option Int)} {e : Err}
    (h : loadInds qubits inds = .error e) : e = .valueError := by
  unfold loadInds at h
  simp only at h
  split at h
  · rename_i h1
    simp only [Except.error.injEq] at h
    subst h
    obtain ⟨kv, -, h2⟩ := mapExcept_error h1
    exact someInd_error h2
  · split at h
    · simp at h
    · simp at h; exact h.symm

/-! ### the constructor -/

theorem sameSet_iff (a b : List String) : sameSet a b = true ↔ ∀ x, x ∈ a ↔ x ∈ b := by
  simp only [sameSet, Bool.and_eq_true, List.all_eq_true, List.contains_iff_mem]
  constructor
  · rintro ⟨h1, h2⟩ x; exact ⟨h1 x, h2 x⟩
  · intro h; exact ⟨fun x => (h x).1, fun x => (h x).2⟩

theorem indsOf_keys (infos : List QubitInfo) : (indsOf infos).keys = (nodesOf infos).keys := by
  simp [indsOf, nodesOf, Dict.keys]

theorem loadLayout_ok_iff (layout : Option (List QubitInfo)) (g : Graph) (inds : Dict String Int) :
    loadLayout layout = .ok (g, inds) ↔ ∃ infos, layout = some infos ∧
      (∀ i ∈ infos, i.qubit ≠ none) ∧ (∀ i ∈ infos, IndTyped i.attrs) ∧
      (nodesOf infos).keys.Nodup ∧ g.nodes = nodesOf infos ∧
      List.Forall₂ (fun n b => ∃ d, n.2.get? "neighbors" = some (.nbrs d) ∧
        (∀ dir q, (dir, some q) ∈ d → q ∈ (nodesOf infos).keys) ∧ b = (n.1, outEdges d))
        (nodesOf infos) g.adj ∧
      (((∀ i ∈ infos, i.givenInd = none) ∧ inds = autoInds (nodesOf infos).keys) ∨
       (indsOf infos = inds.map (fun kv => (kv.1, some kv.2)) ∧ (inds.map Prod.snd).Nodup)) := by
  unfold loadLayout
  cases layout with
  | none => simp
  | some infos =>
    simp only [Option.some.injEq, exists_eq_left']
    have hl := loadNodes_ok_iff infos [] [] rfl
    have hg : (∀ kv ∈ indsOf infos, kv.2 = none) ↔ ∀ i ∈ infos, i.givenInd = none := by
      simp [indsOf]
    cases h : loadNodes infos [] [] with
    | error e =>
      simp only [reduceCtorEq, false_iff]
      rintro ⟨h1, h2, h3, -⟩
      have := (hl (nodesOf infos, indsOf infos)).2 ⟨h1, h2, h3, by simp [Dict.keys], by simp⟩
      rw [h] at this
      simp at this
    | ok r =>
      obtain ⟨h1, h2, h3, -, rfl⟩ := (hl r).1 h
      simp only [List.nil_append]
      cases h4 : mapExcept (nodesOf infos) (nodeEdges (nodesOf infos)) with
      | error e =>
        simp only [reduceCtorEq, false_iff]
        rintro ⟨-, -, -, -, h5, -⟩
        simp only [← nodeEdges_ok_iff] at h5
        rw [← mapExcept_ok_iff, h4] at h5
        simp at h5
      | ok adj =>
        simp only
        have h4' := h4
        simp only [mapExcept_ok_iff, nodeEdges_ok_iff] at h4'
        have hu : ∀ adj', List.Forall₂ (fun n b => ∃ d, n.2.get? "neighbors" = some (.nbrs d) ∧
            (∀ dir q, (dir, some q) ∈ d → q ∈ (nodesOf infos).keys) ∧ b = (n.1, outEdges d))
            (nodesOf infos) adj' → adj' = adj := by
          intro adj' h5
          simp only [← nodeEdges_ok_iff] at h5
          rw [← mapExcept_ok_iff, h4] at h5
          simpa using h5.symm
        have hi := loadInds_ok_iff (nodesOf infos).keys (indsOf infos) (indsOf_keys infos)
        cases h6 : loadInds (nodesOf infos).keys (indsOf infos) with
        | error e =>
          simp only [reduceCtorEq, false_iff]
          rintro ⟨-, -, -, -, -, h7⟩
          rw [← hg, ← hi, h6] at h7
          simp at h7
        | ok inds' =>
          simp only [Except.ok.injEq, Prod.mk.injEq]
          constructor
          · rintro ⟨rfl, rfl⟩
            refine ⟨h1, h2, h3, rfl, h4', ?_⟩
            rw [← hg, ← hi, h6]
          · rintro ⟨-, -, -, h7, h8, h9⟩
            rw [← hg, ← hi, h6] at h9
            refine ⟨?_, by simpa using h9⟩
            rw [← h7, ← hu _ h8]

theorem init_ok_iff (s : LayoutSetup) (l : Layout) :
    init s = .ok l ↔ (∀ x, (x ∈ s.logQubits.getD [] ↔ x ∈ (s.logZ.getD []).keys) ∧
        (x ∈ s.logQubits.getD [] ↔ x ∈ (s.logX.getD []).keys)) ∧
      loadLayout s.layout = .ok (l.graph, l.qubitInds) ∧
      l.name = s.name.getD "" ∧ l.code = s.code.getD "" ∧ l.logQubits = s.logQubits.getD [] ∧
      l.distance = s.distance.getD (-1) ∧ l.distanceZ = s.distanceZ.getD (-1) ∧
      l.distanceX = s.distanceX.getD (-1) ∧ l.logZ = s.logZ.getD [] ∧ l.logX = s.logX.getD [] ∧
      l.description = s.description ∧ l.interactionOrder = s.interactionOrder.getD [] := by
  unfold init
  simp only
  have hs : (!sameSet (s.logQubits.getD []) (s.logZ.getD []).keys ||
      !sameSet (s.logQubits.getD []) (s.logX.getD []).keys) = false ↔
      ∀ x, (x ∈ s.logQubits.getD [] ↔ x ∈ (s.logZ.getD []).keys) ∧
        (x ∈ s.logQubits.getD [] ↔ x ∈ (s.logX.getD []).keys) := by
    simp only [Bool.or_eq_false_iff, Bool.not_eq_false', sameSet_iff]
    exact ⟨fun h x => ⟨h.1 x, h.2 x⟩, fun h => ⟨fun x => (h x).1, fun x => (h x).2⟩⟩
  rw [← hs]
  cases hb : (!sameSet (s.logQubits.getD []) (s.logZ.getD []).keys ||
      !sameSet (s.logQubits.getD []) (s.logX.getD []).keys) with
  | true => simp
  | false =>
    simp only [Bool.false_eq_true, if_false, true_and]
    cases h : loadLayout s.layout with
    | error e => simp
    | ok gi =>
      obtain ⟨g, i⟩ := gi
      obtain ⟨a, b, c, d, e, f, g', h', i', j', k, l⟩ := l
      simp only [Except.ok.injEq, Layout.mk.injEq, Prod.mk.injEq]
      constructor
      · rintro ⟨rfl, rfl, rfl, rfl, rfl, rfl, rfl, rfl, rfl, rfl, rfl, rfl⟩
        simp
      · rintro ⟨⟨rfl, rfl⟩, rfl, rfl, rfl, rfl, rfl, rfl, rfl, rfl, rfl, rfl⟩
        simp

end Layout
end SurfaceSim
