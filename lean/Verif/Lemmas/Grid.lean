/-
Qubits, neighbours and counting for layouts on a grid.
-/
import Verif.Lemmas.UnrotLayout
import Verif.Spec.Code
import Mathlib.Data.List.Perm.Subperm
import Mathlib.Algebra.BigOperators.Group.List.Basic

namespace SurfaceSim

/-! ### counting -/

theorem countP_eq_length_of {α : Type} {L T : List α} {P : α → Bool} (hL : L.Nodup) (hT : T.Nodup)
    (h : ∀ x, x ∈ L ∧ P x = true ↔ x ∈ T) : L.countP P = T.length := by
  rw [List.countP_eq_length_filter]
  apply List.Perm.length_eq
  rw [List.perm_ext_iff_of_nodup (hL.filter _) hT]
  intro x
  rw [List.mem_filter, h]

theorem sum_countP_swap {α β : Type} (S : List α) (A : List β) (N : β → α → Bool) :
    (A.map fun a => S.countP (N a)).sum = (S.map fun q => A.countP fun a => N a q).sum := by
  induction S with
  | nil => simp
  | cons q S ih =>
    rw [List.map_cons, List.sum_cons, ← ih]
    clear ih
    induction A with
    | nil => simp
    | cons a A ih2 =>
      simp only [List.map_cons, List.sum_cons, List.countP_cons] at ih2 ⊢
      rw [ih2]
      omega

theorem even_sum {L : List Nat} (h : ∀ n ∈ L, Even n) : Even L.sum := by
  induction L with
  | nil => simp
  | cons a L ih =>
    rw [List.sum_cons]
    exact (h a (by simp)).add (ih fun n hn => h n (List.mem_cons_of_mem _ hn))

theorem even_sum_iff_countP {α : Type} (S : List α) (f : α → Nat) (P : α → Bool)
    (h : ∀ q ∈ S, Even (f q) ↔ P q = false) : Even (S.map f).sum ↔ Even (S.countP P) := by
  induction S with
  | nil => simp
  | cons q S ih =>
    have ih := ih fun q hq => h q (List.mem_cons_of_mem _ hq)
    have hq := h q (by simp)
    rw [List.map_cons, List.sum_cons, Nat.even_add, ih, List.countP_cons, Nat.even_add, hq]
    cases P q <;> simp

/-- If `S` meets every set of a family evenly, it meets evenly the set of elements that are in an
odd number of sets of the family. -/
theorem even_countP_of_cover {α β : Type} {S : List α} {A : List β} {N : β → α → Bool} {P : α → Bool}
    (hA : ∀ a ∈ A, Even (S.countP (N a)))
    (hP : ∀ q ∈ S, Even (A.countP fun a => N a q) ↔ P q = false) : Even (S.countP P) := by
  rw [← even_sum_iff_countP S (fun q => A.countP fun a => N a q) P hP, ← sum_countP_swap]
  exact even_sum fun n hn => by
    obtain ⟨a, ha, rfl⟩ := List.mem_map.1 hn
    exact hA a ha

/-- A set meeting the first of `n` disjoint sets oddly and consecutive ones with the same parity has
at least `n` elements. -/
theorem length_of_slots {α : Type} (S : List α) (n : Nat) (f : α → Int)
    (h0 : Odd (S.countP fun q => decide (f q = 0)))
    (hs : ∀ k : Nat, k + 1 < n →
      Even (S.countP fun q => decide (f q = k ∨ f q = (k : Int) + 1))) : n ≤ S.length := by
  have hodd : ∀ k : Nat, k < n → Odd (S.countP fun q => decide (f q = (k : Int))) := by
    intro k
    induction k with
    | zero => intro _; exact h0
    | succ k ih =>
      intro hk
      have h1 := ih (by omega)
      have h2 := hs k hk
      have : S.countP (fun q => decide (f q = k ∨ f q = (k : Int) + 1)) =
          S.countP (fun q => decide (f q = k)) + S.countP fun q => decide (f q = (k : Int) + 1) := by
        clear h0 hs ih h1 h2
        induction S with
        | nil => rfl
        | cons q S ih =>
          simp only [List.countP_cons, ih]
          by_cases h1 : f q = k
          · have : f q ≠ (k : Int) + 1 := by omega
            simp [h1]; omega
          · by_cases h2 : f q = (k : Int) + 1 <;> simp [h2] <;> omega
      rw [this, Nat.even_add] at h2
      rw [← Nat.not_even_iff_odd] at h1 ⊢
      push_cast
      rwa [← h2]
  have hsub : (List.range n).Subperm (S.map fun q => (f q).toNat) := by
    refine List.nodup_range.subperm ?_
    intro k hk
    rw [List.mem_range] at hk
    have := hodd k hk
    have hpos : 0 < S.countP fun q => decide (f q = (k : Int)) := this.pos
    rw [List.countP_pos_iff] at hpos
    obtain ⟨q, hq, he⟩ := hpos
    simp only [decide_eq_true_eq] at he
    exact List.mem_map.2 ⟨q, hq, by omega⟩
  simpa using hsub.length_le

/-! ### qubits of a grid -/

variable {l : Layout} {L : List (String × Site × Kind)} {dirs : List (Site × String)}

/-- The labels of the qubits of a kind. -/
def labelsOf (L : List (String × Site × Kind)) (p : Kind → Bool) : List String :=
  (L.filter fun e => p e.2.2).map Prod.fst

theorem mem_labelsOf {p : Kind → Bool} {q : String} :
    q ∈ labelsOf L p ↔ ∃ s k, (q, s, k) ∈ L ∧ p k = true := by
  unfold labelsOf
  rw [List.mem_map]
  constructor
  · rintro ⟨⟨q, s, k⟩, h, rfl⟩
    rw [List.mem_filter] at h
    exact ⟨s, k, h.1, h.2⟩
  · rintro ⟨s, k, h, hp⟩; exact ⟨(q, s, k), List.mem_filter.2 ⟨h, hp⟩, rfl⟩

namespace OnGrid

theorem nodupL (h : OnGrid l L dirs) : L.Nodup := List.Nodup.of_map _ h.labels

theorem unique (h : OnGrid l L dirs) {q : String} {s s' : Site} {k k' : Kind} (h1 : (q, s, k) ∈ L)
    (h2 : (q, s', k') ∈ L) : s = s' ∧ k = k' := by
  have := LayoutLib.unique_of_nodup h.labels h1 h2 rfl
  simpa using this

theorem unique' (h : OnGrid l L dirs) {q q' : String} {s : Site} {k k' : Kind} (h1 : (q, s, k) ∈ L)
    (h2 : (q', s, k') ∈ L) : q = q' ∧ k = k' := by
  have := LayoutLib.unique_of_nodup h.sites h1 h2 rfl
  simpa using this

theorem labelsOf_nodup (h : OnGrid l L dirs) (p : Kind → Bool) : (labelsOf L p).Nodup :=
  (List.filter_sublist.map _).nodup h.labels

/-- The result of `get_qubits` with conditions on attributes that depend on the kind. -/
theorem getQubits_eq (h : OnGrid l L dirs) (conds : Dict String Val) (p : Kind → Bool) (hne : conds ≠ [])
    (hc : ∀ q s k attrs, (q, s, k) ∈ L → (q, attrs) ∈ l.graph.nodes →
      Layout.validAttrs attrs conds = .ok (p k)) :
    l.getQubits conds = .ok (labelsOf L p) := by
  have hinv := Layout.inv_of_reachable h.reach
  unfold Layout.getQubits
  rw [if_neg (by cases conds <;> simp_all)]
  have hk := h.keys
  unfold labelsOf
  have hsub : ∀ n ∈ l.graph.nodes, ∀ q s k, (q, s, k) ∈ L → n.1 = q →
      Layout.validAttrs n.2 conds = .ok (p k) := by
    rintro ⟨q, attrs⟩ hn q' s k he rfl
    exact hc q s k attrs he hn
  clear hc
  have hLn : ∀ e ∈ L, e ∈ L := fun e he => he
  revert hsub
  have hk' : Dict.keys l.graph.nodes = L.map Prod.fst := hk
  generalize l.graph.nodes = N at hk'
  clear hk hLn h hinv
  induction N generalizing L with
  | nil =>
    intro _
    cases L with
    | nil => rfl
    | cons e L => simp [Dict.keys] at hk'
  | cons n N ih =>
    intro hsub
    cases L with
    | nil => simp [Dict.keys] at hk'
    | cons e L =>
      obtain ⟨q, s, k⟩ := e
      obtain ⟨q', attrs⟩ := n
      simp only [Dict.keys, List.map_cons, List.cons.injEq] at hk'
      obtain ⟨rfl, hk'⟩ := hk'
      have h1 := hsub (q', attrs) (by simp) q' s k (by simp) rfl
      have h2 := ih hk' fun n hn q s k he hq =>
        hsub n (List.mem_cons_of_mem _ hn) q s k (List.mem_cons_of_mem _ he) hq
      simp only [Layout.filterNodes]
      rw [h1, h2]
      simp only
      rw [List.filter_cons]
      cases hp : p k <;> simp

theorem attrs_of (h : OnGrid l L dirs) {q : String} {s : Site} {k : Kind} {attrs : Dict String Val}
    (he : (q, s, k) ∈ L) (hn : (q, attrs) ∈ l.graph.nodes) :
    attrs.get? "role" = some (LayoutLib.roleOf k) ∧
    attrs.get? "stab_type" = some (LayoutLib.stabOf k) := by
  obtain ⟨attrs', hn', h1, h2⟩ := h.attrs q s k he
  have := LayoutLib.unique_of_nodup (Layout.inv_of_reachable h.reach).nodup hn hn' rfl
  simp only [Prod.mk.injEq, true_and] at this
  subst this
  exact ⟨h1, h2⟩

theorem getQubits_data (h : OnGrid l L dirs) :
    l.getQubits [("role", .str "data")] = .ok (labelsOf L fun k => k = .data) := by
  refine h.getQubits_eq _ _ (by simp) fun q s k attrs he hn => ?_
  obtain ⟨h1, h2⟩ := h.attrs_of he hn
  cases k <;> simp [Layout.validAttrs, h1, LayoutLib.roleOf]

theorem getQubits_anc (h : OnGrid l L dirs) :
    l.getQubits [("role", .str "anc")] = .ok (labelsOf L fun k => k ≠ .data) := by
  refine h.getQubits_eq _ _ (by simp) fun q s k attrs he hn => ?_
  obtain ⟨h1, h2⟩ := h.attrs_of he hn
  cases k <;> simp [Layout.validAttrs, h1, LayoutLib.roleOf]

theorem getQubits_x (h : OnGrid l L dirs) :
    l.getQubits [("role", .str "anc"), ("stab_type", .str "x_type")] =
      .ok (labelsOf L fun k => k = .x) := by
  refine h.getQubits_eq _ _ (by simp) fun q s k attrs he hn => ?_
  obtain ⟨h1, h2⟩ := h.attrs_of he hn
  cases k <;> simp [Layout.validAttrs, h1, h2, LayoutLib.roleOf, LayoutLib.stabOf]

theorem getQubits_z (h : OnGrid l L dirs) :
    l.getQubits [("role", .str "anc"), ("stab_type", .str "z_type")] =
      .ok (labelsOf L fun k => k = .z) := by
  refine h.getQubits_eq _ _ (by simp) fun q s k attrs he hn => ?_
  obtain ⟨h1, h2⟩ := h.attrs_of he hn
  cases k <;> simp [Layout.validAttrs, h1, h2, LayoutLib.roleOf, LayoutLib.stabOf]

theorem getQubits_all (h : OnGrid l L dirs) : l.getQubits [] = .ok (L.map Prod.fst) := by
  simp [Layout.getQubits, h.keys]

/-! ### neighbours -/

theorem mem_pairs (h : OnGrid l L dirs) {qs : List String} {q q' dir : String} :
    (q, q') ∈ l.getNeighborPairs qs (some dir) ↔ q ∈ qs ∧ LayoutLib.Rel L dirs q dir q' := by
  have hinv := Layout.inv_of_reachable h.reach
  have h1 := h.nbr q q' dir
  rw [Layout.mem_getNeighborPairs hinv] at h1 ⊢
  unfold LayoutLib.Rel
  rw [← h1]
  simp

theorem mem_neighbors (h : OnGrid l L dirs) {a q : String} :
    q ∈ l.getNeighbors [a] none ↔ ∃ dir, LayoutLib.Rel L dirs a dir q := by
  have hinv := Layout.inv_of_reachable h.reach
  unfold Layout.getNeighbors
  simp only [List.mem_map, Prod.exists, exists_eq_right]
  constructor
  · rintro ⟨x, hx⟩
    obtain ⟨hx1, b, d, h1, h2, -⟩ := (Layout.mem_getNeighborPairs hinv _ _ _ _).1 hx
    simp only [List.mem_singleton] at hx1
    subst hx1
    refine ⟨d, ?_⟩
    have := (h.mem_pairs (qs := [x]) (q := x) (q' := q) (dir := d)).1
      ((Layout.mem_getNeighborPairs hinv _ _ _ _).2 ⟨by simp, b, d, h1, h2, Or.inr rfl⟩)
    exact this.2
  · rintro ⟨dir, hr⟩
    have := (h.mem_pairs (qs := [a])).2 ⟨by simp, hr⟩
    obtain ⟨h0, b, d, h1, h2, -⟩ := (Layout.mem_getNeighborPairs hinv _ _ _ _).1 this
    exact ⟨a, (Layout.mem_getNeighborPairs hinv _ _ _ _).2 ⟨h0, b, d, h1, h2, Or.inl rfl⟩⟩

/-- The neighbours of an ancilla. -/
theorem mem_neighbors_anc (h : OnGrid l L dirs) {a q : String} {s : Site} {k : Kind}
    (ha : (a, s, k) ∈ L) (hk : k ≠ .data) :
    q ∈ l.getNeighbors [a] none ↔ ∃ sh dir, (sh, dir) ∈ dirs ∧ (q, s + sh, Kind.data) ∈ L := by
  rw [h.mem_neighbors]
  constructor
  · rintro ⟨dir, s', k1, _, k2, sh, he, he', hd, rfl, hkk⟩
    obtain ⟨rfl, rfl⟩ := h.unique ha he
    have : k2 = .data := by by_contra hc; exact hk (hkk.2 hc)
    subst this
    exact ⟨sh, dir, hd, he'⟩
  · rintro ⟨sh, dir, hd, he⟩
    exact ⟨dir, s, k, s + sh, .data, sh, ha, he, hd, rfl, by simpa using hk⟩

theorem neighbors_nodup (h : OnGrid l L dirs) (a : String) : (l.getNeighbors [a] none).Nodup := by
  have hinv := Layout.inv_of_reachable h.reach
  unfold Layout.getNeighbors Layout.getNeighborPairs Layout.outEdgeView
  rw [List.map_map, Layout.dedup, Layout.dedup]
  simp only [List.filter_nil, List.filter_cons]
  cases hn : l.graph.nodes.has a with
  | false => simp
  | true =>
    simp only [if_true, List.flatMap_cons, List.flatMap_nil, List.append_nil]
    cases hadj : l.graph.adj.get? a with
    | none => simp
    | some d =>
      have := (hinv.adjOk _ (Dict.mem_of_get? hadj)).1
      simpa [Function.comp_def, Dict.keys] using this

/-- The label at a position. -/
noncomputable def labAt (L : List (String × Site × Kind)) (s : Site) : String :=
  open Classical in if h : ∃ q, (q, s, Kind.data) ∈ L then h.choose else ""

/-- Counting data qubits by their positions. -/
theorem countP_sites (h : OnGrid l L dirs) {S : List String} {P : String → Bool} (hS : S.Nodup)
    (hSd : ∀ q ∈ S, ∃ s, (q, s, Kind.data) ∈ L) (T : List Site) (hT : T.Nodup)
    (hTL : ∀ s ∈ T, ∃ q, (q, s, Kind.data) ∈ L)
    (hiff : ∀ q s, (q, s, Kind.data) ∈ L → (q ∈ S ∧ P q = true ↔ s ∈ T)) :
    S.countP P = T.length := by
  have hlab : ∀ s ∈ T, (labAt L s, s, Kind.data) ∈ L := by
    intro s hs
    unfold labAt
    rw [dif_pos (hTL s hs)]
    exact (hTL s hs).choose_spec
  rw [← List.length_map (f := labAt L) (as := T)]
  refine countP_eq_length_of hS ?_ ?_
  · rw [List.nodup_map_iff_inj_on hT]
    intro s hs s' hs' he
    have h1 := hlab s hs
    rw [he] at h1
    exact (h.unique h1 (hlab s' hs')).1
  · intro q
    constructor
    · rintro ⟨hq, hp⟩
      obtain ⟨s, hs⟩ := hSd q hq
      have hsT := (hiff q s hs).1 ⟨hq, hp⟩
      exact List.mem_map.2 ⟨s, hsT, (h.unique' (hlab s hsT) hs).1⟩
    · intro hq
      obtain ⟨s, hs, rfl⟩ := List.mem_map.1 hq
      exact (hiff _ s (hlab s hs)).2 hs

/-- Counting entries. -/
theorem countP_entries (h : OnGrid l L dirs) {P : String × Site × Kind → Bool} (k : Kind) (T : List Site)
    (hT : T.Nodup) (hTL : ∀ s ∈ T, ∃ q, (q, s, k) ∈ L) (hP : ∀ e ∈ L, P e = true → e.2.2 = k)
    (hiff : ∀ q s, (q, s, k) ∈ L → (P (q, s, k) = true ↔ s ∈ T)) : L.countP P = T.length := by
  classical
  let f : Site → String × Site × Kind := fun s => if h : ∃ q, (q, s, k) ∈ L then (h.choose, s, k) else ("", s, k)
  have hf : ∀ s ∈ T, f s ∈ L ∧ (f s).2 = (s, k) := by
    intro s hs
    simp only [f, dif_pos (hTL s hs)]
    exact ⟨(hTL s hs).choose_spec, trivial⟩
  rw [← List.length_map (f := f) (as := T)]
  refine countP_eq_length_of h.nodupL ?_ ?_
  · rw [List.nodup_map_iff_inj_on hT]
    intro s hs s' hs' he
    have h1 := (hf s hs).2
    rw [he, (hf s' hs').2] at h1
    simp only [Prod.mk.injEq] at h1
    exact h1.1.symm
  · intro e
    constructor
    · rintro ⟨he, hp⟩
      obtain ⟨q, s, k'⟩ := e
      have := hP _ he hp
      simp only at this
      subst this
      have hs := (hiff q s he).1 hp
      refine List.mem_map.2 ⟨s, hs, ?_⟩
      exact LayoutLib.unique_of_nodup h.sites (hf s hs).1 he (by simp [(hf s hs).2])
    · intro he
      obtain ⟨s, hs, rfl⟩ := List.mem_map.1 he
      obtain ⟨h1, h2⟩ := hf s hs
      refine ⟨h1, ?_⟩
      obtain ⟨q, hq⟩ : ∃ q, f s = (q, s, k) := ⟨(f s).1, by rw [← h2]⟩
      rw [hq] at h1 ⊢
      exact (hiff q s h1).2 hs

/-- Setting a parameter that is not used by the grid keeps the grid. -/
theorem setParam (h : OnGrid l L dirs) {l' : Layout} {key q : String} {v : Val}
    (hs : l.setParam key q v = .ok l') (h1 : key ≠ "ind") (h2 : key ≠ "role") (h3 : key ≠ "stab_type") :
    OnGrid l' L dirs := by
  have hr := Reachable.setParam h.reach h1 hs
  unfold Layout.setParam at hs
  cases hq : l.graph.nodes.get? q with
  | none => rw [hq] at hs; simp at hs
  | some attrs =>
    rw [hq] at hs
    simp only [Except.ok.injEq] at hs
    have hinv := Layout.inv_of_reachable h.reach
    have hqk : q ∈ l.graph.nodes.keys := by
      rw [← Dict.get?_isSome_iff, hq]; rfl
    have hkeys : (l.graph.nodes.set q (attrs.set key v)).keys = l.graph.nodes.keys := by
      rw [Dict.keys_set, if_pos hqk]
    subst hs
    refine ⟨hr, by rw [← h.keys]; exact hkeys, h.labels, h.sites, ?_, h.shifts, h.names, ?_⟩
    · intro q' s k he
      obtain ⟨attrs', hm, ha1, ha2⟩ := h.attrs q' s k he
      have hg := Dict.get?_of_mem hinv.nodup hm
      by_cases hqq : q = q'
      · subst hqq
        rw [hq] at hg
        simp only [Option.some.injEq] at hg
        subst hg
        refine ⟨attrs.set key v, Dict.mem_of_get? (Dict.get?_set_self _ _ _), ?_, ?_⟩
        · rw [Dict.get?_set_ne _ h2]; exact ha1
        · rw [Dict.get?_set_ne _ h3]; exact ha2
      · refine ⟨attrs', Dict.mem_of_get? ?_, ha1, ha2⟩
        rw [Dict.get?_set_ne _ hqq]; exact hg
    · intro q1 q2 dir
      rw [← h.nbr q1 q2 dir, Layout.mem_getNeighborPairs hinv,
        Layout.mem_getNeighborPairs (Layout.inv_of_reachable hr)]

end OnGrid
end SurfaceSim
