/-
The loops of `layouts/util.py`.
-/
import Verif.Model.LayoutUtil
import Verif.Spec.LayoutUtil
import Verif.Lemmas.LayoutInv
import Verif.Lemmas.Placed

namespace SurfaceSim
open Spec LayoutUtil

/-! ### the number of iterations -/

/-- The number of nodes not visited. -/
def left (nodes done : List String) : Nat := (nodes.filter fun q => decide (q ∉ done)).length

/-- A bound on the number of iterations. -/
def weight (D : Nat) (nodes done queue : List String) : Nat :=
  (queue.map fun q => if q ∈ done then (D + 1) ^ (left nodes done + 1) else (D + 1) ^ left nodes done).sum

theorem left_cons_mem {nodes done : List String} {q : String} (h : q ∈ done) : left nodes (q :: done) = left nodes done := by
  unfold left
  congr 1
  apply List.filter_congr
  intro x _
  by_cases hx : x = q <;> simp [hx, h]

theorem left_cons {nodes done : List String} {q : String} (hq : q ∈ nodes) (h : q ∉ done) :
    left nodes (q :: done) + 1 ≤ left nodes done := by
  unfold left
  induction nodes with
  | nil => simp at hq
  | cons a nodes ih =>
    have hsub : (nodes.filter fun x => decide (x ∉ q :: done)).length ≤ (nodes.filter fun x => decide (x ∉ done)).length := by
      rw [← List.countP_eq_length_filter, ← List.countP_eq_length_filter]
      apply List.countP_mono_left
      intro x _ hx
      simp only [List.mem_cons, not_or, decide_eq_true_eq] at hx ⊢
      exact hx.2
    by_cases ha : a = q
    · subst ha
      rw [List.filter_cons_of_neg (by simp), List.filter_cons_of_pos (by simpa using h)]
      simp only [List.length_cons]
      omega
    · have hq' : q ∈ nodes := by
        rcases List.mem_cons.1 hq with h | h
        · exact absurd h.symm ha
        · exact h
      have ih := ih hq'
      by_cases had : a ∈ done
      · rw [List.filter_cons_of_neg (by simp [had]), List.filter_cons_of_neg (by simp [had])]
        exact ih
      · rw [List.filter_cons_of_pos (by simp [had, ha]), List.filter_cons_of_pos (by simp [had])]
        simp only [List.length_cons]
        omega

theorem sum_le_of {α : Type} (xs : List α) (f g : α → Nat) (h : ∀ x ∈ xs, f x ≤ g x) : (xs.map f).sum ≤ (xs.map g).sum := by
  induction xs with
  | nil => simp
  | cons a xs ih =>
    simp only [List.map_cons, List.sum_cons]
    have := h a (by simp)
    have := ih fun x hx => h x (by simp [hx])
    omega

theorem weight_step {D : Nat} {nodes done rest new : List String} {q : String} (hq : q ∈ nodes) (hn : new.length ≤ D)
    (hnew : ∀ x ∈ new, x ∉ q :: done) :
    weight D nodes (q :: done) (rest ++ new) + 1 ≤ weight D nodes done (q :: rest) := by
  unfold weight
  simp only [List.map_append, List.sum_append, List.map_cons, List.sum_cons]
  have h1 : (new.map fun x => if x ∈ q :: done then (D + 1) ^ (left nodes (q :: done) + 1)
      else (D + 1) ^ left nodes (q :: done)).sum ≤ D * (D + 1) ^ left nodes (q :: done) := by
    refine (sum_le_of new _ (fun _ => (D + 1) ^ left nodes (q :: done)) fun x hx => ?_).trans ?_
    · rw [if_neg (hnew x hx)]
    · simp only [List.map_const', List.sum_replicate, smul_eq_mul]
      exact Nat.mul_le_mul_right _ hn
  have pos : 1 ≤ (D + 1) ^ left nodes (q :: done) := Nat.one_le_pow _ _ (by omega)
  have pw : (D + 1) ^ (left nodes (q :: done) + 1) = D * (D + 1) ^ left nodes (q :: done) + (D + 1) ^ left nodes (q :: done) := by
    rw [pow_succ]; ring
  by_cases hd : q ∈ done
  · have e := left_cons_mem (nodes := nodes) hd
    have h2 : (rest.map fun x => if x ∈ q :: done then (D + 1) ^ (left nodes (q :: done) + 1)
        else (D + 1) ^ left nodes (q :: done)).sum ≤
        (rest.map fun x => if x ∈ done then (D + 1) ^ (left nodes done + 1) else (D + 1) ^ left nodes done).sum := by
      refine sum_le_of _ _ _ fun x _ => ?_
      have : x ∈ q :: done ↔ x ∈ done := by
        simp only [List.mem_cons, or_iff_right_iff_imp]
        rintro rfl
        exact hd
      simp only [this, e]
      exact le_refl _
    rw [if_pos hd]
    rw [← e] at h2 ⊢
    omega
  · have e := left_cons hq hd
    have h2 : (rest.map fun x => if x ∈ q :: done then (D + 1) ^ (left nodes (q :: done) + 1)
        else (D + 1) ^ left nodes (q :: done)).sum ≤
        (rest.map fun x => if x ∈ done then (D + 1) ^ (left nodes done + 1) else (D + 1) ^ left nodes done).sum := by
      refine sum_le_of _ _ _ fun x _ => ?_
      by_cases hx : x ∈ done
      · rw [if_pos (List.mem_cons_of_mem _ hx), if_pos hx]
        exact Nat.pow_le_pow_right (by omega) (by omega)
      · rw [if_neg hx]
        split
        · exact Nat.pow_le_pow_right (by omega) (by omega)
        · exact Nat.pow_le_pow_right (by omega) (by omega)
    rw [if_neg hd]
    have : (D + 1) ^ (left nodes (q :: done) + 1) ≤ (D + 1) ^ left nodes done := Nat.pow_le_pow_right (by omega) e
    omega

theorem weight_pos {D : Nat} {nodes done rest : List String} {q : String} : 1 ≤ weight D nodes done (q :: rest) := by
  unfold weight
  simp only [List.map_cons, List.sum_cons]
  have h1 : 1 ≤ (D + 1) ^ (left nodes done + 1) := Nat.one_le_pow _ _ (by omega)
  have h2 : 1 ≤ (D + 1) ^ left nodes done := Nat.one_le_pow _ _ (by omega)
  split <;> omega

theorem weight_start (nodes : List String) (q : String) : weight nodes.length nodes [] [q] = (nodes.length + 1) ^ nodes.length := by
  simp [weight, left]

/-! ### writing attributes -/

namespace Spec.OnlyAttr
variable {key : String} {l0 l l' : Layout}

theorem refl (key : String) (l : Layout) : OnlyAttr key l l := ⟨rfl, rfl, fun _ _ _ => rfl⟩

theorem keys (h : OnlyAttr key l0 l) : l.graph.nodes.keys = l0.graph.nodes.keys := by
  have := h.qubits
  simpa [Layout.getQubits] using this

theorem adj (h : OnlyAttr key l0 l) : l.graph.adj = l0.graph.adj := by
  rw [h.fields]

theorem succs (h : OnlyAttr key l0 l) (q : String) : succs l q = succs l0 q := by
  unfold LayoutUtil.succs
  rw [h.adj]

theorem step (h : OnlyAttr key l0 l) {q : String} {v : Val} (hs : l.setParam key q v = .ok l') : OnlyAttr key l0 l' := by
  have hp := fun p q' (hp : p ≠ key) => param_setParam_ne hs hp q'
  unfold Layout.setParam at hs
  split at hs
  · simp at hs
  · rename_i attrs ha
    simp only [Except.ok.injEq] at hs
    subst hs
    refine ⟨?_, ?_, fun p q' hpk => (hp p q' hpk).trans (h.params p q' hpk)⟩
    · obtain ⟨N, hN⟩ : ∃ N, l = { l0 with graph := ⟨N, l0.graph.adj⟩ } := ⟨_, h.fields⟩
      subst hN
      rfl
    · rw [← h.qubits]
      simp only [Layout.getQubits, List.isEmpty_nil, if_true, Except.ok.injEq]
      rw [Dict.keys_set, if_pos ((Dict.get?_isSome_iff _ _).1 (by rw [ha]; rfl))]

end Spec.OnlyAttr

theorem writeAttr_ok {key q : String} {v : Val} {l : Layout} (hq : q ∈ l.graph.nodes.keys) :
    ∃ l', writeAttr key q v l = (.ok (), l') ∧ l.setParam key q v = .ok l' := by
  obtain ⟨attrs, ha⟩ := Option.isSome_iff_exists.1 ((Dict.get?_isSome_iff _ _).2 hq)
  have : ∃ l', l.setParam key q v = .ok l' := by
    unfold Layout.setParam
    rw [ha]
    exact ⟨_, rfl⟩
  obtain ⟨l', hl'⟩ := this
  refine ⟨l', ?_, hl'⟩
  simp [writeAttr, bind, PyM.bind, PyM.get, PyM.ofExcept, PyM.put, hl']

/-! ### the graph -/

theorem mem_succs {l : Layout} (hl : l.Inv) {q q' dir : String} :
    (q', dir) ∈ succs l q ↔ (q, q') ∈ l.getNeighborPairs [q] (some dir) := by
  unfold succs Layout.getNeighborPairs Layout.outEdgeView
  simp only [Layout.dedup, List.filter_nil, List.mem_map, List.mem_filter, List.mem_flatMap, List.mem_cons, List.not_mem_nil,
    or_false, decide_eq_true_eq]
  constructor
  · intro h
    have hq : l.graph.nodes.has q = true := by
      rw [Dict.has_iff, ← hl.adjKeys]
      cases hg : l.graph.adj.get? q with
      | none => simp [hg] at h
      | some d => exact (Dict.get?_isSome_iff _ _).1 (by rw [hg]; rfl)
    exact ⟨(q, q', dir), ⟨⟨q, ⟨rfl, hq⟩, (q', dir), h, rfl⟩, by simp⟩, rfl⟩
  · rintro ⟨e, ⟨⟨x, ⟨rfl, -⟩, kv, hkv, rfl⟩, h2⟩, h3⟩
    simp only [reduceCtorEq, false_or, Option.some.injEq] at h2
    simp only [Prod.mk.injEq, true_and] at h3
    subst h2 h3
    exact hkv

theorem mem_nbrs {l : Layout} (hl : l.Inv) {q q' : String} : q' ∈ l.getNeighbors [q] none ↔ q' ∈ (succs l q).keys := by
  unfold succs Layout.getNeighbors Layout.getNeighborPairs Layout.outEdgeView
  simp only [Layout.dedup, List.filter_nil, List.map_map, List.mem_map, List.mem_filter, List.mem_flatMap, List.mem_cons,
    List.not_mem_nil, or_false, true_or, decide_true, and_true, Dict.keys, Function.comp]
  constructor
  · rintro ⟨e, ⟨x, ⟨rfl, -⟩, kv, hkv, rfl⟩, rfl⟩
    exact ⟨kv, hkv, rfl⟩
  · rintro ⟨kv, hkv, rfl⟩
    have hq : l.graph.nodes.has q = true := by
      rw [Dict.has_iff, ← hl.adjKeys]
      cases hg : l.graph.adj.get? q with
      | none => simp [hg] at hkv
      | some d => exact (Dict.get?_isSome_iff _ _).1 (by rw [hg]; rfl)
    exact ⟨(q, kv.1, kv.2), ⟨q, ⟨rfl, hq⟩, kv, hkv, rfl⟩, rfl⟩

theorem succs_sub {l : Layout} (hl : l.Inv) {q q' : String} (h : q' ∈ (succs l q).keys) : q' ∈ l.graph.nodes.keys := by
  unfold succs at h
  cases hg : l.graph.adj.get? q with
  | none => simp [hg, Dict.keys] at h
  | some d =>
    rw [hg] at h
    exact (hl.adjOk _ (Dict.mem_of_get? hg)).2.2 q' h

theorem succs_nodup {l : Layout} (hl : l.Inv) (q : String) : (succs l q).keys.Nodup := by
  unfold succs
  cases hg : l.graph.adj.get? q with
  | none => simp [Dict.keys]
  | some d => exact (hl.adjOk _ (Dict.mem_of_get? hg)).1

theorem succs_length {l : Layout} (hl : l.Inv) (q : String) : (succs l q).length ≤ l.graph.nodes.keys.length := by
  have := ((succs_nodup hl q).subperm fun x hx => succs_sub hl hx).length_le
  simpa [Dict.keys] using this

theorem param_written {l l' : Layout} {key q : String} {v : Val} (h : l.setParam key q v = .ok l') : l'.param key q = .ok v := by
  rw [param_setParam h, if_pos ⟨rfl, rfl⟩]

/-! ### coordinates -/

/-- What the loop of `set_coords` has done. -/
structure CoordsInv (l0 : Layout) (start : String) (P : String → List Rat → Prop) (done : List String)
    (queue : List (String × List Rat)) (l : Layout) : Prop where
  only : OnlyAttr "coords" l0 l
  known : ∀ e ∈ queue, e.1 ∈ l0.graph.nodes.keys
  leadsDone : ∀ q ∈ done, Leads l0 start q
  leadsQueue : ∀ e ∈ queue, Leads l0 start e.1
  good : ∀ e ∈ queue, P e.1 e.2
  written : ∀ q ∈ done, ∃ c, P q c ∧ l.param "coords" q = .ok (.coords c)
  kept : ∀ q, q ∉ done → l.param "coords" q = l0.param "coords" q
  closed : ∀ q ∈ done, ∀ q' ∈ (succs l0 q).keys, q' ∈ done ∨ q' ∈ queue.map Prod.fst
  first : start ∈ done ∨ start ∈ queue.map Prod.fst
  head : start ∈ done ∨ ∃ c rest, queue = (start, c) :: rest

theorem coordsLoop_spec {l0 : Layout} (hl : l0.Inv) {start : String} {P : String → List Rat → Prop}
    (hP : ∀ q c q' dir, P q c → (q', dir) ∈ succs l0 q → q' ≠ start → P q' (moveBy c dir)) :
    ∀ (n : Nat) (done : List String) (queue : List (String × List Rat)) (l : Layout), CoordsInv l0 start P done queue l →
      weight l0.graph.nodes.keys.length l0.graph.nodes.keys done (queue.map Prod.fst) ≤ n →
      ∃ l' done', coordsLoop n done queue l = (.ok (), l') ∧ CoordsInv l0 start P done' [] l' := by
  intro n
  induction n with
  | zero =>
    intro done queue l hi hw
    cases queue with
    | nil => exact ⟨l, done, rfl, hi⟩
    | cons e queue =>
      have := weight_pos (D := l0.graph.nodes.keys.length) (nodes := l0.graph.nodes.keys) (done := done)
        (rest := queue.map Prod.fst) (q := e.1)
      simp only [List.map_cons] at hw
      omega
  | succ n ih =>
    intro done queue l hi hw
    cases queue with
    | nil => exact ⟨l, done, rfl, hi⟩
    | cons e queue =>
      obtain ⟨q, c⟩ := e
      have hq := hi.known (q, c) (by simp)
      obtain ⟨l1, e1, e2⟩ := writeAttr_ok (key := "coords") (v := .coords c) (l := l) (q := q) (by rw [hi.only.keys]; exact hq)
      have ho := hi.only.step e2
      have hs := ho.succs q
      set new := ((succs l0 q).filter fun e => decide (e.1 ∉ q :: done)).map fun e => (e.1, moveBy c e.2) with hnew
      have hnf : new.map Prod.fst = ((succs l0 q).filter fun e => decide (e.1 ∉ q :: done)).map Prod.fst := by
        rw [hnew, List.map_map]
        rfl
      have hstart : start ∈ q :: done := by
        rcases hi.head with h | ⟨c', rest, h⟩
        · exact List.mem_cons_of_mem _ h
        · simp only [List.cons.injEq, Prod.mk.injEq] at h
          rw [h.1.1]
          exact List.mem_cons_self
      have hmem : ∀ e ∈ new, ∃ dir, (e.1, dir) ∈ succs l0 q ∧ e.1 ∉ q :: done ∧ e.2 = moveBy c dir := by
        intro e he
        rw [hnew] at he
        obtain ⟨e', h1, rfl⟩ := List.mem_map.1 he
        rw [List.mem_filter, decide_eq_true_eq] at h1
        exact ⟨e'.2, h1.1, h1.2, rfl⟩
      have hkey : ∀ e ∈ new, e.1 ∈ (succs l0 q).keys := by
        intro e he
        obtain ⟨dir, h1, -⟩ := hmem e he
        exact List.mem_map.2 ⟨_, h1, rfl⟩
      have hlq := hi.leadsQueue (q, c) (by simp)
      have hinv : CoordsInv l0 start P (q :: done) (queue ++ new) l1 := by
        refine ⟨ho, fun e he => ?_, fun x hx => ?_, fun e he => ?_, fun e he => ?_, fun x hx => ?_, fun x hx => ?_,
          fun x hx x' hx' => ?_, Or.inl hstart, Or.inl hstart⟩
        · rcases List.mem_append.1 he with h | h
          · exact hi.known e (List.mem_cons_of_mem _ h)
          · exact succs_sub hl (hkey e h)
        · rcases List.mem_cons.1 hx with rfl | hx
          · exact hlq
          · exact hi.leadsDone x hx
        · rcases List.mem_append.1 he with h | h
          · exact hi.leadsQueue e (List.mem_cons_of_mem _ h)
          · exact hlq.step ((mem_nbrs hl).2 (hkey e h))
        · rcases List.mem_append.1 he with h | h
          · exact hi.good e (List.mem_cons_of_mem _ h)
          · obtain ⟨dir, h1, h2, h3⟩ := hmem e h
            rw [h3]
            exact hP q c e.1 dir (hi.good (q, c) (by simp)) h1 fun h => h2 (h ▸ hstart)
        · by_cases hxq : x = q
          · subst hxq
            exact ⟨c, hi.good (x, c) (by simp), param_written e2⟩
          · obtain ⟨c', h1, h2⟩ := hi.written x ((List.mem_cons.1 hx).resolve_left hxq)
            exact ⟨c', h1, by rw [param_setParam e2, if_neg fun h => hxq h.2]; exact h2⟩
        · simp only [List.mem_cons, not_or] at hx
          rw [param_setParam e2, if_neg fun h => hx.1 h.2]
          exact hi.kept x hx.2
        · rw [List.map_append, List.mem_append]
          rcases List.mem_cons.1 hx with rfl | hx
          · by_cases hd : x' ∈ x :: done
            · exact Or.inl hd
            · refine Or.inr (Or.inr ?_)
              rw [hnf]
              obtain ⟨e, he, rfl⟩ := List.mem_map.1 hx'
              exact List.mem_map.2 ⟨e, List.mem_filter.2 ⟨he, by simpa using hd⟩, rfl⟩
          · rcases hi.closed x hx x' hx' with h | h
            · exact Or.inl (List.mem_cons_of_mem _ h)
            · rw [List.map_cons] at h
              rcases List.mem_cons.1 h with h | h
              · exact Or.inl (h ▸ List.mem_cons_self)
              · exact Or.inr (Or.inl h)
      have hstep := weight_step (D := l0.graph.nodes.keys.length) (nodes := l0.graph.nodes.keys) (done := done)
        (rest := queue.map Prod.fst) (new := new.map Prod.fst) (q := q) hq
        (by rw [hnf, List.length_map]; exact (List.length_filter_le _ _).trans (succs_length hl q))
        (fun x hx => by
          obtain ⟨e, he, rfl⟩ := List.mem_map.1 hx
          exact (hmem e he).choose_spec.2.1)
      simp only [List.map_cons] at hw
      obtain ⟨l', done', h1, h2⟩ := ih (q :: done) (queue ++ new) l1 hinv (by rw [List.map_append]; omega)
      refine ⟨l', done', ?_, h2⟩
      unfold coordsLoop
      rw [PyM.bind_ok e1]
      simp only [bind, PyM.bind, PyM.get]
      rw [hs]
      exact h1

theorem leads_mem {l0 : Layout} {start q : String} {done : List String} (hs : start ∈ done) (hl : l0.Inv)
    (hc : ∀ q ∈ done, ∀ q' ∈ (succs l0 q).keys, q' ∈ done) (h : Leads l0 start q) : q ∈ done := by
  induction h with
  | refl => exact hs
  | step _ hb ih => exact hc _ ih _ ((mem_nbrs hl).1 hb)

theorem setCoords_spec {l0 : Layout} (hl : l0.Inv) {start : String} (hs : l0.graph.nodes.keys.getLast? = some start)
    {override : Bool} (hov : override = true ∨ l0.qubitCoords = []) {P : String → List Rat → Prop} (h0 : P start [0, 0])
    (hP : ∀ q c q' dir, P q c → (q', dir) ∈ succs l0 q → q' ≠ start → P q' (moveBy c dir)) :
    ∃ l', setCoords override l0 = (.ok (), l') ∧ OnlyAttr "coords" l0 l' ∧
      (∀ q, Leads l0 start q → ∃ c, P q c ∧ l'.param "coords" q = .ok (.coords c)) ∧
      ∀ q, ¬ Leads l0 start q → l'.param "coords" q = l0.param "coords" q := by
  have hm : start ∈ l0.graph.nodes.keys := List.mem_of_getLast? hs
  obtain ⟨l', done', h1, h2⟩ := coordsLoop_spec hl hP (fuel l0) [] [(start, [0, 0])] l0
    ⟨.refl _ _, by simpa using hm, by simp, by simpa using Leads.refl, by simpa using h0, by simp, fun _ _ => rfl, by simp,
      Or.inr (by simp), Or.inr ⟨_, _, rfl⟩⟩ (by
      simp only [List.map_cons, List.map_nil, weight_start]
      simp [fuel, Dict.keys])
  have hst : start ∈ done' := by simpa using h2.first
  refine ⟨l', ?_, h2.only, fun q hq => ?_, fun q hq => h2.kept q fun h => hq (h2.leadsDone q h)⟩
  · unfold setCoords
    have : (!override && !l0.qubitCoords.isEmpty) = false := by
      rcases hov with h | h <;> simp [h]
    simp only [bind, PyM.bind, PyM.get, this, Bool.false_eq_true, if_false, hs]
    exact h1
  · exact h2.written q (leads_mem hst hl (fun q hq q' hq' => by simpa using h2.closed q hq q' hq') hq)

/-! ### chains -/

theorem nbrs_eq {l : Layout} {q : String} (hq : q ∈ l.graph.nodes.keys) : l.getNeighbors [q] none = (succs l q).keys := by
  unfold succs Layout.getNeighbors Layout.getNeighborPairs Layout.outEdgeView
  have : l.graph.nodes.has q = true := (Dict.has_iff _ _).2 hq
  simp [Layout.dedup, this, Dict.keys, Function.comp_def]

/-- What the loop of `index_chain` has done. -/
structure ChainInv (l0 : Layout) (start : String) (ind : Nat) (done queue : List String) (l : Layout) : Prop where
  only : OnlyAttr "chain_ind" l0 l
  known : ∀ q ∈ queue, q ∈ l0.graph.nodes.keys
  leadsDone : ∀ q ∈ done, Leads l0 start q
  leadsQueue : ∀ q ∈ queue, Leads l0 start q
  degree : ∀ q ∈ done, (l0.getNeighbors [q] none).length ∈ [1, 2]
  written : ∀ q ∈ done, ∃ i : Nat, i < ind ∧ l.param "chain_ind" q = .ok (.int i)
  kept : ∀ q, q ∉ done → l.param "chain_ind" q = l0.param "chain_ind" q
  closed : ∀ q ∈ done, ∀ q' ∈ (succs l0 q).keys, q' ∈ done ∨ q' ∈ queue
  first : start ∈ done ∨ start ∈ queue

theorem chainLoop_spec {l0 : Layout} (hl : l0.Inv) {start : String} :
    ∀ (n ind : Nat) (done queue : List String) (l : Layout), ChainInv l0 start ind done queue l →
      weight l0.graph.nodes.keys.length l0.graph.nodes.keys done queue ≤ n →
      (∃ l' done' ind', chainLoop n ind done queue l = (.ok done', l') ∧ ChainInv l0 start ind' done' [] l') ∨
      ∃ l' q, chainLoop n ind done queue l = (.error .valueError, l') ∧ OnlyAttr "chain_ind" l0 l' ∧ Leads l0 start q ∧
        (l0.getNeighbors [q] none).length ∉ [1, 2] := by
  intro n
  induction n with
  | zero =>
    intro ind done queue l hi hw
    cases queue with
    | nil => exact Or.inl ⟨l, done, ind, by unfold chainLoop; rfl, hi⟩
    | cons q queue =>
      have := weight_pos (D := l0.graph.nodes.keys.length) (nodes := l0.graph.nodes.keys) (done := done)
        (rest := queue) (q := q)
      omega
  | succ n ih =>
    intro ind done queue l hi hw
    cases queue with
    | nil => exact Or.inl ⟨l, done, ind, by unfold chainLoop; rfl, hi⟩
    | cons q queue =>
      have hq := hi.known q (by simp)
      obtain ⟨l1, e1, e2⟩ := writeAttr_ok (key := "chain_ind") (v := .int ind) (l := l) (q := q)
        (by rw [hi.only.keys]; exact hq)
      have ho := hi.only.step e2
      have hs := ho.succs q
      have hlq := hi.leadsQueue q (by simp)
      have hlen : (l0.getNeighbors [q] none).length = (succs l0 q).keys.length := by rw [nbrs_eq hq]
      unfold chainLoop
      rw [PyM.bind_ok e1]
      simp only [bind, PyM.bind, PyM.get]
      rw [hs]
      by_cases h1 : (succs l0 q).keys.length > 2
      · rw [if_pos h1]
        refine Or.inr ⟨l1, q, rfl, ho, hlq, ?_⟩
        simp only [hlen, List.mem_cons, List.not_mem_nil, or_false]
        omega
      rw [if_neg h1]
      by_cases h2 : (succs l0 q).keys.length = 0
      · rw [if_pos h2]
        refine Or.inr ⟨l1, q, rfl, ho, hlq, ?_⟩
        simp only [hlen, List.mem_cons, List.not_mem_nil, or_false]
        omega
      rw [if_neg h2]
      have hdeg : (l0.getNeighbors [q] none).length ∈ [1, 2] := by
        simp only [hlen, List.mem_cons, List.not_mem_nil, or_false]
        omega
      have hmem : ∀ x ∈ (succs l0 q).keys.filter (fun n => decide (n ∉ q :: done)), x ∈ (succs l0 q).keys ∧ x ∉ q :: done := by
        intro x hx
        rwa [List.mem_filter, decide_eq_true_eq] at hx
      have hinv : ChainInv l0 start (ind + 1) (q :: done) (queue ++ (succs l0 q).keys.filter fun n => decide (n ∉ q :: done)) l1 := by
        refine ⟨ho, fun x hx => ?_, fun x hx => ?_, fun x hx => ?_, fun x hx => ?_, fun x hx => ?_, fun x hx => ?_,
          fun x hx x' hx' => ?_, ?_⟩
        · rcases List.mem_append.1 hx with h | h
          · exact hi.known x (List.mem_cons_of_mem _ h)
          · exact succs_sub hl (hmem x h).1
        · rcases List.mem_cons.1 hx with rfl | hx
          · exact hlq
          · exact hi.leadsDone x hx
        · rcases List.mem_append.1 hx with h | h
          · exact hi.leadsQueue x (List.mem_cons_of_mem _ h)
          · exact hlq.step ((mem_nbrs hl).2 (hmem x h).1)
        · rcases List.mem_cons.1 hx with rfl | hx
          · exact hdeg
          · exact hi.degree x hx
        · by_cases hxq : x = q
          · subst hxq
            exact ⟨ind, by omega, param_written e2⟩
          · obtain ⟨i, h1, h2⟩ := hi.written x ((List.mem_cons.1 hx).resolve_left hxq)
            exact ⟨i, by omega, by rw [param_setParam e2, if_neg fun h => hxq h.2]; exact h2⟩
        · simp only [List.mem_cons, not_or] at hx
          rw [param_setParam e2, if_neg fun h => hx.1 h.2]
          exact hi.kept x hx.2
        · rw [List.mem_append]
          rcases List.mem_cons.1 hx with rfl | hx
          · by_cases hd : x' ∈ x :: done
            · exact Or.inl hd
            · exact Or.inr (Or.inr (List.mem_filter.2 ⟨hx', by simpa using hd⟩))
          · rcases hi.closed x hx x' hx' with h | h
            · exact Or.inl (List.mem_cons_of_mem _ h)
            · rcases List.mem_cons.1 h with h | h
              · exact Or.inl (h ▸ List.mem_cons_self)
              · exact Or.inr (Or.inl h)
        · rw [List.mem_append]
          rcases hi.first with h | h
          · exact Or.inl (List.mem_cons_of_mem _ h)
          · rcases List.mem_cons.1 h with h | h
            · exact Or.inl (h ▸ List.mem_cons_self)
            · exact Or.inr (Or.inl h)
      have hstep := weight_step (D := l0.graph.nodes.keys.length) (nodes := l0.graph.nodes.keys) (done := done)
        (rest := queue) (new := (succs l0 q).keys.filter fun n => decide (n ∉ q :: done)) (q := q) hq
        ((List.length_filter_le _ _).trans (by
          have := succs_length hl q
          simpa [Dict.keys] using this))
        (fun x hx => (hmem x hx).2)
      exact ih (ind + 1) (q :: done) _ l1 hinv (by omega)

/-- The loop that gives `None` to the other qubits. -/
theorem noneLoop {l0 : Layout} {done : List String} : ∀ (nodes : List String) (l : Layout), OnlyAttr "chain_ind" l0 l →
    (∀ q ∈ nodes, q ∈ l0.graph.nodes.keys) →
    ∃ l', PyM.forEach nodes (fun node => if node ∉ done then writeAttr "chain_ind" node .none else pure ()) l = (.ok (), l') ∧
      OnlyAttr "chain_ind" l0 l' ∧
      ∀ q, l'.param "chain_ind" q = if q ∈ nodes ∧ q ∉ done then .ok .none else l.param "chain_ind" q
  | [], l, ho, _ => ⟨l, rfl, ho, by simp⟩
  | a :: nodes, l, ho, hn => by
    unfold PyM.forEach
    by_cases ha : a ∉ done
    · obtain ⟨l1, e1, e2⟩ := writeAttr_ok (key := "chain_ind") (v := .none) (l := l) (q := a)
        (by rw [ho.keys]; exact hn a (by simp))
      obtain ⟨l', h1, h2, h3⟩ := noneLoop (done := done) nodes l1 (ho.step e2) fun q hq => hn q (List.mem_cons_of_mem _ hq)
      refine ⟨l', ?_, h2, fun q => ?_⟩
      · refine (PyM.bind_ok (m := if a ∉ done then writeAttr "chain_ind" a .none else pure ()) (s' := l1) (a := ()) ?_).trans h1
        rw [if_pos ha]
        exact e1
      · rw [h3 q, param_setParam e2]
        by_cases hq : q = a
        · subst hq
          simp [ha]
        · simp [hq]
    · obtain ⟨l', h1, h2, h3⟩ := noneLoop (done := done) nodes l ho fun q hq => hn q (List.mem_cons_of_mem _ hq)
      refine ⟨l', ?_, h2, fun q => ?_⟩
      · refine (PyM.bind_ok (m := if a ∉ done then writeAttr "chain_ind" a .none else pure ()) (s' := l) (a := ()) ?_).trans h1
        rw [if_neg ha]
        rfl
      · rw [h3 q]
        by_cases hq : q = a
        · subst hq
          simp only [not_not] at ha
          simp [ha]
        · simp [hq]

theorem indexChain_eq {l0 : Layout} {start : String} (hs : start ∈ l0.graph.nodes.keys) :
    indexChain start l0 = (PyM.bind (chainLoop (fuel l0) 0 [] [start]) fun done =>
      PyM.forEach l0.graph.nodes.keys fun node => if node ∉ done then writeAttr "chain_ind" node .none else pure ()) l0 := by
  refine (PyM.bind_ok (m := PyM.get) (s' := l0) (a := l0) rfl).trans ?_
  rw [if_neg (by simpa using hs)]
  rfl

theorem chain_start {l0 : Layout} {start : String} (hs : start ∈ l0.graph.nodes.keys) : ChainInv l0 start 0 [] [start] l0 :=
  ⟨.refl _ _, by simpa using hs, by simp, by simpa using Leads.refl, by simp, by simp, fun _ _ => rfl, by simp, Or.inr (by simp)⟩

theorem eq_singleton_of {α : Type} {xs : List α} {x : α} (hn : xs.Nodup) (h : ∀ y, y ∈ xs ↔ y = x) : xs = [x] := by
  have : xs.Perm [x] := (List.perm_ext_iff_of_nodup hn (by simp)).2 (by simpa using h)
  exact List.perm_singleton.1 this

/-- On a path the loop visits the qubits in order. -/
theorem chainLoop_path {l0 : Layout} (hl : l0.Inv) {qs : List String} (hp : IsPath l0 qs) (h2 : 2 ≤ qs.length) :
    ∀ (suf pre : List String) (q : String) (n : Nat) (l : Layout), qs = pre ++ q :: suf → suf.length < n → OnlyAttr "chain_ind" l0 l →
      (∀ j (h : j < pre.length), l.param "chain_ind" pre[j] = .ok (.int j)) →
      ∃ l' done', chainLoop n pre.length pre.reverse [q] l = (.ok done', l') ∧ (∀ x, x ∈ done' ↔ x ∈ qs) ∧
        OnlyAttr "chain_ind" l0 l' ∧ ∀ j (h : j < qs.length), l'.param "chain_ind" qs[j] = .ok (.int j) := by
  have hall : ∀ q, q ∈ l0.graph.nodes.keys ↔ q ∈ qs := hp.qubits _ (by simp [Layout.getQubits])
  intro suf
  induction suf with
  | nil =>
    intro pre q n l hqs hn ho hv
    obtain ⟨n, rfl⟩ : ∃ m, n = m + 1 := ⟨n - 1, by simp at hn; omega⟩
    have hi : pre.length < qs.length := by rw [hqs]; simp
    have hqi : qs[pre.length] = q := by simp [hqs]
    have hq : q ∈ l0.graph.nodes.keys := by rw [hall, hqs]; simp
    have hnb := fun x => hp.nbrs pre.length hi x
    simp only [hqi, mem_nbrs hl] at hnb
    obtain ⟨l1, e1, e2⟩ := writeAttr_ok (key := "chain_ind") (v := .int pre.length) (l := l) (q := q) (by rw [ho.keys]; exact hq)
    have ho1 := ho.step e2
    have hlen : qs.length = pre.length + 1 := by rw [hqs]; simp
    have hprev : ∀ x, x ∈ (succs l0 q).keys ↔ x = qs[pre.length - 1]'(by omega) := by
      intro x
      rw [hnb]
      constructor
      · rintro ⟨j, hj, rfl, h | h⟩
        · omega
        · congr 1
          omega
      · rintro rfl
        exact ⟨_, _, rfl, Or.inr (by omega)⟩
    have hk := eq_singleton_of (succs_nodup hl q) hprev
    have hpq : qs[pre.length - 1]'(by omega) ∈ q :: pre.reverse := by
      have : (qs[pre.length - 1]'(by omega)) = pre[pre.length - 1]'(by omega) := by
        simp only [hqs]
        rw [List.getElem_append_left]
      rw [this]
      exact List.mem_cons_of_mem _ (List.mem_reverse.2 (List.getElem_mem _))
    refine ⟨l1, q :: pre.reverse, ?_, fun x => ?_, ho1, fun j hj => ?_⟩
    · unfold chainLoop
      rw [PyM.bind_ok e1]
      simp only [bind, PyM.bind, PyM.get]
      rw [ho1.succs q, hk]
      simp only [List.length_cons, List.length_nil]
      rw [if_neg (by omega), if_neg (by omega), List.filter_cons_of_neg (fun h => (of_decide_eq_true h) hpq)]
      cases n <;> rfl
    · rw [hqs]
      simp [or_comm]
    · rw [param_setParam e2]
      by_cases hjl : j = pre.length
      · subst hjl
        rw [if_pos ⟨rfl, hqi⟩]
      · have hjp : j < pre.length := by omega
        have e : qs[j] = pre[j] := by
          simp only [hqs]
          rw [List.getElem_append_left]
        rw [if_neg, e]
        · exact hv j hjp
        · rintro ⟨-, h⟩
          have := (List.Nodup.getElem_inj_iff hp.nodup).1 (h.trans hqi.symm)
          omega
  | cons q' suf ih =>
    intro pre q n l hqs hn ho hv
    obtain ⟨n, rfl⟩ : ∃ m, n = m + 1 := ⟨n - 1, by simp at hn; omega⟩
    have hi : pre.length < qs.length := by rw [hqs]; simp
    have hi' : pre.length + 1 < qs.length := by rw [hqs]; simp
    have hqi : qs[pre.length] = q := by simp [hqs]
    have hqi' : qs[pre.length + 1] = q' := by simp [hqs]
    have hq : q ∈ l0.graph.nodes.keys := by rw [hall, hqs]; simp
    have hnb := fun x => hp.nbrs pre.length hi x
    simp only [hqi, mem_nbrs hl] at hnb
    obtain ⟨l1, e1, e2⟩ := writeAttr_ok (key := "chain_ind") (v := .int pre.length) (l := l) (q := q) (by rw [ho.keys]; exact hq)
    have ho1 := ho.step e2
    have hnext : q' ∈ (succs l0 q).keys := (hnb q').2 ⟨_, hi', hqi', Or.inl rfl⟩
    have hpre : ∀ x ∈ (succs l0 q).keys, x = q' ∨ (x ∈ pre ∧ ∃ h : pre.length - 1 < qs.length, x = qs[pre.length - 1]) := by
      intro x hx
      obtain ⟨j, hj, rfl, h | h⟩ := (hnb x).1 hx
      · subst h
        exact Or.inl hqi'
      · refine Or.inr ⟨?_, by omega, ?_⟩
        · have e : qs[j] = pre[j]'(by omega) := by
            simp only [hqs]
            rw [List.getElem_append_left]
          rw [e]
          exact List.getElem_mem _
        · congr 1
          omega
    have hq'n : q' ∉ q :: pre.reverse := by
      have := hp.nodup
      rw [hqs] at this
      simp only [List.nodup_append, List.nodup_cons, List.mem_cons, not_or] at this
      simp only [List.mem_cons, List.mem_reverse, not_or]
      exact ⟨fun h => this.2.1.1.1 h.symm, fun h => this.2.2 q' h q' (Or.inr (Or.inl rfl)) rfl⟩
    have hfil : (succs l0 q).keys.filter (fun n => decide (n ∉ q :: pre.reverse)) = [q'] := by
      refine eq_singleton_of ((succs_nodup hl q).filter _) fun x => ?_
      rw [List.mem_filter, decide_eq_true_eq]
      constructor
      · rintro ⟨h1, h2⟩
        rcases hpre x h1 with h | ⟨h, -⟩
        · exact h
        · exact absurd (List.mem_cons_of_mem _ (List.mem_reverse.2 h)) h2
      · rintro rfl
        exact ⟨hnext, hq'n⟩
    have hl1 : (succs l0 q).keys.length ≠ 0 := by
      intro h
      rw [List.length_eq_zero_iff.1 h] at hnext
      simp at hnext
    have hl2 : (succs l0 q).keys.length ≤ 2 := by
      have : (succs l0 q).keys ⊆ [q', (qs[pre.length - 1]'(by omega))] := by
        intro x hx
        rcases hpre x hx with rfl | ⟨-, -, rfl⟩ <;> simp
      exact ((succs_nodup hl q).subperm this).length_le
    obtain ⟨l', done', h1, h2, h3, h4⟩ := ih (pre ++ [q]) q' n l1 (by rw [hqs]; simp) (by simp at hn; omega) ho1 fun j hj => by
      rw [param_setParam e2]
      simp only [List.length_append, List.length_cons, List.length_nil] at hj
      by_cases hjl : j = pre.length
      · subst hjl
        rw [if_pos ⟨rfl, by simp⟩]
      · have hjp : j < pre.length := by omega
        rw [List.getElem_append_left hjp, if_neg]
        · exact hv j hjp
        · rintro ⟨-, h⟩
          have := hp.nodup
          rw [hqs] at this
          simp only [List.nodup_append] at this
          exact this.2.2 _ (List.getElem_mem hjp) q (by simp) h
    refine ⟨l', done', ?_, h2, h3, h4⟩
    unfold chainLoop
    rw [PyM.bind_ok e1]
    simp only [bind, PyM.bind, PyM.get]
    rw [ho1.succs q, if_neg (by omega), if_neg hl1, hfil]
    simpa using h1

end SurfaceSim
