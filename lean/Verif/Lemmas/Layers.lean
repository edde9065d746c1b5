/-
Layers of CZ gates on a grid.
-/
import Verif.Lemmas.Grid
import Verif.Lemmas.Kick
import Mathlib.Data.List.Nodup
import Mathlib.Algebra.Group.Even

namespace SurfaceSim
open Spec

variable {l : Layout} {L : List (String × Site × Kind)} {dirs : List (Site × String)}

theorem Layout.getNeighborPairs_nodup (h : l.Inv) (qs : List String) (dir : Option String) :
    (l.getNeighborPairs qs dir).Nodup := by
  unfold Layout.getNeighborPairs
  refine List.Nodup.map_on ?_ ?_
  · rintro ⟨a, b, c⟩ h1 ⟨a', b', c'⟩ h2 he
    replace h1 := (List.mem_filter.1 h1).1
    replace h2 := (List.mem_filter.1 h2).1
    simp only [Prod.mk.injEq] at he
    obtain ⟨rfl, rfl⟩ := he
    unfold Layout.outEdgeView at h1 h2
    simp only [List.mem_flatMap, List.mem_map, Prod.mk.injEq] at h1 h2
    obtain ⟨q, -, kv, h1, rfl, hb, rfl⟩ := h1
    obtain ⟨q', -, kv', h2, rfl, hb', rfl⟩ := h2
    cases hadj : l.graph.adj.get? q' with
    | none => simp [hadj] at h1
    | some d =>
      simp only [hadj, Option.getD_some] at h1 h2
      have hn := (h.adjOk _ (Dict.mem_of_get? hadj)).1
      obtain ⟨k1, v1⟩ := kv
      obtain ⟨k2, v2⟩ := kv'
      simp only at hb hb'
      subst hb hb'
      have e1 := Dict.get?_of_mem hn h1
      have e2 := Dict.get?_of_mem hn h2
      rw [e1] at e2
      simpa using e2
  · refine List.Nodup.filter _ ?_
    unfold Layout.outEdgeView
    rw [List.nodup_flatMap]
    constructor
    · intro q _
      cases hadj : l.graph.adj.get? q with
      | none => simp
      | some d =>
        have hn := (h.adjOk _ (Dict.mem_of_get? hadj)).1
        simp only [Option.getD_some]
        refine List.Nodup.map ?_ (List.Nodup.of_map _ hn)
        rintro ⟨a, b⟩ ⟨a', b'⟩ he
        simpa using he
    · refine ((Layout.nodup_dedup qs).filter _).imp ?_
      intro a b hab x h1 h2
      simp only [List.mem_map] at h1 h2
      obtain ⟨_, -, rfl⟩ := h1
      obtain ⟨_, -, h2⟩ := h2
      simp at h2
      exact hab h2.1.symm

/-- A layer of gates: every ancilla of kind `k` with its data neighbours at the shifts `sh k`. -/
structure Layer (L : List (String × Site × Kind)) (E : List (String × String))
    (sh : Kind → List Site) : Prop where
  nodup : E.Nodup
  shN : ∀ k, (sh k).Nodup
  mem : ∀ a d, (a, d) ∈ E ↔
    ∃ s k σ, (a, s, k) ∈ L ∧ k ≠ .data ∧ σ ∈ sh k ∧ (d, s + σ, Kind.data) ∈ L

theorem Layer.nil (L : List (String × Site × Kind)) : Layer L [] (fun _ => []) :=
  ⟨by simp, by simp, by simp⟩

theorem Layer.append (h : OnGrid l L dirs) {E F : List (String × String)} {sh sh' : Kind → List Site}
    (h1 : Layer L E sh) (h2 : Layer L F sh') (hd : ∀ k, ∀ σ ∈ sh k, σ ∉ sh' k) :
    Layer L (E ++ F) (fun k => sh k ++ sh' k) where
  nodup := by
    refine List.Nodup.append h1.nodup h2.nodup ?_
    rintro ⟨a, d⟩ m1 m2
    obtain ⟨s, k, σ, ha, hk, hs, hq⟩ := (h1.mem a d).1 m1
    obtain ⟨s', k', σ', ha', hk', hs', hq'⟩ := (h2.mem a d).1 m2
    obtain ⟨rfl, rfl⟩ := h.unique ha ha'
    have := (h.unique hq hq').1
    rw [add_left_cancel this] at hs
    exact hd k _ hs hs'
  shN := fun k => by
    refine List.Nodup.append (h1.shN k) (h2.shN k) ?_
    intro σ h3 h4
    exact hd k σ h3 h4
  mem := by
    intro a d
    rw [List.mem_append, h1.mem, h2.mem]
    constructor
    · rintro (⟨s, k, σ, ha, hk, hs, hq⟩ | ⟨s, k, σ, ha, hk, hs, hq⟩)
      · exact ⟨s, k, σ, ha, hk, by simp [hs], hq⟩
      · exact ⟨s, k, σ, ha, hk, by simp [hs], hq⟩
    · rintro ⟨s, k, σ, ha, hk, hs, hq⟩
      rcases List.mem_append.1 hs with hs | hs
      · exact Or.inl ⟨s, k, σ, ha, hk, hs, hq⟩
      · exact Or.inr ⟨s, k, σ, ha, hk, hs, hq⟩

/-- The gates of one kind of ancilla in one direction. -/
theorem Layer.ofDir (h : OnGrid l L dirs) {p : Kind → Bool} (hp : p .data = false) {σ : Site}
    {dir : String} (hd : (σ, dir) ∈ dirs) :
    Layer L (l.getNeighborPairs (labelsOf L p) (some dir)) (fun k => if p k then [σ] else []) where
  nodup := Layout.getNeighborPairs_nodup (Layout.inv_of_reachable h.reach) _ _
  shN := fun k => by split <;> simp
  mem := by
    intro a d
    rw [h.mem_pairs, mem_labelsOf]
    constructor
    · rintro ⟨⟨s, k, ha, hk⟩, s1, k1, s2, k2, sh, ha1, hd2, hsh, rfl, hkk⟩
      obtain ⟨rfl, rfl⟩ := h.unique ha ha1
      have hkd : k ≠ .data := by rintro rfl; rw [hp] at hk; simp at hk
      have hk2 : k2 = .data := by
        by_contra hne
        exact hkd (hkk.2 hne)
      subst hk2
      refine ⟨s, k, sh, ha, hkd, ?_, hd2⟩
      rw [h.shifts _ _ _ hsh hd]
      simp [hk]
    · rintro ⟨s, k, σ', ha, hk, hs, hq⟩
      cases hpk : p k with
      | false => simp [hpk] at hs
      | true =>
        simp [hpk] at hs
        subst hs
        exact ⟨⟨s, k, ha, hpk⟩, s, k, _, _, σ', ha, hq, hd, rfl, by simpa using hk⟩

theorem Layer.congr {E : List (String × String)} {sh sh' : Kind → List Site} (h : Layer L E sh)
    (he : ∀ k, k ≠ .data → sh k = sh' k) (hn : ∀ k, (sh' k).Nodup) : Layer L E sh' where
  nodup := h.nodup
  shN := hn
  mem := by
    intro a d
    rw [h.mem]
    constructor
    · rintro ⟨s, k, σ, ha, hk, hs, hq⟩
      exact ⟨s, k, σ, ha, hk, he k hk ▸ hs, hq⟩
    · rintro ⟨s, k, σ, ha, hk, hs, hq⟩
      exact ⟨s, k, σ, ha, hk, (he k hk).symm ▸ hs, hq⟩

/-- Counting the gates of an ancilla by position. -/
theorem Layer.count (h : OnGrid l L dirs) {E : List (String × String)} {sh : Kind → List Site}
    (hE : Layer L E sh) {a : String} {s : Site} {k : Kind} (ha : (a, s, k) ∈ L) (hk : k ≠ .data)
    (w : String → Bool) (W : Site → Bool)
    (hW : ∀ q s, (q, s, Kind.data) ∈ L → (w q = true ↔ W s = true))
    (hV : ∀ s, W s = true → ∃ q, (q, s, Kind.data) ∈ L) :
    (E.countP fun f => decide (f.1 = a) && w f.2) = (sh k).countP fun σ => W (s + σ) := by
  have e1 : (E.countP fun f => decide (f.1 = a) && w f.2) =
      ((E.filter fun f => decide (f.1 = a)).map Prod.snd).countP w := by
    rw [List.countP_map, List.countP_filter]
    refine List.countP_congr fun f _ => ?_
    simp [and_comm]
  have e2 : ((sh k).countP fun σ => W (s + σ)) =
      (((sh k).map fun σ => s + σ).filter W).length := by
    rw [← List.countP_eq_length_filter, List.countP_map]
    rfl
  rw [e1, e2]
  refine h.countP_sites ?_ ?_ _ ?_ ?_ ?_
  · refine List.Nodup.map_on ?_ (hE.nodup.filter _)
    rintro ⟨x, y⟩ hx ⟨x', y'⟩ hx' he
    simp only [List.mem_filter, decide_eq_true_eq] at hx hx'
    simp only at he
    rw [hx.2, hx'.2, he]
  · intro q hq
    obtain ⟨f, hf, rfl⟩ := List.mem_map.1 hq
    have hf := (List.mem_filter.1 hf).1
    obtain ⟨s, k, σ, -, -, -, hq⟩ := (hE.mem f.1 f.2).1 hf
    exact ⟨_, hq⟩
  · exact (List.Nodup.map (fun x y hxy => add_left_cancel hxy) (hE.shN k)).filter _
  · intro t ht
    exact hV t (List.mem_filter.1 ht).2
  · intro q t hq
    rw [List.mem_filter, hW q t hq]
    refine and_congr_left fun _ => ?_
    constructor
    · intro hm
      obtain ⟨⟨x, y⟩, hf, rfl⟩ := List.mem_map.1 hm
      simp only [List.mem_filter, decide_eq_true_eq] at hf
      obtain ⟨hf, rfl⟩ := hf
      obtain ⟨s', k', σ, ha', hk', hs', hq'⟩ := (hE.mem _ _).1 hf
      obtain ⟨rfl, rfl⟩ := h.unique ha ha'
      rw [(h.unique hq hq').1]
      exact List.mem_map.2 ⟨σ, hs', rfl⟩
    · intro hm
      obtain ⟨σ, hs, rfl⟩ := List.mem_map.1 hm
      refine List.mem_map.2 ⟨(a, q), ?_, rfl⟩
      simp only [List.mem_filter, decide_eq_true_eq, and_true]
      exact (hE.mem _ _).2 ⟨s, k, σ, ha, hk, hs, hq⟩

/-! ### sums over gates -/

theorem sum_swap {α β : Type} (A : List α) (B : List β) (f : α → β → ZMod 2) :
    (A.map fun a => (B.map fun b => f a b).sum).sum = (B.map fun b => (A.map fun a => f a b).sum).sum := by
  induction A with
  | nil => simp
  | cons a A ih =>
    simp only [List.map_cons, List.sum_cons, ih, List.sum_map_add]

theorem sum_eq_count {α : Type} (A : List α) (p : α → Bool) (v : ZMod 2) :
    (A.map fun a => if p a then v else 0).sum = (A.countP p : ZMod 2) * v := by
  induction A with
  | nil => simp
  | cons a A ih =>
    rw [List.map_cons, List.sum_cons, ih, List.countP_cons]
    by_cases h : p a = true
    · simp [h, add_mul, add_comm]
    · simp [h]

/-- In a duplicate free list a single element is selected. -/
theorem sum_single {α : Type} [DecidableEq α] {A : List α} (hA : A.Nodup) (x : α) (g : α → ZMod 2) :
    (A.map fun a => if a = x then g a else 0).sum = if x ∈ A then g x else 0 := by
  induction A with
  | nil => simp
  | cons a A ih =>
    obtain ⟨h1, h2⟩ := List.nodup_cons.1 hA
    rw [List.map_cons, List.sum_cons, ih h2]
    by_cases h : a = x
    · subst h; simp [h1]
    · have h' : ¬ x = a := fun e => h e.symm
      simp [h, h']

/-- The kicks of gates of `E` felt by the gates of `a` in `F`, collected by the ancilla that kicks. -/
theorem pick_kick {A : List String} (hA : A.Nodup) {E F : List (String × String)} (hF : F.Nodup)
    (hE : ∀ e ∈ E, e.1 ∈ A) (c : String → Prop) [DecidablePred c] (r : String → ZMod 2) (a : String) :
    pick F (fun d => if c d then kick E r d else 0) a =
      (A.map fun a' => ((E.countP fun f => decide (f.1 = a') && decide (c f.2 ∧ (a, f.2) ∈ F) : ℕ) :
        ZMod 2) * r a').sum := by
  have e1 : pick F (fun d => if c d then kick E r d else 0) a =
      (E.map fun f => if c f.2 ∧ (a, f.2) ∈ F then r f.1 else 0).sum := by
    unfold pick kick sumIf
    have : ∀ e : String × String, (if e.1 = a then (if c e.2 then
        (E.map fun f => if f.2 = e.2 then r f.1 else 0).sum else 0) else 0) =
        (E.map fun f => if e = (a, f.2) then (if c f.2 then r f.1 else 0) else 0).sum := by
      rintro ⟨x, d⟩
      by_cases h1 : x = a
      · subst h1
        by_cases h2 : c d
        · simp only [if_true, h2]
          congr 1
          refine List.map_congr_left fun f _ => ?_
          by_cases h3 : f.2 = d
          · simp [h3, h2]
          · have h3' : ¬ d = f.2 := fun e => h3 e.symm
            simp [h3, h3']
        · simp only [if_true, h2, if_false]
          symm
          apply List.sum_eq_zero
          intro v hv
          obtain ⟨f, -, rfl⟩ := List.mem_map.1 hv
          by_cases h3 : d = f.2
          · subst h3; simp [h2]
          · simp [h3]
      · simp [h1]
    simp only [this]
    rw [sum_swap]
    congr 1
    refine List.map_congr_left fun f _ => ?_
    rw [sum_single hF (a, f.2) fun _ => if c f.2 then r f.1 else 0]
    by_cases h1 : (a, f.2) ∈ F <;> by_cases h2 : c f.2 <;> simp [h1, h2]
  have e2 : ∀ a', ((E.countP fun f => decide (f.1 = a') && decide (c f.2 ∧ (a, f.2) ∈ F) : ℕ) :
        ZMod 2) * r a' =
      (E.map fun f => if a' = f.1 then (if c f.2 ∧ (a, f.2) ∈ F then r f.1 else 0) else 0).sum := by
    intro a'
    rw [← sum_eq_count]
    congr 1
    refine List.map_congr_left fun f _ => ?_
    by_cases h1 : f.1 = a'
    · subst h1
      by_cases h2 : c f.2 ∧ (a, f.2) ∈ F
      · simp [h2]
      · simp [h2]
    · have h1' : ¬ a' = f.1 := fun e => h1 e.symm
      simp [h1, h1']
  rw [e1]
  simp only [e2]
  rw [sum_swap]
  congr 1
  refine List.map_congr_left fun f hf => ?_
  rw [sum_single hA f.1 fun _ => if c f.2 ∧ (a, f.2) ∈ F then r f.1 else 0, if_pos (hE f hf)]

/-! ### coherent parts of rounds -/

/-- The entries of the layout are exactly the valid positions. -/
structure Sites (L : List (String × Site × Kind)) (V : Site → Kind → Prop) : Prop where
  valid : ∀ q s k, (q, s, k) ∈ L → V s k
  ex : ∀ s k, V s k → ∃ q, (q, s, k) ∈ L

/-- A set of qubits given by positions. -/
structure At (L : List (String × Site × Kind)) (S : List String) (P : Site → Kind → Prop) : Prop where
  nodup : S.Nodup
  sub : ∀ q ∈ S, ∃ s k, (q, s, k) ∈ L
  mem : ∀ q s k, (q, s, k) ∈ L → (q ∈ S ↔ P s k)

open Classical in
/-- The condition on positions for kicks between ancillas: the number of data qubits on which the ancilla at `s'`
of kind `k'` acts in the layer `sh` before the ancilla at `s` acts in the layer `sh'`. -/
noncomputable def meets (V : Site → Kind → Prop) (sh sh' : Kind → List Site) (C : Site → Prop)
    (s : Site) (k : Kind) (s' : Site) (k' : Kind) : Nat :=
  (sh k').countP fun σ => decide (V (s' + σ) .data ∧ C (s' + σ) ∧ ∃ σ' ∈ sh' k, s' + σ = s + σ')

theorem count_meets (h : OnGrid l L dirs) {V : Site → Kind → Prop} (hV : Sites L V)
    {E F : List (String × String)} {sh sh' : Kind → List Site} (hE : Layer L E sh)
    (hF : Layer L F sh') (c : String → Prop) [DecidablePred c] (C : Site → Prop)
    (hc : ∀ q s, (q, s, Kind.data) ∈ L → (c q ↔ C s)) {a a' : String} {s s' : Site} {k k' : Kind}
    (ha : (a, s, k) ∈ L) (ha' : (a', s', k') ∈ L) (hk : k ≠ .data) (hk' : k' ≠ .data) :
    (E.countP fun f => decide (f.1 = a') && decide (c f.2 ∧ (a, f.2) ∈ F)) =
      meets V sh sh' C s k s' k' := by
  classical
  unfold meets
  rw [hE.count h ha' hk' (fun q => decide (c q ∧ (a, q) ∈ F))
    (fun t => decide (V t .data ∧ C t ∧ ∃ σ' ∈ sh' k, t = s + σ')) ?_ ?_]
  · intro q t hq
    simp only [decide_eq_true_eq, hc q t hq]
    constructor
    · rintro ⟨h1, h2⟩
      obtain ⟨s1, k1, σ, ha1, -, hσ, hq1⟩ := (hF.mem _ _).1 h2
      obtain ⟨rfl, rfl⟩ := h.unique ha ha1
      exact ⟨hV.valid _ _ _ hq, h1, σ, hσ, (h.unique hq hq1).1⟩
    · rintro ⟨-, h1, σ, hσ, rfl⟩
      exact ⟨h1, (hF.mem _ _).2 ⟨s, k, σ, ha, hk, hσ, hq⟩⟩
  · intro t ht
    simp only [decide_eq_true_eq] at ht
    exact hV.ex _ _ ht.1

theorem even_cast {n : Nat} (h : Even n) : (n : ZMod 2) = 0 := by
  obtain ⟨m, rfl⟩ := h
  push_cast
  have : (2 : ZMod 2) = 0 := by decide
  rw [← two_mul, this, zero_mul]

/-- Layers of gates on a grid are coherent if the positions fit. -/
theorem Coherent.ofGrid (h : OnGrid l L dirs) {V : Site → Kind → Prop} (hV : Sites L V)
    {isA : String → Bool} (hisA : ∀ q s k, (q, s, k) ∈ L → (isA q = true ↔ k ≠ .data))
    (hisA' : ∀ q, isA q = true → ∃ s k, (q, s, k) ∈ L)
    {τ : String → String → Bool} {T : Site → Kind → Site → Prop}
    (hτ : ∀ a d s k s', (a, s, k) ∈ L → k ≠ .data → (d, s', Kind.data) ∈ L → (τ a d = true ↔ T s k s'))
    {E0 E1 E2 : List (String × String)} {sh0 sh1 sh2 : Kind → List Site}
    (l0 : Layer L E0 sh0) (l1 : Layer L E1 sh1) (l2 : Layer L E2 sh2)
    {S0 S1 S2 S3 : List String} {P0 P1 P2 P3 : Site → Kind → Prop}
    (p0 : At L S0 P0) (p1 : At L S1 P1) (p2 : At L S2 P2) (p3 : At L S3 P3)
    (c0 : ∀ s k σ, V s k → k ≠ .data → σ ∈ sh0 k → V (s + σ) .data →
      P0 s k ∧ (P0 (s + σ) .data ↔ T s k (s + σ)))
    (c1 : ∀ s k σ, V s k → k ≠ .data → σ ∈ sh1 k → V (s + σ) .data →
      (P0 s k ↔ ¬ P1 s k) ∧ ((P0 (s + σ) .data ↔ ¬ P1 (s + σ) .data) ↔ T s k (s + σ)))
    (c2 : ∀ s k σ, V s k → k ≠ .data → σ ∈ sh2 k → V (s + σ) .data →
      ((P0 s k ↔ ¬ P1 s k) ↔ ¬ P2 s k) ∧
        (((P0 (s + σ) .data ↔ ¬ P1 (s + σ) .data) ↔ ¬ P2 (s + σ) .data) ↔ T s k (s + σ)))
    (cb : ∀ s k, V s k → (((P0 s k ↔ ¬ P1 s k) ↔ ¬ P2 s k) ↔ P3 s k))
    (cc : ∀ s k s' k', V s k → V s' k' → k ≠ .data → k' ≠ .data →
      Even (meets V sh0 sh1 (fun t => P1 t .data) s k s' k' +
        meets V sh0 sh2 (fun t => P1 t .data ↔ ¬ P2 t .data) s k s' k' +
        meets V sh1 sh2 (fun t => P2 t .data) s k s' k')) :
    Coherent isA τ S0 S1 S2 S3 E0 E1 E2 where
  n0 := p0.nodup
  n1 := p1.nodup
  n2 := p2.nodup
  n3 := p3.nodup
  e0 := by
    rintro ⟨a, d⟩ he
    obtain ⟨s, k, σ, ha, hk, hσ, hd⟩ := (l0.mem a d).1 he
    have hvd := hV.valid _ _ _ hd
    obtain ⟨h1, h2⟩ := c0 s k σ (hV.valid _ _ _ ha) hk hσ hvd
    refine ⟨(hisA _ _ _ ha).2 hk, ?_, (p0.mem _ _ _ ha).2 h1, ?_⟩
    · simpa using (not_congr (hisA _ _ _ hd)).2 (by simp)
    · rw [p0.mem _ _ _ hd, h2, hτ _ _ _ _ _ ha hk hd]
  e1 := by
    rintro ⟨a, d⟩ he
    obtain ⟨s, k, σ, ha, hk, hσ, hd⟩ := (l1.mem a d).1 he
    have hvd := hV.valid _ _ _ hd
    obtain ⟨h1, h2⟩ := c1 s k σ (hV.valid _ _ _ ha) hk hσ hvd
    refine ⟨(hisA _ _ _ ha).2 hk, ?_, ?_, ?_⟩
    · simpa using (not_congr (hisA _ _ _ hd)).2 (by simp)
    · rw [p0.mem _ _ _ ha, p1.mem _ _ _ ha, h1]
    · rw [p0.mem _ _ _ hd, p1.mem _ _ _ hd, h2, hτ _ _ _ _ _ ha hk hd]
  e2 := by
    rintro ⟨a, d⟩ he
    obtain ⟨s, k, σ, ha, hk, hσ, hd⟩ := (l2.mem a d).1 he
    have hvd := hV.valid _ _ _ hd
    obtain ⟨h1, h2⟩ := c2 s k σ (hV.valid _ _ _ ha) hk hσ hvd
    refine ⟨(hisA _ _ _ ha).2 hk, ?_, ?_, ?_⟩
    · simpa using (not_congr (hisA _ _ _ hd)).2 (by simp)
    · rw [p0.mem _ _ _ ha, p1.mem _ _ _ ha, p2.mem _ _ _ ha, h1]
    · rw [p0.mem _ _ _ hd, p1.mem _ _ _ hd, p2.mem _ _ _ hd, h2, hτ _ _ _ _ _ ha hk hd]
  back := by
    intro q
    by_cases hq : ∃ s k, (q, s, k) ∈ L
    · obtain ⟨s, k, hq⟩ := hq
      rw [p0.mem _ _ _ hq, p1.mem _ _ _ hq, p2.mem _ _ _ hq, p3.mem _ _ _ hq]
      exact cb s k (hV.valid _ _ _ hq)
    · have h0 : q ∉ S0 := fun hh => hq (p0.sub _ hh)
      have h1 : q ∉ S1 := fun hh => hq (p1.sub _ hh)
      have h2 : q ∉ S2 := fun hh => hq (p2.sub _ hh)
      have h3 : q ∉ S3 := fun hh => hq (p3.sub _ hh)
      simp [h0, h1, h2, h3]
  cross := by
    intro r a ha
    obtain ⟨s, k, hL⟩ := hisA' a ha
    have hk : k ≠ .data := (hisA _ _ _ hL).1 ha
    have hA : (labelsOf L fun k => k ≠ .data).Nodup := h.labelsOf_nodup _
    have inA : ∀ {E : List (String × String)} {sh : Kind → List Site}, Layer L E sh →
        ∀ e ∈ E, e.1 ∈ labelsOf L fun k => k ≠ .data := by
      intro E sh hl e he
      obtain ⟨s, k, σ, ha, hk, -, -⟩ := (hl.mem e.1 e.2).1 he
      exact mem_labelsOf.2 ⟨s, k, ha, by simpa using hk⟩
    rw [pick_add, pick_kick hA l1.nodup (inA l0), pick_kick hA l2.nodup (inA l0),
      pick_kick hA l2.nodup (inA l1), ← List.sum_map_add, ← List.sum_map_add]
    apply List.sum_eq_zero
    intro v hv
    obtain ⟨a', ha', rfl⟩ := List.mem_map.1 hv
    obtain ⟨s', k', hL', hk'⟩ := mem_labelsOf.1 ha'
    have hk' : k' ≠ .data := by simpa using hk'
    rw [count_meets h hV l0 l1 (fun d => d ∈ S1) (fun t => P1 t .data) (fun q t hq => p1.mem _ _ _ hq)
        hL hL' hk hk',
      count_meets h hV l0 l2 (fun d => d ∈ S1 ↔ d ∉ S2) (fun t => P1 t .data ↔ ¬ P2 t .data)
        (fun q t hq => by rw [p1.mem _ _ _ hq, p2.mem _ _ _ hq]) hL hL' hk hk',
      count_meets h hV l1 l2 (fun d => d ∈ S2) (fun t => P2 t .data) (fun q t hq => p2.mem _ _ _ hq)
        hL hL' hk hk', ← add_mul, ← add_mul, ← Nat.cast_add, ← Nat.cast_add, ← add_assoc,
      even_cast (cc s k s' k' (hV.valid _ _ _ hL) (hV.valid _ _ _ hL') hk hk'), zero_mul]

end SurfaceSim
