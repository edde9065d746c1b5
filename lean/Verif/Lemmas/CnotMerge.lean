/-
The steps of two layouts with the same grid can be merged.
-/
import Verif.Lemmas.CnotFixed
import Verif.Lemmas.UsageBlocks

namespace SurfaceSim
open Spec NoiseModel Blocks Experiments LayoutLib LogGates

/-! ### the shape of circuits -/

/-- `append` on shapes. -/
def shapeAppend (sh : List (Gate × List Arg)) (p : Gate × List Arg) : List (Gate × List Arg) :=
  match sh.getLast? with
  | none => [p]
  | some l => if l.1 = p.1 ∧ l.2 = p.2 ∧ p.1.notFusable = false then sh else sh ++ [p]

theorem shape_append (c : Circuit) (i : Instr) : shape (c.append i) = shapeAppend (shape c) (i.gate, i.args) := by
  unfold Circuit.append shapeAppend shape
  rw [List.getLast?_map]
  cases h : c.getLast? with
  | none =>
    rfl
  | some l =>
    simp only [Option.map_some]
    split
    · obtain ⟨ys, rfl⟩ := List.getLast?_eq_some_iff.1 h
      simp
    · simp

theorem shape_concat {a a' b b' : Circuit} (ha : shape a = shape a') (hb : shape b = shape b') :
    shape (a.concat b) = shape (a'.concat b') := by
  cases b with
  | nil =>
    cases b' with
    | nil => exact ha
    | cons i r => simp [shape] at hb
  | cons i r =>
    cases b' with
    | nil => simp [shape] at hb
    | cons j r' =>
      simp only [shape, List.map_cons, List.cons.injEq] at hb
      simp only [Circuit.concat]
      have h1 := shape_append a i
      have h2 := shape_append a' j
      rw [hb.1, ha, ← h2] at h1
      unfold shape at h1 ⊢
      rw [List.map_append, List.map_append, h1, hb.2]

/-- The circuits of the two computations differ only in their targets. -/
def Alike (b b' : Call1) : Prop := ∀ s s' c c' s₁ s₁', b s = (.ok c, s₁) → b' s' = (.ok c', s₁') → shape c = shape c'

theorem Alike.plus {a a' b b' : Call1} (ha : Alike a a') (hb : Alike b b') : Alike (plus a b) (plus a' b') := by
  intro s s' c c' s₁ s₁' h h'
  unfold Blocks.plus at h h'
  obtain ⟨x, t, h1, h⟩ := PyM.bind_eq_ok h
  obtain ⟨y, u, h2, h⟩ := PyM.bind_eq_ok h
  obtain ⟨x', t', h1', h'⟩ := PyM.bind_eq_ok h'
  obtain ⟨y', u', h2', h'⟩ := PyM.bind_eq_ok h'
  cases h
  cases h'
  exact shape_concat (ha _ _ _ _ _ _ h1 h1') (hb _ _ _ _ _ _ h2 h2')

theorem Alike.tick : Alike Blocks.tick Blocks.tick := by
  intro s s' c c' s₁ s₁' h h'
  cases h
  cases h'
  rfl

/-! ### merging -/

theorem mergeStep_two {circuit c c' : Circuit} (h : shape c = shape c') : ∃ r, mergeStep circuit [c, c'] = .ok r := by
  have hl : c'.length = c.length := by
    have := congrArg List.length h
    simpa [shape, eq_comm] using this
  unfold mergeStep CircuitOps.mergeTickBlocks
  simp only [List.any_cons, List.any_nil, hl, ne_eq, not_true, decide_false, Bool.or_self, Bool.false_eq_true, if_false]
  split
  · rename_i h; cases h
  · exact ⟨_, rfl⟩
  · split
    · exact ⟨_, rfl⟩
    · exact ⟨_, rfl⟩

theorem mergeLoop_two {inds : Dict String Nat} {g g' : Gen} {Ls Ls' : List (List (Op String))} {ks ks' : List StepKind}
    (h : GenOk inds g Ls ks) (h' : GenOk inds g' Ls' ks') (ha : List.Forall₂ Alike g g') :
    ∀ (fuel : Nat) (circuit : Circuit) (s : MeasState) (hist : List String), s.Tracks inds hist →
      ∃ c s', mergeLoop fuel [g, g'] circuit s = (.ok c, s') := by
  induction ha generalizing Ls Ls' ks ks' with
  | nil =>
    intro fuel circuit s hist _
    cases fuel with
    | zero => exact ⟨_, _, rfl⟩
    | succ n => exact ⟨_, _, rfl⟩
  | @cons b b' g g' hb _ ih =>
    intro fuel circuit s hist ht
    cases fuel with
    | zero => exact ⟨_, _, rfl⟩
    | succ n =>
      cases h with
      | cons hi hg =>
      cases h' with
      | cons hi' hg' =>
      obtain ⟨c, s1, e1, -, -, t1⟩ := hi.does.2 s hist ht
      obtain ⟨c', s2, e2, -, -, t2⟩ := hi'.does.2 s1 _ t1
      obtain ⟨r, hr⟩ := mergeStep_two (circuit := circuit) (hb _ _ _ _ _ _ e1 e2)
      obtain ⟨c3, s3, e3⟩ := ih hg hg' n r s2 _ t2
      refine ⟨c3, s3, ?_⟩
      have hn : nextAll [b :: g, b' :: g'] s = (.ok (some ([c, c'], [g, g'])), s2) := by
        simp only [nextAll]
        rw [PyM.bind_ok e1]
        have : nextAll [b' :: g'] s1 = (.ok (some ([c'], [g'])), s2) := by
          simp only [nextAll]
          rw [PyM.bind_ok e2]
          rfl
        simp only [nextAll] at this
        rw [PyM.bind_ok this]
        rfl
      unfold mergeLoop
      rw [PyM.bind_ok hn]
      simp only
      rw [hr, PyM.bind_ok (PyM.ofExcept_apply _ _)]
      exact e3

/-! ### corresponding sets of qubits -/

variable {lc lt : Layout} {Lc Lt : List (String × Site × Kind)} {dirs : List (Site × String)} {nm : NoiseModel}

/-- The same sites. -/
structure Corr (Lc Lt : List (String × Site × Kind)) (A B : List String) : Prop where
  subC : ∀ q ∈ A, ∃ s k, (q, s, k) ∈ Lc
  subT : ∀ q ∈ B, ∃ s k, (q, s, k) ∈ Lt
  iff : ∀ s k q q', (q, s, k) ∈ Lc → (q', s, k) ∈ Lt → (q ∈ A ↔ q' ∈ B)

theorem Corr.symm {A B : List String} (h : Corr Lc Lt A B) : Corr Lt Lc B A :=
  ⟨h.subT, h.subC, fun s k q q' h1 h2 => (h.iff s k q' q h2 h1).symm⟩

theorem Corr.length_le (hT : Twins lc lt Lc Lt dirs) {A B : List String} (h : Corr Lc Lt A B) (hA : A.Nodup) : A.length ≤ B.length := by
  have hn : (A.map (SurfaceSim.tw Lc Lt)).Nodup := by
    refine List.Nodup.map_on (fun a ha b hb e => ?_) hA
    obtain ⟨s, k, ha⟩ := h.subC a ha
    obtain ⟨s', k', hb⟩ := h.subC b hb
    rw [← hT.tw_tw ha, e, hT.tw_tw hb]
  have hs : ∀ x ∈ A.map (SurfaceSim.tw Lc Lt), x ∈ B := by
    intro x hx
    obtain ⟨a, ha, rfl⟩ := List.mem_map.1 hx
    obtain ⟨s, k, ha'⟩ := h.subC a ha
    exact (h.iff s k a _ ha' (hT.tw ha')).1 ha
  have := (List.subperm_of_subset hn hs).length_le
  simpa using this

theorem Corr.length (hT : Twins lc lt Lc Lt dirs) {A B : List String} (h : Corr Lc Lt A B) (hA : A.Nodup) (hB : B.Nodup) :
    A.length = B.length :=
  le_antisymm (h.length_le hT hA) (h.symm.length_le hT.symm hB)

theorem Corr.labels (hT : Twins lc lt Lc Lt dirs) (p : Kind → Prop) [DecidablePred p] : Corr Lc Lt (labelsOf Lc p) (labelsOf Lt p) := by
  refine ⟨fun q hq => ?_, fun q hq => ?_, fun s k q q' h1 h2 => ?_⟩
  · obtain ⟨s, k, h, -⟩ := mem_labelsOf.1 hq
    exact ⟨s, k, h⟩
  · obtain ⟨s, k, h, -⟩ := mem_labelsOf.1 hq
    exact ⟨s, k, h⟩
  · rw [mem_labelsOf, mem_labelsOf]
    constructor
    · rintro ⟨s', k', h, hp⟩
      obtain ⟨rfl, rfl⟩ := hT.c.unique h1 h
      exact ⟨_, _, h2, hp⟩
    · rintro ⟨s', k', h, hp⟩
      obtain ⟨rfl, rfl⟩ := hT.t.unique h2 h
      exact ⟨_, _, h1, hp⟩

theorem Corr.congr {A A' B B' : List String} (h : Corr Lc Lt A B) (hA : ∀ q, q ∈ A' ↔ q ∈ A) (hB : ∀ q, q ∈ B' ↔ q ∈ B) :
    Corr Lc Lt A' B' :=
  ⟨fun q hq => h.subC q ((hA q).1 hq), fun q hq => h.subT q ((hB q).1 hq), fun s k q q' h1 h2 => by
    rw [hA, hB]; exact h.iff s k q q' h1 h2⟩

theorem Corr.append {A A' B B' : List String} (h : Corr Lc Lt A B) (h' : Corr Lc Lt A' B') : Corr Lc Lt (A ++ A') (B ++ B') := by
  refine ⟨fun q hq => ?_, fun q hq => ?_, fun s k q q' h1 h2 => ?_⟩
  · rcases List.mem_append.1 hq with hq | hq
    · exact h.subC q hq
    · exact h'.subC q hq
  · rcases List.mem_append.1 hq with hq | hq
    · exact h.subT q hq
    · exact h'.subT q hq
  · rw [List.mem_append, List.mem_append, h.iff s k q q' h1 h2, h'.iff s k q q' h1 h2]

theorem Corr.union {A A' B B' : List String} (h : Corr Lc Lt A B) (h' : Corr Lc Lt A' B') :
    Corr Lc Lt (union A A') (union B B') :=
  (h.append h').congr (fun q => by rw [mem_union, List.mem_append]) fun q => by rw [mem_union, List.mem_append]

theorem Corr.diff {A A' B B' : List String} (h : Corr Lc Lt A B) (h' : Corr Lc Lt A' B') :
    Corr Lc Lt (diff A A') (diff B B') := by
  refine ⟨fun q hq => h.subC q (List.mem_filter.1 hq).1, fun q hq => h.subT q (List.mem_filter.1 hq).1, fun s k q q' h1 h2 => ?_⟩
  unfold Blocks.diff
  rw [List.mem_filter, List.mem_filter, h.iff s k q q' h1 h2]
  simp only [decide_eq_true_eq, h'.iff s k q q' h1 h2]

theorem Corr.setOf {A B : List String} (h : Corr Lc Lt A B) : Corr Lc Lt (setOf A) (setOf B) :=
  h.congr (fun q => mem_setOf) fun q => mem_setOf

theorem Corr.nil : Corr Lc Lt [] [] := ⟨by simp, by simp, by simp⟩

theorem Twins.rel (hT : Twins lc lt Lc Lt dirs) {q q' d : String} (h : Rel Lc dirs q d q') :
    Rel Lt dirs (SurfaceSim.tw Lc Lt q) d (SurfaceSim.tw Lc Lt q') := by
  obtain ⟨s, k, s', k', sh, h1, h2, h3⟩ := h
  exact ⟨s, k, s', k', sh, hT.tw h1, hT.tw h2, h3⟩

theorem Twins.pairs_map (hT : Twins lc lt Lc Lt dirs) {A B : List String} (h : Corr Lc Lt A B) {d : String} {p : String × String}
    (hp : p ∈ lc.getNeighborPairs A (some d)) :
    (SurfaceSim.tw Lc Lt p.1, SurfaceSim.tw Lc Lt p.2) ∈ lt.getNeighborPairs B (some d) := by
  obtain ⟨h1, h2⟩ := hT.c.mem_pairs.1 hp
  refine hT.t.mem_pairs.2 ⟨?_, hT.rel h2⟩
  obtain ⟨s, k, h3⟩ := h.subC _ h1
  exact (h.iff s k _ _ h3 (hT.tw h3)).1 h1

theorem Twins.pairs_known (hT : Twins lc lt Lc Lt dirs) {A : List String} {d : String} {p : String × String}
    (hp : p ∈ lc.getNeighborPairs A (some d)) : (∃ s k, (p.1, s, k) ∈ Lc) ∧ ∃ s k, (p.2, s, k) ∈ Lc := by
  obtain ⟨-, s, k, s', k', sh, h1, h2, -⟩ := hT.c.mem_pairs.1 hp
  exact ⟨⟨s, k, h1⟩, ⟨s', k', h2⟩⟩

theorem Twins.pairs_le (hT : Twins lc lt Lc Lt dirs) {A B : List String} (h : Corr Lc Lt A B) (d : String) :
    (lc.getNeighborPairs A (some d)).length ≤ (lt.getNeighborPairs B (some d)).length := by
  have hn := Layout.getNeighborPairs_nodup (Layout.inv_of_reachable hT.c.reach) A (some d)
  have hn' : ((lc.getNeighborPairs A (some d)).map fun p => (SurfaceSim.tw Lc Lt p.1, SurfaceSim.tw Lc Lt p.2)).Nodup := by
    refine List.Nodup.map_on (fun a ha b hb e => ?_) hn
    obtain ⟨⟨_, _, a1⟩, ⟨_, _, a2⟩⟩ := hT.pairs_known ha
    obtain ⟨⟨_, _, b1⟩, ⟨_, _, b2⟩⟩ := hT.pairs_known hb
    simp only [Prod.mk.injEq] at e
    refine Prod.ext ?_ ?_
    · rw [← hT.tw_tw a1, e.1, hT.tw_tw b1]
    · rw [← hT.tw_tw a2, e.2, hT.tw_tw b2]
  have := (List.subperm_of_subset hn' fun x hx => by
    obtain ⟨p, hp, rfl⟩ := List.mem_map.1 hx
    exact hT.pairs_map h hp).length_le
  simpa using this

theorem Twins.chain_length (hT : Twins lc lt Lc Lt dirs) {A B : List String} (h : Corr Lc Lt A B) (d : String) :
    (chain (lc.getNeighborPairs A (some d))).length = (chain (lt.getNeighborPairs B (some d))).length := by
  have hl : ∀ ps : List (String × String), (chain ps).length = 2 * ps.length := by
    intro ps
    induction ps with
    | nil => rfl
    | cons p ps ih =>
      simp only [chain, List.flatMap_cons, List.length_append, List.length_cons, List.length_nil] at ih ⊢
      omega
  rw [hl, hl, le_antisymm (hT.pairs_le h d) (hT.symm.pairs_le h.symm d)]

theorem Twins.chain_sub (hT : Twins lc lt Lc Lt dirs) {A B : List String} (h : Corr Lc Lt A B) {d : String} {s : Site} {k : Kind}
    {q q' : String} (hq : (q, s, k) ∈ Lc) (hq' : (q', s, k) ∈ Lt) (hm : q ∈ chain (lc.getNeighborPairs A (some d))) :
    q' ∈ chain (lt.getNeighborPairs B (some d)) := by
  obtain ⟨p, hp, he⟩ := mem_chain.1 hm
  have : q' = SurfaceSim.tw Lc Lt q := (hT.t.unique' hq' (hT.tw hq)).1
  refine mem_chain.2 ⟨_, hT.pairs_map h hp, ?_⟩
  rcases he with rfl | rfl
  · exact Or.inl this
  · exact Or.inr this

theorem Corr.chain (hT : Twins lc lt Lc Lt dirs) {A B : List String} (h : Corr Lc Lt A B) (d : String) :
    Corr Lc Lt (chain (lc.getNeighborPairs A (some d))) (chain (lt.getNeighborPairs B (some d))) := by
  refine ⟨fun q hq => ?_, fun q hq => ?_, fun s k q q' h1 h2 => ⟨fun hq => hT.chain_sub h h1 h2 hq, fun hq => hT.symm.chain_sub h.symm h2 h1 hq⟩⟩
  · obtain ⟨p, hp, he⟩ := mem_chain.1 hq
    rcases he with rfl | rfl
    · exact (hT.pairs_known hp).1
    · exact (hT.pairs_known hp).2
  · obtain ⟨p, hp, he⟩ := mem_chain.1 hq
    rcases he with rfl | rfl
    · exact (hT.symm.pairs_known hp).1
    · exact (hT.symm.pairs_known hp).2

theorem Corr.neighbors (hT : Twins lc lt Lc Lt dirs) {A B : List String} (h : Corr Lc Lt A B) (d : String) :
    Corr Lc Lt (lc.getNeighbors A (some d)) (lt.getNeighbors B (some d)) := by
  refine ⟨fun q hq => getNeighbors_known hT.c hq, fun q hq => getNeighbors_known hT.t hq, fun s k q q' h1 h2 => ?_⟩
  have e1 : q' = SurfaceSim.tw Lc Lt q := (hT.t.unique' h2 (hT.tw h1)).1
  have e2 : q = SurfaceSim.tw Lt Lc q' := (hT.c.unique' h1 (hT.symm.tw h2)).1
  constructor
  · intro hq
    obtain ⟨p, hp, rfl⟩ := List.mem_map.1 hq
    exact List.mem_map.2 ⟨_, hT.pairs_map h hp, e1.symm⟩
  · intro hq
    obtain ⟨p, hp, rfl⟩ := List.mem_map.1 hq
    exact List.mem_map.2 ⟨_, hT.symm.pairs_map h.symm hp, e2.symm⟩

/-! ### rounds -/

section
variable (um : UniformModel nm) (hT : Twins lc lt Lc Lt dirs)
include um hT

theorem alike_rotLayer (o : SetOrder) {Q R Q' R' : List String} (hQ : Corr Lc Lt Q Q') (hR : Corr Lc Lt R R') (nQ : Q.Nodup)
    (nQ' : Q'.Nodup) (nR : R.Nodup) (nR' : R'.Nodup) : Alike (rotLayer o nm Q R) (rotLayer o nm Q' R') := by
  refine Alike.plus (um.hadamard _ _ ?_) (um.idle _ _ ?_)
  · rw [(o.perm _).length_eq, (o.perm _).length_eq, hR.length hT nR nR']
  · rw [(o.perm _).length_eq, (o.perm _).length_eq]
    exact (hQ.diff hR).length hT (nQ.filter _) (nQ'.filter _)

theorem alike_cssRot (o : SetOrder) {x0 x1 x2 x3 z0 z1 z2 z3 : String} (ho : lc.interactionOrder = order4 x0 x1 x2 x3 z0 z1 z2 z3)
    (ho' : lt.interactionOrder = order4 x0 x1 x2 x3 z0 z1 z2 z3) :
    Alike (cssRot o nm lc (allOf Lc) (ancOf Lc) (xOf Lc)) (cssRot o nm lt (allOf Lt) (ancOf Lt) (xOf Lt)) := by
  have hr : rotSet lc (ancOf Lc) (xOf Lc) = .ok (cssRotSet lc Lc x0 x3) := by
    simp [rotSet, orderDir, ho, order4, Dict.getE, pyIndex, cssRotSet]
  have hr' : rotSet lt (ancOf Lt) (xOf Lt) = .ok (cssRotSet lt Lt x0 x3) := by
    simp [rotSet, orderDir, ho', order4, Dict.getE, pyIndex, cssRotSet]
  have hall : Corr Lc Lt (allOf Lc) (allOf Lt) := ((Corr.labels hT _).append (Corr.labels hT _)).setOf
  have hrot : Corr Lc Lt (cssRotSet lc Lc x0 x3) (cssRotSet lt Lt x0 x3) :=
    ((Corr.labels hT _).setOf.union (Corr.neighbors hT (Corr.labels hT _) x0)).union (Corr.neighbors hT (Corr.labels hT _) x3)
  have := alike_rotLayer um hT o hall hrot (setOf_nodup _) (setOf_nodup _) (cssRotSet_nodup hT.c _ _) (cssRotSet_nodup hT.t _ _)
  intro s s' c c' s₁ s₁' h h'
  unfold cssRot at h h'
  rw [hr, PyM.bind_ok (PyM.ofExcept_apply _ _)] at h
  rw [hr', PyM.bind_ok (PyM.ofExcept_apply _ _)] at h'
  exact this _ _ _ _ _ _ h h'

theorem alike_czLoop (ho : lc.interactionOrder = lt.interactionOrder) (k : Nat) (sts : List String)
    (hst : ∀ st ∈ sts, st = "x_type" ∨ st = "z_type") :
    ∀ (c c' : Circuit) (acc acc' : List String) (s s' : MeasState) (r r' : Circuit × List String) (s₁ s₁' : MeasState),
      shape c = shape c' → Corr Lc Lt acc acc' →
      czLoop nm lc k sts c acc s = (.ok r, s₁) → czLoop nm lt k sts c' acc' s' = (.ok r', s₁') →
      shape r.1 = shape r'.1 ∧ Corr Lc Lt r.2 r'.2 := by
  induction sts with
  | nil =>
    intro c c' acc acc' s s' r r' s₁ s₁' hc ha h h'
    cases h
    cases h'
    exact ⟨hc, ha⟩
  | cons st sts ih =>
    intro c c' acc acc' s s' r r' s₁ s₁' hc ha h h'
    unfold Blocks.czLoop at h h'
    obtain ⟨stabs, t1, h1, h⟩ := PyM.bind_eq_ok h
    obtain ⟨dir, t2, h2, h⟩ := PyM.bind_eq_ok h
    simp only at h
    obtain ⟨cz, t3, h3, h⟩ := PyM.bind_eq_ok h
    obtain ⟨stabs', t1', h1', h'⟩ := PyM.bind_eq_ok h'
    obtain ⟨dir', t2', h2', h'⟩ := PyM.bind_eq_ok h'
    simp only at h'
    obtain ⟨cz', t3', h3', h'⟩ := PyM.bind_eq_ok h'
    have hstabs : Corr Lc Lt stabs stabs' := by
      simp only [PyM.ofExcept_apply, Prod.mk.injEq] at h1 h1'
      rcases hst st (by simp) with rfl | rfl
      · have e1 : stabQubits lc "x_type" = .ok (xOf Lc) := hT.c.getQubits_x
        have e2 : stabQubits lt "x_type" = .ok (xOf Lt) := hT.t.getQubits_x
        cases e1.symm.trans h1.1
        cases e2.symm.trans h1'.1
        exact Corr.labels hT _
      · have e1 : stabQubits lc "z_type" = .ok (zOf Lc) := hT.c.getQubits_z
        have e2 : stabQubits lt "z_type" = .ok (zOf Lt) := hT.t.getQubits_z
        cases e1.symm.trans h1.1
        cases e2.symm.trans h1'.1
        exact Corr.labels hT _
    have hdir : dir' = dir := by
      simp only [PyM.ofExcept_apply, Prod.mk.injEq] at h2 h2'
      have e : orderDir lt st k = orderDir lc st k := by unfold orderDir; rw [ho]
      rw [e] at h2'
      have := h2.1.symm.trans h2'.1
      cases this
      rfl
    subst hdir
    exact ih (fun st' h => hst st' (by simp [h])) _ _ _ _ _ _ _ _ _ _
      (shape_concat hc (um.cphase _ _ (hT.chain_length hstabs dir') _ _ _ _ _ _ h3 h3'))
      (ha.union (Corr.chain hT hstabs dir')) h h'

theorem alike_czLayer (o : SetOrder) (ho : lc.interactionOrder = lt.interactionOrder)
    (hk : ∀ st ∈ lc.interactionOrder.keys, st = "x_type" ∨ st = "z_type") (k : Nat) :
    Alike (czLayer o nm lc (allOf Lc) k) (czLayer o nm lt (allOf Lt) k) := by
  intro s s' c c' s₁ s₁' h h'
  unfold Blocks.czLayer at h h'
  obtain ⟨r, t1, h1, h⟩ := PyM.bind_eq_ok h
  obtain ⟨i, t2, h2, h⟩ := PyM.bind_eq_ok h
  obtain ⟨r', t1', h1', h'⟩ := PyM.bind_eq_ok h'
  obtain ⟨i', t2', h2', h'⟩ := PyM.bind_eq_ok h'
  cases h
  cases h'
  rw [← ho] at h1'
  obtain ⟨e1, e2⟩ := alike_czLoop um hT ho k _ hk _ _ _ _ _ _ _ _ _ _ rfl .nil h1 h1'
  have hall : Corr Lc Lt (allOf Lc) (allOf Lt) := ((Corr.labels hT _).append (Corr.labels hT _)).setOf
  refine shape_concat e1 (um.idle _ _ ?_ _ _ _ _ _ _ h2 h2')
  rw [(o.perm _).length_eq, (o.perm _).length_eq]
  exact (hall.diff e2).length hT ((setOf_nodup _).filter _) ((setOf_nodup _).filter _)

theorem data_length : (dataOf Lc).length = (dataOf Lt).length :=
  (Corr.labels hT _).length hT (hT.c.labelsOf_nodup _) (hT.t.labelsOf_nodup _)

theorem anc_length : (ancOf Lc).length = (ancOf Lt).length :=
  (Corr.labels hT _).length hT (hT.c.labelsOf_nodup _) (hT.t.labelsOf_nodup _)

theorem alike_css (o : SetOrder) {x0 x1 x2 x3 z0 z1 z2 z3 : String} (ho : lc.interactionOrder = order4 x0 x1 x2 x3 z0 z1 z2 z3)
    (ho' : lc.interactionOrder = lt.interactionOrder) (hc : lc.code = lt.code) (reset : Bool) :
    List.Forall₂ Alike (cssIter lc.code o nm lc reset) (cssIter lc.code o nm lt reset) := by
  have hd : dataQubits lc = .ok (dataOf Lc) := hT.c.getQubits_data
  have ha : ancQubits lc = .ok (ancOf Lc) := hT.c.getQubits_anc
  have hx : stabQubits lc "x_type" = .ok (xOf Lc) := hT.c.getQubits_x
  have hd' : dataQubits lt = .ok (dataOf Lt) := hT.t.getQubits_data
  have ha' : ancQubits lt = .ok (ancOf Lt) := hT.t.getQubits_anc
  have hx' : stabQubits lt "x_type" = .ok (xOf Lt) := hT.t.getQubits_x
  have ld := data_length um hT
  have la := anc_length um hT
  have hk : ∀ st ∈ lc.interactionOrder.keys, st = "x_type" ∨ st = "z_type" := by
    rw [ho]
    intro st hst
    simpa [order4, Dict.keys] using hst
  have hH : Alike (plus (nm.hadamard (dataOf Lc)) (nm.idle (ancOf Lc))) (plus (nm.hadamard (dataOf Lt)) (nm.idle (ancOf Lt))) :=
    .plus (um.hadamard _ _ ld) (um.idle _ _ la)
  have hM : Alike (plus (nm.measure (ancOf Lc)) (nm.idle (dataOf Lc))) (plus (nm.measure (ancOf Lt)) (nm.idle (dataOf Lt))) :=
    .plus (um.measure _ _ la) (um.idle _ _ ld)
  have hR := alike_cssRot um hT o ho (ho'.symm.trans ho)
  have hZ := alike_czLayer um hT o ho' hk
  have t := Alike.tick
  have hhead : List.Forall₂ Alike (roundHead nm (dataOf Lc) (ancOf Lc) reset) (roundHead nm (dataOf Lt) (ancOf Lt) reset) := by
    have hi : Alike (nm.incomingNoise (dataOf Lc)) (nm.incomingNoise (dataOf Lt)) := um.incoming _ _ ld
    cases reset
    · exact .cons hi (.cons t .nil)
    · exact .cons hi (.cons t (.cons (.plus (um.reset _ _ la) (um.idle _ _ ld)) (.cons t .nil)))
  unfold cssIter
  rw [if_neg (by simp), if_neg (by simp [hc]), hd, ha, hx, hd', ha', hx']
  simp only [withE]
  exact List.rel_append hhead (.cons hR (.cons t (.cons (hZ 0) (.cons t (.cons hH (.cons t
    (.cons (hZ 1) (.cons t (.cons (hZ 2) (.cons t (.cons hH (.cons t (.cons (hZ 3) (.cons t (.cons hR (.cons t
    (.cons hM (.cons t .nil))))))))))))))))))

theorem alike_logMeas (rb : Bool) : List.Forall₂ Alike (logMeasIter nm lc rb) (logMeasIter nm lt rb) := by
  have hd : dataQubits lc = .ok (dataOf Lc) := hT.c.getQubits_data
  have ha : ancQubits lc = .ok (ancOf Lc) := hT.c.getQubits_anc
  have hd' : dataQubits lt = .ok (dataOf Lt) := hT.t.getQubits_data
  have ha' : ancQubits lt = .ok (ancOf Lt) := hT.t.getQubits_anc
  have ld := data_length um hT
  have la := anc_length um hT
  have t := Alike.tick
  have hM : Alike (plus (nm.measure (dataOf Lc)) (nm.idle (ancOf Lc))) (plus (nm.measure (dataOf Lt)) (nm.idle (ancOf Lt))) :=
    .plus (um.measure _ _ ld) (um.idle _ _ la)
  have hH : Alike (plus (nm.hadamard (dataOf Lc)) (nm.idle (ancOf Lc))) (plus (nm.hadamard (dataOf Lt)) (nm.idle (ancOf Lt))) :=
    .plus (um.hadamard _ _ ld) (um.idle _ _ la)
  unfold logMeasIter
  rw [hd, ha, hd', ha']
  simp only [withE]
  cases rb
  · exact .cons (um.incoming _ _ ld) (.cons t (.cons hM (.cons t .nil)))
  · exact .cons (um.incoming _ _ ld) (.cons t (.cons hH (.cons t (.cons hM (.cons t .nil)))))

end

/-! ### initializations -/

/-- The computation never returns a circuit with measurements. -/
def NoMeas (b : Call1) : Prop := ∀ s c s', b s = (.ok c, s') → ∀ i ∈ c, i.gate.isMeas = false

theorem NoMeas.concat {a b : Circuit} (ha : ∀ i ∈ a, i.gate.isMeas = false) (hb : ∀ i ∈ b, i.gate.isMeas = false) :
    ∀ i ∈ Circuit.concat a b, i.gate.isMeas = false := by
  intro i hi
  rcases mem_concat_gate hi with ⟨j, hj, he⟩ | ⟨j, hj, he⟩
  · rw [← he]; exact ha j hj
  · rw [← he]; exact hb j hj

theorem NoMeas.plus {a b : Call1} (ha : NoMeas a) (hb : NoMeas b) : NoMeas (plus a b) := by
  intro s c s' h
  unfold Blocks.plus at h
  obtain ⟨x, s1, h1, h⟩ := PyM.bind_eq_ok h
  obtain ⟨y, s2, h2, h⟩ := PyM.bind_eq_ok h
  cases h
  exact NoMeas.concat (ha _ _ _ h1) (hb _ _ _ h2)

theorem NoMeas.tick : NoMeas Blocks.tick := by
  intro s c s' h
  cases h
  simp [NoiseModel.tick, Gate.isMeas]

theorem NoMeas.sumFrom {g : Gen} (hg : ∀ b ∈ g, NoMeas b) {acc : Circuit} (ha : ∀ i ∈ acc, i.gate.isMeas = false) :
    NoMeas (sumFrom acc g) := by
  induction g generalizing acc with
  | nil =>
    intro s c s' h
    cases h
    exact ha
  | cons b g ih =>
    intro s c s' h
    unfold Blocks.sumFrom at h
    obtain ⟨x, s1, h1, h⟩ := PyM.bind_eq_ok h
    exact ih (fun b' hb' => hg b' (by simp [hb'])) (NoMeas.concat ha (hg b (by simp) _ _ _ h1)) _ _ _ h

theorem noMeas_init (um : UniformModel nm) {l : Layout} {L : List (String × Site × Kind)} (hg : OnGrid l L dirs) (o : SetOrder)
    (d : Dict String Int) (rb : Bool) : NoMeas (sumGen (initIter o nm l d rb)) := by
  have m1 : ∀ qs, NoMeas (nm.reset qs) := fun qs => um.noMeas nm.reset (by simp) qs
  have m2 : ∀ qs, NoMeas (nm.xGate qs) := fun qs => um.noMeas nm.xGate (by simp) qs
  have m3 : ∀ qs, NoMeas (nm.hadamard qs) := fun qs => um.noMeas nm.hadamard (by simp) qs
  have m4 : ∀ qs, NoMeas (nm.idle qs) := fun qs => um.noMeas nm.idle (by simp) qs
  refine NoMeas.sumFrom ?_ (by simp)
  unfold initIter ancQubits dataQubits
  rw [hg.getQubits_anc, hg.getQubits_data]
  simp only [withE]
  intro b hb
  rcases List.mem_append.1 hb with hb | hb
  · unfold initHead at hb
    simp only [List.mem_cons, List.not_mem_nil, or_false] at hb
    rcases hb with rfl | rfl | rfl | rfl
    · exact m1 _
    · exact .tick
    · refine .plus ?_ (m4 _)
      split
      · intro s c s' h
        cases h
        simp
      · exact m2 _
    · exact .tick
  · cases rb
    · simp at hb
    · simp only [if_true, List.mem_cons, List.not_mem_nil, or_false] at hb
      rcases hb with rfl | rfl
      · exact .plus (m3 _) (m4 _)
      · exact .tick

theorem mem_of_mem_tickBlocks {c b : Circuit} {i : Instr} (hb : b ∈ tickBlocks c) (hi : i ∈ b) : i ∈ c := by
  induction c generalizing b with
  | nil =>
    simp only [tickBlocks, List.mem_singleton] at hb
    subst hb
    simp at hi
  | cons j c ih =>
    by_cases hj : j.gate = .TICK
    · simp only [tickBlocks, hj, if_true] at hb
      rcases List.mem_cons.1 hb with rfl | hb
      · simp at hi
      · exact List.mem_cons_of_mem _ (ih hb hi)
    · obtain ⟨b0, bs, h1, h2⟩ := tickBlocks_cons_other j c hj
      rw [h2] at hb
      rw [h1] at ih
      rcases List.mem_cons.1 hb with rfl | hb
      · rcases List.mem_cons.1 hi with rfl | hi
        · simp
        · exact List.mem_cons_of_mem _ (ih (by simp) hi)
      · exact List.mem_cons_of_mem _ (ih (by simp [hb]) hi)

theorem mergeCircuits_two {c₁ c₂ : Circuit} (hn : c₁.numTicks = c₂.numTicks) (h1 : ∀ i ∈ c₁, i.gate.isMeas = false)
    (h2 : ∀ i ∈ c₂, i.gate.isMeas = false) : ∃ m, CircuitOps.mergeCircuits [c₁, c₂] true = .ok m := by
  have hne := mt (Props.C21_raises_iff [c₁, c₂] true).1 (by
    rintro (h | ⟨c, hc, c', hc', h⟩ | ⟨-, h⟩)
    · simp at h
    · simp only [List.mem_cons, List.not_mem_nil, or_false] at hc hc'
      rcases hc with rfl | rfl <;> rcases hc' with rfl | rfl <;> simp [hn] at h
    · refine h fun c hc c' hc' k k' hk => ?_
      obtain ⟨b, hb, i, hi, hm⟩ := hk
      have : i ∈ c := mem_of_mem_tickBlocks (List.mem_of_getElem? hb) hi
      simp only [List.mem_cons, List.not_mem_nil, or_false] at hc
      rcases hc with rfl | rfl
      · rw [h1 i this] at hm; cases hm
      · rw [h2 i this] at hm; cases hm)
  unfold CircuitOps.mergeCircuits at hne ⊢
  simp only at hne ⊢
  split at hne
  · exact absurd rfl hne
  · rename_i k1
    rw [if_neg k1]
    split at hne
    · exact absurd rfl hne
    · rename_i k2
      rw [if_neg k2]
      split at hne
      · exact absurd rfl hne
      · rename_i k3
        rw [if_neg k3]
        exact ⟨_, rfl⟩

/-! ### the steps can be merged -/

theorem mergesOk {code A B : String} {Xc Zc Xt Zt : List String} (hT : Twins lc lt Lc Lt dirs) (gc : GridCode code lc Lc A Xc Zc)
    (gt : GridCode code lt Lt B Xt Zt) (ho : lc.interactionOrder = lt.interactionOrder) (hrc : CanRun nm lc) (hrt : CanRun nm lt)
    (nt : NoTicks nm) (hu : UniformMeas nm) (um : UniformModel nm) (o o' : SetOrder) (dataInit : Dict String Int) (rb reset : Bool) :
    MergesOk code o o' nm lc lt Lc Lt dataInit rb reset := by
  obtain ⟨sig, hs1, hs⟩ := hu
  obtain ⟨x0, x1, x2, x3, z0, z1, z2, z3, hord⟩ := gc.order
  refine ⟨fun s hist ht c₁ s₁ c₂ s₂ h1 h2 => ?_, fun s hist ht => ?_, fun s hist ht => ?_⟩
  · have kc := grid_known hrc hT.c
    have kt := grid_known hrt hT.t
    have hone : ∀ {L : List (String × Site × Kind)} {q : String},
        isOne (dataInit.filter fun kv => decide (kv.1 ∈ L.map Prod.fst)) q = 1 → q ∈ L.map Prod.fst := by
      intro L q hq
      rw [isOne_filter] at hq
      by_contra hn
      rw [if_neg hn] at hq
      exact absurd hq (by decide)
    obtain ⟨c₁', s₁', c₂', s₂', e1, e2, -, hn, -⟩ := merged_init hrc hrt nt hT.c hT.t o'
      (fun q hq => kc q (mem_grid_label.2 (hone hq))) (fun q hq => kt q (mem_grid_label.2 (hone hq))) rb ht
    cases e1.symm.trans h1
    cases e2.symm.trans h2
    exact mergeCircuits_two hn (noMeas_init um hT.c o' _ rb _ _ _ h1) (noMeas_init um hT.t o' _ rb _ _ _ h2)
  · obtain ⟨Ls, k1, -⟩ := css_genOk hrc.faithful nt hs1 hs hT.c (CanRun.usable hrc hT.c) o hord reset gc.data gc.anc
    obtain ⟨Ls', k2, -⟩ := css_genOk hrt.faithful nt hs1 hs hT.t (CanRun.usable hrt hT.t) o (ho.symm.trans hord) reset gt.data gt.anc
    have ha := alike_css um hT o hord ho (gc.name.trans gt.name.symm) reset
    rw [gc.name] at k1 ha
    rw [gt.name] at k2
    exact mergeLoop_two k1 k2 ha _ _ s hist ht
  · obtain ⟨Ls, k1, -⟩ := logMeas_genOk hrc.faithful nt hs1 hs hT.c (CanRun.usable hrc hT.c) rb gc.data gc.anc
    obtain ⟨Ls', k2, -⟩ := logMeas_genOk hrt.faithful nt hs1 hs hT.t (CanRun.usable hrt hT.t) rb gt.data gt.anc
    exact mergeLoop_two k1 k2 (alike_logMeas um hT rb) _ _ s hist ht

end SurfaceSim
