/-
Theorems about drawing layouts (layouts/plotter.py).
-/
import Verif.Lemmas.Plotter
import Verif.Lemmas.Placed
import Verif.Lemmas.RotGeometry
import Verif.Lemmas.UnrotGeometry
import Verif.Lemmas.Witness

namespace SurfaceSim.Props
open Spec Plotter LayoutLib

variable {as : ArgSort} {l : Layout} {m : Meta} {o : Options} {ax ax' : Axes}

/-- There is a way to sort: the theorems below are about all of them. -/
theorem argSort_exists : Nonempty ArgSort := by
  classical
  let r (keys : List ℝ) : Nat → Nat → Prop := fun i j => keys.getD i 0 ≤ keys.getD j 0
  haveI : ∀ keys, Std.Total (r keys) := fun keys => ⟨fun i j => le_total _ _⟩
  haveI : ∀ keys, IsTrans Nat (r keys) := fun keys => ⟨fun i j k h1 h2 => le_trans h1 h2⟩
  exact ⟨⟨fun keys => (List.range keys.length).insertionSort (r keys), fun keys => List.perm_insertionSort _ _,
    fun keys => List.pairwise_insertionSort (r keys) _⟩⟩

/-- **C61** `clockwise_sort` on points that are the corners of a convex polygon, in any order: it returns the corners in
clockwise order (first coordinate to the right, second one up). -/
theorem C61_clockwise_sort (as : ArgSort) {ps t : List (Rat × Rat)} (ht : t.Perm ps) (hc : ClockwisePolygon t) :
    ∃ u : List (Rat × Rat), clockwiseSort as (ps.map asList) = .ok (u.map asList) ∧ u.Perm ps ∧ ClockwisePolygon u := by
  have hne : ps ≠ [] := by
    rintro rfl
    have := hc.1
    rw [ht.length_eq] at this
    simp at this
  obtain ⟨u, h1, h2, h3⟩ := clockwiseSort_polygon as hne
  exact ⟨u, h1, h2, h3 ⟨t, ht.trans h2.symm, hc⟩⟩

-- a pentagon in scrambled order
example (as : ArgSort) : ∃ u : List (Rat × Rat),
    clockwiseSort as ([(0, 2), (1, -1), (2, 1), (-1, -1), (-2, 1)].map asList) = .ok (u.map asList) ∧
      u.Perm [(0, 2), (1, -1), (2, 1), (-1, -1), (-2, 1)] ∧ ClockwisePolygon u :=
  C61_clockwise_sort as (t := [(0, 2), (2, 1), (1, -1), (-1, -1), (-2, 1)]) (by decide +kernel) (by decide +kernel)

/-- **C61** `clockwise_sort` loses and invents no point, and only fails, with `ValueError`, if there are none. -/
theorem C61_clockwise_sort_perm (as : ArgSort) (ps : List (Rat × Rat)) :
    (ps = [] → clockwiseSort as (ps.map asList) = .error .valueError) ∧
    (ps ≠ [] → ∃ u : List (Rat × Rat), clockwiseSort as (ps.map asList) = .ok (u.map asList) ∧ u.Perm ps) := by
  refine ⟨?_, fun h => ?_⟩
  · rintro rfl
    simp [clockwiseSort, columns_nil]
  · obtain ⟨u, h1, h2, -⟩ := clockwiseSort_polygon as h
    exact ⟨u, h1, h2⟩

example (as : ArgSort) : ∃ u : List (Rat × Rat), clockwiseSort as ([(0, 0), (1, 0)].map asList) = .ok (u.map asList) ∧
    u.Perm [(0, 0), (1, 0)] := (C61_clockwise_sort_perm as _).2 (by simp)

theorem getQubits_empty (l : Layout) : l.getQubits [] = .ok l.graph.nodes.keys := by
  simp [Layout.getQubits]

theorem filter_of_layer {n : Nat} {xs : List Artist} (h : ∀ a ∈ xs, layer a.shape = n) (k : Nat) :
    (xs.filter fun a => layer a.shape = k) = if n = k then xs else [] := by
  split
  · rename_i e
    exact List.filter_eq_self.2 fun a ha => by simp [h a ha, e]
  · rename_i e
    exact List.filter_eq_nil_iff.2 fun a ha => by simp [h a ha, e]

theorem forall₂_right {α β : Type} {R : α → β → Prop} {P : β → Prop} {xs : List α} {ys : List β} (h : List.Forall₂ R xs ys)
    (hp : ∀ x y, R x y → P y) : ∀ y ∈ ys, P y := by
  induction h with
  | nil => simp
  | cons h _ ih =>
    intro y hy
    rcases List.mem_cons.1 hy with rfl | hy
    · exact hp _ _ h
    · exact ih y hy

theorem circles_at {C : List Artist} (h : qubitArtists l m = C.map .ok) : AllAt l l.graph.nodes.keys ∧
    List.Forall₂ (fun q a => IsCircle l m q a ∧ layer a.shape = 2 ∧ a.zorder = 3) l.graph.nodes.keys C := by
  unfold qubitArtists at h
  rw [getQubits_empty] at h
  have hf := forall₂_of_map_ok (R := fun q a => IsCircle l m q a ∧ layer a.shape = 2 ∧ a.zorder = 3)
    (fun q a => circleOf_ok) h
  refine ⟨fun q hq => ?_, hf⟩
  obtain ⟨a, -, ⟨p, hp, -⟩, -⟩ := forall₂_exists_right hf hq
  exact ⟨p, hp⟩

/-- **C61** Whatever the layout, the drawing options stored in it and the flags: if `plot` returns, then it has added exactly
the picture of the layout and nothing else, and what was on the axes before is still there. -/
theorem C61_shows (h : plot as l m o ax = (.ok (), ax')) :
    ∃ qubits ancs new, l.getQubits [] = .ok qubits ∧
      (o.addPatches ∨ o.addConnections → l.getQubits [("role", .str "anc")] = .ok ancs) ∧
      ax'.artists = ax.artists ++ new ∧ Picture l m o qubits ancs new := by
  obtain ⟨C, P, L, T, xr, yr, e1, e2, e3, e4, e5, rfl⟩ := (plot_ok_iff as l m o ax ax').1 h
  obtain ⟨hall, hC⟩ := circles_at e1
  have hT : List.Forall₂ (fun q a => IsLabel l m o.labelFontsize q a ∧ layer a.shape = 3 ∧ a.zorder = 4)
      (if o.addLabels then l.graph.nodes.keys else []) T := by
    cases hf : o.addLabels
    · rw [hf] at e4
      have : T = [] := by simpa using e4.symm
      subst this
      exact List.Forall₂.nil
    · rw [hf] at e4
      unfold qubitLabels at e4
      rw [getQubits_empty] at e4
      exact forall₂_of_map_ok (fun q a => labelOf_ok) e4
  have hPL : ∃ ancs, (o.addPatches ∨ o.addConnections → l.getQubits [("role", .str "anc")] = .ok ancs) ∧
      List.Forall₂ (fun q a => IsPatch l m q a ∧ layer a.shape = 0 ∧ a.zorder = 1) (if o.addPatches then ancs else []) P ∧
      List.Forall₂ (fun pr a => IsLine l m pr a ∧ layer a.shape = 1 ∧ a.zorder = 2)
        (if o.addConnections then ancs.flatMap fun q => (l.getNeighbors [q] none).map fun q' => (q, q') else []) L := by
    have fP : ∀ ancs, l.getQubits [("role", .str "anc")] = .ok ancs → o.addPatches →
        List.Forall₂ (fun q a => IsPatch l m q a ∧ layer a.shape = 0 ∧ a.zorder = 1) ancs P := by
      intro ancs ha hf
      rw [if_pos hf] at e2
      unfold patchArtists at e2
      rw [ha] at e2
      exact forall₂_of_map_ok (fun q a => patchOf_ok hall) e2
    have fL : ∀ ancs, l.getQubits [("role", .str "anc")] = .ok ancs → o.addConnections →
        List.Forall₂ (fun pr a => IsLine l m pr a ∧ layer a.shape = 1 ∧ a.zorder = 2)
          (ancs.flatMap fun q => (l.getNeighbors [q] none).map fun q' => (q, q')) L := by
      intro ancs ha hf
      rw [if_pos hf] at e3
      unfold qubitConnections at e3
      rw [ha] at e3
      exact forall₂_flatMap (fun q L => linesOf_ok hall) e3
    have gP : ¬ o.addPatches → P = [] := fun hf => by
      rw [if_neg hf] at e2
      simpa using e2.symm
    have gL : ¬ o.addConnections → L = [] := fun hf => by
      rw [if_neg hf] at e3
      simpa using e3.symm
    cases ha : l.getQubits [("role", .str "anc")] with
    | error e =>
      have n1 : ¬ o.addPatches := fun hf => by
        rw [if_pos hf] at e2
        unfold patchArtists at e2
        rw [ha] at e2
        cases P <;> simp at e2
      have n2 : ¬ o.addConnections := fun hf => by
        rw [if_pos hf] at e3
        unfold qubitConnections at e3
        rw [ha] at e3
        cases L <;> simp at e3
      refine ⟨[], fun h => (h.elim n1 n2).elim, ?_, ?_⟩
      · rw [gP n1, if_neg n1]; exact List.Forall₂.nil
      · rw [gL n2, if_neg n2]; exact List.Forall₂.nil
    | ok ancs =>
      refine ⟨ancs, fun _ => rfl, ?_, ?_⟩
      · by_cases hf : o.addPatches
        · rw [if_pos hf]; exact fP ancs ha hf
        · rw [if_neg hf, gP hf]; exact List.Forall₂.nil
      · by_cases hf : o.addConnections
        · rw [if_pos hf]; exact fL ancs ha hf
        · rw [if_neg hf, gL hf]; exact List.Forall₂.nil
  obtain ⟨ancs, hanc, hP, hL⟩ := hPL
  have lC := forall₂_right hC (P := fun a => layer a.shape = 2) fun _ _ h => h.2.1
  have lT := forall₂_right hT (P := fun a => layer a.shape = 3) fun _ _ h => h.2.1
  have lP := forall₂_right hP (P := fun a => layer a.shape = 0) fun _ _ h => h.2.1
  have lL := forall₂_right hL (P := fun a => layer a.shape = 1) fun _ _ h => h.2.1
  have z : ∀ a ∈ C ++ P ++ L ++ T, a.zorder = layer a.shape + 1 := by
    intro a ha
    simp only [List.mem_append] at ha
    rcases ha with ((ha | ha) | ha) | ha
    · exact forall₂_right hC (P := fun a => a.zorder = layer a.shape + 1) (fun _ _ h => by rw [h.2.1, h.2.2]) a ha
    · exact forall₂_right hP (P := fun a => a.zorder = layer a.shape + 1) (fun _ _ h => by rw [h.2.1, h.2.2]) a ha
    · exact forall₂_right hL (P := fun a => a.zorder = layer a.shape + 1) (fun _ _ h => by rw [h.2.1, h.2.2]) a ha
    · exact forall₂_right hT (P := fun a => a.zorder = layer a.shape + 1) (fun _ _ h => by rw [h.2.1, h.2.2]) a ha
  have hfil : ∀ k, ((C ++ P ++ L ++ T).filter fun a => layer a.shape = k) =
      (if 2 = k then C else []) ++ (if 0 = k then P else []) ++ (if 1 = k then L else []) ++ (if 3 = k then T else []) := by
    intro k
    rw [List.filter_append, List.filter_append, List.filter_append, filter_of_layer lC, filter_of_layer lP, filter_of_layer lL,
      filter_of_layer lT]
  refine ⟨l.graph.nodes.keys, ancs, C ++ P ++ L ++ T, getQubits_empty l, hanc, rfl, ?_, ?_, ?_, ?_, ?_⟩
  · rw [hfil]
    simpa using hC.imp fun _ _ h => h.1
  · rw [hfil]
    simpa using hT.imp fun _ _ h => h.1
  · rw [hfil]
    simpa using hP.imp fun _ _ h => h.1
  · rw [hfil]
    simpa using hL.imp fun _ _ h => h.1
  · intro a ha b hb hab
    rw [z a ha, z b hb]
    omega

/-- **C61** If `plot` returns, then the limits of the axes leave `pad` around every qubit, and no more: each limit has a qubit at
this distance; the vertical axis points down exactly if the orientation of stim was asked for. -/
theorem C61_in_view (h : plot as l m o ax = (.ok (), ax')) (hpad : 0 ≤ o.pad) {qubits : List String} (hq : l.getQubits [] = .ok qubits) :
    (∀ q ∈ qubits, ∃ p, DrawnAt l q p ∧ ∀ r, -o.pad ≤ r → r ≤ o.pad → InView ax'.xlim (p.1 + r) ∧ InView ax'.ylim (p.2 + r)) ∧
      (∃ q ∈ qubits, ∃ p, DrawnAt l q p ∧ p.1 = min ax'.xlim.1 ax'.xlim.2 + o.pad) ∧
      (∃ q ∈ qubits, ∃ p, DrawnAt l q p ∧ p.1 = max ax'.xlim.1 ax'.xlim.2 - o.pad) ∧
      (∃ q ∈ qubits, ∃ p, DrawnAt l q p ∧ p.2 = min ax'.ylim.1 ax'.ylim.2 + o.pad) ∧
      (∃ q ∈ qubits, ∃ p, DrawnAt l q p ∧ p.2 = max ax'.ylim.1 ax'.ylim.2 - o.pad) ∧
      ax'.xlim.1 ≤ ax'.xlim.2 ∧
      (if o.stimOrientation then ax'.ylim.2 ≤ ax'.ylim.1 else ax'.ylim.1 ≤ ax'.ylim.2) ∧ ax'.aspect = "equal" := by
  obtain ⟨C, P, L, T, xr, yr, e1, -, -, -, e5, rfl⟩ := (plot_ok_iff as l m o ax ax').1 h
  obtain ⟨hall, -⟩ := circles_at e1
  rw [getQubits_empty, Except.ok.injEq] at hq
  subst hq
  have hne : l.graph.nodes.keys ≠ [] := by
    intro hc
    rw [getCoordRange_nil hc] at e5
    simp at e5
  obtain ⟨ps, h1, h2⟩ := getCoordRange_ok hall hne
  rw [h2] at e5
  simp only [Except.ok.injEq, Prod.mk.injEq] at e5
  obtain ⟨rfl, rfl⟩ := e5
  have hps : ps ≠ [] := by
    rintro rfl
    exact hne (by simpa using h1)
  obtain ⟨p0, hp0⟩ := List.exists_mem_of_ne_nil ps hps
  have key : ∀ p ∈ ps, minOf (ps.map Prod.fst) ≤ p.1 ∧ p.1 ≤ maxOf (ps.map Prod.fst) ∧
      minOf (ps.map Prod.snd) ≤ p.2 ∧ p.2 ≤ maxOf (ps.map Prod.snd) := fun p hp =>
    ⟨minOf_le (List.mem_map_of_mem hp), le_maxOf (List.mem_map_of_mem hp), minOf_le (List.mem_map_of_mem hp),
      le_maxOf (List.mem_map_of_mem hp)⟩
  have k0 := key p0 hp0
  have hx : minOf (ps.map Prod.fst) - o.pad ≤ maxOf (ps.map Prod.fst) + o.pad := by linarith
  have hy : minOf (ps.map Prod.snd) - o.pad ≤ maxOf (ps.map Prod.snd) + o.pad := by linarith
  have attained : ∀ (g : Rat × Rat → Rat) (v : Rat), v ∈ ps.map g → ∃ q ∈ l.graph.nodes.keys, ∃ p, DrawnAt l q p ∧ g p = v := by
    intro g v hv
    obtain ⟨p, hp, rfl⟩ := List.mem_map.1 hv
    obtain ⟨q, hq, hd⟩ := forall₂_exists_left h1 hp
    exact ⟨q, hq, p, hd, rfl⟩
  refine ⟨fun q hq => ?_, ?_, ?_, ?_, ?_, hx, ?_, rfl⟩
  · obtain ⟨p, hp, hd⟩ := forall₂_exists_right h1 hq
    have kp := key p hp
    refine ⟨p, hd, fun r r1 r2 => ⟨?_, ?_⟩⟩
    · simp only [InView, viewed, min_eq_left hx, max_eq_right hx]
      constructor <;> linarith
    · cases hs : o.stimOrientation
      · simp only [InView, viewed, hs, Bool.false_eq_true, if_false, min_eq_left hy, max_eq_right hy]
        constructor <;> linarith
      · simp only [InView, viewed, hs, if_true, min_eq_right hy, max_eq_left hy]
        constructor <;> linarith
  · obtain ⟨q, hq, p, hd, hv⟩ := attained Prod.fst _ (minOf_mem (by simpa using hps))
    exact ⟨q, hq, p, hd, by simp only [viewed, min_eq_left hx]; linarith⟩
  · obtain ⟨q, hq, p, hd, hv⟩ := attained Prod.fst _ (maxOf_mem (by simpa using hps))
    exact ⟨q, hq, p, hd, by simp only [viewed, max_eq_right hx]; linarith⟩
  · obtain ⟨q, hq, p, hd, hv⟩ := attained Prod.snd _ (minOf_mem (by simpa using hps))
    refine ⟨q, hq, p, hd, ?_⟩
    cases hs : o.stimOrientation
    · simp only [viewed, hs, Bool.false_eq_true, if_false, min_eq_left hy]; linarith
    · simp only [viewed, hs, if_true, min_eq_right hy]; linarith
  · obtain ⟨q, hq, p, hd, hv⟩ := attained Prod.snd _ (maxOf_mem (by simpa using hps))
    refine ⟨q, hq, p, hd, ?_⟩
    cases hs : o.stimOrientation
    · simp only [viewed, hs, Bool.false_eq_true, if_false, max_eq_right hy]; linarith
    · simp only [viewed, hs, if_true, max_eq_left hy]; linarith
  · cases hs : o.stimOrientation <;> simpa [viewed, hs] using hy

/-! ### when it returns -/

/-- No drawing options are stored in the layout. -/
def noMeta : Meta := fun _ => none

theorem param_of_mem {q key : String} (hq : q ∈ l.graph.nodes.keys) : ∃ v, l.param key q = .ok v := by
  obtain ⟨⟨q', d⟩, hm, rfl⟩ := List.mem_map.1 hq
  unfold Layout.param
  cases hg : l.graph.nodes.get? q' with
  | none =>
    have := (Dict.get?_eq_none_iff _ _).1 hg
    exact absurd (List.mem_map.2 ⟨_, hm, rfl⟩) this
  | some d' => exact ⟨_, rfl⟩

theorem anc_mem {ancs : List String} (h : l.getQubits [("role", .str "anc")] = .ok ancs) : ∀ q ∈ ancs, q ∈ l.graph.nodes.keys := by
  simp only [Layout.getQubits, List.isEmpty_cons, Bool.false_eq_true, if_false] at h
  revert h
  unfold Dict.keys
  generalize l.graph.nodes = nodes
  induction nodes generalizing ancs with
  | nil =>
    intro h
    simp only [Layout.filterNodes, Except.ok.injEq] at h
    subst h
    simp
  | cons n nodes ih =>
    obtain ⟨node, attrs⟩ := n
    intro h
    unfold Layout.filterNodes at h
    cases h1 : Layout.validAttrs attrs [("role", .str "anc")] with
    | error e => rw [h1] at h; simp at h
    | ok b =>
      rw [h1] at h
      simp only at h
      cases h2 : Layout.filterNodes [("role", .str "anc")] nodes with
      | error e => rw [h2] at h; simp at h
      | ok r =>
        rw [h2] at h
        simp only [Except.ok.injEq] at h
        subst h
        intro q hq
        cases b
        · simp only [Bool.false_eq_true, if_false] at hq
          exact List.mem_cons_of_mem _ (ih h2 q hq)
        · simp only [if_true] at hq
          rcases List.mem_cons.1 hq with rfl | hq
          · simp
          · exact List.mem_cons_of_mem _ (ih h2 q hq)

theorem withStyle_of {taken : List String} {style : Style} {a : Artist} (h : (style.keys.any fun k => taken.contains k) = false) :
    ∃ a', withStyle taken style a = .ok a' := by
  unfold withStyle
  rw [h]
  exact ⟨_, rfl⟩

theorem circle_error {q : String} {c : List Rat} (hq : q ∈ l.graph.nodes.keys) (hc : l.param "coords" q = .ok (.coords c)) :
    (∃ a, circleOf l noMeta q = .ok a ∧ c.length = 2) ∨ (circleOf l noMeta q = .error .valueError ∧ c.length ≠ 2) := by
  by_cases hl : c.length = 2
  · left
    obtain ⟨x, y, rfl⟩ : ∃ x y, c = [x, y] := by
      match c, hl with
      | [x, y], _ => exact ⟨x, y, rfl⟩
    have h2 : coords2 l q = .ok [x, y] := coords2_ok.2 ⟨(x, y), hc, rfl⟩
    obtain ⟨v, hv⟩ := param_of_mem (key := "role") hq
    obtain ⟨w, hw⟩ := param_of_mem (key := "stab_type") hq
    have hf : ∃ face, faceOf l q = .ok face := by
      unfold faceOf
      rw [hv]
      simp only
      split
      · exact ⟨_, rfl⟩
      · exact ⟨_, stabColor_of hw⟩
    obtain ⟨face, hf⟩ := hf
    have hs : ∃ a, circleOf l noMeta q = .ok a := by
      unfold circleOf
      rw [h2, hf]
      simp only [noMeta, custom]
      exact withStyle_of (by simp [Dict.keys])
    obtain ⟨a, hs⟩ := hs
    exact ⟨a, hs, rfl⟩
  · right
    refine ⟨?_, hl⟩
    unfold circleOf coords2
    rw [coordsParam_ok.2 hc]
    simp [hl]

theorem label_returns {q : String} {fs : Rat} {p : Rat × Rat} (hp : DrawnAt l q p) : ∃ a, labelOf l noMeta fs q = .ok a := by
  have h2 : coords2 l q = .ok [p.1, p.2] := coords2_ok.2 ⟨p, hp, rfl⟩
  unfold labelOf
  rw [h2]
  simp only [noMeta, custom, getLabel]
  exact withStyle_of (by simp [Dict.keys])

theorem lines_return {q : String} (hq : q ∈ l.graph.nodes.keys) (hall : AllAt l l.graph.nodes.keys)
    (hn : ∀ q' ∈ l.getNeighbors [q] none, q' ∈ l.graph.nodes.keys) : ∃ L : List Artist, linesOf l noMeta q = L.map .ok := by
  obtain ⟨p, hp⟩ := hall q hq
  have h2 : coords2 l q = .ok (asList p) := coords2_ok.2 ⟨p, hp, rfl⟩
  obtain ⟨w, hw⟩ := param_of_mem (key := "stab_type") hq
  have hcol : stabColor l q blue red green = .ok _ := stabColor_of hw
  unfold linesOf
  rw [h2, hcol]
  simp only
  revert hn
  generalize l.getNeighbors [q] none = nbrs
  induction nbrs with
  | nil => exact fun _ => ⟨[], rfl⟩
  | cons q' nbrs ih =>
    intro hn
    obtain ⟨L, hL⟩ := ih fun q hq => hn q (by simp [hq])
    obtain ⟨p', hp'⟩ := hall q' (hn q' (by simp))
    have hc := columns_points (ps := [p, p']) (by simp)
    simp only [List.map_cons, List.map_nil] at hc
    rw [List.map_cons, hL, coordsParam_ok.2 hp']
    simp only [getLine, hc, noMeta, custom]
    obtain ⟨a, hs⟩ := withStyle_of (taken := ["coordinates", "xdata", "ydata", "zorder"])
      (style := [("linestyle", .str "--"), ("color", .str (paint l q "#377eb8ff" "#e41a1cff" "#4daf4aff"))])
      (a := ⟨.line [p.1, p'.1] [p.2, p'.2], zLine, []⟩) (by simp [Dict.keys])
    exact ⟨a :: L, by rw [List.map_cons, ← hs]⟩

theorem patch_returns {q : String} (hq : q ∈ l.graph.nodes.keys) (hall : AllAt l l.graph.nodes.keys)
    (hn : ∀ q' ∈ l.getNeighbors [q] none, q' ∈ l.graph.nodes.keys) :
    (l.getNeighbors [q] none ≠ [] ∧ ∃ a, patchOf as l noMeta q = .ok a) ∨
    (l.getNeighbors [q] none = [] ∧ patchOf as l noMeta q = .error .valueError) := by
  obtain ⟨p, hp⟩ := hall q hq
  have h2 : coords2 l q = .ok (asList p) := coords2_ok.2 ⟨p, hp, rfl⟩
  obtain ⟨w, hw⟩ := param_of_mem (key := "stab_type") hq
  have hcol : stabColor l q blueLight redLight greenLight = .ok _ := stabColor_of hw
  have hm : ∀ qs : List String, (∀ q' ∈ qs, q' ∈ l.graph.nodes.keys) →
      ∃ ps : List (Rat × Rat), ps.length = qs.length ∧ mapExcept qs (coordsParam l) = .ok (ps.map asList) := by
    intro qs
    induction qs with
    | nil => exact fun _ => ⟨[], rfl, rfl⟩
    | cons q qs ih =>
      intro h
      obtain ⟨p, hp⟩ := hall q (h q (by simp))
      obtain ⟨ps, h1, h2⟩ := ih fun q hq => h q (by simp [hq])
      refine ⟨p :: ps, by simp [h1], ?_⟩
      unfold mapExcept
      rw [coordsParam_ok.2 hp, h2]
      rfl
  obtain ⟨ps, hlen, hps⟩ := hm _ hn
  by_cases hne : l.getNeighbors [q] none = []
  · right
    refine ⟨hne, ?_⟩
    unfold patchOf
    rw [h2, hne]
    simp [mapExcept, clockwiseSort, columns_nil]
  · left
    refine ⟨hne, ?_⟩
    unfold patchOf
    rw [h2]
    simp only [hps]
    have e : (if (l.getNeighbors [q] none).length = 2 then ps.map asList ++ [asList p] else ps.map asList)
        = (if ps.length = 2 then ps ++ [p] else ps).map asList := by
      rw [hlen]
      split <;> simp
    have hne' : (if ps.length = 2 then ps ++ [p] else ps) ≠ [] := by
      split
      · simp
      · intro hc
        rw [hc] at hlen
        exact hne (List.eq_nil_of_length_eq_zero hlen.symm)
    obtain ⟨u, h3, -, -⟩ := clockwiseSort_polygon as hne'
    rw [e, h3, hcol]
    simp only [noMeta, custom]
    exact withStyle_of (by simp [Dict.keys])

theorem addArtists_error {gen : List (Except Err Artist)} : ∀ {ax ax' : Axes} {e : Err}, addArtists gen ax = (.error e, ax') →
    Except.error e ∈ gen := by
  induction gen with
  | nil => intro ax ax' e h; simp [addArtists, pure, PyM.pure] at h
  | cons g gen ih =>
    intro ax ax' e h
    cases g with
    | error e' =>
      simp only [addArtists, PyM.raise, Prod.mk.injEq, Except.error.injEq] at h
      simp [h.1]
    | ok a => exact List.mem_cons_of_mem _ (ih h)

/-- All elements are results. -/
theorem map_ok_of {gen : List (Except Err Artist)} (h : ∀ g ∈ gen, ∃ a, g = .ok a) : ∃ L : List Artist, gen = L.map .ok := by
  induction gen with
  | nil => exact ⟨[], rfl⟩
  | cons g gen ih =>
    obtain ⟨a, rfl⟩ := h g (by simp)
    obtain ⟨L, rfl⟩ := ih fun g hg => h g (by simp [hg])
    exact ⟨a :: L, rfl⟩

theorem flatMap_ok_of {xs : List String} {f : String → List (Except Err Artist)} (h : ∀ x ∈ xs, ∃ L : List Artist, f x = L.map .ok) :
    ∃ L : List Artist, xs.flatMap f = L.map .ok := by
  refine map_ok_of fun g hg => ?_
  obtain ⟨x, hx, hg⟩ := List.mem_flatMap.1 hg
  obtain ⟨L, hL⟩ := h x hx
  rw [hL] at hg
  obtain ⟨a, -, rfl⟩ := List.mem_map.1 hg
  exact ⟨a, rfl⟩

/-- **C61** A layout whose qubits have numeric coordinates and no drawing options of their own: `plot` returns exactly if there
is a qubit, all coordinates are two-dimensional, and, if patches are drawn, every ancilla has a neighbour.  Otherwise it
raises `ValueError`. -/
theorem C61_returns (hr : Reachable l) {qubits ancs : List String} (hq : l.getQubits [] = .ok qubits)
    (ha : l.getQubits [("role", .str "anc")] = .ok ancs) (hc : ∀ q ∈ qubits, ∃ c, l.param "coords" q = .ok (.coords c)) :
    (qubits ≠ [] ∧ (∀ q ∈ qubits, ∃ p, DrawnAt l q p) ∧ (o.addPatches → ∀ q ∈ ancs, l.getNeighbors [q] none ≠ []) ∧
      ∃ ax', plot as l noMeta o ax = (.ok (), ax')) ∨
    (¬ (qubits ≠ [] ∧ (∀ q ∈ qubits, ∃ p, DrawnAt l q p) ∧ (o.addPatches → ∀ q ∈ ancs, l.getNeighbors [q] none ≠ [])) ∧
      ∃ ax', plot as l noMeta o ax = (.error .valueError, ax')) := by
  rw [getQubits_empty, Except.ok.injEq] at hq
  subst hq
  have hinv := Layout.inv_of_reachable hr
  have hn : ∀ q, ∀ q' ∈ l.getNeighbors [q] none, q' ∈ l.graph.nodes.keys := fun q q' h =>
    succs_sub hinv ((mem_nbrs hinv).1 h)
  have hanc := anc_mem ha
  by_cases hall : AllAt l l.graph.nodes.keys
  · -- the circles are drawn
    have hC : ∃ C : List Artist, qubitArtists l noMeta = C.map .ok := by
      unfold qubitArtists
      rw [getQubits_empty]
      refine map_ok_of fun g hg => ?_
      obtain ⟨q, hq, rfl⟩ := List.mem_map.1 hg
      obtain ⟨p, hp⟩ := hall q hq
      rcases circle_error hq hp with ⟨a, h, -⟩ | ⟨-, h⟩
      · exact ⟨a, h⟩
      · simp [asList] at h
    obtain ⟨C, hC⟩ := hC
    by_cases hP : o.addPatches → ∀ q ∈ ancs, l.getNeighbors [q] none ≠ []
    · have hP' : ∃ P : List Artist, (if o.addPatches then patchArtists as l noMeta else []) = P.map .ok := by
        by_cases hf : o.addPatches
        · rw [if_pos hf]
          unfold patchArtists
          rw [ha]
          refine map_ok_of fun g hg => ?_
          obtain ⟨q, hq, rfl⟩ := List.mem_map.1 hg
          rcases patch_returns (as := as) (hanc q hq) hall (hn q) with ⟨-, h⟩ | ⟨h, -⟩
          · exact h
          · exact absurd h (hP hf q hq)
        · rw [if_neg hf]; exact ⟨[], rfl⟩
      have hL' : ∃ L : List Artist, (if o.addConnections then qubitConnections l noMeta else []) = L.map .ok := by
        by_cases hf : o.addConnections
        · rw [if_pos hf]
          unfold qubitConnections
          rw [ha]
          exact flatMap_ok_of fun q hq => lines_return (hanc q hq) hall (hn q)
        · rw [if_neg hf]; exact ⟨[], rfl⟩
      have hT' : ∃ T : List Artist, (if o.addLabels then qubitLabels l noMeta o.labelFontsize else []) = T.map .ok := by
        by_cases hf : o.addLabels
        · rw [if_pos hf]
          unfold qubitLabels
          rw [getQubits_empty]
          refine map_ok_of fun g hg => ?_
          obtain ⟨q, hq, rfl⟩ := List.mem_map.1 hg
          obtain ⟨p, hp⟩ := hall q hq
          exact label_returns hp
        · rw [if_neg hf]; exact ⟨[], rfl⟩
      obtain ⟨P, hP'⟩ := hP'
      obtain ⟨L, hL'⟩ := hL'
      obtain ⟨T, hT'⟩ := hT'
      by_cases hne : l.graph.nodes.keys = []
      · refine Or.inr ⟨fun h => h.1 hne, ?_⟩
        rw [plot_eq, PyM.bind_ok (by rw [hC]; exact addArtists_ok C ax), PyM.bind_ok (addIf_ok hP' _), PyM.bind_ok (addIf_ok hL' _),
          PyM.bind_ok (addIf_ok hT' _)]
        unfold setView
        rw [getCoordRange_nil hne]
        exact ⟨_, rfl⟩
      · obtain ⟨ps, -, h2⟩ := getCoordRange_ok hall hne
        exact Or.inl ⟨hne, hall, hP, _, (plot_ok_iff as l noMeta o ax _).2 ⟨C, P, L, T, _, _, hC, hP', hL', hT', h2, rfl⟩⟩
    · refine Or.inr ⟨fun h => hP h.2.2, ?_⟩
      push Not at hP
      obtain ⟨hf, q, hq, hqn⟩ := hP
      rw [plot_eq, PyM.bind_ok (by rw [hC]; exact addArtists_ok C ax), if_pos hf]
      cases hx : addArtists (patchArtists as l noMeta) { ax with artists := ax.artists ++ C } with
      | mk r s =>
        cases r with
        | ok u =>
          obtain ⟨P, hP, -⟩ := addArtists_eq hx
          unfold patchArtists at hP
          rw [ha] at hP
          obtain ⟨a, -, h⟩ := forall₂_exists_right (forall₂_of_map_ok (R := fun q a => patchOf as l noMeta q = .ok a) (fun _ _ h => h) hP) hq
          rcases patch_returns (as := as) (hanc q hq) hall (hn q) with ⟨h', -⟩ | ⟨-, h'⟩
          · exact absurd hqn h'
          · rw [h'] at h; simp at h
        | error e =>
          have hm := addArtists_error hx
          unfold patchArtists at hm
          rw [ha] at hm
          obtain ⟨q', hq', he⟩ := List.mem_map.1 hm
          refine ⟨s, ?_⟩
          rw [PyM.bind_error hx]
          rcases patch_returns (as := as) (hanc q' hq') hall (hn q') with ⟨-, a, h'⟩ | ⟨-, h'⟩
          · rw [h'] at he; simp at he
          · rw [h'] at he
            simp only [Except.error.injEq] at he
            rw [← he]
  · refine Or.inr ⟨fun h => hall h.2.1, ?_⟩
    rw [plot_eq]
    cases hx : addArtists (qubitArtists l noMeta) ax with
    | mk r s =>
      cases r with
      | ok u =>
        obtain ⟨C, hC, -⟩ := addArtists_eq hx
        exact absurd (circles_at hC).1 hall
      | error e =>
        have hm := addArtists_error hx
        unfold qubitArtists at hm
        rw [getQubits_empty] at hm
        obtain ⟨q, hq, he⟩ := List.mem_map.1 hm
        refine ⟨s, ?_⟩
        rw [PyM.bind_error hx]
        obtain ⟨c, hc⟩ := hc q hq
        rcases circle_error hq hc with ⟨a, h, -⟩ | ⟨h, -⟩
        · rw [h] at he; simp at he
        · rw [h] at he
          simp only [Except.error.injEq] at he
          rw [← he]

end SurfaceSim.Props
