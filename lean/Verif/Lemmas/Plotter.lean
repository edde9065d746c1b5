/-
What drawing a layout adds to the axes.
-/
import Verif.Lemmas.Clockwise
import Verif.Lemmas.LayoutUtil

namespace SurfaceSim
open Spec Plotter Spec.ClockwisePolygon

theorem width_points : ∀ {ps : List (Rat × Rat)}, ps ≠ [] → width (ps.map asList) = 2
  | [], h => absurd rfl h
  | [p], _ => rfl
  | p :: q :: ps, _ => by
    have := width_points (ps := q :: ps) (by simp)
    rw [List.map_cons] at this
    simp only [List.map_cons, width, asList, List.length_cons, List.length_nil] at this ⊢
    rw [this]
    rfl

theorem columns_points {ps : List (Rat × Rat)} (h : ps ≠ []) :
    columns (ps.map asList) = .ok (ps.map Prod.fst, ps.map Prod.snd) := by
  unfold columns
  rw [if_pos (width_points h), List.map_map, List.map_map]
  rfl

theorem columns_nil : columns [] = .error .valueError := rfl

theorem zipWith_map_both {α β γ δ : Type} (f : β → γ → δ) (g : α → β) (h : α → γ) : ∀ xs : List α,
    List.zipWith f (xs.map g) (xs.map h) = xs.map fun x => f (g x) (h x)
  | [] => rfl
  | x :: xs => by simp [zipWith_map_both f g h xs]

theorem map_getD_range {α : Type} (d : α) : ∀ xs : List α, (List.range xs.length).map (fun i => xs.getD i d) = xs
  | [] => rfl
  | x :: xs => by
    rw [List.length_cons, List.range_succ_eq_map, List.map_cons, List.map_map]
    have := map_getD_range d xs
    simp only [Function.comp_def, List.getD_cons_succ, List.getD_cons_zero]
    rw [this]

theorem clockwiseSort_points (as : ArgSort) {ps : List (Rat × Rat)} (h : ps ≠ []) :
    ∃ u : List (Rat × Rat), clockwiseSort as (ps.map asList) = .ok (u.map asList) ∧ u.Perm ps ∧
      u.Pairwise fun p q => about (center ps) p ≤ about (center ps) q := by
  unfold clockwiseSort
  rw [columns_points h]
  simp only [List.map_map]
  rw [zipWith_map_both]
  set keys := ps.map fun x => angle (((fun x => x - mean (ps.map Prod.fst)) ∘ Prod.fst) x) (((fun y => y - mean (ps.map Prod.snd)) ∘ Prod.snd) x) with hk
  have hlen : keys.length = ps.length := by simp [hk]
  have hp := as.perm keys
  have hs := as.sorted keys
  rw [hlen] at hp
  have hlt : ∀ i ∈ as.sort keys, i < ps.length := fun i hi => List.mem_range.1 (hp.mem_iff.1 hi)
  refine ⟨(as.sort keys).map fun i => ps.getD i (0, 0), ?_, ?_, ?_⟩
  · rw [List.map_map]
    congr 1
    apply List.map_congr_left
    intro i hi
    have := hlt i hi
    simp [this]
  · have := hp.map fun i => ps.getD i (0, 0)
    rwa [map_getD_range] at this
  · rw [List.pairwise_map]
    refine hs.imp_of_mem fun {i j} hi hj hij => ?_
    have h1 := hlt i hi
    have h2 := hlt j hj
    simpa [hk, h1, h2, about, center] using hij

theorem clockwiseSort_polygon (as : ArgSort) {ps : List (Rat × Rat)} (h : ps ≠ []) :
    ∃ u : List (Rat × Rat), clockwiseSort as (ps.map asList) = .ok (u.map asList) ∧ u.Perm ps ∧
      ((∃ t, t.Perm u ∧ ClockwisePolygon t) → ClockwisePolygon u) := by
  obtain ⟨u, h1, h2, h3⟩ := clockwiseSort_points as h
  refine ⟨u, h1, h2, ?_⟩
  rintro ⟨t, h4, h5⟩
  refine h5.of_sorted h4.symm ?_
  rw [center_perm (h4.trans h2)]
  exact h3

theorem asList_inj {p q : Rat × Rat} (h : asList p = asList q) : p = q := by
  simp only [asList, List.cons.injEq, and_true] at h
  exact Prod.ext h.1 h.2

theorem addArtists_ok (as : List Artist) : ∀ ax, addArtists (as.map .ok) ax = (.ok (), { ax with artists := ax.artists ++ as }) := by
  induction as with
  | nil => intro ax; simp [addArtists, pure, PyM.pure]
  | cons a as ih => intro ax; simp [addArtists, ih]

theorem addArtists_eq {gen : List (Except Err Artist)} : ∀ {ax ax' : Axes}, addArtists gen ax = (.ok (), ax') →
    ∃ as, gen = as.map .ok ∧ ax' = { ax with artists := ax.artists ++ as } := by
  induction gen with
  | nil =>
    intro ax ax' h
    simp only [addArtists, pure, PyM.pure, Prod.mk.injEq, true_and] at h
    exact ⟨[], rfl, by simp [h]⟩
  | cons g gen ih =>
    intro ax ax' h
    cases g with
    | error e => simp [addArtists, PyM.raise] at h
    | ok a =>
      obtain ⟨as, h1, h2⟩ := ih h
      exact ⟨a :: as, by simp [h1], by simp [h2]⟩

/-- `if b: for artist in gen: ax.add_artist(artist)`. -/
theorem addIf_eq {b : Bool} {gen : List (Except Err Artist)} {ax ax' : Axes}
    (h : (if b then addArtists gen else pure ()) ax = (.ok (), ax')) :
    ∃ as, (if b then gen else []) = as.map .ok ∧ ax' = { ax with artists := ax.artists ++ as } := by
  cases b
  · have : ax = ax' := by simpa [pure, PyM.pure] using h
    exact ⟨[], rfl, by simp [this]⟩
  · exact addArtists_eq h

theorem addIf_ok {b : Bool} {gen : List (Except Err Artist)} {as : List Artist} (h : (if b then gen else []) = as.map .ok) (ax : Axes) :
    (if b then addArtists gen else pure ()) ax = (.ok (), { ax with artists := ax.artists ++ as }) := by
  cases b
  · simp only [Bool.false_eq_true, if_false] at h
    have : as = [] := by simpa using h.symm
    simp [this, pure, PyM.pure]
  · simp only [if_true] at h
    simp only [if_true]
    rw [h, addArtists_ok]

theorem plot_eq (as : ArgSort) (l : Layout) (m : Meta) (o : Options) : plot as l m o =
    (addArtists (qubitArtists l m) >>= fun _ =>
    (if o.addPatches then addArtists (patchArtists as l m) else pure ()) >>= fun _ =>
    (if o.addConnections then addArtists (qubitConnections l m) else pure ()) >>= fun _ =>
    (if o.addLabels then addArtists (qubitLabels l m o.labelFontsize) else pure ()) >>= fun _ => setView l o) := by
  unfold plot
  cases o.addPatches <;> cases o.addConnections <;> cases o.addLabels <;> rfl

/-- The axes after the limits are set. -/
def viewed (o : Options) (xr yr : Rat × Rat) (ax : Axes) : Axes := { ax with
  xlim := (xr.1 - o.pad, xr.2 + o.pad)
  ylim := if o.stimOrientation then (yr.2 + o.pad, yr.1 - o.pad) else (yr.1 - o.pad, yr.2 + o.pad)
  xlabel := "$x$ coordinate"
  ylabel := "$y$ coordinate"
  aspect := "equal" }

theorem plot_ok_iff (as : ArgSort) (l : Layout) (m : Meta) (o : Options) (ax ax' : Axes) :
    plot as l m o ax = (.ok (), ax') ↔ ∃ C P L T xr yr, qubitArtists l m = C.map .ok ∧
      (if o.addPatches then patchArtists as l m else []) = P.map .ok ∧
      (if o.addConnections then qubitConnections l m else []) = L.map .ok ∧
      (if o.addLabels then qubitLabels l m o.labelFontsize else []) = T.map .ok ∧
      getCoordRange l = .ok (xr, yr) ∧
      ax' = viewed o xr yr { ax with artists := ax.artists ++ (C ++ P ++ L ++ T) } := by
  rw [plot_eq]
  constructor
  · intro h
    obtain ⟨_, x1, h1, h⟩ := PyM.bind_eq_ok h
    obtain ⟨_, x2, h2, h⟩ := PyM.bind_eq_ok h
    obtain ⟨_, x3, h3, h⟩ := PyM.bind_eq_ok h
    obtain ⟨_, x4, h4, h⟩ := PyM.bind_eq_ok h
    obtain ⟨C, e1, rfl⟩ := addArtists_eq h1
    obtain ⟨P, e2, rfl⟩ := addIf_eq h2
    obtain ⟨L, e3, rfl⟩ := addIf_eq h3
    obtain ⟨T, e4, rfl⟩ := addIf_eq h4
    unfold setView at h
    cases hr : getCoordRange l with
    | error e => rw [hr] at h; simp at h
    | ok r =>
      obtain ⟨xr, yr⟩ := r
      rw [hr] at h
      simp only [Prod.mk.injEq, true_and] at h
      exact ⟨C, P, L, T, xr, yr, e1, e2, e3, e4, rfl, by rw [← h]; simp [viewed]⟩
  · rintro ⟨C, P, L, T, xr, yr, e1, e2, e3, e4, e5, rfl⟩
    rw [PyM.bind_ok (by rw [e1]; exact addArtists_ok C ax), PyM.bind_ok (addIf_ok e2 _), PyM.bind_ok (addIf_ok e3 _),
      PyM.bind_ok (addIf_ok e4 _)]
    unfold setView
    rw [e5]
    simp [viewed]

/-! ### single artists -/

variable {l : Layout} {m : Meta}

theorem coordsParam_ok {q : String} {c : List Rat} : coordsParam l q = .ok c ↔ l.param "coords" q = .ok (.coords c) := by
  unfold coordsParam
  cases h : l.param "coords" q with
  | error e => simp
  | ok v =>
    cases v <;> simp [Layout.asCoords]

theorem coords2_ok {q : String} {c : List Rat} : coords2 l q = .ok c ↔ ∃ p, DrawnAt l q p ∧ c = asList p := by
  unfold coords2
  constructor
  · intro h
    cases hc : coordsParam l q with
    | error e => rw [hc] at h; simp at h
    | ok c' =>
      rw [hc] at h
      simp only at h
      split at h
      · simp at h
      · rename_i hl
        simp only [Except.ok.injEq] at h
        subst h
        match c', hl, hc with
        | [x, y], _, hc => exact ⟨(x, y), coordsParam_ok.1 hc, rfl⟩
        | [], hl, _ => simp at hl
        | [x], hl, _ => simp at hl
        | x :: y :: z :: t, hl, _ => simp at hl
  · rintro ⟨p, h, rfl⟩
    rw [coordsParam_ok.2 h]
    simp [asList]

theorem stabColor_ok {q z x other : String} {v : OptVal} (h : stabColor l q (.str z) (.str x) (.str other) = .ok v) :
    v = .str (paint l q z x other) := by
  unfold stabColor at h
  unfold paint
  cases hp : l.param "stab_type" q with
  | error e => rw [hp] at h; simp at h
  | ok w =>
    rw [hp] at h
    simp only [Except.ok.injEq] at h
    subst h
    simp only [Except.ok.injEq]
    split <;> [rfl; (split <;> rfl)]

theorem stabColor_of {q : String} {z x other : String} {w : Val} (h : l.param "stab_type" q = .ok w) :
    stabColor l q (.str z) (.str x) (.str other) = .ok (.str (paint l q z x other)) := by
  cases hs : stabColor l q (.str z) (.str x) (.str other) with
  | error e => unfold stabColor at hs; rw [h] at hs; simp at hs
  | ok v => rw [stabColor_ok hs]

theorem withStyle_ok {taken : List String} {style : Style} {a a' : Artist} (h : withStyle taken style a = .ok a') :
    a' = { a with style := style } := by
  unfold withStyle at h
  split at h
  · simp at h
  · simp only [Except.ok.injEq] at h
    exact h.symm

theorem get?_update_last (d e : Style) (k : String) : Dict.get? (Dict.update d e) k = (Dict.get? (List.reverse e) k).or (d.get? k) := by
  unfold Dict.update
  induction e generalizing d with
  | nil => simp
  | cons kv e ih =>
    obtain ⟨a, b⟩ := kv
    rw [List.foldl_cons, ih, Dict.get?_set, List.reverse_cons, Dict.get?_append]
    by_cases h : a = k <;> cases Dict.get? (List.reverse e) k <;> simp [h]

theorem custom_styled (q kind : String) (style : Style) (k : String) : Styled m q kind (custom m q kind style) style k := by
  unfold Styled custom stored
  cases m q with
  | none => simp
  | some d =>
    simp only [Option.bind_some]
    rw [get?_update_last]
    cases d.get? kind <;> simp

theorem custom_none {q kind : String} {style : Style} (h : m q = none) : custom m q kind style = style := by
  unfold custom
  rw [h]

theorem circleOf_ok {q : String} {a : Artist} (h : circleOf l m q = .ok a) : IsCircle l m q a ∧ layer a.shape = 2 ∧ a.zorder = 3 := by
  unfold circleOf at h
  cases h1 : coords2 l q with
  | error e => rw [h1] at h; simp at h
  | ok c =>
    obtain ⟨p, hp, rfl⟩ := coords2_ok.1 h1
    rw [h1] at h
    simp only at h
    cases h2 : faceOf l q with
    | error e => rw [h2] at h; simp at h
    | ok face =>
      rw [h2] at h
      simp only at h
      have hf : face = .str (if l.param "role" q = .ok (.str "data") then "white" else paint l q "#377eb8ff" "#e41a1cff" "#4daf4aff") := by
        unfold faceOf at h2
        cases h4 : l.param "role" q with
        | error e => rw [h4] at h2; simp at h2
        | ok v =>
          rw [h4] at h2
          simp only at h2
          split at h2
          · rename_i hv
            subst hv
            simp only [Except.ok.injEq] at h2
            simp [← h2]
          · rename_i hv
            rw [if_neg (by simpa using hv)]
            exact stabColor_ok h2
      have hst := custom_styled (m := m) q "circle" [("edgecolor", .str "black"), ("facecolor", face)]
      cases h3 : m q with
      | none =>
        rw [h3] at h
        simp only at h
        have := withStyle_ok h
        subst this
        refine ⟨⟨p, hp, ?_, fun k _ => ?_⟩, rfl, rfl⟩
        · simp [stored, h3]
        · rw [← hf]
          exact hst k
      | some d =>
        rw [h3] at h
        simp only at h
        have := withStyle_ok h
        subst this
        refine ⟨⟨p, hp, ?_, fun k hk => ?_⟩, rfl, rfl⟩
        · have := hst "radius"
          unfold Styled at this
          simp only [this]
          simp [Dict.get?]
        · rw [← hf]
          unfold Styled
          rw [← hst k]
          exact Dict.get?_erase_ne _ (Ne.symm hk)

theorem labelOf_ok {q : String} {fs : Rat} {a : Artist} (h : labelOf l m fs q = .ok a) :
    IsLabel l m fs q a ∧ layer a.shape = 3 ∧ a.zorder = 4 := by
  unfold labelOf at h
  cases h1 : coords2 l q with
  | error e => rw [h1] at h; simp at h
  | ok c =>
    obtain ⟨p, hp, rfl⟩ := coords2_ok.1 h1
    rw [h1] at h
    simp only [getLabel, asList] at h
    have := withStyle_ok h
    subst this
    exact ⟨⟨p, hp, rfl, fun k => custom_styled q "text" _ k⟩, rfl, rfl⟩

/-- Every qubit of the layout has a place in the plane. -/
def AllAt (l : Layout) (qubits : List String) : Prop := ∀ q ∈ qubits, ∃ p, DrawnAt l q p

theorem at_of_param {q : String} {c : List Rat} (hall : AllAt l l.graph.nodes.keys) (h : coordsParam l q = .ok c) :
    ∃ p, DrawnAt l q p ∧ c = asList p := by
  have h' := coordsParam_ok.1 h
  have hq : q ∈ l.graph.nodes.keys := by
    unfold Layout.param at h'
    cases hg : l.graph.nodes.get? q with
    | none => rw [hg] at h'; simp at h'
    | some v => exact List.mem_map.2 ⟨_, Dict.mem_of_get? hg, rfl⟩
  obtain ⟨p, hp⟩ := hall q hq
  have := hp
  unfold DrawnAt at this
  rw [h'] at this
  simp only [Except.ok.injEq, Val.coords.injEq] at this
  exact ⟨p, hp, this⟩

theorem linesOf_ok {q : String} {L : List Artist} (hall : AllAt l l.graph.nodes.keys) (h : linesOf l m q = L.map .ok) :
    List.Forall₂ (fun pr a => IsLine l m pr a ∧ layer a.shape = 1 ∧ a.zorder = 2) ((l.getNeighbors [q] none).map fun q' => (q, q')) L := by
  unfold linesOf at h
  cases h1 : coords2 l q with
  | error e =>
    rw [h1] at h
    simp only at h
    cases L <;> simp at h
  | ok c =>
    obtain ⟨p, hp, rfl⟩ := coords2_ok.1 h1
    rw [h1] at h
    simp only at h
    cases h2 : stabColor l q blue red green with
    | error e =>
      rw [h2] at h
      simp only at h
      cases L <;> simp at h
    | ok color =>
      rw [h2] at h
      simp only at h
      have hcol := stabColor_ok h2
      generalize l.getNeighbors [q] none = nbrs at h ⊢
      induction nbrs generalizing L with
      | nil =>
        cases L with
        | nil => exact List.Forall₂.nil
        | cons a L => simp at h
      | cons q' nbrs ih =>
        cases L with
        | nil => simp at h
        | cons a L =>
          simp only [List.map_cons, List.cons.injEq] at h
          obtain ⟨ha, hr⟩ := h
          refine List.Forall₂.cons ?_ (ih hr)
          cases h3 : coordsParam l q' with
          | error e => rw [h3] at ha; simp at ha
          | ok c' =>
            obtain ⟨p', hp', rfl⟩ := at_of_param hall h3
            rw [h3] at ha
            simp only [getLine] at ha
            have hc := columns_points (ps := [p, p']) (by simp)
            simp only [List.map_cons, List.map_nil] at hc
            rw [hc] at ha
            have := withStyle_ok ha
            subst this
            refine ⟨⟨p, p', hp, hp', rfl, fun k => ?_⟩, rfl, rfl⟩
            rw [← hcol]
            exact custom_styled q "line" _ k

theorem mapExcept_at (hall : AllAt l l.graph.nodes.keys) {qs : List String} {cs : List (List Rat)}
    (h : mapExcept qs (coordsParam l) = .ok cs) : ∃ ps, List.Forall₂ (DrawnAt l) qs ps ∧ cs = ps.map asList := by
  induction qs generalizing cs with
  | nil =>
    simp only [mapExcept, Except.ok.injEq] at h
    exact ⟨[], List.Forall₂.nil, h.symm⟩
  | cons q qs ih =>
    unfold mapExcept at h
    cases h1 : coordsParam l q with
    | error e => rw [h1] at h; simp at h
    | ok c =>
      rw [h1] at h
      simp only at h
      cases h2 : mapExcept qs (coordsParam l) with
      | error e => rw [h2] at h; simp at h
      | ok cs' =>
        rw [h2] at h
        simp only [Except.ok.injEq] at h
        obtain ⟨p, hp, rfl⟩ := at_of_param hall h1
        obtain ⟨ps, hps, rfl⟩ := ih h2
        exact ⟨p :: ps, List.Forall₂.cons hp hps, by simp [← h]⟩

theorem patchOf_ok {as : ArgSort} {q : String} {a : Artist} (hall : AllAt l l.graph.nodes.keys) (h : patchOf as l m q = .ok a) :
    IsPatch l m q a ∧ layer a.shape = 0 ∧ a.zorder = 1 := by
  unfold patchOf at h
  cases h1 : coords2 l q with
  | error e => rw [h1] at h; simp at h
  | ok c =>
    obtain ⟨p, hp, rfl⟩ := coords2_ok.1 h1
    rw [h1] at h
    simp only at h
    cases h2 : mapExcept (l.getNeighbors [q] none) (coordsParam l) with
    | error e => rw [h2] at h; simp at h
    | ok cs =>
      obtain ⟨ps, hps, rfl⟩ := mapExcept_at hall h2
      rw [h2] at h
      simp only at h
      have e : (if (l.getNeighbors [q] none).length = 2 then ps.map asList ++ [asList p] else ps.map asList)
          = (if ps.length = 2 then ps ++ [p] else ps).map asList := by
        rw [hps.length_eq]
        split <;> simp
      rw [e] at h
      have hne : (if ps.length = 2 then ps ++ [p] else ps) ≠ [] := by
        intro hc
        rw [hc] at h
        simp [clockwiseSort, columns_nil] at h
      obtain ⟨u, h3, h4, h5⟩ := clockwiseSort_polygon as hne
      rw [h3] at h
      simp only at h
      cases h6 : stabColor l q blueLight redLight greenLight with
      | error e => rw [h6] at h; simp at h
      | ok color =>
        rw [h6] at h
        simp only at h
        have := withStyle_ok h
        subst this
        refine ⟨⟨p, ps, u, hp, hps, rfl, h4, h5, fun k => ?_⟩, rfl, rfl⟩
        rw [← stabColor_ok h6]
        exact custom_styled q "patch" _ k

theorem forall₂_of_map_ok {α : Type} {f : α → Except Err Artist} {R : α → Artist → Prop} (h : ∀ x a, f x = .ok a → R x a) :
    ∀ {xs : List α} {as : List Artist}, xs.map f = as.map .ok → List.Forall₂ R xs as
  | [], [], _ => List.Forall₂.nil
  | [], _ :: _, he => by simp at he
  | _ :: _, [], he => by simp at he
  | x :: xs, a :: as, he => by
    simp only [List.map_cons, List.cons.injEq] at he
    exact List.Forall₂.cons (h x a he.1) (forall₂_of_map_ok h he.2)

theorem forall₂_flatMap {α β : Type} {f : α → List (Except Err Artist)} {g : α → List β} {R : β → Artist → Prop}
    (h : ∀ x as, f x = as.map .ok → List.Forall₂ R (g x) as) :
    ∀ {xs : List α} {as : List Artist}, xs.flatMap f = as.map .ok → List.Forall₂ R (xs.flatMap g) as
  | [], as, he => by
    have : as = [] := by simpa using he.symm
    subst this
    exact List.Forall₂.nil
  | x :: xs, as, he => by
    rw [List.flatMap_cons] at he
    obtain ⟨a1, a2, rfl, e1, e2⟩ := List.map_eq_append_iff.1 he.symm
    rw [List.flatMap_cons]
    exact List.rel_append (h x a1 e1.symm) (forall₂_flatMap h e2.symm)

theorem forall₂_exists_right {α β : Type} {R : α → β → Prop} {xs : List α} {ys : List β} (h : List.Forall₂ R xs ys) {x : α}
    (hx : x ∈ xs) : ∃ y ∈ ys, R x y := by
  induction h with
  | nil => simp at hx
  | cons h _ ih =>
    rcases List.mem_cons.1 hx with rfl | hx
    · exact ⟨_, by simp, h⟩
    · obtain ⟨y, hy, hr⟩ := ih hx
      exact ⟨y, by simp [hy], hr⟩

theorem forall₂_exists_left {α β : Type} {R : α → β → Prop} {xs : List α} {ys : List β} (h : List.Forall₂ R xs ys) {y : β}
    (hy : y ∈ ys) : ∃ x ∈ xs, R x y := by
  induction h with
  | nil => simp at hy
  | cons h _ ih =>
    rcases List.mem_cons.1 hy with rfl | hy
    · exact ⟨_, by simp, h⟩
    · obtain ⟨x, hx, hr⟩ := ih hy
      exact ⟨x, by simp [hx], hr⟩

/-! ### limits -/

theorem foldl_min_le (xs : List Rat) : ∀ x, xs.foldl min x ≤ x ∧ ∀ y ∈ xs, xs.foldl min x ≤ y := by
  induction xs with
  | nil => intro x; simp
  | cons z xs ih =>
    intro x
    obtain ⟨h1, h2⟩ := ih (min x z)
    refine ⟨h1.trans (min_le_left _ _), fun y hy => ?_⟩
    rcases List.mem_cons.1 hy with rfl | hy
    · exact h1.trans (min_le_right _ _)
    · exact h2 y hy

theorem le_foldl_max (xs : List Rat) : ∀ x, x ≤ xs.foldl max x ∧ ∀ y ∈ xs, y ≤ xs.foldl max x := by
  induction xs with
  | nil => intro x; simp
  | cons z xs ih =>
    intro x
    obtain ⟨h1, h2⟩ := ih (max x z)
    refine ⟨(le_max_left _ _).trans h1, fun y hy => ?_⟩
    rcases List.mem_cons.1 hy with rfl | hy
    · exact (le_max_right _ _).trans h1
    · exact h2 y hy

theorem minOf_mem {xs : List Rat} (h : xs ≠ []) : minOf xs ∈ xs := by
  cases xs with
  | nil => exact absurd rfl h
  | cons x xs =>
    have : ∀ (xs : List Rat) (x : Rat), xs.foldl min x ∈ x :: xs := by
      intro xs
      induction xs with
      | nil => simp
      | cons y xs ih =>
        intro x
        rcases min_choice x y with e | e <;> have := ih (min x y) <;> rw [e] at this <;>
          simp only [List.foldl_cons, e, List.mem_cons] at this ⊢ <;> tauto
    exact this xs x

theorem maxOf_mem {xs : List Rat} (h : xs ≠ []) : maxOf xs ∈ xs := by
  cases xs with
  | nil => exact absurd rfl h
  | cons x xs =>
    have : ∀ (xs : List Rat) (x : Rat), xs.foldl max x ∈ x :: xs := by
      intro xs
      induction xs with
      | nil => simp
      | cons y xs ih =>
        intro x
        rcases max_choice x y with e | e <;> have := ih (max x y) <;> rw [e] at this <;>
          simp only [List.foldl_cons, e, List.mem_cons] at this ⊢ <;> tauto
    exact this xs x

theorem minOf_le {xs : List Rat} {y : Rat} (h : y ∈ xs) : minOf xs ≤ y := by
  cases xs with
  | nil => simp at h
  | cons x xs =>
    rcases List.mem_cons.1 h with rfl | h
    · exact (foldl_min_le xs _).1
    · exact (foldl_min_le xs x).2 y h

theorem le_maxOf {xs : List Rat} {y : Rat} (h : y ∈ xs) : y ≤ maxOf xs := by
  cases xs with
  | nil => simp at h
  | cons x xs =>
    rcases List.mem_cons.1 h with rfl | h
    · exact (le_foldl_max xs _).1
    · exact (le_foldl_max xs x).2 y h

theorem getCoordRange_ok (hall : AllAt l l.graph.nodes.keys) (hne : l.graph.nodes.keys ≠ []) :
    ∃ ps, List.Forall₂ (DrawnAt l) l.graph.nodes.keys ps ∧
      getCoordRange l = .ok ((minOf (ps.map Prod.fst), maxOf (ps.map Prod.fst)), (minOf (ps.map Prod.snd), maxOf (ps.map Prod.snd))) := by
  have hm : ∀ qs : List String, AllAt l qs → ∃ ps, List.Forall₂ (DrawnAt l) qs ps ∧ mapExcept qs (coordsParam l) = .ok (ps.map asList) := by
    intro qs
    induction qs with
    | nil => exact fun _ => ⟨[], List.Forall₂.nil, rfl⟩
    | cons q qs ih =>
      intro h
      obtain ⟨p, hp⟩ := h q (by simp)
      obtain ⟨ps, h1, h2⟩ := ih fun q hq => h q (by simp [hq])
      refine ⟨p :: ps, List.Forall₂.cons hp h1, ?_⟩
      unfold mapExcept
      rw [coordsParam_ok.2 hp, h2]
      rfl
  obtain ⟨ps, h1, h2⟩ := hm _ hall
  refine ⟨ps, h1, ?_⟩
  have hps : ps ≠ [] := by
    rintro rfl
    exact hne (by simpa using h1)
  unfold getCoordRange
  simp only [Layout.getQubits, List.isEmpty_nil, if_true, h2]
  rw [if_neg (by simp [asList]), columns_points hps]

theorem getCoordRange_nil (h : l.graph.nodes.keys = []) : getCoordRange l = .error .valueError := by
  unfold getCoordRange
  simp [Layout.getQubits, h, mapExcept, columns_nil]

end SurfaceSim
