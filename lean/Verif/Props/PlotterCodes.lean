/-
Theorems about drawing the layouts of the library.
-/
import Verif.Props.Plotter

namespace SurfaceSim
open Spec Plotter LayoutLib

/-- A grid position as a point. -/
def pointOf (s : Site) : Rat × Rat := (s.1, s.2)

theorem turn_shift (p q r d : Rat × Rat) : turn (p + d) (q + d) (r + d) = turn p q r := by
  simp only [turn, Prod.fst_add, Prod.snd_add]
  ring

theorem Spec.ClockwisePolygon.shift {c : List (Rat × Rat)} (h : ClockwisePolygon c) (d : Rat × Rat) :
    ClockwisePolygon (c.map (· + d)) := by
  refine ⟨by simpa using h.1, fun i hi j hj j1 j2 => ?_⟩
  simp only [List.length_map] at hi hj j2 ⊢
  have hk : (i + 1) % c.length < c.length := Nat.mod_lt _ (by omega)
  have := h.turn_lt hi hj j1 j2
  simpa [hi, hj, hk, turn_shift] using this

theorem place_add (o : LogGates.Vec) (s sh : Site) : place o (s + sh) = pointOf sh + (pointOf s + o) := by
  simp only [place, pointOf, Prod.fst_add, Prod.snd_add, Int.cast_add]
  ext <;> simp <;> ring

variable {l : Layout} {L : List (String × Site × Kind)} {dirs : List (Site × String)} {v : LogGates.Vec}

theorem drawnAt_unique {q : String} {p p' : Rat × Rat} (h : DrawnAt l q p) (h' : DrawnAt l q p') : p = p' := by
  unfold DrawnAt at h h'
  rw [h] at h'
  simp only [Except.ok.injEq, Val.coords.injEq] at h'
  exact asList_inj h'

theorem Placed.drawn (h : Placed l L dirs v) {q : String} {s : Site} {k : Kind} (hq : (q, s, k) ∈ L) : DrawnAt l q (place v s) :=
  h.coords q s k hq

/-- The neighbours of an ancilla are around it in the directions where there is a data qubit. -/
theorem Placed.corners (h : Placed l L dirs v) {a : String} {s : Site} {k : Kind} (ha : (a, s, k) ∈ L) (hk : k ≠ .data)
    {S : List Site} (hn : S.Nodup) (hS : ∀ sh, sh ∈ S ↔ ∃ q dir, (sh, dir) ∈ dirs ∧ (q, s + sh, Kind.data) ∈ L)
    {ps : List (Rat × Rat)} (hps : List.Forall₂ (DrawnAt l) (l.getNeighbors [a] none) ps) :
    ps.Perm (S.map fun sh => place v (s + sh)) := by
  have hg := h.grid
  have hnb := hg.neighbors_nodup a
  have mem := fun q => hg.mem_neighbors_anc (q := q) ha hk
  have hpn : ps.Nodup := by
    have hin : ∀ q ∈ l.getNeighbors [a] none, ∀ q' ∈ l.getNeighbors [a] none, ∀ p, DrawnAt l q p → DrawnAt l q' p → q = q' := by
      intro q hq q' hq' p hp hp'
      obtain ⟨sh, dir, -, h1⟩ := (mem q).1 hq
      obtain ⟨sh', dir', -, h2⟩ := (mem q').1 hq'
      have e1 := drawnAt_unique hp (h.drawn h1)
      have e2 := drawnAt_unique hp' (h.drawn h2)
      have := place_inj v (e1.symm.trans e2)
      rw [← this] at h2
      exact (hg.unique' h1 h2).1
    clear mem hS
    generalize l.getNeighbors [a] none = nb at hps hnb hin
    induction hps with
    | nil => exact List.nodup_nil
    | @cons q p qs ps hqp hrest ih =>
      rw [List.nodup_cons] at hnb ⊢
      refine ⟨fun hm => ?_, ih hnb.2 fun q hq q' hq' => hin q (by simp [hq]) q' (by simp [hq'])⟩
      obtain ⟨q', hq', hd⟩ := forall₂_exists_left hrest hm
      have := hin q (by simp) q' (by simp [hq']) p hqp hd
      exact hnb.1 (this ▸ hq')
  have hSn : (S.map fun sh => place v (s + sh)).Nodup := by
    refine (List.nodup_map_iff_inj_on hn).2 fun x _ y _ hxy => ?_
    exact add_left_cancel (place_inj v hxy)
  rw [List.perm_ext_iff_of_nodup hpn hSn]
  intro p
  rw [List.mem_map]
  constructor
  · intro hp
    obtain ⟨q, hq, hd⟩ := forall₂_exists_left hps hp
    obtain ⟨sh, dir, hdir, hL⟩ := (mem q).1 hq
    exact ⟨sh, (hS sh).2 ⟨q, dir, hdir, hL⟩, drawnAt_unique (h.drawn hL) hd⟩
  · rintro ⟨sh, hsh, rfl⟩
    obtain ⟨q, dir, hdir, hL⟩ := (hS sh).1 hsh
    obtain ⟨p, hp, hd⟩ := forall₂_exists_right hps ((mem q).2 ⟨sh, dir, hdir, hL⟩)
    rwa [drawnAt_unique (h.drawn hL) hd]

/-- The corners of the patch of an ancilla, clockwise and relative to the ancilla. -/
def Fits (S T : List Site) : Prop :=
  S.Nodup ∧ T.Perm (if S.length = 2 then S ++ [(0, 0)] else S) ∧ ClockwisePolygon (T.map pointOf)

instance (S T : List Site) : Decidable (Fits S T) := by unfold Fits; infer_instance

theorem Placed.convex (h : Placed l L dirs v) {a : String} {s : Site} {k : Kind} (ha : (a, s, k) ∈ L) (hk : k ≠ .data)
    {S T : List Site} (hf : Fits S T) (hS : ∀ sh, sh ∈ S ↔ ∃ q dir, (sh, dir) ∈ dirs ∧ (q, s + sh, Kind.data) ∈ L)
    {p : Rat × Rat} (hp : DrawnAt l a p) {ps : List (Rat × Rat)} (hps : List.Forall₂ (DrawnAt l) (l.getNeighbors [a] none) ps) :
    ∃ t, t.Perm (if ps.length = 2 then ps ++ [p] else ps) ∧ ClockwisePolygon t := by
  have hperm := h.corners ha hk hf.1 hS hps
  have hlen : ps.length = S.length := by simpa using hperm.length_eq
  have hp' : p = place v (s + (0, 0)) := by
    rw [drawnAt_unique hp (h.drawn ha)]
    congr 1
    ext <;> simp
  refine ⟨T.map fun sh => place v (s + sh), ?_, ?_⟩
  · have := hf.2.1.map fun sh => place v (s + sh)
    refine this.trans ?_
    rw [hlen, hp']
    split
    · rw [List.map_append]
      exact hperm.symm.append_right _
    · exact hperm.symm
  · have := hf.2.2.shift (pointOf s + v)
    rw [List.map_map] at this
    have e : (fun sh => place v (s + sh)) = (fun x => x + (pointOf s + v)) ∘ pointOf := by
      funext sh
      exact place_add v s sh
    rw [e]
    exact this

theorem rot_fits {a : Args} {dx dz : Int} (hx : 1 ≤ dx) (hz : 1 ≤ dz) {x : String} {s : Site} {k : Kind}
    (hm : (x, s, k) ∈ rotEntries a dx dz) (hk : k ≠ .data) :
    ∃ S T, Fits S T ∧ ∀ sh, sh ∈ S ↔ ∃ q dir, (sh, dir) ∈ names rotDirs ∧ (q, s + sh, Kind.data) ∈ rotEntries a dx dz := by
  obtain ⟨r, c⟩ := s
  have hs := rotEntry hm
  have main : ∀ {S T : List Site}, Fits S T →
      (∀ sh : Site, sh ∈ S ↔ sh ∈ [((1, 1) : Site), (1, -1), (-1, 1), (-1, -1)] ∧ RotSite dx dz (r + sh.1) (c + sh.2) .data) →
      ∃ S T, Fits S T ∧ ∀ sh, sh ∈ S ↔ ∃ q dir, (sh, dir) ∈ names rotDirs ∧ (q, (r, c) + sh, Kind.data) ∈ rotEntries a dx dz := by
    intro S T hf hS
    refine ⟨S, T, hf, fun sh => ?_⟩
    rw [hS]
    constructor
    · rintro ⟨h1, h2⟩
      obtain ⟨q, hq⟩ := exists_rotEntry (a := a) h2
      obtain ⟨dir, hd⟩ : ∃ dir, (sh, dir) ∈ names rotDirs := by
        simp only [List.mem_cons, List.not_mem_nil, or_false] at h1
        rcases h1 with rfl | rfl | rfl | rfl
        · exact ⟨_, mem_rotNames.2 (Or.inl ⟨rfl, rfl⟩)⟩
        · exact ⟨_, mem_rotNames.2 (Or.inr (Or.inl ⟨rfl, rfl⟩))⟩
        · exact ⟨_, mem_rotNames.2 (Or.inr (Or.inr (Or.inl ⟨rfl, rfl⟩)))⟩
        · exact ⟨_, mem_rotNames.2 (Or.inr (Or.inr (Or.inr ⟨rfl, rfl⟩)))⟩
      exact ⟨q, dir, hd, hq⟩
    · rintro ⟨q, dir, hd, hq⟩
      refine ⟨?_, rotEntry hq⟩
      rcases mem_rotNames.1 hd with ⟨rfl, -⟩ | ⟨rfl, -⟩ | ⟨rfl, -⟩ | ⟨rfl, -⟩ <;> simp
  have all : r % 2 = 0 ∧ c % 2 = 0 ∧ 0 ≤ r ∧ r ≤ 2 * dx ∧ 0 ≤ c ∧ c ≤ 2 * dz ∧ ((0 < r ∧ r < 2 * dx) ∨ (0 < c ∧ c < 2 * dz)) := by
    cases k with
    | data => exact absurd rfl hk
    | x => simp only [RotSite] at hs; omega
    | z => simp only [RotSite] at hs; omega
  obtain ⟨g1, g2, g3, g4, g5, g6, g7⟩ := all
  by_cases r0 : r = 0
  · refine main (S := [(1, 1), (1, -1)]) (T := [(0, 0), (1, 1), (1, -1)]) (by decide +kernel) fun sh => ?_
    obtain ⟨u, w⟩ := sh
    simp only [List.mem_cons, Prod.mk.injEq, List.not_mem_nil, or_false, RotSite]
    omega
  · by_cases r1 : r = 2 * dx
    · refine main (S := [(-1, 1), (-1, -1)]) (T := [(0, 0), (-1, -1), (-1, 1)]) (by decide +kernel) fun sh => ?_
      obtain ⟨u, w⟩ := sh
      simp only [List.mem_cons, Prod.mk.injEq, List.not_mem_nil, or_false, RotSite]
      omega
    · by_cases c0 : c = 0
      · refine main (S := [(1, 1), (-1, 1)]) (T := [(0, 0), (-1, 1), (1, 1)]) (by decide +kernel) fun sh => ?_
        obtain ⟨u, w⟩ := sh
        simp only [List.mem_cons, Prod.mk.injEq, List.not_mem_nil, or_false, RotSite]
        omega
      · by_cases c1 : c = 2 * dz
        · refine main (S := [(1, -1), (-1, -1)]) (T := [(0, 0), (1, -1), (-1, -1)]) (by decide +kernel) fun sh => ?_
          obtain ⟨u, w⟩ := sh
          simp only [List.mem_cons, Prod.mk.injEq, List.not_mem_nil, or_false, RotSite]
          omega
        · refine main (S := [(1, 1), (1, -1), (-1, 1), (-1, -1)]) (T := [(1, 1), (1, -1), (-1, -1), (-1, 1)]) (by decide +kernel) fun sh => ?_
          obtain ⟨u, w⟩ := sh
          simp only [List.mem_cons, Prod.mk.injEq, List.not_mem_nil, or_false, RotSite]
          omega

theorem unrot_fits {a : Args} {dx dz : Int} (hx : 2 ≤ dx) (hz : 2 ≤ dz) {x : String} {s : Site} {k : Kind}
    (hm : (x, s, k) ∈ unrotEntries a dx dz) (hk : k ≠ .data) :
    ∃ S T, Fits S T ∧ ∀ sh, sh ∈ S ↔ ∃ q dir, (sh, dir) ∈ names unrotDirs ∧ (q, s + sh, Kind.data) ∈ unrotEntries a dx dz := by
  obtain ⟨r, c⟩ := s
  have hs := unrotEntry hm
  have main : ∀ {S T : List Site}, Fits S T →
      (∀ sh : Site, sh ∈ S ↔ sh ∈ [((1, 0) : Site), (-1, 0), (0, 1), (0, -1)] ∧ UnrotSite dx dz (r + sh.1) (c + sh.2) .data) →
      ∃ S T, Fits S T ∧ ∀ sh, sh ∈ S ↔ ∃ q dir, (sh, dir) ∈ names unrotDirs ∧ (q, (r, c) + sh, Kind.data) ∈ unrotEntries a dx dz := by
    intro S T hf hS
    refine ⟨S, T, hf, fun sh => ?_⟩
    rw [hS]
    constructor
    · rintro ⟨h1, h2⟩
      obtain ⟨q, hq⟩ := exists_unrotEntry (a := a) h2
      obtain ⟨dir, hd⟩ : ∃ dir, (sh, dir) ∈ names unrotDirs := by
        simp only [List.mem_cons, List.not_mem_nil, or_false] at h1
        rcases h1 with rfl | rfl | rfl | rfl
        all_goals simp only [mem_unrotNames, Prod.mk.injEq]
        all_goals simp
      exact ⟨q, dir, hd, hq⟩
    · rintro ⟨q, dir, hd, hq⟩
      refine ⟨?_, unrotEntry hq⟩
      rcases mem_unrotNames.1 hd with ⟨rfl, -⟩ | ⟨rfl, -⟩ | ⟨rfl, -⟩ | ⟨rfl, -⟩ <;> simp
  cases k with
  | data => exact absurd rfl hk
  | x =>
    simp only [UnrotSite] at hs
    by_cases r0 : r = 0
    · refine main (S := [(1, 0), (0, 1), (0, -1)]) (T := [(1, 0), (0, -1), (0, 1)]) (by decide +kernel) fun sh => ?_
      obtain ⟨u, w⟩ := sh
      simp only [List.mem_cons, Prod.mk.injEq, List.not_mem_nil, or_false, UnrotSite]
      omega
    · by_cases r1 : r = 2 * dx - 2
      · refine main (S := [(-1, 0), (0, 1), (0, -1)]) (T := [(-1, 0), (0, 1), (0, -1)]) (by decide +kernel) fun sh => ?_
        obtain ⟨u, w⟩ := sh
        simp only [List.mem_cons, Prod.mk.injEq, List.not_mem_nil, or_false, UnrotSite]
        omega
      · refine main (S := [(1, 0), (-1, 0), (0, 1), (0, -1)]) (T := [(1, 0), (0, -1), (-1, 0), (0, 1)]) (by decide +kernel) fun sh => ?_
        obtain ⟨u, w⟩ := sh
        simp only [List.mem_cons, Prod.mk.injEq, List.not_mem_nil, or_false, UnrotSite]
        omega
  | z =>
    simp only [UnrotSite] at hs
    by_cases c0 : c = 0
    · refine main (S := [(1, 0), (-1, 0), (0, 1)]) (T := [(1, 0), (-1, 0), (0, 1)]) (by decide +kernel) fun sh => ?_
      obtain ⟨u, w⟩ := sh
      simp only [List.mem_cons, Prod.mk.injEq, List.not_mem_nil, or_false, UnrotSite]
      omega
    · by_cases c1 : c = 2 * dz - 2
      · refine main (S := [(1, 0), (-1, 0), (0, -1)]) (T := [(1, 0), (0, -1), (-1, 0)]) (by decide +kernel) fun sh => ?_
        obtain ⟨u, w⟩ := sh
        simp only [List.mem_cons, Prod.mk.injEq, List.not_mem_nil, or_false, UnrotSite]
        omega
      · refine main (S := [(1, 0), (-1, 0), (0, 1), (0, -1)]) (T := [(1, 0), (0, -1), (-1, 0), (0, 1)]) (by decide +kernel) fun sh => ?_
        obtain ⟨u, w⟩ := sh
        simp only [List.mem_cons, Prod.mk.injEq, List.not_mem_nil, or_false, UnrotSite]
        omega

namespace Props

theorem code_plot (h : Placed l L dirs v) (hne : L ≠ [])
    (hf : ∀ a s k, (a, s, k) ∈ L → k ≠ .data →
      ∃ S T, Fits S T ∧ ∀ sh, sh ∈ S ↔ ∃ q dir, (sh, dir) ∈ dirs ∧ (q, s + sh, Kind.data) ∈ L)
    (as : ArgSort) (o : Options) (ax : Axes) :
    ∃ ax' new ancs qubits, plot as l noMeta o ax = (.ok (), ax') ∧ l.getQubits [] = .ok qubits ∧
      l.getQubits [("role", .str "anc")] = .ok ancs ∧ ax'.artists = ax.artists ++ new ∧ Picture l noMeta o qubits ancs new ∧
      ∀ a ∈ new, ∀ corners, a.shape = .polygon corners → ∃ c, corners = c.map asList ∧ ClockwisePolygon c := by
  have hg := h.grid
  have hat : ∀ q ∈ L.map Prod.fst, ∃ p, DrawnAt l q p := by
    intro q hq
    obtain ⟨⟨q, s, k⟩, hm, rfl⟩ := List.mem_map.1 hq
    exact ⟨_, h.drawn hm⟩
  have hanc : ∀ q ∈ labelsOf L (fun k => k ≠ .data), ∃ s k, (q, s, k) ∈ L ∧ k ≠ .data := by
    intro q hq
    obtain ⟨s, k, h1, h2⟩ := mem_labelsOf.1 hq
    exact ⟨s, k, h1, by simpa using h2⟩
  rcases C61_returns (as := as) (o := o) (ax := ax) hg.reach hg.getQubits_all hg.getQubits_anc
    (fun q hq => by obtain ⟨p, hp⟩ := hat q hq; exact ⟨_, hp⟩) with ⟨-, -, -, ax', hp⟩ | ⟨hno, -⟩
  · obtain ⟨qubits, ancs, new, h1, h2, h3, h4⟩ := C61_shows hp
    have hpic : Picture l noMeta o qubits (labelsOf L fun k => k ≠ .data) new := by
      refine ⟨h4.circles, h4.labels, ?_, ?_, h4.order⟩
      · by_cases hb : o.addPatches
        · have := h2 (Or.inl hb)
          rw [hg.getQubits_anc, Except.ok.injEq] at this
          rw [this]
          exact h4.patches
        · have := h4.patches
          rw [if_neg hb] at this ⊢
          exact this
      · by_cases hb : o.addConnections
        · have := h2 (Or.inr hb)
          rw [hg.getQubits_anc, Except.ok.injEq] at this
          rw [this]
          exact h4.lines
        · have := h4.lines
          rw [if_neg hb] at this ⊢
          exact this
    refine ⟨ax', new, _, qubits, hp, h1, hg.getQubits_anc, h3, hpic, ?_⟩
    intro a ha corners hc
    have hm : a ∈ new.filter fun a => layer a.shape = 0 := List.mem_filter.2 ⟨ha, by simp [hc, layer]⟩
    obtain ⟨q, hq, p, ps, c, d1, d2, d3, d4, d5, -⟩ := forall₂_exists_left hpic.patches hm
    have hq' : q ∈ labelsOf L fun k => k ≠ .data := by
      by_cases hb : o.addPatches
      · rwa [if_pos hb] at hq
      · rw [if_neg hb] at hq; simp at hq
    obtain ⟨s, k, hL, hk⟩ := hanc q hq'
    obtain ⟨S, T, hST, hS⟩ := hf q s k hL hk
    obtain ⟨t, t1, t2⟩ := h.convex hL hk hST hS d1 d2
    rw [hc] at d3
    simp only [Shape.polygon.injEq] at d3
    exact ⟨c, d3, d5 ⟨t, t1.trans d4.symm, t2⟩⟩
  · refine absurd ⟨by simpa using hne, hat, fun _ q hq hc => ?_⟩ hno
    obtain ⟨s, k, hL, hk⟩ := hanc q hq
    obtain ⟨S, T, hST, hS⟩ := hf q s k hL hk
    obtain ⟨t, t1, t2⟩ := h.convex hL hk hST hS (h.drawn hL) (ps := []) (by rw [hc]; exact List.Forall₂.nil)
    have := t2.1
    rw [t1.length_eq] at this
    simp at this

/-- **C61** Rotated codes of all sizes, on any axes and with any flags: `plot` returns and draws the picture of the layout, and the
patch of every stabilizer is a convex polygon with its data qubits (and the ancilla if there are two) as corners. -/
theorem C61_rot {a : Args} {dx dz : Int} {l0 : Layout} (h : rotSurfaceCodeRectangle dx dz a = .ok l0) (hw : WithParams l0 l)
    (hx : 1 ≤ dx) (hz : 1 ≤ dz) (as : ArgSort) (o : Options) (ax : Axes) :
    ∃ ax' new ancs qubits, plot as l noMeta o ax = (.ok (), ax') ∧ l.getQubits [] = .ok qubits ∧
      l.getQubits [("role", .str "anc")] = .ok ancs ∧ ax'.artists = ax.artists ++ new ∧ Picture l noMeta o qubits ancs new ∧
      ∀ a ∈ new, ∀ corners, a.shape = .polygon corners → ∃ c, corners = c.map asList ∧ ClockwisePolygon c := by
  refine code_plot ((rot_placed h).params hw) ?_ (fun _ _ _ hm hk => rot_fits hx hz hm hk) as o ax
  obtain ⟨b, hb⟩ := exists_rotEntry (a := a) (show RotSite dx dz 1 1 .data by simp only [RotSite]; omega)
  exact List.ne_nil_of_mem hb

/-- **C61** Unrotated codes with distances of at least two, on any axes and with any flags: `plot` returns and draws the picture of
the layout, and the patch of every stabilizer is a convex polygon with its data qubits as corners. -/
theorem C61_unrot {a : Args} {dx dz : Int} {l0 : Layout} (h : unrotSurfaceCodeRectangle dx dz a = .ok l0) (hw : WithParams l0 l)
    (hx : 2 ≤ dx) (hz : 2 ≤ dz) (as : ArgSort) (o : Options) (ax : Axes) :
    ∃ ax' new ancs qubits, plot as l noMeta o ax = (.ok (), ax') ∧ l.getQubits [] = .ok qubits ∧
      l.getQubits [("role", .str "anc")] = .ok ancs ∧ ax'.artists = ax.artists ++ new ∧ Picture l noMeta o qubits ancs new ∧
      ∀ a ∈ new, ∀ corners, a.shape = .polygon corners → ∃ c, corners = c.map asList ∧ ClockwisePolygon c := by
  refine code_plot ((unrot_placed h).params hw) ?_ (fun _ _ _ hm hk => unrot_fits hx hz hm hk) as o ax
  obtain ⟨b, hb⟩ := exists_unrotEntry (a := a) (show UnrotSite dx dz 0 0 .data by simp only [UnrotSite]; omega)
  exact List.ne_nil_of_mem hb

-- the picture of the distance-three codes
example (as : ArgSort) (ax : Axes) : ∃ ax', plot as (layoutOf (rotSurfaceCode 3 rotDefault)) noMeta {} ax = (.ok (), ax') ∧
    ∃ ax'', plot as (layoutOf (unrotSurfaceCode 3 unrotDefault)) noMeta {} ax = (.ok (), ax'') := by
  obtain ⟨ax', -, -, -, h, -⟩ := C61_rot (a := rotDefault) (dx := 3) (dz := 3)
    (ok_layoutOf (e := rotSurfaceCode 3 rotDefault) (by decide +kernel)) WithParams.refl (by decide) (by decide) as {} ax
  obtain ⟨ax'', -, -, -, h', -⟩ := C61_unrot (a := unrotDefault) (dx := 3) (dz := 3)
    (ok_layoutOf (e := unrotSurfaceCode 3 unrotDefault) (by decide +kernel)) WithParams.refl (by decide) (by decide) as {} ax
  exact ⟨ax', h, ax'', h'⟩

-- `C61_shows` and `C61_in_view` for it: all 17 qubits are in view
example (as : ArgSort) (ax : Axes) : ∃ ax', plot as (layoutOf (rotSurfaceCode 3 rotDefault)) noMeta {} ax = (.ok (), ax') ∧
    ∀ q ∈ ["D1", "D9", "X4", "Z2"], ∃ p, DrawnAt (layoutOf (rotSurfaceCode 3 rotDefault)) q p ∧ InView ax'.xlim p.1 ∧ InView ax'.ylim p.2 := by
  obtain ⟨ax', -, -, qubits, h, hq, -⟩ := C61_rot (a := rotDefault) (dx := 3) (dz := 3)
    (ok_layoutOf (e := rotSurfaceCode 3 rotDefault) (by decide +kernel)) WithParams.refl (by decide) (by decide) as {} ax
  refine ⟨ax', h, fun q hm => ?_⟩
  have hin : q ∈ qubits := by
    rw [getQubits_empty, Except.ok.injEq] at hq
    subst hq
    revert q
    decide +kernel
  obtain ⟨p, hp, hv⟩ := (C61_in_view h (by norm_num) hq).1 q hin
  have := hv 0 (by norm_num) (by norm_num)
  rw [add_zero, add_zero] at this
  exact ⟨p, hp, this.1, this.2⟩

-- the other case of `C61_returns`: a code of size zero has no qubits
example (as : ArgSort) (ax : Axes) : ∃ ax', plot as (layoutOf (rotSurfaceCode 0 rotDefault)) noMeta {} ax = (.error .valueError, ax') := by
  have hl := ok_layoutOf (e := rotSurfaceCode 0 rotDefault) (by decide +kernel)
  have hg := (rot_placed (a := rotDefault) (dx := 0) (dz := 0) hl).grid
  have he : (rotEntries rotDefault 0 0).map Prod.fst = [] := by decide +kernel
  rcases C61_returns (as := as) (o := {}) (ax := ax) hg.reach hg.getQubits_all hg.getQubits_anc (by rw [he]; simp) with ⟨h, -⟩ | ⟨-, h⟩
  · exact absurd he h
  · exact h

/-- **C61** Unrotated codes of one row: the corners of every patch are on one line, nothing is filled. -/
theorem C61_unrot_flat {a : Args} {dz : Int} {l0 : Layout} (h : unrotSurfaceCodeRectangle 1 dz a = .ok l0) (hw : WithParams l0 l)
    {as : ArgSort} {m : Meta} {o : Options} {ax ax' : Axes} (hp : plot as l m o ax = (.ok (), ax')) :
    ∃ new, ax'.artists = ax.artists ++ new ∧
      ∀ a ∈ new, ∀ corners, a.shape = .polygon corners → ∃ c, corners = c.map asList ∧ ¬ ClockwisePolygon c ∧
        ∃ x, ∀ p ∈ c, p.1 = x := by
  have hpl := (unrot_placed h).params hw
  obtain ⟨qubits, ancs, new, h1, h2, h3, h4⟩ := C61_shows hp
  refine ⟨new, h3, fun art ha corners hc => ?_⟩
  have hm : art ∈ new.filter fun a => layer a.shape = 0 := List.mem_filter.2 ⟨ha, by simp [hc, layer]⟩
  obtain ⟨q, hq, p, ps, c, d1, d2, d3, d4, d5, -⟩ := forall₂_exists_left h4.patches hm
  rw [hc] at d3
  simp only [Shape.polygon.injEq] at d3
  have key : ∀ q p, DrawnAt l q p → p.1 = a.initPoint.1 := by
    intro q p hd
    have hq : q ∈ (unrotEntries a 1 dz).map Prod.fst := by
      rw [← hpl.grid.keys]
      have := hd
      unfold DrawnAt Layout.param at this
      cases hg : l.graph.nodes.get? q with
      | none => rw [hg] at this; simp at this
      | some v => exact List.mem_map.2 ⟨_, Dict.mem_of_get? hg, rfl⟩
    obtain ⟨⟨q, ⟨r, c⟩, k⟩, hm, rfl⟩ := List.mem_map.1 hq
    rw [drawnAt_unique hd (hpl.drawn hm)]
    have hs := unrotEntry hm
    have : r = 0 := by cases k <;> simp only [UnrotSite] at hs <;> omega
    subst this
    simp [place]
  have hall : ∀ p' ∈ c, p'.1 = a.initPoint.1 := by
    intro p' hp'
    have := d4.mem_iff.1 hp'
    have hps : ∀ r ∈ ps, r.1 = a.initPoint.1 := fun r hr => by
      obtain ⟨q', -, hd⟩ := forall₂_exists_left d2 hr
      exact key q' r hd
    split at this
    · rcases List.mem_append.1 this with h | h
      · exact hps _ h
      · rw [List.mem_singleton.1 h]
        exact key q p d1
    · exact hps _ this
  refine ⟨c, d3, fun hcw => ?_, _, hall⟩
  obtain ⟨j, hj, j1, j2⟩ := hcw.third (i := 0)
  have h0 : 0 < c.length := by have := hcw.1; omega
  have := hcw.turn_lt h0 hj j1 j2
  simp only [turn, hall _ (List.getElem_mem _)] at this
  simp at this

example (as : ArgSort) (ax : Axes) : ∃ ax', plot as (layoutOf (unrotSurfaceCodeRectangle 1 2 unrotDefault)) noMeta {} ax = (.ok (), ax') := by
  have hl := ok_layoutOf (e := unrotSurfaceCodeRectangle 1 2 unrotDefault) (by decide +kernel)
  have hp := unrot_placed hl
  have hg := hp.grid
  rcases C61_returns (as := as) (o := {}) (ax := ax) hg.reach hg.getQubits_all hg.getQubits_anc (fun q hq => by
    obtain ⟨⟨q, s, k⟩, hm, rfl⟩ := List.mem_map.1 hq
    exact ⟨_, hp.coords _ _ _ hm⟩) with ⟨-, -, -, h⟩ | ⟨h, -⟩
  · exact h
  · refine absurd ⟨by decide +kernel, fun q hq => ?_, fun _ => by decide +kernel⟩ h
    obtain ⟨⟨q, s, k⟩, hm, rfl⟩ := List.mem_map.1 hq
    exact ⟨_, hp.drawn hm⟩

/-! ### labels -/

theorem labelParts_regular {q : String} {name ind : List Char} (h : q.toList = name ++ ind) (h1 : name ≠ []) (h2 : ind ≠ [])
    (h3 : ∀ c ∈ name, c.isAlpha) (h4 : ∀ c ∈ ind, c.isDigit) :
    labelParts q = some (String.ofList name, String.ofList ind) := by
  have hd : ∀ c : Char, c.isDigit → c.isAlpha = false := by
    intro c hc
    simp only [Char.isDigit, Char.isAlpha, Char.isUpper, Char.isLower, Bool.and_eq_true, decide_eq_true_eq, UInt32.le_iff_toNat_le,
      ge_iff_le, Bool.or_eq_false_iff, Bool.and_eq_false_iff, decide_eq_false_iff_not] at hc ⊢
    have e1 : '0'.val.toNat = 48 := rfl
    have e2 : '9'.val.toNat = 57 := rfl
    have e3 : 'A'.val.toNat = 65 := rfl
    have e4 : 'a'.val.toNat = 97 := rfl
    omega
  have e1 : (name ++ ind).takeWhile Char.isAlpha = name := by
    rw [List.takeWhile_append_of_pos h3]
    cases ind with
    | nil => exact absurd rfl h2
    | cons c ind => simp [List.takeWhile_cons, hd c (h4 c (by simp))]
  have e2 : (name ++ ind).dropWhile Char.isAlpha = ind := by
    rw [List.dropWhile_append_of_pos h3]
    cases ind with
    | nil => exact absurd rfl h2
    | cons c ind => simp [List.dropWhile_cons, hd c (h4 c (by simp))]
  have e3 : ind.takeWhile Char.isDigit = ind := by
    have := List.takeWhile_append_of_pos (p := Char.isDigit) (l₂ := []) h4
    simpa using this
  unfold labelParts
  rw [h, e1, e2, e3, if_neg (by simp [h1, h2])]

theorem labelText_regular {q : String} {name ind : List Char} (h : q.toList = name ++ ind) (h1 : name ≠ []) (h2 : ind ≠ [])
    (h3 : ∀ c ∈ name, c.isAlpha) (h4 : ∀ c ∈ ind, c.isDigit) :
    (labelText q).toList = '$' :: (name ++ '_' :: '\\' :: ("mathrm{".toList ++ (ind ++ ['}', '$']))) := by
  unfold labelText
  rw [labelParts_regular h h1 h2 h3 h4]
  simp [String.toList_append]

theorem takeWhile_stop {p : Char → Bool} {xs ys : List Char} {c : Char} (h : ∀ x ∈ xs, p x) (hc : p c = false) :
    (xs ++ c :: ys).takeWhile p = xs := by
  rw [List.takeWhile_append_of_pos h]
  simp [hc]

/-- **C61** The texts of different labels of letters followed by digits are different. -/
theorem C61_label_text {q q' : String} (h : Regular q) (h' : Regular q') (he : labelText q = labelText q') : q = q' := by
  obtain ⟨n, i, e1, e2, e3, e4, e5⟩ := h
  obtain ⟨n', i', f1, f2, f3, f4, f5⟩ := h'
  have he := congrArg String.toList he
  rw [labelText_regular e1 e2 e3 e4 e5, labelText_regular f1 f2 f3 f4 f5] at he
  simp only [List.cons.injEq, true_and] at he
  have hn := congrArg (List.takeWhile Char.isAlpha) he
  rw [takeWhile_stop e4 (by decide), takeWhile_stop f4 (by decide)] at hn
  subst hn
  have he := List.append_cancel_left he
  simp only [List.cons.injEq, true_and] at he
  have he := List.append_cancel_left he
  have hi := congrArg (List.takeWhile Char.isDigit) he
  rw [takeWhile_stop e5 (by decide), takeWhile_stop f5 (by decide)] at hi
  subst hi
  exact String.toList_injective (e1.trans f1.symm)

example : Regular "D12" ∧ Regular "X3" ∧ labelText "D12" = "$D_\\mathrm{12}$" :=
  ⟨⟨['D'], ['1', '2'], by decide +kernel, by simp, by simp, by simp, by simp⟩, ⟨['X'], ['3'], by decide +kernel, by simp, by simp, by simp, by simp⟩,
    by decide +kernel⟩

/-- **C61** For other labels this is not so: what follows the digits is not shown. -/
theorem C61_label_text_collision : labelText "D1a" = labelText "D1b" ∧ "D1a" ≠ "D1b" := by decide +kernel

theorem labelText_int {P : String} {c : Char} (hP : P.toList = [c]) (hc : c.isAlpha) (hd : c ≠ '$') (i : Int) :
    Regular (P ++ Int.repr i) ∨ (labelText (P ++ Int.repr i) = P ++ Int.repr i ∧ (P ++ Int.repr i).toList.head? ≠ some '$') := by
  cases i with
  | ofNat n =>
    left
    refine ⟨[c], Nat.toDigits 10 n, ?_, by simp, Nat.toDigits_ne_nil, by simpa using hc, fun c hc => Nat.isDigit_of_mem_toDigits (by decide) (by decide) hc⟩
    rw [String.toList_append, hP]
    simp [Int.repr, Nat.repr]
  | negSucc n =>
    right
    have e : (P ++ Int.repr (Int.negSucc n)).toList = c :: '-' :: (Nat.repr (n + 1)).toList := by
      rw [String.toList_append, hP]
      simp [Int.repr, String.toList_append]
    have hl : labelParts (P ++ Int.repr (Int.negSucc n)) = none := by
      unfold labelParts
      rw [e]
      simp [hc]
    refine ⟨?_, ?_⟩
    · unfold labelText
      rw [hl]
    · rw [e]
      simpa using hd

theorem labelText_inj_of {q q' : String}
    (h : Regular q ∨ (labelText q = q ∧ q.toList.head? ≠ some '$')) (h' : Regular q' ∨ (labelText q' = q' ∧ q'.toList.head? ≠ some '$'))
    (he : labelText q = labelText q') : q = q' := by
  have hh : ∀ {q}, Regular q → (labelText q).toList.head? = some '$' := by
    rintro q ⟨n, i, e1, e2, e3, e4, e5⟩
    rw [labelText_regular e1 e2 e3 e4 e5]
    rfl
  rcases h with h | ⟨h, hn⟩
  · rcases h' with h' | ⟨h', hn'⟩
    · exact C61_label_text h h' he
    · exact absurd (by rw [← h', ← he]; exact hh h) hn'
  · rcases h' with h' | ⟨h', hn'⟩
    · exact absurd (by rw [← h, he]; exact hh h') hn
    · rw [← h, ← h', he]

theorem labels_of_sites {dl : Site → String} (hD : ∀ s, ∃ i, dl s = "D" ++ Int.repr i) {ss : List (Site × Kind)} {xi zi : Int} {q : String} {s : Site}
    {k : Kind} (h : (q, s, k) ∈ labelSites dl ss xi zi) : Regular q ∨ (labelText q = q ∧ q.toList.head? ≠ some '$') := by
  rcases labelSites_label h with ⟨-, rfl⟩ | ⟨-, j, -, rfl⟩ | ⟨-, j, -, rfl⟩
  · obtain ⟨i, hi⟩ := hD s
    rw [hi]
    exact labelText_int (c := 'D') (by decide +kernel) (by decide) (by decide) i
  · exact labelText_int (c := 'X') (by decide +kernel) (by decide) (by decide) j
  · exact labelText_int (c := 'Z') (by decide +kernel) (by decide) (by decide) j

/-- **C61** Rotated codes of all sizes: different qubits have different texts. -/
theorem C61_rot_labels {a : Args} {dx dz : Int} {l0 : Layout} (h : rotSurfaceCodeRectangle dx dz a = .ok l0) (hw : WithParams l0 l)
    {qubits : List String} (hq : l.getQubits [] = .ok qubits) {q q' : String} (h1 : q ∈ qubits) (h2 : q' ∈ qubits)
    (he : labelText q = labelText q') : q = q' := by
  have hg := ((rot_placed h).params hw).grid
  rw [hg.getQubits_all, Except.ok.injEq] at hq
  subst hq
  obtain ⟨⟨q, s, k⟩, m1, rfl⟩ := List.mem_map.1 h1
  obtain ⟨⟨q', s', k'⟩, m2, rfl⟩ := List.mem_map.1 h2
  exact labelText_inj_of (labels_of_sites (fun s => ⟨_, rfl⟩) m1) (labels_of_sites (fun s => ⟨_, rfl⟩) m2) he

/-- **C61** Unrotated codes of all sizes: different qubits have different texts. -/
theorem C61_unrot_labels {a : Args} {dx dz : Int} {l0 : Layout} (h : unrotSurfaceCodeRectangle dx dz a = .ok l0) (hw : WithParams l0 l)
    {qubits : List String} (hq : l.getQubits [] = .ok qubits) {q q' : String} (h1 : q ∈ qubits) (h2 : q' ∈ qubits)
    (he : labelText q = labelText q') : q = q' := by
  have hg := ((unrot_placed h).params hw).grid
  rw [hg.getQubits_all, Except.ok.injEq] at hq
  subst hq
  obtain ⟨⟨q, s, k⟩, m1, rfl⟩ := List.mem_map.1 h1
  obtain ⟨⟨q', s', k'⟩, m2, rfl⟩ := List.mem_map.1 h2
  exact labelText_inj_of (labels_of_sites (fun s => ⟨_, rfl⟩) m1) (labels_of_sites (fun s => ⟨_, rfl⟩) m2) he

end Props
end SurfaceSim
