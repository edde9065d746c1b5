/-
When `set_trans_h` and `set_trans_s` return.
-/
import Verif.Lemmas.UnrotH

namespace SurfaceSim
open Spec NoiseModel Blocks LayoutLib LogGates

theorem mem_keys_of_placed {l : Layout} {L : List (String × Site × Kind)} {dirs : List (Site × String)} (h : OnGrid l L dirs)
    {q : String} {s : Site} {k : Kind} (hq : (q, s, k) ∈ L) : q ∈ l.graph.nodes.keys := by
  rw [h.keys]
  exact List.mem_map.2 ⟨_, hq, rfl⟩

theorem Placed.coordOf {l : Layout} {L : List (String × Site × Kind)} {dirs : List (Site × String)} {o : Vec}
    (h : Placed l L dirs o) {q : String} {s : Site} {k : Kind} (hq : (q, s, k) ∈ L) :
    l.coordOf q = .ok [(place o s).1, (place o s).2] := by
  have hinv := Layout.inv_of_reachable h.grid.reach
  obtain ⟨⟨q', attrs⟩, hn, rfl⟩ := List.mem_map.1 (mem_keys_of_placed h.grid hq)
  have h1 := h.coords _ s k hq
  rw [Layout.param_node hinv hn] at h1
  have h2 : attrs.get? "coords" = some (.coords [(place o s).1, (place o s).2]) := by
    cases hc : attrs.get? "coords" with
    | none => simp [hc] at h1
    | some v => simpa [hc] using h1
  have h3 : l.qubitCoords.get? q' = some (.coords [(place o s).1, (place o s).2]) := by
    refine Dict.get?_of_mem ?_ ?_
    · have hk : (l.graph.nodes.map Prod.fst).Nodup := by
        have := h.grid.keys
        rw [show l.graph.nodes.map Prod.fst = l.graph.nodes.keys from rfl, this]
        exact h.grid.labels
      have : (l.qubitCoords.map Prod.fst).Sublist (l.graph.nodes.map Prod.fst) := by
        unfold Layout.qubitCoords
        generalize l.graph.nodes = N
        induction N with
        | nil => simp
        | cons n N ih =>
          rw [List.filterMap_cons]
          cases n.2.get? "coords" with
          | none => simp only [Option.map_none]; exact ih.cons _
          | some v => simp only [Option.map_some, List.map_cons]; exact ih.cons_cons _
      exact hk.sublist this
    · unfold Layout.qubitCoords
      exact List.mem_filterMap.2 ⟨_, hn, by simp [h2]⟩
  unfold Layout.coordOf
  rw [(Dict.getE_ok_iff _ _ _).2 h3]
  rfl

theorem Placed.checkFold {l : Layout} {L : List (String × Site × Kind)} {dirs : List (Site × String)} {o : Vec}
    (h : Placed l L dirs o) {code : String} {extra : Int} {q label : String} (hc : l.code = code)
    (hd : l.distanceZ = l.distanceX + extra) (hq : q ∈ dataOf L) (hl : l.logQubits = [label]) :
    LogGates.checkFold l code extra q = .ok () := by
  have hco : ∀ e ∈ L.map Prod.fst, ∃ c, l.coordOf e = .ok c ∧ c.length = 2 := by
    intro e he
    obtain ⟨⟨e', s, k⟩, hm, rfl⟩ := List.mem_map.1 he
    exact ⟨_, h.coordOf hm, rfl⟩
  have hkeys : ∀ e ∈ L.map Prod.fst, e ∈ l.qubitCoords.keys := by
    intro e he
    obtain ⟨c, hc, -⟩ := hco e he
    unfold Layout.coordOf at hc
    cases hg : l.qubitCoords.getE e with
    | error x => simp [hg] at hc
    | ok v =>
      rw [Dict.getE_ok_iff] at hg
      exact (Dict.get?_isSome_iff _ _).1 (by simp [hg])
  have hss : Layout.strictSuperset (L.map Prod.fst) l.qubitCoords.keys = false := by
    unfold Layout.strictSuperset
    rw [Bool.and_eq_false_iff]
    right
    rw [List.any_eq_false]
    intro e he
    simpa using hkeys e he
  obtain ⟨cs, h1, h2⟩ : ∃ cs, mapExcept (L.map Prod.fst) l.coordOf = .ok cs ∧ cs.length = (L.map Prod.fst).length ∧
      ∀ c ∈ cs, c.length = 2 := by
    generalize L.map Prod.fst = Q at hco
    clear hkeys hss
    induction Q with
    | nil => exact ⟨[], rfl, rfl, by simp⟩
    | cons e Q ih =>
      obtain ⟨c, k1, k2⟩ := hco e (by simp)
      obtain ⟨cs, k3, k4, k5⟩ := ih fun e he => hco e (by simp [he])
      refine ⟨c :: cs, by simp [mapExcept, k1, k3], by simp [k4], fun c' hc' => ?_⟩
      rcases List.mem_cons.1 hc' with rfl | hc'
      · exact k2
      · exact k5 c' hc'
  have hne : cs.isEmpty = false := by
    obtain ⟨s, hq⟩ := mem_dataOf.1 hq
    have : 0 < (L.map Prod.fst).length := List.length_pos_of_mem (List.mem_map.2 ⟨_, hq, rfl⟩)
    cases cs with
    | nil => simp at h2; simp [h2] at this
    | cons _ _ => rfl
  unfold LogGates.checkFold dataQubits
  rw [if_neg (not_not.2 hc), if_neg (not_not.2 hd), h.grid.getQubits_data, h.grid.getQubits_all]
  simp only [Layout.getCoords, hss, Bool.false_eq_true, if_false, h1, hne, hl]
  rw [if_neg (by exact not_not.2 hq), if_neg, if_neg (by simp)]
  rw [List.any_eq_true]
  rintro (h | ⟨c, hc, hcl⟩)
  · exact absurd h (by simp)
  · simp [h2.2 c hc] at hcl

section
variable {l : Layout} {a : Args} {d : Int}

/-- A data qubit with two neighbours is in a corner. -/
theorem unrot_corner_site (hg : OnGrid l (unrotEntries a d d) (names unrotDirs)) {q : String} {r c : Int}
    (hq : (q, (r, c), Kind.data) ∈ unrotEntries a d d) (h2 : (l.getNeighbors [q] none).length = 2) :
    2 ≤ d ∧ (r = 0 ∨ r = 2 * d - 2) ∧ (c = 0 ∨ c = 2 * d - 2) := by
  have gq := unrotEntry hq
  simp only [UnrotSite] at gq
  have hn : ∀ (sh : Site) (dir : String), (sh, dir) ∈ names unrotDirs → ∀ k, k ≠ .data →
      UnrotSite d d (r + sh.1) (c + sh.2) k → ∃ n, (n, ((r, c) : Site) + sh, k) ∈ unrotEntries a d d ∧ n ∈ l.getNeighbors [q] none := by
    intro sh dir hd k hk hs
    obtain ⟨n, hn⟩ := exists_unrotEntry (a := a) hs
    refine ⟨n, hn, hg.mem_neighbors.2 ⟨dir, _, _, _, _, sh, hq, hn, hd, rfl, ?_⟩⟩
    cases k <;> simp at hk ⊢
  have h3 : ∀ {s1 s2 s3 : Site} {n1 n2 n3 : String} {k1 k2 k3 : Kind}, (n1, s1, k1) ∈ unrotEntries a d d →
      (n2, s2, k2) ∈ unrotEntries a d d → (n3, s3, k3) ∈ unrotEntries a d d → s1 ≠ s2 → s1 ≠ s3 → s2 ≠ s3 →
      n1 ∈ l.getNeighbors [q] none → n2 ∈ l.getNeighbors [q] none → n3 ∈ l.getNeighbors [q] none → False := by
    intro s1 s2 s3 n1 n2 n3 k1 k2 k3 e1 e2 e3 h12 h13 h23 m1 m2 m3
    have nn : [n1, n2, n3].Nodup := by
      simp only [List.nodup_cons, List.mem_cons, List.not_mem_nil, or_false, not_or, not_false_eq_true, and_true,
        List.nodup_nil]
      exact ⟨⟨fun h => h12 (hg.unique (h ▸ e1) e2).1, fun h => h13 (hg.unique (h ▸ e1) e3).1⟩,
        fun h => h23 (hg.unique (h ▸ e2) e3).1⟩
    have := (nn.subperm (l₂ := l.getNeighbors [q] none) (by
      intro n hn
      simp only [List.mem_cons, List.not_mem_nil, or_false] at hn
      rcases hn with rfl | rfl | rfl <;> assumption)).length_le
    simp at this
    omega
  have hnil : (l.getNeighbors [q] none) ≠ [] := by intro h; simp [h] at h2
  have d2 : 2 ≤ d := by
    obtain ⟨n, hn⟩ := List.exists_mem_of_ne_nil _ hnil
    obtain ⟨dir, s1, k1, ⟨r', c'⟩, k2, sh, e1, e2, -, -, hk⟩ := hg.mem_neighbors.1 hn
    obtain ⟨rfl, rfl⟩ := hg.unique hq e1
    have g2 := unrotEntry e2
    cases k2 <;> simp [UnrotSite] at g2 hk <;> omega
  have hew : ∀ e : Int, (e = 1 ∨ e = -1) → 0 ≤ r + e → r + e < 2 * d - 1 →
      ∃ n k, (n, ((r, c) : Site) + (e, 0), k) ∈ unrotEntries a d d ∧ n ∈ l.getNeighbors [q] none := by
    intro e he h4 h5
    have hdir : ∃ dir, (((e, 0) : Site), dir) ∈ names unrotDirs := by
      rcases he with rfl | rfl
      · exact ⟨"east", by decide⟩
      · exact ⟨"west", by decide⟩
    obtain ⟨dir, hdir⟩ := hdir
    by_cases hc : c % 2 = 0
    · obtain ⟨n, h6, h7⟩ := hn _ dir hdir .z (by simp) (by simp only [UnrotSite]; omega)
      exact ⟨n, _, h6, h7⟩
    · obtain ⟨n, h6, h7⟩ := hn _ dir hdir .x (by simp) (by simp only [UnrotSite]; omega)
      exact ⟨n, _, h6, h7⟩
  have hns : ∀ e : Int, (e = 1 ∨ e = -1) → 0 ≤ c + e → c + e < 2 * d - 1 →
      ∃ n k, (n, ((r, c) : Site) + (0, e), k) ∈ unrotEntries a d d ∧ n ∈ l.getNeighbors [q] none := by
    intro e he h4 h5
    have hdir : ∃ dir, (((0, e) : Site), dir) ∈ names unrotDirs := by
      rcases he with rfl | rfl
      · exact ⟨"north", by decide⟩
      · exact ⟨"south", by decide⟩
    obtain ⟨dir, hdir⟩ := hdir
    by_cases hc : r % 2 = 0
    · obtain ⟨n, h6, h7⟩ := hn _ dir hdir .x (by simp) (by simp only [UnrotSite]; omega)
      exact ⟨n, _, h6, h7⟩
    · obtain ⟨n, h6, h7⟩ := hn _ dir hdir .z (by simp) (by simp only [UnrotSite]; omega)
      exact ⟨n, _, h6, h7⟩
  refine ⟨d2, ?_, ?_⟩
  · by_contra hc
    obtain ⟨n1, k1, e1, m1⟩ := hew 1 (by simp) (by omega) (by omega)
    obtain ⟨n2, k2, e2, m2⟩ := hew (-1) (by simp) (by omega) (by omega)
    obtain ⟨e, he, n3, k3, e3, m3⟩ : ∃ e : Int, (e = 1 ∨ e = -1) ∧ ∃ n k, (n, ((r, c) : Site) + (0, e), k) ∈ unrotEntries a d d ∧
        n ∈ l.getNeighbors [q] none := by
      by_cases h0 : c = 0
      · exact ⟨1, by simp, hns 1 (by simp) (by omega) (by omega)⟩
      · exact ⟨-1, by simp, hns (-1) (by simp) (by omega) (by omega)⟩
    exact h3 e1 e2 e3 (by simp) (by simp) (by simp) m1 m2 m3
  · by_contra hc
    obtain ⟨n1, k1, e1, m1⟩ := hns 1 (by simp) (by omega) (by omega)
    obtain ⟨n2, k2, e2, m2⟩ := hns (-1) (by simp) (by omega) (by omega)
    obtain ⟨e, he, n3, k3, e3, m3⟩ : ∃ e : Int, (e = 1 ∨ e = -1) ∧ ∃ n k, (n, ((r, c) : Site) + (e, 0), k) ∈ unrotEntries a d d ∧
        n ∈ l.getNeighbors [q] none := by
      by_cases h0 : r = 0
      · exact ⟨1, by simp, hew 1 (by simp) (by omega) (by omega)⟩
      · exact ⟨-1, by simp, hew (-1) (by simp) (by omega) (by omega)⟩
    exact h3 e1 e2 e3 (by simp) (by simp) (by simp) m1 m2 m3

/-- The vector at a corner. -/
theorem unrot_corner_exists (hp : Placed l (unrotEntries a d d) (names unrotDirs) a.initPoint) (hd : 2 ≤ d) {q : String}
    {s : Site} (hq : (q, s, Kind.data) ∈ unrotEntries a d d) (h1 : s.1 = 0 ∨ s.1 = 2 * d - 2) (h2 : s.2 = 0 ∨ s.2 = 2 * d - 2) :
    ∃ x, ∃ e1 e2 : Int, (e1 = 1 ∨ e1 = -1) ∧ (e2 = 1 ∨ e2 = -1) ∧
      corner l q (xOf (unrotEntries a d d)) (zOf (unrotEntries a d d)) =
        .ok (x, place a.initPoint s, ((e1 : Rat), (e2 : Rat))) ∧
      (s.1 = 0 → e1 = 1) ∧ (s.1 = 2 * d - 2 → e1 = -1) ∧ (s.2 = 0 → e2 = 1) ∧ (s.2 = 2 * d - 2 → e2 = -1) := by
  obtain ⟨r, c⟩ := s
  simp only at h1 h2 ⊢
  have hx : ∃ x shx dir, (shx, dir) ∈ names unrotDirs ∧ (x, ((r, c) : Site) + shx, Kind.x) ∈ unrotEntries a d d := by
    rcases h2 with rfl | rfl
    · obtain ⟨x, hx⟩ := exists_unrotEntry (a := a) (dx := d) (dz := d) (r := r) (c := 1) (k := .x) (by simp only [UnrotSite]; omega)
      exact ⟨x, (0, 1), "north", by decide, by simpa using hx⟩
    · obtain ⟨x, hx⟩ := exists_unrotEntry (a := a) (dx := d) (dz := d) (r := r) (c := 2 * d - 2 + -1) (k := .x) (by simp only [UnrotSite]; omega)
      exact ⟨x, (0, -1), "south", by decide, by simpa using hx⟩
  have hz : ∃ x shx dir, (shx, dir) ∈ names unrotDirs ∧ (x, ((r, c) : Site) + shx, Kind.z) ∈ unrotEntries a d d := by
    rcases h1 with rfl | rfl
    · obtain ⟨x, hx⟩ := exists_unrotEntry (a := a) (dx := d) (dz := d) (r := 1) (c := c) (k := .z) (by simp only [UnrotSite]; omega)
      exact ⟨x, (1, 0), "east", by decide, by simpa using hx⟩
    · obtain ⟨x, hx⟩ := exists_unrotEntry (a := a) (dx := d) (dz := d) (r := 2 * d - 2 + -1) (c := c) (k := .z) (by simp only [UnrotSite]; omega)
      exact ⟨x, (-1, 0), "west", by decide, by simpa using hx⟩
  obtain ⟨⟨x, p, v⟩, hc⟩ := hp.corner_exists hq hx hz (by
    intro x shx d1 z shz d2 m1 hx m2 hz
    rcases mem_unrotNames.1 m1 with ⟨rfl, -⟩ | ⟨rfl, -⟩ | ⟨rfl, -⟩ | ⟨rfl, -⟩ <;>
    rcases mem_unrotNames.1 m2 with ⟨rfl, -⟩ | ⟨rfl, -⟩ | ⟨rfl, -⟩ | ⟨rfl, -⟩ <;>
    · have gx := unrotEntry hx
      have gz := unrotEntry hz
      simp [UnrotSite] at gx gz
      refine exists_unrotEntry (k := .data) ?_
      simp [UnrotSite]
      omega)
  obtain ⟨rfl, shx, shz, dx', dz', z, n, m1, m2, hx', hz', hn, rfl⟩ := hp.corner_ok hq hc
  refine ⟨x, _, _, ?_, ?_, hc, ?_⟩ <;>
  · rcases mem_unrotNames.1 m1 with ⟨rfl, -⟩ | ⟨rfl, -⟩ | ⟨rfl, -⟩ | ⟨rfl, -⟩ <;>
    rcases mem_unrotNames.1 m2 with ⟨rfl, -⟩ | ⟨rfl, -⟩ | ⟨rfl, -⟩ | ⟨rfl, -⟩ <;>
    · have gx := unrotEntry hx'
      have gz := unrotEntry hz'
      simp [UnrotSite] at gx gz ⊢ <;> omega

theorem unrot_refl_exists {p s : Site} {e1 e2 : Int} (h1 : p.1 = 0 ∧ e1 = 1 ∨ p.1 = 2 * d - 2 ∧ e1 = -1)
    (h2 : p.2 = 0 ∧ e2 = 1 ∨ p.2 = 2 * d - 2 ∧ e2 = -1) {q : String} {k : Kind} (hq : (q, s, k) ∈ unrotEntries a d d) :
    ∃ y, (y, refl p (e1 * e2) s, flipKind k) ∈ unrotEntries a d d := by
  obtain ⟨pr, pc⟩ := p
  obtain ⟨r, c⟩ := s
  have gq := unrotEntry hq
  simp only at h1 h2
  refine exists_unrotEntry ?_
  rcases h1 with ⟨rfl, rfl⟩ | ⟨rfl, rfl⟩ <;> rcases h2 with ⟨rfl, rfl⟩ | ⟨rfl, rfl⟩ <;> cases k <;>
    simp [UnrotSite, flipKind] at gq ⊢ <;> omega

end

theorem unrotSetTransH_exists {a : Args} {d : Int} {l0 l : Layout} {q : String}
    (h : unrotSurfaceCodeRectangle d d a = .ok l0) (hw : WithParams l0 l) (hq : q ∈ dataOf (unrotEntries a d d))
    (h2 : (l.getNeighbors [q] none).length = 2) : ∃ l', unrotSetTransH q l = (.ok (), l') := by
  have hp := (unrot_placed h).params hw
  have hu := isUnrot_of_params h hw
  have hg := hp.grid
  have hd := distances_params hw
  have hd0 := unrot_distances h
  obtain ⟨⟨r, c⟩, hqs⟩ := mem_dataOf.1 hq
  obtain ⟨d2, hr, hc⟩ := unrot_corner_site hg hqs h2
  obtain ⟨x, e1, e2, he1, he2, hcor, k1, k2, k3, k4⟩ := unrot_corner_exists hp d2 hqs hr hc
  obtain ⟨D, hD', hD⟩ := unrot_labelDict hp
  simp only at hr hc k1 k2 k3 k4
  have m1 : (r = 0 ∧ e1 = 1 ∨ r = 2 * d - 2 ∧ e1 = -1) := by
    rcases hr with h | h
    · exact Or.inl ⟨h, k1 h⟩
    · exact Or.inr ⟨h, k2 h⟩
  have m2 : (c = 0 ∧ e2 = 1 ∨ c = 2 * d - 2 ∧ e2 = -1) := by
    rcases hc with h | h
    · exact Or.inl ⟨h, k3 h⟩
    · exact Or.inr ⟨h, k4 h⟩
  have href : ∀ {q' : String} {s : Site} {k : Kind}, (q', s, k) ∈ unrotEntries a d d →
      ∃ y, reflected l D (place a.initPoint (r, c)) ((e1 : Rat), (e2 : Rat)) q' = .ok y := by
    intro q' s k hm
    obtain ⟨y, hy⟩ := unrot_refl_exists (p := (r, c)) m1 m2 hm
    exact ⟨y, (unrot_reflected hp hD he1 he2 hm y).2 ⟨_, hy⟩⟩
  have h1 : dataQubits l = .ok (dataOf (unrotEntries a d d)) := hg.getQubits_data
  have h2 : ancQubits l = .ok (ancOf (unrotEntries a d d)) := hg.getQubits_anc
  have h3 : stabQubits l "x_type" = .ok (xOf (unrotEntries a d d)) := hg.getQubits_x
  have h4 : stabQubits l "z_type" = .ok (zOf (unrotEntries a d d)) := hg.getQubits_z
  obtain ⟨sw, hsw⟩ := foldPairs_exists (l := l) (D := D) (p := place a.initPoint (r, c)) (v := ((e1 : Rat), (e2 : Rat)))
    (dataOf (unrotEntries a d d)) (fun e he => by obtain ⟨s, he⟩ := mem_dataOf.1 he; exact href he) []
  obtain ⟨new, hnew⟩ := newStabH_exists (l := l) (D := D) (p := place a.initPoint (r, c)) (v := ((e1 : Rat), (e2 : Rat)))
    (ancOf (unrotEntries a d d)) (fun e he => by obtain ⟨s, k, he, -⟩ := mem_ancOf.1 he; exact href he) []
  obtain ⟨l1, hs1, hk1⟩ := storeData_exists (label := "trans-h_" ++ a.label) (key := "swap") (cz := sw)
    (s := (dataOf (unrotEntries a d d)).foldl (fun acc d => Dict.set acc (some d) "H") []) (data := dataOf (unrotEntries a d d))
    (l := l) (fun e he => by
      obtain ⟨s, hes⟩ := mem_dataOf.1 he
      refine ⟨mem_keys_of_placed hg hes, ?_, ?_⟩
      · obtain ⟨d', -, h⟩ := (foldPairs_ok _ hsw).1 e he
        exact ⟨_, h⟩
      · rw [get?_const, if_pos he]
        exact ⟨_, rfl⟩)
  obtain ⟨l2, hs2, -⟩ := storeAnc_exists (label := "trans-h_" ++ a.label) (new := new) (anc := ancOf (unrotEntries a d d))
    (l := l1) (fun e he => by
      obtain ⟨s, k, hes, -⟩ := mem_ancOf.1 he
      refine ⟨by rw [hk1]; exact mem_keys_of_placed hg hes, ?_⟩
      obtain ⟨d', -, h⟩ := (newStabH_ok _ hnew).1 e he
      exact ⟨_, h⟩)
  refine ⟨l2, ?_⟩
  unfold unrotSetTransH
  have hdist : l.distanceZ = l.distanceX + 0 := by rw [hd.1, hd.2, hd0.1, hd0.2]; simp
  rw [PyM.bind_ok (PyM.get_apply l), hp.checkFold hu.code hdist hq hu.log]
  simp only [h1, h2, h3, h4, firstLogical_of hu.log, hcor, hD', hsw, hnew, Bind.bind, PyM.bind, PyM.ofExcept, hs1, hs2]

end SurfaceSim
