/-
Where the qubits of generated layouts are.
-/
import Verif.Model.LogGates
import Verif.Lemmas.Coords

namespace SurfaceSim
open Spec LayoutLib LogGates

/-- The coordinates of a grid position. -/
def place (o : Vec) (s : Site) : Vec := ((s.1 : Rat) + o.1, (s.2 : Rat) + o.2)

theorem place_inj (o : Vec) {s s' : Site} (h : place o s = place o s') : s = s' := by
  simp only [place, Prod.mk.injEq, add_left_inj, Int.cast_inj] at h
  exact Prod.ext h.1 h.2

/-- The coordinates and the neighbours stored in a layout drawn on a grid. -/
structure Placed (l : Layout) (L : List (String × Site × Kind)) (dirs : List (Site × String)) (o : Vec) : Prop where
  grid : OnGrid l L dirs
  coords : ∀ q s k, (q, s, k) ∈ L → l.param "coords" q = .ok (.coords [(place o s).1, (place o s).2])
  nbrs : ∀ q s k, (q, s, k) ∈ L → ∃ d, l.param "neighbors" q = .ok (.nbrs d) ∧
    ∀ dir v, (dir, some v) ∈ d ↔ Rel L dirs q dir v

theorem param_setParam {l l' : Layout} {key q : String} {v : Val} (h : l.setParam key q v = .ok l') (p q' : String) :
    l'.param p q' = if p = key ∧ q' = q then .ok v else l.param p q' := by
  unfold Layout.setParam at h
  cases hq : l.graph.nodes.get? q with
  | none => rw [hq] at h; simp at h
  | some attrs =>
    rw [hq] at h
    simp only [Except.ok.injEq] at h
    subst h
    unfold Layout.param
    rw [Dict.get?_set]
    by_cases hqq : q = q'
    · subst hqq
      simp only [if_true, and_true]
      rw [Dict.get?_set]
      by_cases hp : key = p
      · simp [hp]
      · rw [if_neg hp, if_neg (Ne.symm hp), hq]
    · rw [if_neg hqq, if_neg (fun h => hqq h.2.symm)]

theorem param_setParam_ne {l l' : Layout} {key q : String} {v : Val} (h : l.setParam key q v = .ok l') {p : String}
    (hp : p ≠ key) (q' : String) : l'.param p q' = l.param p q' := by
  rw [param_setParam h, if_neg (fun h => hp h.1)]

namespace Placed
variable {l : Layout} {L : List (String × Site × Kind)} {dirs : List (Site × String)} {o : Vec}

theorem setParam {l' : Layout} (h : Placed l L dirs o) {key q : String} {v : Val} (hs : l.setParam key q v = .ok l')
    (hk : key ∉ ["ind", "role", "stab_type", "coords", "neighbors"]) : Placed l' L dirs o := by
  simp only [List.mem_cons, List.not_mem_nil, or_false, not_or] at hk
  refine ⟨h.grid.setParam hs hk.1 hk.2.1 hk.2.2.1, fun q s k hq => ?_, fun q s k hq => ?_⟩
  · rw [param_setParam_ne hs (Ne.symm hk.2.2.2.1)]
    exact h.coords q s k hq
  · rw [param_setParam_ne hs (Ne.symm hk.2.2.2.2)]
    exact h.nbrs q s k hq

theorem params {l0 : Layout} (h : Placed l0 L dirs o) (hw : WithParams l0 l) : Placed l L dirs o := by
  induction hw with
  | refl => exact h
  | set _ hk hs ih => exact ih.setParam hs hk

end Placed

theorem placed_of_init {L : List (String × Site × Kind)} {dataLabel : Site → String} {valid : Site → Bool}
    {dirs : List (Site × String × String)} {mk : String × Site × Kind → Nat → QubitInfo} {i0 : Int}
    {coord : Site → List Rat} (h : GridData L dataLabel valid dirs) (hm : InfoData L dirs i0 coord mk)
    {s : LayoutSetup} (hl : s.layout = some (infosOf L mk)) {l : Layout} (hi : Layout.init s = .ok l) {o : Vec}
    (ho : ∀ s, coord s = [(place o s).1, (place o s).2]) : Placed l L (names dirs) o := by
  obtain ⟨hg, hc⟩ := onGrid_of_init h hm hl hi
  have hinv := Layout.inv_of_init (setup_genuine hm hl) hi
  obtain ⟨infos, hgood, hnodes, -, -⟩ := Layout.good_of_init hi
  have : infos = infosOf L mk := by
    have := hgood.layout
    rw [hl] at this
    simpa using this.symm
  subst this
  have hmem : ∀ (k : Nat) e, L[k]? = some e → (e.1, (mk e k).attrs) ∈ l.graph.nodes := by
    intro k e he
    rw [hnodes]
    unfold Layout.nodesOf
    refine List.mem_map.2 ⟨mk e k, mem_infosOf.2 ⟨e, k, he, rfl⟩, ?_⟩
    simp [hm.qubit]
  refine ⟨hg, fun q s k hq => ?_, fun q s k hq => ?_⟩
  · obtain ⟨i, hi'⟩ := List.mem_iff_getElem?.1 hq
    rw [(hc i _ hi').1, ho]
  · obtain ⟨i, hi'⟩ := List.mem_iff_getElem?.1 hq
    obtain ⟨d, hd, -, hr⟩ := hm.nbrs (q, s, k) i
    refine ⟨d, ?_, hr⟩
    rw [Layout.param_node hinv (hmem i _ hi'), hd]
    rfl

theorem rot_placed {a : Args} {dx dz : Int} {l : Layout} (h : rotSurfaceCodeRectangle dx dz a = .ok l) :
    Placed l (rotEntries a dx dz) (names rotDirs) (a.initPoint.1 - 1, a.initPoint.2 - 1) :=
  placed_of_init (rot_gridData a dx dz) (rot_infoData a dx dz) rfl (rot_init h).2.2 fun _ => rfl

theorem unrot_placed {a : Args} {dx dz : Int} {l : Layout} (h : unrotSurfaceCodeRectangle dx dz a = .ok l) :
    Placed l (unrotEntries a dx dz) (names unrotDirs) a.initPoint :=
  placed_of_init (unrot_gridData a dx dz) (unrot_infoData a dx dz) rfl (unrot_init h).2.2 fun _ => rfl

theorem distances_params {l0 l : Layout} (hw : WithParams l0 l) :
    l.distanceX = l0.distanceX ∧ l.distanceZ = l0.distanceZ := by
  induction hw with
  | refl => exact ⟨rfl, rfl⟩
  | @set l l' _ _ _ _ _ hs ih =>
    rw [← ih.1, ← ih.2]
    unfold Layout.setParam at hs
    split at hs
    · simp at hs
    · simp only [Except.ok.injEq] at hs
      subst hs
      exact ⟨rfl, rfl⟩

theorem rot_distances {a : Args} {dx dz : Int} {l : Layout} (h : rotSurfaceCodeRectangle dx dz a = .ok l) :
    l.distanceX = dx ∧ l.distanceZ = dz := by
  obtain ⟨-, -, -, -, -, -, h1, h2, -⟩ := (Layout.init_ok_iff _ _).1 (rot_init h).2.2
  exact ⟨h2, h1⟩

theorem unrot_distances {a : Args} {dx dz : Int} {l : Layout} (h : unrotSurfaceCodeRectangle dx dz a = .ok l) :
    l.distanceX = dx ∧ l.distanceZ = dz := by
  obtain ⟨-, -, -, -, -, -, h1, h2, -⟩ := (Layout.init_ok_iff _ _).1 (unrot_init h).2.2
  exact ⟨h2, h1⟩

namespace Placed
variable {l : Layout} {L : List (String × Site × Kind)} {dirs : List (Site × String)} {o : Vec}

theorem vecOf (h : Placed l L dirs o) {q : String} {s : Site} {k : Kind} (hq : (q, s, k) ∈ L) :
    LogGates.vecOf l q = .ok (place o s) := by
  unfold LogGates.vecOf
  rw [h.coords q s k hq]

theorem gridCoord (h : Placed l L dirs o) {q : String} {s : Site} {k : Kind} {attrs : Dict String Val}
    (hq : (q, s, k) ∈ L) (hn : (q, attrs) ∈ l.graph.nodes) : Layout.gridCoord (q, attrs) = .ok (place o s) := by
  have h1 := h.coords q s k hq
  rw [Layout.param_node (Layout.inv_of_reachable h.grid.reach) hn] at h1
  simp only [Except.ok.injEq] at h1
  unfold Layout.gridCoord
  have : attrs.getE "coords" = .ok (.coords [(place o s).1, (place o s).2]) := by
    rw [Dict.getE_ok_iff]
    cases hc : attrs.get? "coords" with
    | none => simp [hc] at h1
    | some v => simpa [hc] using h1
  simp only [this]
  rfl

theorem gridCoords (h : Placed l L dirs o) :
    mapExcept l.graph.nodes Layout.gridCoord = .ok (L.map fun e => place o e.2.1) := by
  have hk := h.grid.keys
  have hc : ∀ n ∈ l.graph.nodes, ∀ e ∈ L, e.1 = n.1 → Layout.gridCoord n = .ok (place o e.2.1) := by
    rintro ⟨q, attrs⟩ hn ⟨q', s, k⟩ he rfl
    exact h.gridCoord he hn
  have hk' : l.graph.nodes.map Prod.fst = L.map Prod.fst := hk
  generalize l.graph.nodes = N at hk' hc
  clear hk h
  induction N generalizing L with
  | nil =>
    cases L with
    | nil => rfl
    | cons e L => simp at hk'
  | cons n N ih =>
    cases L with
    | nil => simp at hk'
    | cons e L =>
      simp only [List.map_cons, List.cons.injEq] at hk'
      have h1 := hc n (by simp) e (by simp) hk'.1.symm
      have h2 := ih hk'.2 fun n hn e he => hc n (by simp [hn]) e (by simp [he])
      simp only [mapExcept, h1, h2, List.map_cons]

theorem labelDict_get (h : Placed l L dirs o) {f : Vec → Vec}
    (hf : ∀ e ∈ L, ∀ e' ∈ L, f (place o e.2.1) = f (place o e'.2.1) → e.2.1 = e'.2.1) :
    ∃ D, labelDict f l = .ok D ∧ ∀ v q, D.get? v = some q ↔ ∃ s k, (q, s, k) ∈ L ∧ v = f (place o s) := by
  unfold labelDict
  rw [h.gridCoords]
  refine ⟨_, rfl, ?_⟩
  have hz : (L.map fun e => place o e.2.1).zip l.graph.nodes.keys = L.map fun e => (place o e.2.1, e.1) := by
    rw [h.grid.keys, List.zip_map']
  rw [hz, List.foldl_map]
  have hs := h.grid.sites
  clear hz h
  have key : ∀ (M : List (String × Site × Kind)) (acc : Dict Vec String), (M.map fun e => e.2.1).Nodup →
      (∀ e ∈ M, ∀ e' ∈ M, f (place o e.2.1) = f (place o e'.2.1) → e.2.1 = e'.2.1) → ∀ v q,
      (M.foldl (fun acc e => Dict.set acc (f (place o e.2.1)) e.1) acc).get? v = some q ↔
        (∃ s k, (q, s, k) ∈ M ∧ v = f (place o s)) ∨
        ((∀ e ∈ M, v ≠ f (place o e.2.1)) ∧ acc.get? v = some q) := by
    intro M
    induction M with
    | nil => intro acc _ _ v q; simp
    | cons e M ih =>
      intro acc hn hf v q
      obtain ⟨q0, s0, k0⟩ := e
      simp only [List.map_cons, List.nodup_cons] at hn
      rw [List.foldl_cons, ih _ hn.2 fun e he e' he' => hf e (by simp [he]) e' (by simp [he'])]
      rw [Dict.get?_set]
      have hfresh : ∀ e ∈ M, f (place o s0) ≠ f (place o e.2.1) := fun e he hc =>
        hn.1 (List.mem_map.2 ⟨e, he, (hf (q0, s0, k0) (by simp) e (by simp [he]) hc).symm⟩)
      constructor
      · rintro (⟨s, k, hm, rfl⟩ | ⟨h1, h2⟩)
        · exact Or.inl ⟨s, k, by simp [hm], rfl⟩
        · by_cases hv : f (place o s0) = v
          · rw [if_pos hv] at h2
            simp only [Option.some.injEq] at h2
            exact Or.inl ⟨s0, k0, by simp [h2], hv.symm⟩
          · rw [if_neg hv] at h2
            refine Or.inr ⟨fun e he => ?_, h2⟩
            rcases List.mem_cons.1 he with rfl | he
            · exact Ne.symm hv
            · exact h1 e he
      · rintro (⟨s, k, hm, rfl⟩ | ⟨h1, h2⟩)
        · rcases List.mem_cons.1 hm with hm | hm
          · simp only [Prod.mk.injEq] at hm
            obtain ⟨rfl, rfl, rfl⟩ := hm
            exact Or.inr ⟨hfresh, by simp⟩
          · exact Or.inl ⟨s, k, hm, rfl⟩
        · refine Or.inr ⟨fun e he => h1 e (by simp [he]), ?_⟩
          rw [if_neg fun hc => h1 (q0, s0, k0) (by simp) hc.symm]
          exact h2
  intro v q
  rw [key L [] hs hf v q]
  simp

theorem pyIndex_zero {α : Type} {l : List α} {r : α} (h : pyIndex l 0 = .ok r) : r ∈ l := by
  cases l with
  | nil => simp [pyIndex] at h
  | cons a l =>
    simp [pyIndex] at h
    simp [h]

theorem pyIndex_zero_ok {α : Type} {l : List α} {r : α} (h : r ∈ l) : ∃ r', pyIndex l 0 = .ok r' := by
  cases l with
  | nil => simp at h
  | cons a l => exact ⟨a, by simp [pyIndex]⟩

theorem mem_ancs {d : Dict String (Option String)} {stabs : List String} {r : String × String} :
    (r ∈ d.filterMap fun kv => match kv.2 with
      | some q => if q ∈ stabs then some (kv.1, q) else none
      | none => none) ↔ (r.1, some r.2) ∈ d ∧ r.2 ∈ stabs := by
  rw [List.mem_filterMap]
  constructor
  · rintro ⟨⟨k, v⟩, hkv, he⟩
    cases v with
    | none => simp at he
    | some q =>
      by_cases hq : q ∈ stabs
      · simp only [hq, if_true, Option.some.injEq] at he
        subst he
        exact ⟨hkv, hq⟩
      · simp [hq] at he
  · rintro ⟨h1, h2⟩
    exact ⟨_, h1, by simp [h2]⟩

theorem firstAnc_ok {d : Dict String (Option String)} {stabs : List String} {r : String × String}
    (h : firstAnc d stabs = .ok r) : (r.1, some r.2) ∈ d ∧ r.2 ∈ stabs :=
  mem_ancs.1 (pyIndex_zero h)

/-- What `corner` finds. -/
theorem corner_ok (h : Placed l L dirs o) {q : String} {s : Site} (hq : (q, s, Kind.data) ∈ L) {x : String} {p v : Vec}
    (e : corner l q (xOf L) (zOf L) = .ok (x, p, v)) :
    p = place o s ∧ ∃ shx shz dx dz z n, (shx, dx) ∈ dirs ∧ (shz, dz) ∈ dirs ∧ (x, s + shx, Kind.x) ∈ L ∧
      (z, s + shz, Kind.z) ∈ L ∧ (n, s + shx + shz, Kind.data) ∈ L ∧
      v = (((shx + shz).1 : Rat), ((shx + shz).2 : Rat)) := by
  unfold corner at e
  obtain ⟨d, hd, hr⟩ := h.nbrs q s _ hq
  simp only [hd] at e
  cases hx : firstAnc d (xOf L) with
  | error e' => simp [hx] at e
  | ok rx =>
    obtain ⟨dx, x'⟩ := rx
    cases hz : firstAnc d (zOf L) with
    | error e' => simp [hx, hz] at e
    | ok rz =>
      obtain ⟨dz, z⟩ := rz
      simp only [hx, hz] at e
      cases hn : pyIndex (l.getNeighbors [x'] (some dz)) 0 with
      | error e' => simp [hn] at e
      | ok n =>
        simp only [hn] at e
        obtain ⟨hx1, hx2⟩ := firstAnc_ok hx
        obtain ⟨hz1, hz2⟩ := firstAnc_ok hz
        obtain ⟨sx, hsx⟩ := mem_xOf.1 hx2
        obtain ⟨sz, hsz⟩ := mem_zOf.1 hz2
        obtain ⟨s1, k1, s2, k2, shx, he1, he2, hdx, rfl, hk⟩ := (hr dx x').1 hx1
        obtain ⟨rfl, rfl⟩ := h.grid.unique hq he1
        obtain ⟨rfl, rfl⟩ := h.grid.unique hsx he2
        obtain ⟨s1, k1, s2, k2, shz, he1', he2', hdz, rfl, hk'⟩ := (hr dz z).1 hz1
        obtain ⟨rfl, rfl⟩ := h.grid.unique hq he1'
        obtain ⟨rfl, rfl⟩ := h.grid.unique hsz he2'
        have hn' := pyIndex_zero hn
        unfold Layout.getNeighbors at hn'
        obtain ⟨⟨x'', n'⟩, hp, rfl⟩ := List.mem_map.1 hn'
        obtain ⟨hx', s3, k3, s4, k4, sh, h3, h4, h5, rfl, h7⟩ := h.grid.mem_pairs.1 hp
        simp only [List.mem_singleton] at hx'
        subst hx'
        obtain ⟨rfl, rfl⟩ := h.grid.unique hsx h3
        have := h.grid.shifts _ _ _ h5 hdz
        subst this
        have hk4 : k4 = .data := by
          cases k4 <;> simp at h7 ⊢
        subst hk4
        rw [h.vecOf h4, h.vecOf hq] at e
        simp only [Except.ok.injEq, Prod.mk.injEq] at e
        obtain ⟨rfl, rfl, rfl⟩ := e
        refine ⟨rfl, shx, sh, dx, dz, z, n', hdx, hdz, hsx, hsz, h4, ?_⟩
        simp only [place]
        ext <;> simp <;> ring

theorem firstAnc_exists {d : Dict String (Option String)} {stabs : List String} {k q : String} (h : (k, some q) ∈ d)
    (hq : q ∈ stabs) : ∃ r, firstAnc d stabs = .ok r :=
  pyIndex_zero_ok (r := (k, q)) (mem_ancs.2 ⟨h, hq⟩)

/-- When `corner` returns. -/
theorem corner_exists (h : Placed l L dirs o) {q : String} {s : Site} (hq : (q, s, Kind.data) ∈ L)
    (hx : ∃ x shx d, (shx, d) ∈ dirs ∧ (x, s + shx, Kind.x) ∈ L)
    (hz : ∃ z shz d, (shz, d) ∈ dirs ∧ (z, s + shz, Kind.z) ∈ L)
    (hn : ∀ x shx d z shz d', (shx, d) ∈ dirs → (x, s + shx, Kind.x) ∈ L → (shz, d') ∈ dirs →
      (z, s + shz, Kind.z) ∈ L → ∃ n, (n, s + shx + shz, Kind.data) ∈ L) :
    ∃ r, corner l q (xOf L) (zOf L) = .ok r := by
  unfold corner
  obtain ⟨d, hd, hr⟩ := h.nbrs q s _ hq
  simp only [hd]
  obtain ⟨x, shx, dx, hdx, hx⟩ := hx
  obtain ⟨z, shz, dz, hdz, hz⟩ := hz
  obtain ⟨⟨dx', x'⟩, hfx⟩ := firstAnc_exists ((hr dx x).2 ⟨s, _, _, _, shx, hq, hx, hdx, rfl, by simp⟩)
    (mem_xOf.2 ⟨_, hx⟩)
  obtain ⟨⟨dz', z'⟩, hfz⟩ := firstAnc_exists ((hr dz z).2 ⟨s, _, _, _, shz, hq, hz, hdz, rfl, by simp⟩)
    (mem_zOf.2 ⟨_, hz⟩)
  simp only [hfx, hfz]
  obtain ⟨hx1, hx2⟩ := firstAnc_ok hfx
  obtain ⟨hz1, hz2⟩ := firstAnc_ok hfz
  obtain ⟨sx, hsx⟩ := mem_xOf.1 hx2
  obtain ⟨sz, hsz⟩ := mem_zOf.1 hz2
  obtain ⟨s1, k1, s2, k2, shx', he1, he2, hdx', rfl, hk⟩ := (hr dx' x').1 hx1
  obtain ⟨rfl, rfl⟩ := h.grid.unique hq he1
  obtain ⟨rfl, rfl⟩ := h.grid.unique hsx he2
  obtain ⟨s1, k1, s2, k2, shz', he1', he2', hdz', rfl, hk'⟩ := (hr dz' z').1 hz1
  obtain ⟨rfl, rfl⟩ := h.grid.unique hq he1'
  obtain ⟨rfl, rfl⟩ := h.grid.unique hsz he2'
  obtain ⟨n, hn⟩ := hn x' shx' dx' z' shz' dz' hdx' hsx hdz' hsz
  have hm : n ∈ l.getNeighbors [x'] (some dz') := by
    unfold Layout.getNeighbors
    exact List.mem_map.2 ⟨(x', n), h.grid.mem_pairs.2 ⟨by simp, _, _, _, _, shz', hsx, hn, hdz', rfl, by simp⟩, rfl⟩
  obtain ⟨n', hn'⟩ := pyIndex_zero_ok hm
  simp only [hn']
  have hn'' := pyIndex_zero hn'
  unfold Layout.getNeighbors at hn''
  obtain ⟨⟨x'', n''⟩, hp, rfl⟩ := List.mem_map.1 hn''
  obtain ⟨hx', s3, k3, s4, k4, sh, h3, h4, h5, rfl, h7⟩ := h.grid.mem_pairs.1 hp
  rw [h.vecOf h4, h.vecOf hq]
  exact ⟨_, rfl⟩

end Placed

/-! ### storing parameters -/

theorem WithParams.trans {l0 l l' : Layout} (h : WithParams l0 l) (h' : WithParams l l') : WithParams l0 l' := by
  induction h' with
  | refl => exact h
  | set _ hk hs ih => exact ih.set hk hs

theorem setParam_ok {l : Layout} {key q : String} {v : Val} (h : q ∈ l.graph.nodes.keys) :
    ∃ l', l.setParam key q v = .ok l' ∧ l'.graph.nodes.keys = l.graph.nodes.keys := by
  unfold Layout.setParam
  cases hq : l.graph.nodes.get? q with
  | none => exact absurd h ((Dict.get?_eq_none_iff _ _).1 hq)
  | some attrs =>
    refine ⟨_, rfl, ?_⟩
    rw [Dict.keys_set, if_pos h]

/-- The loops that store parameters. -/
theorem forEach_store {label : String} (hk : label ∉ ["ind", "role", "stab_type", "coords", "neighbors"])
    {f : String → Except Err Val} (qs : List String) {l l' : Layout}
    (h : PyM.forEach qs (fun q => PyM.bind (PyM.ofExcept (f q)) fun v => store label q v) l = (.ok (), l')) :
    WithParams l l' ∧ (∀ q ∈ qs, ∃ v, f q = .ok v ∧ l'.param label q = .ok v) ∧
      ∀ p q, (p = label → q ∉ qs) → l'.param p q = l.param p q := by
  induction qs generalizing l with
  | nil =>
    simp only [PyM.forEach, PyM.pure_apply', Prod.mk.injEq, true_and] at h
    subst h
    exact ⟨.refl, by simp, fun _ _ _ => rfl⟩
  | cons q qs ih =>
    simp only [PyM.forEach] at h
    cases hf : f q with
    | error e =>
      simp [PyM.bind, PyM.ofExcept, hf] at h
    | ok v =>
      cases hs : l.setParam label q v with
      | error e => simp [PyM.bind, PyM.ofExcept, hf, store, hs] at h
      | ok l1 =>
        simp only [PyM.bind, PyM.ofExcept, hf, store, hs] at h
        obtain ⟨h1, h2, h3⟩ := ih (l := l1) h
        refine ⟨WithParams.trans (WithParams.refl.set hk hs) h1, fun q' hq' => ?_, fun p q' hp => ?_⟩
        · by_cases hm : q' ∈ qs
          · exact h2 q' hm
          · rcases List.mem_cons.1 hq' with rfl | hq'
            · refine ⟨v, hf, ?_⟩
              rw [h3 label q' fun _ => hm, param_setParam hs]
              simp
            · exact absurd hq' hm
        · rw [h3 p q' fun he hm => hp he (List.mem_cons_of_mem _ hm), param_setParam hs, if_neg]
          rintro ⟨rfl, rfl⟩
          exact hp rfl (by simp)

theorem forEach_store_exists {label : String} {f : String → Except Err Val} (qs : List String) {l : Layout}
    (h : ∀ q ∈ qs, q ∈ l.graph.nodes.keys ∧ ∃ v, f q = .ok v) :
    ∃ l', PyM.forEach qs (fun q => PyM.bind (PyM.ofExcept (f q)) fun v => store label q v) l = (.ok (), l') ∧
      l'.graph.nodes.keys = l.graph.nodes.keys := by
  induction qs generalizing l with
  | nil => exact ⟨l, rfl, rfl⟩
  | cons q qs ih =>
    obtain ⟨hq, v, hv⟩ := h q (by simp)
    obtain ⟨l1, h1, h2⟩ := setParam_ok (key := label) (v := v) hq
    obtain ⟨l', h3, h4⟩ := ih (l := l1) fun q' hq' => ⟨h2 ▸ (h q' (by simp [hq'])).1, (h q' (by simp [hq'])).2⟩
    refine ⟨l', ?_, h4.trans h2⟩
    simp only [PyM.forEach, PyM.bind, PyM.ofExcept, hv, store, h1]
    exact h3

end SurfaceSim
