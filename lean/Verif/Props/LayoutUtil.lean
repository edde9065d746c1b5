/-
Theorems about `set_coords` and `index_chain`.
-/
import Verif.Lemmas.LayoutUtil
import Verif.Lemmas.Witness

namespace SurfaceSim.Props
open Spec LayoutUtil LayoutLib

variable {l : Layout}

theorem moveBy_compass {dir : String} {sh : Rat × Rat} (h : (dir, sh) ∈ compass) (u v : Rat) :
    moveBy [u, v] dir = [u + sh.1, v + sh.2] := by
  have e1 : splitDir "north_east" = ["north", "east"] := by decide +kernel
  have e2 : splitDir "north_west" = ["north", "west"] := by decide +kernel
  have e3 : splitDir "south_east" = ["south", "east"] := by decide +kernel
  have e4 : splitDir "south_west" = ["south", "west"] := by decide +kernel
  simp only [compass, List.mem_cons, Prod.mk.injEq, List.not_mem_nil, or_false] at h
  rcases h with ⟨rfl, rfl⟩ | ⟨rfl, rfl⟩ | ⟨rfl, rfl⟩ | ⟨rfl, rfl⟩
  · simp [moveBy, e1, getShift]
  · simp [moveBy, e2, getShift]
  · simp [moveBy, e3, getShift]
  · simp [moveBy, e4, getShift]

/-- **C54** If a layout can be drawn in the plane such that neighbours in diagonal directions are one step away along both axes, then
`set_coords` returns, every qubit connected to the last one gets its position relative to the last one, and nothing else
changes. -/
theorem C54_positions (hr : Reachable l) {qs : List String} {q0 : String} (hq : l.getQubits [] = .ok qs)
    (h0 : qs.getLast? = some q0) {override : Bool} (hov : override = true ∨ l.qubitCoords = []) {pos : String → Rat × Rat}
    (hd : Drawn l pos) :
    ∃ l', setCoords override l = (.ok (), l') ∧ OnlyAttr "coords" l l' ∧
      (∀ q, Leads l q0 q → l'.param "coords" q = .ok (.coords [(pos q).1 - (pos q0).1, (pos q).2 - (pos q0).2])) ∧
      ∀ q, ¬ Leads l q0 q → l'.param "coords" q = l.param "coords" q := by
  have hl := Layout.inv_of_reachable hr
  have hs : l.graph.nodes.keys.getLast? = some q0 := by
    simp only [Layout.getQubits, List.isEmpty_nil, if_true, Except.ok.injEq] at hq
    rw [hq, h0]
  obtain ⟨l', h1, h2, h3, h4⟩ := setCoords_spec hl hs hov
    (P := fun q c => c = [(pos q).1 - (pos q0).1, (pos q).2 - (pos q0).2]) (by simp) (by
      rintro q c q' dir rfl he -
      obtain ⟨sh, hm, hp⟩ := hd q q' dir ((mem_succs hl).1 he)
      rw [moveBy_compass hm, hp]
      congr 1
      · ring
      · congr 1
        ring)
  refine ⟨l', h1, h2, fun q hq => ?_, h4⟩
  obtain ⟨c, rfl, h⟩ := h3 q hq
  exact h

/-- **C54** `set_coords` returns for every layout with qubits, whatever the directions: the loop ends. -/
theorem C54_returns (hr : Reachable l) {qs : List String} {q0 : String} (hq : l.getQubits [] = .ok qs)
    (h0 : qs.getLast? = some q0) {override : Bool} (hov : override = true ∨ l.qubitCoords = []) :
    ∃ l', setCoords override l = (.ok (), l') ∧ OnlyAttr "coords" l l' ∧
      ∀ q, Leads l q0 q → ∃ c, l'.param "coords" q = .ok (.coords c) := by
  have hl := Layout.inv_of_reachable hr
  have hs : l.graph.nodes.keys.getLast? = some q0 := by
    simp only [Layout.getQubits, List.isEmpty_nil, if_true, Except.ok.injEq] at hq
    rw [hq, h0]
  obtain ⟨l', h1, h2, h3, -⟩ := setCoords_spec hl hs hov (P := fun _ _ => True) trivial fun _ _ _ _ _ _ _ => trivial
  exact ⟨l', h1, h2, fun q hq => (h3 q hq).imp fun _ h => h.2⟩

/-- **C54** Without `override`, `set_coords` raises ValueError and changes nothing if a qubit has coordinates; and it raises IndexError
for a layout without qubits. -/
theorem C54_raises (l : Layout) :
    (l.qubitCoords ≠ [] → setCoords false l = (.error .valueError, l)) ∧
    (l.getQubits [] = .ok [] → ∀ override, setCoords override l = (.error .indexError, l)) := by
  constructor
  · intro h
    unfold setCoords
    simp only [bind, PyM.bind, PyM.get]
    rw [if_pos (by simpa using h)]
    rfl
  · intro h override
    simp only [Layout.getQubits, List.isEmpty_nil, if_true, Except.ok.injEq] at h
    have hn : l.graph.nodes = [] := by simpa [Dict.keys] using h
    have hc : l.qubitCoords = [] := by simp [Layout.qubitCoords, hn]
    unfold setCoords
    simp only [bind, PyM.bind, PyM.get]
    rw [if_neg (by simp [hc]), h]
    rfl

/-! ### rotated codes -/

section
variable {a : Args} {dx dz : Int}

theorem Leads.trans {a b c : String} (h : Leads l a b) (h' : Leads l b c) : Leads l a c := by
  induction h' with
  | refl => exact h
  | step _ hb ih => exact ih.step hb

/-- Neighbours of neighbours. -/
theorem two_steps {q x q' : String} (h1 : x ∈ l.getNeighbors [q] none) (h2 : q' ∈ l.getNeighbors [x] none) : Leads l q q' :=
  (Leads.refl.step h1).step h2

theorem rot_nbr_symm (h : OnGrid l (rotEntries a dx dz) (names rotDirs)) {q q' : String} (hq : q' ∈ l.getNeighbors [q] none) :
    q ∈ l.getNeighbors [q'] none := by
  rw [h.mem_neighbors] at hq ⊢
  obtain ⟨dir, s, k, s', k', sh, h1, h2, h3, h4, h5⟩ := hq
  have : ∃ dir', (-sh, dir') ∈ names rotDirs := by
    rcases mem_rotNames.1 h3 with ⟨rfl, -⟩ | ⟨rfl, -⟩ | ⟨rfl, -⟩ | ⟨rfl, -⟩
    · exact ⟨_, mem_rotNames.2 (Or.inr (Or.inr (Or.inr ⟨rfl, rfl⟩)))⟩
    · exact ⟨_, mem_rotNames.2 (Or.inr (Or.inr (Or.inl ⟨rfl, rfl⟩)))⟩
    · exact ⟨_, mem_rotNames.2 (Or.inr (Or.inl ⟨rfl, rfl⟩))⟩
    · exact ⟨_, mem_rotNames.2 (Or.inl ⟨rfl, rfl⟩)⟩
  obtain ⟨dir', hd⟩ := this
  refine ⟨dir', s', k', s, k, -sh, h2, h1, hd, by rw [h4]; simp, ?_⟩
  tauto

theorem rot_leads_symm (h : OnGrid l (rotEntries a dx dz) (names rotDirs)) {q q' : String} (hq : Leads l q q') : Leads l q' q := by
  induction hq with
  | refl => exact .refl
  | step _ hb ih => exact Leads.trans (Leads.refl.step (rot_nbr_symm h hb)) ih

theorem rot_via (h : OnGrid l (rotEntries a dx dz) (names rotDirs)) {q q' x : String} {r c r' c' r0 c0 : Int} {k : Kind}
    (hx : (x, (r0, c0), k) ∈ rotEntries a dx dz) (hk : k ≠ .data) (hq : (q, (r, c), Kind.data) ∈ rotEntries a dx dz)
    (hq' : (q', (r', c'), Kind.data) ∈ rotEntries a dx dz) (h1 : (r = r0 + 1 ∨ r = r0 - 1) ∧ (c = c0 + 1 ∨ c = c0 - 1))
    (h2 : (r' = r0 + 1 ∨ r' = r0 - 1) ∧ (c' = c0 + 1 ∨ c' = c0 - 1)) : Leads l q q' :=
  two_steps (rot_nbr_symm h ((rotN h hx hk hq).2 h1)) ((rotN h hx hk hq').2 h2)

theorem rot_at {q : String} {r c r' c' : Int} {k : Kind} (h : (q, (r, c), k) ∈ rotEntries a dx dz) (hr : r' = r) (hc : c' = c) :
    (q, (r', c'), k) ∈ rotEntries a dx dz := by
  subst hr hc
  exact h

/-- Data qubits next to each other in a row share an X ancilla. -/
theorem rot_right (h : OnGrid l (rotEntries a dx dz) (names rotDirs)) {q q' : String} {r c : Int}
    (hq : (q, (r, c), Kind.data) ∈ rotEntries a dx dz) (hq' : (q', (r, c + 2), Kind.data) ∈ rotEntries a dx dz) : Leads l q q' := by
  have g := rotEntry hq
  have g' := rotEntry hq'
  simp only [RotSite] at g g'
  by_cases hm : (r + 1 - (c + 1)) % 4 = 2
  · obtain ⟨x, hx⟩ := exists_rotEntry (a := a) (show RotSite dx dz (r + 1) (c + 1) .x by simp only [RotSite]; omega)
    exact rot_via h hx (by simp) hq hq' (by omega) (by omega)
  · obtain ⟨x, hx⟩ := exists_rotEntry (a := a) (show RotSite dx dz (r - 1) (c + 1) .x by simp only [RotSite]; omega)
    exact rot_via h hx (by simp) hq hq' (by omega) (by omega)

/-- Data qubits next to each other in a column share a Z ancilla. -/
theorem rot_up (h : OnGrid l (rotEntries a dx dz) (names rotDirs)) {q q' : String} {r c : Int}
    (hq : (q, (r, c), Kind.data) ∈ rotEntries a dx dz) (hq' : (q', (r + 2, c), Kind.data) ∈ rotEntries a dx dz) : Leads l q q' := by
  have g := rotEntry hq
  have g' := rotEntry hq'
  simp only [RotSite] at g g'
  by_cases hm : (r + 1 - (c + 1)) % 4 = 0
  · obtain ⟨x, hx⟩ := exists_rotEntry (a := a) (show RotSite dx dz (r + 1) (c + 1) .z by simp only [RotSite]; omega)
    exact rot_via h hx (by simp) hq hq' (by omega) (by omega)
  · obtain ⟨x, hx⟩ := exists_rotEntry (a := a) (show RotSite dx dz (r + 1) (c - 1) .z by simp only [RotSite]; omega)
    exact rot_via h hx (by simp) hq hq' (by omega) (by omega)

theorem rot_from_corner (h : OnGrid l (rotEntries a dx dz) (names rotDirs)) {b : String}
    (hb : (b, (1, 1), Kind.data) ∈ rotEntries a dx dz) :
    ∀ (i j : Nat) (q : String), (q, (2 * (i : Int) + 1, 2 * (j : Int) + 1), Kind.data) ∈ rotEntries a dx dz → Leads l b q := by
  intro i
  induction i with
  | zero =>
    intro j
    induction j with
    | zero =>
      intro q hq
      have := h.unique' hb (show (q, ((1 : Int), (1 : Int)), Kind.data) ∈ rotEntries a dx dz by simpa using hq)
      rw [this.1]
      exact .refl
    | succ j ih =>
      intro q hq
      have g := rotEntry hq
      simp only [RotSite] at g
      push_cast at g
      obtain ⟨p, hp⟩ := exists_rotEntry (a := a) (show RotSite dx dz (2 * ((0 : Nat) : Int) + 1) (2 * (j : Int) + 1) .data by
        simp only [RotSite]; omega)
      exact Leads.trans (ih p hp) (rot_right h hp (rot_at hq rfl (by push_cast; omega)))
  | succ i ih =>
    intro j q hq
    have g := rotEntry hq
    simp only [RotSite] at g
    push_cast at g
    obtain ⟨p, hp⟩ := exists_rotEntry (a := a) (show RotSite dx dz (2 * (i : Int) + 1) (2 * (j : Int) + 1) .data by
      simp only [RotSite]; omega)
    exact Leads.trans (ih j p hp) (rot_up h hp (rot_at hq (by push_cast; omega) rfl))

/-- All qubits of a rotated code are connected. -/
theorem rot_connected (h : OnGrid l (rotEntries a dx dz) (names rotDirs)) (hx : 1 ≤ dx) (hz : 1 ≤ dz) {q q' : String}
    (hq : q ∈ (rotEntries a dx dz).map Prod.fst) (hq' : q' ∈ (rotEntries a dx dz).map Prod.fst) : Leads l q q' := by
  obtain ⟨b, hb⟩ := exists_rotEntry (a := a) (show RotSite dx dz 1 1 .data by simp only [RotSite]; omega)
  have key : ∀ q ∈ (rotEntries a dx dz).map Prod.fst, Leads l b q := by
    intro q hq
    obtain ⟨⟨q, ⟨r, c⟩, k⟩, hm, rfl⟩ := List.mem_map.1 hq
    have g := rotEntry hm
    have data : ∀ {p : String} {r c : Int}, (p, (r, c), Kind.data) ∈ rotEntries a dx dz → Leads l b p := by
      intro p r c hp
      have g := rotEntry hp
      simp only [RotSite] at g
      exact rot_from_corner h hb (r / 2).toNat (c / 2).toNat p (rot_at hp (by omega) (by omega))
    have anc : k ≠ .data → (∃ r' c', RotSite dx dz r' c' .data ∧ (r' = r + 1 ∨ r' = r - 1) ∧ (c' = c + 1 ∨ c' = c - 1)) →
        Leads l b q := by
      rintro hk ⟨r', c', hs, hn⟩
      obtain ⟨p, hp⟩ := exists_rotEntry (a := a) hs
      exact (data hp).step (rot_nbr_symm h ((rotN h hm hk hp).2 hn))
    cases k with
    | data => exact data hm
    | x =>
      simp only [RotSite] at g
      refine anc (by simp) ?_
      by_cases hr : r = 0
      · exact ⟨r + 1, c + 1, by simp only [RotSite]; omega, by omega, by omega⟩
      · exact ⟨r - 1, c + 1, by simp only [RotSite]; omega, by omega, by omega⟩
    | z =>
      simp only [RotSite] at g
      refine anc (by simp) ?_
      by_cases hr : c = 0
      · exact ⟨r + 1, c + 1, by simp only [RotSite]; omega, by omega, by omega⟩
      · exact ⟨r + 1, c - 1, by simp only [RotSite]; omega, by omega, by omega⟩
  exact Leads.trans (rot_leads_symm h (key q hq)) (key q' hq')

/-- **C54** Rotated codes of all sizes: `set_coords` recomputes the coordinates of all qubits from the neighbours; the results are the
original coordinates relative to the last qubit. -/
theorem C54_rot {l0 : Layout} (h : rotSurfaceCodeRectangle dx dz a = .ok l0) (hw : WithParams l0 l) (hx : 1 ≤ dx) (hz : 1 ≤ dz) :
    ∃ l' qs q0, l.getQubits [] = .ok qs ∧ qs.getLast? = some q0 ∧ setCoords true l = (.ok (), l') ∧ OnlyAttr "coords" l l' ∧
      ∀ q ∈ qs, ∃ u v u0 v0, l.param "coords" q = .ok (.coords [u, v]) ∧ l.param "coords" q0 = .ok (.coords [u0, v0]) ∧
        l'.param "coords" q = .ok (.coords [u - u0, v - v0]) := by
  have hp := (rot_placed h).params hw
  have hg := hp.grid
  have hne : (rotEntries a dx dz).map Prod.fst ≠ [] := by
    obtain ⟨b, hb⟩ := exists_rotEntry (a := a) (show RotSite dx dz 1 1 .data by simp only [RotSite]; omega)
    intro h
    have := List.mem_map_of_mem (f := Prod.fst) hb
    rw [h] at this
    simp at this
  obtain ⟨q0, h0⟩ : ∃ q0, ((rotEntries a dx dz).map Prod.fst).getLast? = some q0 := ⟨_, List.getLast?_eq_some_getLast hne⟩
  set o : LogGates.Vec := (a.initPoint.1 - 1, a.initPoint.2 - 1) with ho
  have hsite : ∀ q, ∃ s : Site, ∀ s' k, (q, s', k) ∈ rotEntries a dx dz → s' = s := by
    intro q
    by_cases hq : ∃ s k, (q, s, k) ∈ rotEntries a dx dz
    · obtain ⟨s, k, hq⟩ := hq
      exact ⟨s, fun s' k' h' => (hg.unique h' hq).1⟩
    · exact ⟨(0, 0), fun s' k' h' => absurd ⟨s', k', h'⟩ hq⟩
  choose site hsite using hsite
  obtain ⟨l', h1, h2, h3, -⟩ := C54_positions (override := true) (pos := fun q => place o (site q)) hg.reach hg.getQubits_all h0 (Or.inl rfl) (by
    intro q q' dir hm
    obtain ⟨s, k, s', k', sh, e1, e2, e3, rfl, -⟩ := (hg.nbr q q' dir).1 hm
    beta_reduce
    rw [← hsite q _ _ e1, ← hsite q' _ _ e2]
    rcases mem_rotNames.1 e3 with ⟨rfl, rfl⟩ | ⟨rfl, rfl⟩ | ⟨rfl, rfl⟩ | ⟨rfl, rfl⟩
    · refine ⟨(1, 1), by simp [compass], ?_⟩
      simp only [place, Prod.fst_add, Prod.snd_add, Int.cast_add, Int.cast_one]
      congr 1 <;> ring
    · refine ⟨(1, -1), by simp [compass], ?_⟩
      simp only [place, Prod.fst_add, Prod.snd_add, Int.cast_add, Int.cast_one, Int.cast_neg]
      congr 1 <;> ring
    · refine ⟨(-1, 1), by simp [compass], ?_⟩
      simp only [place, Prod.fst_add, Prod.snd_add, Int.cast_add, Int.cast_one, Int.cast_neg]
      congr 1 <;> ring
    · refine ⟨(-1, -1), by simp [compass], ?_⟩
      simp only [place, Prod.fst_add, Prod.snd_add, Int.cast_add, Int.cast_one, Int.cast_neg]
      congr 1 <;> ring)
  have hpos : ∀ q ∈ (rotEntries a dx dz).map Prod.fst,
      l.param "coords" q = .ok (.coords [(place o (site q)).1, (place o (site q)).2]) := by
    intro q hq
    obtain ⟨⟨q, s, k⟩, hm, rfl⟩ := List.mem_map.1 hq
    rw [hp.coords q s k hm, hsite q s k hm]
  have hq0 := List.mem_of_getLast? h0
  exact ⟨l', _, q0, hg.getQubits_all, h0, h1, h2, fun q hq =>
    ⟨_, _, _, _, hpos q hq, hpos q0 hq0, h3 q (rot_connected hg hx hz hq0 hq)⟩⟩

end

theorem pair_of {α β : Type} {x : α × β} {a : α} (h : x.1 = a) : x = (a, x.2) := by
  rw [← h]

/-! ### unrotated codes -/

theorem moveBy_unrot {dir : String} (h : dir ∈ ["north", "south", "east", "west"]) {c : List Rat} (hc : c ≠ []) :
    (moveBy c dir).length = 1 := by
  have e : (splitDir dir).length = 1 := by
    revert dir
    decide +kernel
  unfold moveBy
  rw [List.length_zipWith, List.length_map, e]
  cases c with
  | nil => exact absurd rfl hc
  | cons _ _ => simp

/-- **C54** For the unrotated codes the directions have one word, and the coordinates of all qubits but the last one get a single number: they
cannot tell the rows from the columns. -/
theorem C54_unrot_one_number {a : Args} {dx dz : Int} {l0 : Layout} (h : unrotSurfaceCodeRectangle dx dz a = .ok l0)
    (hw : WithParams l0 l) {qs : List String} {q0 : String} (hq : l.getQubits [] = .ok qs) (h0 : qs.getLast? = some q0) :
    ∃ l', setCoords true l = (.ok (), l') ∧
      ∀ q, Leads l q0 q → q ≠ q0 → ∃ x, l'.param "coords" q = .ok (.coords [x]) := by
  have hg := ((unrot_placed h).params hw).grid
  have hl := Layout.inv_of_reachable hg.reach
  have hs : l.graph.nodes.keys.getLast? = some q0 := by
    simp only [Layout.getQubits, List.isEmpty_nil, if_true, Except.ok.injEq] at hq
    rw [hq, h0]
  obtain ⟨l', h1, -, h3, -⟩ := setCoords_spec hl hs (override := true) (Or.inl rfl)
    (P := fun q c => c ≠ [] ∧ (q ≠ q0 → c.length = 1)) (by simp) (by
      rintro q c q' dir ⟨hc, -⟩ he -
      obtain ⟨s, k, s', k', sh, -, -, e3, -, -⟩ := (hg.nbr q q' dir).1 ((mem_succs hl).1 he)
      have hd : dir ∈ ["north", "south", "east", "west"] := by
        obtain ⟨d', e3⟩ := mem_names.1 e3
        rcases mem_unrotDirs.1 e3 with ⟨-, rfl, -⟩ | ⟨-, rfl, -⟩ | ⟨-, rfl, -⟩ | ⟨-, rfl, -⟩ <;> simp
      have := moveBy_unrot hd hc
      exact ⟨by intro h; rw [h] at this; simp at this, fun _ => this⟩)
  refine ⟨l', h1, fun q hq hne => ?_⟩
  obtain ⟨c, ⟨-, hc⟩, h⟩ := h3 q hq
  obtain ⟨x, rfl⟩ := List.length_eq_one_iff.1 (hc hne)
  exact ⟨x, h⟩

/-- **C54** `set_coords` gives different qubits of the unrotated code of distance 2 the same coordinates. -/
theorem C54_unrot_wrong : ∃ l l', unrotSurfaceCode 2 unrotDefault = .ok l ∧ setCoords true l = (.ok (), l') ∧
    ∃ c, l'.param "coords" "D2" = .ok (.coords c) ∧ l'.param "coords" "D3" = .ok (.coords c) := by
  exact ⟨layoutOf (unrotSurfaceCode 2 unrotDefault), _, ok_layoutOf (by decide +kernel), pair_of (by decide +kernel), [-2],
    by decide +kernel, by decide +kernel⟩

/-! ### chains -/

/-- **C55** On a chain of at least two qubits, starting from one of its ends, `index_chain` numbers the qubits in order, and changes
nothing else. -/
theorem C55_path (hr : Reachable l) {q : String} {qs : List String} (hp : IsPath l (q :: qs)) (h2 : qs ≠ []) :
    ∃ l', indexChain q l = (.ok (), l') ∧ OnlyAttr "chain_ind" l l' ∧
      ∀ i (h : i < (q :: qs).length), l'.param "chain_ind" (q :: qs)[i] = .ok (.int i) := by
  have hl := Layout.inv_of_reachable hr
  have hall : ∀ x, x ∈ l.graph.nodes.keys ↔ x ∈ q :: qs := hp.qubits _ (by simp [Layout.getQubits])
  have hlen : l.graph.nodes.keys.length = qs.length + 1 := by
    have := ((List.perm_ext_iff_of_nodup hl.nodup hp.nodup).2 hall).length_eq
    simpa using this
  have hf : qs.length < fuel l := by
    have h1 : l.graph.nodes.length = qs.length + 1 := by simpa [Dict.keys] using hlen
    unfold fuel
    rw [h1]
    calc qs.length < qs.length + 1 + 1 := by omega
      _ = (qs.length + 1 + 1) ^ 1 := by rw [pow_one]
      _ ≤ (qs.length + 1 + 1) ^ (qs.length + 1) := Nat.pow_le_pow_right (by omega) (by omega)
  have h2' : 2 ≤ (q :: qs).length := by
    cases qs with
    | nil => exact absurd rfl h2
    | cons _ _ => simp
  obtain ⟨l1, done, e1, e2, e3, e4⟩ := chainLoop_path hl hp h2' qs [] q (fuel l) l rfl hf (.refl _ _) (by simp)
  obtain ⟨l', f1, f2, f3⟩ := noneLoop (done := done) l.graph.nodes.keys l1 e3 fun _ h => h
  refine ⟨l', ?_, f2, fun i hi => ?_⟩
  · rw [indexChain_eq ((hall q).2 (by simp))]
    exact (PyM.bind_ok e1).trans f1
  · rw [f3, if_neg, e4 i hi]
    rintro ⟨-, h⟩
    exact h ((e2 _).2 (List.getElem_mem hi))

/-- **C55** `index_chain` returns exactly if the initial qubit is in the layout and every qubit connected to it has one or two neighbours.
Then these qubits get integers, and the other ones `None`.  Otherwise it raises ValueError.  In both cases nothing but `chain_ind`
changes. -/
theorem C55_returns_iff (hr : Reachable l) {qs : List String} (hq : l.getQubits [] = .ok qs) (q : String) :
    (q ∈ qs ∧ (∀ q', Leads l q q' → (l.getNeighbors [q'] none).length ∈ [1, 2]) →
      ∃ l', indexChain q l = (.ok (), l') ∧ OnlyAttr "chain_ind" l l' ∧
        (∀ q', Leads l q q' → ∃ i : Nat, l'.param "chain_ind" q' = .ok (.int i)) ∧
        ∀ q' ∈ qs, ¬ Leads l q q' → l'.param "chain_ind" q' = .ok .none) ∧
    (¬ (q ∈ qs ∧ ∀ q', Leads l q q' → (l.getNeighbors [q'] none).length ∈ [1, 2]) →
      ∃ l', indexChain q l = (.error .valueError, l') ∧ OnlyAttr "chain_ind" l l') := by
  have hl := Layout.inv_of_reachable hr
  have hk : l.graph.nodes.keys = qs := by simpa [Layout.getQubits] using hq
  by_cases hm : q ∈ qs
  · have hm' : q ∈ l.graph.nodes.keys := by rw [hk]; exact hm
    have hw : weight l.graph.nodes.keys.length l.graph.nodes.keys [] [q] ≤ fuel l := by
      rw [weight_start]
      simp [fuel, Dict.keys]
    rw [indexChain_eq hm']
    rcases chainLoop_spec hl (fuel l) 0 [] [q] l (chain_start hm') hw with ⟨l1, done, ind, e1, e2⟩ | ⟨l1, q', e1, e2, e3, e4⟩
    · obtain ⟨l', f1, f2, f3⟩ := noneLoop (done := done) l.graph.nodes.keys l1 e2.only fun _ h => h
      have hst : q ∈ done := by simpa using e2.first
      have hd : ∀ q', Leads l q q' ↔ q' ∈ done := fun q' =>
        ⟨leads_mem hst hl fun q hq q' hq' => by simpa using e2.closed q hq q' hq', e2.leadsDone q'⟩
      constructor
      · intro _
        refine ⟨l', (PyM.bind_ok e1).trans f1, f2, fun q' hq' => ?_, fun q' hq' hn => ?_⟩
        · obtain ⟨i, -, hi⟩ := e2.written q' ((hd q').1 hq')
          refine ⟨i, ?_⟩
          rw [f3, if_neg fun h => h.2 ((hd q').1 hq')]
          exact hi
        · rw [f3, if_pos ⟨by rw [hk]; exact hq', fun h => hn ((hd q').2 h)⟩]
      · intro h
        exact absurd ⟨hm, fun q' hq' => e2.degree q' ((hd q').1 hq')⟩ h
    · constructor
      · rintro ⟨-, h⟩
        exact absurd (h q' e3) e4
      · intro _
        refine ⟨l1, ?_, e2⟩
        unfold PyM.bind
        rw [e1]
  · refine ⟨fun h => absurd h.1 hm, fun _ => ⟨l, ?_, .refl _ _⟩⟩
    refine (PyM.bind_ok (m := PyM.get) (s' := l) (a := l) rfl).trans ?_
    rw [if_pos (by rw [hk]; simpa using hm)]
    rfl

/-- A chain of three qubits in the order B, A, C of the list, with an isolated qubit D if `iso`. -/
def chainLayout (iso : Bool) : Layout :=
  layoutOf (Layout.init
    { name := none, code := none, logQubits := none, distance := none, distanceZ := none, distanceX := none, logZ := none
      logX := none, description := none, interactionOrder := none
      layout := some ([⟨some "B", [("neighbors", .nbrs [("west", some "A"), ("east", some "C")])]⟩,
        ⟨some "A", [("neighbors", .nbrs [("east", some "B")])]⟩, ⟨some "C", [("neighbors", .nbrs [("west", some "B")])]⟩] ++
        if iso then [⟨some "D", [("neighbors", .nbrs [])]⟩] else []) })

/-- **C55** The documentation promises ValueError if any qubit is not connected to other ones.  An isolated qubit that is not the initial one
is accepted. -/
theorem C55_isolated_wrong : ∃ l', indexChain "A" (chainLayout true) = (.ok (), l') ∧
    (chainLayout true).getQubits [] = .ok ["B", "A", "C", "D"] ∧ (chainLayout true).getNeighbors ["D"] none = [] ∧
    l'.param "chain_ind" "D" = .ok .none :=
  ⟨_, pair_of (by decide +kernel), by decide +kernel, by decide +kernel, by decide +kernel⟩

/-- **C55** On a ring of three qubits, where all have two neighbours, `index_chain` returns but skips the index 2. -/
theorem C55_ring_wrong : ∃ l l',
    Layout.init
      { name := none, code := none, logQubits := none, distance := none, distanceZ := none, distanceX := none, logZ := none
        logX := none, description := none, interactionOrder := none
        layout := some [⟨some "A", [("neighbors", .nbrs [("west", some "B"), ("east", some "C")])]⟩,
          ⟨some "B", [("neighbors", .nbrs [("west", some "C"), ("east", some "A")])]⟩,
          ⟨some "C", [("neighbors", .nbrs [("west", some "A"), ("east", some "B")])]⟩] } = .ok l ∧
    indexChain "A" l = (.ok (), l') ∧ l'.param "chain_ind" "A" = .ok (.int 0) ∧ l'.param "chain_ind" "B" = .ok (.int 1) ∧
    l'.param "chain_ind" "C" = .ok (.int 3) :=
  ⟨_, _, ok_layoutOf (by decide +kernel), pair_of (by decide +kernel), by decide +kernel, by decide +kernel, by decide +kernel⟩

/-! ### witnesses -/

theorem chainLayout_ok (iso : Bool) : Reachable (chainLayout iso) := by
  have key : ∀ x ∈ ([⟨some "B", [("neighbors", .nbrs [("west", some "A"), ("east", some "C")])]⟩,
      ⟨some "A", [("neighbors", .nbrs [("east", some "B")])]⟩, ⟨some "C", [("neighbors", .nbrs [("west", some "B")])]⟩,
      ⟨some "D", [("neighbors", .nbrs [])]⟩] : List QubitInfo), x.attrs.keys.Nodup ∧ ∀ d,
      x.attrs.get? "neighbors" = some (.nbrs d) → d.keys.Nodup := by
    intro x hx
    simp only [List.mem_cons, List.not_mem_nil, or_false] at hx
    rcases hx with rfl | rfl | rfl | rfl
    all_goals
      refine ⟨by decide, fun d hd => ?_⟩
      simp [Dict.get?] at hd
      subst hd
      decide
  cases iso
  · refine .init ?_ (ok_layoutOf (by decide +kernel))
    intro infos h info hi
    simp only [Option.some.injEq] at h
    subst h
    exact key info (by simp at hi ⊢; tauto)
  · refine .init ?_ (ok_layoutOf (by decide +kernel))
    intro infos h info hi
    simp only [Option.some.injEq] at h
    subst h
    exact key info (by simp at hi ⊢; tauto)

theorem chainLayout_path : IsPath (chainLayout false) ["A", "B", "C"] where
  nodup := by decide
  qubits := by
    intro all h
    have e : (chainLayout false).getQubits [] = .ok ["B", "A", "C"] := by decide +kernel
    rw [e] at h
    simp only [Except.ok.injEq] at h
    subst h
    intro q
    simp only [List.mem_cons, List.not_mem_nil, or_false]
    tauto
  nbrs := by
    have eA : (chainLayout false).getNeighbors ["A"] none = ["B"] := by decide +kernel
    have eB : (chainLayout false).getNeighbors ["B"] none = ["A", "C"] := by decide +kernel
    have eC : (chainLayout false).getNeighbors ["C"] none = ["B"] := by decide +kernel
    intro i hi q
    simp only [List.length_cons, List.length_nil] at hi
    obtain rfl | rfl | rfl : i = 0 ∨ i = 1 ∨ i = 2 := by omega
    · simp only [List.getElem_cons_zero, eA, List.mem_singleton]
      constructor
      · rintro rfl
        exact ⟨1, by simp, rfl, by omega⟩
      · rintro ⟨j, hj, rfl, h⟩
        obtain rfl : j = 1 := by omega
        rfl
    · simp only [List.getElem_cons_succ, List.getElem_cons_zero, eB, List.mem_cons, List.not_mem_nil, or_false]
      constructor
      · rintro (rfl | rfl)
        · exact ⟨0, by simp, rfl, by omega⟩
        · exact ⟨2, by simp, rfl, by omega⟩
      · rintro ⟨j, hj, rfl, h⟩
        obtain rfl | rfl : j = 0 ∨ j = 2 := by omega
        · exact Or.inl rfl
        · exact Or.inr rfl
    · simp only [List.getElem_cons_succ, List.getElem_cons_zero, eC, List.mem_singleton]
      constructor
      · rintro rfl
        exact ⟨1, by simp, rfl, by omega⟩
      · rintro ⟨j, hj, rfl, h⟩
        simp only [List.length_cons, List.length_nil] at hj
        obtain rfl : j = 1 := by omega
        rfl

/-- C55: the hypotheses hold for the chain A, B, C, whose qubits are listed in another order. -/
example : ∃ l', indexChain "A" (chainLayout false) = (.ok (), l') ∧ l'.param "chain_ind" "B" = .ok (.int 1) ∧
    l'.param "chain_ind" "C" = .ok (.int 2) := by
  obtain ⟨l', h1, -, h2⟩ := C55_path (chainLayout_ok false) chainLayout_path (by simp)
  exact ⟨l', h1, h2 1 (by simp), h2 2 (by simp)⟩

/-- C55: a rotated code is not a chain, as its qubits in the bulk have four neighbours. -/
example : ∃ l', indexChain "D1" (layoutOf (rotSurfaceCode 3 rotDefault)) = (.error .valueError, l') := by
  have h : rotSurfaceCodeRectangle 3 3 rotDefault = .ok (layoutOf (rotSurfaceCode 3 rotDefault)) := ok_layoutOf (by decide +kernel)
  have hg := (rot_placed h).grid
  obtain ⟨l', h1, -⟩ := (C55_returns_iff hg.reach hg.getQubits_all "D1").2 (by
    rintro ⟨-, h2⟩
    have h3 := h2 "Z1" (Leads.refl.step (by decide +kernel))
    revert h3
    decide +kernel)
  exact ⟨l', h1⟩

/-- C54: the theorem for rotated codes applies to the 2 × 3 code; its corner is where it was, relative to the last qubit. -/
example : ∃ l l' q0 u0 v0, rotSurfaceCodeRectangle 2 3 rotDefault = .ok l ∧ setCoords true l = (.ok (), l') ∧
    l.param "coords" q0 = .ok (.coords [u0, v0]) ∧ l'.param "coords" "D1" = .ok (.coords [1 - u0, 1 - v0]) := by
  have h : rotSurfaceCodeRectangle 2 3 rotDefault = .ok (layoutOf (rotSurfaceCodeRectangle 2 3 rotDefault)) :=
    ok_layoutOf (by decide +kernel)
  obtain ⟨l', qs, q0, h1, h2, h3, -, h4⟩ := C54_rot h .refl (by decide) (by decide)
  have hd : (layoutOf (rotSurfaceCodeRectangle 2 3 rotDefault)).getQubits [] = .ok (rotEntries rotDefault 2 3 |>.map Prod.fst) :=
    (rot_placed h).grid.getQubits_all
  rw [hd] at h1
  obtain ⟨u, v, u0, v0, e1, e2, e3⟩ := h4 "D1" (by
    simp only [Except.ok.injEq] at h1
    rw [← h1]
    decide +kernel)
  have e4 : (layoutOf (rotSurfaceCodeRectangle 2 3 rotDefault)).param "coords" "D1" = .ok (.coords [1, 1]) := by decide +kernel
  rw [e4] at e1
  simp only [Except.ok.injEq, Val.coords.injEq, List.cons.injEq, and_true] at e1
  obtain ⟨rfl, rfl⟩ := e1
  exact ⟨_, l', q0, u0, v0, h, h3, e2, e3⟩

end SurfaceSim.Props
