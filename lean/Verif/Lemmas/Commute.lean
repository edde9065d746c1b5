/-
Commutation of the stabilizers and logical operators, and consequences for the rounds.
-/
import Verif.Lemmas.RoundGrid

namespace SurfaceSim
open Spec NoiseModel Blocks LayoutLib

variable {l : Layout} {a : Args} {dx dz : Int} {L : List (String × Site × Kind)} {dirs : List (Site × String)}

theorem overlap_comm {A B : List String} (hA : A.Nodup) (hB : B.Nodup) : overlap A B = overlap B A := by
  unfold overlap
  rw [List.countP_eq_length_filter, List.countP_eq_length_filter]
  refine List.Perm.length_eq ?_
  rw [List.perm_ext_iff_of_nodup (hA.filter _) (hB.filter _)]
  intro x
  simp [and_comm]

/-- The operator with qubits `S` and types `τ` commutes with the stabilizers of all ancillas. -/
def CommutesAll (l : Layout) (anc : List String) (isX : String → String → Bool) (S : List String) (τ : String → Bool) :
    Prop := ∀ x ∈ anc, Even (S.countP fun d => decide (d ∈ l.getNeighbors [x] none ∧ isX x d ≠ τ d))

theorem nbrs_data (hg : OnGrid l L dirs) {x : String} (hx : x ∈ ancOf L) {d : String}
    (hd : d ∈ l.getNeighbors [x] none) : d ∈ dataOf L := by
  obtain ⟨s, k, h, hk⟩ := mem_ancOf.1 hx
  obtain ⟨s', h'⟩ := neighbors_data hg h hk hd
  exact mem_dataOf.2 ⟨s', h'⟩

/-- Types that depend on the kind of the ancilla up to a rotation of data qubits. -/
structure Typed (l : Layout) (L : List (String × Site × Kind)) (isX : String → String → Bool) (rot : String → Bool) :
    Prop where
  x : ∀ x s d, (x, s, Kind.x) ∈ L → d ∈ l.getNeighbors [x] none → isX x d = !rot d
  z : ∀ x s d, (x, s, Kind.z) ∈ L → d ∈ l.getNeighbors [x] none → isX x d = rot d

/-- Overlaps in a code. -/
structure CodeGrid (l : Layout) (L : List (String × Site × Kind)) (lx lz : List String) : Prop where
  over : ∀ x s z s', (x, s, Kind.x) ∈ L → (z, s', Kind.z) ∈ L →
    Even (overlap (l.getNeighbors [x] none) (l.getNeighbors [z] none))
  logZ : ∀ x s, (x, s, Kind.x) ∈ L → Even (overlap lz (l.getNeighbors [x] none))
  logX : ∀ z s, (z, s, Kind.z) ∈ L → Even (overlap lx (l.getNeighbors [z] none))
  subX : ∀ q ∈ lx, q ∈ dataOf L
  subZ : ∀ q ∈ lz, q ∈ dataOf L

theorem countP_zero {α : Type} (S : List α) (p : α → Bool) (h : ∀ d ∈ S, p d = false) : Even (S.countP p) := by
  have : S.countP p = 0 := by
    rw [List.countP_eq_zero]
    intro d hd
    simp [h d hd]
  simp [this]

theorem even_overlap {S N : List String} (p : String → Bool) (h : Even (overlap S N))
    (hp : ∀ d ∈ N, p d = true) : Even (S.countP fun d => decide (d ∈ N ∧ p d = true)) := by
  have : (S.countP fun d => decide (d ∈ N ∧ p d = true)) = overlap S N := by
    unfold overlap
    refine List.countP_congr fun d _ => ?_
    simp only [decide_eq_true_eq]
    exact ⟨fun h => h.1, fun h => ⟨h, hp d h⟩⟩
  rw [this]; exact h

/-- Operators of one type, up to the rotation, commute with the stabilizers of the same type, and with the other
ones if overlaps are even. -/
theorem commutesAll_of {isX : String → String → Bool} {rot : String → Bool}
    (ht : Typed l L isX rot) {S : List String} (b : Bool)
    (h : ∀ x s k, (x, s, k) ∈ L → k ≠ .data → (k = .x ↔ b = false) → Even (overlap S (l.getNeighbors [x] none)))
    {τ : String → Bool} (hτ : ∀ d ∈ S, τ d = (if b then !rot d else rot d)) : CommutesAll l (ancOf L) isX S τ := by
  intro x hx
  obtain ⟨s, k, hk, hkd⟩ := mem_ancOf.1 hx
  have heq : (S.countP fun d => decide (d ∈ l.getNeighbors [x] none ∧ isX x d ≠ τ d)) =
      S.countP fun d => decide (d ∈ l.getNeighbors [x] none ∧ (decide (isX x d ≠ (if b then !rot d else rot d))) = true) := by
    refine List.countP_congr fun d hd => ?_
    rw [hτ d hd]
    simp
  rw [heq]
  by_cases hc : k = .x ↔ b = false
  · refine even_overlap (fun d => decide (isX x d ≠ (if b then !rot d else rot d))) (h x s k hk hkd hc) ?_
    intro d hd
    cases k with
    | data => exact absurd rfl hkd
    | x =>
      have : b = false := hc.1 rfl
      rw [this, ht.x x s d hk hd]
      cases rot d <;> simp
    | z =>
      have : b = true := by
        cases b with
        | true => rfl
        | false => exact absurd (hc.2 rfl) (by simp)
      rw [this, ht.z x s d hk hd]
      cases rot d <;> simp
  · refine countP_zero _ _ fun d hd => ?_
    simp only [decide_eq_true_eq, decide_eq_false_iff_not, not_and, not_not]
    intro hdn
    cases k with
    | data => exact absurd rfl hkd
    | x =>
      have : b = true := by
        cases b with
        | true => rfl
        | false => exact absurd (by simp) hc
      rw [this, ht.x x s d hk hdn]
      simp
    | z =>
      have : b = false := by
        cases b with
        | false => rfl
        | true => exact absurd (by simp) hc
      rw [this, ht.z x s d hk hdn]
      simp

variable {lx lz : List String}

theorem CodeGrid.stabs (hc : CodeGrid l L lx lz) (hg : OnGrid l L dirs) {isX : String → String → Bool}
    {rot : String → Bool} (ht : Typed l L isX rot) {y : String} (hy : y ∈ ancOf L) :
    CommutesAll l (ancOf L) isX (l.getNeighbors [y] none) (isX y) := by
  obtain ⟨s, k, hk, hkd⟩ := mem_ancOf.1 hy
  cases k with
  | data => exact absurd rfl hkd
  | x =>
    refine commutesAll_of ht true ?_ (fun d hd => by simpa using ht.x y s d hk hd)
    intro x s' k' hx hkd' hb
    cases k' with
    | data => exact absurd rfl hkd'
    | x => simp at hb
    | z => exact hc.over _ _ _ _ hk hx
  | z =>
    refine commutesAll_of ht false ?_ (fun d hd => by simpa using ht.z y s d hk hd)
    intro x s' k' hx hkd' hb
    cases k' with
    | data => exact absurd rfl hkd'
    | z => simp at hb
    | x =>
      rw [overlap_comm (hg.neighbors_nodup y) (hg.neighbors_nodup x)]
      exact hc.over _ _ _ _ hx hk

theorem CodeGrid.logicalZ (hc : CodeGrid l L lx lz) {isX : String → String → Bool}
    {rot : String → Bool} (ht : Typed l L isX rot) : CommutesAll l (ancOf L) isX lz rot := by
  refine commutesAll_of ht false ?_ (by simp)
  intro x s' k' hx hkd' hb
  cases k' with
  | data => exact absurd rfl hkd'
  | z => simp at hb
  | x => exact hc.logZ _ _ hx

theorem CodeGrid.logicalX (hc : CodeGrid l L lx lz) {isX : String → String → Bool}
    {rot : String → Bool} (ht : Typed l L isX rot) : CommutesAll l (ancOf L) isX lx (fun d => !rot d) := by
  refine commutesAll_of ht true ?_ (by simp)
  intro x s' k' hx hkd' hb
  cases k' with
  | data => exact absurd rfl hkd'
  | x => simp at hb
  | z => exact hc.logX _ _ hx

/-- Rounds that measure the stabilizers leave the code alone. -/
theorem RoundMeasures.leaves (hg : OnGrid l L dirs) {nm : NoiseModel} {b : Call1} {isX : String → String → Bool}
    {reset : Bool} (h : RoundMeasures nm l b isX reset) {rot : String → Bool} (ht : Typed l L isX rot)
    (hc : CodeGrid l L lx lz) {label : String} (hlx : l.logX.get? label = some lx) (hlz : l.logZ.get? label = some lz) :
    LeavesCode nm l label b isX (fun d => !rot d) rot := by
  obtain ⟨data, anc, hd, ha, h⟩ := h
  have h1 : data = dataOf L := by have := hg.getQubits_data; rw [hd] at this; exact Except.ok.inj this
  have h2 : anc = ancOf L := by have := hg.getQubits_anc; rw [ha] at this; exact Except.ok.inj this
  subst h1; subst h2
  refine ⟨_, lx, lz, ha, hlx, hlz, fun s hist hs => ?_⟩
  obtain ⟨c, s', e, -, -, -, h⟩ := h s hist hs
  refine ⟨c, s', e, fun ρ st => ⟨fun y hy => ?_, ?_, ?_⟩⟩
  · exact MeasuresStabs.invariant (h ρ st) (fun d hd => nbrs_data hg hy hd) (hc.stabs hg ht hy)
  · exact MeasuresStabs.invariant (h ρ st) hc.subX (hc.logicalX ht)
  · exact MeasuresStabs.invariant (h ρ st) hc.subZ (hc.logicalZ ht)

theorem sum_single_one {S : List String} (hS : S.Nodup) (d : String) (v : ZMod 2) :
    (S.map fun q => if q = d then v else 0).sum = if d ∈ S then v else 0 := by
  exact sum_single hS d fun _ => v

theorem anticommutes_withError {ι : String → Nat} {S : List String} (hS : S.Nodup) {d : String}
    (hι : ∀ q ∈ S, ι q = ι d → q = d) (τ : String → Bool) (st : FState Nat) (ex ez : ZMod 2) :
    anticommutes ι (withError st (ι d) ex ez) S τ =
      anticommutes ι st S τ + if d ∈ S then (if τ d then ez else ex) else 0 := by
  unfold anticommutes withError
  rw [← sum_single_one hS d, ← List.sum_map_add]
  congr 1
  refine List.map_congr_left fun q hq => ?_
  by_cases h : ι q = ι d
  · obtain rfl := hι q hq h
    cases τ q <;> simp
  · have : q ≠ d := fun e => h (by rw [e])
    simp [Function.update_of_ne h, this]

/-- Rounds that measure the stabilizers detect data errors if every data qubit is in stabilizers of both types. -/
theorem RoundMeasures.detects (hg : OnGrid l L dirs) {nm : NoiseModel} (hr : CanRun nm l) {b : Call1}
    {isX : String → String → Bool} {reset : Bool} (h : RoundMeasures nm l b isX reset)
    (hex : ∀ d ∈ dataOf L, ∀ v, ∃ x ∈ ancOf L, d ∈ l.getNeighbors [x] none ∧ isX x d = v) :
    DetectsErrors nm l b := by
  obtain ⟨data, anc, hd, ha, h⟩ := h
  have h1 : data = dataOf L := by have := hg.getQubits_data; rw [hd] at this; exact Except.ok.inj this
  have h2 : anc = ancOf L := by have := hg.getQubits_anc; rw [ha] at this; exact Except.ok.inj this
  subst h1; subst h2
  have hu := CanRun.usable hr hg
  refine ⟨_, hd, fun s hist hs => ?_⟩
  obtain ⟨c, s', e, -, -, -, h⟩ := h s hist hs
  refine ⟨c, s', e, fun d hd ex ez hne ρ ρ' st heq => ?_⟩
  rw [(h ρ' _).recs, (h ρ st).recs] at heq
  have heq2 : (ancOf L).map (ancOutcome (ind nm.inds) reset (withError st (ind nm.inds d) ex ez)
      (fun x => l.getNeighbors [x] none) isX) =
      (ancOf L).map (ancOutcome (ind nm.inds) reset st (fun x => l.getNeighbors [x] none) isX) := by
    have := List.append_cancel_right heq
    exact List.reverse_injective this
  have key : ∀ x ∈ ancOf L, d ∈ l.getNeighbors [x] none → (if isX x d then ez else ex) = 0 := by
    intro x hx hdx
    have h3 := List.map_inj_left.1 heq2 x hx
    unfold ancOutcome at h3
    rw [anticommutes_withError (hg.neighbors_nodup x), if_pos hdx] at h3
    · have hxx : (withError st (ind nm.inds d) ex ez).x (ind nm.inds x) = st.x (ind nm.inds x) := by
        unfold withError
        refine Function.update_of_ne ?_ _ _
        intro he
        obtain ⟨sx, kx, hkx, hkd⟩ := mem_ancOf.1 hx
        obtain ⟨sd, hsd⟩ := mem_dataOf.1 hd
        have := hu.inj _ (hu.known _ _ _ hkx) _ (hu.known _ _ _ hsd) he
        subst this
        exact hkd (hg.unique hkx hsd).2
      rw [hxx] at h3
      have h4 := add_left_cancel h3
      simpa using h4
    · intro q hq he
      obtain ⟨sq, hsq⟩ := mem_dataOf.1 (nbrs_data hg hx hq)
      obtain ⟨sd, hsd⟩ := mem_dataOf.1 hd
      exact hu.inj _ (hu.known _ _ _ hsq) _ (hu.known _ _ _ hsd) he
  rcases hne with hne | hne
  · obtain ⟨x, hx, h5, h6⟩ := hex d hd false
    have := key x hx h5
    rw [h6] at this
    exact hne (by simpa using this)
  · obtain ⟨x, hx, h5, h6⟩ := hex d hd true
    have := key x hx h5
    rw [h6] at this
    exact hne (by simpa using this)

end SurfaceSim
