/-
The CSS rounds on a grid: operations.
-/
import Verif.Lemmas.Rounds
import Verif.Lemmas.RoundSpec

namespace SurfaceSim
open Spec NoiseModel Blocks

variable {l : Layout} {L : List (String × Site × Kind)} {dirs : List (Site × String)}

/-- Data qubits of a grid. -/
def dataOf (L : List (String × Site × Kind)) : List String := labelsOf L fun k => k = .data
/-- Ancillas of a grid. -/
def ancOf (L : List (String × Site × Kind)) : List String := labelsOf L fun k => k ≠ .data
/-- X ancillas of a grid. -/
def xOf (L : List (String × Site × Kind)) : List String := labelsOf L fun k => k = .x
/-- Z ancillas of a grid. -/
def zOf (L : List (String × Site × Kind)) : List String := labelsOf L fun k => k = .z

theorem mem_dataOf {q : String} : q ∈ dataOf L ↔ ∃ s, (q, s, Kind.data) ∈ L := by
  unfold dataOf; rw [mem_labelsOf]; simp
theorem mem_ancOf {q : String} : q ∈ ancOf L ↔ ∃ s k, (q, s, k) ∈ L ∧ k ≠ .data := by
  unfold ancOf; rw [mem_labelsOf]; simp
theorem mem_xOf {q : String} : q ∈ xOf L ↔ ∃ s, (q, s, Kind.x) ∈ L := by
  unfold xOf; rw [mem_labelsOf]; simp
theorem mem_zOf {q : String} : q ∈ zOf L ↔ ∃ s, (q, s, Kind.z) ∈ L := by
  unfold zOf; rw [mem_labelsOf]; simp

/-- The model can be used with all qubits of the layout. -/
structure Usable (inds : Dict String Nat) (L : List (String × Site × Kind)) : Prop where
  known : ∀ q s k, (q, s, k) ∈ L → q ∈ inds.keys
  inj : IndsInj inds

theorem Usable.labels {inds : Dict String Nat} (h : Usable inds L) (p : Kind → Bool) :
    ∀ q ∈ labelsOf L p, q ∈ inds.keys := by
  intro q hq
  obtain ⟨s, k, hq, -⟩ := mem_labelsOf.1 hq
  exact h.known q s k hq

theorem Usable.pairs {inds : Dict String Nat} (h : Usable inds L) (hg : OnGrid l L dirs) (qs : List String)
    (dir : String) : GoodPairs inds (l.getNeighborPairs qs (some dir)) := by
  rintro ⟨q, q'⟩ hp
  obtain ⟨-, s, k, s', k', sh, h1, h2, -, -, h3⟩ := hg.mem_pairs.1 hp
  refine ⟨h.known _ _ _ h1, h.known _ _ _ h2, fun he => ?_⟩
  have := h.inj _ (h.known _ _ _ h1) _ (h.known _ _ _ h2) he
  subst this
  obtain ⟨-, rfl⟩ := hg.unique h1 h2
  cases k <;> simp at h3

theorem grid_neighbors (hg : OnGrid l L dirs) {qs : List String} {dir q : String} :
    q ∈ l.getNeighbors qs (some dir) ↔ ∃ p ∈ qs, LayoutLib.Rel L dirs p dir q := by
  unfold Layout.getNeighbors
  rw [List.mem_map]
  constructor
  · rintro ⟨⟨p, q'⟩, h, rfl⟩
    exact ⟨p, hg.mem_pairs.1 h⟩
  · rintro ⟨p, h1, h2⟩
    exact ⟨(p, q), hg.mem_pairs.2 ⟨h1, h2⟩, rfl⟩

/-- All qubits. -/
abbrev allOf (L : List (String × Site × Kind)) : List String := setOf (dataOf L ++ ancOf L)

theorem mem_allOf {q : String} : q ∈ allOf L ↔ ∃ s k, (q, s, k) ∈ L := by
  rw [mem_setOf, List.mem_append, mem_dataOf, mem_ancOf]
  constructor
  · rintro (⟨s, h⟩ | ⟨s, k, h, -⟩)
    · exact ⟨s, _, h⟩
    · exact ⟨s, k, h⟩
  · rintro ⟨s, k, h⟩
    by_cases hk : k = .data
    · exact Or.inl ⟨s, hk ▸ h⟩
    · exact Or.inr ⟨s, k, h, hk⟩

theorem allOf_nodup : (allOf L).Nodup := setOf_nodup _

theorem mem_data_or_anc {q : String} : q ∈ dataOf L ++ ancOf L ↔ ∃ s k, (q, s, k) ∈ L := by
  rw [← mem_allOf, mem_setOf]

/-- The qubits rotated at the start and the end of a CSS round. -/
def cssRotSet (l : Layout) (L : List (String × Site × Kind)) (d0 d3 : String) : List String :=
  union (union (setOf (ancOf L)) (l.getNeighbors (xOf L) (some d0))) (l.getNeighbors (xOf L) (some d3))

/-- The gates of a CZ layer, for directions `dx` of the X ancillas and `dz` of the Z ancillas. -/
def czPairs (l : Layout) (L : List (String × Site × Kind)) (dx dz : String) : List (String × String) :=
  l.getNeighborPairs (xOf L) (some dx) ++ l.getNeighborPairs (zOf L) (some dz)

/-- An interaction order with both types and four directions. -/
def order4 (x0 x1 x2 x3 z0 z1 z2 z3 : String) : Dict String (List String) :=
  [("x_type", [x0, x1, x2, x3]), ("z_type", [z0, z1, z2, z3])]

theorem getNeighbors_known (hg : OnGrid l L dirs) {qs : List String} {dir q : String}
    (h : q ∈ l.getNeighbors qs (some dir)) : ∃ s k, (q, s, k) ∈ L := by
  obtain ⟨p, -, s, k, s', k', sh, -, h2, -⟩ := (grid_neighbors hg).1 h
  exact ⟨_, _, h2⟩

theorem cssRotSet_known (hg : OnGrid l L dirs) {d0 d3 q : String} (h : q ∈ cssRotSet l L d0 d3) :
    ∃ s k, (q, s, k) ∈ L := by
  unfold cssRotSet at h
  rw [mem_union, mem_union, mem_setOf] at h
  rcases h with (h | h) | h
  · obtain ⟨s, k, h, -⟩ := mem_ancOf.1 h; exact ⟨_, _, h⟩
  · exact getNeighbors_known hg h
  · exact getNeighbors_known hg h

section
variable {nm : NoiseModel} (hn : Faithful nm) (hg : OnGrid l L dirs) (hu : Usable nm.inds L)
  (o : SetOrder)
include hn hg hu

theorem does_czLayer4 {x0 x1 x2 x3 z0 z1 z2 z3 : String}
    (ho : l.interactionOrder = order4 x0 x1 x2 x3 z0 z1 z2 z3) (k : Nat) (hk : k < 4) :
    Does nm.inds (czLayer o nm l (allOf L) k)
      ((czPairs l L ([x0, x1, x2, x3][k]'hk) ([z0, z1, z2, z3][k]'hk)).map fun p => Op.cz p.1 p.2) := by
  have hkeys : l.interactionOrder.keys = ["x_type", "z_type"] := by rw [ho]; rfl
  have hq : ∀ q ∈ allOf L, q ∈ nm.inds.keys := by
    intro q hq
    obtain ⟨s, k, hq⟩ := mem_allOf.1 hq
    exact hu.known _ _ _ hq
  have hi : ∀ (ys : List String) (h4 : ys.length = 4), pyIndex ys (k : Int) = .ok (ys[k]'(by omega)) := by
    intro ys h4
    unfold pyIndex
    have h1 : ¬ ((k : Int) < 0) := by omega
    simp only [h1, if_false, Int.toNat_natCast]
    rw [List.getElem?_eq_getElem (by omega)]
  refine (does_czLayer hn o l (allOf L) k hq
    (fun st => if st = "x_type" then xOf L else zOf L)
    (fun st => if st = "x_type" then [x0, x1, x2, x3][k]'hk else [z0, z1, z2, z3][k]'hk)
    ?_ ?_ ?_).congr ?_
  · rw [hkeys]
    intro st hst
    simp only [List.mem_cons, List.not_mem_nil, or_false] at hst
    rcases hst with rfl | rfl
    · rw [if_pos rfl]; exact hg.getQubits_x
    · rw [if_neg (by decide)]; exact hg.getQubits_z
  · rw [hkeys]
    intro st hst
    simp only [List.mem_cons, List.not_mem_nil, or_false] at hst
    rcases hst with rfl | rfl
    · unfold orderDir
      rw [ho]
      simp [order4, Dict.getE, hi]
    · unfold orderDir
      rw [ho]
      simp [order4, Dict.getE, hi]
  · intro st _
    exact hu.pairs hg _ _
  · rw [hkeys]
    simp [czPairs, List.flatMap_cons]

theorem does_cssRot {x0 x1 x2 x3 z0 z1 z2 z3 : String}
    (ho : l.interactionOrder = order4 x0 x1 x2 x3 z0 z1 z2 z3) :
    Does nm.inds (cssRot o nm l (allOf L) (ancOf L) (xOf L)) ((o.ord (cssRotSet l L x0 x3)).map Op.h) := by
  have hr : rotSet l (ancOf L) (xOf L) = .ok (cssRotSet l L x0 x3) := by
    simp [rotSet, orderDir, ho, order4, Dict.getE, pyIndex, cssRotSet]
  have hq : ∀ q ∈ allOf L, q ∈ nm.inds.keys := by
    intro q hq
    obtain ⟨s, k, hq⟩ := mem_allOf.1 hq
    exact hu.known _ _ _ hq
  have := does_rotLayer hn o (allOf L) (cssRotSet l L x0 x3) hq (fun q h => by
    obtain ⟨s, k, hq⟩ := cssRotSet_known hg h
    exact hu.known _ _ _ hq)
  refine ⟨this.1, fun s hist ht => ?_⟩
  obtain ⟨c, s', e, rest⟩ := this.2 s hist ht
  refine ⟨c, s', ?_, rest⟩
  unfold cssRot
  rw [hr, PyM.bind_ok (PyM.ofExcept_apply _ _), e]

/-- The operations of a CSS round. -/
theorem css_does {x0 x1 x2 x3 z0 z1 z2 z3 : String}
    (ho : l.interactionOrder = order4 x0 x1 x2 x3 z0 z1 z2 z3) (reset : Bool) :
    Does nm.inds (sumGen (cssIter l.code o nm l reset)) (roundOps reset (ancOf L)
      (coherentOps (o.ord (cssRotSet l L x0 x3)) (dataOf L) (dataOf L) (o.ord (cssRotSet l L x0 x3))
        (czPairs l L x0 z0) (czPairs l L x1 z1 ++ czPairs l L x2 z2) (czPairs l L x3 z3))) := by
  have hd : dataQubits l = .ok (dataOf L) := hg.getQubits_data
  have ha : ancQubits l = .ok (ancOf L) := hg.getQubits_anc
  have hx : stabQubits l "x_type" = .ok (xOf L) := hg.getQubits_x
  have kd : ∀ q ∈ dataOf L, q ∈ nm.inds.keys := hu.labels (fun k => k = .data)
  have ka : ∀ q ∈ ancOf L, q ∈ nm.inds.keys := hu.labels (fun k => k ≠ .data)
  have hH : Does nm.inds (plus (nm.hadamard (dataOf L)) (nm.idle (ancOf L))) ((dataOf L).map Op.h) :=
    ((does_h hn _ kd).bind_concat (does_idle hn _ ka)).congr (by simp)
  have hM : Does nm.inds (plus (nm.measure (ancOf L)) (nm.idle (dataOf L))) ((ancOf L).map Op.m) :=
    ((does_m hn _ ka).bind_concat (does_idle hn _ kd)).congr (by simp)
  have hR := does_cssRot hn hg hu o ho
  have h0 := does_czLayer4 hn hg hu o ho 0 (by decide)
  have h1 := does_czLayer4 hn hg hu o ho 1 (by decide)
  have h2 := does_czLayer4 hn hg hu o ho 2 (by decide)
  have h3 := does_czLayer4 hn hg hu o ho 3 (by decide)
  have t := Does.tick nm.inds
  have hall := (does_roundHead hn (dataOf L) (ancOf L) reset kd ka)
  unfold cssIter
  rw [if_neg (by simp), hd, ha, hx]
  simp only [withE]
  refine (Does.sumGen (List.rel_append hall (.cons hR (.cons t (.cons h0 (.cons t (.cons hH (.cons t
    (.cons h1 (.cons t (.cons h2 (.cons t (.cons hH (.cons t (.cons h3 (.cons t (.cons hR (.cons t
    (.cons hM (.cons t .nil)))))))))))))))))))).congr ?_
  unfold roundOps coherentOps
  cases reset <;> simp

end

/-! ### positions -/

/-- One direction for each type of ancilla. -/
def czSh (ξ ζ : Site) : Kind → List Site
  | .data => []
  | .x => [ξ]
  | .z => [ζ]

theorem layer_cz (hg : OnGrid l L dirs) {ξ ζ : Site} {dx dz : String} (hx : (ξ, dx) ∈ dirs)
    (hz : (ζ, dz) ∈ dirs) : Layer L (czPairs l L dx dz) (czSh ξ ζ) := by
  have h1 := Layer.ofDir hg (p := fun k => k = .x) (by simp) hx
  have h2 := Layer.ofDir hg (p := fun k => k = .z) (by simp) hz
  refine (Layer.append hg h1 h2 ?_).congr ?_ ?_
  · intro k; cases k <;> simp
  · intro k; cases k <;> simp [czSh]
  · intro k; cases k <;> simp [czSh]

theorem at_data (hg : OnGrid l L dirs) : At L (dataOf L) (fun _ k => k = .data) where
  nodup := hg.labelsOf_nodup _
  sub q hq := by obtain ⟨s, hs⟩ := mem_dataOf.1 hq; exact ⟨s, _, hs⟩
  mem q s k hq := by
    rw [mem_dataOf]
    constructor
    · rintro ⟨s', hs'⟩; exact (hg.unique hq hs').2
    · rintro rfl; exact ⟨s, hq⟩

theorem at_anc (hg : OnGrid l L dirs) : At L (ancOf L) (fun _ k => k ≠ .data) where
  nodup := hg.labelsOf_nodup _
  sub q hq := by obtain ⟨s, k, hs, -⟩ := mem_ancOf.1 hq; exact ⟨s, _, hs⟩
  mem q s k hq := by
    rw [mem_ancOf]
    constructor
    · rintro ⟨s', k', hs', hk⟩; exact (hg.unique hq hs').2 ▸ hk
    · intro hk; exact ⟨s, k, hq, hk⟩

theorem at_all (L : List (String × Site × Kind)) : At L (allOf L) (fun _ _ => True) where
  nodup := allOf_nodup
  sub q hq := mem_allOf.1 hq
  mem q s k hq := by simpa using mem_allOf.2 ⟨s, k, hq⟩

theorem at_x (hg : OnGrid l L dirs) : At L (xOf L) (fun _ k => k = .x) where
  nodup := hg.labelsOf_nodup _
  sub q hq := by obtain ⟨s, hs⟩ := mem_xOf.1 hq; exact ⟨s, _, hs⟩
  mem q s k hq := by
    rw [mem_xOf]
    constructor
    · rintro ⟨s', hs'⟩; exact (hg.unique hq hs').2
    · rintro rfl; exact ⟨s, hq⟩

theorem at_z (hg : OnGrid l L dirs) : At L (zOf L) (fun _ k => k = .z) where
  nodup := hg.labelsOf_nodup _
  sub q hq := by obtain ⟨s, hs⟩ := mem_zOf.1 hq; exact ⟨s, _, hs⟩
  mem q s k hq := by
    rw [mem_zOf]
    constructor
    · rintro ⟨s', hs'⟩; exact (hg.unique hq hs').2
    · rintro rfl; exact ⟨s, hq⟩

theorem At.ord {S : List String} {P : Site → Kind → Prop} (h : At L S P) (o : SetOrder) :
    At L (o.ord S) P where
  nodup := (ord_nodup o).2 h.nodup
  sub q hq := h.sub q ((mem_ord o).1 hq)
  mem q s k hq := by rw [mem_ord]; exact h.mem q s k hq

theorem At.setOf {S : List String} {P : Site → Kind → Prop} (h : At L S P) : At L (Blocks.setOf S) P where
  nodup := setOf_nodup _
  sub q hq := h.sub q (mem_setOf.1 hq)
  mem q s k hq := by rw [mem_setOf]; exact h.mem q s k hq

theorem At.union {S T : List String} {P R : Site → Kind → Prop} (h : At L S P)
    (hs : ∀ q ∈ T, ∃ s k, (q, s, k) ∈ L) (hT : ∀ q s k, (q, s, k) ∈ L → (q ∈ T ↔ R s k)) :
    At L (Blocks.union S T) (fun s k => P s k ∨ R s k) where
  nodup := union_nodup _ h.nodup
  sub q hq := by
    rcases mem_union.1 hq with hq | hq
    · exact h.sub q hq
    · exact hs q hq
  mem q s k hq := by rw [mem_union, h.mem q s k hq, hT q s k hq]

theorem At.symmDiff {S T : List String} {P R : Site → Kind → Prop} (h : At L S P) (h' : At L T R) :
    At L (Blocks.symmDiff S T) (fun s k => (P s k ∧ ¬ R s k) ∨ (R s k ∧ ¬ P s k)) where
  nodup := symmDiff_nodup h.nodup h'.nodup
  sub q hq := by
    rcases mem_symmDiff.1 hq with ⟨hq, -⟩ | ⟨hq, -⟩
    · exact h.sub q hq
    · exact h'.sub q hq
  mem q s k hq := by rw [mem_symmDiff, h.mem q s k hq, h'.mem q s k hq]

/-- Neighbours of ancillas in a direction, by position. -/
theorem nbrs_at (hg : OnGrid l L dirs) {V : Site → Kind → Prop} (hV : Sites L V) {S : List String}
    {P : Site → Kind → Prop} (hS : At L S P) (hP : ∀ s k, P s k → k ≠ .data) {σ : Site} {dir : String}
    (hd : (σ, dir) ∈ dirs) (q : String) (s : Site) (k : Kind) (hq : (q, s, k) ∈ L) :
    q ∈ l.getNeighbors S (some dir) ↔ k = .data ∧ ∃ k', V (s - σ) k' ∧ P (s - σ) k' := by
  rw [grid_neighbors hg]
  constructor
  · rintro ⟨p, hp, s1, k1, s2, k2, sh, h1, h2, hsh, rfl, hk⟩
    obtain ⟨rfl, rfl⟩ := hg.unique hq h2
    have hP1 := (hS.mem _ _ _ h1).1 hp
    have hkd := hP _ _ hP1
    have : sh = σ := hg.shifts _ _ _ hsh hd
    subst this
    refine ⟨by_contra fun hne => hkd (hk.2 hne), k1, ?_, ?_⟩
    · rw [add_sub_cancel_right]; exact hV.valid _ _ _ h1
    · rw [add_sub_cancel_right]; exact hP1
  · rintro ⟨rfl, k', hv, hp⟩
    obtain ⟨p, hp'⟩ := hV.ex _ _ hv
    exact ⟨p, (hS.mem _ _ _ hp').2 hp, s - σ, k', s, .data, σ, hp', hq, hd, by rw [sub_add_cancel],
      by simpa using hP _ _ hp⟩

theorem at_cssRot (hg : OnGrid l L dirs) {V : Site → Kind → Prop} (hV : Sites L V) {ξ ξ' : Site}
    {d0 d3 : String} (h0 : (ξ, d0) ∈ dirs) (h3 : (ξ', d3) ∈ dirs) :
    At L (cssRotSet l L d0 d3)
      (fun s k => (k ≠ .data ∨ (k = .data ∧ V (s - ξ) .x)) ∨ (k = .data ∧ V (s - ξ') .x)) := by
  unfold cssRotSet
  refine At.union (At.union (at_anc hg).setOf ?_ ?_) ?_ ?_
  · intro q hq; exact getNeighbors_known hg hq
  · intro q s k hq
    rw [nbrs_at hg hV (at_x hg) (by rintro s k rfl; simp) h0 q s k hq]
    simp
  · intro q hq; exact getNeighbors_known hg hq
  · intro q s k hq
    rw [nbrs_at hg hV (at_x hg) (by rintro s k rfl; simp) h3 q s k hq]
    simp

/-- Layers in all directions contain the neighbours of all ancillas. -/
theorem layer_nbrs (hg : OnGrid l L dirs) {E : List (String × String)} {sh : Kind → List Site}
    (hE : Layer L E sh) (hs : ∀ k, k ≠ .data → ∀ σ, σ ∈ sh k ↔ ∃ dir, (σ, dir) ∈ dirs) (a d : String) :
    (a, d) ∈ E ↔ a ∈ ancOf L ∧ d ∈ l.getNeighbors [a] none := by
  rw [hE.mem, mem_ancOf]
  constructor
  · rintro ⟨s, k, σ, ha, hk, hσ, hd⟩
    obtain ⟨dir, hdir⟩ := (hs k hk σ).1 hσ
    exact ⟨⟨s, k, ha, hk⟩, (hg.mem_neighbors_anc ha hk).2 ⟨σ, dir, hdir, hd⟩⟩
  · rintro ⟨⟨s, k, ha, hk⟩, hd⟩
    obtain ⟨σ, dir, hdir, hd⟩ := (hg.mem_neighbors_anc ha hk).1 hd
    exact ⟨s, k, σ, ha, hk, (hs k hk σ).2 ⟨dir, hdir⟩, hd⟩

/-- Rounds on a grid made of coherent layers meet the specification. -/
theorem measuresStabs_grid (hg : OnGrid l L dirs) {inds : Dict String Nat} (hu : Usable inds L)
    {isX : String → String → Bool} {reset : Bool} {S0 S1 S2 S3 : List String}
    {E0 E1 E2 : List (String × String)} {sh : Kind → List Site}
    (hc : Coherent (fun q => decide (q ∈ ancOf L)) isX S0 S1 S2 S3 E0 E1 E2)
    (hE : Layer L (E0 ++ E1 ++ E2) sh)
    (hs : ∀ k, k ≠ .data → ∀ σ, σ ∈ sh k ↔ ∃ dir, (σ, dir) ∈ dirs)
    (hS : ∀ q ∈ S0 ++ S1 ++ S2 ++ S3, ∃ s k, (q, s, k) ∈ L) {ops' : List (Op Nat)}
    (hL : ops' = (roundOps reset (ancOf L) (coherentOps S0 S1 S2 S3 E0 E1 E2)).map (Op.rename (ind inds)))
    (ρ : Nat → ZMod 2) (st : FState Nat) :
    MeasuresStabs (ind inds) (dataOf L) (ancOf L) (fun a => l.getNeighbors [a] none) isX reset st
      (run ρ st ops') := by
  refine MeasuresStabs.ofCoherent hu.inj hc (at_anc hg).nodup (fun a => hg.neighbors_nodup a) hE.nodup
    (layer_nbrs hg hE hs) ?_ ?_ ?_ ?_ hL ρ st
  · intro a ha d hd
    obtain ⟨s, k, σ, -, -, -, h⟩ := (hE.mem a d).1 ((layer_nbrs hg hE hs a d).2 ⟨ha, hd⟩)
    exact mem_dataOf.2 ⟨_, h⟩
  · intro d hd ha
    obtain ⟨s, hs⟩ := mem_dataOf.1 hd
    exact ((at_anc hg).mem _ _ _ hs).1 ha rfl
  · intro q hq
    exact mem_data_or_anc.2 (hS q hq)
  · intro q hq
    obtain ⟨s, k, h⟩ := mem_data_or_anc.1 hq
    exact hu.known _ _ _ h

theorem isA_anc (hg : OnGrid l L dirs) (q : String) (s : Site) (k : Kind) (hq : (q, s, k) ∈ L) :
    (decide (q ∈ ancOf L) = true ↔ k ≠ .data) := by
  rw [decide_eq_true_eq]; exact (at_anc hg).mem q s k hq

/-- The types of the CSS stabilizers. -/
def cssType (L : List (String × Site × Kind)) (x _d : String) : Bool := decide (x ∈ xOf L)

theorem cssType_iff (hg : OnGrid l L dirs) (x d : String) (s : Site) (k : Kind) (s' : Site)
    (h : (x, s, k) ∈ L) (_ : k ≠ .data) (_ : (d, s', Kind.data) ∈ L) :
    (cssType L x d = true ↔ k = .x) := by
  unfold cssType
  rw [decide_eq_true_eq]; exact (at_x hg).mem x s k h

theorem toggle_twice {p q : Prop} : (((p ↔ ¬ q) ↔ ¬ q) ↔ p) := by
  by_cases p <;> by_cases q <;> simp_all

end SurfaceSim
