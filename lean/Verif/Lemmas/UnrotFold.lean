/-
Reflections of unrotated codes.
-/
import Verif.Lemmas.TransBlocks
import Verif.Lemmas.UnrotRounds
import Mathlib.Tactic.FieldSimp

namespace SurfaceSim
open Spec NoiseModel Blocks LayoutLib LogGates

theorem roundEven_add (x : Rat) (m : Int) : roundEven (x + ((2 * m : Int) : Rat)) = roundEven x + 2 * m := by
  unfold roundEven
  simp only [Int.floor_add_intCast]
  have h1 : x + ((2 * m : Int) : Rat) - ((⌊x⌋ + 2 * m : Int) : Rat) = x - ⌊x⌋ := by push_cast; ring
  rw [h1]
  have h2 : (⌊x⌋ + 2 * m) % 2 = ⌊x⌋ % 2 := by omega
  rw [h2]
  split_ifs <;> ring

theorem round5_place (o : Vec) (s : Site) : round5 (place o s) = place (round5 o) s := by
  have key : ∀ (x : Rat) (n : Int), ((roundEven (((n : Rat) + x) * 100000) : Int) : Rat) / 100000 =
      (n : Rat) + ((roundEven (x * 100000) : Int) : Rat) / 100000 := by
    intro x n
    have : ((n : Rat) + x) * 100000 = x * 100000 + ((2 * (50000 * n) : Int) : Rat) := by push_cast; ring
    rw [this, roundEven_add]
    push_cast
    ring
  unfold round5 place
  ext
  · exact key _ _
  · exact key _ _

/-- The reflection at the line through `p` in direction `(1, ε)`. -/
def refl (p : Site) (ε : Int) (s : Site) : Site := (p.1 + ε * (s.2 - p.2), p.2 + ε * (s.1 - p.1))

theorem refl_refl {p : Site} {ε : Int} (hε : ε = 1 ∨ ε = -1) (s : Site) : refl p ε (refl p ε s) = s := by
  unfold refl
  rcases hε with rfl | rfl <;> ext <;> simp

theorem reflection_place (o : Vec) (p s : Site) {e1 e2 : Int} (h1 : e1 = 1 ∨ e1 = -1) (h2 : e2 = 1 ∨ e2 = -1) :
    reflection (place o s) (place o p) ((e1 : Rat), (e2 : Rat)) = place o (refl p (e1 * e2) s) := by
  unfold reflection place refl
  rcases h1 with rfl | rfl <;> rcases h2 with rfl | rfl <;> ext <;> simp <;> ring

section
variable {l : Layout} {a : Args} {dx dz : Int}

/-- The vector along the diagonal. -/
theorem unrot_corner (hp : Placed l (unrotEntries a dx dz) (names unrotDirs) a.initPoint) {q : String} {s : Site}
    (hq : (q, s, Kind.data) ∈ unrotEntries a dx dz) {x : String} {p v : Vec}
    (e : corner l q (xOf (unrotEntries a dx dz)) (zOf (unrotEntries a dx dz)) = .ok (x, p, v)) :
    p = place a.initPoint s ∧ ∃ e1 e2 : Int, (e1 = 1 ∨ e1 = -1) ∧ (e2 = 1 ∨ e2 = -1) ∧ v = ((e1 : Rat), (e2 : Rat)) := by
  obtain ⟨h1, shx, shz, dx', dz', z, n, hdx, hdz, hx, hz, hn, rfl⟩ := hp.corner_ok hq e
  refine ⟨h1, _, _, ?_, ?_, rfl⟩ <;>
  · obtain ⟨r, c⟩ := s
    have gq := unrotEntry hq
    rcases mem_unrotNames.1 hdx with ⟨rfl, -⟩ | ⟨rfl, -⟩ | ⟨rfl, -⟩ | ⟨rfl, -⟩ <;>
    rcases mem_unrotNames.1 hdz with ⟨rfl, -⟩ | ⟨rfl, -⟩ | ⟨rfl, -⟩ | ⟨rfl, -⟩ <;>
    · have gx := unrotEntry hx
      have gz := unrotEntry hz
      simp [UnrotSite] at gq gx gz ⊢ <;> omega

/-- The dictionary of the positions. -/
theorem unrot_labelDict (hp : Placed l (unrotEntries a dx dz) (names unrotDirs) a.initPoint) :
    ∃ D, labelDict round5 l = .ok D ∧ ∀ s q, D.get? (round5 (place a.initPoint s)) = some q ↔
      ∃ k, (q, s, k) ∈ unrotEntries a dx dz := by
  obtain ⟨D, h1, h2⟩ := hp.labelDict_get (f := round5) fun e _ e' _ h => by
    rw [round5_place, round5_place] at h
    exact place_inj _ h
  refine ⟨D, h1, fun s q => ?_⟩
  rw [h2]
  constructor
  · rintro ⟨s', k, hk, he⟩
    rw [round5_place, round5_place] at he
    rw [place_inj _ he]
    exact ⟨k, hk⟩
  · rintro ⟨k, hk⟩
    exact ⟨s, k, hk, rfl⟩

variable {D : Dict Vec String} {p : Site} {e1 e2 : Int}

/-- The label of the reflected qubit. -/
theorem unrot_reflected (hp : Placed l (unrotEntries a dx dz) (names unrotDirs) a.initPoint)
    (hD : ∀ s q, D.get? (round5 (place a.initPoint s)) = some q ↔ ∃ k, (q, s, k) ∈ unrotEntries a dx dz)
    (h1 : e1 = 1 ∨ e1 = -1) (h2 : e2 = 1 ∨ e2 = -1) {q : String} {s : Site} {k : Kind}
    (hq : (q, s, k) ∈ unrotEntries a dx dz) (y : String) :
    reflected l D (place a.initPoint p) ((e1 : Rat), (e2 : Rat)) q = .ok y ↔
      ∃ k, (y, refl p (e1 * e2) s, k) ∈ unrotEntries a dx dz := by
  unfold reflected
  rw [hp.vecOf hq]
  simp only
  rw [if_neg (by rcases h1 with rfl | rfl <;> simp), reflection_place _ _ _ h1 h2, Dict.getE_ok_iff, hD]

/-- The kind of the reflected qubit. -/
def flipKind : Kind → Kind
  | .data => .data
  | .x => .z
  | .z => .x

theorem unrot_refl_kind {ε : Int} (hε : ε = 1 ∨ ε = -1) {q0 q y : String} {s : Site} {k k' : Kind}
    (hp : (q0, p, Kind.data) ∈ unrotEntries a dx dz) (hq : (q, s, k) ∈ unrotEntries a dx dz)
    (hy : (y, refl p ε s, k') ∈ unrotEntries a dx dz) : k' = flipKind k := by
  obtain ⟨r, c⟩ := s
  obtain ⟨pr, pc⟩ := p
  have g0 := unrotEntry hp
  have g1 := unrotEntry hq
  have g2 := unrotEntry hy
  simp only [refl] at g2
  rcases hε with rfl | rfl <;> cases k <;> cases k' <;> simp [UnrotSite, flipKind] at g0 g1 g2 ⊢ <;> omega

/-- Reflections preserve neighbours. -/
theorem refl_nbr {ε : Int} (hε : ε = 1 ∨ ε = -1) {s sh : Site} {dir : String} (hd : (sh, dir) ∈ names unrotDirs) :
    ∃ sh' dir', (sh', dir') ∈ names unrotDirs ∧ refl p ε (s + sh) = refl p ε s + sh' := by
  refine ⟨(ε * sh.2, ε * sh.1), ?_⟩
  obtain ⟨pr, pc⟩ := p
  obtain ⟨r, c⟩ := s
  have he : refl (pr, pc) ε ((r, c) + sh) = refl (pr, pc) ε (r, c) + (ε * sh.2, ε * sh.1) := by
    unfold refl
    ext <;> simp <;> ring
  rcases mem_unrotNames.1 hd with ⟨rfl, -⟩ | ⟨rfl, -⟩ | ⟨rfl, -⟩ | ⟨rfl, -⟩ <;> rcases hε with rfl | rfl <;>
    first
    | exact ⟨"north", by decide, he⟩
    | exact ⟨"south", by decide, he⟩
    | exact ⟨"east", by decide, he⟩
    | exact ⟨"west", by decide, he⟩

end

end SurfaceSim
