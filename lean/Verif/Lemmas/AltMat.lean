/-
The generators of two codes under transversal CNOT gates in both directions: each stabilizer and its twin in the other code form a
block with two rows.
-/
import Verif.Lemmas.DetGates

namespace SurfaceSim
open Spec Detectors

/-- A matrix with two rows and two columns; `false` is the first one. -/
abbrev Two := Bool → Bool → Int

def Two.mul (f g : Two) : Two := fun r c => f r false * g false c + f r true * g true c

def Two.ofBits (a b c d : Bool) : Two := fun r k =>
  if (match r, k with | false, false => a | false, true => b | true, false => c | true, true => d) then 1 else 0

/-- The products mod 2 of the two matrices of a CNOT gate. -/
def Two.Good (f : Two) : Prop := ∃ a b c d : Bool, f = .ofBits a b c d ∧ xor (a && d) (b && c) = true

/-- The matrix of the gate: the first (second) generator is multiplied by the other one. -/
def Two.cnot (first : Bool) : Two := .ofBits true first (!first) true

def Two.mod (f : Two) : Two := fun r c => f r c % 2

/-- `f` times the inverse of `g`, if the determinant of `g` is `±1`. -/
def Two.div (f g : Two) : Two :=
  let D := g false false * g true true - g false true * g true false
  f.mul fun r c => D * match r, c with
    | false, false => g true true
    | false, true => - g false true
    | true, false => - g true false
    | true, true => g false false

/-- The quotient `f / g` is exact and has the zeros of `u`. -/
def Two.Divides (f g u : Two) : Prop :=
  (∀ r c, ((f.div g).mul g) r c = f r c) ∧ ∀ r c, (f.div g r c = 0 ∨ Odd (f.div g r c)) ∧ (f.div g r c) % 2 = u r c % 2

instance (f g u : Two) : Decidable (f.Divides g u) := by unfold Two.Divides; infer_instance

theorem two_table : ∀ first a b c d : Bool, xor (a && d) (b && c) = true →
    let f := Two.ofBits a b c d
    let g := ((Two.cnot first).mul f).mod
    Two.Divides f g (Two.cnot first) ∧ Two.Divides g f (Two.cnot first) ∧
      ∃ a' b' c' d' : Bool, (∀ r k, g r k = Two.ofBits a' b' c' d' r k) ∧ xor (a' && d') (b' && c') = true := by
  decide +kernel

theorem two_cnot_sq : ∀ first r c : Bool, ((Two.cnot first).mul (Two.cnot first) r c) % 2 = if r = c then 1 else 0 := by
  decide

section
variable {n : Nat} (t s : Fin n → Bool) (τ : Fin n → Fin n)

/-- The matrix with the blocks `f (t i)`; `s i` tells which row of its block `i` is, `τ i` is the other one. -/
def blk (f : Bool → Two) : Matrix (Fin n) (Fin n) Int := fun i j =>
  if j = i then f (t i) (s i) (s i) else if j = τ i then f (t i) (s i) (!s i) else 0

variable {t s τ} (hτ : ∀ i, τ (τ i) = i) (hne : ∀ i, τ i ≠ i) (ht : ∀ i, t (τ i) = t i) (hs : ∀ i, s (τ i) = !s i)
include hτ hne ht hs

theorem blk_mul (f g : Bool → Two) : blk t s τ f * blk t s τ g = blk t s τ fun b => (f b).mul (g b) := by
  funext i j
  rw [Matrix.mul_apply]
  have h0 : ∀ k, k ≠ i → k ≠ τ i → blk t s τ f i k = 0 := fun k h1 h2 => by simp [blk, h1, h2]
  rw [← Finset.sum_subset (Finset.subset_univ {i, τ i}) (fun k _ hk => by
    simp only [Finset.mem_insert, Finset.mem_singleton, not_or] at hk
    rw [h0 k hk.1 hk.2, zero_mul])]
  rw [Finset.sum_pair (hne i).symm]
  have e1 : blk t s τ f i i = f (t i) (s i) (s i) := by simp [blk]
  have e2 : blk t s τ f i (τ i) = f (t i) (s i) (!s i) := by simp [blk, hne i]
  rw [e1, e2]
  unfold blk
  rw [hτ, ht, hs]
  by_cases h1 : j = i
  · subst h1
    simp only [if_true, (hne j).symm, if_false, Two.mul]
    cases s j <;> simp <;> ring
  · by_cases h2 : j = τ i
    · subst h2
      simp only [if_true, hne i, if_false, Two.mul]
      cases s i <;> simp <;> ring
    · simp [h1, h2]

omit hτ hne ht hs in
theorem blk_one : blk t s τ (fun _ r c => if r = c then 1 else 0) = 1 := by
  funext i j
  unfold blk
  by_cases h1 : j = i
  · subst h1; simp
  · rw [if_neg h1, Matrix.one_apply_ne (Ne.symm h1)]
    split <;> simp

end

theorem blk_congr {n : Nat} {t s : Fin n → Bool} {τ : Fin n → Fin n} {f g : Bool → Two} (h : ∀ b r c, f b r c = g b r c) :
    blk t s τ f = blk t s τ g := by
  congr 1
  funext b r c
  exact h b r c

variable {cfg : Config} {t s : Fin cfg.n → Bool} {τ : Fin cfg.n → Fin cfg.n}

theorem mod2_blk_congr {f g : Bool → Two} (h : ∀ b r c, f b r c % 2 = g b r c % 2) :
    mod2 (cfg := cfg) (blk t s τ f) = mod2 (cfg := cfg) (blk t s τ g) := by
  have key : ∀ x y : Int, x % 2 = y % 2 → (x : ZMod 2) = (y : ZMod 2) := fun x y h => (ZMod.intCast_eq_intCast_iff' x y 2).2 h
  funext i j
  show ((blk t s τ f i j : Int) : ZMod 2) = ((blk t s τ g i j : Int) : ZMod 2)
  unfold blk
  split
  · exact key _ _ (h _ _ _)
  · split
    · exact key _ _ (h _ _ _)
    · rfl

/-- The matrix of a gate; X-type and Z-type stabilizers spread in opposite directions. -/
def cnotBlk (t s : Fin cfg.n → Bool) (τ : Fin cfg.n → Fin cfg.n) (d : Bool) : cfg.Mat Int :=
  blk t s τ fun b => .cnot (xor b d)

/-- The generators that occur. -/
def Orbit (t s : Fin cfg.n → Bool) (τ : Fin cfg.n → Fin cfg.n) (G : cfg.Mat Int) : Prop :=
  (mod2 G).det ≠ 0 ∧ ∃ f : Bool → Two, (∀ b, (f b).Good) ∧ G = blk t s τ f

theorem orbit_one : Orbit (cfg := cfg) t s τ 1 := by
  refine ⟨by simp [mod2_one], fun _ => .ofBits true false false true, fun b => ⟨_, _, _, _, rfl, rfl⟩, ?_⟩
  rw [← blk_one]
  exact blk_congr fun b r c => by cases r <;> cases c <;> rfl

theorem Orbit.isBits {G : cfg.Mat Int} (h : Orbit t s τ G) : IsBits G := by
  obtain ⟨-, f, hf, rfl⟩ := h
  have hb : ∀ b r c, f b r c = 0 ∨ f b r c = 1 := by
    intro b r c
    obtain ⟨a, b', c', d, e, -⟩ := hf b
    rw [e]
    unfold Two.ofBits
    split <;> simp
  intro i j
  unfold blk
  split
  · exact hb _ _ _
  · split
    · exact hb _ _ _
    · exact Or.inl rfl

section
variable (hτ : ∀ i, τ (τ i) = i) (hne : ∀ i, τ i ≠ i) (ht : ∀ i, t (τ i) = t i) (hs : ∀ i, s (τ i) = !s i)
include hτ hne ht hs

theorem cnotBlk_sq (d : Bool) : mod2 (cnotBlk (cfg := cfg) t s τ d) * mod2 (cnotBlk t s τ d) = 1 := by
  rw [← mod2_mul, ← mod2_one, ← blk_one (t := t) (s := s) (τ := τ)]
  unfold cnotBlk
  rw [blk_mul hτ hne ht hs]
  refine mod2_blk_congr fun b r c => ?_
  rw [two_cnot_sq]
  cases r <;> cases c <;> rfl

theorem cnotBlk_det (d : Bool) : (mod2 (cnotBlk (cfg := cfg) t s τ d)).det ≠ 0 := by
  intro h0
  have := congrArg Matrix.det (cnotBlk_sq hτ hne ht hs d)
  rw [Matrix.det_mul, h0] at this
  simp at this

theorem blk_div {f g u : Bool → Two} (h : ∀ b, (f b).Divides (g b) (u b)) :
    ∃ V : cfg.Mat Int, V * blk t s τ g = blk t s τ f ∧ (∀ i j, V i j = 0 ∨ Odd (V i j)) ∧
      mod2 V = mod2 (cfg := cfg) (blk t s τ u) := by
  refine ⟨blk t s τ fun b => (f b).div (g b), ?_, fun i j => ?_, mod2_blk_congr fun b r c => ((h b).2 r c).2⟩
  · rw [blk_mul hτ hne ht hs]
    exact blk_congr fun b r c => (h b).1 r c
  · unfold blk
    split
    · exact ((h _).2 _ _).1
    · split
      · exact ((h _).2 _ _).1
      · exact Or.inl rfl

/-- A gate. -/
theorem Orbit.gate {G : cfg.Mat Int} (h : Orbit t s τ G) (d : Bool) : ∃ G', Orbit t s τ G' ∧
    mod2 G' = mod2 (cnotBlk t s τ d) * mod2 G ∧ FrameSteps G G' (mod2 (cnotBlk t s τ d)) := by
  obtain ⟨h0, f, hf, rfl⟩ := h
  have key : ∀ b, (f b).Divides (((Two.cnot (xor b d)).mul (f b)).mod) (.cnot (xor b d)) ∧
      (((Two.cnot (xor b d)).mul (f b)).mod).Divides (f b) (.cnot (xor b d)) ∧ (((Two.cnot (xor b d)).mul (f b)).mod).Good := by
    intro b
    obtain ⟨a, b', c, e, hfb, hx⟩ := hf b
    obtain ⟨k1, k2, a', b'', c', d', k3, k4⟩ := two_table (xor b d) a b' c e hx
    rw [hfb]
    exact ⟨k1, k2, a', b'', c', d', funext fun r => funext fun k => k3 r k, k4⟩
  have hm : mod2 (cfg := cfg) (blk t s τ fun b => ((Two.cnot (xor b d)).mul (f b)).mod) =
      mod2 (cnotBlk t s τ d) * mod2 (cfg := cfg) (blk t s τ f) := by
    rw [← mod2_mul]
    unfold cnotBlk
    rw [blk_mul hτ hne ht hs]
    refine mod2_blk_congr fun b r c => ?_
    unfold Two.mod
    rw [Int.emod_emod_of_dvd _ (dvd_refl 2)]
  have hd : (mod2 (cfg := cfg) (blk t s τ fun b => ((Two.cnot (xor b d)).mul (f b)).mod)).det ≠ 0 := by
    rw [hm, Matrix.det_mul]
    exact (by decide : ∀ x y : ZMod 2, x ≠ 0 → y ≠ 0 → x * y ≠ 0) _ _ (cnotBlk_det hτ hne ht hs d) h0
  exact ⟨_, ⟨hd, _, fun b => (key b).2.2, rfl⟩, hm, h0, hd, blk_div hτ hne ht hs fun b => (key b).1,
    blk_div hτ hne ht hs fun b => (key b).2.1⟩

end

end SurfaceSim
