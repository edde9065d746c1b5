/-
Tables of new generators as matrices, and gates that follow them.
-/
import Verif.Lemmas.GateExp
import Verif.Lemmas.NewStabDict

namespace SurfaceSim
open Spec Detectors Blocks NoiseModel LogGates Props

variable {cfg : Config} {nm : NoiseModel} {anc : List String} {K : Type}

theorem sum_filter_map {R : Type} [AddCommMonoid R] (S l : List String) (f : String → R) :
    (l.map fun a => if a ∈ S then f a else 0).sum = ((l.filter (· ∈ S)).map f).sum := by
  induction l with
  | nil => rfl
  | cons a l ih =>
    rw [List.map_cons, List.sum_cons, ih]
    by_cases h : a ∈ S
    · rw [List.filter_cons_of_pos (by simpa using h), if_pos h, List.map_cons, List.sum_cons]
    · rw [List.filter_cons_of_neg (by simpa using h), if_neg h, zero_add]

/-- Sums over ancillas as sums over indices. -/
theorem sum_label {R : Type} [AddCommMonoid R] (hn : cfg.anc.Nodup) {S : List String} (hS : S.Nodup)
    (hsub : ∀ a ∈ S, a ∈ cfg.anc) (f : String → R) :
    ∑ j : Fin cfg.n, (if cfg.label j ∈ S then f (cfg.label j) else 0) = (S.map f).sum := by
  have h1 : ∑ j : Fin cfg.n, (if cfg.label j ∈ S then f (cfg.label j) else 0) =
      (cfg.anc.map fun a => if a ∈ S then f a else 0).sum := by
    rw [Fin.sum_univ_def, ← labels_finRange, List.map_map]
    rfl
  rw [h1, sum_filter_map]
  refine List.Perm.sum_eq (List.Perm.map _ ?_)
  rw [List.perm_ext_iff_of_nodup (hn.filter _) hS]
  intro a
  rw [List.mem_filter]
  exact ⟨fun h => by simpa using h.2, fun h => ⟨hsub a h, by simpa using h⟩⟩

/-- The matrix of a table of new generators. -/
def genMat (cfg : Config) (gen : String → List String) : cfg.Mat Int := fun i j =>
  if cfg.label j ∈ gen (cfg.label i) then 1 else 0

/-- The tables that occur: each generator is multiplied by generators that are kept, or generators are exchanged. -/
def GoodTable (anc : List String) (gen : String → List String) : Prop :=
  (∀ a ∈ anc, ∃ ys, gen a = a :: ys ∧ (a :: ys).Nodup ∧ ∀ y ∈ ys, y ∈ anc ∧ gen y = [y]) ∨
    ∀ a ∈ anc, ∃ b ∈ anc, gen a = [b] ∧ gen b = [a]

variable {gen : String → List String}

theorem mod2_genMat (i j : Fin cfg.n) : mod2 (genMat cfg gen) i j = if cfg.label j ∈ gen (cfg.label i) then 1 else 0 := by
  show ((if cfg.label j ∈ gen (cfg.label i) then (1 : Int) else 0 : Int) : ZMod 2) = _
  split <;> simp

theorem two_apply (a b : Fin cfg.n) : (2 : cfg.Mat Int) a b = if a = b then 2 else 0 := by
  rw [← one_add_one_eq_two, Matrix.add_apply, Matrix.one_apply]
  split <;> rfl

theorem GoodTable.nodup (h : GoodTable anc gen) {a : String} (ha : a ∈ anc) : (gen a).Nodup := by
  rcases h with h | h
  · obtain ⟨ys, h1, h2, -⟩ := h a ha
    rw [h1]; exact h2
  · obtain ⟨b, -, h1, -⟩ := h a ha
    rw [h1]; simp

theorem GoodTable.sub (h : GoodTable anc gen) {a b : String} (ha : a ∈ anc) (hb : b ∈ gen a) : b ∈ anc := by
  rcases h with h | h
  · obtain ⟨ys, h1, h2, h3⟩ := h a ha
    rw [h1, List.mem_cons] at hb
    rcases hb with rfl | hb
    · exact ha
    · exact (h3 b hb).1
  · obtain ⟨c, hc, h1, -⟩ := h a ha
    rw [h1, List.mem_singleton] at hb
    rw [hb]; exact hc

section
variable (hn : cfg.anc.Nodup) (hall : ∀ q, q ∈ cfg.anc ↔ q ∈ anc) (h : GoodTable anc gen)
include hn hall h

theorem sum_genMat {R : Type} [Semiring R] (f : String → R) (i : Fin cfg.n) :
    ∑ j, (if cfg.label j ∈ gen (cfg.label i) then 1 else 0) * f (cfg.label j) = ((gen (cfg.label i)).map f).sum := by
  have hi := (hall _).1 (label_mem i)
  rw [← sum_label hn (h.nodup hi) (fun a ha => (hall a).2 (h.sub hi ha))]
  refine Finset.sum_congr rfl fun j _ => ?_
  split <;> simp

theorem genMat_mul (i k : Fin cfg.n) : (genMat cfg gen * genMat cfg gen) i k =
    ((gen (cfg.label i)).map fun b => if cfg.label k ∈ gen b then (1 : Int) else 0).sum := by
  rw [Matrix.mul_apply, ← sum_genMat hn hall h]
  rfl

theorem mulVec_genMat (f : String → ZMod 2) (i : Fin cfg.n) :
    (mod2 (genMat cfg gen)).mulVec (fun j => f (cfg.label j)) i = ((gen (cfg.label i)).map f).sum := by
  rw [← sum_genMat hn hall h]
  unfold Matrix.mulVec dotProduct
  refine Finset.sum_congr rfl fun j _ => ?_
  congr 1
  exact mod2_genMat i j

theorem isBits_genMat : IsBits (genMat cfg gen) := by
  intro i j
  unfold genMat
  split
  · exact Or.inr rfl
  · exact Or.inl rfl

theorem clean_genMat : CleanInvolution (genMat cfg gen) := by
  have hb := isBits_genMat hn hall h
  have hm := genMat_mul hn hall h
  have hlab : ∀ i j : Fin cfg.n, cfg.label i = cfg.label j ↔ i = j := fun i j =>
    ⟨fun e => (List.nodup_iff_injective_get.1 hn) e, fun e => by rw [e]⟩
  have key : ∃ W : cfg.Mat Int, W * genMat cfg gen = 1 ∧ (∀ a b, W a b = 0 ∨ Odd (W a b)) ∧ mod2 W = mod2 (genMat cfg gen) := by
    rcases h with h | h
    · have h2 : genMat cfg gen * genMat cfg gen = 2 * genMat cfg gen - 1 := by
        funext i k
        obtain ⟨ys, h1, h2, h3⟩ := h _ ((hall _).1 (label_mem i))
        rw [hm, Matrix.sub_apply, two_mul, Matrix.add_apply, h1, List.map_cons, List.sum_cons]
        have e1 : (ys.map fun b => if cfg.label k ∈ gen b then (1 : Int) else 0) =
            ys.map fun b => if b = cfg.label k then 1 else 0 := by
          refine List.map_congr_left fun y hy => ?_
          rw [(h3 y hy).2]
          simp only [List.mem_singleton, eq_comm]
        have e2 : (ys.map fun b => if b = cfg.label k then (1 : Int) else 0).sum = if cfg.label k ∈ ys then 1 else 0 := by
          have hys := (List.nodup_cons.1 h2).2
          clear e1 h3 h2 h1
          induction ys with
          | nil => simp
          | cons y ys ih =>
            rw [List.map_cons, List.sum_cons, ih (List.nodup_cons.1 hys).2]
            by_cases hy : y = cfg.label k
            · have : cfg.label k ∉ ys := by rw [← hy]; exact (List.nodup_cons.1 hys).1
              simp [hy, this]
            · simp [hy, Ne.symm hy]
        have e3 : (1 : cfg.Mat Int) i k = if cfg.label k = cfg.label i then 1 else 0 := by
          rw [Matrix.one_apply]
          simp only [hlab, eq_comm]
        rw [e1, e2, e3]
        unfold genMat
        rw [h1]
        by_cases hk : cfg.label k = cfg.label i
        · have : cfg.label k ∉ ys := by rw [hk]; exact (List.nodup_cons.1 h2).1
          rw [hk] at this
          simp [hk, this]
        · simp [hk]
      refine ⟨2 - genMat cfg gen, ?_, fun a b => ?_, ?_⟩
      · rw [sub_mul, h2]
        abel
      · rw [Matrix.sub_apply]
        rw [two_apply]
        by_cases hab : a = b
        · subst hab
          obtain ⟨ys, h1, -, -⟩ := h _ ((hall _).1 (label_mem a))
          have : genMat cfg gen a a = 1 := by unfold genMat; rw [h1]; simp
          rw [this, if_pos rfl]
          exact Or.inr (by decide)
        · rw [if_neg hab]
          rcases hb a b with e | e
          · exact Or.inl (by rw [e]; rfl)
          · exact Or.inr (by rw [e]; decide)
      · funext a b
        unfold mod2
        rw [Matrix.map_apply, Matrix.map_apply, Matrix.sub_apply, two_apply]
        have h20 : (2 : ZMod 2) = 0 := rfl
        split <;> simp [h20]
    · refine ⟨genMat cfg gen, ?_, odd_of_bits hb, rfl⟩
      funext i k
      obtain ⟨b, -, h1, h2⟩ := h _ ((hall _).1 (label_mem i))
      rw [hm, h1, Matrix.one_apply]
      simp only [List.map_cons, List.map_nil, List.sum_cons, List.sum_nil, add_zero, h2, List.mem_singleton, hlab]
      simp only [eq_comm]
  obtain ⟨W, h1, h2, h3⟩ := key
  refine ⟨hb, ?_, W, h1, h2⟩
  calc mod2 (genMat cfg gen) * mod2 (genMat cfg gen) = mod2 W * mod2 (genMat cfg gen) := by rw [h3]
    _ = 1 := by rw [← mod2_mul, h1, mod2_one]

omit hn h in
theorem dictMat_genMat {D : Dict String (List String)} (hD : ∀ a ∈ anc, D.get? a = some (gen a)) :
    mod2 (genMat cfg gen) = dictMat D := by
  funext i j
  rw [mod2_genMat]
  unfold dictMat
  rw [hD _ ((hall _).1 (label_mem i))]

omit hn in
theorem known_genMat {D : Dict String (List String)} (hDn : D.keys.Nodup) (hD : ∀ a ∈ anc, D.get? a = some (gen a))
    (hk : ∀ a, a ∈ D.keys ↔ a ∈ anc) : KnownAncillas cfg D := by
  rintro ⟨a, olds⟩ hkv
  have ha : a ∈ anc := (hk a).1 (List.mem_map.2 ⟨_, hkv, rfl⟩)
  refine ⟨(hall a).2 ha, fun old ho => (hall old).2 ?_⟩
  have h1 := Dict.get?_of_mem hDn hkv
  rw [hD a ha] at h1
  cases h1
  exact h.sub ha ho

end

/-- Values of logical operators and of the stabilizers of `anc`. -/
def valuesOf (lv : K → FState Nat → ZMod 2) (sv : FState Nat → String → ZMod 2) (anc : List String) (st : FState Nat) :
    Values K := (fun k => lv k st, fun a => if a ∈ anc then sv st a else 0)

/-- How a gate changes them. -/
def gateMap (gen : String → List String) (anc : List String) (image : K → List K) (T : K → List String) (w : Values K) :
    Values K :=
  (fun k => ((image k).map w.1).sum + ((T k).map w.2).sum, fun a => if a ∈ anc then ((gen a).map w.2).sum else 0)

/-- A block changes the values by `Φ` and nothing else. -/
def BlockG (nm : NoiseModel) (anc : List String) (v : FState Nat → Values K) (Φ : Values K → Values K) (b : Call1) : Prop :=
  ∀ (s : MeasState) (hist : List String), s.Tracks nm.inds hist → ∃ c s', b s = (.ok c, s') ∧ PairsOk c ∧
    s'.Tracks nm.inds hist ∧ ∀ (ρ : Nat → ZMod 2) (st : FState Nat),
      (run ρ st (ops c)).recs = st.recs ∧ (run ρ st (ops c)).dets = st.dets ∧ (run ρ st (ops c)).obs = st.obs ∧
      (∀ a ∈ anc, (run ρ st (ops c)).x (ind nm.inds a) = st.x (ind nm.inds a)) ∧ v (run ρ st (ops c)) = Φ (v st)

theorem blockG_of {lv : K → FState Nat → ZMod 2} {sv : FState Nat → String → ZMod 2} {image : K → List K}
    {T : K → List String} {b : Call1} (h : GoodTable anc gen) (hT : ∀ k, ∀ a ∈ T k, a ∈ anc)
    (hb : ∀ (s : MeasState) (hist : List String), s.Tracks nm.inds hist → ∃ c s', b s = (.ok c, s') ∧ PairsOk c ∧
      s'.Tracks nm.inds hist ∧ ∀ (ρ : Nat → ZMod 2) (st : FState Nat),
        (run ρ st (ops c)).recs = st.recs ∧ (run ρ st (ops c)).dets = st.dets ∧ (run ρ st (ops c)).obs = st.obs ∧
        (∀ a ∈ anc, (run ρ st (ops c)).x (ind nm.inds a) = st.x (ind nm.inds a)) ∧
        (∀ a ∈ anc, sv (run ρ st (ops c)) a = ((gen a).map (sv st)).sum) ∧
        ∀ k, lv k (run ρ st (ops c)) = ((image k).map fun i => lv i st).sum + ((T k).map (sv st)).sum) :
    BlockG nm anc (valuesOf lv sv anc) (gateMap gen anc image T) b := by
  intro s hist hs
  obtain ⟨c, m', e, hp, ht, hr⟩ := hb s hist hs
  refine ⟨c, m', e, hp, ht, fun ρ st => ?_⟩
  obtain ⟨r1, r2, r3, r4, r5, r6⟩ := hr ρ st
  refine ⟨r1, r2, r3, r4, ?_⟩
  have hmap : ∀ S : List String, (∀ a ∈ S, a ∈ anc) → (S.map (sv st)) = S.map (valuesOf lv sv anc st).2 := fun S hS =>
    List.map_congr_left fun a ha => by simp [valuesOf, hS a ha]
  unfold gateMap
  refine Prod.ext (funext fun k => ?_) (funext fun a => ?_)
  · show lv k _ = _
    rw [r6, hmap _ (hT k)]
    rfl
  · show (if a ∈ anc then _ else 0) = if a ∈ anc then ((gen a).map _).sum else 0
    by_cases ha : a ∈ anc
    · rw [if_pos ha, if_pos ha, r5 a ha, hmap _ fun b hb => h.sub ha hb]
    · rw [if_neg ha, if_neg ha]

theorem gateG_of {v : FState Nat → Values K} {Φ : Values K → Values K} {b : Call1} {g : PyM (Sim cfg) Circuit}
    {D : Dict String (List String)}
    (hn : cfg.anc.Nodup) (hall : ∀ q, q ∈ cfg.anc ↔ q ∈ anc) (h : GoodTable anc gen)
    (hDn : D.keys.Nodup) (hD : ∀ a ∈ anc, D.get? a = some (gen a)) (hk : ∀ a, a ∈ D.keys ↔ a ∈ anc)
    (hgate : ∀ (m m' : MeasState) (s s' : State cfg) (c : Circuit), g (m, s) = (.ok c, (m', s')) ↔
      updateFromDict D s = (.ok (), s') ∧ b m = (.ok c, m'))
    (hb : BlockG nm anc v Φ b) : GateG nm anc v Φ (genMat cfg gen) g := by
  intro s hist r A bb hs hd
  obtain ⟨d', hd', hg'⟩ := DetG.gate hn (clean_genMat hn hall h) hDn (known_genMat hall h hDn hD hk)
    (dictMat_genMat hall hD) hd
  obtain ⟨c, m', e, hp, ht, hr⟩ := hb s.1 hist hs
  exact ⟨c, (m', d'), (hgate s.1 m' s.2 d' c).2 ⟨hd', e⟩, hp, ht, hg', hr⟩

theorem iterate_involution {α : Type} {f : α → α} {w : α} (h : f (f w) = w) (n : Nat) :
    f^[n] w = if n % 2 = 0 then w else f w := by
  induction n with
  | zero => rfl
  | succ n ih =>
    rw [Function.iterate_succ_apply', ih]
    by_cases h2 : n % 2 = 0
    · rw [if_pos h2, if_neg (by omega)]
    · rw [if_neg h2, if_pos (by omega), h]

theorem gateMap_mulVec {image : K → List K} {T : K → List String} (hn : cfg.anc.Nodup) (hall : ∀ q, q ∈ cfg.anc ↔ q ∈ anc)
    (h : GoodTable anc gen) (w : Values K) (i : Fin cfg.n) : (gateMap gen anc image T w).2 (cfg.label i) =
      (mod2 (genMat cfg gen)).mulVec (fun j => w.2 (cfg.label j)) i := by
  rw [mulVec_genMat hn hall h]
  exact if_pos ((hall _).1 (label_mem i))

theorem newStabDict_nodup {l : Layout} {label : String} {D : Dict String (List String)} (h : newStabDict l label = .ok D) :
    D.keys.Nodup := by
  unfold newStabDict at h
  split at h
  · cases h
  · exact newStabLoop_nodup h (by simp [Dict.keys])

end SurfaceSim
