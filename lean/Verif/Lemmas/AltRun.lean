/-
Experiments with transversal CNOT gates in both directions, with rounds after every gate.
-/
import Verif.Lemmas.AltExp

namespace SurfaceSim
open Spec NoiseModel Blocks Experiments LayoutLib LogGates

variable {cfg : Detectors.Config} {nm : NoiseModel} {lc lt : Layout} {Lc Lt : List (String × Site × Kind)}
  {dirs : List (Site × String)} {code A B label : String} {Xc Zc Xt Zt : List String}

/-! ### the matrices of the gates -/

/-- The indices of the stabilizers: their types, whether they are of the target, and their twins. -/
structure TwinIndex (cfg : Detectors.Config) (Lc Lt : List (String × Site × Kind)) (t s : Fin cfg.n → Bool)
    (τ : Fin cfg.n → Fin cfg.n) : Prop where
  typ : ∀ i, t i = true ↔ cfg.label i ∈ xOf Lc ∨ cfg.label i ∈ xOf Lt
  code : ∀ i, s i = true ↔ cfg.label i ∈ ancOf Lt
  twinC : ∀ i, cfg.label i ∈ ancOf Lc → cfg.label (τ i) = tw Lc Lt (cfg.label i)
  twinT : ∀ i, cfg.label i ∈ ancOf Lt → cfg.label (τ i) = tw Lt Lc (cfg.label i)

variable {t s : Fin cfg.n → Bool} {τ : Fin cfg.n → Fin cfg.n}

theorem label_inj (hn : cfg.anc.Nodup) {i j : Fin cfg.n} (h : cfg.label i = cfg.label j) : i = j :=
  (List.nodup_iff_injective_get.1 hn) h

theorem not_both (h : Twins lc lt Lc Lt dirs) {a : String} (h1 : a ∈ ancOf Lc) : a ∉ ancOf Lt := by
  obtain ⟨_, _, h1, -⟩ := mem_ancOf.1 h1
  exact h.notAnc h1

theorem TwinIndex.symm (h : Twins lc lt Lc Lt dirs) (hall : ∀ q, q ∈ cfg.anc ↔ q ∈ ancOf Lc ++ ancOf Lt)
    (hi : TwinIndex cfg Lc Lt t s τ) : TwinIndex cfg Lt Lc t (fun i => !s i) τ := by
  refine ⟨fun i => (hi.typ i).trans or_comm, fun i => ?_, hi.twinT, hi.twinC⟩
  have h1 := hi.code i
  have h2 := List.mem_append.1 ((hall _).1 (label_mem i))
  constructor
  · intro h3
    exact h2.resolve_right fun h4 => by simp [h1.2 h4] at h3
  · intro h3
    have := not_both h h3
    cases hs : s i
    · rfl
    · exact absurd (h1.1 hs) this

theorem exists_twinIndex (h : Twins lc lt Lc Lt dirs) (hall : ∀ q, q ∈ cfg.anc ↔ q ∈ ancOf Lc ++ ancOf Lt) :
    ∃ t s τ, TwinIndex cfg Lc Lt t s τ := by
  have key : ∀ a ∈ cfg.anc, ∃ j : Fin cfg.n, cfg.label j = a := by
    intro a ha
    obtain ⟨j, hj, e⟩ := List.getElem_of_mem ha
    exact ⟨⟨j, hj⟩, e⟩
  have ex : ∀ i : Fin cfg.n, ∃ j : Fin cfg.n, (cfg.label i ∈ ancOf Lc → cfg.label j = tw Lc Lt (cfg.label i)) ∧
      (cfg.label i ∈ ancOf Lt → cfg.label j = tw Lt Lc (cfg.label i)) := by
    intro i
    rcases List.mem_append.1 ((hall _).1 (label_mem i)) with h1 | h1
    · obtain ⟨_, _, h2, hk⟩ := mem_ancOf.1 h1
      obtain ⟨j, hj⟩ := key (tw Lc Lt (cfg.label i)) ((hall _).2 (List.mem_append_right _ (mem_ancOf.2 ⟨_, _, h.tw h2, hk⟩)))
      exact ⟨j, fun _ => hj, fun h3 => absurd h3 (not_both h h1)⟩
    · obtain ⟨_, _, h2, hk⟩ := mem_ancOf.1 h1
      obtain ⟨j, hj⟩ := key (tw Lt Lc (cfg.label i)) ((hall _).2 (List.mem_append_left _ (mem_ancOf.2 ⟨_, _, h.symm.tw h2, hk⟩)))
      exact ⟨j, fun h3 => absurd h1 (not_both h h3), fun _ => hj⟩
  choose τ hτ using ex
  exact ⟨fun i => decide (cfg.label i ∈ xOf Lc ∨ cfg.label i ∈ xOf Lt), fun i => decide (cfg.label i ∈ ancOf Lt), τ,
    fun i => by simp, fun i => by simp, fun i => (hτ i).1, fun i => (hτ i).2⟩

section
variable (h : Twins lc lt Lc Lt dirs) (hn : cfg.anc.Nodup) (hall : ∀ q, q ∈ cfg.anc ↔ q ∈ ancOf Lc ++ ancOf Lt)
  (hi : TwinIndex cfg Lc Lt t s τ)
include h hi

theorem TwinIndex.isX_c {i : Fin cfg.n} {σ : Site} {k : Kind} (hm : (cfg.label i, σ, k) ∈ Lc) :
    t i = true ↔ k = .x := by
  rw [hi.typ, mem_xOf]
  constructor
  · rintro (⟨_, h1⟩ | h1)
    · exact (h.c.unique hm h1).2
    · exact absurd h1 (h.notX hm)
  · rintro rfl; exact Or.inl ⟨_, hm⟩

theorem TwinIndex.isX_t {i : Fin cfg.n} {σ : Site} {k : Kind} (hm : (cfg.label i, σ, k) ∈ Lt) :
    t i = true ↔ k = .x := by
  rw [hi.typ, mem_xOf, mem_xOf]
  constructor
  · rintro (⟨_, h1⟩ | ⟨_, h1⟩)
    · exact absurd hm (h.notT h1)
    · exact (h.t.unique hm h1).2
  · rintro rfl; exact Or.inr ⟨_, hm⟩

include hn hall

theorem TwinIndex.props : (∀ i, τ (τ i) = i) ∧ (∀ i, τ i ≠ i) ∧ (∀ i, t (τ i) = t i) ∧ ∀ i, s (τ i) = !s i := by
  have key : ∀ i, τ (τ i) = i ∧ τ i ≠ i ∧ t (τ i) = t i ∧ s (τ i) = !s i := by
    intro i
    rcases List.mem_append.1 ((hall _).1 (label_mem i)) with h1 | h1
    · obtain ⟨σ, k, h2, hk⟩ := mem_ancOf.1 h1
      have h3 := h.tw h2
      rw [← hi.twinC i h1] at h3
      have h4 := mem_ancOf.2 ⟨_, _, h3, hk⟩
      have s1 : s (τ i) = true := (hi.code _).2 h4
      have s2 : s i = false := by
        cases hs : s i
        · rfl
        · exact absurd ((hi.code i).1 hs) (not_both h h1)
      refine ⟨label_inj hn ?_, fun he => ?_, ?_, by rw [s1, s2]; rfl⟩
      · rw [hi.twinT _ h4, hi.twinC _ h1, h.tw_tw h2]
      · rw [he, s2] at s1
        cases s1
      · rw [Bool.eq_iff_iff, hi.isX_t h h3, hi.isX_c h h2]
    · obtain ⟨σ, k, h2, hk⟩ := mem_ancOf.1 h1
      have h3 := h.symm.tw h2
      rw [← hi.twinT i h1] at h3
      have h4 := mem_ancOf.2 ⟨_, _, h3, hk⟩
      have s1 : s i = true := (hi.code _).2 h1
      have s2 : s (τ i) = false := by
        cases hs : s (τ i)
        · rfl
        · exact absurd ((hi.code _).1 hs) (not_both h h4)
      refine ⟨label_inj hn ?_, fun he => ?_, ?_, by rw [s1, s2]; rfl⟩
      · rw [hi.twinC _ h4, hi.twinT _ h1, h.symm.tw_tw h2]
      · rw [he, s1] at s2
        cases s2
      · rw [Bool.eq_iff_iff, hi.isX_c h h3, hi.isX_t h h2]
  exact ⟨fun i => (key i).1, fun i => (key i).2.1, fun i => (key i).2.2.1, fun i => (key i).2.2.2⟩

/-- The matrix of a gate. -/
theorem TwinIndex.genMat (ht : CnotTable lc lt Lc Lt label) :
    genMat cfg (pairGen lc lt Lc label) = cnotBlk t s τ false := by
  obtain ⟨-, hne, -, -⟩ := hi.props h hn hall
  have one : ∀ i, pairGen lc lt Lc label (cfg.label i) = [cfg.label i] →
      (Two.cnot (t i)) (s i) (s i) = 1 → (Two.cnot (t i)) (s i) (!s i) = 0 →
      ∀ j, SurfaceSim.genMat cfg (pairGen lc lt Lc label) i j = cnotBlk t s τ false i j := by
    intro i e e1 e2 j
    unfold SurfaceSim.genMat cnotBlk blk
    simp only [e, List.mem_singleton, Bool.xor_false, e1, e2]
    by_cases hj : j = i
    · subst hj; simp
    · rw [if_neg fun h => hj (label_inj hn h), if_neg hj, ite_self]
  have two : ∀ i, pairGen lc lt Lc label (cfg.label i) = [cfg.label i, cfg.label (τ i)] →
      (Two.cnot (t i)) (s i) (s i) = 1 → (Two.cnot (t i)) (s i) (!s i) = 1 →
      ∀ j, SurfaceSim.genMat cfg (pairGen lc lt Lc label) i j = cnotBlk t s τ false i j := by
    intro i e e1 e2 j
    unfold SurfaceSim.genMat cnotBlk blk
    simp only [e, Bool.xor_false, e1, e2, List.mem_cons, List.not_mem_nil, or_false]
    by_cases hj : j = i
    · subst hj; simp
    · by_cases hj' : j = τ i
      · subst hj'; simp
      · rw [if_neg, if_neg hj, if_neg hj']
        rintro (h | h)
        · exact hj (label_inj hn h)
        · exact hj' (label_inj hn h)
  funext i j
  rcases List.mem_append.1 ((hall _).1 (label_mem i)) with h1 | h1
  · obtain ⟨σ, k, h2, hk⟩ := mem_ancOf.1 h1
    have s2 : s i = false := by
      cases hs : s i
      · rfl
      · exact absurd ((hi.code i).1 hs) (not_both h h1)
    have ht' := hi.isX_c h h2
    have hg : pairGen lc lt Lc label (cfg.label i) = newGen lc label (cfg.label i) := if_pos h1
    cases k with
    | data => exact absurd rfl hk
    | x =>
      obtain ⟨y, hy, hp⟩ := ht.xc _ _ h2
      refine two i ?_ ?_ ?_ j
      · rw [hg, hi.twinC i h1, (h.t.unique' (h.tw h2) hy).1]
        unfold newGen gateAt; rw [hp]; simp [Dict.get?]
      · rw [ht'.2 rfl, s2]; rfl
      · rw [ht'.2 rfl, s2]; rfl
    | z =>
      have ht' : t i = false := by cases hh : t i; exacts [rfl, by cases ht'.1 hh]
      refine one i ?_ ?_ ?_ j
      · rw [hg]
        unfold newGen gateAt; rw [ht.zc _ _ h2]; simp [Dict.get?]
      · rw [ht', s2]; rfl
      · rw [ht', s2]; rfl
  · obtain ⟨σ, k, h2, hk⟩ := mem_ancOf.1 h1
    have s2 : s i = true := (hi.code _).2 h1
    have ht' := hi.isX_t h h2
    have hg : pairGen lc lt Lc label (cfg.label i) = newGen lt label (cfg.label i) := if_neg (h.symm.notAnc h2)
    cases k with
    | data => exact absurd rfl hk
    | x =>
      refine one i ?_ ?_ ?_ j
      · rw [hg]
        unfold newGen gateAt; rw [ht.xt _ _ h2]; simp [Dict.get?]
      · rw [ht'.2 rfl, s2]; rfl
      · rw [ht'.2 rfl, s2]; rfl
    | z =>
      have ht' : t i = false := by cases hh : t i; exacts [rfl, by cases ht'.1 hh]
      obtain ⟨y, hy, hp⟩ := ht.zt _ _ h2
      refine two i ?_ ?_ ?_ j
      · rw [hg, hi.twinT i h1, (h.c.unique' (h.symm.tw h2) hy).1]
        unfold newGen gateAt; rw [hp]; simp [Dict.get?]
      · rw [ht', s2]; rfl
      · rw [ht', s2]; rfl

end

theorem cnotBlk_not (d : Bool) : cnotBlk t (fun i => !s i) τ d = cnotBlk (cfg := cfg) t s τ (!d) := by
  funext i j
  unfold cnotBlk blk
  dsimp only
  cases t i <;> cases s i <;> cases d <;> rfl

theorem Orbit.flip {G : cfg.Mat Int} (h : Orbit t s τ G) : Orbit t (fun i => !s i) τ G := by
  obtain ⟨h0, f, hf, rfl⟩ := h
  refine ⟨h0, fun b r c => f b (!r) (!c), fun b => ?_, ?_⟩
  · obtain ⟨x, y, z, w, e, hx⟩ := hf b
    refine ⟨w, z, y, x, ?_, by revert hx; cases x <;> cases y <;> cases z <;> cases w <;> decide⟩
    funext r c
    dsimp only
    rw [e]
    cases r <;> cases c <;> rfl
  · funext i j
    unfold blk
    dsimp only
    rw [Bool.not_not]

theorem Orbit.unflip {G : cfg.Mat Int} (h : Orbit t (fun i => !s i) τ G) : Orbit t s τ G := by
  have := h.flip
  simpa only [Bool.not_not] using this

/-! ### the other order of the codes -/

/-- The values with control and target exchanged. -/
def swapV (w : Values (Bool × Bool)) : Values (Bool × Bool) := (fun k => w.1 (!k.1, k.2), w.2)

theorem stabValue_swap (ι : String → Nat) (st : FState Nat) (h : Twins lc lt Lc Lt dirs) {a : String}
    (ha : a ∈ ancOf Lc ++ ancOf Lt) : stabValue ι [lt, lc] st a = stabValue ι [lc, lt] st a := by
  rcases List.mem_append.1 ha with ha | ha
  · obtain ⟨_, _, h1, -⟩ := mem_ancOf.1 ha
    rw [h.stabValue_c _ _ h1, h.symm.stabValue_t _ _ h1]
  · obtain ⟨_, _, h1, -⟩ := mem_ancOf.1 ha
    rw [h.stabValue_t _ _ h1, h.symm.stabValue_c _ _ h1]

theorem pairValues_swap (h : Twins lc lt Lc Lt dirs) (st : FState Nat) :
    pairValues nm lt lc Lt Lc B A st = swapV (pairValues nm lc lt Lc Lt A B st) := by
  refine Prod.ext (funext fun k => ?_) (funext fun a => ?_)
  · obtain ⟨isT, isX⟩ := k
    cases isT <;> rfl
  · show (if a ∈ ancOf Lt ++ ancOf Lc then _ else 0) = if a ∈ ancOf Lc ++ ancOf Lt then _ else 0
    by_cases ha : a ∈ ancOf Lc ++ ancOf Lt
    · rw [if_pos ha, if_pos (by simpa [or_comm] using ha), stabValue_swap _ _ h ha]
    · rw [if_neg ha, if_neg (by simpa [or_comm] using ha)]

section
variable {K K' : Type} {anc anc' : List String} {v : FState Nat → Values K} {v' : FState Nat → Values K'} {reset : Bool}
  {V : (Nat → ZMod 2) → (Nat → ZMod 2) → Values K} {D : (Nat → ZMod 2) → (Nat → ZMod 2) → List (ZMod 2)} {H : List String}
  {M M' : cfg.Mat Int} {N : cfg.Mat (ZMod 2)}

/-- The order of the ancillas and of the logical operators does not matter. -/
theorem HInv.conv {σ : Values K → Values K'} (hσ : ∀ w, (σ w).2 = w.2) (ha : ∀ q, q ∈ anc' ↔ q ∈ anc)
    (hv : ∀ st, v' st = σ (v st)) {r : Nat} {e : Circuit} {s : Sim cfg} (h : HInv nm anc v reset H r V D M M' N e s) :
    HInv nm anc' v' reset H r (fun ζ ρ => σ (V ζ ρ)) D M M' N e s := by
  refine ⟨h.tracks, fun q hq => h.counts q ((ha q).1 hq), fun q hq => (ha q).2 (h.only q hq), h.even, h.order, h.det, fun ζ ρ => ?_⟩
  obtain ⟨g1, g2, g3, g4, g5, g6⟩ := h.frame ζ ρ
  dsimp only
  refine ⟨g1, g2, g3, by rw [hv, g4], fun q hq => g5 q ((ha q).1 hq), fun i => ?_⟩
  rw [hv, hσ]
  exact g6 i

end

variable {reset : Bool} {V : (Nat → ZMod 2) → (Nat → ZMod 2) → Values (Bool × Bool)}
  {D : (Nat → ZMod 2) → (Nat → ZMod 2) → List (ZMod 2)} {H : List String} {G : cfg.Mat Int} {R : Prop}

theorem HInv.swap (h : Twins lc lt Lc Lt dirs) {M M' : cfg.Mat Int} {N : cfg.Mat (ZMod 2)} {r : Nat} {e : Circuit} {s : Sim cfg}
    (hi : HInv nm (ancOf Lc ++ ancOf Lt) (pairValues nm lc lt Lc Lt A B) reset H r V D M M' N e s) :
    HInv nm (ancOf Lt ++ ancOf Lc) (pairValues nm lt lc Lt Lc B A) reset H r (fun ζ ρ => swapV (V ζ ρ)) D M M' N e s :=
  hi.conv (σ := swapV) (fun _ => rfl) (fun q => by simp [or_comm]) (pairValues_swap h)

/-! ### rounds -/

open Classical in
/-- A merged round. -/
theorem HInv.mergedRound {K : Type} {v : FState Nat → Values K} {V : (Nat → ZMod 2) → (Nat → ZMod 2) → Values K}
    {M M' : cfg.Mat Int} {N : cfg.Mat (ZMod 2)} (h : Twins lc lt Lc Lt dirs) (hcfg : ConfigOk cfg)
    (hf : cfg.frame ≠ .gateIndependent) (hS : FrameSteps M M' N) (hN : N * N = 1)
    (hk : ∀ q ∈ ancOf Lc ++ ancOf Lt, q ∈ nm.inds.keys)
    (hall : ∀ q, q ∈ cfg.anc ↔ q ∈ ancOf Lc ++ ancOf Lt) {iter : Layout → Bool → Gen}
    (hM : ∀ (s : MeasState) (hist : List String), s.Tracks nm.inds hist →
      Gives R (mergeGens ([lc, lt].map fun l => iter l reset)) s fun c s' =>
        s'.Tracks nm.inds (hist ++ (ancOf Lc ++ ancOf Lt)) ∧ RoundAt nm (ancOf Lc ++ ancOf Lt) v reset c)
    (hv : ∀ st st' : FState Nat, st.x = st'.x → st.z = st'.z → v st = v st')
    {r : Nat} {e : Circuit} {s : Sim cfg}
    (hi : HInv nm (ancOf Lc ++ ancOf Lt) v reset H r V D M M' N e s) (h0 : r = 0 → N = 1)
    {sel : List String} (hsel : ∀ q ∈ sel, q ∈ ancOf Lc ++ ancOf Lt) :
    Gives R (mergeQecRounds iter [lc, lt] reset (some sel)) s fun c s' =>
      HInv nm (ancOf Lc ++ ancOf Lt) v reset (H ++ (ancOf Lc ++ ancOf Lt)) (r + 1) V
        (fun ζ ρ => D ζ ρ ++ cfg.anc.map fun q => if q ∈ sel ∧ r = 0 then (V ζ ρ).2 q else 0) M' M' 1 (e.concat c) s' := by
  unfold mergeQecRounds
  refine .bind_ok (show PyM.ofExcept (checkAnc [lc, lt] (some sel)) s = (.ok (), s) by rw [checkAnc_two h hsel]; rfl) ?_
  refine (onModel_gives (hM _ _ hi.tracks)).bind fun c s1 hq => ?_
  obtain ⟨h2, t1, hr⟩ := hq
  obtain ⟨s1, d1⟩ := s1
  obtain rfl : d1 = s.2 := h2
  obtain ⟨c', d', e2, h3⟩ := hi.roundAt hcfg hf hS hN (anc_two_nodup h) hk hall t1 hr hv h0 sel hsel
  refine .bind_ok (onDets_ok (s := (s1, s.2)) (f := fun getRec => Detectors.buildFromAnc getRec reset (some sel)) e2) ?_
  exact .pure h3

/-- A round that is not the first one. -/
def RoundGivesH (cfg : Detectors.Config) (R : Prop) (nm : NoiseModel) (anc : List String) (v : FState Nat → Values (Bool × Bool)) (reset : Bool)
    (round : PyM (Sim cfg) Circuit) : Prop :=
  ∀ H V D M M' N e s r, 1 ≤ r → FrameSteps M M' N → N * N = 1 → HInv nm anc v reset H r V D M M' N e s →
    Gives R round s fun c s' => HInv nm anc v reset (H ++ anc) (r + 1) V
      (fun ζ ρ => D ζ ρ ++ List.replicate cfg.anc.length 0) M' M' 1 (e.concat c) s'

theorem steps_self (h : (mod2 G).det ≠ 0) : FrameSteps G G 1 := by
  have : ∃ V : cfg.Mat Int, V * G = G ∧ (∀ i j, V i j = 0 ∨ Odd (V i j)) ∧ mod2 V = 1 := by
    refine ⟨1, one_mul _, fun i j => ?_, mod2_one⟩
    by_cases hij : i = j
    · subst hij; rw [Matrix.one_apply_eq]; exact Or.inr odd_one
    · rw [Matrix.one_apply_ne hij]; exact Or.inl rfl
  exact ⟨h, h, this, this⟩

/-- Several rounds. -/
theorem HInv.roundsGive {anc : List String} {v : FState Nat → Values (Bool × Bool)} {round : PyM (Sim cfg) Circuit}
    (hround : RoundGivesH cfg R nm anc v reset round) {M' : cfg.Mat Int} (hM' : (mod2 M').det ≠ 0) {α : Type} (xs : List α) :
    ∀ {H : List String} {D : (Nat → ZMod 2) → (Nat → ZMod 2) → List (ZMod 2)} {r : Nat} {M : cfg.Mat Int}
    {N : cfg.Mat (ZMod 2)} {e : Circuit} {s : Sim cfg}, xs ≠ [] →
    1 ≤ r → FrameSteps M M' N → N * N = 1 → HInv nm anc v reset H r V D M M' N e s →
    Gives R (addAll e xs (fun _ => round)) s fun e' s' => HInv nm anc v reset (H ++ (List.replicate xs.length anc).flatten)
      (r + xs.length) V (fun ζ ρ => D ζ ρ ++ List.replicate (xs.length * cfg.anc.length) 0) M' M' 1 e' s' := by
  induction xs with
  | nil => exact fun h => absurd rfl h
  | cons x xs ih =>
    intro H D r M N e s _ hr hS hN h
    show Gives R ((addTo e round) >>= fun e => addAll e xs fun _ => round) s _
    refine (Gives.addTo (hround H V D M M' N e s r hr hS hN h)).bind fun e1 s1 h2 => ?_
    cases xs with
    | nil =>
      refine .of_ok rfl ?_
      simpa using h2
    | cons y ys =>
      refine (ih (by simp) (by omega) (steps_self hM') (one_mul 1) h2).mono fun e2 s2 h4 => ?_
      convert h4 using 1
      · rw [List.length_cons (a := x), List.replicate_succ, List.flatten_cons, List.append_assoc]
      · rw [List.length_cons (a := x)]; omega
      · funext ζ ρ
        rw [List.append_assoc, List.replicate_append_replicate, List.length_cons (a := x)]
        congr 2; ring

/-! ### gates -/

/-- The values of the logical operators after a gate; with `d` control and target are exchanged. -/
def logStep (d : Bool) (f : Bool × Bool → ZMod 2) (k : Bool × Bool) : ZMod 2 :=
  if d then ((cnotImage (!k.1, k.2)).map fun k => f (!k.1, k.2)).sum else ((cnotImage k).map f).sum

section
variable (h : Twins lc lt Lc Lt dirs) (gc : GridCode code lc Lc A Xc Zc) (gt : GridCode code lt Lt B Xt Zt)
    (hrc : CanRun nm lc) (hrt : CanRun nm lt)
    (isCode : code = "rotated_surface_code" ∨ code = "unrotated_surface_code")
    (hlab : cnotLabel lc lt = .ok label) (ht : CnotTable lc lt Lc Lt label) (tX : TwinSets Lc Lt Xc Xt) (tZ : TwinSets Lc Lt Zc Zt)
    (hn : cfg.anc.Nodup) (hall : ∀ q, q ∈ cfg.anc ↔ q ∈ ancOf Lc ++ ancOf Lt) (hx : TwinIndex cfg Lc Lt t s τ)
include h gc gt hrc hrt isCode hlab ht tX tZ hn hall hx

/-- A gate. -/
theorem HInv.cnotAt (o : SetOrder) {M M' G' : cfg.Mat Int} {N : cfg.Mat (ZMod 2)} (hG : IsBits G')
    (hm : mod2 G' = mod2 (cnotBlk t s τ false) * mod2 M') {r : Nat} {e : Circuit} {s0 : Sim cfg}
    (hi : HInv nm (ancOf Lc ++ ancOf Lt) (pairValues nm lc lt Lc Lt A B) reset H r V D M M' N e s0) :
    ∃ e' s' V', addTo e (transCnot o nm lc lt) s0 = (.ok e', s') ∧ (∀ ζ ρ, (V' ζ ρ).1 = logStep false (V ζ ρ).1) ∧
      HInv nm (ancOf Lc ++ ancOf Lt) (pairValues nm lc lt Lc Lt A B) reset H r V' D M G' (mod2 (cnotBlk t s τ false) * N) e' s' := by
  have hgood := goodTable_cnot h ht
  obtain ⟨p1, p2, p3, p4⟩ := hx.props h hn hall
  have gX : ∀ {l : Layout} {L : List (String × Site × Kind)} {lab : String} {lx lz : List String}, GridCode code l L lab lx lz →
      l.logX.get? lab = some lx ∧ l.logZ.get? lab = some lz := by
    intro l L lab lx lz g
    rw [g.logX, g.logZ]
    simp [Dict.get?]
  obtain ⟨Dt, hDn, hD, hk, hgate⟩ := Props.cnot_dict h ht hlab nm o cfg
  have hD' : ∀ a ∈ ancOf Lc ++ ancOf Lt, Dt.get? a = some (pairGen lc lt Lc label a) := by
    intro a ha
    unfold pairGen
    split
    · rename_i hac
      exact hD lc (by simp) a (by rw [ancOfLayout_grid h.c]; exact hac)
    · rename_i hac
      exact hD lt (by simp) a (by rw [ancOfLayout_grid h.t]; exact (List.mem_append.1 ha).resolve_left hac)
  have hk' : ∀ a, a ∈ Dt.keys ↔ a ∈ ancOf Lc ++ ancOf Lt := by
    intro a
    rw [hk]
    simp [ancOfLayout_grid h.c, ancOfLayout_grid h.t]
  have hU := hx.genMat h hn hall ht
  obtain ⟨e', s', h1, h2⟩ := hi.gate (U := mod2 (cnotBlk t s τ false)) hn
    (blockG_transCnot h hrc hrt o (by rw [gc.name]; exact isCode) (by rw [gt.name]; exact isCode)
      hlab ht (gX gc).1 (gX gc).2 (gX gt).1 (gX gt).2 tX tZ) hDn (known_genMat hall hgood hDn hD' hk')
    (by rw [← hU]; exact dictMat_genMat hall hD') (cnotBlk_det p1 p2 p3 p4 false) hgate
    (fun w i => by rw [← hU]; exact gateMap_mulVec hn hall hgood w i) hG hm
  refine ⟨e', s', _, h1, fun ζ ρ => ?_, h2⟩
  funext k
  show _ + _ = _
  simp [logStep]

/-- A gate after a round. -/
theorem HInv.cnot (o : SetOrder) (hG : Orbit t s τ G) {r : Nat} {e : Circuit} {s0 : Sim cfg}
    (hi : HInv nm (ancOf Lc ++ ancOf Lt) (pairValues nm lc lt Lc Lt A B) reset H r V D G G 1 e s0) :
    ∃ e' s' G' V', addTo e (transCnot o nm lc lt) s0 = (.ok e', s') ∧ Orbit t s τ G' ∧
      FrameSteps G G' (mod2 (cnotBlk t s τ false)) ∧ (∀ ζ ρ, (V' ζ ρ).1 = logStep false (V ζ ρ).1) ∧
      HInv nm (ancOf Lc ++ ancOf Lt) (pairValues nm lc lt Lc Lt A B) reset H r V' D G G' (mod2 (cnotBlk t s τ false)) e' s' := by
  obtain ⟨p1, p2, p3, p4⟩ := hx.props h hn hall
  obtain ⟨G', o1, o2, o3⟩ := hG.gate p1 p2 p3 p4 false
  obtain ⟨e', s', V', h1, h2, h3⟩ := hi.cnotAt h gc gt hrc hrt isCode hlab ht tX tZ hn hall hx o o1.isBits o2
  rw [mul_one] at h3
  exact ⟨e', s', G', V', h1, o1, o3, h2, h3⟩

/-- A gate with rounds after it. -/
theorem HInv.cnotRounds (o : SetOrder) {round : PyM (Sim cfg) Circuit}
    (hround : RoundGivesH cfg R nm (ancOf Lc ++ ancOf Lt) (pairValues nm lc lt Lc Lt A B) reset round)
    {m : Nat} (hm : 1 ≤ m) (hG : Orbit t s τ G) {r : Nat} {e : Circuit} {s0 : Sim cfg} (hr : 1 ≤ r)
    (hi : HInv nm (ancOf Lc ++ ancOf Lt) (pairValues nm lc lt Lc Lt A B) reset H r V D G G 1 e s0) :
    Gives R (gateAndRounds (transCnot o nm lc lt) m round e) s0 fun e' s' => ∃ G' V', Orbit t s τ G' ∧
      (∀ ζ ρ, (V' ζ ρ).1 = logStep false (V ζ ρ).1) ∧
      HInv nm (ancOf Lc ++ ancOf Lt) (pairValues nm lc lt Lc Lt A B) reset (H ++ (List.replicate m (ancOf Lc ++ ancOf Lt)).flatten)
        (r + m) V' (fun ζ ρ => D ζ ρ ++ List.replicate (m * cfg.anc.length) 0) G' G' 1 e' s' := by
  obtain ⟨e1, s1, G', V', h1, h2, h3, h4, h5⟩ := hi.cnot h gc gt hrc hrt isCode hlab ht tX tZ hn hall hx o hG
  obtain ⟨p1, p2, p3, p4⟩ := hx.props h hn hall
  unfold gateAndRounds
  refine .bind_ok h1 ?_
  have hne : List.range m ≠ [] := by
    intro h0
    have := congrArg List.length h0
    simp at this
    omega
  refine (HInv.roundsGive hround h2.1 (List.range m) hne hr h3 (cnotBlk_sq p1 p2 p3 p4 false) h5).mono fun e2 s2 h6 => ?_
  rw [List.length_range] at h6
  exact ⟨G', V', h2, h4, h6⟩

end

variable {label' : String}

/-- The layouts in the order of a gate. -/
def turned (lc lt : Layout) (d : Bool) : Layout × Layout := if d then (lt, lc) else (lc, lt)

/-- The ancillas in the order of a gate. -/
def turnedAnc (Lc Lt : List (String × Site × Kind)) (d : Bool) : List String :=
  if d then ancOf Lt ++ ancOf Lc else ancOf Lc ++ ancOf Lt

section
variable (h : Twins lc lt Lc Lt dirs) (gc : GridCode code lc Lc A Xc Zc) (gt : GridCode code lt Lt B Xt Zt)
    (hrc : CanRun nm lc) (hrt : CanRun nm lt)
    (isCode : code = "rotated_surface_code" ∨ code = "unrotated_surface_code")
    (hlab : cnotLabel lc lt = .ok label) (ht : CnotTable lc lt Lc Lt label)
    (hlab' : cnotLabel lt lc = .ok label') (ht' : CnotTable lt lc Lt Lc label')
    (tX : TwinSets Lc Lt Xc Xt) (tZ : TwinSets Lc Lt Zc Zt)
    (hn : cfg.anc.Nodup) (hall : ∀ q, q ∈ cfg.anc ↔ q ∈ ancOf Lc ++ ancOf Lt) (hx : TwinIndex cfg Lc Lt t s τ)
include h gc gt hrc hrt isCode hlab ht hlab' ht' tX tZ hn hall hx

/-- A gate of either direction with rounds after it. -/
theorem HInv.turnRounds (o : SetOrder) {round : List Layout → PyM (Sim cfg) Circuit}
    (hround : RoundGivesH cfg R nm (ancOf Lc ++ ancOf Lt) (pairValues nm lc lt Lc Lt A B) reset (round [lc, lt]))
    (hround' : RoundGivesH cfg R nm (ancOf Lt ++ ancOf Lc) (pairValues nm lt lc Lt Lc B A) reset (round [lt, lc]))
    {m : Nat} (hm : 1 ≤ m) (hG : Orbit t s τ G) (d : Bool) {r : Nat} {e : Circuit} {s0 : Sim cfg} (hr : 1 ≤ r)
    (hi : HInv nm (ancOf Lc ++ ancOf Lt) (pairValues nm lc lt Lc Lt A B) reset H r V D G G 1 e s0) :
    Gives R (gateAndRounds (transCnot o nm (turned lc lt d).1 (turned lc lt d).2) m
      (round [(turned lc lt d).1, (turned lc lt d).2]) e) s0 fun e' s' => ∃ G' V', Orbit t s τ G' ∧
      (∀ ζ ρ, (V' ζ ρ).1 = logStep d (V ζ ρ).1) ∧
      HInv nm (ancOf Lc ++ ancOf Lt) (pairValues nm lc lt Lc Lt A B) reset (H ++ (List.replicate m (turnedAnc Lc Lt d)).flatten)
        (r + m) V' (fun ζ ρ => D ζ ρ ++ List.replicate (m * cfg.anc.length) 0) G' G' 1 e' s' := by
  cases d
  · exact hi.cnotRounds h gc gt hrc hrt isCode hlab ht tX tZ hn hall hx o hround hm hG hr
  · have hall' : ∀ q, q ∈ cfg.anc ↔ q ∈ ancOf Lt ++ ancOf Lc := fun q => by rw [hall]; simp [or_comm]
    refine ((hi.swap h).cnotRounds h.symm gt gc hrt hrc isCode hlab' ht' tX.symm tZ.symm hn hall' (hx.symm h hall) o hround' hm
      hG.flip hr).mono fun e' s' hq => ?_
    obtain ⟨G', V', h1, h2, h3⟩ := hq
    refine ⟨G', _, h1.unflip, fun ζ ρ => ?_, h3.swap h.symm⟩
    funext k
    show (V' ζ ρ).1 (!k.1, k.2) = _
    rw [h2]
    rfl

/-- Gates of both directions with rounds after each of them. -/
theorem HInv.turns (o : SetOrder) {round : List Layout → PyM (Sim cfg) Circuit}
    (hround : RoundGivesH cfg R nm (ancOf Lc ++ ancOf Lt) (pairValues nm lc lt Lc Lt A B) reset (round [lc, lt]))
    (hround' : RoundGivesH cfg R nm (ancOf Lt ++ ancOf Lc) (pairValues nm lt lc Lt Lc B A) reset (round [lt, lc]))
    {m : Nat} (hm : 1 ≤ m) (ds : List Bool) : ∀ {H : List String} {G : cfg.Mat Int}
    {V : (Nat → ZMod 2) → (Nat → ZMod 2) → Values (Bool × Bool)} {D : (Nat → ZMod 2) → (Nat → ZMod 2) → List (ZMod 2)}
    {r : Nat} {e : Circuit} {s0 : Sim cfg}, Orbit t s τ G → 1 ≤ r →
    HInv nm (ancOf Lc ++ ancOf Lt) (pairValues nm lc lt Lc Lt A B) reset H r V D G G 1 e s0 →
    Gives R (Props.cnotSequence o nm round m (ds.map (turned lc lt)) e) s0 fun e' s' => ∃ G' V', Orbit t s τ G' ∧
      (∀ ζ ρ, (V' ζ ρ).1 = ds.foldl (fun f d => logStep d f) (V ζ ρ).1) ∧
      HInv nm (ancOf Lc ++ ancOf Lt) (pairValues nm lc lt Lc Lt A B) reset
        (H ++ ds.flatMap fun d => (List.replicate m (turnedAnc Lc Lt d)).flatten)
        (r + ds.length * m) V' (fun ζ ρ => D ζ ρ ++ List.replicate (ds.length * m * cfg.anc.length) 0) G' G' 1 e' s' := by
  induction ds with
  | nil =>
    intro H G V D r e s0 hG _ hi
    exact .of_ok rfl ⟨G, V, hG, fun _ _ => rfl, by simpa using hi⟩
  | cons d ds ih =>
    intro H G V D r e s0 hG hr hi
    rw [List.map_cons, Props.cnotSequence, List.foldlM_cons]
    refine (hi.turnRounds h gc gt hrc hrt isCode hlab ht hlab' ht' tX tZ hn hall hx o hround hround' hm hG d hr).bind
      fun e1 s1 hq => ?_
    obtain ⟨G1, V1, o1, l1, i1⟩ := hq
    refine (ih o1 (by omega) i1).mono fun e2 s2 hq => ?_
    obtain ⟨G2, V2, o2, l2, i2⟩ := hq
    refine ⟨G2, V2, o2, fun ζ ρ => by rw [l2, l1, List.foldl_cons], ?_⟩
    convert i2 using 1
    · rw [List.flatMap_cons, List.append_assoc]
    · rw [List.length_cons]; ring
    · funext ζ ρ
      rw [List.append_assoc, List.replicate_append_replicate, List.length_cons]
      congr 2; ring

end

/-- The merged measurement of the data qubits. -/
theorem HInv.mergedMeas (h : Twins lc lt Lc Lt dirs) (gc : GridCode code lc Lc A Xc Zc) (gt : GridCode code lt Lt B Xt Zt)
    (hrc : CanRun nm lc) (hrt : CanRun nm lt) (hcfg : ConfigOk cfg) (hf : cfg.frame ≠ .gateIndependent)
    {M M' : cfg.Mat Int} {N : cfg.Mat (ZMod 2)} (hS : FrameSteps M M' N)
    (hall : ∀ q, q ∈ cfg.anc ↔ q ∈ ancOf Lc ++ ancOf Lt) {rb : Bool} {iter : Layout → Bool → Gen}
    (hM : ∀ (s : MeasState) (hist : List String), s.Tracks nm.inds hist →
      Gives R (mergeGens [iter lc rb, iter lt rb]) s fun c s' => PairsOk c ∧
        s'.Tracks nm.inds (hist ++ (dataOf Lc ++ dataOf Lt)) ∧ measOrder c = (dataOf Lc ++ dataOf Lt).map (ind nm.inds) ∧
        ∀ (ρ : Nat → ZMod 2) (st : FState Nat), MeasuresBasis (ind nm.inds) rb (dataOf Lc ++ dataOf Lt) st (run ρ st (ops c)))
    {r : Nat} {e : Circuit} {s : Sim cfg} (hr : 1 ≤ r)
    (hi : HInv nm (ancOf Lc ++ ancOf Lt) (pairValues nm lc lt Lc Lt A B) reset H r V D M M' N e s)
    {sel : List String} (hsel : ∀ q ∈ sel, q ∈ ancOf Lc ++ ancOf Lt) :
    Gives R (mergeLogMeas iter [lc, lt] [rb, rb] reset (some sel)) s fun c _ => PairsOk (e.concat c) ∧
      measOrder (e.concat c) = (H ++ (dataOf Lc ++ dataOf Lt)).map (ind nm.inds) ∧
      ∀ ζ ρ, detectors ζ ρ (e.concat c) =
          D ζ ρ ++ List.replicate (cfg.anc.filter (· ∈ stabsOf Lc rb ++ stabsOf Lt rb)).length 0 ∧
        observables ζ ρ (e.concat c) = [(0, (V ζ ρ).1 (false, rb)), (1, (V ζ ρ).1 (true, rb))] := by
  have hmc := gc.memCode h.c hrc rb
  have hmt := gt.memCode h.t hrt rb
  obtain ⟨E, hE, hEk, hEg⟩ := allSupport_two h hmc hmt
  have kd : ∀ d ∈ dataOf Lc ++ dataOf Lt, d ∈ nm.inds.keys := by
    intro d hd
    rcases List.mem_append.1 hd with hd | hd
    · exact hmc.known (List.mem_append_left _ hd)
    · exact hmt.known (List.mem_append_left _ hd)
  have ka : ∀ d ∈ ancOf Lc ++ ancOf Lt, d ∈ nm.inds.keys := by
    intro d hd
    rcases List.mem_append.1 hd with hd | hd
    · exact hmc.known (List.mem_append_right _ hd)
    · exact hmt.known (List.mem_append_right _ hd)
  have dataN := data_two_nodup h
  unfold mergeLogMeas
  rw [if_neg (by simp)]
  refine .bind_ok (show PyM.ofExcept (checkAnc [lc, lt] (some sel)) s = (.ok (), s) by rw [checkAnc_two h hsel]; rfl) ?_
  refine (onModel_gives (hM _ _ hi.tracks)).bind fun c3 s3 hq => ?_
  obtain ⟨h2, p3, t3, mo, f3⟩ := hq
  obtain ⟨s3, d3⟩ := s3
  obtain rfl : d3 = s.2 := h2
  refine .bind_ok (show PyM.ofExcept (allSupport ([lc, lt].zip [rb, rb]) [] []) (s3, s.2) = (.ok _, (s3, s.2)) by
    rw [show [lc, lt].zip [rb, rb] = [(lc, rb), (lt, rb)] from rfl, hE]; rfl) ?_
  obtain ⟨c1, d1, e1, p1, g1, o4, mo4, f4⟩ := hi.dataMeas hcfg hf hS hall dataN (data_anc_two h) kd ka hr
    hEk (fun a qs hq q hqq => by
      rcases hEg a qs hq with ⟨k1, k2⟩ | ⟨k1, k2⟩
      · exact List.mem_append_left _ (hmc.sup a (hmc.stabsSub a k1) q (k2.mem_iff.1 hqq))
      · exact List.mem_append_right _ (hmt.sup a (hmt.stabsSub a k1) q (k2.mem_iff.1 hqq)))
    p3 t3 mo (fun st d => if rb then st.z (ind nm.inds d) else st.x (ind nm.inds d))
    (fun ρ st => ⟨(f3 ρ st).recs, (f3 ρ st).dets, (f3 ρ st).obs⟩)
    (fun st a ha qs hqs => by
      obtain ⟨b1, b2, -, -⟩ := pairValues_basis (nm := nm) h gc gt st rb
      rcases hEg a qs hqs with ⟨k1, k2⟩ | ⟨k1, k2⟩
      · rw [b1 a k1]
        exact (k2.map _).sum_eq
      · rw [b2 a k1]
        exact (k2.map _).sum_eq) hsel
  refine .bind_ok (onDets_ok (s := (s3, s.2)) (f := fun getRec => Detectors.buildFromData getRec E reset
    (stabsOf Lc rb ++ stabsOf Lt rb) (some sel)) e1) ?_
  have hcount : ∀ q ∈ dataOf Lc ++ dataOf Lt, 1 ≤ (H ++ (dataOf Lc ++ dataOf Lt)).count q := by
    intro q hq
    rw [List.count_append, List.count_eq_one_of_mem dataN hq]
    omega
  set Lx := (if rb then Xc else Zc) with hLx
  set Ly := (if rb then Xt else Zt) with hLy
  have hx : ∀ q ∈ Lx, q ∈ dataOf Lc ++ dataOf Lt := fun q hq => List.mem_append_left _ (hmc.logSub q hq)
  have hy : ∀ q ∈ Ly, q ∈ dataOf Lc ++ dataOf Lt := fun q hq => List.mem_append_right _ (hmt.logSub q hq)
  have hobs := allObservables_two (rb := rb) gc.log gt.log (Xc := Lx) (Xt := Ly)
    (by rw [gc.logX, gc.logZ, hLx]; cases rb <;> simp [Dict.getE, Dict.get?])
    (by rw [gt.logX, gt.logZ, hLy]; cases rb <;> simp [Dict.getE, Dict.get?]) t3
    (fun q hq => ⟨kd q (hx q hq), hcount q (hx q hq)⟩) (fun q hq => ⟨kd q (hy q hq), hcount q (hy q hq)⟩)
    (e := c3.concat c1)
  refine .of_ok (onModel_ok (s := (s3, d1)) hobs) ?_
  obtain ⟨pa, oa⟩ := append_obs (p3.concat p1).2 0 (Lx.map (lookOf s3 · 1))
  obtain ⟨pc, oc⟩ := append_obs pa 1 (Ly.map (lookOf s3 · 1))
  have o5 := hi.even.concat pc
  have hops := o5.1
  rw [oc, oa, List.append_assoc, ← List.append_assoc (ops e), ← (hi.even.concat (p3.concat p1).2).1] at hops
  refine ⟨o5.2, ?_, fun ζ ρ => ?_⟩
  · rw [measOrder_ops, hops, measured_append, mo4]
    exact List.append_nil _
  · obtain ⟨st, w1, w2, w3, w4⟩ := f4 ζ ρ
    unfold detectors observables
    rw [hops, run_append]
    simp only [List.singleton_append, run_cons, run_nil, step]
    refine ⟨w2, ?_⟩
    rw [w3]
    simp only [List.reverse_cons, List.reverse_nil, List.nil_append, List.singleton_append]
    obtain ⟨-, -, b3, b4⟩ := pairValues_basis (nm := nm) h gc gt st rb
    rw [← w1, b3, b4]
    have hp : ∀ S : List String, (∀ q ∈ S, q ∈ dataOf Lc ++ dataOf Lt) →
        parity (run ρ (FState.start ζ) (ops (e.concat (c3.concat c1)))).recs (S.map (lookOf s3 · 1)) =
          anticommutes (ind nm.inds) st S fun _ => rb := by
      intro S hS
      unfold parity anticommutes
      rw [List.map_map]
      congr 1
      exact List.map_congr_left fun d hd => w4 d (hS d hd)
    rw [hp _ hx, hp _ hy]
    rfl

end SurfaceSim
