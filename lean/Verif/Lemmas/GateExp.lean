/-
Experiments with logical gates: values of the stabilizers and logical operators, and the detectors.
-/
import Verif.Lemmas.DetGates
import Verif.Lemmas.MemoryRun

namespace SurfaceSim
open Spec NoiseModel Blocks Experiments

variable {cfg : Detectors.Config} {nm : NoiseModel} {anc : List String} {K : Type}

/-- Values of logical operators and of stabilizers. -/
abbrev Values (K : Type) := (K → ZMod 2) × (String → ZMod 2)

/-- The circuit `c` measures the stabilizers, whose values are the second component of `v`, and keeps `v`. -/
def RoundAt (nm : NoiseModel) (anc : List String) (v : FState Nat → Values K) (reset : Bool) (c : Circuit) : Prop :=
  PairsOk c ∧ measOrder c = anc.map (ind nm.inds) ∧ ∀ (ρ : Nat → ZMod 2) (st : FState Nat),
    let st' := run ρ st (ops c)
    let out a := (if reset then 0 else st.x (ind nm.inds a)) + (v st).2 a
    st'.recs = (anc.map out).reverse ++ st.recs ∧ (∀ a ∈ anc, st'.x (ind nm.inds a) = out a) ∧
    v st' = v st ∧ st'.dets = st.dets ∧ st'.obs = st.obs

/-- A round measures the stabilizers, whose values are the second component of `v`, and keeps `v`. -/
def RoundG (nm : NoiseModel) (anc : List String) (v : FState Nat → Values K) (reset : Bool) (b : Call1) : Prop :=
  ∀ (s : MeasState) (hist : List String), s.Tracks nm.inds hist →
    ∃ c s', b s = (.ok c, s') ∧ s'.Tracks nm.inds (hist ++ anc) ∧ RoundAt nm anc v reset c

/-- A gate changes `v` by `Φ` and the generators of the detectors by `U`. -/
def GateG (nm : NoiseModel) (anc : List String) (v : FState Nat → Values K) (Φ : Values K → Values K) (U : cfg.Mat Int)
    (g : PyM (Sim cfg) Circuit) : Prop :=
  ∀ (s : Sim cfg) (hist : List String) (r : Nat) (A : cfg.Mat Int) (b : Bool), s.1.Tracks nm.inds hist →
    DetG r A (powOf U b) s.2 →
    ∃ c s', g s = (.ok c, s') ∧ PairsOk c ∧ s'.1.Tracks nm.inds hist ∧ DetG r A (powOf U (!b)) s'.2 ∧
      ∀ (ρ : Nat → ZMod 2) (st : FState Nat),
        let st' := run ρ st (ops c)
        st'.recs = st.recs ∧ st'.dets = st.dets ∧ st'.obs = st.obs ∧
        (∀ a ∈ anc, st'.x (ind nm.inds a) = st.x (ind nm.inds a)) ∧ v st' = Φ (v st)

/-- The syndrome of the last round, from the outcomes. -/
def lastSyn (anc : List String) (reset : Bool) (r : Nat) (recs : List (ZMod 2)) (a : String) : ZMod 2 :=
  (outs (histOf anc r) recs a).getD 0 0 + if reset = false ∧ 2 ≤ r then (outs (histOf anc r) recs a).getD 1 0 else 0

/-- The state of an experiment after `r` rounds and `n` gates; `D` are the values of the detectors so far. -/
structure GInv (nm : NoiseModel) (anc : List String) (v : FState Nat → Values K) (Φ : Values K → Values K)
    (U : cfg.Mat Int) (reset : Bool) (v0 : (Nat → ZMod 2) → (Nat → ZMod 2) → Values K)
    (D : (Nat → ZMod 2) → (Nat → ZMod 2) → List (ZMod 2)) (r n : Nat) (a b : Bool) (e : Circuit) (s : Sim cfg) : Prop where
  tracks : s.1.Tracks nm.inds (histOf anc r)
  even : PairsOk e
  order : measOrder e = (histOf anc r).map (ind nm.inds)
  det : DetG r (powOf U a) (powOf U b) s.2
  frame : ∀ ζ ρ : Nat → ZMod 2,
    let st := run ρ (FState.start ζ) (ops e)
    st.recs.length = (histOf anc r).length ∧ st.obs = [] ∧ st.dets = (D ζ ρ).reverse ∧ v st = Φ^[n] (v0 ζ ρ) ∧
    (∀ q ∈ anc, st.x (ind nm.inds q) = if r = 0 then 0 else (outs (histOf anc r) st.recs q).getD 0 0) ∧
    ∀ i, (v st).2 (cfg.label i) = if r = 0 then (v st).2 (cfg.label i) else
      (mod2 (powOf U (xor a b))).mulVec (fun j => lastSyn anc reset r st.recs (cfg.label j)) i

theorem length_histOf' (anc : List String) (r : Nat) : (histOf anc (r + 1)).length = (histOf anc r).length + anc.length := by
  rw [histOf_succ, List.length_append]

variable {v : FState Nat → Values K} {Φ : Values K → Values K} {U : cfg.Mat Int} {reset : Bool}
  {v0 : (Nat → ZMod 2) → (Nat → ZMod 2) → Values K} {D : (Nat → ZMod 2) → (Nat → ZMod 2) → List (ZMod 2)}

/-- A gate. -/
theorem GInv.gate {r n : Nat} {a b : Bool} {e : Circuit} {s : Sim cfg} {g : PyM (Sim cfg) Circuit}
    (hg : GateG nm anc v Φ U g) (hU : CleanInvolution U)
    (hΦ : ∀ w i, (Φ w).2 (cfg.label i) = (mod2 U).mulVec (fun j => w.2 (cfg.label j)) i)
    (h : GInv nm anc v Φ U reset v0 D r n a b e s) :
    ∃ e' s', addTo e g s = (.ok e', s') ∧ GInv nm anc v Φ U reset v0 D r (n + 1) a (!b) e' s' := by
  obtain ⟨c, s', h1, p1, t1, d1, f1⟩ := hg s _ r _ b h.tracks h.det
  have o1 := h.even.concat p1
  refine ⟨e.concat c, s', ?_, t1, o1.2, ?_, d1, fun ζ ρ => ?_⟩
  · unfold addTo
    rw [PyM.bind_ok h1]
    rfl
  · rw [measOrder_ops, o1.1, measured_append, ← measOrder_ops, h.order,
      measured_eq_nil (ρ := 0) (st := FState.init Nat) (f1 0 _).1, List.append_nil]
  · obtain ⟨g1, g2, g3, g4, g5, g6⟩ := h.frame ζ ρ
    rw [o1.1, run_append]
    obtain ⟨k1, k2, k3, k4, k5⟩ := f1 ρ (run ρ (FState.start ζ) (ops e))
    dsimp only
    rw [k1, k2, k3, k5]
    refine ⟨g1, g2, g3, by rw [g4, Function.iterate_succ_apply'], fun q hq => by rw [k4 q hq, g5 q hq], fun i => ?_⟩
    by_cases hr : r = 0
    · rw [if_pos hr]
    · rw [if_neg hr, hΦ]
      have : (fun j => (v (run ρ (FState.start ζ) (ops e))).2 (cfg.label j)) =
          (mod2 (powOf U (xor a b))).mulVec (fun j => lastSyn anc reset r (run ρ (FState.start ζ) (ops e)).recs (cfg.label j)) := by
        funext j
        have := g6 j
        rwa [if_neg hr] at this
      rw [this, Matrix.mulVec_mulVec]
      congr 1
      cases a <;> cases b <;> simp [powOf, mod2_one, hU.inv]

open Classical in
/-- A round; in the first one the detectors are the values of the stabilizers, later they vanish. -/
theorem GInv.roundAt (hcfg : ConfigOk cfg) (hf : cfg.frame ≠ .gateIndependent) (hU : CleanInvolution U) (hn : anc.Nodup)
    (hk : ∀ q ∈ anc, q ∈ nm.inds.keys) (hall : ∀ q, q ∈ cfg.anc ↔ q ∈ anc)
    {r n : Nat} {a b : Bool} {e : Circuit} {s : Sim cfg} (h : GInv nm anc v Φ U reset v0 D r n a b e s)
    {c : Circuit} {s1 : MeasState} (t1 : s1.Tracks nm.inds (histOf anc r ++ anc)) (hb : RoundAt nm anc v reset c)
    (hv : ∀ st st' : FState Nat, st.x = st'.x → st.z = st'.z → v st = v st') (h0 : r = 0 → a = b) (sel : List String) (hsel : ∀ q ∈ sel, q ∈ anc) :
    ∃ c' d', Detectors.buildFromAnc s1.measTarget reset (some sel) s.2 = (.ok c', d') ∧
      GInv nm anc v Φ U reset v0 (fun ζ ρ => D ζ ρ ++ cfg.anc.map fun q => if q ∈ sel ∧ r = 0 then
        (Φ^[n] (v0 ζ ρ)).2 q else 0) (r + 1) n b b (e.concat (c.concat c')) (s1, d') := by
  obtain ⟨p1, mo, f1⟩ := hb
  have hcount : ∀ q ∈ anc, (histOf anc r ++ anc).count q = r + 1 := by
    intro q hq; rw [← histOf_succ, count_histOf hn hq]
  have hlab : ∀ i, cfg.label i ∈ anc := fun i => (hall _).1 (label_mem i)
  obtain ⟨c', d', e2, p2, hd, f2⟩ := DetG.round hcfg hf hU h.det s1.measTarget (lookOf s1) reset sel
    (fun q hq => (hall q).2 (hsel q hq))
    (fun i k h1 _ h3 => (lookOf_spec t1 (hk _ (hlab i)) h1 (by rw [hcount _ (hlab i)]; omega)).1)
  have o1 := p1.concat p2
  have o2 := h.even.concat o1.2
  refine ⟨c', d', e2, by rw [histOf_succ]; exact t1, o2.2, ?_, hd, fun ζ ρ => ?_⟩
  · rw [measOrder_ops, o2.1, o1.1, measured_append, measured_append, ← measOrder_ops, ← measOrder_ops, h.order, mo,
      measured_eq_nil (ρ := 0) (st := FState.init Nat) (by rw [f2]), List.append_nil, histOf_succ, List.map_append]
  obtain ⟨g1, g2, g3, g4, g5, g6⟩ := h.frame ζ ρ
  rw [o2.1, o1.1, run_append, run_append, f2]
  set st := run ρ (FState.start ζ) (ops e) with hst
  obtain ⟨k1, k2, k3, k4, k5⟩ := f1 ρ st
  set st' := run ρ st (ops c) with hst'
  have hlen : st'.recs.length = (histOf anc r ++ anc).length := by
    rw [k1]; simp [g1]; omega
  have houts : ∀ q ∈ anc, outs (histOf anc r ++ anc) st'.recs q =
      ((if reset then 0 else st.x (ind nm.inds q)) + (v st).2 q) :: outs (histOf anc r) st.recs q := by
    intro q hq
    rw [k1, outs_append hn, if_pos hq]
  have hlook : ∀ q ∈ anc, ∀ k, 1 ≤ k → k ≤ r + 1 → lookback st'.recs (lookOf s1 q k) =
      (((if reset then 0 else st.x (ind nm.inds q)) + (v st).2 q) :: outs (histOf anc r) st.recs q).getD (k - 1) 0 := by
    intro q hq k hk1 hk2
    rw [(lookOf_spec t1 (hk q hq) hk1 (by rw [hcount q hq]; omega)).2 _ hlen, houts q hq]
  have hnow : ∀ q ∈ anc, lookback st'.recs (lookOf s1 q 1) + (if reset = false ∧ 1 ≤ r then
      lookback st'.recs (lookOf s1 q 2) else 0) = (v st).2 q := by
    intro q hq
    rw [hlook q hq 1 (by omega) (by omega)]
    by_cases hr : 1 ≤ r
    · have hr0 : r ≠ 0 := by omega
      rw [hlook q hq 2 (by omega) (by omega), g5 q hq]
      simp only [hr0, if_false]
      simp only [List.getD_cons_zero, Nat.sub_self, show 2 - 1 = 0 + 1 from rfl, List.getD_cons_succ]
      generalize (outs (histOf anc r) st.recs q).getD 0 0 = y
      generalize (v st).2 q = x
      cases reset <;> simp [hr]
      revert x y; decide
    · have hr0 : r = 0 := by omega
      rw [g5 q hq]
      simp [hr0]
  have hbefore : ∀ q ∈ anc, (if 1 ≤ r then lookback st'.recs (lookOf s1 q 2) + (if reset = false ∧ 2 ≤ r then
      lookback st'.recs (lookOf s1 q 3) else 0) else 0) = if r = 0 then 0 else lastSyn anc reset r st.recs q := by
    intro q hq
    by_cases hr : 1 ≤ r
    · have hr0 : r ≠ 0 := by omega
      rw [if_pos hr, hlook q hq 2 (by omega) (by omega)]
      simp only [hr0, if_false]
      unfold lastSyn
      by_cases h2 : reset = false ∧ 2 ≤ r
      · rw [if_pos h2, if_pos h2, hlook q hq 3 (by omega) (by omega)]
        rfl
      · rw [if_neg h2, if_neg h2]
        rfl
    · have hr0 : r = 0 := by omega
      simp [hr0]
  dsimp only
  refine ⟨by rw [histOf_succ]; exact hlen, by rw [k5]; exact g2, ?_, ?_, ?_, ?_⟩
  · rw [k4, g3, List.reverse_append]
    congr 2
    rw [← g4]
    rw [← labels_finRange, List.map_map]
    refine List.map_congr_left fun i _ => ?_
    simp only [Function.comp]
    simp only [hnow _ (hlab _), hbefore _ (hlab _)]
    by_cases hs : cfg.label i ∈ sel
    · rw [if_pos hs]
      by_cases hr : r = 0
      · have hsr : cfg.label i ∈ sel ∧ r = 0 := ⟨hs, hr⟩
        rw [if_pos hsr]
        have hab := h0 hr
        subst hab
        simp [hr, powOf, mod2_one]
      · have hsr : ¬ (cfg.label i ∈ sel ∧ r = 0) := fun h => hr h.2
        simp only [hr, and_false, if_false]
        have e3 : (fun j => (v st).2 (cfg.label j)) = (mod2 (powOf U (xor a b))).mulVec
            (fun j => lastSyn anc reset r st.recs (cfg.label j)) := by
          funext j
          have := g6 j
          rwa [if_neg hr] at this
        split
        · rw [e3, Matrix.mulVec_mulVec, powOf_sq hU, Matrix.one_mulVec, CharTwo.add_self_eq_zero]
        · rw [← e3, CharTwo.add_self_eq_zero]
    · have hsr : ¬ (cfg.label i ∈ sel ∧ r = 0) := fun h => hs h.1
      simp only [hs, false_and, if_false]
  · rw [← g4, ← k3]; exact hv _ _ rfl rfl
  · intro q hq
    have e4 := k2 q hq
    rw [if_neg (by omega), histOf_succ, houts q hq]
    exact e4
  · intro i
    rw [if_neg (by omega), Bool.xor_self]
    simp only [powOf, Bool.false_eq_true, if_false, mod2_one, Matrix.one_mulVec]
    have e5 : (v st').2 (cfg.label i) = lastSyn anc reset (r + 1) st'.recs (cfg.label i) := by
      rw [k3, ← hnow _ (hlab i)]
      unfold lastSyn
      rw [histOf_succ, houts _ (hlab i), hlook _ (hlab i) 1 (by omega) (by omega)]
      congr 1
      by_cases h2 : reset = false ∧ 1 ≤ r
      · rw [if_pos h2, if_pos ⟨h2.1, by omega⟩, hlook _ (hlab i) 2 (by omega) (by omega)]
      · rw [if_neg h2, if_neg (fun h => h2 ⟨h.1, by omega⟩)]
    rw [← e5]
    refine congrArg (fun w : Values K => w.2 (cfg.label i)) ?_
    exact hv _ _ rfl rfl

/-- The same for a block that always returns such a circuit. -/
theorem GInv.round (hcfg : ConfigOk cfg) (hf : cfg.frame ≠ .gateIndependent) (hU : CleanInvolution U) (hn : anc.Nodup)
    (hk : ∀ q ∈ anc, q ∈ nm.inds.keys) (hall : ∀ q, q ∈ cfg.anc ↔ q ∈ anc) {b1 : Call1} (hb : RoundG nm anc v reset b1)
    {r n : Nat} {a b : Bool} {e : Circuit} {s : Sim cfg} (h : GInv nm anc v Φ U reset v0 D r n a b e s)
    (hv : ∀ st st' : FState Nat, st.x = st'.x → st.z = st'.z → v st = v st') (h0 : r = 0 → a = b) (sel : List String) (hsel : ∀ q ∈ sel, q ∈ anc) :
    ∃ c s1 c' d', b1 s.1 = (.ok c, s1) ∧ Detectors.buildFromAnc s1.measTarget reset (some sel) s.2 = (.ok c', d') ∧
      GInv nm anc v Φ U reset v0 (fun ζ ρ => D ζ ρ ++ cfg.anc.map fun q => if q ∈ sel ∧ r = 0 then
        (Φ^[n] (v0 ζ ρ)).2 q else 0) (r + 1) n b b (e.concat (c.concat c')) (s1, d') := by
  obtain ⟨c, s1, e1, t1, hc⟩ := hb _ _ h.tracks
  obtain ⟨c', d', e2, h2⟩ := h.roundAt hcfg hf hU hn hk hall t1 hc hv h0 sel hsel
  exact ⟨c, s1, c', d', e1, e2, h2⟩

end SurfaceSim
