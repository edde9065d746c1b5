/-
Experiments with logical gates and faults: rounds and gates.
-/
import Verif.Lemmas.FaultsPair
import Verif.Lemmas.CnotExp

namespace SurfaceSim
open Spec NoiseModel Blocks Experiments

variable {nm : NoiseModel} {cfg : Detectors.Config} {I J : Type} {A : Finset String} {anc T : List String} {U : cfg.Mat Int}
  {reset : Bool}

/-- The detectors of a round. -/
def gateDets (cfg : Detectors.Config) (N : cfg.Mat (ZMod 2)) (reset : Bool) (sel : List String) (r : Nat)
    (look : String → Nat → Int) (recs : List (ZMod 2)) : List (ZMod 2) :=
  (List.finRange cfg.n).map fun i =>
    let L (j : Fin cfg.n) (k : Nat) := lookback recs (look (cfg.label j) k)
    let now j := L j 1 + if reset = false ∧ 1 ≤ r then L j 2 else 0
    let before j := if 1 ≤ r then L j 2 + (if reset = false ∧ 2 ≤ r then L j 3 else 0) else 0
    if cfg.label i ∈ sel then
      (if cfg.frame = .preGate then N.mulVec now i + before i
        else now i + N.mulVec before i) else 0

/-- The gate maps the stabilizers `T` to products of them. -/
def Closed (T : List String) (V : cfg.Mat Int) : Prop :=
  ∀ i j, cfg.label i ∈ T → cfg.label j ∉ T → mod2 V i j = 0

/-- The same for a matrix of bits. -/
def ClosedBits (T : List String) (N : cfg.Mat (ZMod 2)) : Prop :=
  ∀ i j, cfg.label i ∈ T → cfg.label j ∉ T → N i j = 0

theorem closedBits_one : ClosedBits (cfg := cfg) T 1 := by
  intro i j hi hj
  exact Matrix.one_apply_ne fun e => hj (e ▸ hi)

theorem Closed.powOf (h : Closed T U) (b : Bool) : Closed T (powOf U b) := by
  intro i j hi hj
  cases b
  · have hne : i ≠ j := fun e => hj (e ▸ hi)
    simp [SurfaceSim.powOf, mod2_one, hne]
  · exact h i j hi hj

theorem ClosedBits.mulVec {V : cfg.Mat (ZMod 2)} (h : ClosedBits T V) {w w' : Fin cfg.n → ZMod 2} (hw : ∀ j, cfg.label j ∈ T → w j = w' j)
    {i : Fin cfg.n} (hi : cfg.label i ∈ T) : V.mulVec w i = V.mulVec w' i := by
  unfold Matrix.mulVec dotProduct
  refine Finset.sum_congr rfl fun j _ => ?_
  show V i j * w j = V i j * w' j
  by_cases hj : cfg.label j ∈ T
  · rw [hw j hj]
  · rw [h i j hi hj, zero_mul, zero_mul]

/-- The detectors of a round and the outcomes of the rounds before it determine the outcomes of the round. -/
theorem gateDets_inj {V : cfg.Mat (ZMod 2)} (hN : V * V = 1) (hVT : ClosedBits T V) {sel : List String} {r : Nat}
    {look : String → Nat → Int} {recs recs' : List (ZMod 2)}
    (h : gateDets cfg V reset sel r look recs = gateDets cfg V reset sel r look recs')
    (hsel : ∀ q ∈ T, q ∈ sel)
    (hold : ∀ i, cfg.label i ∈ T → ∀ k, 2 ≤ k → k ≤ r + 1 →
      lookback recs (look (cfg.label i) k) = lookback recs' (look (cfg.label i) k)) :
    ∀ i, cfg.label i ∈ T → lookback recs (look (cfg.label i) 1) = lookback recs' (look (cfg.label i) 1) := by
  unfold gateDets at h
  rw [List.map_inj_left] at h
  set now : List (ZMod 2) → Fin cfg.n → ZMod 2 := fun rs j => lookback rs (look (cfg.label j) 1) +
    if reset = false ∧ 1 ≤ r then lookback rs (look (cfg.label j) 2) else 0 with hnow
  set bef : List (ZMod 2) → Fin cfg.n → ZMod 2 := fun rs j => if 1 ≤ r then lookback rs (look (cfg.label j) 2) +
    (if reset = false ∧ 2 ≤ r then lookback rs (look (cfg.label j) 3) else 0) else 0 with hbef
  have hb : ∀ i, cfg.label i ∈ T → bef recs i = bef recs' i := by
    intro i hi
    simp only [hbef]
    by_cases h1 : 1 ≤ r
    · rw [if_pos h1, if_pos h1, hold i hi 2 (by omega) (by omega)]
      congr 1
      by_cases h2 : reset = false ∧ 2 ≤ r
      · rw [if_pos h2, if_pos h2, hold i hi 3 (by omega) (by omega)]
      · rw [if_neg h2, if_neg h2]
    · rw [if_neg h1, if_neg h1]
  have hn : ∀ i, cfg.label i ∈ T → now recs i = now recs' i := by
    have hi' : ∀ i, cfg.label i ∈ T → (if cfg.frame = .preGate then V.mulVec (now recs) i + bef recs i
        else now recs i + V.mulVec (bef recs) i) = (if cfg.frame = .preGate then V.mulVec (now recs') i + bef recs' i
        else now recs' i + V.mulVec (bef recs') i) := by
      intro i hi
      have := h i (List.mem_finRange i)
      rwa [if_pos (hsel _ hi), if_pos (hsel _ hi)] at this
    by_cases hf : cfg.frame = .preGate
    · simp only [if_pos hf] at hi'
      have h1 : ∀ i, cfg.label i ∈ T → V.mulVec (now recs) i = V.mulVec (now recs') i := by
        intro i hi
        have := hi' i hi
        rw [hb i hi] at this
        exact add_right_cancel this
      intro i hi
      have h2 := hVT.mulVec h1 hi
      rwa [Matrix.mulVec_mulVec, Matrix.mulVec_mulVec, hN, Matrix.one_mulVec, Matrix.one_mulVec] at h2
    · simp only [if_neg hf] at hi'
      intro i hi
      have := hi' i hi
      rw [hVT.mulVec hb hi] at this
      exact add_right_cancel this
  intro i hi
  have := hn i hi
  simp only [hnow] at this
  by_cases h1 : reset = false ∧ 1 ≤ r
  · rw [if_pos h1, if_pos h1, hold i hi 2 (by omega) (by omega)] at this
    exact add_right_cancel this
  · rwa [if_neg h1, if_neg h1, add_zero, add_zero] at this

/-- An experiment with gates after `r` rounds, with faults: `W` are families of parities, `T` the stabilizers with detectors
in all rounds. -/
structure CInv (nm : NoiseModel) (anc : List String) (A : Finset String) (W : I → J → Func String) (T : List String)
    (U : cfg.Mat Int) (r : Nat) (a b : Bool) (e : Circuit) (s : Sim cfg) : Prop where
  tracks : s.1.Tracks nm.inds (histOf anc r)
  even : PairsOk e
  det : DetG r (powOf U a) (powOf U b) s.2
  body : ∃ X : List (Op String), ops e = X.map (Op.rename (ind nm.inds)) ∧ (∀ i, ∃ W0, Pres A X (W i) W0) ∧
    (∀ P L k, Faulty P X L k → ∀ ρ (st : FState String), st.recs = [] → st.obs = [] →
      (run ρ st L).recs.length = (histOf anc r).length ∧ (run ρ st L).obs = []) ∧
    ∀ P L k P' L' k', Faulty P X L k → Faulty P' X L' k' → ∀ ρ (st : FState String), st.recs = [] → st.obs = [] →
      (run ρ st L).dets.length = (run ρ st L').dets.length ∧ ((run ρ st L).dets = (run ρ st L').dets →
        ∀ q ∈ T, outs (histOf anc r) (run ρ st L).recs q = outs (histOf anc r) (run ρ st L').recs q)

/-- The same for any matrices and any order of the measurements of the ancillas; each ancilla has been measured `r` times. -/
structure TInv (nm : NoiseModel) (anc : List String) (A : Finset String) (W : I → J → Func String) (T H : List String) (r : Nat)
    (M M' : cfg.Mat Int) (e : Circuit) (s : Sim cfg) : Prop where
  tracks : s.1.Tracks nm.inds H
  counts : ∀ q ∈ anc, H.count q = r
  only : ∀ q ∈ H, q ∈ anc
  even : PairsOk e
  det : DetG r M M' s.2
  body : ∃ X : List (Op String), ops e = X.map (Op.rename (ind nm.inds)) ∧ (∀ i, ∃ W0, Pres A X (W i) W0) ∧
    (∀ P L k, Faulty P X L k → ∀ ρ (st : FState String), st.recs = [] → st.obs = [] →
      (run ρ st L).recs.length = H.length ∧ (run ρ st L).obs = []) ∧
    ∀ P L k P' L' k', Faulty P X L k → Faulty P' X L' k' → ∀ ρ (st : FState String), st.recs = [] → st.obs = [] →
      (run ρ st L).dets.length = (run ρ st L').dets.length ∧ ((run ρ st L).dets = (run ρ st L').dets →
        ∀ q ∈ T, outs H (run ρ st L).recs q = outs H (run ρ st L').recs q)

theorem CInv.toT {W : I → J → Func String} (hn : anc.Nodup) {r : Nat} {a b : Bool} {e : Circuit} {s : Sim cfg}
    (h : CInv nm anc A W T U r a b e s) : TInv nm anc A W T (histOf anc r) r (powOf U a) (powOf U b) e s := by
  refine ⟨h.tracks, fun q hq => count_histOf hn hq r, fun q hq => ?_, h.even, h.det, h.body⟩
  obtain ⟨b, h1, h2⟩ := List.mem_flatten.1 hq
  rw [List.mem_replicate] at h1
  exact h1.2 ▸ h2

theorem TInv.toC {W : I → J → Func String} {r : Nat} {a b : Bool} {e : Circuit} {s : Sim cfg}
    (h : TInv nm anc A W T (histOf anc r) r (powOf U a) (powOf U b) e s) : CInv nm anc A W T U r a b e s :=
  ⟨h.tracks, h.even, h.det, h.body⟩

/-- A round. -/
theorem TInv.roundAt {W : I → J → Func String} {H : List String} {B B' : cfg.Mat Int} {N : cfg.Mat (ZMod 2)} (hcfg : ConfigOk cfg) (hf : cfg.frame ≠ .gateIndependent)
    (hS : FrameSteps B B' N) (hN : N * N = 1) (hclosed : ClosedBits T N) (hn : anc.Nodup) (hk : ∀ q ∈ anc, q ∈ nm.inds.keys)
    (hall : ∀ q, q ∈ cfg.anc ↔ q ∈ anc) (hTa : ∀ q ∈ T, q ∈ anc) {r : Nat} {e : Circuit} {s : Sim cfg}
    (h : TInv nm anc A W T H r B B' e s) {c : Circuit} {s1 : MeasState} (t1 : s1.Tracks nm.inds (H ++ anc))
    (p1 : PairsOk c) {M : List (Op String)} (ho : ops c = M.map (Op.rename (ind nm.inds))) (hloud : Loud M)
    (hmeas : measured M = anc) (hpres : ∀ i, Pres A M (W i) (W i)) (sel : List String) (hsel : ∀ q ∈ sel, q ∈ anc)
    (hselT : ∀ q ∈ T, q ∈ sel) :
    ∃ c' d', Detectors.buildFromAnc s1.measTarget reset (some sel) s.2 = (.ok c', d') ∧
      TInv nm anc A W T (H ++ anc) (r + 1) B' B' (e.concat (c.concat c')) (s1, d') := by
  have hcount : ∀ q ∈ anc, (H ++ anc).count q = r + 1 := by
    intro q hq; rw [List.count_append, h.counts q hq, List.count_eq_one_of_mem hn hq]
  have hlab : ∀ i, cfg.label i ∈ anc := fun i => (hall _).1 (label_mem i)
  obtain ⟨c', d', e2, p2, hd, f2⟩ := DetG.roundOf hcfg hf hS h.det s1.measTarget (lookOf s1) reset sel
    (fun q hq => (hall q).2 (hsel q hq))
    (fun i k h1 _ h3 => (lookOf_spec t1 (hk _ (hlab i)) h1 (by rw [hcount _ (hlab i)]; omega)).1)
  replace f2 : ∀ ρ st, run ρ st (ops c') =
      { st with dets := (gateDets cfg N reset sel r (lookOf s1) st.recs).reverse ++ st.dets } := f2
  have o1 := p1.concat p2
  have o2 := h.even.concat o1.2
  obtain ⟨TT, hT, hTq⟩ := (quiet_ops fun i hi => Or.inl (buildFromAnc_gates e2 i hi)).lift (ind nm.inds)
  obtain ⟨X, hX, hX0, hXf, hXr⟩ := h.body
  -- what a faulty run records
  have hrec : ∀ P L k, Faulty P (X ++ (M ++ TT)) L k → ∀ ρ (st : FState String), st.recs = [] → st.obs = [] →
      ∃ P1 L1 k1 f, Faulty P1 X L1 k1 ∧ (run ρ st L).recs = (anc.map f).reverse ++ (run ρ st L1).recs ∧ (run ρ st L).obs = [] ∧
        (run ρ st L).dets = (gateDets cfg N reset sel r (lookOf s1) (run ρ st L).recs).reverse ++ (run ρ st L1).dets := by
    intro P L k hfl ρ st h1 h2
    obtain ⟨L1, L', k1, k', P', rfl, rfl, hf1, hf'⟩ := hfl.append
    obtain ⟨L2, L3, k2, k3, P'', rfl, rfl, hf2, hf3⟩ := hf'.append
    obtain ⟨i1, i2⟩ := hXf P L1 k1 hf1 ρ st h1 h2
    obtain ⟨⟨v, g1, g2⟩, g3, g4⟩ := hf2.records hloud ρ (run ρ st L1)
    rw [hmeas] at g1
    obtain ⟨f, rfl⟩ := exists_outcomes hn v g1
    obtain ⟨q1, q2, q3⟩ := hTq.values hf3 (ind nm.inds) ρ (run ρ (run ρ st L1) L2)
    rw [← hT, f2] at q2 q3
    simp only [run_append]
    refine ⟨P, L1, k1, f, hf1, by rw [q1, g2], by rw [q3]; exact g4.trans i2, ?_⟩
    rw [q2, q1]
    show _ ++ (run ρ (run ρ st L1) L2).dets = _
    rw [g3]
  have houts : ∀ {f : String → ZMod 2} {recs0 : List (ZMod 2)}, ∀ q ∈ anc,
      outs (H ++ anc) ((anc.map f).reverse ++ recs0) q = f q :: outs H recs0 q := by
    intro f recs0 q hq
    rw [outs_append hn, if_pos hq]
  have hlook : ∀ {f : String → ZMod 2} {recs0 : List (ZMod 2)}, recs0.length = H.length → ∀ q ∈ anc,
      ∀ k, 1 ≤ k → k ≤ r + 1 → lookback ((anc.map f).reverse ++ recs0) (lookOf s1 q k) =
        (f q :: outs H recs0 q).getD (k - 1) 0 := by
    intro f recs0 hl q hq k hk1 hk2
    rw [(lookOf_spec t1 (hk q hq) hk1 (by rw [hcount q hq]; omega)).2 _ (by simp [hl]; omega), houts q hq]
  refine ⟨c', d', e2, t1, hcount, fun q hq => (List.mem_append.1 hq).elim (h.only q) id, o2.2, hd, X ++ (M ++ TT), ?_, fun i => ?_, ?_, ?_⟩
  · rw [o2.1, o1.1, hX, ho, hT, List.map_append, List.map_append]
  · obtain ⟨W0, hW0⟩ := hX0 i
    exact ⟨W0, hW0.append ((hpres i).append (pres_quiet hTq (hpres i).here))⟩
  · intro P L k hfl ρ st h1 h2
    obtain ⟨P1, L1, k1, f, j1, j2, j3, j4⟩ := hrec P L k hfl ρ st h1 h2
    refine ⟨?_, j3⟩
    rw [j2]
    simp [(hXf P1 L1 k1 j1 ρ st h1 h2).1]; omega
  · intro P L k P' L' k' hfl hfl' ρ st h1 h2
    obtain ⟨P1, L1, k1, f, j1, j2, j3, j4⟩ := hrec P L k hfl ρ st h1 h2
    obtain ⟨P1', L1', k1', f', j1', j2', j3', j4'⟩ := hrec P' L' k' hfl' ρ st h1 h2
    obtain ⟨l1, l2⟩ := hXr P1 L1 k1 P1' L1' k1' j1 j1' ρ st h1 h2
    have hl := (hXf P1 L1 k1 j1 ρ st h1 h2).1
    have hl' := (hXf P1' L1' k1' j1' ρ st h1 h2).1
    rw [j4, j4']
    refine ⟨by simp [gateDets, l1], fun hd => ?_⟩
    obtain ⟨d1, d2⟩ := List.append_inj' hd l1
    have hold := l2 d2
    have hnew := gateDets_inj hN hclosed (List.reverse_injective d1) hselT (by
      intro i hi k hk1 hk2
      rw [j2, j2', hlook hl _ (hTa _ hi) k (by omega) hk2, hlook hl' _ (hTa _ hi) k (by omega) hk2, hold _ hi]
      obtain ⟨m, rfl⟩ : ∃ m, k = m + 2 := ⟨k - 2, by omega⟩
      simp)
    intro q hq
    rw [j2, j2', houts q (hTa q hq), houts q (hTa q hq), hold q hq]
    congr 1
    obtain ⟨i, rfl⟩ : ∃ i, cfg.label i = q := by
      have : q ∈ (List.finRange cfg.n).map cfg.label := by rw [labels_finRange]; exact (hall q).2 (hTa q hq)
      obtain ⟨i, -, hi⟩ := List.mem_map.1 this
      exact ⟨i, hi⟩
    have := hnew i hq
    rw [j2, j2', hlook hl _ (hTa _ hq) 1 (by omega) (by omega), hlook hl' _ (hTa _ hq) 1 (by omega) (by omega)] at this
    simpa using this

theorem CInv.roundAt {W : I → J → Func String} (hcfg : ConfigOk cfg) (hf : cfg.frame ≠ .gateIndependent)
    (hU : CleanInvolution U) (hclosed : Closed T U) (hn : anc.Nodup) (hk : ∀ q ∈ anc, q ∈ nm.inds.keys)
    (hall : ∀ q, q ∈ cfg.anc ↔ q ∈ anc) (hTa : ∀ q ∈ T, q ∈ anc) {r : Nat} {a b : Bool} {e : Circuit} {s : Sim cfg}
    (h : CInv nm anc A W T U r a b e s) {c : Circuit} {s1 : MeasState} (t1 : s1.Tracks nm.inds (histOf anc r ++ anc))
    (p1 : PairsOk c) {M : List (Op String)} (ho : ops c = M.map (Op.rename (ind nm.inds))) (hloud : Loud M)
    (hmeas : measured M = anc) (hpres : ∀ i, Pres A M (W i) (W i)) (sel : List String) (hsel : ∀ q ∈ sel, q ∈ anc)
    (hselT : ∀ q ∈ T, q ∈ sel) :
    ∃ c' d', Detectors.buildFromAnc s1.measTarget reset (some sel) s.2 = (.ok c', d') ∧
      CInv nm anc A W T U (r + 1) b b (e.concat (c.concat c')) (s1, d') := by
  obtain ⟨c', d', e2, h3⟩ := (h.toT hn).roundAt (reset := reset) hcfg hf (powOf_steps hU a b) (powOf_sq hU _) (hclosed.powOf _) hn hk hall
    hTa t1 p1 ho hloud hmeas hpres sel hsel hselT
  rw [← histOf_succ] at h3
  exact ⟨c', d', e2, h3.toC⟩

/-- What is used about a gate. -/
def GatePres (nm : NoiseModel) (A : Finset String) (W : I → J → Func String) (U : cfg.Mat Int)
    (g : PyM (Sim cfg) Circuit) : Prop :=
  ∀ (s : Sim cfg) (hist : List String) (r : Nat) (B : cfg.Mat Int) (b : Bool), s.1.Tracks nm.inds hist →
    DetG r B (powOf U b) s.2 →
    ∃ c s' M, g s = (.ok c, s') ∧ PairsOk c ∧ s'.1.Tracks nm.inds hist ∧ DetG r B (powOf U (!b)) s'.2 ∧
      ops c = M.map (Op.rename (ind nm.inds)) ∧ Loud M ∧ measured M = [] ∧ ∀ i, ∃ i', Pres A M (W i) (W i')

/-- A gate. -/
theorem TInv.gateAt {W : I → J → Func String} {H : List String} {B B' : cfg.Mat Int} {r : Nat} {e c : Circuit} {s s' : Sim cfg} {M : List (Op String)}
    (h : TInv nm anc A W T H r B B' e s) (p1 : PairsOk c) (t1 : s'.1.Tracks nm.inds H) {B₁ B₁' : cfg.Mat Int} (d1 : DetG r B₁ B₁' s'.2)
    (ho : ops c = M.map (Op.rename (ind nm.inds))) (hloud : Loud M) (hmeas : measured M = [])
    (hpres : ∀ i, ∃ i', Pres A M (W i) (W i')) : TInv nm anc A W T H r B₁ B₁' (e.concat c) s' := by
  have o1 := h.even.concat p1
  obtain ⟨X, hX, hX0, hXf, hXr⟩ := h.body
  have hrec : ∀ P L k, Faulty P (X ++ M) L k → ∀ ρ (st : FState String),
      ∃ P1 L1 k1, Faulty P1 X L1 k1 ∧ (run ρ st L).recs = (run ρ st L1).recs ∧ (run ρ st L).obs = (run ρ st L1).obs ∧
        (run ρ st L).dets = (run ρ st L1).dets := by
    intro P L k hfl ρ st
    obtain ⟨L1, L2, k1, k2, P', rfl, rfl, hf1, hf2⟩ := hfl.append
    obtain ⟨⟨v, g1, g2⟩, g3, g4⟩ := hf2.records hloud ρ (run ρ st L1)
    rw [hmeas] at g1
    obtain rfl : v = [] := by simpa using g1
    simp only [run_append]
    exact ⟨P, L1, k1, hf1, g2, g4, g3⟩
  refine ⟨t1, h.counts, h.only, o1.2, d1, X ++ M, ?_, fun i => ?_, ?_, ?_⟩
  · rw [o1.1, hX, ho, List.map_append]
  · obtain ⟨i', hi'⟩ := hpres i
    obtain ⟨W0, hW0⟩ := hX0 i'
    exact ⟨W0, hW0.append hi'⟩
  · intro P L k hfl ρ st h1 h2
    obtain ⟨P1, L1, k1, j1, j2, j3, j4⟩ := hrec P L k hfl ρ st
    rw [j2, j3]
    exact hXf P1 L1 k1 j1 ρ st h1 h2
  · intro P L k P' L' k' hfl hfl' ρ st h1 h2
    obtain ⟨P1, L1, k1, j1, j2, j3, j4⟩ := hrec P L k hfl ρ st
    obtain ⟨P1', L1', k1', j1', j2', j3', j4'⟩ := hrec P' L' k' hfl' ρ st
    rw [j2, j4, j2', j4']
    exact hXr P1 L1 k1 P1' L1' k1' j1 j1' ρ st h1 h2

theorem CInv.gate {W : I → J → Func String} {r : Nat} {a b : Bool} {e : Circuit} {s : Sim cfg} {g : PyM (Sim cfg) Circuit}
    (hn : anc.Nodup) (hg : GatePres nm A W U g) (h : CInv nm anc A W T U r a b e s) :
    ∃ e' s', addTo e g s = (.ok e', s') ∧ CInv nm anc A W T U r a (!b) e' s' := by
  obtain ⟨c, s', M, h1, p1, t1, d1, ho, hloud, hmeas, hpres⟩ := hg s _ r _ b h.tracks h.det
  exact ⟨e.concat c, s', addTo_ok h1, ((h.toT hn).gateAt p1 t1 d1 ho hloud hmeas hpres).toC⟩

variable {R : Prop}

/-- What is used about the rounds of an experiment. -/
def RoundC (R : Prop) (nm : NoiseModel) (anc : List String) (A : Finset String) (W : I → J → Func String) (T : List String)
    (U : cfg.Mat Int) (round : PyM (Sim cfg) Circuit) : Prop :=
  ∀ r a b e s, CInv nm anc A W T U r a b e s → Gives R round s fun c s' => CInv nm anc A W T U (r + 1) b b (e.concat c) s'

/-- Several rounds. -/
theorem CInv.rounds {W : I → J → Func String} {round : PyM (Sim cfg) Circuit} (hround : RoundC R nm anc A W T U round) {α : Type}
    (xs : List α) : ∀ {r : Nat} {a b : Bool} {e : Circuit} {s : Sim cfg}, CInv nm anc A W T U r a b e s →
    Gives R (addAll e xs (fun _ => round)) s fun e' s' => ∃ a', CInv nm anc A W T U (r + xs.length) a' b e' s' := by
  induction xs with
  | nil =>
    intro r a b e s h
    exact .of_ok rfl ⟨a, h⟩
  | cons x xs ih =>
    intro r a b e s h
    show Gives R ((addTo e round) >>= fun e => addAll e xs fun _ => round) s _
    refine (Gives.addTo (hround r a b e s h)).bind fun e1 s1 h2 => ?_
    refine (ih h2).mono fun e2 s2 h4 => ?_
    obtain ⟨a', h4⟩ := h4
    exact ⟨a', by rw [List.length_cons, show r + (xs.length + 1) = r + 1 + xs.length by omega]; exact h4⟩

/-- A gate and rounds after it. -/
theorem CInv.gateAndRounds {W : I → J → Func String} {g : PyM (Sim cfg) Circuit} (hn : anc.Nodup) (hg : GatePres nm A W U g)
    {round : PyM (Sim cfg) Circuit} (hround : RoundC R nm anc A W T U round) (m : Nat) {r : Nat} {a b : Bool} {e : Circuit}
    {s : Sim cfg} (h : CInv nm anc A W T U r a b e s) :
    Gives R (Experiments.gateAndRounds g m round e) s fun e' s' => ∃ a', CInv nm anc A W T U (r + m) a' (!b) e' s' := by
  unfold Experiments.gateAndRounds
  obtain ⟨e1, s1, h1, h2⟩ := h.gate hn hg
  refine .bind_ok h1 ?_
  have := CInv.rounds hround (List.range m) h2
  rwa [List.length_range] at this

/-- Several gates with rounds after each of them. -/
theorem CInv.cnots {W : I → J → Func String} {o : SetOrder} {lc lt : Layout} (hn : anc.Nodup) (hg : GatePres nm A W U (transCnot o nm lc lt))
    {round : List Layout → PyM (Sim cfg) Circuit} (hround : RoundC R nm anc A W T U (round [lc, lt])) (m k : Nat) :
    ∀ {r : Nat} {a b : Bool} {e : Circuit} {s : Sim cfg}, CInv nm anc A W T U r a b e s →
    Gives R (Props.cnotSequence o nm round m (List.replicate k (lc, lt)) e) s fun e' s' =>
      ∃ a' b', CInv nm anc A W T U (r + k * m) a' b' e' s' := by
  induction k with
  | zero =>
    intro r a b e s h
    exact .of_ok rfl ⟨a, b, by simpa using h⟩
  | succ k ih =>
    intro r a b e s h
    rw [List.replicate_succ, Props.cnotSequence, List.foldlM_cons]
    refine (h.gateAndRounds hn hg hround m).bind fun e2 s2 h4 => ?_
    obtain ⟨a2, h4⟩ := h4
    refine (ih h4).mono fun e3 s3 h6 => ?_
    obtain ⟨a3, b3, h6⟩ := h6
    exact ⟨a3, b3, by rw [show r + (k + 1) * m = r + m + k * m by ring]; exact h6⟩

end SurfaceSim
