/-
Experiments with transversal CNOT gates in both directions: the rounds may measure the two codes in either order, and the gates
between two rounds change the generators by a matrix that may differ from one gate to the next.
-/
import Verif.Lemmas.AltMat
import Verif.Lemmas.CnotFixed

namespace SurfaceSim
open Spec NoiseModel Blocks Experiments LayoutLib LogGates

variable {cfg : Detectors.Config} {nm : NoiseModel} {anc : List String} {K : Type}

/-- The syndrome of the last round, from the outcomes of the measurements of the qubits `H`. -/
def synOf (H : List String) (reset : Bool) (r : Nat) (recs : List (ZMod 2)) (a : String) : ZMod 2 :=
  (outs H recs a).getD 0 0 + if reset = false ∧ 2 ≤ r then (outs H recs a).getD 1 0 else 0

/-- The state of an experiment after `r` rounds: the measured qubits `H`, the values `V`, the detectors `D` and the generators. -/
structure HInv (nm : NoiseModel) (anc : List String) (v : FState Nat → Values K) (reset : Bool) (H : List String) (r : Nat)
    (V : (Nat → ZMod 2) → (Nat → ZMod 2) → Values K) (D : (Nat → ZMod 2) → (Nat → ZMod 2) → List (ZMod 2))
    (A B : cfg.Mat Int) (N : cfg.Mat (ZMod 2)) (e : Circuit) (s : Sim cfg) : Prop where
  tracks : s.1.Tracks nm.inds H
  counts : ∀ q ∈ anc, H.count q = r
  only : ∀ q ∈ H, q ∈ anc
  even : PairsOk e
  order : measOrder e = H.map (ind nm.inds)
  det : DetG r A B s.2
  frame : ∀ ζ ρ : Nat → ZMod 2,
    let st := run ρ (FState.start ζ) (ops e)
    st.recs.length = H.length ∧ st.obs = [] ∧ st.dets = (D ζ ρ).reverse ∧ v st = V ζ ρ ∧
    (∀ q ∈ anc, st.x (ind nm.inds q) = if r = 0 then 0 else (outs H st.recs q).getD 0 0) ∧
    ∀ i, (v st).2 (cfg.label i) = if r = 0 then (v st).2 (cfg.label i) else
      N.mulVec (fun j => synOf H reset r st.recs (cfg.label j)) i

variable {v : FState Nat → Values K} {reset : Bool} {V : (Nat → ZMod 2) → (Nat → ZMod 2) → Values K}
  {D : (Nat → ZMod 2) → (Nat → ZMod 2) → List (ZMod 2)} {H : List String} {A B : cfg.Mat Int} {N : cfg.Mat (ZMod 2)}

open Classical in
/-- A round; in the first one the detectors are the values of the stabilizers, later they vanish. -/
theorem HInv.roundAt (hcfg : ConfigOk cfg) (hf : cfg.frame ≠ .gateIndependent) (hS : FrameSteps A B N) (hN : N * N = 1) (hn : anc.Nodup)
    (hk : ∀ q ∈ anc, q ∈ nm.inds.keys) (hall : ∀ q, q ∈ cfg.anc ↔ q ∈ anc)
    {r : Nat} {e : Circuit} {s : Sim cfg} (h : HInv nm anc v reset H r V D A B N e s)
    {c : Circuit} {s1 : MeasState} (t1 : s1.Tracks nm.inds (H ++ anc)) (hb : RoundAt nm anc v reset c)
    (hv : ∀ st st' : FState Nat, st.x = st'.x → st.z = st'.z → v st = v st') (h0 : r = 0 → N = 1) (sel : List String)
    (hsel : ∀ q ∈ sel, q ∈ anc) :
    ∃ c' d', Detectors.buildFromAnc s1.measTarget reset (some sel) s.2 = (.ok c', d') ∧
      HInv nm anc v reset (H ++ anc) (r + 1) V (fun ζ ρ => D ζ ρ ++ cfg.anc.map fun q => if q ∈ sel ∧ r = 0 then
        (V ζ ρ).2 q else 0) B B 1 (e.concat (c.concat c')) (s1, d') := by
  obtain ⟨p1, mo, f1⟩ := hb
  have hcount : ∀ q ∈ anc, (H ++ anc).count q = r + 1 := by
    intro q hq; rw [List.count_append, h.counts q hq, List.count_eq_one_of_mem hn hq]
  have hlab : ∀ i, cfg.label i ∈ anc := fun i => (hall _).1 (label_mem i)
  obtain ⟨c', d', e2, p2, hd, f2⟩ := DetG.roundOf hcfg hf hS h.det s1.measTarget (lookOf s1) reset sel
    (fun q hq => (hall q).2 (hsel q hq))
    (fun i k h1 _ h3 => (lookOf_spec t1 (hk _ (hlab i)) h1 (by rw [hcount _ (hlab i)]; omega)).1)
  have o1 := p1.concat p2
  have o2 := h.even.concat o1.2
  refine ⟨c', d', e2, t1, fun q hq => hcount q hq, fun q hq => (List.mem_append.1 hq).elim (h.only q) id, o2.2, ?_, hd, fun ζ ρ => ?_⟩
  · rw [measOrder_ops, o2.1, o1.1, measured_append, measured_append, ← measOrder_ops, ← measOrder_ops, h.order, mo,
      measured_eq_nil (ρ := 0) (st := FState.init Nat) (by rw [f2]), List.append_nil, List.map_append]
  obtain ⟨g1, g2, g3, g4, g5, g6⟩ := h.frame ζ ρ
  rw [o2.1, o1.1, run_append, run_append, f2]
  set st := run ρ (FState.start ζ) (ops e) with hst
  obtain ⟨k1, k2, k3, k4, k5⟩ := f1 ρ st
  set st' := run ρ st (ops c) with hst'
  have hlen : st'.recs.length = (H ++ anc).length := by
    rw [k1]; simp [g1]; omega
  have houts : ∀ q ∈ anc, outs (H ++ anc) st'.recs q =
      ((if reset then 0 else st.x (ind nm.inds q)) + (v st).2 q) :: outs (H) st.recs q := by
    intro q hq
    rw [k1, outs_append hn, if_pos hq]
  have hlook : ∀ q ∈ anc, ∀ k, 1 ≤ k → k ≤ r + 1 → lookback st'.recs (lookOf s1 q k) =
      (((if reset then 0 else st.x (ind nm.inds q)) + (v st).2 q) :: outs (H) st.recs q).getD (k - 1) 0 := by
    intro q hq k hk1 hk2
    rw [(lookOf_spec t1 (hk q hq) hk1 (by rw [hcount q hq]; omega)).2 _ hlen, houts q hq]
  have hnow : ∀ q ∈ anc, lookback st'.recs (lookOf s1 q 1) + (if reset = false ∧ 1 ≤ r then
      lookback st'.recs (lookOf s1 q 2) else 0) = (v st).2 q := by
    intro q hq
    rw [hlook q hq 1 (by omega) (by omega)]
    by_cases hr : 1 ≤ r
    · have hr0 : r ≠ 0 := by omega
      rw [hlook q hq 2 (by omega) (by omega), g5 q hq]
      simp only [hr0, if_false]
      simp only [List.getD_cons_zero, Nat.sub_self, show 2 - 1 = 0 + 1 from rfl, List.getD_cons_succ]
      generalize (outs (H) st.recs q).getD 0 0 = y
      generalize (v st).2 q = x
      cases reset <;> simp [hr]
      revert x y; decide
    · have hr0 : r = 0 := by omega
      rw [g5 q hq]
      simp [hr0]
  have hbefore : ∀ q ∈ anc, (if 1 ≤ r then lookback st'.recs (lookOf s1 q 2) + (if reset = false ∧ 2 ≤ r then
      lookback st'.recs (lookOf s1 q 3) else 0) else 0) = if r = 0 then 0 else synOf H reset r st.recs q := by
    intro q hq
    by_cases hr : 1 ≤ r
    · have hr0 : r ≠ 0 := by omega
      rw [if_pos hr, hlook q hq 2 (by omega) (by omega)]
      simp only [hr0, if_false]
      unfold synOf
      by_cases h2 : reset = false ∧ 2 ≤ r
      · rw [if_pos h2, if_pos h2, hlook q hq 3 (by omega) (by omega)]
        rfl
      · rw [if_neg h2, if_neg h2]
        rfl
    · have hr0 : r = 0 := by omega
      simp [hr0]
  dsimp only
  refine ⟨hlen, by rw [k5]; exact g2, ?_, ?_, ?_, ?_⟩
  · rw [k4, g3, List.reverse_append]
    congr 2
    rw [← g4]
    rw [← labels_finRange, List.map_map]
    refine List.map_congr_left fun i _ => ?_
    simp only [Function.comp]
    simp only [hnow _ (hlab _), hbefore _ (hlab _)]
    by_cases hs : cfg.label i ∈ sel
    · rw [if_pos hs]
      by_cases hr : r = 0
      · have hsr : cfg.label i ∈ sel ∧ r = 0 := ⟨hs, hr⟩
        rw [if_pos hsr]
        rw [h0 hr]
        simp [hr]
      · have hsr : ¬ (cfg.label i ∈ sel ∧ r = 0) := fun h => hr h.2
        simp only [hr, and_false, if_false]
        have e3 : (fun j => (v st).2 (cfg.label j)) = N.mulVec
            (fun j => synOf H reset r st.recs (cfg.label j)) := by
          funext j
          have := g6 j
          rwa [if_neg hr] at this
        split
        · rw [e3, Matrix.mulVec_mulVec, hN, Matrix.one_mulVec, CharTwo.add_self_eq_zero]
        · rw [← e3, CharTwo.add_self_eq_zero]
    · have hsr : ¬ (cfg.label i ∈ sel ∧ r = 0) := fun h => hs h.1
      simp only [hs, false_and, if_false]
  · rw [← g4, ← k3]; exact hv _ _ rfl rfl
  · intro q hq
    have e4 := k2 q hq
    rw [if_neg (by omega), houts q hq]
    exact e4
  · intro i
    rw [if_neg (by omega), Matrix.one_mulVec]
    have e5 : (v st').2 (cfg.label i) = synOf (H ++ anc) reset (r + 1) st'.recs (cfg.label i) := by
      rw [k3, ← hnow _ (hlab i)]
      unfold synOf
      rw [houts _ (hlab i), hlook _ (hlab i) 1 (by omega) (by omega)]
      congr 1
      by_cases h2 : reset = false ∧ 1 ≤ r
      · rw [if_pos h2, if_pos ⟨h2.1, by omega⟩, hlook _ (hlab i) 2 (by omega) (by omega)]
      · rw [if_neg h2, if_neg (fun h => h2 ⟨h.1, by omega⟩)]
    rw [← e5]
    refine congrArg (fun w : Values K => w.2 (cfg.label i)) ?_
    exact hv _ _ rfl rfl


variable {data stabs : List String}

open Classical in
/-- The detectors after a measurement of the data qubits with the outcomes `out`. -/
theorem HInv.dataMeas (hcfg : ConfigOk cfg) (hf : cfg.frame ≠ .gateIndependent) (hS : FrameSteps A B N)
    (hall : ∀ q, q ∈ cfg.anc ↔ q ∈ anc) (dataN : data.Nodup) (disj : ∀ d ∈ data, d ∉ anc)
    (kd : ∀ d ∈ data, d ∈ nm.inds.keys) (ka : ∀ a ∈ anc, a ∈ nm.inds.keys)
    {r : Nat} {e : Circuit} {s : Sim cfg} (hr : 1 ≤ r) (h : HInv nm anc v reset H r V D A B N e s)
    {D' : Dict String (List String)} (hDk : ∀ a ∈ stabs, a ∈ D'.keys)
    (hDd : ∀ a qs, D'.get? a = some qs → ∀ q ∈ qs, q ∈ data)
    {c3 : Circuit} {s3 : MeasState} (p3 : PairsOk c3) (t3 : s3.Tracks nm.inds (H ++ data))
    (mo : measOrder c3 = data.map (ind nm.inds)) (out : FState Nat → String → ZMod 2)
    (f3 : ∀ ρ st, (run ρ st (ops c3)).recs = (data.map (out st)).reverse ++ st.recs ∧
      (run ρ st (ops c3)).dets = st.dets ∧ (run ρ st (ops c3)).obs = st.obs)
    (hv2 : ∀ st, ∀ a ∈ stabs, ∀ qs, D'.get? a = some qs → (qs.map (out st)).sum = (v st).2 a)
    {sel : List String} (hsel : ∀ q ∈ sel, q ∈ anc) :
    ∃ c1 d1, Detectors.buildFromData s3.measTarget D' reset stabs (some sel) s.2 = (.ok c1, d1) ∧
      PairsOk c1 ∧ DetG r B B d1 ∧ PairsOk (e.concat (c3.concat c1)) ∧
      measured (ops (e.concat (c3.concat c1))) = (H ++ data).map (ind nm.inds) ∧
      ∀ ζ ρ, ∃ st : FState Nat, v st = V ζ ρ ∧
        (run ρ (FState.start ζ) (ops (e.concat (c3.concat c1)))).dets.reverse =
          D ζ ρ ++ List.replicate (cfg.anc.filter (· ∈ stabs)).length 0 ∧
        (run ρ (FState.start ζ) (ops (e.concat (c3.concat c1)))).obs = [] ∧
        ∀ d ∈ data, lookback (run ρ (FState.start ζ) (ops (e.concat (c3.concat c1)))).recs (lookOf s3 d 1) = out st d := by
  have hcd : ∀ d ∈ data, (H ++ data).count d = 1 := by
    intro d hd'
    rw [List.count_append, List.count_eq_one_of_mem dataN hd', List.count_eq_zero.2 fun hm => disj d hd' (h.only d hm)]
  have hca : ∀ a ∈ anc, (H ++ data).count a = r := by
    intro a ha
    rw [List.count_append, h.counts a ha, List.count_eq_zero.2 (fun h => disj a h ha), Nat.add_zero]
  have hlab : ∀ i, cfg.label i ∈ anc := fun i => (hall _).1 (label_mem i)
  obtain ⟨c1, d1, e1, p1, g1, f1⟩ := DetG.dataOf hcfg hf hS hr h.det s3.measTarget (lookOf s3) reset sel
    (fun q hq => (hall q).2 (hsel q hq)) D' stabs hDk
    (fun x qs hx q hq => by
      have := (lookOf_spec t3 (kd q (hDd x qs hx q hq)) (le_refl 1) (by rw [hcd q (hDd x qs hx q hq)])).1
      simpa using this)
    (fun i k h1 _ h3 => (lookOf_spec t3 (ka _ (hlab i)) h1 (by rw [hca _ (hlab i)]; exact h3)).1)
  have o1 := p3.concat p1
  have o4 := h.even.concat o1.2
  refine ⟨c1, d1, e1, p1, g1, o4.2, ?_, fun ζ ρ => ?_⟩
  · have hT0 : measured (ops c1) = [] :=
      measured_eq_nil (ρ := 0) (st := FState.init Nat) (by rw [f1])
    rw [o4.1, o1.1, measured_append, measured_append, hT0, List.append_nil, ← measOrder_ops,
      ← measOrder_ops, h.order, mo, List.map_append]
  · obtain ⟨g1, g2, g3, g4, g5, g6⟩ := h.frame ζ ρ
    set st := run ρ (FState.start ζ) (ops e) with hst0
    obtain ⟨k1, k2, k3⟩ := f3 ρ st
    set st' := run ρ st (ops c3) with hst'
    have hl' : st'.recs.length = (H ++ data).length := by
      rw [k1]; simp [g1]; omega
    have vd : ∀ d ∈ data, lookback st'.recs (lookOf s3 d 1) = out st d := by
      intro d hd'
      rw [(lookOf_spec t3 (kd d hd') (by omega) (by rw [hcd d hd'])).2 _ hl', k1, outs_append dataN, if_pos hd']
      rfl
    have va : ∀ a ∈ anc, ∀ k, 1 ≤ k → k ≤ r →
        lookback st'.recs (lookOf s3 a k) = (outs (H) st.recs a).getD (k - 1) 0 := by
      intro a ha k h1 h2
      rw [(lookOf_spec t3 (ka a ha) h1 (by rw [hca a ha]; exact h2)).2 _ hl', k1, outs_append dataN,
        if_neg (fun h => disj a h ha)]
    refine ⟨st, g4, ?_⟩
    rw [o4.1, o1.1, run_append, run_append, f1]
    refine ⟨?_, by rw [← g2, ← k3], vd⟩
    show List.reverse (_ ++ st'.dets) = _
    rw [k2, g3, List.reverse_append, List.reverse_reverse, List.reverse_reverse]
    congr 1
    rw [← labels_finRange, List.filter_map, List.length_map]
    have hz : ∀ i ∈ (List.finRange cfg.n).filter (cfg.label · ∈ stabs), (if cfg.label i ∈ sel then
        (((D'.get? (cfg.label i)).getD []).map fun q => lookback st'.recs (lookOf s3 q 1)).sum +
          N.mulVec (fun j => lookback st'.recs (lookOf s3 (cfg.label j) 1) +
            if reset = false ∧ 2 ≤ r then lookback st'.recs (lookOf s3 (cfg.label j) 2) else 0) i else 0) = (0 : ZMod 2) := by
      intro i hi
      have hs : cfg.label i ∈ stabs := by simpa using (List.mem_filter.1 hi).2
      split
      swap
      · rfl
      obtain ⟨qs, q1⟩ := Option.isSome_iff_exists.1 ((Dict.get?_isSome_iff _ _).2 (hDk _ hs))
      have e3 : (qs.map fun q => lookback st'.recs (lookOf s3 q 1)).sum = (v st).2 (cfg.label i) := by
        rw [← hv2 st _ hs qs q1]
        congr 1
        exact List.map_congr_left fun d hd => vd d (hDd _ _ q1 d hd)
      have e4 : (fun j => lookback st'.recs (lookOf s3 (cfg.label j) 1) +
            if reset = false ∧ 2 ≤ r then lookback st'.recs (lookOf s3 (cfg.label j) 2) else 0) =
          fun j => synOf H reset r st.recs (cfg.label j) := by
        funext j
        unfold synOf
        rw [va _ (hlab j) 1 (le_refl 1) hr]
        by_cases h2 : reset = false ∧ 2 ≤ r
        · rw [if_pos h2, if_pos h2, va _ (hlab j) 2 (by omega) h2.2]
        · rw [if_neg h2, if_neg h2]
      have e5 := g6 i
      rw [if_neg (by omega)] at e5
      rw [q1, Option.getD_some, e3, e4, ← e5, CharTwo.add_self_eq_zero]
    rw [List.map_congr_left hz, List.map_const']
    congr 1

/-- A gate. -/
theorem HInv.gate {Φ : Values K → Values K} {U : cfg.Mat (ZMod 2)} {b : Call1} {Dt : Dict String (List String)}
    {g : PyM (Sim cfg) Circuit} (hn : cfg.anc.Nodup) (hb : BlockG nm anc v Φ b) (hDn : Dt.keys.Nodup) (hk : KnownAncillas cfg Dt)
    (hU : U = dictMat Dt) (hdet : U.det ≠ 0)
    (hgate : ∀ (m m' : MeasState) (s s' : Detectors.State cfg) (c : Circuit), g (m, s) = (.ok c, (m', s')) ↔
      Detectors.updateFromDict Dt s = (.ok (), s') ∧ b m = (.ok c, m'))
    (hΦ : ∀ w i, (Φ w).2 (cfg.label i) = U.mulVec (fun j => w.2 (cfg.label j)) i) {r : Nat} {G' : cfg.Mat Int}
    (hG : IsBits G') (hm : mod2 G' = U * mod2 B) {e : Circuit} {s : Sim cfg} (h : HInv nm anc v reset H r V D A B N e s) :
    ∃ e' s', addTo e g s = (.ok e', s') ∧ HInv nm anc v reset H r (fun ζ ρ => Φ (V ζ ρ)) D A G' (U * N) e' s' := by
  obtain ⟨d', hd', hg'⟩ := DetG.gateOf hn hDn hk (by rw [← hU]; exact hdet) hG (by rw [hm, hU]) h.det
  obtain ⟨c, s', h1, p1, t1, f1⟩ := hb s.1 _ h.tracks
  have o1 := h.even.concat p1
  refine ⟨e.concat c, (s', d'), addTo_ok ((hgate s.1 s' s.2 d' c).2 ⟨hd', h1⟩), t1, h.counts, h.only, o1.2, ?_, hg', fun ζ ρ => ?_⟩
  · rw [measOrder_ops, o1.1, measured_append, ← measOrder_ops, h.order,
      measured_eq_nil (ρ := 0) (st := FState.init Nat) (f1 0 _).1, List.append_nil]
  · obtain ⟨g1, g2, g3, g4, g5, g6⟩ := h.frame ζ ρ
    rw [o1.1, run_append]
    obtain ⟨k1, k2, k3, k4, k5⟩ := f1 ρ (run ρ (FState.start ζ) (ops e))
    dsimp only
    rw [k1, k2, k3, k5]
    refine ⟨g1, g2, g3, by rw [g4], fun q hq => by rw [k4 q hq, g5 q hq], fun i => ?_⟩
    by_cases hr : r = 0
    · rw [if_pos hr]
    · rw [if_neg hr, hΦ, ← Matrix.mulVec_mulVec]
      congr 1
      funext j
      have := g6 j
      rwa [if_neg hr] at this

/-- A block that changes the values of the logical operators only. -/
theorem HInv.pauli {b : Call1} {φ : Values K → Values K} (hb : BlockG nm anc v φ b) (hφ : ∀ w, (φ w).2 = w.2)
    {r : Nat} {e : Circuit} {s : Sim cfg} (h : HInv nm anc v reset H r V D A B N e s) :
    ∃ e' s', addTo e (onModel b) s = (.ok e', s') ∧ HInv nm anc v reset H r (fun ζ ρ => φ (V ζ ρ)) D A B N e' s' := by
  obtain ⟨c, s', h1, p1, t1, f1⟩ := hb s.1 _ h.tracks
  have o1 := h.even.concat p1
  refine ⟨e.concat c, (s', s.2), addTo_ok (onModel_ok h1), t1, h.counts, h.only, o1.2, ?_, h.det, fun ζ ρ => ?_⟩
  · rw [measOrder_ops, o1.1, measured_append, ← measOrder_ops, h.order,
      measured_eq_nil (ρ := 0) (st := FState.init Nat) (f1 0 _).1, List.append_nil]
  · obtain ⟨g1, g2, g3, g4, g5, g6⟩ := h.frame ζ ρ
    rw [o1.1, run_append]
    obtain ⟨k1, k2, k3, k4, k5⟩ := f1 ρ (run ρ (FState.start ζ) (ops e))
    dsimp only
    rw [k1, k2, k3, k5]
    refine ⟨g1, g2, g3, by rw [g4], fun q hq => by rw [k4 q hq, g5 q hq], fun i => ?_⟩
    rw [hφ]
    exact g6 i

end SurfaceSim
