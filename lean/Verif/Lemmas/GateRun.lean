/-
Experiments with logical gates: the whole experiment.
-/
import Verif.Lemmas.GateExp

namespace SurfaceSim
open Spec NoiseModel Blocks Experiments

variable {cfg : Detectors.Config} {nm : NoiseModel} {l : Layout} {rb : Bool} {data anc stabs log : List String}
  {isX : String → String → Bool} {R : List String} {K : Type} {v : FState Nat → Values K} {Φ : Values K → Values K}
  {U : cfg.Mat Int} {reset : Bool} {v0 : (Nat → ZMod 2) → (Nat → ZMod 2) → Values K}
  {D : (Nat → ZMod 2) → (Nat → ZMod 2) → List (ZMod 2)}

/-- A round that is not the first one. -/
def RoundStep (nm : NoiseModel) (anc : List String) (v : FState Nat → Values K) (Φ : Values K → Values K)
    (U : cfg.Mat Int) (reset : Bool) (v0 : (Nat → ZMod 2) → (Nat → ZMod 2) → Values K)
    (round : PyM (Sim cfg) Circuit) : Prop :=
  ∀ D r n a b e s, 1 ≤ r → GInv nm anc v Φ U reset v0 D r n a b e s →
    ∃ c s', round s = (.ok c, s') ∧ GInv nm anc v Φ U reset v0
      (fun ζ ρ => D ζ ρ ++ List.replicate cfg.anc.length 0) (r + 1) n b b (e.concat c) s'

theorem addTo_ok {e c : Circuit} {g : PyM (Sim cfg) Circuit} {s s' : Sim cfg} (h : g s = (.ok c, s')) :
    addTo e g s = (.ok (e.concat c), s') := by
  unfold addTo
  rw [PyM.bind_ok h]
  rfl

/-- Several rounds. -/
theorem GInv.rounds {round : PyM (Sim cfg) Circuit} (hround : RoundStep nm anc v Φ U reset v0 round) {α : Type} (xs : List α) :
    ∀ {D : (Nat → ZMod 2) → (Nat → ZMod 2) → List (ZMod 2)} {r n : Nat} {a b : Bool} {e : Circuit} {s : Sim cfg},
    1 ≤ r → GInv nm anc v Φ U reset v0 D r n a b e s →
    ∃ a' e' s', addAll e xs (fun _ => round) s = (.ok e', s') ∧ GInv nm anc v Φ U reset v0
      (fun ζ ρ => D ζ ρ ++ List.replicate (xs.length * cfg.anc.length) 0) (r + xs.length) n a' b e' s' := by
  induction xs with
  | nil =>
    intro D r n a b e s _ h
    exact ⟨a, e, s, rfl, by simpa using h⟩
  | cons x xs ih =>
    intro D r n a b e s hr h
    obtain ⟨c, s1, h1, h2⟩ := hround D r n a b e s hr h
    obtain ⟨a', e', s', h3, h4⟩ := ih (by omega) h2
    refine ⟨a', e', s', ?_, ?_⟩
    · show ((addTo e round) >>= fun e => addAll e xs fun _ => round) s = _
      rw [PyM.bind_ok (addTo_ok h1)]
      exact h3
    · convert h4 using 1
      · funext ζ ρ
        rw [List.append_assoc, List.replicate_append_replicate, List.length_cons]
        congr 2; ring
      · simp; omega

/-- Several gates with rounds after each of them. -/
theorem GInv.gates {g : PyM (Sim cfg) Circuit} (hg : GateG nm anc v Φ U g) (hU : CleanInvolution U)
    (hΦ : ∀ w i, (Φ w).2 (cfg.label i) = (mod2 U).mulVec (fun j => w.2 (cfg.label j)) i)
    {round : PyM (Sim cfg) Circuit} (hround : RoundStep nm anc v Φ U reset v0 round) (m k : Nat) :
    ∀ {D : (Nat → ZMod 2) → (Nat → ZMod 2) → List (ZMod 2)} {r n : Nat} {a b : Bool} {e : Circuit} {s : Sim cfg},
    1 ≤ r → GInv nm anc v Φ U reset v0 D r n a b e s →
    ∃ a' b' e' s', repeatGate g m round k e s = (.ok e', s') ∧ GInv nm anc v Φ U reset v0
      (fun ζ ρ => D ζ ρ ++ List.replicate (k * m * cfg.anc.length) 0) (r + k * m) (n + k) a' b' e' s' := by
  induction k with
  | zero =>
    intro D r n a b e s _ h
    exact ⟨a, b, e, s, rfl, by simpa using h⟩
  | succ k ih =>
    intro D r n a b e s hr h
    obtain ⟨e1, s1, h1, h2⟩ := h.gate hg hU hΦ
    obtain ⟨a2, e2, s2, h3, h4⟩ := GInv.rounds hround (List.range m) hr h2
    obtain ⟨a3, b3, e3, s3, h5, h6⟩ := ih (by omega) h4
    refine ⟨a3, b3, e3, s3, ?_, ?_⟩
    · show ((gateAndRounds g m round e) >>= fun e => repeatGate g m round k e) s = _
      have : gateAndRounds g m round e s = (.ok e2, s2) := by
        unfold gateAndRounds
        rw [PyM.bind_ok h1]
        exact h3
      rw [PyM.bind_ok this]
      exact h5
    · convert h6 using 1
      · funext ζ ρ
        rw [List.append_assoc, List.replicate_append_replicate, List.length_range]
        congr 2; ring
      · simp; ring
      · omega

theorem qecRound_ok (hm : MemCode nm l rb data anc stabs log isX R) {iter : Gen} {sel : List String}
    (hs1 : ∀ a ∈ sel, a ∈ anc) {c c' : Circuit} {s : Sim cfg} {s1 : MeasState} {d' : Detectors.State cfg}
    (h1 : sumGen iter s.1 = (.ok c, s1)) (h2 : Detectors.buildFromAnc s1.measTarget reset (some sel) s.2 = (.ok c', d')) :
    qecRound iter l reset (some sel) s = (.ok (c.concat c'), (s1, d')) := by
  unfold qecRound
  rw [PyM.bind_ok (onModel_ok h1)]
  rw [PyM.bind_ok (show PyM.ofExcept (checkAncDetectors l (some sel)) (s1, s.2) = (.ok sel, (s1, s.2)) by
    rw [checkAnc_ok hm hs1]; rfl)]
  rw [PyM.bind_ok (onDets_ok (s := (s1, s.2)) (f := fun getRec => Detectors.buildFromAnc getRec reset (some sel)) h2)]
  rfl

theorem roundStep_qec (hm : MemCode nm l rb data anc stabs log isX R) (hcfg : ConfigOk cfg)
    (hf : cfg.frame ≠ .gateIndependent) (hU : CleanInvolution U) (hall : ∀ q, q ∈ cfg.anc ↔ q ∈ anc) {iter : Gen}
    (hb : RoundG nm anc v reset (sumGen iter)) (hv : ∀ st st' : FState Nat, st.x = st'.x → st.z = st'.z → v st = v st')
    {sel : List String} (hsel : ∀ q ∈ sel, q ∈ anc) :
    RoundStep nm anc v Φ U reset v0 (qecRound (cfg := cfg) iter l reset (some sel)) := by
  intro D r n a b e s hr h
  obtain ⟨c, s1, c', d', h1, h2, h3⟩ := h.round hcfg hf hU hm.ancN (fun q hq => hm.known (List.mem_append_right _ hq)) hall hb
    hv (by omega) sel hsel
  refine ⟨c.concat c', (s1, d'), qecRound_ok hm hsel h1 h2, ?_⟩
  convert h3 using 4 with ζ ρ
  have hr0 : r ≠ 0 := by omega
  simp only [hr0, and_false, if_false]
  rw [List.map_const']

theorem gInv_init (hm : MemCode nm l rb data anc stabs log isX R) (hcfg : ConfigOk cfg) (hall : ∀ q, q ∈ cfg.anc ↔ q ∈ anc)
    {dataInit : Dict String Int} {g : Gen} (hb : InitEff nm data anc R dataInit (sumGen g))
    (hz : ∀ a ∈ anc, isOne dataInit a = 0) (v : FState Nat → Values K) (Φ : Values K → Values K) (U : cfg.Mat Int)
    (reset : Bool) {e0 : Circuit} (he0 : PairsOk e0) (ho0 : ops e0 = []) {s : Sim cfg}
    (hs : s.1.Tracks nm.inds []) (hd : DetAt [] 0 s.2) :
    ∃ c s', activateAndSum l g s = (.ok c, s') ∧
      GInv nm anc v Φ U reset (fun ζ ρ => v (run ρ (FState.start ζ) (ops c))) (fun _ _ => []) 0 0 false false
        (e0.concat c) s' ∧
      ∀ ζ ρ, ∀ S : List String, (∀ d ∈ S, d ∈ data) →
        anticommutes (ind nm.inds) (run ρ (FState.start ζ) (ops c)) S (fun d => decide (d ∈ R)) = bits dataInit S := by
  obtain ⟨d', hd1, hd2⟩ := DetAt.activate hcfg.1 hm.ancN (fun a ha => (hall a).2 ha) hd
  obtain ⟨c, s1, e1, p1, t1, mo, f1⟩ := InitEff.frame hm hb hs
  have ho := he0.concat p1
  refine ⟨c, (s1, d'), ?_, ⟨t1, ho.2, by rw [measOrder_ops, ho.1, ho0, List.nil_append, ← measOrder_ops, mo]; rfl,
    hd2.toG hcfg.1 (fun a ha => (hall a).1 ha), fun ζ ρ => ?_⟩, fun ζ ρ => (f1 ζ ρ).2.2.2.2⟩
  · unfold activateAndSum
    have h1 : PyM.ofExcept (ancQubits l) s = (.ok anc, s) := by
      unfold ancQubits; rw [hm.qAnc]; rfl
    rw [PyM.bind_ok h1]
    have h2 : onDets (cfg := cfg) (fun _ => Detectors.activate anc) s = (.ok (), (s.1, d')) := by
      show ((Detectors.activate anc s.2).1, s.1, (Detectors.activate anc s.2).2) = _
      rw [hd1]
    rw [PyM.bind_ok h2]
    unfold onModel
    simp only [e1]
  · obtain ⟨g1, g2, g3, g4, g5⟩ := f1 ζ ρ
    rw [ho.1, ho0, List.nil_append]
    refine ⟨by rw [g1]; rfl, g3, by rw [g2]; rfl, rfl, fun q hq => by rw [g4 q hq, hz q hq, if_pos rfl], fun i => by simp⟩

open Classical in
/-- The detectors after a measurement of the data qubits with the outcomes `out`. -/
theorem GInv.dataMeas (hcfg : ConfigOk cfg) (hf : cfg.frame ≠ .gateIndependent) (hU : CleanInvolution U)
    (hall : ∀ q, q ∈ cfg.anc ↔ q ∈ anc) (ancN : anc.Nodup) (dataN : data.Nodup) (disj : ∀ d ∈ data, d ∉ anc)
    (kd : ∀ d ∈ data, d ∈ nm.inds.keys) (ka : ∀ a ∈ anc, a ∈ nm.inds.keys)
    {r n : Nat} {a b : Bool} {e : Circuit} {s : Sim cfg} (hr : 1 ≤ r) (h : GInv nm anc v Φ U reset v0 D r n a b e s)
    {D' : Dict String (List String)} (hDk : ∀ a ∈ stabs, a ∈ D'.keys)
    (hDd : ∀ a qs, D'.get? a = some qs → ∀ q ∈ qs, q ∈ data)
    {c3 : Circuit} {s3 : MeasState} (p3 : PairsOk c3) (t3 : s3.Tracks nm.inds (histOf anc r ++ data))
    (mo : measOrder c3 = data.map (ind nm.inds)) (out : FState Nat → String → ZMod 2)
    (f3 : ∀ ρ st, (run ρ st (ops c3)).recs = (data.map (out st)).reverse ++ st.recs ∧
      (run ρ st (ops c3)).dets = st.dets ∧ (run ρ st (ops c3)).obs = st.obs)
    (hv2 : ∀ st, ∀ a ∈ stabs, ∀ qs, D'.get? a = some qs → (qs.map (out st)).sum = (v st).2 a)
    {sel : List String} (hsel : ∀ q ∈ sel, q ∈ anc) :
    ∃ c1 d1, Detectors.buildFromData s3.measTarget D' reset stabs (some sel) s.2 = (.ok c1, d1) ∧
      PairsOk c1 ∧ DetG r (powOf U b) (powOf U b) d1 ∧ PairsOk (e.concat (c3.concat c1)) ∧
      measured (ops (e.concat (c3.concat c1))) = (histOf anc r ++ data).map (ind nm.inds) ∧
      ∀ ζ ρ, ∃ st : FState Nat, v st = Φ^[n] (v0 ζ ρ) ∧
        (run ρ (FState.start ζ) (ops (e.concat (c3.concat c1)))).dets.reverse =
          D ζ ρ ++ List.replicate (cfg.anc.filter (· ∈ stabs)).length 0 ∧
        (run ρ (FState.start ζ) (ops (e.concat (c3.concat c1)))).obs = [] ∧
        ∀ d ∈ data, lookback (run ρ (FState.start ζ) (ops (e.concat (c3.concat c1)))).recs (lookOf s3 d 1) = out st d := by
  have hcd : ∀ d ∈ data, (histOf anc r ++ data).count d = 1 := by
    intro d hd'
    rw [List.count_append, List.count_eq_one_of_mem dataN hd', List.count_eq_zero.2]
    intro h
    obtain ⟨b, h1, h2⟩ := List.mem_flatten.1 h
    rw [List.mem_replicate] at h1
    exact disj d hd' (h1.2 ▸ h2)
  have hca : ∀ a ∈ anc, (histOf anc r ++ data).count a = r := by
    intro a ha
    rw [List.count_append, count_histOf ancN ha, List.count_eq_zero.2 (fun h => disj a h ha), Nat.add_zero]
  have hlab : ∀ i, cfg.label i ∈ anc := fun i => (hall _).1 (label_mem i)
  obtain ⟨c1, d1, e1, p1, g1, f1⟩ := DetG.data hcfg hf hU hr h.det s3.measTarget (lookOf s3) reset sel
    (fun q hq => (hall q).2 (hsel q hq)) D' stabs hDk
    (fun x qs hx q hq => by
      have := (lookOf_spec t3 (kd q (hDd x qs hx q hq)) (le_refl 1) (by rw [hcd q (hDd x qs hx q hq)])).1
      simpa using this)
    (fun i k h1 _ h3 => (lookOf_spec t3 (ka _ (hlab i)) h1 (by rw [hca _ (hlab i)]; exact h3)).1)
  have o1 := p3.concat p1
  have o4 := h.even.concat o1.2
  refine ⟨c1, d1, e1, p1, g1, o4.2, ?_, fun ζ ρ => ?_⟩
  · have hT0 : measured (ops c1) = [] :=
      measured_eq_nil (ρ := 0) (st := FState.init Nat) (by rw [f1])
    rw [o4.1, o1.1, measured_append, measured_append, hT0, List.append_nil, ← measOrder_ops,
      ← measOrder_ops, h.order, mo, List.map_append]
  · obtain ⟨g1, g2, g3, g4, g5, g6⟩ := h.frame ζ ρ
    set st := run ρ (FState.start ζ) (ops e) with hst0
    obtain ⟨k1, k2, k3⟩ := f3 ρ st
    set st' := run ρ st (ops c3) with hst'
    have hl' : st'.recs.length = (histOf anc r ++ data).length := by
      rw [k1]; simp [g1]; omega
    have vd : ∀ d ∈ data, lookback st'.recs (lookOf s3 d 1) = out st d := by
      intro d hd'
      rw [(lookOf_spec t3 (kd d hd') (by omega) (by rw [hcd d hd'])).2 _ hl', k1, outs_append dataN, if_pos hd']
      rfl
    have va : ∀ a ∈ anc, ∀ k, 1 ≤ k → k ≤ r →
        lookback st'.recs (lookOf s3 a k) = (outs (histOf anc r) st.recs a).getD (k - 1) 0 := by
      intro a ha k h1 h2
      rw [(lookOf_spec t3 (ka a ha) h1 (by rw [hca a ha]; exact h2)).2 _ hl', k1, outs_append dataN,
        if_neg (fun h => disj a h ha)]
    refine ⟨st, g4, ?_⟩
    rw [o4.1, o1.1, run_append, run_append, f1]
    refine ⟨?_, by rw [← g2, ← k3], vd⟩
    show List.reverse (_ ++ st'.dets) = _
    rw [k2, g3, List.reverse_append, List.reverse_reverse, List.reverse_reverse]
    congr 1
    rw [← labels_finRange, List.filter_map, List.length_map]
    have hz : ∀ i ∈ (List.finRange cfg.n).filter (cfg.label · ∈ stabs), (if cfg.label i ∈ sel then
        (((D'.get? (cfg.label i)).getD []).map fun q => lookback st'.recs (lookOf s3 q 1)).sum +
          (mod2 (powOf U (xor a b))).mulVec (fun j => lookback st'.recs (lookOf s3 (cfg.label j) 1) +
            if reset = false ∧ 2 ≤ r then lookback st'.recs (lookOf s3 (cfg.label j) 2) else 0) i else 0) = (0 : ZMod 2) := by
      intro i hi
      have hs : cfg.label i ∈ stabs := by simpa using (List.mem_filter.1 hi).2
      split
      swap
      · rfl
      obtain ⟨qs, q1⟩ := Option.isSome_iff_exists.1 ((Dict.get?_isSome_iff _ _).2 (hDk _ hs))
      have e3 : (qs.map fun q => lookback st'.recs (lookOf s3 q 1)).sum = (v st).2 (cfg.label i) := by
        rw [← hv2 st _ hs qs q1]
        congr 1
        exact List.map_congr_left fun d hd => vd d (hDd _ _ q1 d hd)
      have e4 : (fun j => lookback st'.recs (lookOf s3 (cfg.label j) 1) +
            if reset = false ∧ 2 ≤ r then lookback st'.recs (lookOf s3 (cfg.label j) 2) else 0) =
          fun j => lastSyn anc reset r st.recs (cfg.label j) := by
        funext j
        unfold lastSyn
        rw [va _ (hlab j) 1 (le_refl 1) hr]
        by_cases h2 : reset = false ∧ 2 ≤ r
        · rw [if_pos h2, if_pos h2, va _ (hlab j) 2 (by omega) h2.2]
        · rw [if_neg h2, if_neg h2]
      have e5 := g6 i
      rw [if_neg (by omega)] at e5
      rw [q1, Option.getD_some, e3, e4, ← e5, CharTwo.add_self_eq_zero]
    rw [List.map_congr_left hz, List.map_const']
    congr 1

/-- An observable appended to a circuit. -/
theorem append_obs {e : Circuit} (h : PairsOk e) (k : Nat) (ks : List Int) :
    PairsOk (e.append ⟨.OBSERVABLE_INCLUDE, ks.map Target.record, [.num k]⟩) ∧
      ops (e.append ⟨.OBSERVABLE_INCLUDE, ks.map Target.record, [.num k]⟩) = ops e ++ [Op.obs k ks] := by
  have hops : ops (e.append ⟨.OBSERVABLE_INCLUDE, ks.map Target.record, [.num k]⟩) = ops e ++ [Op.obs k ks] := by
    rw [ops_append_even _ _ h.1 (by simp [Gate.isTwoQubit])]
    congr 1
    simp only [instrOps, obsIndex]
    congr 2
    unfold Instr.recs
    induction ks with
    | nil => rfl
    | cons k l ih2 => simpa using ih2
  refine ⟨⟨(elems_circuit_append _ _ h.1 (by simp [Gate.isTwoQubit])).2, fun op ho => ?_⟩, hops⟩
  rw [hops] at ho
  rcases List.mem_append.1 ho with ho | ho
  · exact h.2 op ho
  · rw [List.mem_singleton.1 ho]
    trivial

/-- The observable of data qubits that have been measured. -/
theorem observable_data {s3 : MeasState} {hist : List String} (t3 : s3.Tracks nm.inds hist) (k : Nat) {log : List String}
    (h : ∀ q ∈ log, q ∈ nm.inds.keys ∧ 1 ≤ hist.count q) :
    observable k log s3 =
      (.ok ⟨.OBSERVABLE_INCLUDE, (log.map (lookOf s3 · 1)).map Target.record, [.num k]⟩, s3) := by
  unfold observable
  rw [PyM.bind_ok (show PyM.get s3 = (.ok s3, s3) from rfl)]
  rw [PyM.bind_ok (show PyM.ofExcept (mapExcept log fun q => s3.measTarget q (-1)) s3 =
    (.ok (log.map (lookOf s3 · 1)), s3) by rw [mapExcept_look t3 h]; rfl)]
  rfl

/-- The final measurement. -/
theorem GInv.finish (hm : MemCode nm l rb data anc stabs log isX R) (hcfg : ConfigOk cfg)
    (hf : cfg.frame ≠ .gateIndependent) (hU : CleanInvolution U) (hall : ∀ q, q ∈ cfg.anc ↔ q ∈ anc) {gm : Gen}
    (hM : MeasEff nm data R (sumGen gm))
    (hv2 : ∀ st, ∀ a ∈ stabs, (v st).2 a = anticommutes (ind nm.inds) st (l.getNeighbors [a] none) (fun d => decide (d ∈ R)))
    {k : K} (hv1 : ∀ st, (v st).1 k = anticommutes (ind nm.inds) st log (fun d => decide (d ∈ R)))
    {r n : Nat} {a b : Bool} {e : Circuit} {s : Sim cfg} (hr : 1 ≤ r) (h : GInv nm anc v Φ U reset v0 D r n a b e s)
    {sel : List String} (hsel : ∀ q ∈ sel, q ∈ anc) :
    ∃ c s', (do
        let sel ← PyM.ofExcept (checkAncDetectors l (some sel))
        let circuit ← onModel (sumGen gm)
        finishMeas l rb reset sel circuit : PyM (Sim cfg) Circuit) s = (.ok c, s') ∧ PairsOk (e.concat c) ∧
      s'.1.Tracks nm.inds (histOf anc r ++ data) ∧ measOrder (e.concat c) = (histOf anc r ++ data).map (ind nm.inds) ∧
      ∀ ζ ρ, detectors ζ ρ (e.concat c) = D ζ ρ ++ List.replicate (cfg.anc.filter (· ∈ stabs)).length 0 ∧
        observables ζ ρ (e.concat c) = [(0, (Φ^[n] (v0 ζ ρ)).1 k)] := by
  obtain ⟨c3, s3, h3, p3, t3, mo, f3⟩ := MeasEff.frame hm hM h.tracks
  obtain ⟨D', hD, hDk, hDg⟩ := hm.support
  have hst : ∀ a ∈ stabs, ∀ q ∈ l.getNeighbors [a] none, q ∈ data := fun a ha => hm.sup a (hm.stabsSub a ha)
  have kd : ∀ d ∈ data, d ∈ nm.inds.keys := fun d h => hm.known (List.mem_append_left _ h)
  have ka : ∀ a ∈ anc, a ∈ nm.inds.keys := fun d h => hm.known (List.mem_append_right _ h)
  have hDstab : ∀ a qs, D'.get? a = some qs → ∀ q ∈ qs, q ∈ data := by
    intro a qs h q hq
    obtain ⟨h1, -, h2⟩ := hDg a qs h
    exact hst a h1 q ((h2 q).1 hq).2
  obtain ⟨c1, d1, e1, p1, g1, o4, mo4, f4⟩ := h.dataMeas hcfg hf hU hall hm.ancN hm.dataN (fun d hd => hm.disj hd) kd ka hr hDk
    hDstab p3 t3 mo (fun st d => if decide (d ∈ R) then st.z (ind nm.inds d) else st.x (ind nm.inds d)) f3
    (fun st a ha qs hqs => by
      rw [hv2 st a ha]
      unfold anticommutes
      refine (List.Perm.map _ ?_).sum_eq
      refine (List.perm_ext_iff_of_nodup (hDg a qs hqs).2.1 (hm.supN a)).2 fun q => ?_
      rw [(hDg a qs hqs).2.2]
      exact ⟨fun h => h.2, fun h => ⟨List.mem_append_left _ (hst a ha q h), h⟩⟩) hsel
  obtain ⟨d2, e2⟩ := g1.deactivate hm.ancN (fun a ha => (hall a).2 ha)
  have hobs := observable_data t3 0 (log := log) (fun q hq => ⟨kd q (hm.logSub q hq), by
    rw [List.count_append, List.count_eq_one_of_mem hm.dataN (hm.logSub q hq)]; omega⟩)
  obtain ⟨pc, oc⟩ := append_obs (p3.concat p1).2 0 (log.map (lookOf s3 · 1))
  have o5 := h.even.concat pc
  have hops : ops (e.concat ((c3.concat c1).append ⟨.OBSERVABLE_INCLUDE, (log.map (lookOf s3 · 1)).map Target.record,
      [.num (0 : Nat)]⟩)) = ops (e.concat (c3.concat c1)) ++ [Op.obs (0 : Nat) (log.map (lookOf s3 · 1))] := by
    rw [o5.1, oc, (h.even.concat (p3.concat p1).2).1, List.append_assoc]
  refine ⟨_, (s3, d2), ?_, o5.2, t3, ?_, fun ζ ρ => ?_⟩
  · rw [PyM.bind_ok (show PyM.ofExcept (checkAncDetectors l (some sel)) s = (.ok sel, s) by
          rw [checkAnc_ok hm hsel]; rfl)]
    rw [PyM.bind_ok (onModel_ok h3)]
    unfold finishMeas
    rw [PyM.bind_ok (show PyM.ofExcept (stabQubits l (stabType rb)) (s3, s.2) = (.ok stabs, (s3, s.2)) by rw [hm.qStabs]; rfl)]
    rw [PyM.bind_ok (show PyM.ofExcept (Blocks.support l stabs) (s3, s.2) = (.ok D', (s3, s.2)) by rw [hD]; rfl)]
    rw [PyM.bind_ok (onDets_ok (s := (s3, s.2)) (f := fun getRec => Detectors.buildFromData getRec D' reset stabs (some sel)) e1)]
    rw [PyM.bind_ok (show PyM.ofExcept (logicalSupport l rb) (s3, d1) = (.ok log, (s3, d1)) by rw [hm.qLog]; rfl)]
    rw [PyM.bind_ok (onModel_ok (s := (s3, d1)) hobs)]
    rw [PyM.bind_ok (show PyM.ofExcept (ancQubits l) (s3, d1) = (.ok anc, (s3, d1)) by
      unfold ancQubits; rw [hm.qAnc]; rfl)]
    rw [PyM.bind_ok (onDets_ok (s := (s3, d1)) (f := fun _ => Detectors.deactivate anc) e2)]
    rfl
  · rw [measOrder_ops, hops, measured_append, mo4]
    exact List.append_nil _
  · obtain ⟨st, w1, w2, w3, w4⟩ := f4 ζ ρ
    unfold detectors observables
    rw [hops, run_append]
    simp only [run_cons, run_nil, step]
    refine ⟨w2, ?_⟩
    rw [w3]
    simp only [List.reverse_cons, List.reverse_nil, List.nil_append]
    rw [← w1, hv1]
    congr 2
    unfold parity anticommutes
    rw [List.map_map]
    congr 1
    exact List.map_congr_left fun d hd => w4 d (hm.logSub d hd)

/-- The common part of the experiments with gates on one layout. -/
def gateExp (fam : Family cfg) (o : SetOrder) (nm : NoiseModel) (l : Layout) (gate : PyM (Sim cfg) Circuit) (n m : Nat)
    (dataInit : Dict String Int) (rb rb' reset : Bool) (ancDetectors : Option (List String)) (gauge : Bool) :
    PyM (Sim cfg) Circuit := do
  let sel ← PyM.ofExcept (ancDefault [l] ancDetectors)
  let e ← start nm [l]
  let e ← addTo e (fam.init l dataInit rb)
  let first ← PyM.ofExcept (firstSel o [l] rb sel gauge)
  let e ← addTo e (fam.round l reset (some first))
  let e ← repeatGate gate m (fam.round l reset (some sel)) n e
  addTo e (fam.meas l rb' reset (some sel))

theorem repeatedS_eq (fam : Family cfg) (o : SetOrder) (nm : NoiseModel) (l : Layout) {n : Nat} (hn : n % 2 = 0) (m : Nat)
    (dataInit : Dict String Int) (rb reset : Bool) (ancDetectors : Option (List String)) (gauge : Bool) :
    repeatedS fam o nm l n m dataInit rb reset ancDetectors gauge =
      gateExp fam o nm l (transS o nm l) n m dataInit rb rb reset ancDetectors gauge := by
  unfold repeatedS gateExp
  rw [if_neg (by omega), if_neg (by omega)]
  simp only [Int.toNat_natCast]

theorem repeatedH_eq (fam : Family cfg) (o : SetOrder) (nm : NoiseModel) (l : Layout) (n m : Nat)
    (dataInit : Dict String Int) (rb reset : Bool) (ancDetectors : Option (List String)) (gauge : Bool) :
    repeatedH fam o nm l n m dataInit rb reset ancDetectors gauge =
      gateExp fam o nm l (transH o nm l) n m dataInit rb (if n % 2 = 0 then rb else !rb) reset ancDetectors gauge := by
  unfold repeatedH gateExp
  rw [if_neg (by omega), if_neg (by omega)]
  have : ((n : Int) % 2 = 0) ↔ n % 2 = 0 := by omega
  simp only [Int.toNat_natCast, this]

/-- The values of the detectors and the observable of an experiment with gates. -/
theorem gate_values {rb' : Bool} {stabs' log' R' : List String} (hm : MemCode nm l rb data anc stabs log isX R)
    (hm' : MemCode nm l rb' data anc stabs' log' isX R') (hcfg : ConfigOk cfg)
    (hf : cfg.frame ≠ .gateIndependent) (hU : CleanInvolution U) (hall : ∀ q, q ∈ cfg.anc ↔ q ∈ anc)
    {dataInit : Dict String Int} {fam : Family cfg} {gi iter gm : Gen}
    (hfi : fam.init l dataInit rb = activateAndSum l gi)
    (hfr : ∀ sel, fam.round l reset sel = qecRound iter l reset sel)
    (hfm : ∀ sel, fam.meas l rb' reset sel = (do
      let sel ← PyM.ofExcept (checkAncDetectors l sel)
      let circuit ← onModel (sumGen gm)
      finishMeas l rb' reset sel circuit))
    (hi : InitEff nm data anc R dataInit (sumGen gi)) (hz : ∀ a ∈ anc, isOne dataInit a = 0)
    (hb : RoundG nm anc v reset (sumGen iter))
    (hM : MeasEff nm data R' (sumGen gm))
    (hv : ∀ st st' : FState Nat, st.x = st'.x → st.z = st'.z → v st = v st')
    (hv2 : ∀ st, ∀ a ∈ stabs', (v st).2 a =
      anticommutes (ind nm.inds) st (l.getNeighbors [a] none) (fun d => decide (d ∈ R')))
    {k : K} (hv1 : ∀ st, (v st).1 k = anticommutes (ind nm.inds) st log' (fun d => decide (d ∈ R')))
    {g : PyM (Sim cfg) Circuit} (hg : GateG nm anc v Φ U g)
    (hΦ : ∀ w i, (Φ w).2 (cfg.label i) = (mod2 U).mulVec (fun j => w.2 (cfg.label j)) i)
    (o : SetOrder) (ancDetectors : Option (List String))
    (hsel : ∀ sel, ancDetectors = some sel → ∀ a ∈ sel, a ∈ anc) (gauge : Bool) (n m : Nat) (s : Sim cfg) :
    ∃ c s', gateExp fam o nm l g n m dataInit rb rb' reset ancDetectors gauge s = (.ok c, s') ∧ PairsOk c ∧
      s'.1.Tracks nm.inds (histOf anc (1 + n * m) ++ data) ∧
      measOrder c = (histOf anc (1 + n * m) ++ data).map (ind nm.inds) ∧
      ∀ ζ ρ : Nat → ZMod 2, ∃ st0 : FState Nat,
        (∀ S : List String, (∀ d ∈ S, d ∈ data) →
          anticommutes (ind nm.inds) st0 S (fun d => decide (d ∈ R)) = bits dataInit S) ∧
        detectors ζ ρ c = (cfg.anc.map fun q => if q ∈ ancDetectors.getD anc ∧ (gauge = true ∨ q ∈ stabs) then
            (v st0).2 q else 0) ++ List.replicate (n * m * cfg.anc.length + (cfg.anc.filter (· ∈ stabs')).length) 0 ∧
        observables ζ ρ c = [(0, (Φ^[n] (v st0)).1 k)] := by
  set sel := ancDetectors.getD anc with hseld
  have hsel' : ∀ a ∈ sel, a ∈ anc := by
    cases ancDetectors with
    | none => exact fun a ha => ha
    | some x => exact hsel x rfl
  set first := (if gauge then sel else o.ord (inter (setOf sel) stabs)) with hfirst
  have hmf : ∀ q, q ∈ first ↔ q ∈ sel ∧ (gauge = true ∨ q ∈ stabs) := by
    intro q
    rw [hfirst]
    cases gauge
    · simp [mem_first]
    · simp
  obtain ⟨e0, h0, p0, o0⟩ := start_ok hm s
  obtain ⟨c1, s1, h1, i1, init⟩ := gInv_init hm hcfg hall hi hz v Φ U reset p0 o0
    (s := (MeasState.fresh nm.inds, Detectors.State.fresh cfg)) (MeasState.tracks_fresh _) DetAt.new
  obtain ⟨c2, s2, c2', d2, h2, h2', i2⟩ := i1.round hcfg hf hU hm.ancN
    (fun q hq => hm.known (List.mem_append_right _ hq)) hall hb hv (fun _ => rfl) first
    (fun q hq => hsel' q ((hmf q).1 hq).1)
  obtain ⟨a3, b3, e3, s3, h3, i3⟩ := i2.gates hg hU hΦ
    (roundStep_qec hm hcfg hf hU hall hb hv hsel') m n (by omega)
  obtain ⟨c4, s4, h4, p4, t4, mo, f4⟩ := i3.finish hm' hcfg hf hU hall hM hv2 hv1 (by omega) hsel'
  rw [Nat.zero_add] at t4 mo
  refine ⟨e3.concat c4, s4, ?_, p4, t4, mo, fun ζ ρ => ⟨run ρ (FState.start ζ) (ops c1), init ζ ρ, ?_, ?_⟩⟩
  · unfold gateExp
    have k0 : PyM.ofExcept (ancDefault [l] ancDetectors) s = (.ok sel, s) := by
      cases ancDetectors with
      | some x => rfl
      | none =>
        unfold ancDefault allAnc ancQubits
        simp only [mapExcept, hm.qAnc]
        simp [hseld]
    rw [PyM.bind_ok k0, PyM.bind_ok h0, PyM.bind_ok (addTo_ok (by rw [hfi]; exact h1))]
    have k1 : PyM.ofExcept (firstSel o [l] rb sel gauge) s1 = (.ok first, s1) := by
      unfold firstSel
      rw [hfirst]
      cases gauge
      · simp only [Bool.false_eq_true, if_false]
        rw [firstDets_ok hm]; rfl
      · rfl
    rw [PyM.bind_ok k1]
    have k2 : fam.round l reset (some first) s1 = (.ok (c2.concat c2'), (s2, d2)) := by
      rw [hfr]
      exact qecRound_ok hm (fun q hq => hsel' q ((hmf q).1 hq).1) h2 h2'
    rw [PyM.bind_ok (addTo_ok k2), hfr, PyM.bind_ok h3]
    refine addTo_ok ?_
    rw [hfm]
    exact h4
  · rw [(f4 ζ ρ).1]
    simp only [List.nil_append, Function.iterate_zero, id_eq, and_true, hmf, List.append_assoc,
      List.replicate_append_replicate]
  · rw [(f4 ζ ρ).2]
    simp

end SurfaceSim
