/-
Memory experiments: the final measurement and the whole experiment.
-/
import Verif.Lemmas.Memory

namespace SurfaceSim
open Spec NoiseModel Blocks Experiments

variable {nm : NoiseModel} {l : Layout} {rb : Bool} {data anc stabs log : List String} {isX : String → String → Bool}
  {R : List String} {cfg : Detectors.Config}

theorem onDets_ok {α : Type} {f : (String → Int → Except Err Int) → PyM (Detectors.State cfg) α} {s : Sim cfg} {a : α}
    {d : Detectors.State cfg} (h : f s.1.measTarget s.2 = (.ok a, d)) : onDets f s = (.ok a, (s.1, d)) := by
  unfold onDets
  rw [h]

theorem onModel_ok {α : Type} {m : PyM MeasState α} {s : Sim cfg} {a : α} {s1 : MeasState}
    (h : m s.1 = (.ok a, s1)) : onModel (cfg := cfg) m s = (.ok a, (s1, s.2)) := by
  unfold onModel
  rw [h]

theorem adjacency_iff {l : Layout} (hl : Reachable l) (a q : String) :
    l.adjacency a q = true ↔ q ∈ l.getNeighbors [a] none := by
  unfold Layout.getNeighbors
  simp only [List.mem_map, Prod.exists, exists_eq_right,
    Layout.mem_getNeighborPairs (Layout.inv_of_reachable hl), List.mem_singleton, true_or, and_true]
  unfold Layout.adjacency
  rw [Dict.has_iff, ← Dict.get?_isSome_iff]
  constructor
  · intro h
    cases hadj : l.graph.adj.get? a with
    | none => rw [hadj] at h; simp at h
    | some b =>
      rw [hadj, Option.getD_some] at h
      obtain ⟨x, hx⟩ := Option.isSome_iff_exists.1 h
      exact ⟨a, rfl, b, x, hadj, hx⟩
  · rintro ⟨_, rfl, b, x, hb, hx⟩
    rw [hb, Option.getD_some, hx]
    rfl

theorem foldl_support (f : String → List String) (S A : List String) (hA : ∀ a ∈ A, a ∈ S) :
    ∀ acc : Dict String (List String),
    (∀ a qs, acc.get? a = some qs → qs = f a ∧ a ∈ S) →
    let D := A.foldl (fun acc a => Dict.set acc a (f a)) acc
    (∀ a qs, D.get? a = some qs → qs = f a ∧ a ∈ S) ∧ ∀ a, (a ∈ A ∨ a ∈ acc.keys) → a ∈ D.keys := by
  induction A with
  | nil => intro acc h; exact ⟨h, fun a ha => by simpa using ha⟩
  | cons b A ih =>
    intro acc h
    have := ih (fun a ha => hA a (by simp [ha])) (Dict.set acc b (f b)) (by
      intro a qs
      rw [Dict.get?_set]
      split
      · rename_i e; rintro ⟨⟩; rw [← e]; exact ⟨rfl, hA b (by simp)⟩
      · exact h a qs)
    refine ⟨this.1, fun a ha => this.2 a ?_⟩
    rw [Dict.mem_keys_set]
    simp only [List.mem_cons] at ha
    tauto

theorem MemCode.support (hm : MemCode nm l rb data anc stabs log isX R) :
    ∃ D, Blocks.support l stabs = .ok D ∧ (∀ a ∈ stabs, a ∈ D.keys) ∧
      ∀ a qs, D.get? a = some qs → a ∈ stabs ∧ qs.Nodup ∧ ∀ q, q ∈ qs ↔ (q ∈ data ++ anc ∧ q ∈ l.getNeighbors [a] none) := by
  obtain ⟨qs, h1, h2, h3⟩ := hm.all
  have := foldl_support (fun a => qs.filter fun q => l.adjacency a q) stabs stabs (fun _ h => h) [] (by simp [Dict.get?])
  refine ⟨_, ?_, fun a ha => this.2 a (Or.inl ha), fun a qs' h => ?_⟩
  · unfold Blocks.support
    rw [h1]
    simp only
    rw [if_pos]
    rw [List.all_eq_true]
    intro a ha
    simpa using (h3 a).2 (List.mem_append_right _ (hm.stabsSub a ha))
  · obtain ⟨rfl, hs⟩ := this.1 a qs' h
    refine ⟨hs, h2.filter _, fun q => ?_⟩
    rw [List.mem_filter, h3, adjacency_iff hm.reach]

theorem mapExcept_look {inds : Dict String Nat} {s : MeasState} {hist : List String} (ht : s.Tracks inds hist)
    {qs : List String} (hq : ∀ q ∈ qs, q ∈ inds.keys ∧ 1 ≤ hist.count q) :
    mapExcept qs (fun q => s.measTarget q (-1)) = .ok (qs.map (lookOf s · 1)) := by
  induction qs with
  | nil => rfl
  | cons q qs ih =>
    have h1 := (lookOf_spec ht (hq q (by simp)).1 (k := 1) (by omega) (hq q (by simp)).2).1
    have h2 := ih fun q' h' => hq q' (by simp [h'])
    simp only [Nat.cast_one] at h1
    simp only [mapExcept, h1, h2, List.map_cons]

open Classical in
/-- Detectors and observable after the data measurement. -/
theorem finish_values (hm : MemCode nm l rb data anc stabs log isX R) (hcfg : ConfigOk cfg)
    (hsub : ∀ a ∈ anc, a ∈ cfg.anc) (hdata : ∀ d ∈ data, d ∉ cfg.anc) {r : Nat} {c : Circuit} {s : Sim cfg}
    (ht : s.1.Tracks nm.inds (histOf anc r ++ data)) (he : PairsOk c) (hd : DetAt anc r s.2) (sel : List String)
    (hsel : ∀ a ∈ sel, a ∈ cfg.anc) (reset : Bool) (hst : ∀ a ∈ stabs, ∀ q ∈ l.getNeighbors [a] none, q ∈ data) :
    ∃ c' s', finishMeas l rb reset sel c s = (.ok c', s') ∧ PairsOk c' ∧ s'.1 = s.1 ∧ ∃ T, ops c' = ops c ++ T ∧
      ∀ (ρ : Nat → ZMod 2) (st : FState Nat) (v : String → ZMod 2) (recs0 : List (ZMod 2)),
        st.recs = (data.map v).reverse ++ recs0 → recs0.length = (histOf anc r).length →
        run ρ st T = { st with
          dets := ((cfg.anc.filter (· ∈ stabs)).map fun a => if a ∈ sel ∧ a ∈ anc then
            ((l.getNeighbors [a] none).map v).sum + (if 1 ≤ r then (outs (histOf anc r) recs0 a).getD 0 0 else 0) +
              (if reset = false ∧ 2 ≤ r then (outs (histOf anc r) recs0 a).getD 1 0 else 0) else 0).reverse ++ st.dets
          obs := (0, (log.map v).sum) :: st.obs } := by
  obtain ⟨D, hD, hDk, hDg⟩ := hm.support
  have hcd : ∀ d ∈ data, (histOf anc r ++ data).count d = 1 := by
    intro d hd'
    rw [List.count_append, List.count_eq_one_of_mem hm.dataN hd', List.count_eq_zero.2]
    intro h
    obtain ⟨b, h1, h2⟩ := List.mem_flatten.1 h
    rw [List.mem_replicate] at h1
    exact hm.disj hd' (h1.2 ▸ h2)
  have hca : ∀ a ∈ anc, (histOf anc r ++ data).count a = r := by
    intro a ha
    rw [List.count_append, count_histOf hm.ancN ha, List.count_eq_zero.2 (fun h => hm.disj h ha), Nat.add_zero]
  have kd : ∀ d ∈ data, d ∈ nm.inds.keys := fun d h => hm.known (List.mem_append_left _ h)
  have ka : ∀ a ∈ anc, a ∈ nm.inds.keys := fun d h => hm.known (List.mem_append_right _ h)
  have hget : ∀ a ∈ stabs, ∃ qs, D.get? a = some qs ∧ qs.Nodup ∧ ∀ q, q ∈ qs ↔ q ∈ l.getNeighbors [a] none := by
    intro a ha
    obtain ⟨qs, hqs⟩ := Option.isSome_iff_exists.1 ((Dict.get?_isSome_iff _ _).2 (hDk a ha))
    refine ⟨qs, hqs, (hDg a qs hqs).2.1, fun q => ?_⟩
    rw [(hDg a qs hqs).2.2]
    exact ⟨fun h => h.2, fun h => ⟨List.mem_append_left _ (hst a ha q h), h⟩⟩
  have hDstab : ∀ a qs, D.get? a = some qs → ∀ q ∈ qs, q ∈ data := by
    intro a qs h q hq
    obtain ⟨h1, -, h2⟩ := hDg a qs h
    exact hst a h1 q ((h2 q).1 hq).2
  obtain ⟨c1, d1, d2, e1, p1, e2, f1⟩ := DetAt.final hcfg hm.ancN hsub hd s.1.measTarget (lookOf s.1) reset sel hsel D stabs
    hDk (by
      intro a qs h
      refine ⟨(hDg a qs h).2.1, fun q hq => ?_⟩
      have hq' := hDstab a qs h q hq
      refine ⟨hdata q hq', fun k h1 h2 => ?_⟩
      exact (lookOf_spec ht (kd q hq') h1 (by rw [hcd q hq']; exact h2)).1)
    (by
      intro a ha k h1 h2
      exact (lookOf_spec ht (ka a ha) h1 (by rw [hca a ha]; omega)).1)
  have hobs : observable 0 log s.1 =
      (.ok ⟨.OBSERVABLE_INCLUDE, (log.map (lookOf s.1 · 1)).map Target.record, [.num (0 : Nat)]⟩, s.1) := by
    unfold observable
    rw [PyM.bind_ok (show PyM.get s.1 = (.ok s.1, s.1) from rfl)]
    rw [PyM.bind_ok (show PyM.ofExcept (mapExcept log fun q => s.1.measTarget q (-1)) s.1 =
      (.ok (log.map (lookOf s.1 · 1)), s.1) by
      rw [mapExcept_look ht (fun q hq => ⟨kd q (hm.logSub q hq), by rw [hcd q (hm.logSub q hq)]⟩)]; rfl)]
    rfl
  have o1 := he.concat p1
  refine ⟨(c.concat c1).append ⟨.OBSERVABLE_INCLUDE, (log.map (lookOf s.1 · 1)).map Target.record, [.num (0 : Nat)]⟩,
    (s.1, d2), ?_, ?_, rfl, ops c1 ++ [Op.obs 0 (log.map (lookOf s.1 · 1))], ?_, ?_⟩
  · unfold finishMeas
    rw [PyM.bind_ok (show PyM.ofExcept (stabQubits l (stabType rb)) s = (.ok stabs, s) by rw [hm.qStabs]; rfl)]
    rw [PyM.bind_ok (show PyM.ofExcept (Blocks.support l stabs) s = (.ok D, s) by rw [hD]; rfl)]
    rw [PyM.bind_ok (onDets_ok (f := fun getRec => Detectors.buildFromData getRec D reset stabs (some sel)) e1)]
    rw [PyM.bind_ok (show PyM.ofExcept (logicalSupport l rb) (s.1, d1) = (.ok log, (s.1, d1)) by rw [hm.qLog]; rfl)]
    rw [PyM.bind_ok (onModel_ok (s := (s.1, d1)) hobs)]
    rw [PyM.bind_ok (show PyM.ofExcept (ancQubits l) (s.1, d1) = (.ok anc, (s.1, d1)) by
      unfold ancQubits; rw [hm.qAnc]; rfl)]
    rw [PyM.bind_ok (onDets_ok (s := (s.1, d1)) (f := fun _ => Detectors.deactivate anc) e2)]
    rfl
  · refine ⟨(elems_circuit_append _ _ o1.2.1 (by simp [Gate.isTwoQubit])).2, fun op ho => ?_⟩
    rw [ops_append_even _ _ o1.2.1 (by simp [Gate.isTwoQubit])] at ho
    rcases List.mem_append.1 ho with ho | ho
    · exact o1.2.2 op ho
    · simp only [instrOps, List.mem_singleton] at ho
      rw [ho]
      trivial
  · rw [ops_append_even _ _ o1.2.1 (by simp [Gate.isTwoQubit]), o1.1, List.append_assoc]
    congr 2
    simp only [instrOps, obsIndex, Nat.cast_zero]
    congr 2
    unfold Instr.recs
    generalize log.map (lookOf s.1 · 1) = ks
    induction ks with
    | nil => rfl
    | cons k l ih2 => simpa using ih2
  · intro ρ st v recs0 hrec hlen
    have hl' : st.recs.length = (histOf anc r ++ data).length := by
      rw [hrec]; simp [hlen]; omega
    have vd : ∀ d ∈ data, lookback st.recs (lookOf s.1 d 1) = v d := by
      intro d hd'
      rw [(lookOf_spec ht (kd d hd') (by omega) (by rw [hcd d hd'])).2 _ hl', hrec, outs_append hm.dataN, if_pos hd']
      rfl
    have va : ∀ a ∈ anc, ∀ k, 1 ≤ k → k ≤ r →
        lookback st.recs (lookOf s.1 a k) = (outs (histOf anc r) recs0 a).getD (k - 1) 0 := by
      intro a ha k h1 h2
      rw [(lookOf_spec ht (ka a ha) h1 (by rw [hca a ha]; exact h2)).2 _ hl', hrec, outs_append hm.dataN,
        if_neg (fun h => hm.disj h ha)]
    have hsum : ∀ S : List String, (∀ d ∈ S, d ∈ data) → parity st.recs (S.map (lookOf s.1 · 1)) = (S.map v).sum := by
      intro S hS
      unfold parity
      rw [List.map_map]
      congr 1
      exact List.map_congr_left fun d hd' => vd d (hS d hd')
    rw [run_append, f1]
    simp only [run_cons, run_nil, step]
    rw [hsum log hm.logSub]
    congr 3
    refine List.map_congr_left fun a ha => ?_
    by_cases h : a ∈ sel ∧ a ∈ anc
    · rw [if_pos h, if_pos h]
      obtain ⟨qs, g1, g2, g3⟩ := hget a (by simpa using (List.mem_filter.1 ha).2)
      rw [g1, Option.getD_some]
      have e3 : ∀ X Y : List Int, parity st.recs (X ++ Y) = parity st.recs X + parity st.recs Y := by
        intro X Y; simp [parity]
      rw [e3, e3, hsum qs (fun q hq => hDstab a qs g1 q hq), sum_perm_of_mem g2 (hm.supN a) g3]
      congr 1
      · congr 1
        split
        · simp [parity, va a h.2 1 (by omega) (by omega)]
        · rfl
      · split
        · rename_i h'
          simp [parity, va a h.2 2 (by omega) (by omega)]
        · rfl
    · rw [if_neg h, if_neg h]

end SurfaceSim
