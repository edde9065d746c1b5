/-
Memory experiments with faults.
-/
import Verif.Lemmas.FaultsRound
import Verif.Lemmas.FaultsPull
import Verif.Lemmas.MemoryRun
import Verif.Lemmas.MergeTail

namespace SurfaceSim
open Spec NoiseModel Blocks Experiments

variable {nm : NoiseModel} {l : Layout} {rb : Bool} {data anc stabs log : List String} {isX : String → String → Bool}
  {R : List String} {cfg : Detectors.Config} {J : Type} {A : Finset String}

/-- Detectors and observables only. -/
def Quiet {Q : Type} (T : List (Op Q)) : Prop := ∀ o ∈ T, (∃ ks, o = .det ks) ∨ ∃ k ks, o = .obs k ks

/-- Neither detectors nor observables. -/
def Loud {Q : Type} (T : List (Op Q)) : Prop := ∀ o ∈ T, (∀ ks, o ≠ .det ks) ∧ ∀ k ks, o ≠ .obs k ks

theorem quiet_ops {c : Circuit} (h : OnlyDeclares c) : Quiet (ops c) := by
  intro o ho
  obtain ⟨i, hi, ho⟩ := List.mem_flatMap.1 ho
  unfold instrOps at ho
  rcases h i hi with e | e <;> rw [e] at ho <;> simp only [List.mem_singleton] at ho <;> rw [ho]
  · exact Or.inl ⟨_, rfl⟩
  · exact Or.inr ⟨_, _, rfl⟩

/-- On labels. -/
theorem Quiet.lift {T : List (Op Nat)} (h : Quiet T) (ι : String → Nat) :
    ∃ T' : List (Op String), T = T'.map (Op.rename ι) ∧ Quiet T' := by
  induction T with
  | nil => exact ⟨[], rfl, by simp [Quiet]⟩
  | cons o T ih =>
    obtain ⟨T', h1, h2⟩ := ih fun o ho => h o (by simp [ho])
    rcases h o (by simp) with ⟨ks, rfl⟩ | ⟨k, ks, rfl⟩
    · refine ⟨.det ks :: T', by rw [h1]; rfl, ?_⟩
      intro o ho
      rcases List.mem_cons.1 ho with rfl | ho
      · exact Or.inl ⟨_, rfl⟩
      · exact h2 o ho
    · refine ⟨.obs k ks :: T', by rw [h1]; rfl, ?_⟩
      intro o ho
      rcases List.mem_cons.1 ho with rfl | ho
      · exact Or.inr ⟨_, _, rfl⟩
      · exact h2 o ho

theorem Quiet.qubits {T : List (Op String)} (h : Quiet T) : ∀ o ∈ T, ∀ q ∈ o.qubits, False := by
  intro o ho q hq
  rcases h o ho with ⟨ks, rfl⟩ | ⟨k, ks, rfl⟩ <;> simp [Op.qubits] at hq

/-- Detectors and observables of a faulty run of `T`. -/
theorem Quiet.values {T : List (Op String)} (hT : Quiet T) {P : String → String → Prop} {L : List (Op String)} {k : Nat}
    (h : Faulty P T L k) (ι : String → Nat) (ρ : Nat → ZMod 2) (st : FState String) :
    let stN : FState Nat := ⟨0, 0, st.recs, st.dets, st.obs, st.rnd⟩
    (run ρ st L).recs = st.recs ∧ (run ρ st L).dets = (run ρ stN (T.map (Op.rename ι))).dets ∧
      (run ρ st L).obs = (run ρ stN (T.map (Op.rename ι))).obs := by
  intro stN
  obtain ⟨h1, h2, h3⟩ := h.quiet hT ρ st
  have ha : Agree ι (fun _ => False) st stN := ⟨by simp, by simp, rfl, rfl, rfl, rfl⟩
  have := ha.run (by simp) ρ T hT.qubits
  exact ⟨h1, h2.trans this.dets.symm, h3.trans this.obs.symm⟩

/-- A record of as many outcomes as qubits. -/
theorem exists_outcomes {qs : List String} (hn : qs.Nodup) (v : List (ZMod 2)) (hv : v.length = qs.length) :
    ∃ f : String → ZMod 2, v = (qs.map f).reverse := by
  suffices h : ∀ (qs : List String) (v : List (ZMod 2)), qs.Nodup → v.length = qs.length → ∃ f : String → ZMod 2, v = qs.map f by
    obtain ⟨f, hf⟩ := h qs v.reverse hn (by simpa using hv)
    exact ⟨f, by rw [← hf, List.reverse_reverse]⟩
  intro qs
  induction qs with
  | nil => intro v _ hv; exact ⟨0, by simpa using hv⟩
  | cons q qs ih =>
    intro v hn hv
    cases v with
    | nil => simp at hv
    | cons x v =>
      obtain ⟨f, hf⟩ := ih v (List.nodup_cons.1 hn).2 (by simpa using hv)
      refine ⟨Function.update f q x, ?_⟩
      simp only [List.map_cons, Function.update_self, List.cons.injEq, true_and]
      rw [hf]
      refine List.map_congr_left fun a ha => ?_
      rw [Function.update_of_ne]
      rintro rfl
      exact (List.nodup_cons.1 hn).1 ha

/-- The change of syndrome that the detector of round `t` reports. -/
def changeAt (reset : Bool) (O : Nat → ZMod 2) (t : Nat) : ZMod 2 :=
  O t + (if reset then (if 1 ≤ t then O (t - 1) else 0) else (if 2 ≤ t then O (t - 2) else 0))

theorem changeAt_congr {reset : Bool} {O O' : Nat → ZMod 2} {t : Nat} (h : ∀ k ≤ t, O k = O' k) :
    changeAt reset O t = changeAt reset O' t := by
  unfold changeAt
  rw [h t le_rfl, h (t - 1) (by omega), h (t - 2) (by omega)]

theorem changeAt_inj {reset : Bool} {O O' : Nat → ZMod 2} {n : Nat} (h : ∀ t < n, changeAt reset O t = changeAt reset O' t) :
    ∀ t < n, O t = O' t := by
  intro t
  induction t using Nat.strong_induction_on with
  | _ t ih =>
    intro ht
    have := h t ht
    unfold changeAt at this
    have h1 : 1 ≤ t → O (t - 1) = O' (t - 1) := fun h => ih (t - 1) (by omega) (by omega)
    have h2 : 2 ≤ t → O (t - 2) = O' (t - 2) := fun h => ih (t - 2) (by omega) (by omega)
    cases reset
    · by_cases h' : 2 ≤ t
      · simp only [Bool.false_eq_true, if_false, h', if_true, h2 h'] at this
        exact add_right_cancel this
      · simpa [h'] using this
    · by_cases h' : 1 ≤ t
      · simp only [if_true, h', h1 h'] at this
        exact add_right_cancel this
      · simpa [h'] using this

open Classical in
/-- The detectors of the round `t`. -/
def roundChange (ancs anc : List String) (reset : Bool) (sel : Nat → List String) (O : String → Nat → ZMod 2) (t : Nat) :
    List (ZMod 2) :=
  ancs.map fun a => if a ∈ sel t ∧ a ∈ anc then changeAt reset (O a) t else 0

open Classical in
/-- A memory experiment after `r` rounds, with faults. -/
structure FInv (nm : NoiseModel) (anc : List String) (A : Finset String) (W : J → Func String) (sel : Nat → List String)
    (reset : Bool) (r : Nat) (e : Circuit) (s : Sim cfg) : Prop where
  tracks : s.1.Tracks nm.inds (histOf anc r)
  even : PairsOk e
  det : DetAt anc r s.2
  body : ∃ X : List (Op String), ops e = X.map (Op.rename (ind nm.inds)) ∧ (∃ W0, Pres A X W W0) ∧
    ∀ P L k, Faulty P X L k → ∀ ρ (st : FState String), st.recs = [] → st.dets = [] → st.obs = [] →
      ∃ O : String → Nat → ZMod 2, (run ρ st L).recs.length = (histOf anc r).length ∧ (run ρ st L).obs = [] ∧
        (∀ a ∈ anc, outs (histOf anc r) (run ρ st L).recs a = ((List.range r).map (O a)).reverse) ∧
        (run ρ st L).dets = ((List.range r).flatMap (roundChange cfg.anc anc reset sel O)).reverse

/-- What is used about a round. -/
def RoundPres (nm : NoiseModel) (anc : List String) (A : Finset String) (W : J → Func String) (b : Call1) : Prop :=
  ∃ M, Does nm.inds b M ∧ (∀ o ∈ M, o.Distinct) ∧ Loud M ∧ measured M = anc ∧ Pres A M W W

theorem loud_append {Q : Type} {a b : List (Op Q)} (ha : Loud a) (hb : Loud b) : Loud (a ++ b) := by
  intro o ho
  rcases List.mem_append.1 ho with h | h
  · exact ha o h
  · exact hb o h

theorem fInv_init (hm : MemCode nm l rb data anc stabs log isX R) (hcfg : ConfigOk cfg) (hsub : ∀ a ∈ anc, a ∈ cfg.anc)
    {dataInit : Dict String Int} {g : Gen} (hb : InitEff nm data anc R dataInit (sumGen g)) {ln : J → String → ZMod 2}
    (hA : ∀ q, q ∈ nm.inds.keys → q ∈ A) (hu : ∀ q ∈ A, AtMostOne fun j => ln j q ≠ 0)
    (sel : Nat → List String) (reset : Bool)
    {e0 : Circuit} (he0 : PairsOk e0) (ho0 : ops e0 = []) {s : Sim cfg} (hs : s.1.Tracks nm.inds []) (hd : DetAt [] 0 s.2) :
    ∃ c s', activateAndSum l g s = (.ok c, s') ∧
      FInv nm anc A (fun j => fn (fun d => decide (d ∈ R)) (ln j)) sel reset 0 (e0.concat c) s' := by
  obtain ⟨d', hd1, hd2⟩ := DetAt.activate hcfg.1 hm.ancN hsub hd
  obtain ⟨AA, E, H, hAA, hA', hE, hE', hH, hH', hdo⟩ := hb
  obtain ⟨c, s1, e1, he, ho, t1⟩ := hdo.2 _ _ hs
  have hmeas : measured (AA.map Op.r ++ E.map Op.x ++ H.map Op.h) = [] := by
    simp only [measured_append]
    rw [measured_map_none _ _ (by simp), measured_map_none _ _ (by simp), measured_map_none _ _ (by simp)]
    rfl
  rw [hmeas, List.append_nil] at t1
  have p1 : PairsOk c := pairsOk_of_ops hm.can.inj he ho hdo.1 (by
    intro op h
    simp only [List.mem_append, List.mem_map] at h
    rcases h with (⟨_, -, rfl⟩ | ⟨_, -, rfl⟩) | ⟨_, -, rfl⟩ <;> trivial)
  have hl : Loud (AA.map Op.r ++ E.map Op.x ++ H.map Op.h) := by
    intro op h
    simp only [List.mem_append, List.mem_map] at h
    rcases h with (⟨_, -, rfl⟩ | ⟨_, -, rfl⟩) | ⟨_, -, rfl⟩ <;> simp
  have o1 := he0.concat p1
  refine ⟨c, (s1, d'), ?_, t1, o1.2, hd2, _, by rw [o1.1, ho0, List.nil_append]; exact ho, ?_, ?_⟩
  · unfold activateAndSum
    have h1 : PyM.ofExcept (ancQubits l) s = (.ok anc, s) := by
      unfold ancQubits; rw [hm.qAnc]; rfl
    rw [PyM.bind_ok h1]
    have h2 : onDets (cfg := cfg) (fun _ => Detectors.activate anc) s = (.ok (), (s.1, d')) := by
      show ((Detectors.activate anc s.2).1, s.1, (Detectors.activate anc s.2).2) = _
      rw [hd1]
    rw [PyM.bind_ok h2]
    unfold onModel
    simp only [e1]
  · have hk : ∀ o ∈ AA.map Op.r ++ E.map Op.x ++ H.map Op.h, ∀ q ∈ o.qubits, q ∈ A :=
      fun o ho q hq => hA q (hdo.1 o ho q hq)
    refine pres_init (fun q hq => hk (.r q) (by simp [hq]) q (by simp [Op.qubits]))
      (fun q hq => hk (.x q) (by simp [hq]) q (by simp [Op.qubits])) hH
      (fun q hq => hk (.h q) (by simp [hq]) q (by simp [Op.qubits])) hu ?_
    intro j q _
    simp only [hH' q]
  · intro P L k hf ρ st h1 h2 h3
    obtain ⟨⟨v, g1, g2⟩, g3, g4⟩ := hf.records hl ρ st
    rw [hmeas] at g1
    obtain rfl : v = [] := by simpa using g1
    refine ⟨0, by rw [g2, h1]; rfl, by rw [g4, h3], ?_, by rw [g3, h2]; rfl⟩
    intro a _
    rw [g2, h1]
    exact outs_nil _ _

theorem fInv_round (hm : MemCode nm l rb data anc stabs log isX R) (hcfg : ConfigOk cfg)
    {b : Call1} {reset : Bool} {W : J → Func String} (hb : RoundPres nm anc A W b) {sel : Nat → List String} {r : Nat}
    {e : Circuit} {s : Sim cfg} (h : FInv nm anc A W sel reset r e s) (hsel : ∀ a ∈ sel r, a ∈ cfg.anc) :
    ∃ c s1 c' d', b s.1 = (.ok c, s1) ∧
      Detectors.buildFromAnc s1.measTarget reset (some (sel r)) s.2 = (.ok c', d') ∧
      FInv nm anc A W sel reset (r + 1) (e.concat (c.concat c')) (s1, d') := by
  obtain ⟨M, hM, hdist, hloud, hmeas, hpres⟩ := hb
  obtain ⟨c, s1, e1, he, ho, t1⟩ := hM.2 _ _ h.tracks
  rw [hmeas] at t1
  have p1 : PairsOk c := pairsOk_of_ops hm.can.inj he ho hM.1 hdist
  have hcount : ∀ a ∈ anc, (histOf anc r ++ anc).count a = r + 1 := by
    intro a ha; rw [← histOf_succ, count_histOf hm.ancN ha]
  have hfind : ∀ a ∈ anc, Props.FindsAt s1.measTarget (lookOf s1) a (min 3 (r + 1)) := by
    intro a ha k hk1 hk2
    exact (lookOf_spec t1 (hm.known (List.mem_append_right _ ha)) hk1 (by rw [hcount a ha]; omega)).1
  obtain ⟨c', d', e2, p2, hd, f2⟩ := DetAt.round hcfg h.det s1.measTarget (lookOf s1) reset (sel r) hsel hfind
  have o1 := p1.concat p2
  have o2 := h.even.concat o1.2
  obtain ⟨T, hT, hTq⟩ := (quiet_ops fun i hi => Or.inl (buildFromAnc_gates e2 i hi)).lift (ind nm.inds)
  obtain ⟨X, hX, ⟨W0, hX0⟩, hXf⟩ := h.body
  refine ⟨c, s1, c', d', e1, e2, by rw [histOf_succ]; exact t1, o2.2, hd, X ++ (M ++ T), ?_, ⟨W0, ?_⟩, ?_⟩
  · rw [o2.1, o1.1, hX, ho, hT, List.map_append, List.map_append]
  · exact hX0.append (hpres.append (pres_quiet hTq hpres.here))
  · intro P L k hf ρ st h1 h2 h3
    obtain ⟨L1, L', k1, k', P', rfl, rfl, hf1, hf'⟩ := hf.append
    obtain ⟨L2, L3, k2, k3, P'', rfl, rfl, hf2, hf3⟩ := hf'.append
    obtain ⟨O, i1, i2, i3, i4⟩ := hXf P L1 k1 hf1 ρ st h1 h2 h3
    obtain ⟨⟨v, g1, g2⟩, g3, g4⟩ := hf2.records hloud ρ (run ρ st L1)
    rw [hmeas] at g1
    obtain ⟨f, rfl⟩ := exists_outcomes hm.ancN v g1
    obtain ⟨q1, q2, q3⟩ := hTq.values hf3 (ind nm.inds) ρ (run ρ (run ρ st L1) L2)
    rw [← hT, f2] at q2 q3
    simp only [run_append]
    have hlen : (run ρ (run ρ st L1) L2).recs.length = (histOf anc r ++ anc).length := by
      rw [g2]; simp [i1]; omega
    let O' : String → Nat → ZMod 2 := fun a t => if t < r then O a t else f a
    have hO : ∀ a, ∀ t < r, O' a t = O a t := fun a t ht => by simp [O', ht]
    have hO2 : ∀ a, O' a r = f a := fun a => by simp [O']
    have houts : ∀ a ∈ anc, outs (histOf anc r ++ anc) (run ρ (run ρ st L1) L2).recs a =
        ((List.range (r + 1)).map (O' a)).reverse := by
      intro a ha
      rw [g2, outs_append hm.ancN, if_pos ha, i3 a ha, List.range_succ, List.map_append, List.reverse_append]
      simp only [List.map_cons, List.map_nil, List.reverse_singleton, List.singleton_append, hO2]
      congr 2
      refine List.map_congr_left fun t ht => (hO a t (by simpa using ht)).symm
    have hlook : ∀ a ∈ anc, ∀ k, 1 ≤ k → k ≤ r + 1 →
        lookback (run ρ (run ρ st L1) L2).recs (lookOf s1 a k) = O' a (r + 1 - k) := by
      intro a ha k hk1 hk2
      rw [(lookOf_spec t1 (hm.known (List.mem_append_right _ ha)) hk1 (by rw [hcount a ha]; omega)).2 _ hlen, houts a ha,
        List.getD_eq_getElem?_getD, List.getElem?_reverse (by simp; omega)]
      simp only [List.length_map, List.length_range, List.getElem?_map]
      rw [List.getElem?_range (by omega)]
      simp only [Option.map_some, Option.getD_some]
      congr 1; omega
    refine ⟨O', ?_, ?_, ?_, ?_⟩
    · rw [q1, histOf_succ]; exact hlen
    · rw [q3]; show (run ρ (run ρ st L1) L2).obs = []
      rw [g4, i2]
    · intro a ha
      rw [q1, histOf_succ]; exact houts a ha
    · rw [q2, List.range_succ, List.flatMap_append, List.reverse_append]
      show List.reverse _ ++ (run ρ (run ρ st L1) L2).dets = _
      rw [g3, i4]
      congr 2
      · simp only [List.flatMap_cons, List.flatMap_nil, List.append_nil]
        unfold roundChange
        refine List.map_congr_left fun a _ => ?_
        by_cases hs : a ∈ sel r ∧ a ∈ anc
        · rw [if_pos hs, if_pos hs]
          have L := hlook a hs.2
          unfold changeAt parity
          rw [List.map_cons, List.sum_cons, L 1 (by omega) (by omega)]
          cases reset
          · by_cases h' : 2 ≤ r
            · simp [h', L 3 (by omega) (by omega), show r + 1 - 3 = r - 2 by omega]
            · simp [h']
          · by_cases h' : 1 ≤ r
            · simp [h', L 2 (by omega) (by omega), show r + 1 - 2 = r - 1 by omega]
            · simp [h']
        · rw [if_neg hs, if_neg hs]
      · refine flatMap_congr_from fun t ht => ?_
        unfold roundChange
        refine List.map_congr_left fun a _ => ?_
        split
        · exact changeAt_congr fun k hk => (hO a k (by have := List.mem_range.1 ht; omega)).symm
        · rfl

theorem fInv_rounds (hm : MemCode nm l rb data anc stabs log isX R) (hcfg : ConfigOk cfg) (hsub : ∀ a ∈ anc, a ∈ cfg.anc)
    {fam : Family cfg} {iter : Gen} {reset : Bool} {W : J → Func String}
    (hf : ∀ sel, fam.round l reset sel = qecRound iter l reset sel)
    (hb : RoundPres nm anc A W (sumGen iter)) (o : SetOrder) {sel : List String}
    (hsel : ∀ a ∈ sel, a ∈ anc) (gauge : Bool) (m : Nat) :
    ∀ (r : Nat) (e : Circuit) (s : Sim cfg), FInv nm anc A W (roundSel o stabs sel gauge) reset r e s →
    ∃ e' s', addAll e (List.range' r m) (memoryRound fam o l rb reset sel gauge) s = (.ok e', s') ∧
      FInv nm anc A W (roundSel o stabs sel gauge) reset (r + m) e' s' := by
  induction m with
  | zero =>
    intro r e s h
    exact ⟨e, s, rfl, by simpa using h⟩
  | succ m ih =>
    intro r e s h
    set sel' := roundSel o stabs sel gauge r with hsel'
    have hs1 : ∀ a ∈ sel', a ∈ anc := fun a ha => hsel a (roundSel_sub a ha)
    obtain ⟨c, s1, c', d', h1, h2, h3⟩ := fInv_round hm hcfg hb h (fun a ha => hsub a (hs1 a ha))
    have hround : memoryRound fam o l rb reset sel gauge r s = (.ok (c.concat c'), (s1, d')) := by
      have key : qecRound iter l reset (some sel') s = (.ok (c.concat c'), (s1, d')) := by
        unfold qecRound
        rw [PyM.bind_ok (onModel_ok h1)]
        rw [PyM.bind_ok (show PyM.ofExcept (checkAncDetectors l (some sel')) (s1, s.2) = (.ok sel', (s1, s.2)) by
          rw [checkAnc_ok hm hs1]; rfl)]
        rw [PyM.bind_ok (onDets_ok (s := (s1, s.2)) (f := fun getRec => Detectors.buildFromAnc getRec reset (some sel')) h2)]
        rfl
      unfold memoryRound
      by_cases h0 : r = 0 ∧ gauge = false
      · rw [if_pos (by simpa using h0)]
        rw [PyM.bind_ok (show PyM.ofExcept (firstDets o [l] rb sel) s = (.ok (o.ord (inter (setOf sel) stabs)), s) by
          rw [firstDets_ok hm]; rfl)]
        rw [hf, ← key, hsel']
        unfold roundSel
        rw [if_pos h0]
      · rw [if_neg (by simpa using h0), hf, ← key, hsel']
        unfold roundSel
        rw [if_neg h0]
    obtain ⟨e', s', h4, h5⟩ := ih _ _ _ h3
    refine ⟨e', s', ?_, by rw [show r + (m + 1) = r + 1 + m by omega]; exact h5⟩
    rw [List.range'_succ]
    show ((addTo e (memoryRound fam o l rb reset sel gauge r)) >>= fun e =>
      addAll e (List.range' (r + 1) m) (memoryRound fam o l rb reset sel gauge)) s = _
    have : addTo e (memoryRound fam o l rb reset sel gauge r) s = (.ok (e.concat (c.concat c')), (s1, d')) := by
      unfold addTo
      rw [PyM.bind_ok hround]
      rfl
    rw [PyM.bind_ok this]
    exact h4

theorem flatMap_inj {α β : Type} {f g : α → List β} (hlen : ∀ a, (f a).length = (g a).length) :
    ∀ {A : List α}, A.flatMap f = A.flatMap g → ∀ a ∈ A, f a = g a
  | [], _, _, h => by simp at h
  | b :: A, e, a, h => by
    rw [List.flatMap_cons, List.flatMap_cons] at e
    obtain ⟨e1, e2⟩ := List.append_inj e (hlen b)
    rcases List.mem_cons.1 h with rfl | h
    · exact e1
    · exact flatMap_inj hlen e2 a h

theorem finishMeas_tail {reset : Bool} {sel : List String} {c c' : Circuit} {s s' : Sim cfg} (hc : EvenPairs c)
    (h : finishMeas l rb reset sel c s = (.ok c', s')) : ∃ T, OnlyDeclares T ∧ ops c' = ops c ++ ops T := by
  unfold finishMeas at h
  obtain ⟨stabs, s1, -, h⟩ := PyM.bind_eq_ok h
  obtain ⟨supp, s2, -, h⟩ := PyM.bind_eq_ok h
  obtain ⟨dets, s3, h3, h⟩ := PyM.bind_eq_ok h
  obtain ⟨log, s4, -, h⟩ := PyM.bind_eq_ok h
  obtain ⟨obs, s5, h5, h⟩ := PyM.bind_eq_ok h
  obtain ⟨anc, s6, -, h⟩ := PyM.bind_eq_ok h
  obtain ⟨_, s7, -, h⟩ := PyM.bind_eq_ok h
  simp only [pure, PyM.pure, Prod.mk.injEq, Except.ok.injEq] at h
  have g3 : ∀ i ∈ dets, i.gate = .DETECTOR := by
    unfold onDets at h3
    simp only [Prod.mk.injEq] at h3
    exact buildFromData_gates (Prod.ext h3.1 rfl)
  have g5 : obs.gate = .OBSERVABLE_INCLUDE := by
    unfold onModel at h5
    simp only [Prod.mk.injEq] at h5
    exact (observable_gate (Prod.ext h5.1 rfl)).2
  have hev : EvenPairs dets := OnlyDeclares.even fun i hi => Or.inl (g3 i hi)
  have hp : obs.gate.isTwoQubit = true → obs.qubits.length % 2 = 0 := by
    rw [g5]; intro h; simp [Gate.isTwoQubit] at h
  have o1 := ops_concat hc hev
  refine ⟨dets ++ [obs], ?_, ?_⟩
  · intro i hi
    rcases List.mem_append.1 hi with hi | hi
    · exact Or.inl (g3 i hi)
    · simp at hi; subst hi; exact Or.inr g5
  · rw [← h.1, ops_append_even _ _ o1.2 hp, o1.1, ops_append, List.append_assoc]
    simp [ops]

/-- A family of lines: parities that differ from the logical operator by stabilizers, and no qubit is in two lines. -/
structure Lines (l : Layout) (data stabs log : List String) (ln : J → String → ZMod 2) : Prop where
  sub : ∀ j d, ln j d ≠ 0 → d ∈ data
  one : ∀ q, AtMostOne fun j => ln j q ≠ 0
  log : ∀ j, ∃ B : List String, (∀ a ∈ B, a ∈ stabs) ∧ ∀ v : String → ZMod 2,
    (data.map fun d => ln j d * v d).sum = (log.map v).sum + (B.map fun a => ((l.getNeighbors [a] none).map v).sum).sum

theorem Spec.Faulty.insert {Q : Type} (A B : List (Op Q)) (qs : List Q) (P : Q → Q → Prop) :
    Faulty P (A ++ B) (A ++ (qs.map Op.x ++ B)) qs.length := by
  induction A generalizing P with
  | cons o A ih => exact .op o (ih _)
  | nil =>
    induction qs with
    | nil => exact Spec.Faulty.noFaults P B
    | cons q qs ih => exact .one q true false ih

theorem zmod_add_one_ne (x : ZMod 2) : x + 1 ≠ x := by
  revert x; decide

theorem sum_add_map {α : Type} (f g : α → ZMod 2) (l : List α) :
    (l.map fun q => f q + g q).sum = (l.map f).sum + (l.map g).sum := by
  induction l with
  | nil => simp
  | cons q l ih => simp only [List.map_cons, List.sum_cons, ih]; ring

/-- `k` of the measurements have a wrong outcome. -/
inductive Misread : List (Op Nat) → List (Op Nat) → Nat → Prop
  | nil : Misread [] [] 0
  | keep {l L : List (Op Nat)} {k : Nat} (o : Op Nat) (h : Misread l L k) : Misread (o :: l) (o :: L) k
  | wrong {l L : List (Op Nat)} {k : Nat} (q : Nat) (h : Misread l L k) :
      Misread (.m q :: l) ([.x q, .m q, .x q] ++ L) (k + 1)

theorem Misread.faulty {l L : List (Op Nat)} {k : Nat} (h : Misread l L k) (P : Nat → Nat → Prop) : Faulty P l L k := by
  induction h generalizing P with
  | nil => exact .done P
  | keep o h ih => exact .op o (ih _)
  | wrong q h ih => exact .outcome q (ih _)

theorem Misread.pass {l L : List (Op Nat)} {k : Nat} (A : List (Op Nat)) (h : Misread l L k) : Misread (A ++ l) (A ++ L) k := by
  induction A with
  | nil => exact h
  | cons o A ih => exact .keep o ih

theorem Misread.refl (A : List (Op Nat)) : Misread A A 0 := by
  induction A with
  | nil => exact .nil
  | cons o A ih => exact .keep o ih

/-- Measurements of which those of `S` have a wrong outcome. -/
def misread (S : List Nat) (l : List Nat) : List (Op Nat) := l.flatMap fun q => if q ∈ S then [.x q, .m q, .x q] else [.m q]

theorem Misread.some {T L : List (Op Nat)} {k : Nat} (S l : List Nat) (h : Misread T L k) :
    Misread (l.map Op.m ++ T) (misread S l ++ L) (l.countP (fun q => decide (q ∈ S)) + k) := by
  induction l with
  | nil => simpa [misread] using h
  | cons q l ih =>
    unfold misread at ih ⊢
    rw [List.flatMap_cons]
    by_cases hq : q ∈ S
    · rw [if_pos hq, List.countP_cons_of_pos (by simpa using hq), List.append_assoc, Nat.add_right_comm]
      exact .wrong q ih
    · rw [if_neg hq, List.countP_cons_of_neg (by simpa using hq), List.append_assoc]
      exact .keep _ ih

theorem run_misread (ρ : Nat → ZMod 2) (S l : List Nat) (st : FState Nat) :
    (run ρ st (misread S l)).recs = (l.map fun q => st.x q + if q ∈ S then 1 else 0).reverse ++ st.recs ∧
      (run ρ st (misread S l)).dets = st.dets ∧ (run ρ st (misread S l)).obs = st.obs := by
  induction l generalizing st with
  | nil => simp [misread]
  | cons q l ih =>
    unfold misread at ih ⊢
    rw [List.flatMap_cons, run_append]
    obtain ⟨h1, h2, h3⟩ := ih (run ρ st (if q ∈ S then [.x q, .m q, .x q] else [.m q]))
    have hx : (run ρ st (if q ∈ S then [Op.x q, .m q, .x q] else [.m q])).x = st.x := by
      split
      · simp only [run_cons, run_nil, step, Function.update_self, Function.update_idem]
        rw [add_assoc, show (1 : ZMod 2) + 1 = 0 by decide, add_zero, Function.update_eq_self]
      · rfl
    have hr : (run ρ st (if q ∈ S then [Op.x q, .m q, .x q] else [.m q])).recs = (st.x q + if q ∈ S then 1 else 0) :: st.recs := by
      split <;> simp [run_cons, step]
    refine ⟨?_, ?_, ?_⟩
    · rw [h1, hx, hr]
      simp
    · rw [h2]
      split <;> rfl
    · rw [h3]
      split <;> rfl

/-- Some `m` wrong outcomes change the observable and no detector. -/
def Unseen (m : Nat) (c : Circuit) : Prop :=
  ∃ L, Misread (ops c) L m ∧ ∃ ζ ρ : Nat → ZMod 2, (run ρ (FState.start ζ) L).dets.reverse = detectors ζ ρ c ∧
    (run ρ (FState.start ζ) L).obs.reverse ≠ observables ζ ρ c

theorem Unseen.not_detects {m : Nat} {c : Circuit} (h : Unseen m c) : ¬ Detects (m + 1) c := by
  obtain ⟨L, h1, ζ, ρ, h2, h3⟩ := h
  exact fun hd => h3 (hd L m (h1.faulty _) (Nat.lt_succ_self _) ζ ρ h2)

/-- Wrong outcomes of the last measurement that no stabilizer sees. -/
theorem unseen_of {c : Circuit} {A T : List (Op Nat)} {ι : String → Nat} {data S log : List String} {N : Nat}
    {G : List (ZMod 2) → (String → ZMod 2) → List (ZMod 2)}
    (hops : ops c = A ++ (data.map (fun q => Op.m (ι q)) ++ T))
    (hinj : ∀ a ∈ data, ∀ b ∈ data, ι a = ι b → a = b) (hdata : data.Nodup) (hS : S.Nodup) (hSd : ∀ q ∈ S, q ∈ data)
    (hT : ∀ ρ st v recs0, st.recs = (data.map v).reverse ++ recs0 → recs0.length = N →
      (run ρ st T).dets = G recs0 v ++ st.dets ∧ (run ρ st T).obs = (0, (log.map v).sum) :: st.obs)
    (hN : ∀ ρ ζ, (run ρ (FState.start ζ) A).recs.length = N)
    (hG : ∀ recs0 v, G recs0 (fun q => v q + if q ∈ S then 1 else 0) = G recs0 v)
    (hlog : (log.map fun q => if q ∈ S then (1 : ZMod 2) else 0).sum = 1) : Unseen S.length c := by
  have hm : data.map (fun q => Op.m (ι q)) = (data.map ι).map Op.m := by simp
  have hmem : ∀ q ∈ data, (ι q ∈ S.map ι ↔ q ∈ S) := by
    intro q hq
    constructor
    · intro h
      obtain ⟨q', hq', he⟩ := List.mem_map.1 h
      rwa [← hinj q' (hSd q' hq') q hq he]
    · exact fun h => List.mem_map_of_mem h
  have hcount : (data.map ι).countP (fun q => decide (q ∈ S.map ι)) = S.length := by
    rw [List.countP_map, List.countP_eq_length_filter]
    have : data.filter ((fun q => decide (q ∈ S.map ι)) ∘ ι) = data.filter (fun q => decide (q ∈ S)) :=
      List.filter_congr fun q hq => by simp only [Function.comp_apply, hmem q hq]
    rw [this]
    refine List.Perm.length_eq ((List.perm_ext_iff_of_nodup (hdata.filter _) hS).2 fun q => ?_)
    simp only [List.mem_filter, decide_eq_true_eq]
    exact ⟨fun h => h.2, fun h => ⟨hSd q h, h⟩⟩
  refine ⟨A ++ (misread (S.map ι) (data.map ι) ++ T), ?_, fun _ => 0, fun _ => 0, ?_⟩
  · rw [hops, hm]
    have := Misread.pass A (Misread.some (S.map ι) (data.map ι) (Misread.refl T))
    rwa [hcount, add_zero] at this
  set st := run (fun _ => 0) (FState.start fun _ => 0) A with hst
  have h0 : (run (fun _ => 0) (FState.start fun _ => 0) (ops c)).dets = G st.recs (fun q => st.x (ι q)) ++ st.dets ∧
      (run (fun _ => 0) (FState.start fun _ => 0) (ops c)).obs = (0, (log.map fun q => st.x (ι q)).sum) :: st.obs := by
    rw [hops, run_append, run_append, ← hst, hm,
      run_m _ _ (List.Nodup.map_on (fun a ha b hb => hinj a ha b hb) hdata)]
    refine hT _ _ (fun q => st.x (ι q)) st.recs ?_ (hN _ _)
    simp only [List.map_map]
    rfl
  have h1 : (run (fun _ => 0) (FState.start fun _ => 0) (A ++ (misread (S.map ι) (data.map ι) ++ T))).dets =
        G st.recs (fun q => st.x (ι q) + if q ∈ S then 1 else 0) ++ st.dets ∧
      (run (fun _ => 0) (FState.start fun _ => 0) (A ++ (misread (S.map ι) (data.map ι) ++ T))).obs =
        (0, (log.map fun q => st.x (ι q) + if q ∈ S then 1 else 0).sum) :: st.obs := by
    rw [run_append, run_append, ← hst]
    obtain ⟨r1, r2, r3⟩ := run_misread (fun _ => 0) (S.map ι) (data.map ι) st
    have := hT (fun _ => 0) _ (fun q => st.x (ι q) + if q ∈ S then 1 else 0) st.recs (by
      rw [r1, List.map_map]
      congr 2
      exact List.map_congr_left fun q hq => by simp only [Function.comp_apply, hmem q hq]) (hN _ _)
    rwa [r2, r3] at this
  rw [hG] at h1
  constructor
  · unfold detectors
    rw [h1.1, h0.1]
  · unfold observables
    rw [h1.2, h0.2]
    intro he
    have := List.reverse_injective he
    simp only [List.cons.injEq, Prod.mk.injEq, true_and, and_true] at this
    rw [sum_add_map (fun q => st.x (ι q)) (fun q => if q ∈ S then (1 : ZMod 2) else 0) log, hlog] at this
    exact zmod_add_one_ne _ this

open Classical in
/-- Fewer faults than lines change the observable only if a detector reports them, given what the runs record. -/
theorem detects_of_record [Fintype J] (hm : MemCode nm l rb data anc stabs log isX R) (hsub : ∀ a ∈ anc, a ∈ cfg.anc)
    {c : Circuit} {Y : List (Op String)} (hops : ops c = Y.map (Op.rename (ind nm.inds)))
    {ln : J → String → ZMod 2} (hln : Lines l data stabs log ln) {W0 : J → Func String}
    (hpres : Pres nm.inds.keys.toFinset Y (fun j => recF data (ln j)) W0) {reset : Bool} {n : Nat}
    {sel : Nat → List String} {selF : List String} (hsel : ∀ a ∈ stabs, ∀ t, a ∈ sel t) (hselF : ∀ a ∈ stabs, a ∈ selF)
    (record : ∀ P L k, Faulty P Y L k → ∀ ρ (st : FState String),
        st.recs = [] → st.dets = [] → st.obs = [] → ∃ (O : String → Nat → ZMod 2) (v : String → ZMod 2),
        (∀ ln : String → ZMod 2, (recF data ln).val nm.inds.keys.toFinset (run ρ st L) = (data.map fun d => ln d * v d).sum) ∧
        (run ρ st L).dets.reverse = (List.range n).flatMap (roundChange cfg.anc anc reset sel O) ++
          ((cfg.anc.filter (· ∈ stabs)).map fun a => if a ∈ selF ∧ a ∈ anc then
            ((l.getNeighbors [a] none).map v).sum + (if 1 ≤ n then O a (n - 1) else 0) +
              (if reset = false ∧ 2 ≤ n then O a (n - 2) else 0) else 0) ∧
        (run ρ st L).obs.reverse = [(0, (log.map v).sum)]) : Detects (Fintype.card J) c := by
  intro L k hf hk ζ ρ hdets
  have inj : ∀ a b, a ∈ nm.inds.keys → b ∈ nm.inds.keys → ind nm.inds a = ind nm.inds b → a = b :=
    fun a b ha hb => hm.can.inj a ha b hb
  have hkeys : ∀ o ∈ Y, ∀ q ∈ o.qubits, q ∈ nm.inds.keys :=
    fun o ho q hq => by simpa using hpres.known o ho q hq
  have hap := agree_pullback (ind nm.inds) (· ∈ nm.inds.keys) (FState.start ζ)
  obtain ⟨LS, hLS, hag⟩ := Faulty.pull (K := (· ∈ nm.inds.keys)) inj hf _ hops hkeys (fun _ _ => False) (by simp)
  have a1 := hag ρ _ _ hap
  have a2 := hap.run inj ρ _ hkeys
  rw [← hops] at a2
  obtain ⟨O, v, r1, r2, r3⟩ := record _ _ _ hLS ρ (pullback (ind nm.inds) (FState.start ζ)) rfl rfl rfl
  obtain ⟨O', v', r1', r2', r3'⟩ := record _ _ _ (Faulty.noFaults (fun _ _ => False) _) ρ
    (pullback (ind nm.inds) (FState.start ζ)) rfl rfl rfl
  have hdd : (run ρ (pullback (ind nm.inds) (FState.start ζ)) LS).dets.reverse =
      (run ρ (pullback (ind nm.inds) (FState.start ζ)) Y).dets.reverse := by
    rw [← a1.dets, ← a2.dets]; exact hdets
  unfold observables
  rw [a1.obs, a2.obs, r3, r3']
  rw [r2, r2'] at hdd
  obtain ⟨d1, d2⟩ := List.append_inj' hdd (by simp)
  have d3 := flatMap_inj (fun t => by simp [roundChange]) d1
  have hO : ∀ a ∈ stabs, ∀ t < n, O a t = O' a t := by
    intro a ha
    have haa := hm.stabsSub a ha
    refine changeAt_inj (reset := reset) fun t ht => ?_
    have := d3 t (List.mem_range.2 ht)
    unfold roundChange at this
    rw [List.map_inj_left] at this
    have := this a (hsub a haa)
    have hin : a ∈ sel t := hsel a ha t
    rwa [if_pos ⟨hin, haa⟩, if_pos ⟨hin, haa⟩] at this
  have hv : ∀ a ∈ stabs, ((l.getNeighbors [a] none).map v).sum = ((l.getNeighbors [a] none).map v').sum := by
    intro a ha
    have haa := hm.stabsSub a ha
    rw [List.map_inj_left] at d2
    have := d2 a (List.mem_filter.2 ⟨hsub a haa, by simpa using ha⟩)
    have hin : a ∈ selF ∧ a ∈ anc := ⟨hselF a ha, haa⟩
    simp only [if_pos hin] at this
    have c1 : (if 1 ≤ n then O a (n - 1) else 0) = (if 1 ≤ n then O' a (n - 1) else 0) := by
      split
      · exact hO a ha _ (by omega)
      · rfl
    have c2 : (if reset = false ∧ 2 ≤ n then O a (n - 2) else 0) = (if reset = false ∧ 2 ≤ n then O' a (n - 2) else 0) := by
      split
      · exact hO a ha _ (by omega)
      · rfl
    rw [c1, c2] at this
    exact add_right_cancel (add_right_cancel this)
  obtain ⟨S, hS, hval⟩ := hLS.val hpres.known hpres.ok hpres.tame (by simp)
  obtain ⟨S', hS', hval'⟩ := (Faulty.noFaults (fun _ _ => False) Y).val
    hpres.known hpres.ok hpres.tame (by simp)
  obtain ⟨j, hj⟩ : ∃ j, j ∉ S := by
    by_contra hno
    have : S = Finset.univ := Finset.eq_univ_iff_forall.2 fun j => by
      by_contra h'
      exact hno ⟨j, h'⟩
    rw [this, Finset.card_univ] at hS
    omega
  have hj' : j ∉ S' := by
    have : S' = ∅ := Finset.card_eq_zero.1 (by omega)
    rw [this]; simp
  have e1 := (hval j hj ρ (pullback (ind nm.inds) (FState.start ζ))).trans
    (hval' j hj' ρ (pullback (ind nm.inds) (FState.start ζ))).symm
  rw [r1, r1'] at e1
  obtain ⟨B, hB, hsum⟩ := hln.log j
  rw [hsum, hsum] at e1
  have e2 : (B.map fun a => ((l.getNeighbors [a] none).map v).sum) =
      B.map fun a => ((l.getNeighbors [a] none).map v').sum :=
    List.map_congr_left fun a ha => hv a (hB a ha)
  rw [e2] at e1
  rw [add_right_cancel e1]

/-- Fewer faults than lines are seen by the detectors or do not change the observable; errors on the support of an operator
that commutes with the stabilizers and anticommutes with the logical operator are not seen and change it. -/
theorem memory_detects [Fintype J] (hm : MemCode nm l rb data anc stabs log isX R) (hcfg : ConfigOk cfg)
    (hsub : ∀ a ∈ anc, a ∈ cfg.anc)
    (hdata : ∀ d ∈ data, d ∉ cfg.anc) {dataInit : Dict String Int} {fam : Family cfg} {gi iter gm : Gen} {reset : Bool}
    (hfi : fam.init l dataInit rb = activateAndSum l gi)
    (hfr : ∀ sel, fam.round l reset sel = qecRound iter l reset sel)
    (hfm : ∀ sel, fam.meas l rb reset sel = (do
      let sel ← PyM.ofExcept (checkAncDetectors l sel)
      let circuit ← onModel (sumGen gm)
      finishMeas l rb reset sel circuit))
    (hi : InitEff nm data anc R dataInit (sumGen gi)) {ln : J → String → ZMod 2} (hln : Lines l data stabs log ln)
    (hb : RoundPres nm anc nm.inds.keys.toFinset (fun j => fn (fun d => decide (d ∈ R)) (ln j)) (sumGen iter))
    (hM : MeasEff nm data R (sumGen gm)) (o : SetOrder) (ancDetectors : Option (List String))
    (hsel : ∀ sel, ancDetectors = some sel → (∀ a ∈ sel, a ∈ anc) ∧ ∀ a ∈ stabs, a ∈ sel) (gauge : Bool) (n : Nat)
    (s : Sim cfg) :
    ∃ c s', memory fam o nm l n dataInit rb reset ancDetectors gauge s = (.ok c, s') ∧ Detects (Fintype.card J) c ∧
      ∀ S : List String, S.Nodup → (∀ q ∈ S, q ∈ data) →
        (∀ a ∈ stabs, ((l.getNeighbors [a] none).map fun q => if q ∈ S then (1 : ZMod 2) else 0).sum = 0) →
        (log.map fun q => if q ∈ S then (1 : ZMod 2) else 0).sum = 1 → Unseen S.length c := by
  classical
  set sel := ancDetectors.getD anc with hseld
  have hsel' : ∀ a ∈ sel, a ∈ anc := by
    cases ancDetectors with
    | none => exact fun a ha => ha
    | some x => exact (hsel x rfl).1
  have hsel2 : ∀ a ∈ stabs, a ∈ sel := by
    cases ancDetectors with
    | none => exact hm.stabsSub
    | some x => exact (hsel x rfl).2
  obtain ⟨e0, h0, p0, o0⟩ := start_ok hm s
  obtain ⟨c1, s1, h1, i1⟩ := fInv_init (A := nm.inds.keys.toFinset) hm hcfg hsub hi (fun q hq => by simpa using hq)
    (fun q _ => hln.one q) (roundSel o stabs sel gauge) reset p0 o0
    (s := (MeasState.fresh nm.inds, Detectors.State.fresh cfg)) (MeasState.tracks_fresh _) DetAt.new
  obtain ⟨e2, s2, h2, i2⟩ := fInv_rounds hm hcfg hsub hfr hb o hsel' gauge n _ _ _ i1
  simp only [Nat.zero_add] at i2
  obtain ⟨H, hH, hH', hMd⟩ := hM
  obtain ⟨c3, s3, h3, he3, ho3, t3⟩ := hMd.2 _ _ i2.tracks
  have hmeas : measured (H.map Op.h ++ data.map Op.m) = data := by
    rw [measured_append, measured_map_none _ _ (by simp), measured_m]; rfl
  rw [hmeas] at t3
  have p3 : PairsOk c3 := pairsOk_of_ops hm.can.inj he3 ho3 hMd.1 (by
    intro op h
    simp only [List.mem_append, List.mem_map] at h
    rcases h with ⟨_, -, rfl⟩ | ⟨_, -, rfl⟩ <;> trivial)
  obtain ⟨c4, s4, h4, p4, hs4, T, hT, f4⟩ := finish_values hm hcfg hsub hdata (s := (s3, s2.2)) t3 p3 i2.det sel
    (fun a ha => hsub a (hsel' a ha)) reset (fun a ha => hm.sup a (hm.stabsSub a ha))
  have hTq : Quiet T := by
    obtain ⟨T', q1, q2⟩ := finishMeas_tail p3.1 h4
    rw [hT] at q2
    rw [List.append_cancel_left q2]
    exact quiet_ops q1
  obtain ⟨TS, hTS, hTSq⟩ := hTq.lift (ind nm.inds)
  have o4 := i2.even.concat p4
  obtain ⟨X, hX, ⟨W0, hX0⟩, hXf⟩ := i2.body
  refine ⟨e2.concat c4, s4, ?_, ?_, ?_⟩
  · unfold memory
    rw [if_neg (by simp)]
    have k0 : PyM.ofExcept (ancDefault [l] ancDetectors) s = (.ok sel, s) := by
      cases ancDetectors with
      | some x => rfl
      | none =>
        unfold ancDefault allAnc ancQubits
        simp only [mapExcept, hm.qAnc]
        simp [hseld]
    rw [PyM.bind_ok k0, PyM.bind_ok h0]
    have k1 : addTo e0 (fam.init l dataInit rb) (MeasState.fresh nm.inds, Detectors.State.fresh cfg) =
        (.ok (e0.concat c1), s1) := by
      unfold addTo
      rw [hfi, PyM.bind_ok h1]
      rfl
    rw [PyM.bind_ok k1]
    rw [Int.toNat_natCast, List.range_eq_range', PyM.bind_ok h2]
    unfold addTo
    have k2 : fam.meas l rb reset (some sel) s2 = (.ok c4, s4) := by
      rw [hfm]
      rw [PyM.bind_ok (show PyM.ofExcept (checkAncDetectors l (some sel)) s2 = (.ok sel, s2) by
          rw [checkAnc_ok hm hsel']; rfl)]
      rw [PyM.bind_ok (onModel_ok h3)]
      exact h4
    rw [PyM.bind_ok k2]
    rfl
  · have hops : ops (e2.concat c4) = (X ++ ((H.map Op.h ++ data.map Op.m) ++ TS)).map (Op.rename (ind nm.inds)) := by
      rw [o4.1, hT, hX, ho3, hTS]
      simp only [List.map_append]
    have hpres : Pres nm.inds.keys.toFinset (X ++ ((H.map Op.h ++ data.map Op.m) ++ TS)) (fun j => recF data (ln j)) W0 := by
      refine hX0.append (Pres.append ?_ (pres_quiet hTSq ?_))
      · have kk : ∀ o ∈ H.map Op.h ++ data.map Op.m, ∀ q ∈ o.qubits, q ∈ nm.inds.keys.toFinset :=
          fun o ho q hq => by simpa using hMd.1 o ho q hq
        refine pres_meas (fun q hq => kk (.m q) (by simp [hq]) q (by simp [Op.qubits])) hm.dataN hH
          (fun q hq => kk (.h q) (by simp [hq]) q (by simp [Op.qubits])) (fun q _ => hln.one q) ?_ hln.sub
        intro j q _
        simp only [hH' q]
      · intro q _ i j hi
        exact (hi ⟨rfl, rfl⟩).elim
    have hloud : Loud (H.map Op.h ++ data.map Op.m) := by
      intro op h
      simp only [List.mem_append, List.mem_map] at h
      rcases h with ⟨_, -, rfl⟩ | ⟨_, -, rfl⟩ <;> simp
    -- what a run with faults records
    have record : ∀ P L k, Faulty P (X ++ ((H.map Op.h ++ data.map Op.m) ++ TS)) L k → ∀ ρ (st : FState String),
        st.recs = [] → st.dets = [] → st.obs = [] → ∃ (O : String → Nat → ZMod 2) (v : String → ZMod 2),
        (∀ ln : String → ZMod 2, (recF data ln).val nm.inds.keys.toFinset (run ρ st L) = (data.map fun d => ln d * v d).sum) ∧
        (run ρ st L).dets.reverse = (List.range n).flatMap (roundChange cfg.anc anc reset (roundSel o stabs sel gauge) O) ++
          ((cfg.anc.filter (· ∈ stabs)).map fun a => if a ∈ sel ∧ a ∈ anc then
            ((l.getNeighbors [a] none).map v).sum + (if 1 ≤ n then O a (n - 1) else 0) +
              (if reset = false ∧ 2 ≤ n then O a (n - 2) else 0) else 0) ∧
        (run ρ st L).obs.reverse = [(0, (log.map v).sum)] := by
      intro P L k hf ρ st g1 g2 g3
      obtain ⟨L1, L', k1, k', P', rfl, rfl, hf1, hf'⟩ := hf.append
      obtain ⟨L2, L3, k2, k3, P'', rfl, rfl, hf2, hf3⟩ := hf'.append
      obtain ⟨O, j1, j2, j3, j4⟩ := hXf P L1 k1 hf1 ρ st g1 g2 g3
      obtain ⟨⟨vv, q1, q2⟩, q3, q4⟩ := hf2.records hloud ρ (run ρ st L1)
      rw [hmeas] at q1
      obtain ⟨v, rfl⟩ := exists_outcomes hm.dataN vv q1
      obtain ⟨w1, w2, w3⟩ := hTSq.values hf3 (ind nm.inds) ρ (run ρ (run ρ st L1) L2)
      rw [← hTS, f4 ρ _ v (run ρ st L1).recs q2 j1] at w2 w3
      simp only [run_append]
      refine ⟨O, v, fun ln => val_recF data ln _ v (run ρ st L1).recs (by rw [w1]; exact q2), ?_, ?_⟩
      · rw [w2]
        simp only
        rw [q3, j4, List.reverse_append, List.reverse_reverse, List.reverse_reverse]
        congr 1
        refine List.map_congr_left fun a ha => ?_
        by_cases h : a ∈ sel ∧ a ∈ anc
        · rw [if_pos h, if_pos h]
          have gd : ∀ k, k < n → (((List.range n).map (O a)).reverse).getD k 0 = O a (n - 1 - k) := by
            intro k hk
            rw [List.getD_eq_getElem?_getD, List.getElem?_reverse (by simpa using hk)]
            simp only [List.length_map, List.length_range, List.getElem?_map]
            rw [List.getElem?_range (by omega)]
            rfl
          rw [j3 a h.2]
          congr 1
          · congr 1
            split
            · rw [gd 0 (by omega)]; rfl
            · rfl
          · split
            · rw [gd 1 (by omega)]; congr 1
            · rfl
        · rw [if_neg h, if_neg h]
      · rw [w3]
        simp only
        rw [q4, j2]
        rfl
    refine detects_of_record (cfg := cfg) hm hsub hops hln hpres (fun a ha t => ?_) hsel2 record
    unfold roundSel
    split
    · exact mem_first.2 ⟨hsel2 a ha, ha⟩
    · exact hsel2 a ha
  · intro S hS hSd hSs hSl
    have inj : ∀ a b, a ∈ nm.inds.keys → b ∈ nm.inds.keys → ind nm.inds a = ind nm.inds b → a = b :=
      fun a b ha hb => hm.can.inj a ha b hb
    have hk3 := hMd.1
    have hkd : ∀ q ∈ data, q ∈ nm.inds.keys := fun q hq => hk3 (.m q) (by simp [hq]) q (by simp [Op.qubits])
    have hkH : ∀ q ∈ H, q ∈ nm.inds.keys := fun q hq => hk3 (.h q) (by simp [hq]) q (by simp [Op.qubits])
    refine unseen_of (A := (X ++ H.map Op.h).map (Op.rename (ind nm.inds))) (T := T) (ι := ind nm.inds) (data := data)
      (log := log) (N := (histOf anc n).length)
      (G := fun recs0 v => ((cfg.anc.filter (· ∈ stabs)).map fun a => if a ∈ sel ∧ a ∈ anc then
            ((l.getNeighbors [a] none).map v).sum + (if 1 ≤ n then (outs (histOf anc n) recs0 a).getD 0 0 else 0) +
              (if reset = false ∧ 2 ≤ n then (outs (histOf anc n) recs0 a).getD 1 0 else 0) else 0).reverse)
      ?_ (fun a ha b hb => inj a b (hkd a ha) (hkd b hb)) hm.dataN hS hSd ?_ ?_ ?_ hSl
    · rw [o4.1, hT, hX, ho3]
      simp only [List.map_append, List.map_map, List.append_assoc]
      rfl
    · intro ρ st v recs0 g1 g2
      rw [f4 ρ st v recs0 g1 g2]
      exact ⟨rfl, rfl⟩
    · intro ρ ζ
      have hap := agree_pullback (ind nm.inds) (· ∈ nm.inds.keys) (FState.start ζ)
      have hkX : ∀ o ∈ X ++ H.map Op.h, ∀ q ∈ o.qubits, q ∈ nm.inds.keys := by
        intro o ho q hq
        rcases List.mem_append.1 ho with ho | ho
        · simpa using hX0.known o ho q hq
        · obtain ⟨q', hq', rfl⟩ := List.mem_map.1 ho
          simp only [Op.qubits, List.mem_singleton] at hq
          rw [hq]; exact hkH q' hq'
      have a2 := hap.run inj ρ _ hkX
      obtain ⟨O, j1, -⟩ := hXf _ _ _ (Spec.Faulty.noFaults (fun _ _ => False) X) ρ (pullback (ind nm.inds) (FState.start ζ)) rfl rfl rfl
      rw [a2.recs, run_append, run_h _ _ hH]
      exact j1
    · intro recs0 v
      congr 1
      refine List.map_congr_left fun a ha => ?_
      have hast : a ∈ stabs := by simpa using (List.mem_filter.1 ha).2
      have hs : ((l.getNeighbors [a] none).map fun q => v q + if q ∈ S then 1 else 0).sum =
          ((l.getNeighbors [a] none).map v).sum := by
        rw [sum_add_map, hSs a hast, add_zero]
      rw [hs]

end SurfaceSim
