/-
Experiments with logical gates and faults: the last measurement.
-/
import Verif.Lemmas.FaultsGate

namespace SurfaceSim
open Spec NoiseModel Blocks Experiments

variable {nm : NoiseModel} {cfg : Detectors.Config} {I J : Type} {anc data T : List String} {U : cfg.Mat Int}

/-- Only Hadamard gates and measurements. -/
def OnlyHM {Q : Type} (M : List (Op Q)) : Prop := ∀ o ∈ M, ∃ q, o = .h q ∨ o = .m q

theorem OnlyHM.rename {M : List (Op String)} (h : OnlyHM M) (ι : String → Nat) : OnlyHM (M.map (Op.rename ι)) := by
  intro o ho
  obtain ⟨o', ho', rfl⟩ := List.mem_map.1 ho
  rcases h o' ho' with ⟨q, rfl | rfl⟩
  · exact ⟨ι q, Or.inl rfl⟩
  · exact ⟨ι q, Or.inr rfl⟩

/-- Operations of which the measurements of `S` have a wrong outcome. -/
def misreadOps (S : List Nat) (M : List (Op Nat)) : List (Op Nat) := M.flatMap fun o =>
  match o with
  | .m q => if q ∈ S then [.x q, .m q, .x q] else [.m q]
  | o => [o]

theorem Misread.ops {T L : List (Op Nat)} {k : Nat} (S : List Nat) (M : List (Op Nat)) (hM : OnlyHM M) (h : Misread T L k) :
    Misread (M ++ T) (misreadOps S M ++ L) ((measured M).countP (fun q => decide (q ∈ S)) + k) := by
  induction M with
  | nil => simpa [misreadOps, measured] using h
  | cons o M ih =>
    replace ih := ih fun o ho => hM o (by simp [ho])
    unfold misreadOps at ih ⊢
    rw [List.flatMap_cons, List.append_assoc, List.cons_append]
    rcases hM o (by simp) with ⟨q, rfl | rfl⟩
    · exact .keep _ ih
    · have hm : measured (Op.m q :: M) = q :: measured M := rfl
      rw [hm]
      by_cases hq : q ∈ S
      · simp only [if_pos hq]
        rw [List.countP_cons_of_pos (by simpa using hq), Nat.add_right_comm]
        exact .wrong q ih
      · simp only [if_neg hq]
        rw [List.countP_cons_of_neg (by simpa using hq)]
        exact .keep _ ih

theorem run_misreadOps (ρ : Nat → ZMod 2) (S : List Nat) (M : List (Op Nat)) (hM : OnlyHM M) (st st' : FState Nat)
    (hx : st'.x = st.x) (hz : st'.z = st.z) (hr : st'.rnd = st.rnd) :
    (run ρ st' (misreadOps S M)).dets = st'.dets ∧ (run ρ st' (misreadOps S M)).obs = st'.obs ∧
      (run ρ st M).dets = st.dets ∧ (run ρ st M).obs = st.obs ∧
      ∃ vs : List (ZMod 2), vs.length = (measured M).length ∧ (run ρ st M).recs = vs.reverse ++ st.recs ∧
        (run ρ st' (misreadOps S M)).recs =
          ((vs.zip (measured M)).map fun p => p.1 + if p.2 ∈ S then 1 else 0).reverse ++ st'.recs := by
  induction M generalizing st st' with
  | nil => exact ⟨rfl, rfl, rfl, rfl, [], rfl, rfl, rfl⟩
  | cons o M ih =>
    replace ih := ih fun o ho => hM o (by simp [ho])
    unfold misreadOps at ih ⊢
    rw [List.flatMap_cons, run_append]
    rcases hM o (by simp) with ⟨q, rfl | rfl⟩
    · obtain ⟨h1, h2, h3, h4, vs, h5, h6, h7⟩ := ih (step ρ st (.h q)) (step ρ st' (.h q))
        (by simp only [step]; rw [hx, hz]) (by simp only [step]; rw [hx, hz]) hr
      exact ⟨h1, h2, h3, h4, vs, h5, h6, h7⟩
    · set st1 := run ρ st' (if q ∈ S then [.x q, .m q, .x q] else [.m q]) with hst1
      have e1 : st1.x = (step ρ st (.m q)).x := by
        rw [hst1]
        split
        · simp only [run_cons, run_nil, step, Function.update_self, Function.update_idem]
          rw [add_assoc, show (1 : ZMod 2) + 1 = 0 by decide, add_zero, Function.update_eq_self, hx]
        · exact hx
      have e2 : st1.z = (step ρ st (.m q)).z := by
        rw [hst1]
        split <;> simp only [run_cons, run_nil, step, hz, hr]
      have e3 : st1.rnd = (step ρ st (.m q)).rnd := by
        rw [hst1]
        split <;> simp only [run_cons, run_nil, step, hr]
      have e4 : st1.dets = st'.dets ∧ st1.obs = st'.obs := by
        rw [hst1]
        split <;> exact ⟨rfl, rfl⟩
      have e5 : st1.recs = (st.x q + if q ∈ S then 1 else 0) :: st'.recs := by
        rw [hst1]
        split <;> simp [run_cons, step, hx]
      obtain ⟨h1, h2, h3, h4, vs, h5, h6, h7⟩ := ih (step ρ st (.m q)) st1 e1 e2 e3
      refine ⟨h1.trans e4.1, h2.trans e4.2, h3, h4, st.x q :: vs, ?_, ?_, ?_⟩
      · show _ = (q :: measured M).length
        simp [h5]
      · rw [run_cons, h6]
        simp [step]
      · show _ = (((st.x q :: vs).zip (q :: measured M)).map _).reverse ++ _
        rw [h7, e5]
        simp

open Classical in
/-- Fewer faults than lines change the observables only if a detector reports them. -/
theorem detects_core [Fintype J] {A : Finset String} {W : I → J → Func String}
    (inj : ∀ a b, a ∈ nm.inds.keys → b ∈ nm.inds.keys → ind nm.inds a = ind nm.inds b → a = b)
    (hA : ∀ q ∈ A, q ∈ nm.inds.keys)
    {c : Circuit} {X M TT : List (Op String)} (hops : ops c = (X ++ (M ++ TT)).map (Op.rename (ind nm.inds)))
    (hX0 : ∀ i, ∃ W0, Pres A X (W i) W0) {H : List String}
    (hXf : ∀ P L k, Faulty P X L k → ∀ ρ (st : FState String), st.recs = [] → st.obs = [] →
      (run ρ st L).recs.length = H.length ∧ (run ρ st L).obs = [])
    (hXr : ∀ P L k P' L' k', Faulty P X L k → Faulty P' X L' k' → ∀ ρ (st : FState String), st.recs = [] → st.obs = [] →
      (run ρ st L).dets.length = (run ρ st L').dets.length ∧ ((run ρ st L).dets = (run ρ st L').dets →
        ∀ q ∈ T, outs H (run ρ st L).recs q = outs H (run ρ st L').recs q))
    (hloud : Loud M) (hmeas : measured M = data) (dataN : data.Nodup) (hTq : Quiet TT)
    {G : List (ZMod 2) → (String → ZMod 2) → List (ZMod 2)} {O : (String → ZMod 2) → List (Rat × ZMod 2)}
    (tail : ∀ ρ (st : FState Nat) v recs0, st.recs = (data.map v).reverse ++ recs0 → recs0.length = H.length →
      (run ρ st (TT.map (Op.rename (ind nm.inds)))).dets = G recs0 v ++ st.dets ∧
        (run ρ st (TT.map (Op.rename (ind nm.inds)))).obs = O v ++ st.obs)
    (idx : List I) (ln : I → J → String → ZMod 2)
    (hM : ∀ i ∈ idx, Pres A M (fun j => recF data (ln i j)) (W i))
    (sees : ∀ recs recs' v v', recs.length = H.length → recs'.length = H.length →
      (∀ q ∈ T, outs H recs q = outs H recs' q) → G recs v = G recs' v' →
      (∀ i ∈ idx, ∃ j, (data.map fun d => ln i j d * v d).sum = (data.map fun d => ln i j d * v' d).sum) → O v = O v')
    (hidx : idx ≠ []) : Detects (Fintype.card J) c := by
  intro L k hf hk ζ ρ hdets
  have hpres : ∀ i ∈ idx, ∃ W0, Pres A (X ++ (M ++ TT)) (fun j => recF data (ln i j)) W0 := by
    intro i hi
    obtain ⟨W0, hW0⟩ := hX0 i
    exact ⟨W0, hW0.append ((hM i hi).append (pres_quiet hTq (fun q _ => fun a b ha => by
      exfalso; exact ha ⟨rfl, rfl⟩)))⟩
  obtain ⟨i0, hi0⟩ := List.exists_mem_of_ne_nil _ hidx
  obtain ⟨W0, hp0⟩ := hpres i0 hi0
  have hkeys : ∀ o ∈ X ++ (M ++ TT), ∀ q ∈ o.qubits, q ∈ nm.inds.keys := fun o ho q hq => hA q (hp0.known o ho q hq)
  have hap := agree_pullback (ind nm.inds) (· ∈ nm.inds.keys) (FState.start ζ)
  obtain ⟨LS, hLS, hag⟩ := Faulty.pull (K := (· ∈ nm.inds.keys)) inj hf _ hops hkeys (fun _ _ => False) (by simp)
  have a1 := hag ρ _ _ hap
  have a2 := hap.run inj ρ _ hkeys
  rw [← hops] at a2
  -- what a faulty run records
  have hrec : ∀ P L k, Faulty P (X ++ (M ++ TT)) L k → ∀ ρ (st : FState String), st.recs = [] → st.obs = [] →
      ∃ P1 L1 k1 v, Faulty P1 X L1 k1 ∧ (run ρ st L).recs = (data.map v).reverse ++ (run ρ st L1).recs ∧
        (run ρ st L).dets = G (run ρ st L1).recs v ++ (run ρ st L1).dets ∧ (run ρ st L).obs = O v := by
    intro P L k hfl ρ st h1 h2
    obtain ⟨L1, L', k1, k', P', rfl, rfl, hf1, hf'⟩ := hfl.append
    obtain ⟨L2, L3, k2, k3, P'', rfl, rfl, hf2, hf3⟩ := hf'.append
    obtain ⟨i1, i2⟩ := hXf P L1 k1 hf1 ρ st h1 h2
    obtain ⟨⟨v, g1, g2⟩, g3, g4⟩ := hf2.records hloud ρ (run ρ st L1)
    rw [hmeas] at g1
    obtain ⟨v, rfl⟩ := exists_outcomes dataN v g1
    obtain ⟨q1, q2, q3⟩ := hTq.values hf3 (ind nm.inds) ρ (run ρ (run ρ st L1) L2)
    obtain ⟨t1, t2⟩ := tail ρ ⟨0, 0, (run ρ (run ρ st L1) L2).recs, (run ρ (run ρ st L1) L2).dets,
      (run ρ (run ρ st L1) L2).obs, (run ρ (run ρ st L1) L2).rnd⟩ v (run ρ st L1).recs g2 i1
    simp only [run_append]
    refine ⟨P, L1, k1, v, hf1, by rw [q1, g2], ?_, ?_⟩
    · rw [q2, t1]
      simp only
      rw [g3]
    · rw [q3, t2]
      simp only
      rw [g4, i2, List.append_nil]
  set st0 := pullback (ind nm.inds) (FState.start ζ) with hst0
  obtain ⟨P1, L1, k1, v, f1, r1, r2, r3⟩ := hrec _ _ _ hLS ρ st0 rfl rfl
  obtain ⟨P1', L1', k1', v', f1', r1', r2', r3'⟩ := hrec _ _ _ (Faulty.noFaults (fun _ _ => False) _) ρ st0 rfl rfl
  have hdd : (run ρ st0 LS).dets = (run ρ st0 (X ++ (M ++ TT))).dets := by
    rw [← a1.dets, ← a2.dets]; exact List.reverse_injective hdets
  rw [r2, r2'] at hdd
  obtain ⟨l1, l2⟩ := hXr _ _ _ _ _ _ f1 f1' ρ st0 rfl rfl
  obtain ⟨d1, d2⟩ := List.append_inj' hdd l1
  unfold observables
  rw [a1.obs, a2.obs, r3, r3', sees _ _ v v' (hXf _ _ _ f1 ρ st0 rfl rfl).1 (hXf _ _ _ f1' ρ st0 rfl rfl).1 (l2 d2) d1 ?_]
  intro i hi
  obtain ⟨W0, hpres⟩ := hpres i hi
  obtain ⟨S, hS, hval⟩ := hLS.val hpres.known hpres.ok hpres.tame (by simp)
  obtain ⟨S', hS', hval'⟩ := (Faulty.noFaults (fun _ _ => False) (X ++ (M ++ TT))).val
    hpres.known hpres.ok hpres.tame (by simp)
  obtain ⟨j, hj⟩ : ∃ j, j ∉ S := by
    by_contra hno
    have : S = Finset.univ := Finset.eq_univ_iff_forall.2 fun j => by
      by_contra h'
      exact hno ⟨j, h'⟩
    rw [this, Finset.card_univ] at hS
    omega
  have hj' : j ∉ S' := by
    have : S' = ∅ := Finset.card_eq_zero.1 (by omega)
    rw [this]; simp
  have e1 := (hval j hj ρ st0).trans (hval' j hj' ρ st0).symm
  rw [val_recF data _ _ v _ r1, val_recF data _ _ v' _ r1'] at e1
  exact ⟨j, e1⟩

/-- Wrong outcomes of the last measurement that no detector sees. -/
theorem unseen_core
    (inj : ∀ a b, a ∈ nm.inds.keys → b ∈ nm.inds.keys → ind nm.inds a = ind nm.inds b → a = b)
    {c : Circuit} {X M TT : List (Op String)} (hops : ops c = (X ++ (M ++ TT)).map (Op.rename (ind nm.inds)))
    (hkX : ∀ o ∈ X, ∀ q ∈ o.qubits, q ∈ nm.inds.keys) {N : Nat}
    (hXf : ∀ P L k, Faulty P X L k → ∀ ρ (st : FState String), st.recs = [] → st.obs = [] →
      (run ρ st L).recs.length = N ∧ (run ρ st L).obs = [])
    (hM : OnlyHM M) (hmeas : measured M = data) (dataN : data.Nodup) (hkd : ∀ q ∈ data, q ∈ nm.inds.keys)
    {G : List (ZMod 2) → (String → ZMod 2) → List (ZMod 2)} {O : (String → ZMod 2) → List (Rat × ZMod 2)}
    (tail : ∀ ρ (st : FState Nat) v recs0, st.recs = (data.map v).reverse ++ recs0 → recs0.length = N →
      (run ρ st (TT.map (Op.rename (ind nm.inds)))).dets = G recs0 v ++ st.dets ∧
        (run ρ st (TT.map (Op.rename (ind nm.inds)))).obs = O v ++ st.obs)
    {S : List String} (hS : S.Nodup) (hSd : ∀ q ∈ S, q ∈ data)
    (hG : ∀ recs0 v, recs0.length = N → G recs0 (fun q => v q + if q ∈ S then 1 else 0) = G recs0 v)
    (hO : ∀ v, O (fun q => v q + if q ∈ S then 1 else 0) ≠ O v) : Unseen S.length c := by
  set ι := ind nm.inds with hι
  have hmem : ∀ q ∈ data, (ι q ∈ S.map ι ↔ q ∈ S) := by
    intro q hq
    constructor
    · intro h
      obtain ⟨q', hq', he⟩ := List.mem_map.1 h
      rwa [← inj q' q (hkd _ (hSd q' hq')) (hkd _ hq) he]
    · exact fun h => List.mem_map_of_mem h
  have hcount : (data.map ι).countP (fun q => decide (q ∈ S.map ι)) = S.length := by
    rw [List.countP_map, List.countP_eq_length_filter]
    have : data.filter ((fun q => decide (q ∈ S.map ι)) ∘ ι) = data.filter (fun q => decide (q ∈ S)) :=
      List.filter_congr fun q hq => by simp only [Function.comp_apply, hmem q hq]
    rw [this]
    refine List.Perm.length_eq ((List.perm_ext_iff_of_nodup (dataN.filter _) hS).2 fun q => ?_)
    simp only [List.mem_filter, decide_eq_true_eq]
    exact ⟨fun h => h.2, fun h => ⟨hSd q h, h⟩⟩
  have hmM : measured (M.map (Op.rename ι)) = data.map ι := by rw [measured_rename, hmeas]
  refine ⟨X.map (Op.rename ι) ++ (misreadOps (S.map ι) (M.map (Op.rename ι)) ++ TT.map (Op.rename ι)), ?_,
    fun _ => 0, fun _ => 0, ?_⟩
  · rw [hops, List.map_append, List.map_append]
    have := Misread.pass (X.map (Op.rename ι)) (Misread.ops (S.map ι) _ (hM.rename ι) (Misread.refl (TT.map (Op.rename ι))))
    rwa [hmM, hcount, add_zero] at this
  set st := run (fun _ => 0) (FState.start fun _ => 0) (X.map (Op.rename ι)) with hst
  have hN : st.recs.length = N := by
    have hap := agree_pullback ι (· ∈ nm.inds.keys) (FState.start fun _ => 0)
    have a2 := hap.run inj (fun _ => 0) _ hkX
    rw [hst, a2.recs]
    exact (hXf _ _ _ (Spec.Faulty.noFaults (fun _ _ => False) X) _ _ rfl rfl).1
  obtain ⟨h1, h2, h3, h4, vs, h5, h6, h7⟩ := run_misreadOps (fun _ => 0) (S.map ι) (M.map (Op.rename ι)) (hM.rename ι) st st
    rfl rfl rfl
  rw [hmM] at h5 h7
  obtain ⟨v, hv⟩ := exists_outcomes dataN vs.reverse (by simpa using h5)
  have hvs : vs = data.map v := List.reverse_injective hv
  subst hvs
  have h7' : (run (fun _ => 0) st (misreadOps (S.map ι) (M.map (Op.rename ι)))).recs =
      (data.map fun q => v q + if q ∈ S then 1 else 0).reverse ++ st.recs := by
    rw [h7]
    congr 2
    rw [List.zip_map', List.map_map]
    exact List.map_congr_left fun q hq => by simp only [Function.comp_apply, hmem q hq]
  obtain ⟨t1, t2⟩ := tail (fun _ => 0) _ v st.recs h6 hN
  obtain ⟨t3, t4⟩ := tail (fun _ => 0) _ _ st.recs h7' hN
  unfold detectors observables
  rw [hops, List.map_append, List.map_append]
  simp only [run_append, ← hst]
  rw [t1, t2, t3, t4, h1, h2, h3, h4, hG _ _ hN]
  refine ⟨rfl, fun he => hO v ?_⟩
  exact List.append_cancel_right (List.reverse_injective he)

end SurfaceSim
