import Verif.Lemmas.DetInv

namespace SurfaceSim
open Spec Detectors
variable {cfg : Config}

theorem mod2_gateProd_append (gs : List (cfg.Mat Int)) (M : cfg.Mat Int) :
    mod2 (gs.foldl (fun M U => U * M) M) = mod2 (gateProd gs) * mod2 M := by
  unfold gateProd
  induction gs generalizing M with
  | nil => simp [mod2_one]
  | cons U gs ih =>
    simp only [List.foldl_cons]
    rw [ih, ih (U * 1), mod2_mul, mod2_mul, mod2_one, mul_one, mul_assoc]

theorem gateProd_cons (U : cfg.Mat Int) (gs : List (cfg.Mat Int)) :
    mod2 (gateProd (U :: gs)) = mod2 (gateProd gs) * mod2 U := by
  have h := mod2_gateProd_append gs (U * 1)
  rw [show mod2 (U * 1) = mod2 U from by rw [mul_one]] at h
  exact h

theorem gateProd_det (gs : List (cfg.Mat Int)) (h : ∀ U ∈ gs, GateOk U) : (mod2 (gateProd gs)).det ≠ 0 := by
  induction gs with
  | nil => simp [gateProd, mod2_one]
  | cons U gs ih =>
    rw [gateProd_cons, Matrix.det_mul, zmod2_ne_zero (ih fun U hU => h U (by simp [hU])),
      zmod2_ne_zero (h U (by simp)).2]
    decide

theorem mod2_genAt_succ (gates : Nat → List (cfg.Mat Int)) (r : Nat) :
    mod2 (genAt gates (r + 1)) = mod2 (gateProd (gates (r + 1))) * mod2 (genAt gates r) := by
  simp only [genAt]
  rw [mod2_emod, mod2_mul]

theorem genAt_det (gates : Nat → List (cfg.Mat Int)) (h : ∀ r, ∀ U ∈ gates r, GateOk U) (r : Nat) :
    (mod2 (genAt gates r)).det ≠ 0 := by
  induction r with
  | zero => simp only [genAt]; rw [mod2_emod]; exact gateProd_det _ (h 0)
  | succ r ih =>
    rw [mod2_genAt_succ, Matrix.det_mul, zmod2_ne_zero ih, zmod2_ne_zero (gateProd_det _ (h (r + 1)))]
    decide

/-- A matrix of bits. -/
def IsBits (M : cfg.Mat Int) : Prop := ∀ a b, M a b = 0 ∨ M a b = 1

theorem bits_eq_of_mod2 {A B : cfg.Mat Int} (hA : IsBits A) (hB : IsBits B) (h : mod2 A = mod2 B) : A = B := by
  funext a b
  have := congrFun (congrFun h a) b
  simp only [mod2, Matrix.map_apply] at this
  rcases hA a b with h1 | h1 <;> rcases hB a b with h2 | h2 <;> rw [h1, h2] <;> rw [h1, h2] at this <;>
    revert this <;> decide

theorem isBits_emod (M : cfg.Mat Int) : IsBits (M.map (· % 2)) := by
  intro a b
  simp only [Matrix.map_apply]
  omega

theorem isBits_genAt (gates : Nat → List (cfg.Mat Int)) (r : Nat) : IsBits (genAt gates r) := by
  cases r with
  | zero => exact isBits_emod _
  | succ r => exact isBits_emod _

theorem isBits_one : IsBits (1 : cfg.Mat Int) := by
  intro a b
  by_cases h : a = b
  · subst h; right; simp
  · left; exact Matrix.one_apply_ne h

theorem update_ok (U : cfg.Mat Int) (hU : GateOk U) (s : State cfg) :
    update (List.finRange cfg.n) U s =
      (.ok (), { s with curr := (U * s.curr).map (· % 2), order := List.finRange cfg.n }) := by
  unfold update
  rw [if_neg, if_neg, if_neg]
  · exact hU.2
  · simp only [List.any_eq_true, List.mem_finRange, true_and, decide_eq_true_eq, not_exists, not_and]
    intro a b h0 h1
    rcases hU.1 a b with h | h <;> contradiction
  · simp

/-- Declaring gates. -/
theorem declare_eq (gs : List (cfg.Mat Int)) (hgs : ∀ U ∈ gs, GateOk U) (s : State cfg)
    (ho : s.order = List.finRange cfg.n) (hb : IsBits s.curr) :
    (declare gs s).prev = s.prev ∧ (declare gs s).active = s.active ∧ (declare gs s).rounds = s.rounds ∧
    (declare gs s).total = s.total ∧ (declare gs s).order = s.order ∧
    (declare gs s).curr = (gateProd gs * s.curr).map (· % 2) := by
  induction gs generalizing s with
  | nil =>
    refine ⟨rfl, rfl, rfl, rfl, rfl, ?_⟩
    apply bits_eq_of_mod2 hb (isBits_emod _)
    rw [mod2_emod, mod2_mul]
    simp [gateProd, mod2_one, declare]
  | cons U gs ih =>
    have hU := update_ok U (hgs U (by simp)) s
    have e : declare (U :: gs) s =
        declare gs { s with curr := (U * s.curr).map (· % 2), order := List.finRange cfg.n } := by
      simp only [declare, List.foldl_cons, Call.exec, hU]
    rw [e]
    obtain ⟨h1, h2, h3, h4, h5, h6⟩ := ih (fun U hU => hgs U (by simp [hU]))
      { s with curr := (U * s.curr).map (· % 2), order := List.finRange cfg.n } rfl (isBits_emod _)
    refine ⟨h1, h2, h3, h4, h5.trans ho.symm, ?_⟩
    rw [h6]
    apply bits_eq_of_mod2 (isBits_emod _) (isBits_emod _)
    rw [mod2_emod, mod2_emod, mod2_mul, mod2_mul, mod2_emod, mod2_mul, gateProd_cons, mul_assoc]

theorem label_mem (i : Fin cfg.n) : cfg.label i ∈ cfg.anc := List.get_mem _ _

/-- Activation of all ancillas of a new object. -/
theorem activate_all (hn : cfg.anc.Nodup) :
    let s := afterHistory [Call.activate (cfg := cfg) cfg.anc]
    DetWF s ∧ (∀ i, isActive s (cfg.label i) = true) ∧ (∀ i, nrOf s.rounds (cfg.label i) = 0) ∧
    s.prev = 1 ∧ s.curr = 1 ∧ s.order = List.finRange cfg.n ∧ s.total = 0 := by
  have hwf : DetWF (afterHistory [Call.activate (cfg := cfg) cfg.anc]) :=
    afterHistory_inv _ (by simp [Call.Valid])
  have hok : ∀ (l : List String) (s : State cfg), l.Nodup → (∀ a ∈ l, s.active.get? a = some false) →
      (PyM.forEach l (activateOne (cfg := cfg)) s).1.isOk = true := by
    intro l
    induction l with
    | nil => intro s _ _; rfl
    | cons a l ih =>
      intro s hnd h
      simp only [PyM.forEach, PyM.bind]
      have ha := h a (by simp)
      simp only [activateOne, ha]
      refine ih _ (List.nodup_cons.1 hnd).2 fun b hb => ?_
      simp only
      rw [Dict.get?_set_ne]
      · exact h b (by simp [hb])
      · rintro rfl; exact (List.nodup_cons.1 hnd).1 hb
  have hfalse : ∀ a ∈ cfg.anc, (State.fresh cfg).active.get? a = some false := by
    intro a ha
    unfold State.fresh
    simp only
    generalize cfg.anc = l at ha
    induction l with
    | nil => simp at ha
    | cons b l ih =>
      simp only [List.map_cons, Dict.get?_cons]
      split
      · rfl
      · rename_i hb
        apply ih
        rcases List.mem_cons.1 ha with rfl | h
        · exact absurd rfl hb
        · exact h
  have hss : NoiseModel.strictSuperset cfg.anc (State.fresh cfg).active.keys = false := by
    rw [(detWF_fresh cfg).active]
    simp [NoiseModel.strictSuperset]
  have h1 := hok cfg.anc (State.fresh cfg) hn hfalse
  have e : afterHistory [Call.activate (cfg := cfg) cfg.anc] =
      (PyM.forEach cfg.anc (activateOne (cfg := cfg)) (State.fresh cfg)).2 := by
    simp [afterHistory, Call.exec, activate, hss]
  obtain ⟨h2, h3, h4, h5, h6, h7⟩ := forEach_activate cfg.anc _ (detWF_fresh cfg) h1
  simp only
  refine ⟨hwf, ?_, ?_, ?_, ?_, ?_, ?_⟩ <;> rw [e]
  · intro i; rw [h2]; simp [label_mem]
  · intro i; rw [h3]; simp [label_mem]
  · exact h4
  · exact h5
  · exact h6
  · exact h7

theorem mulInv_exists (A B : cfg.Mat Int) (hB : (mod2 B).det ≠ 0) : ∃ C, mulInv A B = .ok C := by
  unfold mulInv
  simp only
  rw [if_neg (rat_det_ne_zero B hB)]
  exact ⟨_, rfl⟩

/-- State before round `r`. -/
structure RoundState (gates : Nat → List (cfg.Mat Int)) (r : Nat) (s : State cfg) : Prop where
  wf : DetWF s
  active : ∀ i, isActive s (cfg.label i) = true
  rounds : ∀ i, nrOf s.rounds (cfg.label i) = r
  curr : s.curr = genAt gates r
  prev : s.prev = match r with | 0 => 1 | r + 1 => genAt gates r
  order : s.order = List.finRange cfg.n
  total : s.total = r

theorem declare_wf (gs : List (cfg.Mat Int)) (s : State cfg) (h : DetWF s) : DetWF (declare gs s) := by
  unfold declare
  induction gs generalizing s with
  | nil => exact h
  | cons U gs ih =>
    exact ih _ (exec_inv (.update (List.finRange cfg.n) U) (List.nodup_finRange _) s h)

theorem basis_det (gates : Nat → List (cfg.Mat Int)) (hg : ∀ r, ∀ U ∈ gates r, GateOk U) (r : Nat)
    (s : State cfg) (h : RoundState gates r s) : (mod2 (basisOf cfg s)).det ≠ 0 := by
  unfold basisOf
  have h1 : (mod2 s.curr).det ≠ 0 := by rw [h.curr]; exact genAt_det gates hg r
  have h2 : (mod2 s.prev).det ≠ 0 := by
    rw [h.prev]
    cases r with
    | zero => simp [mod2_one]
    | succ r => exact genAt_det gates hg r
  split
  · exact h1
  · exact h2
  · simp [mod2_one]

/-- The detectors of a round, in the frames that use the generators. -/
theorem round_build (hcfg : ConfigOk cfg) (hf : cfg.frame ≠ .gateIndependent)
    (gates : Nat → List (cfg.Mat Int)) (hg : ∀ r, ∀ U ∈ gates r, GateOk U)
    (getRec : Nat → String → Int → Except Err Int) (v : Nat → Int → ZMod 2) (reset : Bool)
    (syn : Nat → Fin cfg.n → ZMod 2) (hrec : FindsOutcomes getRec v reset syn)
    (ancs : Option (List String)) (hs : SelOk cfg ancs) (r : Nat) (s : State cfg)
    (h : RoundState gates r s) :
    ∃ C P, mulInv s.curr (basisOf cfg s) = .ok C ∧ mulInv s.prev (basisOf cfg s) = .ok P ∧
    buildFromAnc (getRec r) reset ancs s =
      (.ok ((frameTargets s C P reset).map
        (detInstr cfg (getRec r) (selList s ancs) ((s.total : Rat)))), afterBuild s) := by
  have hb := basis_det gates hg r s h
  obtain ⟨C, hC⟩ := mulInv_exists s.curr (basisOf cfg s) hb
  obtain ⟨P, hP⟩ := mulInv_exists s.prev (basisOf cfg s) hb
  refine ⟨C, P, hC, hP, buildFromAnc_frame hcfg s h.wf (getRec r) reset ancs hs hf C P hC hP ?_⟩
  intro i _ hact j k hk1 hk3 hk
  rw [nrOf_bumped s _ h.wf (label_mem i), hact, h.rounds] at hk
  simp only [if_true] at hk
  obtain ⟨j', h1, -⟩ := hrec r j k hk1 hk3 (by omega)
  exact ⟨j', h1⟩

theorem roundState (hcfg : ConfigOk cfg) (hf : cfg.frame ≠ .gateIndependent)
    (gates : Nat → List (cfg.Mat Int)) (hg : ∀ r, ∀ U ∈ gates r, GateOk U)
    (getRec : Nat → String → Int → Except Err Int) (v : Nat → Int → ZMod 2) (reset : Bool)
    (syn : Nat → Fin cfg.n → ZMod 2) (hrec : FindsOutcomes getRec v reset syn)
    (ancs : Nat → Option (List String)) (hs : ∀ r, SelOk cfg (ancs r)) (r : Nat) :
    RoundState gates r (beforeRound gates getRec reset ancs r) := by
  induction r with
  | zero =>
    obtain ⟨h1, h2, h3, h4, h5, h6, h7⟩ := activate_all hcfg.1
    simp only [beforeRound]
    obtain ⟨d1, d2, d3, d4, d5, d6⟩ := declare_eq (gates 0) (hg 0)
      (afterHistory [Call.activate (cfg := cfg) cfg.anc]) h6 (by rw [h5]; exact isBits_one)
    refine ⟨declare_wf _ _ h1, ?_, ?_, ?_, ?_, ?_, ?_⟩
    · intro i; rw [isActive, d2]; exact h2 i
    · intro i; rw [d3]; exact h3 i
    · rw [d6, h5, mul_one]; rfl
    · rw [d1, h4]
    · rw [d5, h6]
    · rw [d4, h7]
  | succ r ih =>
    obtain ⟨C, P, -, -, hb⟩ := round_build hcfg hf gates hg getRec v reset syn hrec (ancs r) (hs r) r _ ih
    simp only [beforeRound]
    have e : (Call.exec (beforeRound gates getRec reset ancs r)
        (Call.buildFromAnc (getRec r) reset (ancs r))).2 =
        afterBuild (beforeRound gates getRec reset ancs r) := by
      simp only [Call.exec, hb]
    rw [e]
    obtain ⟨d1, d2, d3, d4, d5, d6⟩ := declare_eq (gates (r + 1)) (hg (r + 1))
      (afterBuild (beforeRound gates getRec reset ancs r)) ih.order
      (by show IsBits (beforeRound gates getRec reset ancs r).curr; rw [ih.curr]; exact isBits_genAt gates r)
    have hwf : DetWF (afterBuild (beforeRound gates getRec reset ancs r)) :=
      ⟨ih.wf.active, bumped_keys _ ih.wf, ih.wf.order⟩
    refine ⟨declare_wf _ _ hwf, ?_, ?_, ?_, ?_, ?_, ?_⟩
    · intro i; rw [isActive, d2]; exact ih.active i
    · intro i
      rw [d3]
      show nrOf (bumped _) _ = _
      rw [nrOf_bumped _ _ ih.wf (label_mem i), ih.active i, ih.rounds i]
      rfl
    · rw [d6]
      show (gateProd (gates (r + 1)) * (beforeRound gates getRec reset ancs r).curr).map (· % 2) = _
      rw [ih.curr]; rfl
    · rw [d1]; exact ih.curr
    · rw [d5]; exact ih.order
    · rw [d4]; show (beforeRound gates getRec reset ancs r).total + 1 = _; rw [ih.total]

/-- Exact value of a detector of round `r + 1`. -/
theorem round_value (gates : Nat → List (cfg.Mat Int))
    (getRec : Nat → String → Int → Except Err Int) (v : Nat → Int → ZMod 2) (reset : Bool)
    (syn : Nat → Fin cfg.n → ZMod 2) (hrec : FindsOutcomes getRec v reset syn) (r : Nat)
    (s : State cfg) (h : RoundState gates (r + 1) s) (C P : cfg.Mat Rat) (i : Fin cfg.n) :
    ((ancTargets s.order (C i) (P i) (nrOf (bumped s) (cfg.label i)) reset reset).map
      fun t => v (r + 1) (recOf (getRec (r + 1)) t)).sum =
    (∑ j, if C i j ≠ 0 then syn (r + 1) j else 0) + ∑ j, if P i j ≠ 0 then syn r j else 0 := by
  have hnr : nrOf (bumped s) (cfg.label i) = r + 2 := by
    rw [nrOf_bumped s _ h.wf (label_mem i), h.active, h.rounds]; rfl
  have hv : ∀ (j : Fin cfg.n) (k : Nat), 1 ≤ k → k ≤ 3 → k ≤ r + 2 →
      v (r + 1) (recOf (getRec (r + 1)) (cfg.label j, -(k : Int))) = outcome reset syn j (r + 2 - k) := by
    intro j k h1 h2 h3
    obtain ⟨x, hx, hx'⟩ := hrec (r + 1) j k h1 h2 (by omega)
    rw [recOf, hx]
    exact hx'
  rw [ancTargets_sum s.order (by rw [h.order]), hnr, if_pos (by omega)]
  congr 1
  · refine Finset.sum_congr rfl fun j _ => ?_
    split
    · have e1 := hv j 1 (by omega) (by omega) (by omega)
      have e2 := hv j 2 (by omega) (by omega) (by omega)
      simp only [Nat.cast_one, Nat.cast_ofNat] at e1 e2
      rw [e1, e2]
      rw [show r + 2 - 1 = r + 1 from by omega, show r + 2 - 2 = r from by omega]
      cases reset with
      | true => simp [outcome]
      | false =>
        simp only [outcome, Bool.false_eq_true, if_false, true_and]
        rw [if_pos (by omega), add_assoc, CharTwo.add_self_eq_zero, add_zero]
    · rfl
  · refine Finset.sum_congr rfl fun j _ => ?_
    split
    · have e2 := hv j 2 (by omega) (by omega) (by omega)
      simp only [Nat.cast_ofNat] at e2
      rw [e2, show r + 2 - 2 = r from by omega]
      cases reset with
      | true => cases r <;> simp [outcome]
      | false =>
        cases r with
        | zero => simp [outcome]
        | succ r =>
          have e3 := hv j 3 (by omega) (by omega) (by omega)
          simp only [Nat.cast_ofNat] at e3
          rw [e3, show r + 1 + 2 - 3 = r from by omega]
          simp only [outcome, Bool.false_eq_true, if_false, true_and]
          rw [if_pos (by omega), add_assoc, CharTwo.add_self_eq_zero, add_zero]
    · rfl

end SurfaceSim
