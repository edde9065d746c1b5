import Verif.Lemmas.DetHistory

namespace SurfaceSim
open Spec Detectors
variable {cfg : Config}

theorem det_isolateAll (l : List String) (M : cfg.Mat Int) (hd : Decoupled l M) (hM : (mod2 M).det ≠ 0) :
    (mod2 (isolateAll l M)).det ≠ 0 := by
  have key : ∀ N : cfg.Mat (ZMod 2),
      ((∀ i, ¬ (cfg.label i ∉ l) → ∀ j, (cfg.label j ∉ l) → N i j = 0) ∨
       (∀ i, (cfg.label i ∉ l) → ∀ j, ¬ (cfg.label j ∉ l) → N i j = 0)) →
      N.det = (Matrix.toSquareBlockProp N fun i => cfg.label i ∉ l).det *
        (Matrix.toSquareBlockProp N fun i => ¬ (cfg.label i ∉ l)).det := by
    intro N h
    rcases h with h | h
    · exact Matrix.twoBlockTriangular_det N _ h
    · exact Matrix.twoBlockTriangular_det' N _ h
  have h1 := key (mod2 M) (by
    rcases hd with hd | hd
    · exact Or.inl fun i hi j hj => by simp [mod2, hd i j (not_not.1 hi) hj]
    · exact Or.inr fun i hi j hj => by simp [mod2, hd i j hi (not_not.1 hj)])
  have h2 := key (mod2 (isolateAll l M)) (Or.inl fun i hi j hj => by
    have hij : i ≠ j := by rintro rfl; exact hi hj
    simp [mod2, isolateAll, not_not.1 hi, hij])
  rw [h2]
  have e1 : Matrix.toSquareBlockProp (mod2 (isolateAll l M)) (fun i => cfg.label i ∉ l) =
      Matrix.toSquareBlockProp (mod2 M) (fun i => cfg.label i ∉ l) := by
    ext ⟨i, hi⟩ ⟨j, hj⟩
    simp [Matrix.toSquareBlockProp, mod2, isolateAll, hi, hj]
  have e2 : Matrix.toSquareBlockProp (mod2 (isolateAll l M)) (fun i => ¬ (cfg.label i ∉ l)) = 1 := by
    ext ⟨i, hi⟩ ⟨j, hj⟩
    simp only [Matrix.toSquareBlockProp, mod2, Matrix.toSquareBlockProp_def, Matrix.of_apply,
      Matrix.map_apply, Matrix.one_apply, Subtype.mk.injEq]
    split <;> rename_i hij <;> simp [isolateAll, not_not.1 hi, not_not.1 hj, hij]
  rw [e1, e2, Matrix.det_one, mul_one]
  intro h0
  rw [h0, zero_mul] at h1
  exact hM h1

/-- Both generator matrices are invertible mod 2. -/
def Invertible2 (s : State cfg) : Prop := (mod2 s.curr).det ≠ 0 ∧ (mod2 s.prev).det ≠ 0

theorem invertible_update (rows : List (Fin cfg.n)) (U : cfg.Mat Int) (s : State cfg) (h : Invertible2 s) :
    Invertible2 (update rows U s).2 := by
  rcases update_cases rows U s with ⟨e, he⟩ | ⟨hU, he⟩
  · rw [he]; exact h
  · rw [he]
    refine ⟨?_, h.2⟩
    simp only
    rw [mod2_emod, mod2_mul, Matrix.det_mul]
    have h1 := zmod2_ne_zero h.1
    have h2 : (mod2 U).det = 1 := zmod2_ne_zero hU
    rw [h1, h2]
    decide

theorem forEach_activate_mats (l : List String) (s : State cfg) :
    (PyM.forEach l (activateOne (cfg := cfg)) s).2.curr = s.curr ∧
    (PyM.forEach l (activateOne (cfg := cfg)) s).2.prev = s.prev := by
  refine forEach_inv (fun t => t.curr = s.curr ∧ t.prev = s.prev) _ ?_ l s ⟨rfl, rfl⟩
  intro a t ht
  unfold activateOne
  split <;> exact ht

theorem invertible_exec (hn : cfg.anc.Nodup) (c : Call cfg) (s : State cfg) (hwf : DetWF s)
    (hc : c.CleanDeactivation s) (h : Invertible2 s) : Invertible2 (c.exec s).2 := by
  cases c with
  | newCircuit =>
    simp only [Call.exec, newCircuit, PyM.put_apply]
    constructor <;> simp [State.fresh, mod2_one]
  | activate l =>
    simp only [Call.exec, activate]
    split
    · exact h
    · obtain ⟨h1, h2⟩ := forEach_activate_mats l s
      unfold Invertible2
      rw [h1, h2]
      exact h
  | deactivate l =>
    obtain ⟨hok, hd1, hd2⟩ := hc
    simp only [Call.exec, deactivate] at hok ⊢
    split
    · exact h
    · rename_i hss
      rw [if_neg hss] at hok
      obtain ⟨-, -, h3, h4, -, -⟩ := forEach_deactivate hn l s hwf hok
      unfold Invertible2
      rw [h3, h4]
      exact ⟨det_isolateAll l _ hd1 h.1, det_isolateAll l _ hd2 h.2⟩
  | update rows U => exact invertible_update rows U s h
  | updateFromDict d =>
    simp only [Call.exec]
    rcases updateFromDict_cases d s with ⟨e, he⟩ | ⟨U, _, he⟩
    · rw [he]; exact h
    · rw [he]; exact invertible_update _ U s h
  | buildFromAnc g r l =>
    obtain ⟨h1, h2⟩ := buildFromAnc_mats s g r l
    simp only [Call.exec]
    unfold Invertible2
    rw [h1]
    rcases h2 with h2 | h2 <;> rw [h2]
    · exact h
    · exact ⟨h.1, h.1⟩
  | buildFromData g sup r st l =>
    obtain ⟨h1, h2⟩ := buildFromData_mats s g sup r st l
    simp only [Call.exec]
    unfold Invertible2
    rw [h1]
    rcases h2 with h2 | h2 <;> rw [h2]
    · exact h
    · exact ⟨h.1, h.1⟩

theorem activate_ok {l : List String} {s : State cfg} (h : (Call.exec s (.activate l)).1 = true) :
    Call.exec s (.activate l) =
      ((PyM.forEach l (activateOne (cfg := cfg)) s).1.isOk, (PyM.forEach l (activateOne (cfg := cfg)) s).2) ∧
    (PyM.forEach l (activateOne (cfg := cfg)) s).1.isOk = true := by
  simp only [Call.exec, activate] at h ⊢
  split at h
  · cases h
  · rename_i hs
    rw [if_neg hs]
    exact ⟨rfl, h⟩

theorem deactivate_ok {l : List String} {s : State cfg} (h : (Call.exec s (.deactivate l)).1 = true) :
    Call.exec s (.deactivate l) =
      ((PyM.forEach l (deactivateOne (cfg := cfg)) s).1.isOk, (PyM.forEach l (deactivateOne (cfg := cfg)) s).2) ∧
    (PyM.forEach l (deactivateOne (cfg := cfg)) s).1.isOk = true := by
  simp only [Call.exec, deactivate] at h ⊢
  split at h
  · cases h
  · rename_i hs
    rw [if_neg hs]
    exact ⟨rfl, h⟩

theorem isOk_eq {α : Type} {r : Except Err α × State cfg} (h : r.1.isOk = true) :
    ∃ a, r = (.ok a, r.2) := by
  obtain ⟨r, s⟩ := r
  cases r with
  | error e => cases h
  | ok a => exact ⟨a, rfl⟩

theorem isActive_fresh (a : String) : isActive (State.fresh cfg) a = false := by
  unfold isActive State.fresh
  simp only
  generalize cfg.anc = l
  induction l with
  | nil => rfl
  | cons b l ih =>
    simp only [List.map_cons, Dict.get?_cons]
    split
    · rfl
    · exact ih

theorem nrOf_fresh (a : String) : nrOf (State.fresh cfg).rounds a = 0 := by
  unfold nrOf State.fresh
  simp only
  generalize cfg.anc = l
  induction l with
  | nil => rfl
  | cons b l ih =>
    simp only [List.map_cons, Dict.get?_cons]
    split
    · rfl
    · exact ih

theorem roundCount_snoc (p : List (Call cfg)) (c : Call cfg) :
    roundCount (p ++ [c]) = match c with
      | .newCircuit => 0
      | .buildFromAnc .. => roundCount p + 1
      | _ => roundCount p := by
  simp only [roundCount, List.foldl_append, List.foldl_cons, List.foldl_nil]
  cases c <;> rfl

theorem ancTrack_snoc (a : String) (p : List (Call cfg)) (c : Call cfg) :
    ancTrack a (p ++ [c]) = match c with
      | .newCircuit => (false, 0)
      | .activate l => if a ∈ l then (true, 0) else ancTrack a p
      | .deactivate l => if a ∈ l then (false, (ancTrack a p).2) else ancTrack a p
      | .buildFromAnc .. => if (ancTrack a p).1 then (true, (ancTrack a p).2 + 1) else ancTrack a p
      | _ => ancTrack a p := by
  simp only [ancTrack, List.foldl_append, List.foldl_cons, List.foldl_nil]
  cases c <;> rfl

theorem update_frame (rows : List (Fin cfg.n)) (U : cfg.Mat Int) (s : State cfg) :
    (update rows U s).2.active = s.active ∧ (update rows U s).2.rounds = s.rounds ∧
    (update rows U s).2.total = s.total := by
  rcases update_cases rows U s with ⟨e, he⟩ | ⟨_, he⟩ <;> rw [he] <;> exact ⟨rfl, rfl, rfl⟩

theorem updateFromDict_frame (d : Dict String (List String)) (s : State cfg) :
    (updateFromDict d s).2.active = s.active ∧ (updateFromDict d s).2.rounds = s.rounds ∧
    (updateFromDict d s).2.total = s.total := by
  rcases updateFromDict_cases d s with ⟨e, he⟩ | ⟨U, _, he⟩
  · rw [he]; exact ⟨rfl, rfl, rfl⟩
  · rw [he]; exact update_frame _ _ _

/-- The counters of the object are those of the history. -/
theorem track (hn : cfg.anc.Nodup) (hist : List (Call cfg)) (hv : ∀ c ∈ hist, c.Valid)
    (hr : AllReturned hist) :
    (afterHistory hist).total = roundCount hist ∧
    ∀ a ∈ cfg.anc, (isActive (afterHistory hist) a, nrOf (afterHistory hist).rounds a) = ancTrack a hist := by
  induction hist using List.reverseRecOn with
  | nil =>
    refine ⟨rfl, fun a _ => ?_⟩
    show (isActive (State.fresh cfg) a, nrOf (State.fresh cfg).rounds a) = (false, 0)
    rw [isActive_fresh, nrOf_fresh]
  | append_singleton p c ih =>
    have hwf : DetWF (afterHistory p) := afterHistory_inv p fun c hc => hv c (by simp [hc])
    obtain ⟨ih1, ih2⟩ := ih (fun c hc => hv c (by simp [hc])) (SurfaceSim.AllReturned.init hr)
    have hl := SurfaceSim.AllReturned.last hr
    rw [roundCount_snoc, afterHistory_snoc]
    simp only [ancTrack_snoc]
    cases c with
    | newCircuit =>
      refine ⟨rfl, fun a _ => ?_⟩
      show (isActive (State.fresh cfg) a, nrOf (State.fresh cfg).rounds a) = (false, 0)
      rw [isActive_fresh, nrOf_fresh]
    | activate l =>
      obtain ⟨e, hok⟩ := activate_ok hl
      obtain ⟨h1, h2, -, -, -, h6⟩ := forEach_activate l _ hwf hok
      rw [e]
      simp only
      refine ⟨h6.trans ih1, fun a ha => ?_⟩
      rw [h1, h2, ← ih2 a ha]
      by_cases hm : a ∈ l <;> simp [hm]
    | deactivate l =>
      obtain ⟨e, hok⟩ := deactivate_ok hl
      obtain ⟨h1, h2, -, -, -, h6⟩ := forEach_deactivate hn l _ hwf hok
      rw [e]
      simp only
      refine ⟨h6.trans ih1, fun a ha => ?_⟩
      rw [h1, h2, ← ih2 a ha]
      by_cases hm : a ∈ l <;> simp [hm]
    | update rows U =>
      obtain ⟨h1, h2, h3⟩ := update_frame rows U (afterHistory p)
      simp only [Call.exec]
      refine ⟨h3.trans ih1, fun a ha => ?_⟩
      rw [← ih2 a ha, h2, isActive, h1]
      rfl
    | updateFromDict d =>
      obtain ⟨h1, h2, h3⟩ := updateFromDict_frame d (afterHistory p)
      simp only [Call.exec]
      refine ⟨h3.trans ih1, fun a ha => ?_⟩
      rw [← ih2 a ha, h2, isActive, h1]
      rfl
    | buildFromAnc g r l =>
      obtain ⟨c, hc⟩ := isOk_eq (r := buildFromAnc g r l (afterHistory p)) hl
      obtain ⟨hs, -⟩ := buildFromAnc_ok hc
      simp only [Call.exec]
      rw [hs]
      refine ⟨by rw [← ih1]; rfl, fun a ha => ?_⟩
      rw [← ih2 a ha]
      show (isActive (afterHistory p) a, nrOf (bumped (afterHistory p)) a) = _
      rw [nrOf_bumped _ _ hwf ha]
      cases isActive (afterHistory p) a <;> simp
    | buildFromData g sup r st l =>
      obtain ⟨c, hc⟩ := isOk_eq (r := buildFromData g sup r st l (afterHistory p)) hl
      obtain ⟨hs, -⟩ := buildFromData_ok hc
      simp only [Call.exec]
      rw [hs]
      refine ⟨by rw [← ih1]; rfl, fun a ha => ?_⟩
      rw [← ih2 a ha]
      rfl

/-- Without declared gates the generators stay the identity. -/
theorem noGate_mats (hist : List (Call cfg)) (hg : ∀ c ∈ hist, c.NoGate) :
    (afterHistory hist).curr = 1 ∧ (afterHistory hist).prev = 1 ∧
    (afterHistory hist).order = List.finRange cfg.n := by
  have hiso : ∀ i : Fin cfg.n, isolate (1 : cfg.Mat Int) i = 1 := by
    intro i
    funext a b
    unfold isolate
    by_cases ha : a = i <;> by_cases hb : b = i
    · subst ha; subst hb; simp
    · subst ha
      have : ¬ a = b := fun e => hb e.symm
      simp [hb, Matrix.one_apply_ne this]
    · subst hb; simp [ha, Matrix.one_apply_ne ha]
    · simp [ha, hb]
  let P : State cfg → Prop := fun s => s.curr = 1 ∧ s.prev = 1 ∧ s.order = List.finRange cfg.n
  induction hist using List.reverseRecOn with
  | nil => exact ⟨rfl, rfl, rfl⟩
  | append_singleton p c ih =>
    have ihp : P (afterHistory p) := ih fun c hc => hg c (by simp [hc])
    have hc := hg c (by simp)
    rw [afterHistory_snoc]
    show P _
    cases c with
    | newCircuit => exact ⟨rfl, rfl, rfl⟩
    | activate l =>
      simp only [Call.exec, activate]
      split
      · exact ihp
      · refine forEach_inv P _ ?_ l _ ihp
        intro a t ht
        unfold activateOne
        split <;> exact ht
    | deactivate l =>
      simp only [Call.exec, deactivate]
      split
      · exact ihp
      · refine forEach_inv P _ ?_ l _ ihp
        intro a t ht
        unfold deactivateOne
        split
        · exact ht
        · exact ht
        · simp only
          split
          · exact ht
          · refine ⟨?_, ?_, ht.2.2⟩
            · simp only; rw [ht.1, hiso]
            · simp only; rw [ht.2.1, hiso]
    | update rows U => exact absurd hc (by simp [Call.NoGate])
    | updateFromDict d => exact absurd hc (by simp [Call.NoGate])
    | buildFromAnc g r l =>
      simp only [Call.exec, buildFromAnc]
      split
      · exact ihp
      · split
        · exact ihp
        · split
          · exact ihp
          · exact ⟨ihp.1, ihp.1, ihp.2.2⟩
    | buildFromData g sup r st l =>
      simp only [Call.exec, buildFromData]
      split
      · exact ihp
      · split
        · exact ihp
        · split
          · exact ihp
          · split
            · exact ihp
            · split
              · exact ihp
              · exact ⟨ihp.1, ihp.1, ihp.2.2⟩

/-- Row order under updates in label order. -/
theorem inOrder_order (hist : List (Call cfg)) (hg : ∀ c ∈ hist, c.InOrder) :
    (afterHistory hist).order = List.finRange cfg.n := by
  let P : State cfg → Prop := fun s => s.order = List.finRange cfg.n
  induction hist using List.reverseRecOn with
  | nil => rfl
  | append_singleton p c ih =>
    have ihp : P (afterHistory p) := ih fun c hc => hg c (by simp [hc])
    have hc := hg c (by simp)
    rw [afterHistory_snoc]
    show P _
    cases c with
    | newCircuit => rfl
    | activate l =>
      simp only [Call.exec, activate]
      split
      · exact ihp
      · refine forEach_inv P _ ?_ l _ ihp
        intro a t ht
        unfold activateOne
        split <;> exact ht
    | deactivate l =>
      simp only [Call.exec, deactivate]
      split
      · exact ihp
      · refine forEach_inv P _ ?_ l _ ihp
        intro a t ht
        unfold deactivateOne
        split
        · exact ht
        · exact ht
        · simp only
          split <;> exact ht
    | update rows U =>
      simp only [Call.exec]
      rcases update_cases rows U (afterHistory p) with ⟨e, he⟩ | ⟨_, he⟩ <;> rw [he]
      · exact ihp
      · exact hc
    | updateFromDict d =>
      simp only [Call.exec]
      rcases updateFromDict_cases d (afterHistory p) with ⟨e, he⟩ | ⟨U, _, he⟩
      · rw [he]; exact ihp
      · rw [he]
        rcases update_cases (List.finRange cfg.n) U (afterHistory p) with ⟨e, he⟩ | ⟨_, he⟩ <;> rw [he]
        exact ihp
    | buildFromAnc g r l =>
      simp only [Call.exec, buildFromAnc]
      split
      · exact ihp
      · split
        · exact ihp
        · split <;> exact ihp
    | buildFromData g sup r st l =>
      simp only [Call.exec, buildFromData]
      split
      · exact ihp
      · split
        · exact ihp
        · split
          · exact ihp
          · split
            · exact ihp
            · split <;> exact ihp

end SurfaceSim
