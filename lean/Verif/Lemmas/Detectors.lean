import Verif.Spec.Detectors
import Verif.Lemmas.Dict
import Mathlib.LinearAlgebra.Matrix.NonsingularInverse
import Mathlib.LinearAlgebra.Matrix.Block
import Mathlib.Algebra.BigOperators.Group.List.Basic
import Mathlib.Algebra.BigOperators.Group.Finset.Basic
import Mathlib.Data.Int.Cast.Lemmas

namespace SurfaceSim
open Spec Detectors

/-! ### remove_pairs -/

theorem count_removePairs {α : Type} [DecidableEq α] (l : List α) (a : α) :
    (removePairs l).count a = if l.count a % 2 = 1 then l.count a else 0 := by
  unfold removePairs
  split
  · rename_i h
    rw [List.count_filter (by simpa using h)]
  · rename_i h
    rw [List.count_eq_zero]
    intro hm
    have := (List.mem_filter.1 hm).2
    simp at this
    omega

theorem zmod2_nsmul (k : Nat) (x : ZMod 2) : k • x = (k % 2) • x := by
  conv_lhs => rw [← Nat.div_add_mod k 2]
  rw [add_smul, mul_comm, mul_smul]
  have : (2 : Nat) • x = 0 := by
    rw [two_nsmul]
    exact CharTwo.add_self_eq_zero x
  rw [this, smul_zero, zero_add]

theorem sum_removePairs {α : Type} [DecidableEq α] (l : List α) (f : α → ZMod 2) :
    ((removePairs l).map f).sum = (l.map f).sum := by
  rw [Finset.sum_list_map_count, Finset.sum_list_map_count]
  have hsub : (removePairs l).toFinset ⊆ l.toFinset := by
    intro a ha
    rw [List.mem_toFinset] at ha ⊢
    exact (List.mem_filter.1 ha).1
  rw [Finset.sum_subset hsub]
  · refine Finset.sum_congr rfl fun a _ => ?_
    rw [count_removePairs, zmod2_nsmul, zmod2_nsmul (l.count a)]
    split
    · rfl
    · rename_i h
      have : l.count a % 2 = 0 := by omega
      rw [this]
  · intro a _ ha
    rw [List.mem_toFinset] at ha
    rw [List.count_eq_zero.2 ha, zero_smul]

theorem mem_removePairs {α : Type} [DecidableEq α] (l : List α) (a : α) :
    a ∈ removePairs l ↔ a ∈ l ∧ l.count a % 2 = 1 := by
  simp [removePairs]

theorem removePairs_nodup {α : Type} [DecidableEq α] (l : List α) (h : l.Nodup) :
    removePairs l = l := by
  unfold removePairs
  rw [List.filter_eq_self]
  intro a ha
  rw [List.count_eq_one_of_mem h ha]
  rfl

/-! ### exact rational quotients -/

variable {cfg : Config}

theorem mulInv_of_mul (A B V : cfg.Mat Int) (hV : V * B = A)
    (hB : (B.map (Int.cast : Int → Rat)).det ≠ 0) :
    mulInv A B = .ok (V.map (Int.cast : Int → Rat)) := by
  unfold mulInv
  simp only
  rw [if_neg hB]
  congr 1
  have e : A.map (Int.cast : Int → Rat) = V.map Int.cast * B.map Int.cast := by
    rw [← hV]
    exact (Matrix.map_mul (f := Int.castRingHom Rat))
  rw [e, Matrix.mul_assoc, Matrix.mul_smul, Matrix.mul_adjugate, smul_smul, inv_mul_cancel₀ hB,
    one_smul, Matrix.mul_one]

theorem det_map_rat (B : cfg.Mat Int) : (B.map (Int.cast : Int → Rat)).det = (B.det : Rat) :=
  (Int.cast_det B).symm

theorem det_map_zmod (B : cfg.Mat Int) : (B.map (Int.cast : Int → ZMod 2)).det = (B.det : ZMod 2) :=
  (Int.cast_det B).symm

theorem rat_det_ne_zero (B : cfg.Mat Int) (h : (B.map (Int.cast : Int → ZMod 2)).det ≠ 0) :
    (B.map (Int.cast : Int → Rat)).det ≠ 0 := by
  rw [det_map_zmod] at h
  rw [det_map_rat]
  intro h0
  rw [Int.cast_eq_zero] at h0
  rw [h0] at h
  exact h (by simp)

/-! ### emission -/

/-- The record entry found for a term. -/
def recOf (getRec : String → Int → Except Err Int) (t : MeasTerm) : Int :=
  match getRec t.1 t.2 with
  | .ok j => j
  | .error _ => 0

/-- The detector instruction of an ancilla. -/
def detInstr (cfg : Config) (getRec : String → Int → Except Err Int) (sel : List String) (time : Rat)
    (d : Fin cfg.n × List MeasTerm) : Instr :=
  ⟨.DETECTOR,
    if cfg.label d.1 ∈ sel then (removePairs d.2).map fun t => Target.record (recOf getRec t) else [],
    (((cfg.coords.get? (cfg.label d.1)).getD []) ++ [time]).map Arg.num⟩

theorem mapExcept_recOf (getRec : String → Int → Except Err Int) (l : List MeasTerm)
    (h : ∀ t ∈ l, ∃ j, getRec t.1 t.2 = .ok j) :
    mapExcept l (fun t => getRec t.1 t.2) = .ok (l.map (recOf getRec)) := by
  induction l with
  | nil => rfl
  | cons t l ih =>
    obtain ⟨j, hj⟩ := h t (by simp)
    simp [mapExcept, hj, ih fun t ht => h t (List.mem_cons_of_mem _ ht), recOf]

theorem emit_ok (getRec : String → Int → Except Err Int) (sel : List String) (time : Rat)
    (dets : List (Fin cfg.n × List MeasTerm))
    (hc : ∀ a ∈ cfg.anc, a ∈ cfg.coords.keys)
    (h : ∀ d ∈ dets, cfg.label d.1 ∈ sel → ∀ t ∈ removePairs d.2, ∃ j, getRec t.1 t.2 = .ok j) :
    emit getRec sel time dets = .ok (dets.map (detInstr cfg getRec sel time)) := by
  induction dets with
  | nil => rfl
  | cons d dets ih =>
    obtain ⟨i, ts⟩ := d
    have ih' := ih fun d hd => h d (List.mem_cons_of_mem _ hd)
    have hcoord : ∃ c, cfg.coords.get? (cfg.label i) = some c := by
      have := hc (cfg.label i) (List.get_mem _ _)
      rw [← Dict.get?_isSome_iff] at this
      exact Option.isSome_iff_exists.1 this
    obtain ⟨co, hco⟩ := hcoord
    have hh := h (i, ts) (by simp)
    simp only at hh
    unfold emit
    simp only [Dict.getE, hco, ih']
    by_cases hs : cfg.label i ∈ sel
    · rw [if_pos hs, mapExcept_recOf getRec _ (hh hs)]
      simp [mkInstr, Gate.argsOk, Gate.isTwoQubit, detInstr, hs, hco, Function.comp_def]
    · rw [if_neg hs]
      simp [mkInstr, Gate.argsOk, Gate.isTwoQubit, detInstr, hs, hco]

/-- Emission succeeds only if every lookup of a selected ancilla does. -/
theorem emit_eq_of_ok (getRec : String → Int → Except Err Int) (sel : List String) (time : Rat)
    (dets : List (Fin cfg.n × List MeasTerm)) (c : Circuit)
    (he : emit getRec sel time dets = .ok c) :
    c = dets.map (detInstr cfg getRec sel time) := by
  induction dets generalizing c with
  | nil => simp [emit] at he; simp [← he]
  | cons d dets ih =>
    obtain ⟨i, ts⟩ := d
    unfold emit at he
    simp only at he
    have hm : ∀ (l : List MeasTerm) (r : List Int), mapExcept l (fun t => getRec t.1 t.2) = .ok r →
        r = l.map (recOf getRec) := by
      intro l
      induction l with
      | nil => intro r hr; simp [mapExcept] at hr; simp [← hr]
      | cons t l ihl =>
        intro r hr
        simp only [mapExcept] at hr
        cases ht : getRec t.1 t.2 with
        | error e => simp [ht] at hr
        | ok j =>
          cases hl : mapExcept l (fun t => getRec t.1 t.2) with
          | error e => simp [ht, hl] at hr
          | ok r' =>
            simp only [ht, hl, Except.ok.injEq] at hr
            rw [← hr, ihl r' hl]
            simp [recOf, ht]
    split at he
    · cases he
    · rename_i recs hrecs
      cases hco : cfg.coords.get? (cfg.label i) with
      | none => simp [Dict.getE, hco] at he
      | some co =>
        simp only [Dict.getE, hco] at he
        have hmk : mkInstr .DETECTOR (recs.map Target.record) ((co ++ [time]).map Arg.num) =
            .ok ⟨.DETECTOR, recs.map Target.record, (co ++ [time]).map Arg.num⟩ := by
          simp [mkInstr, Gate.argsOk, Gate.isTwoQubit]
        rw [hmk] at he
        simp only at he
        cases hr : emit getRec sel time dets with
        | error e => simp [hr] at he
        | ok c' =>
          simp only [hr, Except.ok.injEq] at he
          rw [← he, List.map_cons, ← ih c' hr]
          congr 1
          simp only [detInstr, hco, Option.getD_some]
          by_cases hs : cfg.label i ∈ sel
          · rw [if_pos hs] at hrecs ⊢
            rw [hm _ _ hrecs]
            simp [Function.comp_def]
          · rw [if_neg hs] at hrecs ⊢
            simp only [Except.ok.injEq] at hrecs
            simp [← hrecs]

end SurfaceSim

namespace SurfaceSim
open Spec Detectors
variable {cfg : Config}

/-! ### invariants -/

/-- Shape of the object: dictionaries over the labels, rows in some order. -/
structure DetWF (s : State cfg) : Prop where
  active : s.active.keys = cfg.anc
  rounds : s.rounds.keys = cfg.anc
  order : s.order.Perm (List.finRange cfg.n)

theorem detWF_fresh (cfg : Config) : DetWF (State.fresh cfg) :=
  ⟨by simp [State.fresh, Dict.keys, Function.comp_def], by simp [State.fresh, Dict.keys, Function.comp_def],
    List.Perm.refl _⟩

theorem forEach_inv {σ γ : Type} (P : σ → Prop) (f : γ → PyM σ Unit) (hf : ∀ a s, P s → P (f a s).2)
    (l : List γ) (s : σ) (hs : P s) : P (PyM.forEach l f s).2 := by
  induction l generalizing s with
  | nil => exact hs
  | cons a l ih =>
    simp only [PyM.forEach, PyM.bind]
    have := hf a s hs
    cases h : f a s with
    | mk r s' =>
      rw [h] at this
      cases r with
      | error e => exact this
      | ok u => exact ih s' this

theorem keys_set_of_mem {α : Type} (d : Dict String α) (k : String) (v : α) (h : k ∈ d.keys) :
    (d.set k v).keys = d.keys := by
  rw [Dict.keys_set]
  simp [h]

theorem activateOne_inv (a : String) (s : State cfg) (h : DetWF s) : DetWF (activateOne a s).2 := by
  unfold activateOne
  split
  · exact h
  · exact h
  · rename_i hg
    have hm : a ∈ s.active.keys := by
      rw [← Dict.get?_isSome_iff, hg]; rfl
    refine ⟨?_, ?_, h.order⟩
    · simp only; rw [keys_set_of_mem _ _ _ hm, h.active]
    · simp only; rw [keys_set_of_mem _ _ _ (by rw [h.rounds, ← h.active]; exact hm), h.rounds]

theorem deactivateOne_inv (a : String) (s : State cfg) (h : DetWF s) : DetWF (deactivateOne a s).2 := by
  unfold deactivateOne
  split
  · exact h
  · exact h
  · rename_i hg
    have hm : a ∈ s.active.keys := by
      rw [← Dict.get?_isSome_iff, hg]; rfl
    simp only
    have hk : (s.active.set a false).keys = cfg.anc := by rw [keys_set_of_mem _ _ _ hm, h.active]
    split
    · exact ⟨hk, h.rounds, h.order⟩
    · exact ⟨hk, h.rounds, h.order⟩

theorem update_inv (rows : List (Fin cfg.n)) (U : cfg.Mat Int) (hr : rows.Nodup) (s : State cfg)
    (h : DetWF s) : DetWF (update rows U s).2 := by
  unfold update
  split
  · exact h
  · rename_i hn
    split
    · exact h
    · split
      · exact h
      · refine ⟨h.active, h.rounds, ?_⟩
        rw [List.perm_ext_iff_of_nodup hr (List.nodup_finRange _)]
        intro i
        simp only [List.mem_finRange, iff_true]
        by_contra hi
        exact hn (List.any_eq_true.2 ⟨i, List.mem_finRange i, by simpa using hi⟩)

theorem bumped_keys (s : State cfg) (h : DetWF s) : (bumped s).keys = cfg.anc := by
  rw [← h.active]
  simp [bumped, Dict.keys, Function.comp_def]

theorem exec_inv (c : Call cfg) (hc : c.Valid) (s : State cfg) (h : DetWF s) : DetWF (c.exec s).2 := by
  cases c with
  | newCircuit => exact detWF_fresh cfg
  | activate l =>
    simp only [Call.exec, activate]
    split
    · exact h
    · exact forEach_inv DetWF activateOne activateOne_inv l s h
  | deactivate l =>
    simp only [Call.exec, deactivate]
    split
    · exact h
    · exact forEach_inv DetWF deactivateOne deactivateOne_inv l s h
  | update rows U => exact update_inv rows U hc s h
  | updateFromDict d =>
    simp only [Call.exec, updateFromDict]
    split
    · exact h
    · split
      · exact h
      · exact update_inv _ _ (List.nodup_finRange _) s h
  | buildFromAnc g r l =>
    simp only [Call.exec, buildFromAnc]
    have hb := bumped_keys s h
    split
    · exact h
    · split
      · exact ⟨h.active, hb, h.order⟩
      · split
        · exact ⟨h.active, hb, h.order⟩
        · exact ⟨h.active, hb, h.order⟩
  | buildFromData g sup r st l =>
    simp only [Call.exec, buildFromData]
    split
    · exact h
    · split
      · exact h
      · split
        · exact h
        · split
          · exact h
          · split
            · exact h
            · exact ⟨h.active, h.rounds, h.order⟩

theorem afterHistory_inv (hist : List (Call cfg)) (hv : ∀ c ∈ hist, c.Valid) :
    DetWF (afterHistory hist) := by
  unfold afterHistory
  suffices ∀ s, DetWF s → DetWF (hist.foldl (fun s c => (c.exec s).2) s) from this _ (detWF_fresh cfg)
  induction hist with
  | nil => exact fun s h => h
  | cons c hist ih =>
    intro s h
    exact ih (fun c hc => hv c (List.mem_cons_of_mem _ hc)) _ (exec_inv c (hv c (by simp)) s h)

/-- Is the ancilla active? -/
def isActive (s : State cfg) (a : String) : Bool := (s.active.get? a).getD false

theorem selected_ok (s : State cfg) (l : List String) (h : ∀ a ∈ l, a ∈ s.active.keys) :
    selected s (some l) = .ok (l.filter (isActive s)) := by
  have e : mapExcept l (fun a => s.active.getE a) = .ok (l.map (isActive s)) := by
    induction l with
    | nil => rfl
    | cons a l ih =>
      have ha := h a (by simp)
      rw [← Dict.get?_isSome_iff] at ha
      obtain ⟨b, hb⟩ := Option.isSome_iff_exists.1 ha
      have hb' : s.active.getE a = .ok b := by simp [Dict.getE, hb]
      simp only [mapExcept, hb', ih fun a ha => h a (List.mem_cons_of_mem _ ha)]
      simp [isActive, hb]
  simp only [selected, Option.getD_some, e]
  congr 1
  clear h e
  induction l with
  | nil => rfl
  | cons a l ih =>
    rw [List.map_cons, List.zip_cons_cons, List.filterMap_cons, List.filter_cons, ih]
    cases isActive s a <;> simp

theorem selected_none (s : State cfg) : selected s none = selected s (some (s.order.map cfg.label)) := rfl

theorem order_label_mem (s : State cfg) (h : DetWF s) :
    ∀ a ∈ s.order.map cfg.label, a ∈ s.active.keys := by
  intro a ha
  obtain ⟨i, _, rfl⟩ := List.mem_map.1 ha
  rw [h.active]
  exact List.get_mem _ _

theorem label_injective (hn : cfg.anc.Nodup) : Function.Injective cfg.label := by
  intro i j h
  exact (List.nodup_iff_injective_get.1 hn) h

/-! ### values of detectors -/

theorem nonzero_sum (order : List (Fin cfg.n)) (ho : order.Perm (List.finRange cfg.n))
    (row : Fin cfg.n → Rat) (rel : Int) (f : MeasTerm → ZMod 2) :
    ((nonzero order row rel).map f).sum =
      ∑ j, if row j ≠ 0 then f (cfg.label j, rel) else 0 := by
  unfold nonzero
  rw [List.map_map]
  have : ((order.filter fun j => decide (row j ≠ 0)).map (f ∘ fun j => (cfg.label j, rel))).sum =
      (order.map fun j => if row j ≠ 0 then f (cfg.label j, rel) else 0).sum := by
    clear ho
    induction order with
    | nil => rfl
    | cons j order ih =>
      by_cases hj : row j = 0 <;> simp [hj] at ih ⊢ <;> exact ih
  rw [this, (ho.map _).sum_eq, ← List.sum_toFinset _ (List.nodup_finRange _),
    List.toFinset_finRange]

end SurfaceSim

namespace SurfaceSim
open Spec Detectors
variable {cfg : Config}

theorem instrRecs_records (l : List Int) (g : Gate) (args : List Arg) :
    (Instr.mk g (l.map Target.record) args).recs = l := by
  unfold Instr.recs
  simp only
  induction l with
  | nil => rfl
  | cons a l ih => simp [ih]

theorem detValue_detInstr (v : Int → ZMod 2) (getRec : String → Int → Except Err Int) (sel : List String)
    (time : Rat) (d : Fin cfg.n × List MeasTerm) :
    detValue v (detInstr cfg getRec sel time d) =
      if cfg.label d.1 ∈ sel then (d.2.map fun t => v (recOf getRec t)).sum else 0 := by
  unfold detValue detInstr
  split
  · rw [show ((removePairs d.2).map fun t => Target.record (recOf getRec t)) =
      ((removePairs d.2).map (recOf getRec)).map Target.record from by simp [Function.comp_def],
      instrRecs_records, List.map_map]
    exact sum_removePairs d.2 _
  · simp [Instr.recs]

/-- Value of the targets of one ancilla. -/
theorem ancTargets_sum (order : List (Fin cfg.n)) (ho : order.Perm (List.finRange cfg.n))
    (c p : Fin cfg.n → Rat) (nr : Nat) (rc rp : Bool) (f : MeasTerm → ZMod 2) :
    ((ancTargets order c p nr rc rp).map f).sum =
      (∑ j, if c j ≠ 0 then
        f (cfg.label j, -1) + (if rc = false ∧ 2 ≤ nr then f (cfg.label j, -2) else 0) else 0) +
      (if 2 ≤ nr then ∑ j, if p j ≠ 0 then
        f (cfg.label j, -2) + (if rp = false ∧ 3 ≤ nr then f (cfg.label j, -3) else 0) else 0 else 0) := by
  unfold ancTargets
  simp only [List.map_append, List.sum_append]
  have hite : ∀ (P : Prop) [Decidable P] (l : List MeasTerm),
      ((if P then l else []).map f).sum = if P then (l.map f).sum else 0 := by
    intro P _ l; split <;> simp
  rw [hite, hite, hite, nonzero_sum order ho, nonzero_sum order ho, nonzero_sum order ho,
    nonzero_sum order ho]
  have hsplit : ∀ (g : Fin cfg.n → Rat) (P : Prop) [Decidable P] (a b : Fin cfg.n → ZMod 2),
      (∑ j, if g j ≠ 0 then a j + (if P then b j else 0) else 0) =
      (∑ j, if g j ≠ 0 then a j else 0) + if P then (∑ j, if g j ≠ 0 then b j else 0) else 0 := by
    intro g P _ a b
    split
    · rw [← Finset.sum_add_distrib]
      refine Finset.sum_congr rfl fun j _ => ?_
      split <;> simp
    · simp
  rw [hsplit, hsplit]
  by_cases h2 : 2 ≤ nr
  · by_cases h3 : 3 ≤ nr
    · cases rc <;> cases rp <;> simp [h2, h3] <;> ring
    · cases rc <;> cases rp <;> simp [h2, h3] <;> ring
  · have h3 : ¬ 3 ≤ nr := by omega
    simp [h2, h3]

/-- Entries that are zero or odd behave mod 2 like their zero pattern. -/
theorem pattern_mul (z : Int) (hz : z = 0 ∨ Odd z) (x : ZMod 2) :
    (if ((z : Rat)) ≠ 0 then x else 0) = (z : ZMod 2) * x := by
  rcases hz with rfl | hz
  · simp
  · have h1 : (z : ZMod 2) = 1 := (ZMod.intCast_eq_one_iff_odd).2 hz
    have h2 : (z : Rat) ≠ 0 := by
      rw [Int.cast_ne_zero]
      rintro rfl
      exact absurd hz (by decide)
    rw [if_pos h2, h1, one_mul]

theorem mod2_mul (A B : cfg.Mat Int) : mod2 (A * B) = mod2 A * mod2 B :=
  Matrix.map_mul (f := Int.castRingHom (ZMod 2))

theorem mod2_one : mod2 (1 : cfg.Mat Int) = 1 := by
  unfold mod2
  exact Matrix.map_one _ (by simp) (by simp)

theorem mod2_emod (A : cfg.Mat Int) : mod2 (A.map (· % 2)) = mod2 A := by
  ext i j
  simp only [mod2, Matrix.map_apply]
  rw [show ((2 : Int)) = ((2 : Nat) : Int) from rfl, ZMod.intCast_mod]

theorem zmod2_ne_zero {x : ZMod 2} (h : x ≠ 0) : x = 1 := by
  revert x
  decide

theorem mul_right_cancel_det {A B P : cfg.Mat (ZMod 2)} (hP : P.det ≠ 0) (h : A * P = B * P) : A = B := by
  have hu : IsUnit P.det := by rw [zmod2_ne_zero hP]; exact isUnit_one
  have := congrArg (· * P⁻¹) h
  simpa [Matrix.mul_assoc, Matrix.mul_nonsing_inv P hu] using this

end SurfaceSim
