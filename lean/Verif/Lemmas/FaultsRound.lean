/-
Parities over a family of disjoint sets of data qubits, through the blocks of an experiment.
-/
import Verif.Lemmas.Faults
import Verif.Lemmas.RoundSpec

namespace SurfaceSim
open Spec

variable {J : Type} {A : Finset String}

/-- The operations change the parities `W` (after) to `W'` (before), and every fault is seen by at most one of them. -/
structure Pres (A : Finset String) (l : List (Op String)) (W W' : J → Func String) : Prop where
  known : ∀ o ∈ l, ∀ q ∈ o.qubits, q ∈ A
  ok : ∀ j, Func.OkL l (W j)
  tame : Tame A W l
  back : ∀ j, Func.backL l (W j) = W' j

theorem Pres.append {l m : List (Op String)} {W W' W'' : J → Func String} (h1 : Pres A l W' W'') (h2 : Pres A m W W') :
    Pres A (l ++ m) W W'' where
  known o ho := by
    rcases List.mem_append.1 ho with h | h
    · exact h1.known o h
    · exact h2.known o h
  ok j := Func.OkL.append (by rw [h2.back j]; exact h1.ok j) (h2.ok j)
  tame := Tame.append (by
    have : (fun j => Func.backL m (W j)) = W' := funext h2.back
    rw [this]; exact h1.tame) h2.tame
  back j := by rw [Func.backL_append, h2.back, h1.back]

theorem Pres.nil {W : J → Func String} (h : ∀ q ∈ A, AtMostOne fun j => ¬ (W j).Blind q) : Pres A [] W W :=
  ⟨by simp, fun _ => trivial, h, fun _ => rfl⟩

theorem Pres.here {l : List (Op String)} {W W' : J → Func String} (h : Pres A l W W') :
    ∀ q ∈ A, AtMostOne fun j => ¬ (W' j).Blind q := by
  have := h.tame.here
  simpa only [h.back] using this

/-- One more operation in front. -/
theorem Pres.cons {l : List (Op String)} {W W' W'' : J → Func String} {o : Op String} (h : Pres A l W W')
    (hk : ∀ q ∈ o.qubits, q ∈ A) (ho : ∀ j, Func.Ok o (W' j)) (hb : ∀ j, Func.back o (W' j) = W'' j)
    (hq : ∀ q ∈ A, AtMostOne fun j => ¬ (W'' j).Blind q)
    (hz : ∀ a b, o = .cz a b ∨ o = .cx a b → AtMostOne fun j => ¬ (W' j).Blind a ∨ ¬ (W' j).Blind b)
    (hm : ∀ q, o = .m q → AtMostOne fun j => (W' j).r 0 ≠ 0) : Pres A (o :: l) W W'' where
  known o' ho' := by
    rcases List.mem_cons.1 ho' with rfl | h'
    · exact hk
    · exact h.known o' h'
  ok j := ⟨by rw [h.back]; exact ho j, h.ok j⟩
  tame := by
    refine ⟨?_, ?_, ?_, h.tame⟩
    · simpa only [Func.backL_cons, h.back, hb] using hq
    · simpa only [h.back] using hz
    · simpa only [h.back] using hm
  back j := by rw [Func.backL_cons, h.back, hb]

/-- The parity of the qubits with weight `u`, of Z parts where `β` holds and of X parts elsewhere. -/
def fn (β : String → Bool) (u : String → ZMod 2) : Func String :=
  ⟨fun q => if β q then 0 else u q, fun q => if β q then u q else 0, fun _ => 0⟩

theorem blind_fn {β : String → Bool} {u : String → ZMod 2} {q : String} : (fn β u).Blind q ↔ u q = 0 := by
  unfold Func.Blind fn
  cases h : β q <;> simp [h]

theorem fn_congr {β β' : String → Bool} {u : String → ZMod 2} (h : ∀ q, u q ≠ 0 → β q = β' q) : fn β u = fn β' u := by
  unfold fn
  congr 1 <;> funext q
  · by_cases h0 : u q = 0
    · simp [h0]
    · rw [h q h0]
  · by_cases h0 : u q = 0
    · simp [h0]
    · rw [h q h0]

theorem back_h_fn (β : String → Bool) (u : String → ZMod 2) (q : String) :
    Func.back (.h q) (fn β u) = fn (Function.update β q (!β q)) u := by
  unfold Func.back fn
  simp only
  congr 1 <;> funext p
  · by_cases e : p = q
    · subst e; cases h : β p <;> simp [h]
    · simp [e]
  · by_cases e : p = q
    · subst e; cases h : β p <;> simp [h]
    · simp [e]

/-- A layer of Hadamards. -/
theorem pres_h {β : String → Bool} {u : J → String → ZMod 2} {S : List String} (hS : S.Nodup) (hA : ∀ q ∈ S, q ∈ A)
    (hu : ∀ q ∈ A, AtMostOne fun j => u j q ≠ 0) :
    Pres A (S.map Op.h) (fun j => fn β (u j)) (fun j => fn (fun q => xor (β q) (decide (q ∈ S))) (u j)) := by
  induction S with
  | nil =>
    have := Pres.nil (A := A) (W := fun j => fn β (u j)) (by simpa only [blind_fn] using hu)
    simpa using this
  | cons a S ih =>
    refine (ih (List.nodup_cons.1 hS).2 fun q hq => hA q (by simp [hq])).cons (by simpa [Op.qubits] using hA a (by simp))
      (fun _ => trivial) ?_ (by simpa only [blind_fn] using hu) (by simp) (by simp)
    intro j
    rw [back_h_fn]
    congr 1
    funext q
    by_cases e : q = a
    · subst e
      have : q ∉ S := (List.nodup_cons.1 hS).1
      simp [this]
    · simp [e]

/-- Operations that define detectors and observables. -/
theorem pres_quiet {W : J → Func String} {T : List (Op String)} (hT : ∀ o ∈ T, (∃ ks, o = .det ks) ∨ ∃ k ks, o = .obs k ks)
    (h : ∀ q ∈ A, AtMostOne fun j => ¬ (W j).Blind q) : Pres A T W W := by
  induction T with
  | nil => exact Pres.nil h
  | cons o T ih =>
    have h1 := ih fun o' h' => hT o' (by simp [h'])
    rcases hT o (by simp) with ⟨ks, rfl⟩ | ⟨k, ks, rfl⟩
    · exact h1.cons (by simp [Op.qubits]) (fun _ => trivial) (fun _ => rfl) h (by simp) (by simp)
    · exact h1.cons (by simp [Op.qubits]) (fun _ => trivial) (fun _ => rfl) h (by simp) (by simp)

/-- Measurements of qubits without weight. -/
theorem pres_m_zero {β : String → Bool} {u : J → String → ZMod 2} {S : List String} (hA : ∀ q ∈ S, q ∈ A)
    (hu : ∀ q ∈ A, AtMostOne fun j => u j q ≠ 0) (h0 : ∀ j, ∀ q ∈ S, u j q = 0) :
    Pres A (S.map Op.m) (fun j => fn β (u j)) (fun j => fn β (u j)) := by
  induction S with
  | nil => exact Pres.nil (by simpa only [blind_fn] using hu)
  | cons a S ih =>
    refine (ih (fun q hq => hA q (by simp [hq])) fun j q hq => h0 j q (by simp [hq])).cons
      (by simpa [Op.qubits] using hA a (by simp)) ?_ ?_ (by simpa only [blind_fn] using hu) (by simp) ?_
    · intro j
      simp [Func.Ok, fn, h0 j a]
    · intro j
      simp [Func.back, fn]
    · intro q _ i j hi
      exact (hi rfl).elim

/-- Resets of qubits without weight. -/
theorem pres_r_zero {β : String → Bool} {u : J → String → ZMod 2} {S : List String} (hA : ∀ q ∈ S, q ∈ A)
    (hu : ∀ q ∈ A, AtMostOne fun j => u j q ≠ 0) (h0 : ∀ j, ∀ q ∈ S, u j q = 0) :
    Pres A (S.map Op.r) (fun j => fn β (u j)) (fun j => fn β (u j)) := by
  induction S with
  | nil => exact Pres.nil (by simpa only [blind_fn] using hu)
  | cons a S ih =>
    refine (ih (fun q hq => hA q (by simp [hq])) fun j q hq => h0 j q (by simp [hq])).cons
      (by simpa [Op.qubits] using hA a (by simp)) ?_ ?_ (by simpa only [blind_fn] using hu) (by simp) (by simp)
    · intro j
      simp [Func.Ok, fn, h0 j a]
    · intro j
      simp only [Func.back, fn]
      congr 1
      funext q
      by_cases e : q = a
      · subst e; simp [h0 j q]
      · simp [e]

/-- Resets of qubits with X parts. -/
theorem pres_r {u : J → String → ZMod 2} {S : List String} (hA : ∀ q ∈ S, q ∈ A)
    (hu : ∀ q ∈ A, AtMostOne fun j => u j q ≠ 0) :
    Pres A (S.map Op.r) (fun j => fn (fun _ => false) (u j))
      (fun j => fn (fun _ => false) (fun q => if q ∈ S then 0 else u j q)) := by
  induction S with
  | nil =>
    have := Pres.nil (A := A) (W := fun j => fn (fun _ => false) (u j)) (by simpa only [blind_fn] using hu)
    simpa using this
  | cons a S ih =>
    refine (ih fun q hq => hA q (by simp [hq])).cons (by simpa [Op.qubits] using hA a (by simp)) ?_ ?_ ?_ (by simp) (by simp)
    · intro j
      simp [Func.Ok, fn]
    · intro j
      simp only [Func.back, fn]
      congr 1
      funext q
      by_cases e : q = a
      · subst e; simp
      · simp [e]
    · intro q hq
      simp only [blind_fn]
      refine (hu q hq).mono fun j hj => ?_
      intro h; apply hj; simp [h]

/-- Pauli gates. -/
theorem pres_x {W : J → Func String} {S : List String} (hA : ∀ q ∈ S, q ∈ A)
    (h : ∀ q ∈ A, AtMostOne fun j => ¬ (W j).Blind q) : Pres A (S.map Op.x) W W := by
  induction S with
  | nil => exact Pres.nil h
  | cons a S ih =>
    exact (ih fun q hq => hA q (by simp [hq])).cons (by simpa [Op.qubits] using hA a (by simp)) (fun _ => trivial)
      (fun _ => rfl) h (by simp) (by simp)

/-! ### CZ gates -/

/-- Weight of the qubit before the gates `B`: an ancilla gets the weight of the data qubits of the gates counted by `κ`. -/
def hookWeight (κ : String × String → Bool) (ln : String → ZMod 2) (B : List (String × String)) (q : String) : ZMod 2 :=
  ln q + sumIf B (fun e => e.1 = q) fun e => if κ e then ln e.2 else 0

theorem weight_cons (κ : String × String → Bool) (ln : String → ZMod 2) (e : String × String) (B : List (String × String))
    (q : String) : hookWeight κ ln (e :: B) q = hookWeight κ ln B q + if e.1 = q then (if κ e then ln e.2 else 0) else 0 := by
  unfold hookWeight sumIf
  simp only [List.map_cons, List.sum_cons]
  ring

/-- Every gate of the list is seen by at most one of the weights after it. -/
def Hooks (A : Finset String) (κ : String × String → Bool) (ln : J → String → ZMod 2) : List (String × String) → Prop
  | [] => ∀ q ∈ A, AtMostOne fun j => ln j q ≠ 0
  | e :: B => (AtMostOne fun j => hookWeight κ (ln j) B e.1 ≠ 0 ∨ ln j e.2 ≠ 0) ∧ Hooks A κ ln B

theorem Hooks.tail {κ : String × String → Bool} {ln : J → String → ZMod 2} {E B : List (String × String)}
    (h : Hooks A κ ln (E ++ B)) : Hooks A κ ln B := by
  induction E with
  | nil => exact h
  | cons e E ih => exact ih h.2

theorem Hooks.here {κ : String × String → Bool} {ln : J → String → ZMod 2} {B : List (String × String)}
    (h : Hooks A κ ln B) : ∀ q ∈ A, AtMostOne fun j => hookWeight κ (ln j) B q ≠ 0 := by
  induction B with
  | nil =>
    intro q hq
    simpa [hookWeight, sumIf] using h q hq
  | cons e B ih =>
    intro q hq
    by_cases hc : e.1 = q
    · refine h.1.mono fun j hj => ?_
      by_contra hn
      rw [not_or, not_not, not_not] at hn
      apply hj
      rw [weight_cons, if_pos hc, ← hc, hn.1, hn.2]
      simp
    · refine (ih h.2 q hq).mono fun j hj => ?_
      rwa [weight_cons, if_neg hc, add_zero] at hj

theorem back_cz_fn {β : String → Bool} {u : String → ZMod 2} {a d : String} (had : a ≠ d) (ha : β a = false) :
    Func.back (.cz a d) (fn β u) = fn β (fun q => u q + if a = q then (if β d then u d else 0) else 0) := by
  unfold Func.back fn
  simp only
  congr 1 <;> funext q
  · by_cases e : q = d
    · subst e; simp [ha, had]
    · by_cases e' : q = a
      · subst e'; simp [ha, had]
      · have e2 : a ≠ q := fun h => e' h.symm
        simp [e, e', e2]
  · by_cases e' : q = a
    · subst e'; simp [ha]
    · have e2 : a ≠ q := fun h => e' h.symm
      simp [e2]

/-- A layer of CZ gates. -/
theorem pres_cz {β : String → Bool} {κ : String × String → Bool} {ln : J → String → ZMod 2} {E B : List (String × String)}
    (isA : String → Bool) (hE : ∀ e ∈ E, isA e.1 = true ∧ isA e.2 = false ∧ β e.1 = false ∧ β e.2 = κ e)
    (hB : ∀ e ∈ B, isA e.1 = true) (hA : ∀ e ∈ E, e.1 ∈ A ∧ e.2 ∈ A) (hh : Hooks A κ ln (E ++ B)) :
    Pres A (E.map fun e => Op.cz e.1 e.2) (fun j => fn β (hookWeight κ (ln j) B)) (fun j => fn β (hookWeight κ (ln j) (E ++ B))) := by
  induction E with
  | nil => exact Pres.nil (by simpa only [blind_fn, List.nil_append] using hh.here)
  | cons e E ih =>
    obtain ⟨h1, h2, h3, h4⟩ := hE e (by simp)
    have hne : e.1 ≠ e.2 := by intro h; rw [h, h2] at h1; simp at h1
    have hw : ∀ j, hookWeight κ (ln j) (E ++ B) e.2 = ln j e.2 := by
      intro j
      unfold hookWeight
      rw [sumIf_zero, add_zero]
      intro e' he' hc
      have : isA e'.1 = true := by
        rcases List.mem_append.1 he' with h | h
        · exact (hE e' (by simp [h])).1
        · exact hB e' h
      rw [hc, h2] at this
      simp at this
    refine (ih (fun e he => hE e (by simp [he])) (fun e he => hA e (by simp [he])) hh.2).cons ?_ (fun _ => hne) ?_ ?_ ?_
      (by simp)
    · have := hA e (by simp)
      simpa [Op.qubits] using this
    · intro j
      rw [back_cz_fn hne h3]
      congr 1
      funext q
      rw [List.cons_append, weight_cons, hw, h4]
    · simpa only [blind_fn] using hh.here
    · rintro a b (hab | hab)
      swap
      · simp at hab
      simp only [Op.cz.injEq] at hab
      obtain ⟨rfl, rfl⟩ := hab
      simp only [blind_fn, hw]
      exact hh.1

/-! ### rounds -/

/-- The gate of an ancilla with a data qubit at which the stabilizer and the lines have different types. -/
def differ (τ : String → String → Bool) (b : String → Bool) (e : String × String) : Bool := xor (b e.2) (τ e.1 e.2)

theorem xor_iff {p q : Prop} [Decidable p] [Decidable q] : (p ↔ ¬ q) ↔ xor (decide p) (decide q) = true := by
  by_cases p <;> by_cases q <;> simp_all

theorem tog_a (x0 x1 x2 : Bool) (h : xor x0 x1 = true) : xor (xor true (xor (xor x0 x1) x2)) x2 = false := by
  revert x0 x1 x2; decide

theorem tog_b (b t x0 x1 x2 : Bool) (h : xor x0 x1 = true ↔ t = true) :
    xor (xor b (xor (xor x0 x1) x2)) x2 = xor b t := by
  revert b t x0 x1 x2; decide

theorem tog_c (x0 x1 x2 : Bool) (h : x0 = true) : xor (xor (xor true (xor (xor x0 x1) x2)) x2) x1 = false := by
  revert x0 x1 x2; decide

theorem tog_d (b t x0 x1 x2 : Bool) (h : x0 = true ↔ t = true) :
    xor (xor (xor b (xor (xor x0 x1) x2)) x2) x1 = xor b t := by
  revert b t x0 x1 x2; decide

theorem tog_e (b x0 x1 x2 : Bool) : xor (xor (xor (xor b (xor (xor x0 x1) x2)) x2) x1) x0 = b := by
  revert b x0 x1 x2; decide

theorem tog_f (x0 x1 x2 x3 : Bool) (h : ((xor x0 x1 = true ↔ x2 = false) ↔ x3 = true)) :
    x3 = xor (xor x0 x1) x2 := by
  revert x0 x1 x2 x3; decide

theorem tog_g (x t : Bool) (h : x = true ↔ t = true) : x = t := by
  revert x t; decide

set_option maxHeartbeats 1000000 in
/-- The coherent part of a round preserves the parities of a family of disjoint lines with types `b`. -/
theorem pres_coherent {isA : String → Bool} {τ : String → String → Bool} {S0 S1 S2 S3 : List String}
    {E0 E1 E2 : List (String × String)} (hc : Coherent isA τ S0 S1 S2 S3 E0 E1 E2) {b : String → Bool}
    {ln : J → String → ZMod 2} (hl : ∀ j q, isA q = true → ln j q = 0)
    (hS : ∀ q ∈ S0 ++ S1 ++ S2 ++ S3, q ∈ A) (hE : ∀ e ∈ E0 ++ E1 ++ E2, e.1 ∈ A ∧ e.2 ∈ A)
    (hh : Hooks A (differ τ b) ln (E0 ++ E1 ++ E2))
    (h0 : ∀ j q, isA q = true → hookWeight (differ τ b) (ln j) (E0 ++ E1 ++ E2) q = 0) :
    Pres A (coherentOps S0 S1 S2 S3 E0 E1 E2) (fun j => fn b (ln j)) (fun j => fn b (ln j)) := by
  simp only [List.mem_append] at hS hE
  -- `β` for ancillas is that of Z parts before the first and after the last layer
  set β : String → Bool := fun q => if isA q then true else b q with hβ
  set κ := differ τ b with hκ
  have w0 : ∀ j, hookWeight κ (ln j) [] = ln j := by intro j; funext q; simp [hookWeight, sumIf]
  have hu : ∀ q ∈ A, AtMostOne fun j => ln j q ≠ 0 := by
    have h2 := Hooks.tail (E := E0 ++ E1 ++ E2) (B := []) (by rw [List.append_nil]; exact hh)
    exact h2
  have start : ∀ j, fn b (ln j) = fn β (ln j) := by
    intro j
    refine fn_congr fun q hq => ?_
    have : isA q = false := by
      by_contra h
      exact hq (hl j q (by simpa using h))
    simp [hβ, this]
  have hh2 : Hooks A κ ln (E2 ++ []) := by
    rw [List.append_nil]; exact Hooks.tail (E := E0 ++ E1) hh
  have hh1 : Hooks A κ ln (E1 ++ E2) := Hooks.tail (E := E0) (by rw [← List.append_assoc]; exact hh)
  have hh0 : Hooks A κ ln (E0 ++ (E1 ++ E2)) := by rw [← List.append_assoc]; exact hh
  have p3 := pres_h (A := A) (β := β) (u := ln) hc.n3 (fun q hq => hS q (by simp [hq])) hu
  have t3 : ∀ q, decide (q ∈ S3) = xor (xor (decide (q ∈ S0)) (decide (q ∈ S1))) (decide (q ∈ S2)) := by
    intro q
    refine tog_f _ _ _ _ ?_
    rw [← xor_iff, decide_eq_false_iff_not, decide_eq_true_eq]
    exact hc.back q
  have p2 := pres_cz (A := A) (κ := κ) (ln := ln) (E := E2) (B := []) (β := fun q => xor (β q) (decide (q ∈ S3))) isA
    (fun e he => by
      obtain ⟨h1, h2, h3, h4⟩ := hc.e2 e he
      refine ⟨h1, h2, ?_, ?_⟩
      · have := (hc.back e.1).1 h3
        simp [hβ, h1, this]
      · have : decide (e.2 ∈ S3) = τ e.1 e.2 := by
          rw [hc.back] at h4
          exact tog_g _ _ (by rw [decide_eq_true_eq]; exact h4)
        simp only [hβ, h2, Bool.false_eq_true, if_false, this, hκ, differ])
    (by simp) (fun e he => hE e (Or.inr he)) hh2
  simp only [w0, List.append_nil] at p2
  have p2h := pres_h (A := A) (β := fun q => xor (β q) (decide (q ∈ S3))) (u := fun j => hookWeight κ (ln j) E2) hc.n2
    (fun q hq => hS q (by simp [hq])) (by simpa using hh2.here)
  have p1 := pres_cz (A := A) (κ := κ) (ln := ln) (E := E1) (B := E2)
    (β := fun q => xor (xor (β q) (decide (q ∈ S3))) (decide (q ∈ S2))) isA
    (fun e he => by
      obtain ⟨h1, h2, h3, h4⟩ := hc.e1 e he
      refine ⟨h1, h2, ?_, ?_⟩
      · simp only [hβ, h1, if_true, t3]
        exact tog_a _ _ _ (xor_iff.1 h3)
      · simp only [hβ, h2, Bool.false_eq_true, if_false, hκ, differ, t3]
        exact tog_b _ _ _ _ _ (by rw [← xor_iff]; exact h4))
    (fun e he => (hc.e2 e he).1) (fun e he => hE e (Or.inl (Or.inr he))) hh1
  have p1h := pres_h (A := A) (β := fun q => xor (xor (β q) (decide (q ∈ S3))) (decide (q ∈ S2)))
    (u := fun j => hookWeight κ (ln j) (E1 ++ E2)) hc.n1 (fun q hq => hS q (by simp [hq])) hh1.here
  have p0 := pres_cz (A := A) (κ := κ) (ln := ln) (E := E0) (B := E1 ++ E2)
    (β := fun q => xor (xor (xor (β q) (decide (q ∈ S3))) (decide (q ∈ S2))) (decide (q ∈ S1))) isA
    (fun e he => by
      obtain ⟨h1, h2, h3, h4⟩ := hc.e0 e he
      refine ⟨h1, h2, ?_, ?_⟩
      · simp only [hβ, h1, if_true, t3]
        exact tog_c _ _ _ (by simpa using h3)
      · simp only [hβ, h2, Bool.false_eq_true, if_false, hκ, differ, t3]
        exact tog_d _ _ _ _ _ (by rw [decide_eq_true_eq]; exact h4))
    (fun e he => by
      rcases List.mem_append.1 he with h | h
      · exact (hc.e1 e h).1
      · exact (hc.e2 e h).1) (fun e he => hE e (Or.inl (Or.inl he))) hh0
  have p0h := pres_h (A := A)
    (β := fun q => xor (xor (xor (β q) (decide (q ∈ S3))) (decide (q ∈ S2))) (decide (q ∈ S1)))
    (u := fun j => hookWeight κ (ln j) (E0 ++ (E1 ++ E2))) hc.n0 (fun q hq => hS q (by simp [hq])) hh0.here
  have hend : ∀ j, fn (fun q => xor (xor (xor (xor (β q) (decide (q ∈ S3))) (decide (q ∈ S2))) (decide (q ∈ S1)))
      (decide (q ∈ S0))) (hookWeight κ (ln j) (E0 ++ (E1 ++ E2))) = fn b (ln j) := by
    intro j
    rw [start]
    have e1 : hookWeight κ (ln j) (E0 ++ (E1 ++ E2)) = ln j := by
      funext q
      cases hq : isA q with
      | true => rw [← List.append_assoc, h0 j q hq, hl j q hq]
      | false =>
        unfold hookWeight
        rw [sumIf_zero, add_zero]
        intro e he hc'
        have : isA e.1 = true := by
          simp only [List.mem_append] at he
          rcases he with h | h | h
          · exact (hc.e0 e h).1
          · exact (hc.e1 e h).1
          · exact (hc.e2 e h).1
        rw [hc', hq] at this
        simp at this
    rw [e1]
    congr 1
    funext q
    rw [t3]
    exact tog_e _ _ _ _
  have all := p0h.append (p0.append (p1h.append (p1.append (p2h.append (p2.append p3)))))
  simp only [hend, ← start] at all
  unfold coherentOps
  simpa only [List.append_assoc] using all

/-- A round preserves the parities of a family of disjoint lines with types `b`. -/
theorem pres_round {τ : String → String → Bool} {S0 S1 S2 S3 anc : List String}
    {E0 E1 E2 : List (String × String)} (hc : Coherent (fun q => decide (q ∈ anc)) τ S0 S1 S2 S3 E0 E1 E2)
    {b : String → Bool} {ln : J → String → ZMod 2} (hl : ∀ j, ∀ q ∈ anc, ln j q = 0) (hanc : ∀ q ∈ anc, q ∈ A)
    (hS : ∀ q ∈ S0 ++ S1 ++ S2 ++ S3, q ∈ A) (hE : ∀ e ∈ E0 ++ E1 ++ E2, e.1 ∈ A ∧ e.2 ∈ A)
    (hh : Hooks A (differ τ b) ln (E0 ++ E1 ++ E2))
    (h0 : ∀ j, ∀ q ∈ anc, hookWeight (differ τ b) (ln j) (E0 ++ E1 ++ E2) q = 0) (reset : Bool) :
    Pres A (roundOps reset anc (coherentOps S0 S1 S2 S3 E0 E1 E2)) (fun j => fn b (ln j)) (fun j => fn b (ln j)) := by
  have hu : ∀ q ∈ A, AtMostOne fun j => ln j q ≠ 0 :=
    Hooks.tail (E := E0 ++ E1 ++ E2) (B := []) (by rw [List.append_nil]; exact hh)
  have p1 := pres_coherent (A := A) hc (b := b) (ln := ln) (fun j q hq => hl j q (by simpa using hq)) hS hE hh
    (fun j q hq => h0 j q (by simpa using hq))
  have p2 := pres_m_zero (A := A) (β := b) (u := ln) hanc hu hl
  have p0 : Pres A (if reset then anc.map Op.r else []) (fun j => fn b (ln j)) (fun j => fn b (ln j)) := by
    cases reset
    · exact Pres.nil (by simpa only [blind_fn] using hu)
    · exact pres_r_zero hanc hu hl
  exact (p0.append p1).append p2

/-- An initialization. -/
theorem pres_init {b : String → Bool} {ln : J → String → ZMod 2} {AA E H : List String} (hA : ∀ q ∈ AA, q ∈ A)
    (hE : ∀ q ∈ E, q ∈ A) (hH : H.Nodup) (hH' : ∀ q ∈ H, q ∈ A) (hu : ∀ q ∈ A, AtMostOne fun j => ln j q ≠ 0)
    (hb : ∀ j q, ln j q ≠ 0 → b q = decide (q ∈ H)) :
    ∃ W0, Pres A (AA.map Op.r ++ E.map Op.x ++ H.map Op.h) (fun j => fn b (ln j)) W0 := by
  have p1 := pres_h (A := A) (β := b) (u := ln) hH hH' hu
  have e1 : ∀ j, fn (fun q => xor (b q) (decide (q ∈ H))) (ln j) = fn (fun _ => false) (ln j) := by
    intro j
    refine fn_congr fun q hq => ?_
    rw [hb j q hq]; simp
  simp only [e1] at p1
  have p2 := pres_x (A := A) (W := fun j => fn (fun _ => false) (ln j)) hE (by simpa only [blind_fn] using hu)
  have p3 := pres_r (A := A) (u := ln) hA hu
  exact ⟨_, (p3.append p2).append p1⟩

/-- The parity of outcomes with weights `ln`, of the qubits `D` that are measured last. -/
def recF (D : List String) (ln : String → ZMod 2) : Func String :=
  ⟨fun _ => 0, fun _ => 0, fun i => ((D.map ln).reverse)[i]?.getD 0⟩

theorem val_recF (D : List String) (ln : String → ZMod 2) (st : FState String) (v : String → ZMod 2)
    (rest : List (ZMod 2)) (h : st.recs = (D.map v).reverse ++ rest) :
    (recF D ln).val A st = (D.map fun d => ln d * v d).sum := by
  have key : ∀ (X : List (ZMod 2 × ZMod 2)) (rest : List (ZMod 2)),
      rdot (fun i => (X.map Prod.fst)[i]?.getD 0) (X.map Prod.snd ++ rest) = (X.map fun p => p.1 * p.2).sum := by
    intro X
    induction X with
    | nil =>
      intro rest
      have : ∀ (c : Nat → ZMod 2) (rs : List (ZMod 2)), (∀ i, c i = 0) → rdot c rs = 0 := by
        intro c rs
        induction rs generalizing c with
        | nil => intro _; rfl
        | cons r rs ih => intro hc; simp [rdot, hc 0, ih (fun i => c (i + 1)) (fun i => hc _)]
      exact this _ _ (by simp)
    | cons p X ih =>
      intro rest
      simp only [List.map_cons, List.cons_append, rdot, List.sum_cons]
      simp only [List.getElem?_cons_zero, Option.getD_some, List.getElem?_cons_succ, ih]
  unfold Func.val recF
  simp only [zero_mul, add_zero, Finset.sum_const_zero, zero_add]
  rw [h]
  have := key ((D.map fun d => (ln d, v d)).reverse) rest
  simp only [← List.map_reverse, List.map_map, Function.comp_def] at this ⊢
  rw [this, List.map_reverse, List.sum_reverse]

/-- The measurement of the data qubits. -/
theorem pres_meas {b : String → Bool} {ln : J → String → ZMod 2} {D H : List String} (hD : ∀ q ∈ D, q ∈ A) (hDn : D.Nodup)
    (hH : H.Nodup) (hH' : ∀ q ∈ H, q ∈ A) (hu : ∀ q ∈ A, AtMostOne fun j => ln j q ≠ 0)
    (hb : ∀ j q, ln j q ≠ 0 → b q = decide (q ∈ H)) (hl : ∀ j q, ln j q ≠ 0 → q ∈ D) :
    Pres A (H.map Op.h ++ D.map Op.m) (fun j => recF D (ln j)) (fun j => fn b (ln j)) := by
  have key : ∀ (C B : List String), (C ++ B).Nodup → (∀ q ∈ C ++ B, q ∈ A) →
      Pres A (B.map Op.m) (fun j => recF (C ++ B) (ln j))
        (fun j => ⟨fun q => if q ∈ B then ln j q else 0, fun _ => 0, fun i => ((C.map (ln j)).reverse)[i]?.getD 0⟩) := by
    intro C B
    induction B generalizing C with
    | nil =>
      intro _ _
      have := Pres.nil (A := A) (W := fun j => recF (C ++ []) (ln j)) (by
        intro q _ i j hi
        exact (hi ⟨rfl, rfl⟩).elim)
      simpa [recF] using this
    | cons d B ih =>
      intro hn hA
      have hn' : ((C ++ [d]) ++ B).Nodup := by simpa using hn
      have h1 := ih (C ++ [d]) hn' (by simpa using hA)
      rw [List.append_assoc, List.singleton_append] at h1
      have hd : d ∉ B := by
        intro h
        have := (List.nodup_append.1 hn).2.1
        exact (List.nodup_cons.1 this).1 h
      refine h1.cons (by simpa [Op.qubits] using hA d (by simp)) (fun _ => rfl) ?_ ?_ (by simp) ?_
      · intro j
        simp only [Func.back]
        congr 1
        · funext q
          by_cases e : q = d
          · subst e; simp [hd]
          · simp [e]
        · funext i
          simp
      · intro q hq i j hi hj
        refine hu q hq i j ?_ ?_
        · intro h; apply hi; simp [Func.Blind, h]
        · intro h; apply hj; simp [Func.Blind, h]
      · rintro q - i j hi hj
        have hdA := hA d (by simp)
        exact hu d hdA i j (by simpa using hi) (by simpa using hj)
  have p1 := key [] D (by simpa using hDn) (by simpa using hD)
  have e1 : ∀ j, (⟨fun q => if q ∈ D then ln j q else 0, fun _ => 0, fun i => (([].map (ln j)).reverse)[i]?.getD 0⟩ :
      Func String) = fn (fun _ => false) (ln j) := by
    intro j
    unfold fn
    congr 1
    funext q
    by_cases h : q ∈ D
    · simp [h]
    · have : ln j q = 0 := by
        by_contra h'
        exact h (hl j q h')
      simp [h, this]
  simp only [e1, List.nil_append] at p1
  have p2 := pres_h (A := A) (β := fun _ => false) (u := ln) hH hH' hu
  have e2 : ∀ j, fn (fun q => xor false (decide (q ∈ H))) (ln j) = fn b (ln j) := by
    intro j
    refine fn_congr fun q hq => ?_
    rw [hb j q hq]; simp
  simp only [e2] at p2
  exact p2.append p1

end SurfaceSim
