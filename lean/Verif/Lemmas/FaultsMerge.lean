/-
Parities through merged circuits and transversal CNOT gates.
-/
import Verif.Lemmas.FaultsMemory
import Verif.Lemmas.MergeAll

namespace SurfaceSim
open Spec

variable {J : Type} {A : Finset String}

/-! ### reordered operations -/

/-- The first qubit's class. -/
def opClass (cls : String → Nat) (o : Op String) : Nat := (o.qubits.head?.map cls).getD 0

/-- All qubits of the operation have the same class. -/
def OneClass (cls : String → Nat) (o : Op String) : Prop := o.qubits ≠ [] ∧ ∀ q ∈ o.qubits, cls q = opClass cls o

/-- The parities agree on the qubits of a class. -/
def Func.Same (p : String → Prop) (w w' : Func String) : Prop := ∀ q, p q → w.x q = w'.x q ∧ w.z q = w'.z q

theorem Func.Same.back {p : String → Prop} {w w' : Func String} (h : Func.Same p w w') (hr : w.r = 0) (hr' : w'.r = 0)
    {o : Op String} (ho : ∀ q ∈ o.qubits, p q) : Func.Same p (w.back o) (w'.back o) := by
  intro q hq
  have hx := fun q hq => (h q hq).1
  have hz := fun q hq => (h q hq).2
  cases o <;> simp only [Op.qubits, List.mem_cons, List.not_mem_nil, or_false, forall_eq_or_imp, forall_eq] at ho <;>
    simp only [Func.back, hr, hr', Function.update_apply] <;>
    (refine ⟨?_, ?_⟩) <;> (try split_ifs) <;> simp_all

theorem Func.back_r {o : Op String} {w : Func String} (h : w.r = 0) : (w.back o).r = 0 := by
  cases o <;> simp [Func.back, h]
  rfl

theorem Func.backL_r {l : List (Op String)} {w : Func String} (h : w.r = 0) : (Func.backL l w).r = 0 := by
  induction l with
  | nil => exact h
  | cons o l ih => exact Func.back_r ih

section
variable {cls : String → Nat} {V : J → Func String} {W : Nat → J → Func String}

theorem backL_class (hr : ∀ j, (V j).r = 0) (hr' : ∀ k j, (W k j).r = 0)
    (hag : ∀ k j, Func.Same (fun q => cls q = k) (V j) (W k j)) (M : List (Op String)) (hM : ∀ o ∈ M, OneClass cls o)
    (k : Nat) (j : J) :
    Func.Same (fun q => cls q = k) (Func.backL M (V j)) (Func.backL (M.filter fun o => opClass cls o = k) (W k j)) := by
  induction M with
  | nil => exact hag k j
  | cons o M ih =>
    have ih := ih fun o ho => hM o (by simp [ho])
    obtain ⟨h1, h2⟩ := hM o (by simp)
    by_cases hk : opClass cls o = k
    · rw [List.filter_cons_of_pos (by simpa using hk)]
      exact ih.back (Func.backL_r (hr j)) (Func.backL_r (hr' k j)) fun q hq => (h2 q hq).trans hk
    · rw [List.filter_cons_of_neg (by simpa using hk)]
      intro q hq
      have hn : q ∉ o.qubits := fun h => hk ((h2 q h).symm.trans hq)
      rw [Func.backL_cons, (Func.back_other hn).1, (Func.back_other hn).2]
      exact ih q hq

theorem Func.Same.blind {p : String → Prop} {w w' : Func String} (h : Func.Same p w w') {q : String} (hq : p q) :
    w.Blind q ↔ w'.Blind q := by
  unfold Func.Blind
  rw [(h q hq).1, (h q hq).2]

/-- Operations on disjoint classes of qubits may be reordered. -/
theorem pres_shuffle {M : List (Op String)} {W' : Nat → J → Func String} (hM : ∀ o ∈ M, OneClass cls o)
    (hr : ∀ j, (V j).r = 0) (hr' : ∀ k j, (W k j).r = 0)
    (hag : ∀ k j, Func.Same (fun q => cls q = k) (V j) (W k j))
    (h : ∀ k, Pres A (M.filter fun o => opClass cls o = k) (W k) (W' k)) :
    Pres A M V (fun j => ⟨fun q => (W' (cls q) j).x q, fun q => (W' (cls q) j).z q, 0⟩) where
  known o ho := (h (opClass cls o)).known o (List.mem_filter.2 ⟨ho, by simp⟩)
  back j := by
    have e : ∀ q, (Func.backL M (V j)).x q = (W' (cls q) j).x q ∧ (Func.backL M (V j)).z q = (W' (cls q) j).z q := by
      intro q
      rw [← (h (cls q)).back j]
      exact backL_class hr hr' hag M hM (cls q) j q rfl
    have e2 := Func.backL_r (l := M) (hr j)
    cases hb : Func.backL M (V j) with
    | mk x z r =>
      rw [hb] at e e2
      simp only at e e2
      congr
      · funext q; exact (e q).1
      · funext q; exact (e q).2
  ok j := by
    have hok : ∀ k, Func.OkL (M.filter fun o => opClass cls o = k) (W k j) := fun k => (h k).ok j
    clear h
    induction M with
    | nil => trivial
    | cons o M ih =>
      have hM' : ∀ o ∈ M, OneClass cls o := fun o ho => hM o (by simp [ho])
      refine ⟨?_, ih hM' fun k => ?_⟩
      · obtain ⟨h1, h2⟩ := hM o (by simp)
        have := hok (opClass cls o)
        rw [List.filter_cons_of_pos (by simp)] at this
        have hs := backL_class hr hr' hag M hM' (opClass cls o) j
        have h3 := this.1
        cases o <;> simp only [Func.Ok] at h3 ⊢ <;> first | exact h3 | exact ((hs _ (h2 _ (by simp [Op.qubits]))).2).trans h3
      · by_cases hk : opClass cls o = k
        · have := hok k
          rw [List.filter_cons_of_pos (by simpa using hk)] at this
          exact this.2
        · have := hok k
          rwa [List.filter_cons_of_neg (by simpa using hk)] at this
  tame := by
    have ht : ∀ k, Tame A (W k) (M.filter fun o => opClass cls o = k) := fun k => (h k).tame
    clear h
    have here : ∀ N : List (Op String), (∀ o ∈ N, OneClass cls o) →
        (∀ k, Tame A (W k) (N.filter fun o => opClass cls o = k)) →
        ∀ q ∈ A, AtMostOne fun j => ¬ (Func.backL N (V j)).Blind q := by
      intro N hN htN q hq
      have := (htN (cls q)).here q hq
      refine this.mono fun j hj hb => hj ?_
      exact ((backL_class hr hr' hag N hN (cls q) j).blind rfl).2 hb
    induction M with
    | nil => exact here [] (by simp) ht
    | cons o M ih =>
      have hM' : ∀ o ∈ M, OneClass cls o := fun o ho => hM o (by simp [ho])
      have ht' : ∀ k, Tame A (W k) (M.filter fun o => opClass cls o = k) := by
        intro k
        have := ht k
        by_cases hk : opClass cls o = k
        · rw [List.filter_cons_of_pos (by simpa using hk)] at this
          exact this.2.2.2
        · rwa [List.filter_cons_of_neg (by simpa using hk)] at this
      obtain ⟨h1, h2⟩ := hM o (by simp)
      have hto := ht (opClass cls o)
      rw [List.filter_cons_of_pos (by simp)] at hto
      refine ⟨here _ hM ht, ?_, ?_, ih hM' ht'⟩
      · intro a b hab
        refine (hto.2.1 a b hab).mono fun j hj => ?_
        have hs := backL_class hr hr' hag M hM' (opClass cls o) j
        have ha : cls a = opClass cls o := h2 a (by rcases hab with rfl | rfl <;> simp [Op.qubits])
        have hb : cls b = opClass cls o := h2 b (by rcases hab with rfl | rfl <;> simp [Op.qubits])
        rwa [hs.blind ha, hs.blind hb] at hj
      · intro q _ i j hi
        rw [Func.backL_r (hr i)] at hi
        exact (hi rfl).elim

end

/-! ### multiples -/

/-- A multiple of a parity. -/
def Func.scale (α : ZMod 2) (w : Func String) : Func String := ⟨fun q => α * w.x q, fun q => α * w.z q, fun i => α * w.r i⟩

theorem Func.scale_back (α : ZMod 2) (o : Op String) (w : Func String) : (w.scale α).back o = (w.back o).scale α := by
  cases o <;> simp only [Func.back, Func.scale] <;> congr 1 <;> funext q <;> simp only [Function.update_apply] <;>
    (try split_ifs) <;> first | rfl | ring

theorem Func.scale_backL (α : ZMod 2) (l : List (Op String)) (w : Func String) :
    Func.backL l (w.scale α) = (Func.backL l w).scale α := by
  induction l with
  | nil => rfl
  | cons o l ih => rw [Func.backL_cons, Func.backL_cons, ih, Func.scale_back]

theorem Func.Blind.scale {w : Func String} {q : String} (h : w.Blind q) (α : ZMod 2) : (w.scale α).Blind q := by
  unfold Func.Blind Func.scale
  simp [h.1, h.2]

theorem Pres.scale {l : List (Op String)} {W W' : J → Func String} (h : Pres A l W W') (α : ZMod 2) :
    Pres A l (fun j => (W j).scale α) (fun j => (W' j).scale α) where
  known := h.known
  back j := by rw [Func.scale_backL, h.back]
  ok j := by
    have := h.ok j
    clear h
    induction l with
    | nil => trivial
    | cons o l ih =>
      refine ⟨?_, ih this.2⟩
      rw [Func.scale_backL]
      have h1 := this.1
      cases o <;> simp only [Func.Ok, Func.scale] at h1 ⊢ <;> first | exact h1 | (rw [h1, mul_zero])
  tame := by
    have ht := h.tame
    clear h
    have bl : ∀ (w : Func String) q, ¬ (w.scale α).Blind q → ¬ w.Blind q := fun w q hn hb => hn (hb.scale α)
    induction l with
    | nil => exact fun q hq => (ht q hq).mono fun j hj => bl _ _ hj
    | cons o l ih =>
      refine ⟨?_, ?_, ?_, ih ht.2.2.2⟩
      · intro q hq
        simp only [Func.scale_backL]
        exact (ht.1 q hq).mono fun j hj => bl _ _ hj
      · intro a b hab
        simp only [Func.scale_backL]
        exact (ht.2.1 a b hab).mono fun j hj => hj.imp (bl _ _) (bl _ _)
      · intro q hq
        simp only [Func.scale_backL]
        refine (ht.2.2.1 q hq).mono fun j hj h0 => hj ?_
        show α * _ = 0
        rw [h0, mul_zero]

theorem scale_fn (α : ZMod 2) (β : String → Bool) (u : String → ZMod 2) : (fn β u).scale α = fn β fun q => α * u q := by
  unfold Func.scale fn
  congr 1
  · funext q; dsimp only; split <;> simp
  · funext q; dsimp only; split <;> simp

/-! ### CNOT gates -/

/-- Weights before CNOT gates: X parts are copied to the targets, Z parts to the controls. -/
def cnotWeight (rb : Bool) (ps : List (String × String)) (u : String → ZMod 2) (q : String) : ZMod 2 :=
  u q + sumIf ps (fun p => (if rb then p.2 else p.1) = q) fun p => if rb then u p.1 else u p.2

theorem back_cx_fn (rb : Bool) (u : String → ZMod 2) (a b : String) :
    Func.back (.cx a b) (fn (fun _ => rb) u) =
      fn (fun _ => rb) (fun q => u q + if (if rb then b else a) = q then (if rb then u a else u b) else 0) := by
  unfold Func.back fn
  cases rb
  · simp only [Bool.false_eq_true, if_false]
    congr 1
    · funext q
      by_cases e : q = a
      · subst e; simp
      · have e2 : a ≠ q := fun h => e h.symm
        simp [e, e2]
    · funext q
      by_cases e : q = b
      · subst e; simp
      · simp [e]
  · simp only [if_true]
    congr 1
    · funext q
      by_cases e : q = a
      · subst e; simp
      · simp [e]
    · funext q
      by_cases e : q = b
      · subst e; simp
      · have e2 : b ≠ q := fun h => e h.symm
        simp [e, e2]

/-- Disjoint CNOT gates, each of which connects the same members of the family. -/
theorem pres_cx {rb : Bool} {u : J → String → ZMod 2} {ps : List (String × String)}
    (hn : (ps.map Prod.fst ++ ps.map Prod.snd).Nodup) (hA : ∀ p ∈ ps, p.1 ∈ A ∧ p.2 ∈ A)
    (hu : ∀ q ∈ A, AtMostOne fun j => u j q ≠ 0) (hp : ∀ p ∈ ps, AtMostOne fun j => u j p.1 ≠ 0 ∨ u j p.2 ≠ 0) :
    Pres A (ps.map fun p => Op.cx p.1 p.2) (fun j => fn (fun _ => rb) (u j)) (fun j => fn (fun _ => rb) (cnotWeight rb ps (u j))) ∧
      ∀ q ∈ A, AtMostOne fun j => cnotWeight rb ps (u j) q ≠ 0 := by
  induction ps with
  | nil =>
    have e : ∀ j, cnotWeight rb [] (u j) = u j := fun j => by funext q; simp [cnotWeight, sumIf]
    simp only [e]
    exact ⟨Pres.nil (by simpa only [blind_fn] using hu), hu⟩
  | cons p ps ih =>
    obtain ⟨n1, n2, n3⟩ := List.nodup_append.1 hn
    simp only [List.map_cons, List.nodup_cons] at n1 n2
    have hne : p.1 ≠ p.2 := n3 p.1 (by simp) p.2 (by simp)
    obtain ⟨ih, ihq⟩ := ih (List.nodup_append.2 ⟨n1.2, n2.2, fun a ha b hb => n3 a (by simp only [List.map_cons, List.mem_cons]; exact Or.inr ha) b
      (by simp only [List.map_cons, List.mem_cons]; exact Or.inr hb)⟩) (fun p hp => hA p (by simp [hp])) (fun p' hp' => hp p' (by simp [hp']))
    have w1 : ∀ j, cnotWeight rb ps (u j) p.1 = u j p.1 := by
      intro j
      unfold cnotWeight
      rw [sumIf_zero, add_zero]
      intro e he hc
      cases rb
      · exact (n1.1 (List.mem_map.2 ⟨e, he, hc⟩)).elim
      · exact (n3 p.1 (by simp) e.2 (by simp only [List.map_cons, List.mem_cons]; exact Or.inr (List.mem_map_of_mem he)) hc.symm).elim
    have w2 : ∀ j, cnotWeight rb ps (u j) p.2 = u j p.2 := by
      intro j
      unfold cnotWeight
      rw [sumIf_zero, add_zero]
      intro e he hc
      cases rb
      · exact (n3 e.1 (by simp only [List.map_cons, List.mem_cons]; exact Or.inr (List.mem_map_of_mem he)) p.2 (by simp) hc).elim
      · exact (n2.1 (List.mem_map.2 ⟨e, he, hc⟩)).elim
    have wc : ∀ j q, cnotWeight rb (p :: ps) (u j) q = cnotWeight rb ps (u j) q +
        if (if rb then p.2 else p.1) = q then (if rb then u j p.1 else u j p.2) else 0 := by
      intro j q
      unfold cnotWeight sumIf
      simp only [List.map_cons, List.sum_cons]
      ring
    have hq : ∀ q ∈ A, AtMostOne fun j => cnotWeight rb (p :: ps) (u j) q ≠ 0 := by
      intro q hq
      by_cases hc : (if rb then p.2 else p.1) = q
      · refine (hp p (by simp)).mono fun j hj => ?_
        by_contra hno
        rw [not_or, not_not, not_not] at hno
        apply hj
        rw [wc, if_pos hc, ← hc]
        cases rb <;> simp [w1, w2, hno.1, hno.2]
      · refine (ihq q hq).mono fun j hj => ?_
        rwa [wc, if_neg hc, add_zero] at hj
    refine ⟨ih.cons ?_ (fun _ => hne) ?_ (by simpa only [blind_fn] using hq) ?_ (by simp), hq⟩
    · have := hA p (by simp)
      simpa [Op.qubits] using this
    · intro j
      rw [back_cx_fn]
      congr 1
      funext q
      rw [wc, w1, w2]
    · rintro a b (hab | hab)
      · simp at hab
      simp only [Op.cx.injEq] at hab
      obtain ⟨rfl, rfl⟩ := hab
      simp only [blind_fn, w1, w2]
      exact hp p (by simp)

/-! ### measurements -/

/-- Rotations and measurements in any order that has no rotation of a qubit after its measurement. -/
theorem pres_hm {ln : J → String → ZMod 2} (hu : ∀ q ∈ A, AtMostOne fun j => ln j q ≠ 0) :
    ∀ (M : List (Op String)) (C : List String), (∀ o ∈ M, ∃ q ∈ A, o = .h q ∨ o = .m q) → M.Nodup →
      M.Pairwise (fun o o' => ∀ q, o = .m q → o' ≠ .h q) → (C ++ measured M).Nodup →
      Pres A M (fun j => recF (C ++ measured M) (ln j))
        (fun j => ⟨fun q => if q ∈ measured M ∧ Op.h q ∉ M then ln j q else 0,
          fun q => if q ∈ measured M ∧ Op.h q ∈ M then ln j q else 0, fun i => ((C.map (ln j)).reverse)[i]?.getD 0⟩) := by
  intro M
  induction M with
  | nil =>
    intro C _ _ _ _
    have := Pres.nil (A := A) (W := fun j => recF (C ++ []) (ln j)) (by
      intro q _ i j hi
      exact (hi ⟨rfl, rfl⟩).elim)
    simpa [recF, measured] using this
  | cons o M ih =>
    intro C hM hn hp hC
    rw [List.nodup_cons] at hn
    rw [List.pairwise_cons] at hp
    obtain ⟨q0, hq0, rfl | rfl⟩ := hM o (by simp)
    · have hm : measured (Op.h q0 :: M) = measured M := rfl
      rw [hm] at hC ⊢
      refine (ih C (fun o ho => hM o (by simp [ho])) hn.2 hp.2 hC).cons (by simpa [Op.qubits] using hq0) (fun _ => trivial) ?_ ?_
        (by simp) (by simp)
      · intro j
        simp only [Func.back]
        congr 1
        · funext q
          by_cases e : q = q0
          · subst e; simp [hn.1]
          · simp [e]
        · funext q
          by_cases e : q = q0
          · subst e; simp [hn.1]
          · simp [e]
      · intro q hq
        refine (hu q hq).mono fun j hj h0 => hj ⟨?_, ?_⟩ <;> simp [h0]
    · have hm : measured (Op.m q0 :: M) = q0 :: measured M := rfl
      rw [hm] at hC ⊢
      have hC' : ((C ++ [q0]) ++ measured M).Nodup := by simpa using hC
      have h1 := ih (C ++ [q0]) (fun o ho => hM o (by simp [ho])) hn.2 hp.2 hC'
      rw [List.append_assoc, List.singleton_append] at h1
      have hd : q0 ∉ measured M := by
        intro h
        have := (List.nodup_append.1 hC).2.1
        exact (List.nodup_cons.1 this).1 h
      have hh : Op.h q0 ∉ M := fun h => hp.1 _ h q0 rfl rfl
      refine h1.cons (by simpa [Op.qubits] using hq0) (fun j => by simp [Func.Ok, hd]) ?_ ?_ (by simp) ?_
      · intro j
        simp only [Func.back]
        congr 1
        · funext q
          by_cases e : q = q0
          · subst e; simp [hd, hh]
          · simp [e]
        · funext q
          by_cases e : q = q0
          · subst e; simp [hd, hh]
          · simp [e]
        · funext i
          simp
      · intro q hq
        refine (hu q hq).mono fun j hj h0 => hj ⟨?_, ?_⟩ <;> simp [h0]
      · intro q hq
        obtain rfl : q0 = q := by simpa using hq
        refine (hu q0 hq0).mono fun j hj h0 => hj ?_
        simp [h0]

/-- A relation between all pairs of a list whose parts satisfy it. -/
theorem pairwise_classes {α : Type} {R : α → α → Prop} {cls : α → Nat} (M : List α)
    (h : ∀ k, (M.filter fun a => cls a = k).Pairwise R) (hne : ∀ a ∈ M, ∀ b ∈ M, cls a ≠ cls b → R a b) : M.Pairwise R := by
  induction M with
  | nil => exact .nil
  | cons a M ih =>
    refine List.pairwise_cons.2 ⟨fun b hb => ?_, ih (fun k => ?_) fun x hx y hy => hne x (by simp [hx]) y (by simp [hy])⟩
    · by_cases hc : cls a = cls b
      · have := h (cls a)
        rw [List.filter_cons_of_pos (by simp)] at this
        exact (List.pairwise_cons.1 this).1 b (List.mem_filter.2 ⟨hb, by simpa using hc.symm⟩)
      · exact hne a (by simp) b (by simp [hb]) hc
    · have := h k
      by_cases hk : cls a = k
      · rw [List.filter_cons_of_pos (by simpa using hk)] at this
        exact (List.pairwise_cons.1 this).2
      · rwa [List.filter_cons_of_neg (by simpa using hk)] at this

/-- A reordering of renamed lists is the renaming of a reordering. -/
theorem lift_classes {α β : Type} (f : α → β) (cls : β → Nat) (M : List β) (L : Nat → List α)
    (h : ∀ k, M.filter (fun b => cls b = k) = (L k).map f) :
    ∃ X : List α, X.map f = M ∧ ∀ k, X.filter (fun a => cls (f a) = k) = L k := by
  induction M generalizing L with
  | nil =>
    refine ⟨[], rfl, fun k => ?_⟩
    have := h k
    simp only [List.filter_nil] at this
    rw [List.map_eq_nil_iff.1 this.symm]
    rfl
  | cons b M ih =>
    have h0 := h (cls b)
    rw [List.filter_cons_of_pos (by simp)] at h0
    obtain ⟨a, l, hl, ha, ht⟩ := List.map_eq_cons_iff.1 h0.symm
    subst ha
    obtain ⟨X, hX, hk⟩ := ih (Function.update L (cls (f a)) l) (fun k => by
      by_cases e : k = cls (f a)
      · subst e; rw [Function.update_self, ht]
      · rw [Function.update_of_ne e, ← h k, List.filter_cons_of_neg (by simpa using fun h => e h.symm)])
    refine ⟨a :: X, by rw [List.map_cons, hX], fun k => ?_⟩
    by_cases e : k = cls (f a)
    · subst e
      rw [List.filter_cons_of_pos (by simp), hk, Function.update_self, hl]
    · rw [List.filter_cons_of_neg (by simpa using fun h => e h.symm), hk, Function.update_of_ne e]

end SurfaceSim
