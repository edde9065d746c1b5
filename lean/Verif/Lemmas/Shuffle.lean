/-
Operations on disjoint qubits can be exchanged, up to the order in which random bits are drawn.
-/
import Verif.Lemmas.Frame
import Verif.Lemmas.Does

namespace SurfaceSim.Spec
open SurfaceSim

variable {Q : Type} [DecidableEq Q]

/-- The operation draws a random bit. -/
def Op.draws : Op Q → Bool
  | .m _ => true | .mx _ => true | .my _ => true | .r _ => true | .rx _ => true | .ry _ => true
  | _ => false

/-- A gate, measurement or reset. -/
def Op.acts : Op Q → Bool
  | .det _ => false | .obs _ _ => false
  | _ => true

/-- `step` with the random bit given. -/
def stepBit (b : ZMod 2) (st : FState Q) (op : Op Q) : FState Q := step (fun _ => b) st op

theorem step_eq_stepBit (ρ : Nat → ZMod 2) (st : FState Q) (op : Op Q) :
    step ρ st op = stepBit (ρ st.rnd) st op := by
  cases op <;> rfl

theorem stepBit_rnd (b : ZMod 2) (st : FState Q) (op : Op Q) :
    (stepBit b st op).rnd = st.rnd + if op.draws then 1 else 0 := by
  cases op <;> simp [stepBit, step, Op.draws]

theorem stepBit_draws {op : Op Q} (h : op.draws = false) (b b' : ZMod 2) (st : FState Q) :
    stepBit b st op = stepBit b' st op := by
  cases op <;> first | rfl | simp [Op.draws] at h

/-- Outside its qubits an operation does nothing. -/
theorem stepBit_outside (b : ZMod 2) (st : FState Q) (op : Op Q) (q : Q) (hq : q ∉ op.qubits) :
    (stepBit b st op).x q = st.x q ∧ (stepBit b st op).z q = st.z q := by
  cases op <;> simp [Op.qubits] at hq <;> simp [stepBit, step, hq]

/-- What an operation does to its qubits only depends on them. -/
theorem stepBit_local (b : ZMod 2) (st st' : FState Q) (op : Op Q)
    (h : ∀ q ∈ op.qubits, st.x q = st'.x q ∧ st.z q = st'.z q) (q : Q) (hq : q ∈ op.qubits) :
    (stepBit b st op).x q = (stepBit b st' op).x q ∧ (stepBit b st op).z q = (stepBit b st' op).z q := by
  cases op with
  | cz a c =>
    have ha := h a (by simp [Op.qubits])
    have hc := h c (by simp [Op.qubits])
    have hh := h q hq
    simp only [stepBit, step, Function.update_apply, ha, hc, hh, and_self]
  | cx a c =>
    have ha := h a (by simp [Op.qubits])
    have hc := h c (by simp [Op.qubits])
    have hh := h q hq
    simp only [stepBit, step, Function.update_apply, ha, hc, hh, and_self]
  | swap a c =>
    have ha := h a (by simp [Op.qubits])
    have hc := h c (by simp [Op.qubits])
    have hh := h q hq
    simp only [stepBit, step, Function.update_apply, ha, hc, hh, and_self]
  | det _ => simp [Op.qubits] at hq
  | obs _ _ => simp [Op.qubits] at hq
  | _ =>
    simp [Op.qubits] at hq
    subst hq
    have hh := h q (by simp [Op.qubits])
    simp [stepBit, step, hh]

/-- The opOutcome of an operation, if it measures. -/
def opOutcome (st : FState Q) : Op Q → List (ZMod 2)
  | .m q => [st.x q] | .mx q => [st.z q] | .my q => [st.x q + st.z q]
  | _ => []

theorem stepBit_recs (b : ZMod 2) (st : FState Q) (op : Op Q) :
    (stepBit b st op).recs = opOutcome st op ++ st.recs := by
  cases op <;> rfl

theorem opOutcome_congr (st st' : FState Q) (op : Op Q)
    (h : ∀ q ∈ op.qubits, st.x q = st'.x q ∧ st.z q = st'.z q) : opOutcome st op = opOutcome st' op := by
  cases op <;> simp only [opOutcome] <;> (have := h _ (by simp only [Op.qubits, List.mem_singleton]; rfl); simp [this])

theorem opOutcome_nil {op : Op Q} (h : opMeas op = none) (st : FState Q) : opOutcome st op = [] := by
  cases op <;> first | rfl | simp at h

theorem stepBit_acts {op : Op Q} (h : op.acts = true) (b : ZMod 2) (st : FState Q) :
    (stepBit b st op).dets = st.dets ∧ (stepBit b st op).obs = st.obs := by
  cases op <;> first | exact ⟨rfl, rfl⟩ | simp [Op.acts] at h

/-- `a` and `b` act on different qubits and do not both measure. -/
structure Indep (a b : Op Q) : Prop where
  disj : ∀ q ∈ a.qubits, q ∉ b.qubits
  meas : opMeas a = none ∨ opMeas b = none
  actsA : a.acts = true
  actsB : b.acts = true

theorem FState.ext' {st st' : FState Q} (hx : ∀ q, st.x q = st'.x q) (hz : ∀ q, st.z q = st'.z q)
    (hr : st.recs = st'.recs) (hd : st.dets = st'.dets) (ho : st.obs = st'.obs) (hn : st.rnd = st'.rnd) : st = st' := by
  cases st; cases st'
  simp only [FState.mk.injEq]
  exact ⟨funext hx, funext hz, hr, hd, ho, hn⟩

theorem stepBit_swap {a b : Op Q} (h : Indep a b) (u v : ZMod 2) (st : FState Q) :
    stepBit v (stepBit u st a) b = stepBit u (stepBit v st b) a := by
  have hba : ∀ q ∈ b.qubits, q ∉ a.qubits := fun q h1 h2 => h.disj q h2 h1
  have e1 : ∀ q ∈ b.qubits, (stepBit u st a).x q = st.x q ∧ (stepBit u st a).z q = st.z q := fun q hq =>
    stepBit_outside u st a q (hba q hq)
  have e2 : ∀ q ∈ a.qubits, (stepBit v st b).x q = st.x q ∧ (stepBit v st b).z q = st.z q := fun q hq =>
    stepBit_outside v st b q (h.disj q hq)
  have key : ∀ q, (stepBit v (stepBit u st a) b).x q = (stepBit u (stepBit v st b) a).x q ∧
      (stepBit v (stepBit u st a) b).z q = (stepBit u (stepBit v st b) a).z q := by
    intro q
    by_cases hb : q ∈ b.qubits
    · obtain ⟨k1, k2⟩ := stepBit_local v _ _ b e1 q hb
      obtain ⟨k3, k4⟩ := stepBit_outside u (stepBit v st b) a q (hba q hb)
      exact ⟨by rw [k1, k3], by rw [k2, k4]⟩
    · obtain ⟨k1, k2⟩ := stepBit_outside v (stepBit u st a) b q hb
      by_cases ha : q ∈ a.qubits
      · obtain ⟨k3, k4⟩ := stepBit_local u _ _ a e2 q ha
        exact ⟨by rw [k1, k3], by rw [k2, k4]⟩
      · obtain ⟨k3, k4⟩ := stepBit_outside u (stepBit v st b) a q ha
        obtain ⟨k5, k6⟩ := stepBit_outside u st a q ha
        obtain ⟨k7, k8⟩ := stepBit_outside v st b q hb
        exact ⟨by rw [k1, k3, k5, k7], by rw [k2, k4, k6, k8]⟩
  refine FState.ext' (fun q => (key q).1) (fun q => (key q).2) ?_ ?_ ?_ ?_
  · rw [stepBit_recs, stepBit_recs, stepBit_recs, stepBit_recs, opOutcome_congr _ _ b e1, opOutcome_congr _ _ a e2]
    rcases h.meas with hm | hm <;> rw [opOutcome_nil hm] <;> simp
  · rw [(stepBit_acts h.actsB _ _).1, (stepBit_acts h.actsA _ _).1, (stepBit_acts h.actsA _ _).1,
      (stepBit_acts h.actsB _ _).1]
  · rw [(stepBit_acts h.actsB _ _).2, (stepBit_acts h.actsA _ _).2, (stepBit_acts h.actsA _ _).2,
      (stepBit_acts h.actsB _ _).2]
  · simp only [stepBit_rnd]; omega

theorem run_rnd_le (ρ : Nat → ZMod 2) (st : FState Q) (L : List (Op Q)) : st.rnd ≤ (run ρ st L).rnd := by
  induction L generalizing st with
  | nil => exact le_refl _
  | cons op L ih =>
    refine le_trans ?_ (ih (step ρ st op))
    rw [step_eq_stepBit, stepBit_rnd]
    omega

theorem run_congr {ρ ρ' : Nat → ZMod 2} {st : FState Q} {L : List (Op Q)}
    (h : ∀ n, st.rnd ≤ n → n < (run ρ st L).rnd → ρ' n = ρ n) : run ρ' st L = run ρ st L := by
  induction L generalizing st with
  | nil => rfl
  | cons op L ih =>
    rw [run_cons, run_cons]
    have hs : step ρ' st op = step ρ st op := by
      rw [step_eq_stepBit, step_eq_stepBit]
      by_cases hd : op.draws = true
      · rw [h st.rnd (le_refl _)]
        have := run_rnd_le ρ (step ρ st op) L
        rw [run_cons]
        rw [step_eq_stepBit, stepBit_rnd, if_pos hd] at this
        rw [step_eq_stepBit]
        omega
      · exact stepBit_draws (by simpa using hd) _ _ _
    rw [hs]
    refine ih fun n h1 h2 => h n ?_ h2
    refine le_trans ?_ h1
    rw [step_eq_stepBit, stepBit_rnd]
    omega

/-- `M` does the same as `L` if its random bits are drawn in another order. -/
def Shuf (L M : List (Op Q)) : Prop :=
  ∀ (ρ : Nat → ZMod 2) (st : FState Q), ∃ ρ' : Nat → ZMod 2,
    (∀ n, n < st.rnd ∨ (run ρ st L).rnd ≤ n → ρ' n = ρ n) ∧ run ρ' st M = run ρ st L

theorem Shuf.refl (L : List (Op Q)) : Shuf L L := fun ρ _ => ⟨ρ, fun _ _ => rfl, rfl⟩

theorem Shuf.trans {L M N : List (Op Q)} (h1 : Shuf L M) (h2 : Shuf M N) : Shuf L N := by
  intro ρ st
  obtain ⟨ρ1, a1, b1⟩ := h1 ρ st
  obtain ⟨ρ2, a2, b2⟩ := h2 ρ1 st
  refine ⟨ρ2, fun n hn => ?_, by rw [b2, b1]⟩
  rw [a2 n (by rw [b1]; exact hn), a1 n hn]

theorem Shuf.cons {L M : List (Op Q)} (op : Op Q) (h : Shuf L M) : Shuf (op :: L) (op :: M) := by
  intro ρ st
  obtain ⟨ρ', a, b⟩ := h ρ (step ρ st op)
  have hle : st.rnd ≤ (step ρ st op).rnd := by rw [step_eq_stepBit, stepBit_rnd]; omega
  refine ⟨ρ', fun n hn => a n ?_, ?_⟩
  · rcases hn with hn | hn
    · left; omega
    · right; exact hn
  · rw [run_cons, run_cons, ← b]
    congr 1
    rw [step_eq_stepBit, step_eq_stepBit]
    by_cases hd : op.draws = true
    · rw [a st.rnd]
      left
      rw [step_eq_stepBit, stepBit_rnd, if_pos hd]
      omega
    · exact stepBit_draws (by simpa using hd) _ _ _

theorem Shuf.append_left {L M : List (Op Q)} (A : List (Op Q)) (h : Shuf L M) : Shuf (A ++ L) (A ++ M) := by
  induction A with
  | nil => exact h
  | cons op A ih => exact ih.cons op

theorem Shuf.append_right {L M : List (Op Q)} (h : Shuf L M) (N : List (Op Q)) : Shuf (L ++ N) (M ++ N) := by
  intro ρ st
  obtain ⟨ρ', a, b⟩ := h ρ st
  have hle := run_rnd_le ρ (run ρ st L) N
  refine ⟨ρ', fun n hn => a n ?_, ?_⟩
  · rcases hn with hn | hn
    · exact .inl hn
    · rw [run_append] at hn; right; omega
  · rw [run_append, run_append, b]
    exact run_congr fun n h1 _ => a n (.inr h1)

/-- Exchanging two independent neighbours. -/
theorem Shuf.swap {a b : Op Q} (h : Indep a b) (L : List (Op Q)) : Shuf (a :: b :: L) (b :: a :: L) := by
  refine Shuf.append_right (L := [a, b]) (M := [b, a]) ?_ L
  intro ρ st
  by_cases ha : a.draws = true
  · by_cases hb : b.draws = true
    · refine ⟨fun n => if n = st.rnd then ρ (st.rnd + 1) else if n = st.rnd + 1 then ρ st.rnd else ρ n, ?_, ?_⟩
      · intro n hn
        simp only [run_cons, run_nil, step_eq_stepBit, stepBit_rnd, ha, hb, if_true] at hn
        have h1 : n ≠ st.rnd := by omega
        have h2 : n ≠ st.rnd + 1 := by omega
        simp only [h1, h2, if_false]
      · simp only [run_cons, run_nil, step_eq_stepBit, stepBit_rnd, ha, hb, if_true, if_false, Nat.succ_ne_self]
        exact (stepBit_swap h _ _ st).symm
    · refine ⟨ρ, fun _ _ => rfl, ?_⟩
      have hb' : b.draws = false := by simpa using hb
      simp only [run_cons, run_nil, step_eq_stepBit, stepBit_rnd, ha, hb', Bool.false_eq_true, if_false, if_true,
        Nat.add_zero]
      rw [stepBit_swap h, stepBit_draws hb' (ρ st.rnd) (ρ (st.rnd + 1))]
  · refine ⟨ρ, fun _ _ => rfl, ?_⟩
    have ha' : a.draws = false := by simpa using ha
    simp only [run_cons, run_nil, step_eq_stepBit, stepBit_rnd, ha', Bool.false_eq_true, if_false, Nat.add_zero]
    rw [stepBit_swap h, stepBit_draws ha']

/-- Moving an operation behind operations it is independent of. -/
theorem Shuf.move {a : Op Q} {A : List (Op Q)} (h : ∀ b ∈ A, Indep a b) (L : List (Op Q)) :
    Shuf (a :: (A ++ L)) (A ++ a :: L) := by
  induction A with
  | nil => exact Shuf.refl _
  | cons b A ih =>
    exact (Shuf.swap (h b (by simp)) _).trans ((ih fun c hc => h c (by simp [hc])).cons b)

/-- Operations belonging to different classes act on different qubits, and measurements are in the order of the classes:
then the operations can be run class after class. -/
theorem Shuf.sort (cls : Op Q → Nat) (n : Nat) (M : List (Op Q)) (hn : ∀ a ∈ M, cls a < n)
    (hd : ∀ a ∈ M, ∀ b ∈ M, cls a ≠ cls b → ∀ q ∈ a.qubits, q ∉ b.qubits)
    (ha : ∀ a ∈ M, a.acts = true)
    (hm : M.Pairwise fun a b => opMeas a ≠ none → opMeas b ≠ none → cls a ≤ cls b) :
    Shuf M ((List.range n).flatMap fun k => M.filter fun a => cls a = k) := by
  induction M with
  | nil => simp only [List.filter_nil, List.flatMap_eq_nil_iff.2 (fun _ _ => rfl)]; exact Shuf.refl _
  | cons a M ih =>
    have ih' := ih (fun b hb => hn b (by simp [hb])) (fun b hb c hc => hd b (by simp [hb]) c (by simp [hc]))
      (fun b hb => ha b (by simp [hb])) (List.pairwise_cons.1 hm).2
    refine (ih'.cons a).trans ?_
    have hk := hn a (by simp)
    have hsplit : List.range n = List.range (cls a) ++ (cls a :: List.range' (cls a + 1) (n - cls a - 1)) := by
      rw [List.range_eq_range', List.range_eq_range', ← List.range'_succ]
      have := List.range'_append_1 (s := 0) (m := cls a) (n := n - cls a - 1 + 1)
      rw [Nat.zero_add] at this
      rw [this]
      congr 1; omega
    rw [hsplit, List.flatMap_append, List.flatMap_append, List.flatMap_cons, List.flatMap_cons]
    have e1 : ((List.range (cls a)).flatMap fun k => (a :: M).filter fun b => cls b = k) =
        (List.range (cls a)).flatMap fun k => M.filter fun b => cls b = k := by
      refine List.flatMap_congr fun k hk => ?_
      rw [List.filter_cons_of_neg]
      have := List.mem_range.1 hk
      simp; omega
    have e2 : ((List.range' (cls a + 1) (n - cls a - 1)).flatMap fun k => (a :: M).filter fun b => cls b = k) =
        (List.range' (cls a + 1) (n - cls a - 1)).flatMap fun k => M.filter fun b => cls b = k := by
      refine List.flatMap_congr fun k hk => ?_
      rw [List.filter_cons_of_neg]
      have := (List.mem_range'_1.1 hk).1
      simp; omega
    have e3 : ((a :: M).filter fun b => cls b = cls a) = a :: M.filter fun b => cls b = cls a := by
      rw [List.filter_cons_of_pos]; simp
    rw [e1, e2, e3]
    refine Shuf.move (fun b hb => ?_) _
    obtain ⟨k, h1, h2⟩ := List.mem_flatMap.1 hb
    obtain ⟨h3, h4⟩ := List.mem_filter.1 h2
    have h5 : cls b < cls a := by
      have := List.mem_range.1 h1
      simp at h4; omega
    refine ⟨hd a (by simp) b (by simp [h3]) (by omega), ?_, ha a (by simp), ha b (by simp [h3])⟩
    by_contra hc
    simp only [not_or] at hc
    have := (List.pairwise_cons.1 hm).1 b h3 hc.1 hc.2
    omega

end SurfaceSim.Spec
