/-
Faulty operations: on labels, in blocks, and what they record.
-/
import Verif.Lemmas.Faults
import Verif.Lemmas.RoundSpec

namespace SurfaceSim
open Spec

variable {Q R : Type}

theorem Op.rename_touches {f : Q → R} {o : Op Q} {q : Q} (h : o.Touches q) : (o.rename f).Touches (f q) := by
  cases o <;> simp only [Op.Touches, Op.rename] at h ⊢ <;> first | (subst h; rfl) | (rcases h with rfl | rfl <;> simp) | exact h

theorem Spec.Faulty.append {P : Q → Q → Prop} {l m : List (Op Q)} {L : List (Op Q)} {k : Nat} (h : Faulty P (l ++ m) L k) :
    ∃ L1 L2 k1 k2 P', L = L1 ++ L2 ∧ k = k1 + k2 ∧ Faulty P l L1 k1 ∧ Faulty P' m L2 k2 := by
  induction l generalizing P L k with
  | nil => exact ⟨[], L, 0, k, P, rfl, by omega, .done P, h⟩
  | cons o l ih =>
    generalize hl : o :: l ++ m = l' at h
    induction h with
    | done P => simp at hl
    | @op P l' L k o' h ih2 =>
      simp only [List.cons_append, List.cons.injEq] at hl
      obtain ⟨rfl, rfl⟩ := hl
      obtain ⟨L1, L2, k1, k2, P', rfl, rfl, h1, h2⟩ := ih h
      exact ⟨o :: L1, L2, k1, k2, P', rfl, rfl, .op o h1, h2⟩
    | @one P l' L k q bx bz h ih2 =>
      obtain ⟨L1, L2, k1, k2, P', rfl, rfl, h1, h2⟩ := ih2 hl
      exact ⟨_, L2, k1 + 1, k2, P', (List.append_assoc _ _ _).symm, by omega, .one q bx bz h1, h2⟩
    | @two P l' L k a b ax az bx bz hp h ih2 =>
      obtain ⟨L1, L2, k1, k2, P', rfl, rfl, h1, h2⟩ := ih2 hl
      exact ⟨_, L2, k1 + 1, k2, P', (List.append_assoc _ _ _).symm, by omega, .two a b ax az bx bz hp h1, h2⟩
    | @outcome P l' L k q h ih2 =>
      simp only [List.cons_append, List.cons.injEq] at hl
      obtain ⟨rfl, rfl⟩ := hl
      obtain ⟨L1, L2, k1, k2, P', rfl, rfl, h1, h2⟩ := ih h
      exact ⟨_, L2, k1 + 1, k2, P', (List.append_assoc _ _ _).symm, by omega, .outcome q h1, h2⟩

/-- Without faults. -/
theorem Spec.Faulty.noFaults (P : Q → Q → Prop) (l : List (Op Q)) : Faulty P l l 0 := by
  induction l generalizing P with
  | nil => exact .done P
  | cons o l ih => exact .op o (ih _)

variable [DecidableEq Q] [DecidableEq R]

theorem run_pauli_rec (ρ : Nat → ZMod 2) (st : FState Q) (q : Q) (bx bz : Bool) :
    (run ρ st (pauli q bx bz)).recs = st.recs ∧ (run ρ st (pauli q bx bz)).dets = st.dets ∧
      (run ρ st (pauli q bx bz)).obs = st.obs ∧ (run ρ st (pauli q bx bz)).rnd = st.rnd := by
  unfold pauli
  cases bx <;> cases bz <;> simp [run, step]

/-- Operations that define detectors and observables do so from the record. -/
theorem Spec.Faulty.quiet {P : Q → Q → Prop} {l L : List (Op Q)} {k : Nat} (h : Faulty P l L k)
    (hl : ∀ o ∈ l, (∃ ks, o = .det ks) ∨ ∃ k ks, o = .obs k ks) (ρ : Nat → ZMod 2) (st : FState Q) :
    (run ρ st L).recs = st.recs ∧ (run ρ st L).dets = (run ρ st l).dets ∧ (run ρ st L).obs = (run ρ st l).obs := by
  have cong : ∀ (l : List (Op Q)), (∀ o ∈ l, (∃ ks, o = Op.det ks) ∨ ∃ k ks, o = Op.obs k ks) → ∀ st st' : FState Q,
      st.recs = st'.recs → st.dets = st'.dets → st.obs = st'.obs →
      (run ρ st l).dets = (run ρ st' l).dets ∧ (run ρ st l).obs = (run ρ st' l).obs := by
    intro l
    induction l with
    | nil => intro _ st st' _ h2 h3; exact ⟨h2, h3⟩
    | cons o l ih =>
      intro hl st st' h1 h2 h3
      rw [run_cons, run_cons]
      rcases hl o (by simp) with ⟨ks, rfl⟩ | ⟨k, ks, rfl⟩
      · exact ih (fun o h => hl o (by simp [h])) _ _ h1 (by simp [step, h1, h2]) h3
      · exact ih (fun o h => hl o (by simp [h])) _ _ h1 h2 (by simp [step, h1, h3])
  induction h generalizing st with
  | done P => exact ⟨rfl, rfl, rfl⟩
  | @op P l L k o h ih =>
    have := ih (fun o h => hl o (by simp [h])) (step ρ st o)
    rw [run_cons, run_cons]
    refine ⟨?_, this.2.1, this.2.2⟩
    rw [this.1]
    rcases hl o (by simp) with ⟨ks, rfl⟩ | ⟨k, ks, rfl⟩ <;> rfl
  | @one P l L k q bx bz h ih =>
    obtain ⟨h1, h2, h3, -⟩ := run_pauli_rec ρ st q bx bz
    have := ih hl (run ρ st (pauli q bx bz))
    have c := cong l hl _ _ h1 h2 h3
    rw [run_append]
    exact ⟨this.1.trans h1, this.2.1.trans c.1, this.2.2.trans c.2⟩
  | @two P l L k a b ax az bx bz hp h ih =>
    obtain ⟨h1, h2, h3, -⟩ := run_pauli_rec ρ st a ax az
    obtain ⟨g1, g2, g3, -⟩ := run_pauli_rec ρ (run ρ st (pauli a ax az)) b bx bz
    have := ih hl (run ρ (run ρ st (pauli a ax az)) (pauli b bx bz))
    have c := cong l hl _ _ (g1.trans h1) (g2.trans h2) (g3.trans h3)
    rw [run_append, run_append]
    exact ⟨this.1.trans (g1.trans h1), this.2.1.trans c.1, this.2.2.trans c.2⟩
  | @outcome P l L k q h ih =>
    rcases hl (.m q) (by simp) with ⟨ks, h⟩ | ⟨k, ks, h⟩ <;> simp at h

/-- Operations that define no detector and no observable add as many outcomes as without faults. -/
theorem Spec.Faulty.records {P : Q → Q → Prop} {l L : List (Op Q)} {k : Nat} (h : Faulty P l L k)
    (hl : ∀ o ∈ l, (∀ ks, o ≠ .det ks) ∧ ∀ k ks, o ≠ .obs k ks) (ρ : Nat → ZMod 2) (st : FState Q) :
    (∃ v : List (ZMod 2), v.length = (measured l).length ∧ (run ρ st L).recs = v ++ st.recs) ∧
      (run ρ st L).dets = st.dets ∧ (run ρ st L).obs = st.obs := by
  have one : ∀ (o : Op Q) (st : FState Q), ((∀ ks, o ≠ .det ks) ∧ ∀ k ks, o ≠ .obs k ks) →
      (∃ v : List (ZMod 2), v.length = (measured [o]).length ∧ (step ρ st o).recs = v ++ st.recs) ∧
        (step ρ st o).dets = st.dets ∧ (step ρ st o).obs = st.obs := by
    intro o st ho
    cases o <;>
      first
      | exact (ho.1 _ rfl).elim
      | exact (ho.2 _ _ rfl).elim
      | exact ⟨⟨[], rfl, rfl⟩, rfl, rfl⟩
      | exact ⟨⟨[_], rfl, rfl⟩, rfl, rfl⟩
  induction h generalizing st with
  | done P => exact ⟨⟨[], rfl, rfl⟩, rfl, rfl⟩
  | @op P l L k o h ih =>
    obtain ⟨⟨v, h1, h2⟩, h3, h4⟩ := ih (fun o h => hl o (by simp [h])) (step ρ st o)
    obtain ⟨⟨v', g1, g2⟩, g3, g4⟩ := one o st (hl o (by simp))
    rw [run_cons]
    refine ⟨⟨v ++ v', ?_, by rw [h2, g2, List.append_assoc]⟩, h3.trans g3, h4.trans g4⟩
    rw [show o :: l = [o] ++ l from rfl, measured_append]
    simp [h1, g1, Nat.add_comm]
  | @one P l L k q bx bz h ih =>
    obtain ⟨h1, h2, h3, -⟩ := run_pauli_rec ρ st q bx bz
    have := ih hl (run ρ st (pauli q bx bz))
    rw [run_append]
    rw [h1, h2, h3] at this
    exact this
  | @two P l L k a b ax az bx bz hp h ih =>
    obtain ⟨h1, h2, h3, -⟩ := run_pauli_rec ρ st a ax az
    obtain ⟨g1, g2, g3, -⟩ := run_pauli_rec ρ (run ρ st (pauli a ax az)) b bx bz
    have := ih hl (run ρ (run ρ st (pauli a ax az)) (pauli b bx bz))
    rw [run_append, run_append]
    rw [g1, g2, g3, h1, h2, h3] at this
    exact this
  | @outcome P l L k q h ih =>
    simp only [List.cons_append, List.nil_append, run_cons]
    obtain ⟨⟨v, h1, h2⟩, h3, h4⟩ := ih (fun o h => hl o (by simp [h])) (step ρ (step ρ (step ρ st (.x q)) (.m q)) (.x q))
    refine ⟨⟨v ++ [st.x q + 1], ?_, ?_⟩, h3, h4⟩
    · rw [show Op.m q :: l = [Op.m q] ++ l from rfl, measured_append]
      simp [h1, measured, opMeas, Nat.add_comm]
    · rw [h2]
      simp [step]

theorem agree_outside {ι : String → Nat} {K : String → Prop} {st : FState String} {st' : FState Nat}
    (h : Agree ι K st st') (ρ : Nat → ZMod 2) {n : Nat} (hn : ∀ q, K q → ι q ≠ n) (bx bz : Bool) :
    Agree ι K st (run ρ st' (pauli n bx bz)) := by
  have hh := run_pauli_rec ρ st' n bx bz
  have ho : ∀ q, K q → (run ρ st' (pauli n bx bz)).x (ι q) = st'.x (ι q) ∧
      (run ρ st' (pauli n bx bz)).z (ι q) = st'.z (ι q) := by
    intro q hq
    refine run_other ρ _ st' _ fun o ho => ?_
    have : o = .x n ∨ o = .z n := by
      unfold pauli at ho
      cases bx <;> cases bz <;> simp at ho <;> tauto
    rcases this with rfl | rfl <;> simpa [Op.qubits] using hn q hq
  exact ⟨fun q hq => (ho q hq).1.trans (h.x q hq), fun q hq => (ho q hq).2.trans (h.z q hq), hh.1.trans h.recs,
    hh.2.1.trans h.dets, hh.2.2.1.trans h.obs, hh.2.2.2.trans h.rnd⟩

theorem rename_pauli (ι : Q → R) (q : Q) (bx bz : Bool) : (pauli q bx bz).map (Op.rename ι) = pauli (ι q) bx bz := by
  unfold pauli
  cases bx <;> cases bz <;> rfl

theorem rename_cz_inv {ι : Q → R} {o : Op Q} {a b : R} (h : o.rename ι = .cz a b) :
    ∃ p q, o = .cz p q ∧ ι p = a ∧ ι q = b := by
  cases o <;> simp only [Op.rename, reduceCtorEq, Op.cz.injEq] at h
  exact ⟨_, _, rfl, h⟩

theorem rename_cx_inv {ι : Q → R} {o : Op Q} {a b : R} (h : o.rename ι = .cx a b) :
    ∃ p q, o = .cx p q ∧ ι p = a ∧ ι q = b := by
  cases o <;> simp only [Op.rename, reduceCtorEq, Op.cx.injEq] at h
  exact ⟨_, _, rfl, h⟩

theorem rename_swap_inv {ι : Q → R} {o : Op Q} {a b : R} (h : o.rename ι = .swap a b) :
    ∃ p q, o = .swap p q ∧ ι p = a ∧ ι q = b := by
  cases o <;> simp only [Op.rename, reduceCtorEq, Op.swap.injEq] at h
  exact ⟨_, _, rfl, h⟩

theorem rename_m_inv {ι : Q → R} {o : Op Q} {a : R} (h : o.rename ι = .m a) : ∃ p, o = .m p ∧ ι p = a := by
  cases o <;> simp only [Op.rename, reduceCtorEq, Op.m.injEq] at h
  exact ⟨_, rfl, h⟩

/-- Faults on indices come from faults on labels. -/
theorem Spec.Faulty.pull {ι : String → Nat} {K : String → Prop} (inj : ∀ a b, K a → K b → ι a = ι b → a = b)
    {PN : Nat → Nat → Prop} {lN LN : List (Op Nat)} {k : Nat} (h : Faulty PN lN LN k) :
    ∀ (l : List (Op String)), lN = l.map (Op.rename ι) → (∀ o ∈ l, ∀ q ∈ o.qubits, K q) →
    ∀ P : String → String → Prop, (∀ a b, PN a b → ∃ p q, K p ∧ K q ∧ ι p = a ∧ ι q = b ∧ P p q) →
    ∃ L, Faulty P l L k ∧ ∀ (ρ : Nat → ZMod 2) (st : FState String) (st' : FState Nat), Agree ι K st st' →
      Agree ι K (run ρ st L) (run ρ st' LN) := by
  have next : ∀ {PN : Nat → Nat → Prop} {P : String → String → Prop} {o : Op String}, (∀ q ∈ o.qubits, K q) →
      (∀ a b, PN a b → ∃ p q, K p ∧ K q ∧ ι p = a ∧ ι q = b ∧ P p q) →
      ∀ a b, justCoupled PN (o.rename ι) a b → ∃ p q, K p ∧ K q ∧ ι p = a ∧ ι q = b ∧ justCoupled P o p q := by
    intro PN P o hk hP a b hc
    rcases hc with hc | hc | hc | ⟨hc, h1, h2⟩
    · obtain ⟨p, q, rfl, rfl, rfl⟩ := rename_cz_inv hc
      exact ⟨p, q, hk p (by simp [Op.qubits]), hk q (by simp [Op.qubits]), rfl, rfl, Or.inl rfl⟩
    · obtain ⟨p, q, rfl, rfl, rfl⟩ := rename_cx_inv hc
      exact ⟨p, q, hk p (by simp [Op.qubits]), hk q (by simp [Op.qubits]), rfl, rfl, Or.inr (Or.inl rfl)⟩
    · obtain ⟨p, q, rfl, rfl, rfl⟩ := rename_swap_inv hc
      exact ⟨p, q, hk p (by simp [Op.qubits]), hk q (by simp [Op.qubits]), rfl, rfl, Or.inr (Or.inr (Or.inl rfl))⟩
    · obtain ⟨p, q, h3, h4, rfl, rfl, h5⟩ := hP a b hc
      exact ⟨p, q, h3, h4, rfl, rfl, Or.inr (Or.inr (Or.inr ⟨h5, fun h => h1 (Op.rename_touches h),
        fun h => h2 (Op.rename_touches h)⟩))⟩
  induction h with
  | done PN =>
    intro l hl _ P _
    obtain rfl : l = [] := by simpa using hl.symm
    exact ⟨[], .done P, fun ρ st st' ha => ha⟩
  | @op PN lN LN k o h ih =>
    intro l hl hk P hP
    cases l with
    | nil => simp at hl
    | cons o' l =>
      simp only [List.map_cons, List.cons.injEq] at hl
      obtain ⟨rfl, hl⟩ := hl
      obtain ⟨L, h1, h2⟩ := ih l hl (fun o ho => hk o (by simp [ho])) (justCoupled P o') (next (hk o' (by simp)) hP)
      refine ⟨o' :: L, .op o' h1, fun ρ st st' ha => ?_⟩
      rw [run_cons, run_cons]
      exact h2 ρ _ _ (ha.step inj ρ o' (hk o' (by simp)))
  | @one PN lN LN k n bx bz h ih =>
    intro l hl hk P hP
    obtain ⟨L, h1, h2⟩ := ih l hl hk P hP
    by_cases hn : ∃ q, K q ∧ ι q = n
    · obtain ⟨q, hq, rfl⟩ := hn
      refine ⟨_, .one q bx bz h1, fun ρ st st' ha => ?_⟩
      rw [run_append, run_append]
      refine h2 ρ _ _ ?_
      rw [← rename_pauli]
      refine ha.run inj ρ _ fun o ho p hp => ?_
      have : o = .x q ∨ o = .z q := by
        unfold pauli at ho
        cases bx <;> cases bz <;> simp at ho <;> tauto
      rcases this with rfl | rfl <;> simp [Op.qubits] at hp <;> exact hp ▸ hq
    · refine ⟨_, .one "" false false h1, fun ρ st st' ha => ?_⟩
      rw [run_append, run_append]
      exact h2 ρ _ _ (agree_outside ha ρ (fun q hq he => hn ⟨q, hq, he⟩) bx bz)
  | @two PN lN LN k a b ax az bx bz hp h ih =>
    intro l hl hk P hP
    obtain ⟨L, h1, h2⟩ := ih l hl hk P hP
    obtain ⟨p, q, hKp, hKq, rfl, rfl, hpq⟩ := hP a b hp
    refine ⟨_, .two p q ax az bx bz hpq h1, fun ρ st st' ha => ?_⟩
    rw [run_append, run_append, run_append (l := pauli (ι p) ax az ++ pauli (ι q) bx bz), run_append (l := pauli (ι p) ax az)]
    refine h2 ρ _ _ ?_
    have hh : ∀ (r : String) (cx cz : Bool) (st : FState String) (st' : FState Nat), K r → Agree ι K st st' →
        Agree ι K (run ρ st (pauli r cx cz)) (run ρ st' (pauli (ι r) cx cz)) := by
      intro r cx cz st st' hr ha
      rw [← rename_pauli]
      refine ha.run inj ρ _ fun o ho p hp => ?_
      have : o = .x r ∨ o = .z r := by
        unfold pauli at ho
        cases cx <;> cases cz <;> simp at ho <;> tauto
      rcases this with rfl | rfl <;> simp [Op.qubits] at hp <;> exact hp ▸ hr
    exact hh q bx bz _ _ hKq (hh p ax az _ _ hKp ha)
  | @outcome PN lN LN k n h ih =>
    intro l hl hk P hP
    cases l with
    | nil => simp at hl
    | cons o' l =>
      simp only [List.map_cons, List.cons.injEq] at hl
      obtain ⟨ho, hl⟩ := hl
      obtain ⟨q, rfl, rfl⟩ := rename_m_inv ho.symm
      have hq : K q := hk (.m q) (by simp) q (by simp [Op.qubits])
      obtain ⟨L, h1, h2⟩ := ih l hl (fun o ho => hk o (by simp [ho])) (justCoupled P (.m q)) (next (o := .m q) (hk _ (by simp)) hP)
      refine ⟨_, .outcome q h1, fun ρ st st' ha => ?_⟩
      rw [run_append, run_append]
      refine h2 ρ _ _ ?_
      have := ha.run inj ρ [Op.x q, Op.m q, Op.x q] (by simp [Op.qubits, hq])
      exact this

end SurfaceSim
