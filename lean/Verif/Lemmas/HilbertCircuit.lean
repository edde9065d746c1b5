/-
Results of circuits and results of frame simulations.
-/
import Verif.Lemmas.HilbertRun

namespace SurfaceSim.Hilbert
open SurfaceSim SurfaceSim.Spec

variable {Q : Type} [DecidableEq Q]

/-- The qubits of an operation. -/
def support : Op Q → Finset Q
  | .x q | .z q | .h q | .s q | .sdag q | .m q | .mx q | .my q | .r q | .rx q | .ry q => {q}
  | .cz a b | .cx a b | .swap a b => {a, b}
  | _ => ∅

theorem on_support (op : Op Q) : op.On (support op) := by
  cases op <;> simp [Op.On, support]

theorem on_mono {A B : Finset Q} (h : A ⊆ B) {op : Op Q} : op.On A → op.On B := by
  cases op <;> simp only [Op.On] <;> first | exact fun k => h k | exact fun k => ⟨h k.1, h k.2⟩ | exact id

theorem on_all (l : List (Op Q)) : ∃ A : Finset Q, ∀ op ∈ l, op.On A := by
  induction l with
  | nil => exact ⟨∅, by simp⟩
  | cons op l ih =>
    obtain ⟨A, h⟩ := ih
    refine ⟨support op ∪ A, fun o ho => ?_⟩
    rcases List.mem_cons.1 ho with rfl | ho
    · exact on_mono Finset.subset_union_left (on_support o)
    · exact on_mono Finset.subset_union_right (h o ho)

variable {l : List (Op Q)} {A : Finset Q}

theorem cpl_start (ζ : Q → ZMod 2) : Cpl A (QState.init Q) (QState.init Q) (FState.start ζ) where
  ket := by
    exact ((Good.init (A := A)).stab (0, ζ) rfl).symm
  recs := rfl
  len := rfl
  dets := rfl
  obs := rfl
  dlen := rfl
  olen := rfl

/-- Results of the circuit are those of the reference changed by the frame simulation. -/
theorem result_iff (hd : ∀ op ∈ l, op.Distinct) {s0 : QState Q} (h0 : Runs (withoutFlips l) (QState.init Q) s0)
    (R D : List (ZMod 2)) (O : List (Rat × ZMod 2)) :
    (∃ s, Runs l (QState.init Q) s ∧ s.recs = R ∧ s.dets = D ∧ s.obs = O) ↔
    ∃ ζ ρ, R = addLists s0.recs (run ρ (FState.start ζ) l).recs ∧ D = addLists s0.dets (run ρ (FState.start ζ) l).dets ∧
      O = addObs s0.obs (run ρ (FState.start ζ) l).obs := by
  obtain ⟨A, ho⟩ := on_all l
  constructor
  · rintro ⟨s, hs, rfl, rfl, rfl⟩
    obtain ⟨g, hg, ρ, hc⟩ := complete l ho hd _ _ (FState.start 0) _ Good.init (cpl_start (A := A) 0) s0 s h0 hs
    have e : setFr (FState.start (0 : Q → ZMod 2)) (fr (FState.start 0) + g) = FState.start g.2 := by
      have hg : g.1 = 0 := hg
      simp only [setFr, fr, FState.start, FState.init, Prod.fst_add, Prod.snd_add, hg]
      congr 1
      funext q
      simp
    rw [e] at hc
    exact ⟨g.2, ρ, hc.recs, hc.dets, hc.obs⟩
  · rintro ⟨ζ, ρ, rfl, rfl, rfl⟩
    obtain ⟨s, hs, hc⟩ := sound l ho hd _ _ _ ρ (cpl_start (A := A) ζ) init_ne s0 h0
    exact ⟨s, hs, hc.recs, hc.dets, hc.obs⟩

theorem exists_run (hd : ∀ op ∈ l, op.Distinct) : ∃ s, Runs l (QState.init Q) s := by
  obtain ⟨A, ho⟩ := on_all l
  exact runs_exist l ho hd _ init_ne

theorem exists_ref (hd : ∀ op ∈ l, op.Distinct) : ∃ s, Runs (withoutFlips l) (QState.init Q) s :=
  exists_run fun op h => hd op (List.mem_of_mem_filter h)

theorem addLists_cancel {a b c : List (ZMod 2)} (hb : a.length = b.length) (hc : a.length = c.length)
    (h : addLists a b = addLists a c) : b = c := by
  induction a generalizing b c with
  | nil =>
    rw [List.length_eq_zero_iff.1 hb.symm, List.length_eq_zero_iff.1 hc.symm]
  | cons x a ih =>
    cases b with
    | nil => cases hb
    | cons y b =>
      cases c with
      | nil => cases hc
      | cons z c =>
        simp only [addLists, List.zipWith_cons_cons, List.cons.injEq, add_right_inj] at h
        rw [h.1, ih (by simpa using hb) (by simpa using hc) h.2]

theorem addObs_cancel {a b c : List (Rat × ZMod 2)} (hb : a.map Prod.fst = b.map Prod.fst)
    (hc : a.map Prod.fst = c.map Prod.fst) (h : addObs a b = addObs a c) : b = c := by
  induction a generalizing b c with
  | nil =>
    rw [List.map_eq_nil_iff.1 hb.symm, List.map_eq_nil_iff.1 hc.symm]
  | cons x a ih =>
    cases b with
    | nil => cases hb
    | cons y b =>
      cases c with
      | nil => cases hc
      | cons z c =>
        simp only [addObs, List.zipWith_cons_cons, List.cons.injEq, Prod.mk.injEq, true_and, add_right_inj] at h
        simp only [List.map_cons, List.cons.injEq] at hb hc
        rw [ih hb.2 hc.2 h.2, Prod.ext (hb.1.symm.trans hc.1) h.1]

theorem deterministic_iff (hd : ∀ op ∈ l, op.Distinct) :
    Deterministic l ↔ ∀ ζ ρ ζ' ρ', (run ρ (FState.start ζ) l).dets = (run ρ' (FState.start ζ') l).dets ∧
      (run ρ (FState.start ζ) l).obs = (run ρ' (FState.start ζ') l).obs := by
  obtain ⟨A, ho⟩ := on_all l
  obtain ⟨s0, h0⟩ := exists_ref hd
  constructor
  · intro h ζ ρ ζ' ρ'
    obtain ⟨s, hs, hc⟩ := sound l ho hd _ _ _ ρ (cpl_start (A := A) ζ) init_ne s0 h0
    obtain ⟨s', hs', hc'⟩ := sound l ho hd _ _ _ ρ' (cpl_start (A := A) ζ') init_ne s0 h0
    obtain ⟨e1, e2⟩ := h.2 s s' hs hs'
    rw [hc.dets, hc'.dets] at e1
    rw [hc.obs, hc'.obs] at e2
    exact ⟨addLists_cancel hc.dlen hc'.dlen e1, addObs_cancel hc.olen hc'.olen e2⟩
  · intro h
    refine ⟨exists_run hd, fun s s' hs hs' => ?_⟩
    obtain ⟨ζ, ρ, -, e1, e2⟩ := (result_iff hd h0 _ _ _).1 ⟨s, hs, rfl, rfl, rfl⟩
    obtain ⟨ζ', ρ', -, e1', e2'⟩ := (result_iff hd h0 _ _ _).1 ⟨s', hs', rfl, rfl, rfl⟩
    rw [e1, e2, e1', e2', (h ζ ρ ζ' ρ').1, (h ζ ρ ζ' ρ').2]
    exact ⟨rfl, rfl⟩

/-- Images of operators under several gates. -/
theorem gates_act (ho : ∀ op ∈ l, op.On A) (hd : ∀ op ∈ l, op.Distinct) (P : Pauli Q) (ψ : Ket Q) :
    l.foldl gate (P.act A ψ) = (P.conjAll l).act A (l.foldl gate ψ) := by
  induction l generalizing P ψ with
  | nil => rfl
  | cons op l ih =>
    show l.foldl gate (gate (P.act A ψ) op) = ((P.conj op).conjAll l).act A (l.foldl gate (gate ψ op))
    rw [gate_act P ψ (ho op List.mem_cons_self) (hd op List.mem_cons_self)]
    exact ih (fun o h => ho o (List.mem_cons_of_mem _ h)) (fun o h => hd o (List.mem_cons_of_mem _ h)) _ _

end SurfaceSim.Hilbert
