/-
Runs of a circuit are reference runs changed by runs of the frame simulation.
-/
import Verif.Lemmas.HilbertFrame

namespace SurfaceSim.Hilbert
open SurfaceSim SurfaceSim.Spec Complex

variable {Q : Type} [DecidableEq Q] {A : Finset Q}

/-- What an operation does. -/
inductive Kind (A : Finset Q) (op : Op Q) : Prop
  | flip (C : Ket Q → Ket Q) (g : Fr Q) (hf : op.isFlip = true) (hC : ∀ ψ, C ψ = pa A g ψ)
      (hq : ∀ m s, qstep m s op = { s with ket := C s.ket }) (hs : ∀ ρ st, step ρ st op = setFr st (fr st + g))
  | unitary (hf : op.isFlip = false) (hq : ∀ m s, qstep m s op = { s with ket := gate s.ket op })
      (hs : ∀ ρ st, step ρ st op = setFr st (lin op (fr st)))
  | meas (hf : op.isFlip = false) (M : Meas A op)
  | det (ks : List Int) (e : op = .det ks)
  | obs (k : Rat) (ks : List Int) (e : op = .obs k ks)

theorem kind {op : Op Q} (h : op.On A) : Kind A op := by
  cases op with
  | x q =>
    refine .flip (opX q) (ax q 1 0) rfl (opX_eq q) (fun _ _ => rfl) fun ρ st => ?_
    simp [step, setFr, fr, ax, update_add]
  | z q =>
    refine .flip (opZ q) (ax q 0 1) rfl (opZ_eq h) (fun _ _ => rfl) fun ρ st => ?_
    simp [step, setFr, fr, ax, update_add]
  | h q => exact .unitary rfl (fun _ _ => rfl) fun _ _ => rfl
  | s q => exact .unitary rfl (fun _ _ => rfl) fun _ _ => rfl
  | sdag q => exact .unitary rfl (fun _ _ => rfl) fun _ _ => rfl
  | cz q => exact .unitary rfl (fun _ _ => rfl) fun _ _ => rfl
  | cx q => exact .unitary rfl (fun _ _ => rfl) fun _ _ => rfl
  | swap q => exact .unitary rfl (fun _ _ => rfl) fun _ _ => rfl
  | m q => exact .meas rfl (.m h)
  | mx q => exact .meas rfl (.mx h)
  | my q => exact .meas rfl (.my h)
  | r q => exact .meas rfl (.r h)
  | rx q => exact .meas rfl (.rx h)
  | ry q => exact .meas rfl (.ry h)
  | det ks => exact .det ks rfl
  | obs k ks => exact .obs k ks rfl

theorem withoutFlips_flip {op : Op Q} (h : op.isFlip = true) (l : List (Op Q)) :
    withoutFlips (op :: l) = withoutFlips l := by
  simp [withoutFlips, h]

theorem withoutFlips_cons {op : Op Q} (h : op.isFlip = false) (l : List (Op Q)) :
    withoutFlips (op :: l) = op :: withoutFlips l := by
  simp [withoutFlips, h]

theorem pa_ne (g : Fr Q) {ψ : Ket Q} (h : ψ ≠ 0) : pa A g ψ ≠ 0 := by
  intro h0
  have h1 := pa_pa (A := A) g g ψ
  rw [h0, fr_self, pa_zero] at h1
  have : pa A g (0 : Ket Q) = 0 := by simpa using pa_smul (A := A) g 0 0
  rw [this] at h1
  exact smul_ne_zero (sgn_ne _) h h1.symm

/-- Every frame simulation gives a possible run. -/
theorem sound (l : List (Op Q)) (ho : ∀ op ∈ l, op.On A) (hd : ∀ op ∈ l, op.Distinct) :
    ∀ (s s0 : QState Q) (st : FState Q) (ρ : Nat → ZMod 2), Cpl A s s0 st → s0.ket ≠ 0 →
      ∀ s0', Runs (withoutFlips l) s0 s0' → ∃ s', Runs l s s' ∧ Cpl A s' s0' (run ρ st l) := by
  induction l with
  | nil =>
    rintro s s0 st ρ hc h0 s0' (rfl : s0 = s0')
    exact ⟨s, rfl, hc⟩
  | cons op l ih =>
    intro s s0 st ρ hc h0 s0' hr
    have ih := ih (fun o h => ho o (List.mem_cons_of_mem _ h)) fun o h => hd o (List.mem_cons_of_mem _ h)
    have ho := ho op List.mem_cons_self
    have hd := hd op List.mem_cons_self
    have hrun : run ρ st (op :: l) = run ρ (step ρ st op) l := rfl
    rw [hrun]
    rcases kind ho with ⟨C, g, hf, hC, hq, hs⟩ | ⟨hf, hq, hs⟩ | ⟨hf, M⟩ | ⟨ks, rfl⟩ | ⟨k, ks, rfl⟩
    · rw [withoutFlips_flip hf] at hr
      have hc' := hc.flip hC
      rw [← hs ρ, ← hq 0] at hc'
      obtain ⟨s', h1, h2⟩ := ih _ _ _ ρ hc' h0 s0' hr
      exact ⟨s', ⟨0, hc'.ket.ne (pa_ne _ h0), h1⟩, h2⟩
    · rw [withoutFlips_cons hf] at hr
      obtain ⟨m, hm, hr⟩ := hr
      have hc' := hc.gate ho hd
      rw [← hs ρ, ← hq m, ← hq m] at hc'
      obtain ⟨s', h1, h2⟩ := ih _ _ _ ρ hc' hm s0' hr
      exact ⟨s', ⟨m, hc'.ket.ne (pa_ne _ hm), h1⟩, h2⟩
    · rw [withoutFlips_cons hf] at hr
      obtain ⟨m, hm, hr⟩ := hr
      have hc' := hc.meas M (m0 := m) rfl ρ
      obtain ⟨s', h1, h2⟩ := ih _ _ _ ρ hc' hm s0' hr
      exact ⟨s', ⟨_, hc'.ket.ne (pa_ne _ hm), h1⟩, h2⟩
    · obtain ⟨m, hm, hr⟩ := hr
      have hc' := hc.det m ρ ks
      obtain ⟨s', h1, h2⟩ := ih _ _ _ ρ hc' hm s0' hr
      exact ⟨s', ⟨m, hc'.ket.ne (pa_ne _ hm), h1⟩, h2⟩
    · obtain ⟨m, hm, hr⟩ := hr
      have hc' := hc.obsv m ρ k ks
      obtain ⟨s', h1, h2⟩ := ih _ _ _ ρ hc' hm s0' hr
      exact ⟨s', ⟨m, hc'.ket.ne (pa_ne _ hm), h1⟩, h2⟩

theorem applyIf_ne {C : Ket Q → Ket Q} {g : Fr Q} (hC : ∀ ψ, C ψ = pa A g ψ) {m : ZMod 2} {ψ : Ket Q}
    (h : applyIf m C ψ ≠ 0) : ψ ≠ 0 := by
  rintro rfl
  apply h
  rw [applyIf_eq hC]
  simpa using pa_smul (A := A) (m • g) 0 0

/-- The frame that explains the outcome of a measurement. -/
theorem choose_frame {F : Set (Fr Q)} {s s0 : QState Q} {st : FState Q} (hg : Good A F s0.ket) (hc : Cpl A s s0 st)
    {op : Op Q} (M : Meas A op) {m m0 : ZMod 2} (hm : (qstep m s op).ket ≠ 0) (hm0 : (qstep m0 s0 op).ket ≠ 0) :
    ∃ g ∈ F, m = m0 + om A (fr st + g) M.b := by
  by_cases h : m = m0 + om A (fr st) M.b
  · exact ⟨0, hg.zero, by rwa [add_zero]⟩
  by_cases hb : ∀ g ∈ F, om A g M.b = 0
  · exfalso
    have hbF : M.b ∈ F := hg.max _ M.obs.supp fun g h => by rw [om_comm]; exact hb g h
    rw [M.qstep] at hm hm0
    have h1 : project M.B m s.ket ≠ 0 := applyIf_ne M.fix hm
    have h0 : project M.B m0 s0.ket ≠ 0 := applyIf_ne M.fix hm0
    obtain ⟨c, hc0, e⟩ := hc.ket
    rw [e, M.obs.project_smul, M.obs.project_pa] at h1
    have h2 : project M.B (m + om A (fr st) M.b) s0.ket ≠ 0 := by
      intro h
      apply h1
      have : pa A (fr st) (0 : Ket Q) = 0 := by simpa using pa_smul (A := A) (fr st) 0 0
      rw [h, this, smul_zero]
    have := M.obs.project_unique (hg.stab _ hbF) h2 h0
    exact h (by rw [← this, add_assoc, add_self, add_zero])
  · push Not at hb
    obtain ⟨g, hgF, h1⟩ := hb
    refine ⟨g, hgF, ?_⟩
    rw [om_add_left, (bit _).resolve_left h1]
    revert h
    generalize om A (fr st) M.b = o
    clear * -
    revert m m0 o
    decide

/-- Every possible run is given by a frame simulation. -/
theorem complete (l : List (Op Q)) (ho : ∀ op ∈ l, op.On A) (hd : ∀ op ∈ l, op.Distinct) :
    ∀ (s s0 : QState Q) (st : FState Q) (F : Set (Fr Q)), Good A F s0.ket → Cpl A s s0 st →
      ∀ s0' s', Runs (withoutFlips l) s0 s0' → Runs l s s' →
        ∃ g ∈ F, ∃ ρ, Cpl A s' s0' (run ρ (setFr st (fr st + g)) l) := by
  induction l with
  | nil =>
    rintro s s0 st F hg hc s0' s' (rfl : s0 = s0') (rfl : s = s')
    exact ⟨0, hg.zero, 0, by rw [add_zero]; exact hc⟩
  | cons op l ih =>
    intro s s0 st F hg hc s0' s' hr0 hr
    have ih := ih (fun o h => ho o (List.mem_cons_of_mem _ h)) fun o h => hd o (List.mem_cons_of_mem _ h)
    have ho := ho op List.mem_cons_self
    have hd := hd op List.mem_cons_self
    have hrun (ρ) (st : FState Q) : run ρ st (op :: l) = run ρ (step ρ st op) l := rfl
    simp only [hrun]
    obtain ⟨m, hm, hr⟩ := hr
    rcases kind ho with ⟨C, g, hf, hC, hq, hs⟩ | ⟨hf, hq, hs⟩ | ⟨hf, M⟩ | ⟨ks, rfl⟩ | ⟨k, ks, rfl⟩
    · rw [withoutFlips_flip hf] at hr0
      have hc' := hc.flip hC
      rw [← hs 0, ← hq m] at hc'
      obtain ⟨g', h1, ρ, h2⟩ := ih _ _ _ F hg hc' s0' s' hr0 hr
      refine ⟨g', h1, ρ, ?_⟩
      have e : step ρ (setFr st (fr st + g')) op = setFr (step 0 st op) (fr (step 0 st op) + g') := by
        rw [hs, hs]
        show setFr st (fr st + g' + g) = setFr st (fr st + g + g')
        rw [add_right_comm]
      rw [e]
      exact h2
    · rw [withoutFlips_cons hf] at hr0
      obtain ⟨m0, hm0, hr0⟩ := hr0
      have hc' := hc.gate ho hd
      rw [← hs 0, ← hq m, ← hq m0] at hc'
      have hg' : Good A (lin op '' F) (qstep m0 s0 op).ket := by rw [hq]; exact hg.gate ho hd
      obtain ⟨_, ⟨g, hgF, rfl⟩, ρ, h2⟩ := ih _ _ _ _ hg' hc' s0' s' hr0 hr
      refine ⟨g, hgF, ρ, ?_⟩
      have e : step ρ (setFr st (fr st + g)) op = setFr (step 0 st op) (fr (step 0 st op) + lin op g) := by
        rw [hs, hs]
        show setFr st (lin op (fr st + g)) = setFr st (lin op (fr st) + lin op g)
        rw [lin_add]
      rw [e]
      exact h2
    · rw [withoutFlips_cons hf] at hr0
      obtain ⟨m0, hm0, hr0⟩ := hr0
      obtain ⟨g', hg'F, hmm⟩ := choose_frame hg hc M hm hm0
      have hc' := (hc.change (hg.stab g' hg'F)).meas M hmm 0
      have hg' : Good A (measF A M.b F) (qstep m0 s0 op).ket := by
        rw [M.qstep]
        show Good A _ (applyIf m0 M.C _)
        rw [applyIf_eq M.fix]
        exact (hg.measure M.obs m0).pa _
      obtain ⟨_, ⟨g, hgF, h0, e, rfl⟩, ρ, h2⟩ := ih _ _ _ _ hg' hc' s0' s' hr0 hr
      let st'' := setFr st (fr st + g')
      let ρ' : Nat → ZMod 2 := Function.update ρ st.rnd (e + M.t (fr st'') + M.t (fr st'' + g))
      refine ⟨g' + g, hg.add _ hg'F _ hgF, ρ', ?_⟩
      have es : step ρ' (setFr st (fr st + (g' + g))) op =
          setFr (step 0 st'' op) (fr (step 0 st'' op) + (g + e • M.b)) := by
        rw [M.step, M.step, ← add_assoc]
        have e1 : fr (setFr st (fr st + g' + g)) = fr st'' + g := rfl
        have e2 : om A (fr st'' + g) M.b = om A (fr st'') M.b := by rw [om_add_left, h0, add_zero]
        have e3 : ρ' (setFr st (fr st + g' + g)).rnd = e + M.t (fr st'') + M.t (fr st'' + g) := by
          show ρ' st.rnd = _
          simp [ρ']
        rw [e1, e2, e3]
        have e4 : fr st'' + g + (om A (fr st'') M.b • M.corr +
            (e + M.t (fr st'') + M.t (fr st'' + g) + M.t (fr st'' + g)) • M.b) =
            fr st'' + (om A (fr st'') M.b • M.corr + ((0 : Nat → ZMod 2) st''.rnd + M.t (fr st'')) • M.b) +
              (g + e • M.b) := by
          rw [add_assoc (e + M.t (fr st'')), add_self, add_zero, add_smul]
          simp only [Pi.zero_apply, zero_add]
          abel
        rw [e4]
        rfl
      rw [es]
      have ec : run ρ' (setFr (step 0 st'' op) (fr (step 0 st'' op) + (g + e • M.b))) l =
          run ρ (setFr (step 0 st'' op) (fr (step 0 st'' op) + (g + e • M.b))) l := by
        apply run_congr
        intro n hn _
        have : st.rnd + 1 ≤ n := by
          refine le_trans (le_of_eq ?_) hn
          rw [M.step]
          rfl
        exact Function.update_of_ne (by omega) _ _
      rw [ec]
      exact h2
    · obtain ⟨m0, hm0, hr0⟩ := hr0
      have hc' := hc.det m 0 ks
      obtain ⟨g, hgF, ρ, h2⟩ := ih _ (qstep m s0 (.det ks)) _ F hg hc' s0' s' hr0 hr
      exact ⟨g, hgF, ρ, h2⟩
    · obtain ⟨m0, hm0, hr0⟩ := hr0
      have hc' := hc.obsv m 0 k ks
      obtain ⟨g, hgF, ρ, h2⟩ := ih _ (qstep m s0 (.obs k ks)) _ F hg hc' s0' s' hr0 hr
      exact ⟨g, hgF, ρ, h2⟩

theorem gate_ne {ψ : Ket Q} (h : ψ ≠ 0) {op : Op Q} (hd : op.Distinct) : gate ψ op ≠ 0 := by
  obtain ⟨v, hv⟩ := Function.ne_iff.1 h
  have hv : ψ v ≠ 0 := hv
  have two (a b : ZMod 2) : a + b + b = a := by rw [add_assoc, add_self, add_zero]
  intro h0
  cases op with
  | x q =>
    have := congrFun h0 (Function.update v q (v q + 1))
    simp only [gate, opX, Function.update_self, Function.update_idem, two, Function.update_eq_self] at this
    exact hv this
  | z q => exact mul_ne_zero (sgn_ne _) hv (congrFun h0 v)
  | h q =>
    have h1 := congrFun h0 (Function.update v q 0)
    have h2 := congrFun h0 (Function.update v q 1)
    simp only [gate, Function.update_self, Function.update_idem, sgn_zero, sgn_one, Pi.zero_apply, mul_eq_zero,
      inv_eq_zero, ofReal_eq_zero, Real.sqrt_eq_zero (by norm_num : (0 : ℝ) ≤ 2), OfNat.ofNat_ne_zero, false_or] at h1 h2
    have ha : ψ (Function.update v q 0) = 0 := by linear_combination h1 / 2 + h2 / 2
    have hb : ψ (Function.update v q 1) = 0 := by linear_combination h1 / 2 - h2 / 2
    rcases bit (v q) with h | h
    · rw [← h, Function.update_eq_self] at ha; exact hv ha
    · rw [← h, Function.update_eq_self] at hb; exact hv hb
  | s q =>
    refine mul_ne_zero ?_ hv (congrFun h0 v)
    split <;> simp
  | sdag q =>
    refine mul_ne_zero ?_ hv (congrFun h0 v)
    split <;> simp
  | cz a b => exact mul_ne_zero (sgn_ne _) hv (congrFun h0 v)
  | cx a b =>
    have hab : a ≠ b := hd
    have := congrFun h0 (Function.update v b (v b + v a))
    simp only [gate, Function.update_self, Function.update_idem, Function.update_of_ne hab, two,
      Function.update_eq_self] at this
    exact hv this
  | swap a b =>
    have := congrFun h0 (v ∘ Equiv.swap a b)
    simp only [gate, Function.comp_def, Equiv.swap_apply_self] at this
    exact hv this
  | _ => exact hv (congrFun h0 v)

theorem init_ne : (QState.init Q).ket ≠ 0 := by
  intro h
  have := congrFun h 0
  simp [QState.init] at this

/-- There is always a possible run. -/
theorem runs_exist (l : List (Op Q)) (ho : ∀ op ∈ l, op.On A) (hd : ∀ op ∈ l, op.Distinct) :
    ∀ s : QState Q, s.ket ≠ 0 → ∃ s', Runs l s s' := by
  induction l with
  | nil => exact fun s _ => ⟨s, rfl⟩
  | cons op l ih =>
    intro s h
    have ih := ih (fun o h => ho o (List.mem_cons_of_mem _ h)) fun o h => hd o (List.mem_cons_of_mem _ h)
    have ho := ho op List.mem_cons_self
    have hd := hd op List.mem_cons_self
    have : ∃ m, (qstep m s op).ket ≠ 0 := by
      rcases kind ho with ⟨C, g, hf, hC, hq, hs⟩ | ⟨hf, hq, hs⟩ | ⟨hf, M⟩ | ⟨ks, rfl⟩ | ⟨k, ks, rfl⟩
      · refine ⟨0, ?_⟩
        rw [hq]
        show C s.ket ≠ 0
        rw [hC]
        exact pa_ne _ h
      · refine ⟨0, ?_⟩
        rw [hq]
        exact gate_ne h hd
      · have : ∃ m, project M.B m s.ket ≠ 0 := by
          by_contra hn
          push Not at hn
          apply h
          rw [IsObs.project_sum (B := M.B) 0 s.ket, hn, hn, add_zero]
        obtain ⟨m, hm⟩ := this
        refine ⟨m, ?_⟩
        rw [M.qstep]
        show applyIf m M.C _ ≠ 0
        rw [applyIf_eq M.fix]
        exact pa_ne _ hm
      · exact ⟨0, h⟩
      · exact ⟨0, h⟩
    obtain ⟨m, hm⟩ := this
    obtain ⟨s', h'⟩ := ih _ hm
    exact ⟨s', m, hm, h'⟩

end SurfaceSim.Hilbert
