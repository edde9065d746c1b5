/-
Frames act on vectors: measurements, and how runs of a circuit differ from a reference run.
-/
import Verif.Lemmas.Hilbert
import Verif.Lemmas.Shuffle

namespace SurfaceSim.Hilbert
open SurfaceSim SurfaceSim.Spec Complex

variable {Q : Type} [DecidableEq Q] {A : Finset Q}

/-- X part and Z part. -/
abbrev Fr (Q : Type) := (Q → ZMod 2) × (Q → ZMod 2)

noncomputable def pa (A : Finset Q) (g : Fr Q) (ψ : Ket Q) : Ket Q := Pauli.act A ⟨0, g.1, g.2⟩ ψ

theorem pa_apply (g : Fr Q) (ψ : Ket Q) (v : Q → ZMod 2) :
    pa A g ψ v = sgn (dot A g.2 (v + g.1)) * ψ (v + g.1) := by
  rw [pa, act_apply, ipow_zero, one_mul]

def om (A : Finset Q) (g p : Fr Q) : ZMod 2 := dot A g.1 p.2 + dot A g.2 p.1

/-- Equal up to a non-zero factor. -/
def Sim (ψ φ : Ket Q) : Prop := ∃ c : ℂ, c ≠ 0 ∧ ψ = c • φ

theorem Sim.refl (ψ : Ket Q) : Sim ψ ψ := ⟨1, one_ne_zero, (one_smul _ _).symm⟩

theorem Sim.symm {ψ φ : Ket Q} : Sim ψ φ → Sim φ ψ := by
  rintro ⟨c, hc, rfl⟩
  exact ⟨c⁻¹, inv_ne_zero hc, by rw [smul_smul, inv_mul_cancel₀ hc, one_smul]⟩

theorem Sim.trans {ψ φ χ : Ket Q} : Sim ψ φ → Sim φ χ → Sim ψ χ := by
  rintro ⟨c, hc, rfl⟩ ⟨d, hd, rfl⟩
  exact ⟨c * d, mul_ne_zero hc hd, smul_smul _ _ _⟩

theorem Sim.smul {c : ℂ} (hc : c ≠ 0) (ψ : Ket Q) : Sim (c • ψ) ψ := ⟨c, hc, rfl⟩

theorem Sim.ne {ψ φ : Ket Q} : Sim ψ φ → φ ≠ 0 → ψ ≠ 0 := by
  rintro ⟨c, hc, rfl⟩ h
  exact smul_ne_zero hc h

theorem pa_smul (g : Fr Q) (c : ℂ) (ψ : Ket Q) : pa A g (c • ψ) = c • pa A g ψ := by
  funext v
  simp only [pa_apply, Pi.smul_apply, smul_eq_mul]
  ring

theorem Sim.pa {ψ φ : Ket Q} (g : Fr Q) : Sim ψ φ → Sim (pa A g ψ) (pa A g φ) := by
  rintro ⟨c, hc, rfl⟩
  exact ⟨c, hc, pa_smul _ _ _⟩

theorem pa_pa (g h : Fr Q) (ψ : Ket Q) : pa A g (pa A h ψ) = sgn (dot A g.2 h.1) • pa A (g + h) ψ := by
  funext v
  simp only [pa_apply, Pi.smul_apply, smul_eq_mul, Prod.fst_add, Prod.snd_add, ← add_assoc]
  rw [dot_add_left, dot_add_right g.2 (v + g.1) h.1, sgn_add, sgn_add]
  linear_combination (-(sgn (dot A h.2 (v + g.1 + h.1)) * sgn (dot A g.2 (v + g.1)) * ψ (v + g.1 + h.1))) *
    sgn_sq (dot A g.2 h.1)

theorem pa_add (g h : Fr Q) (ψ : Ket Q) : Sim (pa A (g + h) ψ) (pa A g (pa A h ψ)) := by
  rw [pa_pa]
  exact (Sim.smul (sgn_ne _) _).symm

theorem pa_comm (g h : Fr Q) (ψ : Ket Q) : pa A g (pa A h ψ) = sgn (om A g h) • pa A h (pa A g ψ) := by
  rw [pa_pa, pa_pa, smul_smul, add_comm h g, om, sgn_add, dot_comm h.2]
  congr 1
  linear_combination (-sgn (dot A g.2 h.1)) * sgn_sq (dot A g.1 h.2)

theorem pa_zero (ψ : Ket Q) : pa A 0 ψ = ψ := by
  funext v
  simp [pa_apply, dot_zero_left, sgn_zero]

theorem om_add_left (g h p : Fr Q) : om A (g + h) p = om A g p + om A h p := by
  simp only [om, Prod.fst_add, Prod.snd_add, dot_add_left]
  ring

theorem om_comm (g h : Fr Q) : om A g h = om A h g := by
  rw [om, om, dot_comm g.1, dot_comm g.2, add_comm]

theorem om_add_right (g h p : Fr Q) : om A g (h + p) = om A g h + om A g p := by
  rw [om_comm, om_add_left, om_comm g, om_comm g]

theorem om_self (g : Fr Q) : om A g g = 0 := by
  rw [om, dot_comm, add_self]

theorem om_zero_left (g : Fr Q) : om A 0 g = 0 := by simp [om, dot_zero_left]
theorem om_zero_right (g : Fr Q) : om A g 0 = 0 := by simp [om, dot_zero_right]

theorem om_smul_right (g h : Fr Q) (c : ZMod 2) : om A g (c • h) = c * om A g h := by
  rcases bit c with rfl | rfl
  · simp [om_zero_right]
  · simp

theorem fr_self (g : Fr Q) : g + g = 0 := by
  ext q
  · exact add_self _
  · exact add_self _

/-- One-qubit operator. -/
def ax (q : Q) (bx bz : ZMod 2) : Fr Q := (Pi.single q bx, Pi.single q bz)

theorem dot_single {q : Q} (hq : q ∈ A) (g : Q → ZMod 2) (b : ZMod 2) : dot A g (Pi.single q b) = g q * b := by
  unfold dot
  rw [Finset.sum_eq_single q]
  · simp
  · intro p _ h
    simp [h]
  · exact fun h => absurd hq h

theorem om_ax {q : Q} (hq : q ∈ A) (g : Fr Q) (bx bz : ZMod 2) : om A g (ax q bx bz) = g.1 q * bz + g.2 q * bx := by
  rw [om, ax, dot_single hq, dot_single hq]

theorem update_add (v : Q → ZMod 2) (q : Q) (b : ZMod 2) : Function.update v q (v q + b) = v + Pi.single q b := by
  funext p
  by_cases h : p = q
  · subst h; simp
  · simp [h]

theorem opZ_eq {q : Q} (hq : q ∈ A) (ψ : Ket Q) : opZ q ψ = pa A (ax q 0 1) ψ := by
  funext v
  rw [pa_apply]
  simp only [opZ, ax, Pi.single_zero, add_zero]
  rw [dot_comm, dot_single hq, mul_one]

theorem opX_eq (q : Q) (ψ : Ket Q) : opX q ψ = pa A (ax q 1 0) ψ := by
  funext v
  rw [pa_apply]
  simp only [opX, ax, Pi.single_zero, dot_zero_left, sgn_zero, one_mul, update_add]

theorem opY_eq {q : Q} (hq : q ∈ A) (ψ : Ket Q) : opY q ψ = I • pa A (ax q 1 1) ψ := by
  funext v
  rw [Pi.smul_apply, smul_eq_mul, pa_apply]
  simp only [opY, opX, opZ, ax, update_add]
  rw [dot_comm, dot_single hq, mul_one]

/-- `B` is a Pauli operator given by `b` whose square is one. -/
structure IsObs (A : Finset Q) (B : Ket Q → Ket Q) (b : Fr Q) : Prop where
  form : ∃ β : ℂ, β ≠ 0 ∧ ∀ ψ, B ψ = β • pa A b ψ
  sq : ∀ ψ, B (B ψ) = ψ
  supp : ∀ q ∉ A, b.1 q = 0

theorem supp_ax {q : Q} (hq : q ∈ A) (bx bz : ZMod 2) : ∀ p ∉ A, (ax q bx bz).1 p = 0 := by
  intro p hp
  have : p ≠ q := fun h => hp (h ▸ hq)
  simp [ax, this]

theorem isObs_z {q : Q} (hq : q ∈ A) : IsObs A (opZ q) (ax q 0 1) where
  form := ⟨1, one_ne_zero, fun ψ => by rw [one_smul, opZ_eq hq]⟩
  sq ψ := by
    funext v
    simp only [opZ, ← mul_assoc, sgn_sq, one_mul]
  supp := supp_ax hq _ _

theorem isObs_x {q : Q} (hq : q ∈ A) : IsObs A (opX q) (ax q 1 0) where
  form := ⟨1, one_ne_zero, fun ψ => by rw [one_smul, ← opX_eq]⟩
  sq ψ := by
    funext v
    simp only [opX, update_add, Pi.single_eq_same, add_assoc, ← Pi.single_add,
      show (1 : ZMod 2) + 1 = 0 from by decide, Pi.single_zero, add_zero]
  supp := supp_ax hq _ _

theorem isObs_y {q : Q} (hq : q ∈ A) : IsObs A (opY q) (ax q 1 1) where
  form := ⟨I, I_ne_zero, fun ψ => opY_eq hq ψ⟩
  sq ψ := by
    rw [opY_eq hq, opY_eq hq, pa_smul, smul_smul, pa_pa, smul_smul, fr_self, pa_zero]
    simp only [ax]
    rw [dot_single hq]
    simp [sgn_one]
  supp := supp_ax hq _ _

namespace IsObs
variable {B : Ket Q → Ket Q} {b : Fr Q}

theorem map_smul (h : IsObs A B b) (c : ℂ) (ψ : Ket Q) : B (c • ψ) = c • B ψ := by
  obtain ⟨β, -, h⟩ := h.form
  rw [h, h, pa_smul, smul_comm]

theorem map_add (h : IsObs A B b) (ψ φ : Ket Q) : B (ψ + φ) = B ψ + B φ := by
  obtain ⟨β, -, h⟩ := h.form
  rw [h, h, h, ← smul_add]
  congr 1
  funext v
  simp only [pa_apply, Pi.add_apply]
  ring

theorem comm (h : IsObs A B b) (g : Fr Q) (ψ : Ket Q) : B (pa A g ψ) = sgn (om A g b) • pa A g (B ψ) := by
  obtain ⟨β, -, h⟩ := h.form
  rw [h, h, pa_smul, pa_comm, om_comm, smul_comm]

theorem project_eq (m : ZMod 2) (ψ : Ket Q) : project B m ψ = (1 / 2 : ℂ) • (ψ + sgn m • B ψ) := by
  funext v
  simp [project]

theorem project_smul (h : IsObs A B b) (m : ZMod 2) (c : ℂ) (ψ : Ket Q) :
    project B m (c • ψ) = c • project B m ψ := by
  rw [project_eq, project_eq, h.map_smul]
  module

theorem pa_lin (g : Fr Q) (ψ φ : Ket Q) : pa A g (ψ + φ) = pa A g ψ + pa A g φ := by
  funext v
  simp only [pa_apply, Pi.add_apply]
  ring

theorem project_pa (h : IsObs A B b) (m : ZMod 2) (g : Fr Q) (ψ : Ket Q) :
    project B m (pa A g ψ) = pa A g (project B (m + om A g b) ψ) := by
  rw [project_eq, project_eq, h.comm, pa_smul, pa_lin, pa_smul, sgn_add, smul_smul]

theorem B_project (h : IsObs A B b) (m : ZMod 2) (ψ : Ket Q) : B (project B m ψ) = sgn m • project B m ψ := by
  rw [project_eq, h.map_smul, h.map_add, h.map_smul, h.sq]
  rcases bit m with rfl | rfl
  · rw [sgn_zero]; module
  · rw [sgn_one]; module

theorem pa_project (h : IsObs A B b) (m : ZMod 2) (ψ : Ket Q) : Sim (pa A b (project B m ψ)) (project B m ψ) := by
  obtain ⟨β, hβ, e⟩ := h.form
  have := h.B_project m ψ
  rw [e] at this
  exact ((Sim.smul hβ _).symm.trans (by rw [this]; exact Sim.smul (sgn_ne m) _))

theorem project_unique (h : IsObs A B b) {ψ : Ket Q} (hs : Sim (pa A b ψ) ψ) {m m' : ZMod 2}
    (hm : project B m ψ ≠ 0) (hm' : project B m' ψ ≠ 0) : m = m' := by
  obtain ⟨β, hβ, e⟩ := h.form
  obtain ⟨c, hc, hs⟩ := hs
  have hB : B ψ = (β * c) • ψ := by rw [e, hs, smul_smul]
  have hψ : ψ ≠ 0 := by
    rintro rfl
    apply hm
    rw [project_eq, hB, smul_zero, smul_zero, add_zero, smul_zero]
  have hsq : (β * c) * (β * c) = 1 := by
    have := h.sq ψ
    rw [hB, h.map_smul, hB, smul_smul] at this
    by_contra hne
    have h0 : ((β * c) * (β * c) - 1) • ψ = 0 := by rw [sub_smul, this, one_smul, sub_self]
    exact (smul_ne_zero (sub_ne_zero.2 hne) hψ) h0
  have key (n : ZMod 2) : project B n ψ = ((1 / 2 : ℂ) * (1 + sgn n * (β * c))) • ψ := by
    rw [project_eq, hB]; module
  rcases mul_self_eq_one_iff.1 hsq with h1 | h1 <;> rw [key, h1] at hm hm' <;>
    rcases bit m with rfl | rfl <;> rcases bit m' with rfl | rfl <;>
    first
    | rfl
    | (refine absurd ?_ hm; simp [sgn_zero, sgn_one]; done)
    | (refine absurd ?_ hm'; simp [sgn_zero, sgn_one]; done)

theorem project_sum (m : ZMod 2) (ψ : Ket Q) : ψ = project B m ψ + project B (m + 1) ψ := by
  rw [project_eq, project_eq, sgn_add, sgn_one]
  module

end IsObs

/-- Frames that fix `ψ` up to a factor; nothing else commutes with all of them. -/
structure Good (A : Finset Q) (F : Set (Fr Q)) (ψ : Ket Q) : Prop where
  add : ∀ g ∈ F, ∀ h ∈ F, g + h ∈ F
  zero : 0 ∈ F
  stab : ∀ g ∈ F, Sim (pa A g ψ) ψ
  max : ∀ p : Fr Q, (∀ q ∉ A, p.1 q = 0) → (∀ g ∈ F, om A p g = 0) → p ∈ F

theorem Good.init : Good A {g | g.1 = 0} (QState.init Q).ket where
  add g hg h hh := by
    simp only [Set.mem_setOf_eq] at *
    simp [hg, hh]
  zero := rfl
  stab := by
    rintro ⟨x, z⟩ (rfl : x = 0)
    refine ⟨1, one_ne_zero, ?_⟩
    funext v
    rw [pa_apply, one_smul]
    simp only [QState.init, add_zero]
    split
    · next h => simp [h, dot_zero_right, sgn_zero]
    · simp
  max p hp h := by
    funext q
    by_cases hq : q ∈ A
    · have := h (0, Pi.single q 1) rfl
      simpa [om, dot_single hq, dot_zero_right] using this
    · exact hp q hq

/-- After a measurement. -/
def measF (A : Finset Q) (b : Fr Q) (F : Set (Fr Q)) : Set (Fr Q) :=
  {p | ∃ g ∈ F, om A g b = 0 ∧ ∃ e : ZMod 2, p = g + e • b}

theorem Good.measure {F : Set (Fr Q)} {ψ : Ket Q} (h : Good A F ψ) {B : Ket Q → Ket Q} {b : Fr Q} (hB : IsObs A B b)
    (m : ZMod 2) : Good A (measF A b F) (project B m ψ) where
  add := by
    rintro _ ⟨g, hg, h1, e, rfl⟩ _ ⟨g', hg', h1', e', rfl⟩
    refine ⟨g + g', h.add _ hg _ hg', by rw [om_add_left, h1, h1', add_zero], e + e', ?_⟩
    rw [add_smul]; abel
  zero := ⟨0, h.zero, om_zero_left _, 0, by simp⟩
  stab := by
    rintro _ ⟨g, hg, h1, e, rfl⟩
    have k1 : Sim (pa A g (project B m ψ)) (project B m ψ) := by
      have := hB.project_pa m g ψ
      rw [h1, add_zero] at this
      rw [← this]
      obtain ⟨c, hc, e⟩ := h.stab g hg
      rw [e, hB.project_smul]
      exact Sim.smul hc _
    rcases bit e with rfl | rfl
    · simpa using k1
    · rw [one_smul]
      exact (pa_add _ _ _).trans (((hB.pa_project m ψ).pa g).trans k1)
  max p hp hc := by
    by_cases hb : ∀ g ∈ F, om A g b = 0
    · have hbF : b ∈ F := h.max b hB.supp fun g hg => by rw [om_comm]; exact hb g hg
      have hpF : p ∈ F := h.max p hp fun g hg => by
        exact hc g ⟨g, hg, hb g hg, 0, by simp⟩
      exact ⟨p, hpF, hb p hpF, 0, by simp⟩
    · push_neg at hb
      obtain ⟨g0, hg0, h0⟩ := hb
      have h0 : om A g0 b = 1 := (bit _).resolve_left h0
      have hpb : om A p b = 0 := hc b ⟨0, h.zero, om_zero_left _, 1, by simp⟩
      have hF : p + om A p g0 • b ∈ F := by
        apply h.max
        · intro q hq
          simp [hp q hq, hB.supp q hq]
        · intro f hf
          have h2 := hc (f + om A f b • g0) ⟨f + om A f b • g0, h.add _ hf _ (by
              rcases bit (om A f b) with h | h <;> simp [h, hg0, ‹Good A F ψ›.zero]), by
              rw [om_add_left, om_comm (om A f b • g0), om_smul_right, om_comm b, h0, mul_one, add_self], 0, by simp⟩
          rw [om_add_right, om_smul_right] at h2
          rw [om_add_left, om_comm (om A p g0 • b), om_smul_right]
          linear_combination h2
      refine ⟨_, hF, ?_, om A p g0, ?_⟩
      · rw [om_add_left, hpb, om_comm, om_smul_right, om_self]; simp
      · rw [add_assoc, fr_self, add_zero]

theorem Good.pa {F : Set (Fr Q)} {ψ : Ket Q} (h : Good A F ψ) (p : Fr Q) : Good A F (pa A p ψ) where
  add := h.add
  zero := h.zero
  stab g hg := by
    rw [pa_comm]
    exact (Sim.smul (sgn_ne _) _).trans ((h.stab g hg).pa p)
  max := h.max

theorem Good.sim {F : Set (Fr Q)} {ψ φ : Ket Q} (h : Good A F ψ) (hs : Sim φ ψ) : Good A F φ where
  add := h.add
  zero := h.zero
  stab g hg := (hs.pa g).trans ((h.stab g hg).trans hs.symm)
  max := h.max

/-- Action of unitary operations on frames. -/
def lin (op : Op Q) (g : Fr Q) : Fr Q :=
  let P := Pauli.conj (Q := Q) ⟨0, g.1, g.2⟩ op
  (P.x, P.z)

theorem act_sim (P : Pauli Q) (ψ : Ket Q) : Sim (P.act A ψ) (Hilbert.pa A (P.x, P.z) ψ) := by
  refine ⟨ipow P.ph, ipow_ne _, ?_⟩
  funext v
  simp [pa_apply, act_apply]

theorem gate_pa (g : Fr Q) (ψ : Ket Q) {op : Op Q} (h : op.On A) (hd : op.Distinct) :
    Sim (gate (Hilbert.pa A g ψ) op) (Hilbert.pa A (lin op g) (gate ψ op)) := by
  rw [Hilbert.pa, gate_act _ _ h hd]
  exact act_sim _ _

theorem gate_smul (c : ℂ) (ψ : Ket Q) (op : Op Q) : gate (c • ψ) op = c • gate ψ op := by
  cases op <;> funext v <;> simp only [gate, opX, opZ, Pi.smul_apply, smul_eq_mul] <;> ring

theorem Sim.gate {ψ φ : Ket Q} (op : Op Q) : Sim ψ φ → Sim (Spec.gate ψ op) (Spec.gate φ op) := by
  rintro ⟨c, hc, rfl⟩
  exact ⟨c, hc, gate_smul _ _ _⟩

theorem lin_lin {op : Op Q} (hd : op.Distinct) (g : Fr Q) : lin op (lin op g) = g := by
  obtain ⟨x, z⟩ := g
  have two (a b : ZMod 2) : a + b + b = a := by rw [add_assoc, add_self, add_zero]
  cases op <;> simp only [lin, Pauli.conj, Function.update_idem, Function.update_self, two, Function.update_eq_self]
  case cz a b =>
    rw [Prod.mk.injEq]
    refine ⟨rfl, ?_⟩
    have hd : a ≠ b := hd
    funext q
    simp only [Function.update_apply]
    repeat' split
    all_goals simp_all
  case cx a b =>
    have hd : a ≠ b := hd
    simp only [Function.update_of_ne hd, Function.update_of_ne hd.symm, two, Function.update_eq_self]
  case swap a b =>
    have hd : a ≠ b := hd
    rw [Prod.mk.injEq]
    constructor <;>
    · funext q
      simp only [Function.update_apply]
      split <;> split <;> simp_all

theorem lin_add (op : Op Q) (g h : Fr Q) : lin op (g + h) = lin op g + lin op h := by
  cases op <;> ext q <;> simp only [lin, Pauli.conj, Prod.fst_add, Prod.snd_add, Pi.add_apply, Function.update_apply] <;>
    repeat' split
  all_goals first | rfl | ring

theorem om_lin {op : Op Q} (h : op.On A) (hd : op.Distinct) (g p : Fr Q) : om A (lin op g) (lin op p) = om A g p := by
  obtain ⟨gx, gz⟩ := g
  obtain ⟨px, pz⟩ := p
  cases op
  case h q =>
    simp only [lin, Pauli.conj, om]
    have h : q ∈ A := h
    rw [dot_update_left h, dot_update_left h, dot_update_right h, dot_update_right h, Function.update_self,
      Function.update_self]
    generalize dot A gx pz = d1; generalize dot A gz px = d2
    generalize gx q = a; generalize gz q = b; generalize px q = c; generalize pz q = d
    revert d1 d2 a b c d; decide
  case s q =>
    simp only [lin, Pauli.conj, om]
    have h : q ∈ A := h
    rw [dot_update_left h, dot_update_right h]
    generalize dot A gx pz = d1; generalize dot A gz px = d2
    generalize gx q = a; generalize gz q = b; generalize px q = c; generalize pz q = d
    revert d1 d2 a b c d; decide
  case sdag q =>
    simp only [lin, Pauli.conj, om]
    have h : q ∈ A := h
    rw [dot_update_left h, dot_update_right h]
    generalize dot A gx pz = d1; generalize dot A gz px = d2
    generalize gx q = a; generalize gz q = b; generalize px q = c; generalize pz q = d
    revert d1 d2 a b c d; decide
  case cz i j =>
    simp only [lin, Pauli.conj, om]
    have hd : i ≠ j := hd
    rw [dot_update_left h.2, dot_update_left h.1, dot_update_right h.2, dot_update_right h.1,
      Function.update_of_ne hd.symm, Function.update_of_ne hd.symm]
    generalize dot A gx pz = d1; generalize dot A gz px = d2
    generalize gx i = a; generalize gz i = b; generalize px i = c; generalize pz i = d
    generalize gx j = a'; generalize gz j = b'; generalize px j = c'; generalize pz j = d'
    have two := add_self
    linear_combination two (c' * a) + two (c * a') + a * two d + a' * two d' + c * two b + c' * two b'
  case cx i j =>
    simp only [lin, Pauli.conj, om]
    have hd : i ≠ j := hd
    rw [dot_update_left h.2, dot_update_right h.1, dot_update_left h.1, dot_update_right h.2,
      Function.update_of_ne hd, Function.update_of_ne hd.symm]
    generalize dot A gx pz = d1; generalize dot A gz px = d2
    generalize gx i = a; generalize gz i = b; generalize px i = c; generalize pz i = d
    generalize gx j = a'; generalize gz j = b'; generalize px j = c'; generalize pz j = d'
    have two := add_self
    linear_combination two (a * d') + two (c * b') + a * two d + b' * two c' + d' * two a' + c * two b
  case swap i j =>
    simp only [lin, Pauli.conj, om]
    have hd : i ≠ j := hd
    rw [dot_update_left h.2, dot_update_right h.2, dot_update_left h.1, dot_update_right h.1,
      dot_update_left h.2, dot_update_right h.2, dot_update_left h.1, dot_update_right h.1]
    simp only [Function.update_self, Function.update_of_ne hd, Function.update_of_ne hd.symm]
    generalize dot A gx pz = d1; generalize dot A gz px = d2
    generalize gx i = a; generalize gz i = b; generalize px i = c; generalize pz i = d
    generalize gx j = a'; generalize gz j = b'; generalize px j = c'; generalize pz j = d'
    revert d1 d2 a b c d a' b' c' d'
    decide +kernel
  all_goals rfl

theorem lin_supp {op : Op Q} (h : op.On A) {g : Fr Q} (hd : op.Distinct) (hg : ∀ q ∉ A, g.1 q = 0) :
    ∀ q ∉ A, (lin op g).1 q = 0 := by
  intro q hq
  have hg := hg q hq
  cases op <;> simp only [lin, Pauli.conj, Function.update_apply] <;> simp only [Op.On] at h <;>
    repeat' split
  all_goals simp_all

theorem Good.gate {F : Set (Fr Q)} {ψ : Ket Q} (h : Good A F ψ) {op : Op Q} (ho : op.On A) (hd : op.Distinct) :
    Good A (lin op '' F) (gate ψ op) where
  add := by
    rintro _ ⟨g, hg, rfl⟩ _ ⟨g', hg', rfl⟩
    exact ⟨g + g', h.add _ hg _ hg', lin_add _ _ _⟩
  zero := ⟨0, h.zero, by
    have := lin_add op 0 0
    rw [add_zero] at this
    exact left_eq_add.1 this⟩
  stab := by
    rintro _ ⟨g, hg, rfl⟩
    exact (gate_pa g ψ ho hd).symm.trans ((h.stab g hg).gate op)
  max p hp hc := by
    refine ⟨lin op p, h.max _ (lin_supp ho hd hp) fun g hg => ?_, lin_lin hd p⟩
    rw [← lin_lin hd g, om_lin ho hd]
    exact hc _ ⟨g, hg, rfl⟩

/-- The frame of a state. -/
def fr (st : FState Q) : Fr Q := (st.x, st.z)

/-- The state with another frame. -/
def setFr (st : FState Q) (g : Fr Q) : FState Q := { st with x := g.1, z := g.2 }

/-- What a measurement or a reset does. -/
structure Meas (A : Finset Q) (op : Op Q) where
  B : Ket Q → Ket Q
  b : Fr Q
  C : Ket Q → Ket Q
  corr : Fr Q
  t : Fr Q → ZMod 2
  keep : Bool
  obs : IsObs A B b
  qstep : ∀ m (s : QState Q), Spec.qstep m s op =
    { s with ket := applyIf m C (project B m s.ket), recs := if keep then m :: s.recs else s.recs }
  step : ∀ ρ (st : FState Q), Spec.step ρ st op =
    { setFr st (fr st + (om A (fr st) b • corr + (ρ st.rnd + t (fr st)) • b)) with
      recs := if keep then om A (fr st) b :: st.recs else st.recs, rnd := st.rnd + 1 }
  fix : ∀ ψ, C ψ = Hilbert.pa A corr ψ

theorem applyIf_eq {C : Ket Q → Ket Q} {corr : Fr Q} (h : ∀ ψ, C ψ = Hilbert.pa A corr ψ) (m : ZMod 2) (ψ : Ket Q) :
    applyIf m C ψ = Hilbert.pa A (m • corr) ψ := by
  rcases bit m with rfl | rfl
  · simp [applyIf, pa_zero]
  · simp [applyIf, h]

theorem single_smul' (c : ZMod 2) (q : Q) (b : ZMod 2) : c • (Pi.single q b : Q → ZMod 2) = Pi.single q (c * b) := by
  rw [← Pi.single_smul, smul_eq_mul]

theorem update_eq (v : Q → ZMod 2) (q : Q) (b : ZMod 2) : Function.update v q b = v + Pi.single q (b + v q) := by
  rw [← update_add]
  congr 1
  linear_combination add_self (v q) * (-1)

theorem smul_ax (c : ZMod 2) (q : Q) (bx bz : ZMod 2) : c • ax q bx bz = ax q (c * bx) (c * bz) := by
  simp only [ax, Prod.smul_mk, single_smul']

theorem ax_add (q : Q) (bx bz cx cz : ZMod 2) : ax q bx bz + ax q cx cz = ax q (bx + cx) (bz + cz) := by
  simp only [ax, Prod.mk_add_mk, ← Pi.single_add]

noncomputable def Meas.m {q : Q} (hq : q ∈ A) : Meas A (.m q) where
  B := opZ q
  b := ax q 0 1
  C := id
  corr := 0
  t _ := 0
  keep := true
  obs := isObs_z hq
  qstep m s := by simp [Spec.qstep, applyIf]
  step ρ st := by
    simp only [Spec.step, setFr, fr, om_ax hq, smul_zero, zero_add, add_zero, smul_ax, update_add, mul_one, mul_zero,
      Prod.fst_add, Prod.snd_add, if_true]
    simp only [ax, Pi.single_zero, add_zero]
  fix ψ := by rw [pa_zero]; rfl

noncomputable def Meas.mx {q : Q} (hq : q ∈ A) : Meas A (.mx q) where
  B := opX q
  b := ax q 1 0
  C := id
  corr := 0
  t _ := 0
  keep := true
  obs := isObs_x hq
  qstep m s := by simp [Spec.qstep, applyIf]
  step ρ st := by
    simp only [Spec.step, setFr, fr, om_ax hq, smul_zero, zero_add, add_zero, smul_ax, update_add, mul_one, mul_zero,
      Prod.fst_add, Prod.snd_add, if_true]
    simp only [ax, Pi.single_zero, add_zero]
  fix ψ := by rw [pa_zero]; rfl

noncomputable def Meas.my {q : Q} (hq : q ∈ A) : Meas A (.my q) where
  B := opY q
  b := ax q 1 1
  C := id
  corr := 0
  t _ := 0
  keep := true
  obs := isObs_y hq
  qstep m s := by simp [Spec.qstep, applyIf]
  step ρ st := by
    simp only [Spec.step, setFr, fr, om_ax hq, smul_zero, zero_add, add_zero, smul_ax, update_add, mul_one, mul_zero,
      Prod.fst_add, Prod.snd_add, if_true]
    simp only [ax, Pi.single_zero, add_zero]
  fix ψ := by rw [pa_zero]; rfl

noncomputable def Meas.r {q : Q} (hq : q ∈ A) : Meas A (.r q) where
  B := opZ q
  b := ax q 0 1
  C := opX q
  corr := ax q 1 0
  t g := g.2 q
  keep := false
  obs := isObs_z hq
  qstep m s := by simp [Spec.qstep]
  step ρ st := by
    simp only [Spec.step, setFr, fr, om_ax hq, zero_add, add_zero, smul_ax, ax_add, update_eq, mul_one, mul_zero,
      Prod.fst_add, Prod.snd_add, Bool.false_eq_true, if_false]
    simp only [ax]
  fix ψ := opX_eq q ψ

noncomputable def Meas.rx {q : Q} (hq : q ∈ A) : Meas A (.rx q) where
  B := opX q
  b := ax q 1 0
  C := opZ q
  corr := ax q 0 1
  t g := g.1 q
  keep := false
  obs := isObs_x hq
  qstep m s := by simp [Spec.qstep]
  step ρ st := by
    simp only [Spec.step, setFr, fr, om_ax hq, zero_add, add_zero, smul_ax, ax_add, update_eq, mul_one, mul_zero,
      Prod.fst_add, Prod.snd_add, Bool.false_eq_true, if_false]
    simp only [ax]
  fix ψ := opZ_eq hq ψ

noncomputable def Meas.ry {q : Q} (hq : q ∈ A) : Meas A (.ry q) where
  B := opY q
  b := ax q 1 1
  C := opX q
  corr := ax q 1 0
  t g := g.2 q
  keep := false
  obs := isObs_y hq
  qstep m s := by simp [Spec.qstep]
  step ρ st := by
    simp only [Spec.step, setFr, fr, om_ax hq, zero_add, add_zero, smul_ax, ax_add, update_eq, mul_one, mul_zero,
      Prod.fst_add, Prod.snd_add, Bool.false_eq_true, if_false]
    simp only [ax]
    rw [show ρ st.rnd + st.x q = st.x q + st.z q + (ρ st.rnd + st.z q) by
      linear_combination add_self (st.z q) * (-1)]
  fix ψ := opX_eq q ψ

/-- `s` differs from `s0` by the frame and the values of `st`. -/
structure Cpl (A : Finset Q) (s s0 : QState Q) (st : FState Q) : Prop where
  ket : Sim s.ket (Hilbert.pa A (fr st) s0.ket)
  recs : s.recs = addLists s0.recs st.recs
  len : s0.recs.length = st.recs.length
  dets : s.dets = addLists s0.dets st.dets
  obs : s.obs = addObs s0.obs st.obs
  dlen : s0.dets.length = st.dets.length
  olen : s0.obs.map Prod.fst = st.obs.map Prod.fst

theorem Cpl.gate {s s0 : QState Q} {st : FState Q} (h : Cpl A s s0 st) {op : Op Q} (ho : op.On A) (hd : op.Distinct) :
    Cpl A { s with ket := gate s.ket op } { s0 with ket := gate s0.ket op } (setFr st (lin op (fr st))) :=
  ⟨(h.ket.gate op).trans (gate_pa _ _ ho hd), h.recs, h.len, h.dets, h.obs, h.dlen, h.olen⟩

theorem Cpl.flip {s s0 : QState Q} {st : FState Q} (h : Cpl A s s0 st) {C : Ket Q → Ket Q} {g : Fr Q}
    (hC : ∀ ψ, C ψ = Hilbert.pa A g ψ) : Cpl A { s with ket := C s.ket } s0 (setFr st (fr st + g)) :=
  ⟨by
    show Sim (C s.ket) (Hilbert.pa A (fr st + g) s0.ket)
    rw [hC, add_comm]
    exact (h.ket.pa g).trans (pa_add _ _ _).symm, h.recs, h.len, h.dets, h.obs, h.dlen, h.olen⟩

theorem Cpl.change {s s0 : QState Q} {st : FState Q} (h : Cpl A s s0 st) {g : Fr Q}
    (hg : Sim (Hilbert.pa A g s0.ket) s0.ket) : Cpl A s s0 (setFr st (fr st + g)) :=
  ⟨h.ket.trans (((hg.pa (fr st)).symm).trans (pa_add _ _ _).symm), h.recs, h.len, h.dets, h.obs, h.dlen, h.olen⟩

theorem Meas.ket {op : Op Q} (M : Meas A op) {ψ φ : Ket Q} {g : Fr Q} (h : Sim ψ (Hilbert.pa A g φ)) {m m0 : ZMod 2}
    (hm : m = m0 + om A g M.b) (e' : ZMod 2) :
    Sim (applyIf m M.C (project M.B m ψ))
      (Hilbert.pa A (g + (om A g M.b • M.corr + e' • M.b)) (applyIf m0 M.C (project M.B m0 φ))) := by
  rw [applyIf_eq M.fix, applyIf_eq M.fix]
  obtain ⟨c, hc, rfl⟩ := h
  rw [M.obs.project_smul, M.obs.project_pa, show m + om A g M.b = m0 by
    rw [hm, add_assoc, add_self, add_zero], pa_smul]
  refine (Sim.smul hc _).trans ?_
  generalize hχ : project M.B m0 φ = χ
  have hb : Sim (Hilbert.pa A (e' • M.b) χ) χ := by
    rcases bit e' with rfl | rfl
    · rw [zero_smul, pa_zero]; exact Sim.refl _
    · rw [one_smul, ← hχ]; exact M.obs.pa_project _ _
  refine (pa_add _ _ _).symm.trans ?_
  refine (hb.pa _).symm.trans ((pa_add _ _ _).symm.trans (Sim.trans ?_ (pa_add _ _ _)))
  rw [show g + (om A g M.b • M.corr + e' • M.b) + m0 • M.corr = m • M.corr + g + e' • M.b by
    rw [hm, add_smul]; abel]
  exact Sim.refl _

theorem Cpl.meas {s s0 : QState Q} {st : FState Q} (h : Cpl A s s0 st) {op : Op Q} (M : Meas A op) {m m0 : ZMod 2}
    (hm : m = m0 + om A (fr st) M.b) (ρ : Nat → ZMod 2) : Cpl A (qstep m s op) (qstep m0 s0 op) (step ρ st op) := by
  rw [M.qstep, M.qstep, M.step]
  have hk := M.ket h.ket hm (ρ st.rnd + M.t (fr st))
  have hr := h.recs
  have hl := h.len
  refine ⟨hk, ?_, ?_, h.dets, h.obs, h.dlen, h.olen⟩
  · cases hkp : M.keep
    · simpa using hr
    · simp [addLists, hr, hm]
  · cases hkp : M.keep
    · simpa using hl
    · simpa using hl

theorem lookback_add {a b : List (ZMod 2)} (h : a.length = b.length) (k : Int) :
    lookback (addLists a b) k = lookback a k + lookback b k := by
  unfold lookback addLists
  generalize (-k - 1).toNat = n
  induction a generalizing b n with
  | nil =>
    obtain rfl : b = [] := List.length_eq_zero_iff.1 h.symm
    simp
  | cons x a ih =>
    cases b with
    | nil => cases h
    | cons y b =>
      cases n with
      | zero => simp
      | succ n => simpa using ih (by simpa using h) n

theorem parity_add {a b : List (ZMod 2)} (h : a.length = b.length) (ks : List Int) :
    parity (addLists a b) ks = parity a ks + parity b ks := by
  unfold parity
  induction ks with
  | nil => simp
  | cons k ks ih => simp only [List.map_cons, List.sum_cons, ih, lookback_add h]; ring

theorem Cpl.det {s s0 : QState Q} {st : FState Q} (h : Cpl A s s0 st) (m : ZMod 2) (ρ : Nat → ZMod 2) (ks : List Int) :
    Cpl A (qstep m s (.det ks)) (qstep m s0 (.det ks)) (step ρ st (.det ks)) := by
  refine ⟨h.ket, h.recs, h.len, ?_, h.obs, by simp [qstep, step, h.dlen], h.olen⟩
  simp only [qstep, step, h.recs, parity_add h.len, h.dets]
  rfl

theorem Cpl.obsv {s s0 : QState Q} {st : FState Q} (h : Cpl A s s0 st) (m : ZMod 2) (ρ : Nat → ZMod 2) (k : Rat)
    (ks : List Int) : Cpl A (qstep m s (.obs k ks)) (qstep m s0 (.obs k ks)) (step ρ st (.obs k ks)) := by
  refine ⟨h.ket, h.recs, h.len, h.dets, ?_, h.dlen, by simp [qstep, step, h.olen]⟩
  simp only [qstep, step, h.recs, parity_add h.len, h.obs]
  rfl

end SurfaceSim.Hilbert
