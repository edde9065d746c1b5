/-
Frame simulation of layers of Hadamards and CZ gates between ancillas and data qubits.
-/
import Verif.Lemmas.Frame
import Mathlib.Algebra.BigOperators.Group.Finset.Basic
import Mathlib.Tactic.Abel

namespace SurfaceSim.Spec

variable {Q : Type} [DecidableEq Q]

/-- Sum of `f` over the elements of `l` satisfying `p`. -/
def sumIf {α : Type} (l : List α) (p : α → Prop) [DecidablePred p] (f : α → ZMod 2) : ZMod 2 :=
  (l.map fun e => if p e then f e else 0).sum

theorem sumIf_append {α : Type} (l m : List α) (p : α → Prop) [DecidablePred p] (f : α → ZMod 2) :
    sumIf (l ++ m) p f = sumIf l p f + sumIf m p f := by
  simp [sumIf]

theorem sumIf_congr {α : Type} (l : List α) (p : α → Prop) [DecidablePred p] (f g : α → ZMod 2)
    (h : ∀ e ∈ l, p e → f e = g e) : sumIf l p f = sumIf l p g := by
  unfold sumIf
  congr 1
  refine List.map_congr_left fun e he => ?_
  split
  · exact h e he ‹_›
  · rfl

theorem sumIf_zero {α : Type} (l : List α) (p : α → Prop) [DecidablePred p] (f : α → ZMod 2)
    (h : ∀ e ∈ l, p e → f e = 0) : sumIf l p f = 0 := by
  rw [sumIf_congr l p f (fun _ => 0) h]
  simp [sumIf]

theorem sumIf_add {α : Type} (l : List α) (p : α → Prop) [DecidablePred p] (f g : α → ZMod 2) :
    sumIf l p (fun e => f e + g e) = sumIf l p f + sumIf l p g := by
  unfold sumIf
  induction l with
  | nil => simp
  | cons a l ih =>
    simp only [List.map_cons, List.sum_cons, ih]
    split
    · abel
    · simp

/-- A layer of CZ gates. -/
theorem run_cz (ρ : Nat → ZMod 2) (E : List (Q × Q)) (hE : ∀ e ∈ E, e.1 ≠ e.2) (st : FState Q) :
    run ρ st (E.map fun e => Op.cz e.1 e.2) = { st with
      z := fun q => st.z q + sumIf E (fun e => e.1 = q) (fun e => st.x e.2)
        + sumIf E (fun e => e.2 = q) (fun e => st.x e.1) } := by
  induction E generalizing st with
  | nil => simp [sumIf]
  | cons e E ih =>
    obtain ⟨a, d⟩ := e
    have had : a ≠ d := hE (a, d) (by simp)
    rw [List.map_cons, run_cons, ih fun e he => hE e (List.mem_cons_of_mem _ he)]
    simp only [step]
    congr 1
    funext q
    simp only [sumIf, List.map_cons, List.sum_cons]
    by_cases h1 : q = a
    · subst h1
      rw [Function.update_of_ne had, Function.update_self, if_pos rfl, if_neg (fun h => had h.symm)]
      abel
    · by_cases h2 : q = d
      · subst h2
        rw [Function.update_self, if_neg (fun h => h1 h.symm), if_pos rfl]
        abel
      · rw [Function.update_of_ne h2, Function.update_of_ne h1, if_neg (fun h => h1 h.symm),
          if_neg (fun h => h2 h.symm)]
        abel

/-- A layer of CX gates between two disjoint sets of qubits. -/
theorem run_cx (ρ : Nat → ZMod 2) (E : List (Q × Q)) (isA : Q → Bool)
    (hE : ∀ e ∈ E, isA e.1 = true ∧ isA e.2 = false) (st : FState Q) :
    run ρ st (E.map fun e => Op.cx e.1 e.2) = { st with
      x := fun q => st.x q + sumIf E (fun e => e.2 = q) (fun e => st.x e.1)
      z := fun q => st.z q + sumIf E (fun e => e.1 = q) (fun e => st.z e.2) } := by
  induction E generalizing st with
  | nil => simp [sumIf]
  | cons e E ih =>
    obtain ⟨a, d⟩ := e
    obtain ⟨ha, hd⟩ := hE (a, d) (by simp)
    simp only at ha hd
    have hE' := fun e (he : e ∈ E) => hE e (List.mem_cons_of_mem _ he)
    rw [List.map_cons, run_cons, ih hE']
    simp only [step]
    congr 1
    · funext q
      rw [sumIf_congr E (fun e => e.2 = q) _ (fun e => st.x e.1) (fun e he _ => by
        rw [Function.update_of_ne]
        rintro rfl
        rw [(hE' _ he).1] at hd; simp at hd)]
      simp only [sumIf, List.map_cons, List.sum_cons]
      by_cases h1 : q = d
      · subst h1; rw [Function.update_self, if_pos rfl]; abel
      · rw [Function.update_of_ne h1, if_neg fun h => h1 h.symm]; abel
    · funext q
      rw [sumIf_congr E (fun e => e.1 = q) _ (fun e => st.z e.2) (fun e he _ => by
        rw [Function.update_of_ne]
        rintro rfl
        rw [(hE' _ he).2] at ha; simp at ha)]
      simp only [sumIf, List.map_cons, List.sum_cons]
      by_cases h1 : q = a
      · subst h1; rw [Function.update_self, if_pos rfl]; abel
      · rw [Function.update_of_ne h1, if_neg fun h => h1 h.symm]; abel

/-! ### toggles -/

/-- The state is the frame `(fx, fz)` with X and Z exchanged on the qubits in `t`. -/
structure Rep (t : Q → Bool) (fx fz : Q → ZMod 2) (st0 st : FState Q) : Prop where
  x : ∀ q, st.x q = if t q then fz q else fx q
  z : ∀ q, st.z q = if t q then fx q else fz q
  recs : st.recs = st0.recs
  dets : st.dets = st0.dets
  obs : st.obs = st0.obs
  rnd : st.rnd = st0.rnd

theorem Rep.start (st : FState Q) : Rep (fun _ => false) st.x st.z st st :=
  ⟨fun _ => rfl, fun _ => rfl, rfl, rfl, rfl, rfl⟩

variable {t : Q → Bool} {fx fz : Q → ZMod 2} {st0 st : FState Q}

theorem Rep.h (r : Rep t fx fz st0 st) (ρ : Nat → ZMod 2) {S : List Q} (hS : S.Nodup) :
    Rep (fun q => xor (t q) (decide (q ∈ S))) fx fz st0 (run ρ st (S.map Op.h)) := by
  rw [run_h ρ S hS]
  refine ⟨fun q => ?_, fun q => ?_, r.recs, r.dets, r.obs, r.rnd⟩
  · by_cases h : q ∈ S
    · simp only [h, if_true, r.z, decide_true, Bool.xor_true]
      cases t q <;> rfl
    · simp only [h, if_false, r.x, decide_false, Bool.xor_false]
  · by_cases h : q ∈ S
    · simp only [h, if_true, r.x, decide_true, Bool.xor_true]
      cases t q <;> rfl
    · simp only [h, if_false, r.z, decide_false, Bool.xor_false]

/-- The kick on a data qubit: the sum of `r` over the ancillas interacting with it. -/
def kick (E : List (Q × Q)) (r : Q → ZMod 2) (d : Q) : ZMod 2 := sumIf E (fun e => e.2 = d) fun e => r e.1

/-- The sum of `v` over the data qubits interacting with an ancilla. -/
def pick (E : List (Q × Q)) (v : Q → ZMod 2) (a : Q) : ZMod 2 := sumIf E (fun e => e.1 = a) fun e => v e.2

theorem Rep.cz (r : Rep t fx fz st0 st) (ρ : Nat → ZMod 2) (isA : Q → Bool) {E : List (Q × Q)}
    (hE : ∀ e ∈ E, isA e.1 = true ∧ isA e.2 = false ∧ t e.1 = true) :
    Rep t (fun q => fx q + if isA q then pick E (fun d => if t d then fz d else fx d) q
        else if t q then kick E fz q else 0)
      (fun q => fz q + if isA q then 0 else if t q then 0 else kick E fz q) st0
      (run ρ st (E.map fun e => Op.cz e.1 e.2)) := by
  rw [run_cz ρ E (fun e he h => by
    have := hE e he
    rw [h, this.2.1] at this
    simp at this)]
  have hk : ∀ q, isA q = true → sumIf E (fun e => e.2 = q) (fun e => st.x e.1) = 0 := by
    intro q hq
    apply sumIf_zero
    rintro e he rfl
    rw [(hE e he).2.1] at hq
    simp at hq
  have hp : ∀ q, isA q = false → sumIf E (fun e => e.1 = q) (fun e => st.x e.2) = 0 := by
    intro q hq
    apply sumIf_zero
    rintro e he rfl
    rw [(hE e he).1] at hq
    simp at hq
  have hk2 : ∀ q, sumIf E (fun e => e.2 = q) (fun e => st.x e.1) = kick E fz q := by
    intro q
    apply sumIf_congr
    intro e he _
    rw [r.x, (hE e he).2.2]
    rfl
  have hp2 : ∀ q, sumIf E (fun e => e.1 = q) (fun e => st.x e.2) =
      pick E (fun d => if t d then fz d else fx d) q := by
    intro q
    apply sumIf_congr
    intro e he _
    rw [r.x]
  have hta : ∀ q, isA q = true → t q = false →
      pick E (fun d => if t d then fz d else fx d) q = 0 := by
    intro q hq ht
    apply sumIf_zero
    rintro e he rfl
    rw [(hE e he).2.2] at ht
    simp at ht
  refine ⟨fun q => ?_, fun q => ?_, r.recs, r.dets, r.obs, r.rnd⟩
  · simp only [r.x q]
    cases hA : isA q <;> cases ht : t q
    · simp
    · simp
    · simp [hta q hA ht]
    · simp
  · simp only [r.z q]
    cases hA : isA q
    · rw [hp q hA, hk2]
      cases ht : t q <;> simp
    · rw [hk q hA, hp2]
      cases ht : t q
      · simp [hta q hA ht]
      · simp

/-- The operations of three CZ layers between four Hadamard layers. -/
def coherentOps (S0 S1 S2 S3 : List Q) (E0 E1 E2 : List (Q × Q)) : List (Op Q) :=
  S0.map Op.h ++ E0.map (fun e => Op.cz e.1 e.2) ++ S1.map Op.h ++ E1.map (fun e => Op.cz e.1 e.2) ++
    S2.map Op.h ++ E2.map (fun e => Op.cz e.1 e.2) ++ S3.map Op.h

/-- What must hold for the layers to map every stabilizer to its ancilla.  `τ a d` says that the
stabilizer of `a` has an X (and not a Z) at `d`; `cross` says that the kicks of one ancilla on another one
cancel. -/
structure Coherent (isA : Q → Bool) (τ : Q → Q → Bool) (S0 S1 S2 S3 : List Q)
    (E0 E1 E2 : List (Q × Q)) : Prop where
  n0 : S0.Nodup
  n1 : S1.Nodup
  n2 : S2.Nodup
  n3 : S3.Nodup
  e0 : ∀ e ∈ E0, isA e.1 = true ∧ isA e.2 = false ∧ e.1 ∈ S0 ∧ (e.2 ∈ S0 ↔ τ e.1 e.2 = true)
  e1 : ∀ e ∈ E1, isA e.1 = true ∧ isA e.2 = false ∧ (e.1 ∈ S0 ↔ e.1 ∉ S1) ∧
    ((e.2 ∈ S0 ↔ e.2 ∉ S1) ↔ τ e.1 e.2 = true)
  e2 : ∀ e ∈ E2, isA e.1 = true ∧ isA e.2 = false ∧ ((e.1 ∈ S0 ↔ e.1 ∉ S1) ↔ e.1 ∉ S2) ∧
    (((e.2 ∈ S0 ↔ e.2 ∉ S1) ↔ e.2 ∉ S2) ↔ τ e.1 e.2 = true)
  back : ∀ q, ((q ∈ S0 ↔ q ∉ S1) ↔ q ∉ S2) ↔ q ∈ S3
  cross : ∀ (r : Q → ZMod 2) a, isA a = true →
    pick E1 (fun d => if d ∈ S1 then kick E0 r d else 0) a +
      pick E2 (fun d => (if d ∈ S1 ↔ d ∉ S2 then kick E0 r d else 0) +
        (if d ∈ S2 then kick E1 r d else 0)) a = 0

theorem pick_add (E : List (Q × Q)) (v w : Q → ZMod 2) (a : Q) :
    pick E (fun d => v d + w d) a = pick E v a + pick E w a := sumIf_add _ _ _ _

theorem pick_append (E F : List (Q × Q)) (v : Q → ZMod 2) (a : Q) :
    pick (E ++ F) v a = pick E v a + pick F v a := sumIf_append _ _ _ _

theorem kick_append (E F : List (Q × Q)) (r : Q → ZMod 2) (d : Q) :
    kick (E ++ F) r d = kick E r d + kick F r d := sumIf_append _ _ _ _

theorem kick_congr (E : List (Q × Q)) (r r' : Q → ZMod 2) (d : Q) (h : ∀ e ∈ E, r e.1 = r' e.1) :
    kick E r d = kick E r' d := sumIf_congr _ _ _ _ fun e he _ => h e he

theorem pick_congr (E : List (Q × Q)) (v v' : Q → ZMod 2) (a : Q)
    (h : ∀ e ∈ E, e.1 = a → v e.2 = v' e.2) : pick E v a = pick E v' a := sumIf_congr _ _ _ _ h

/-- The part of the kick by X (Z) type factors. -/
theorem kick_type (E : List (Q × Q)) (r : Q → ZMod 2) (d : Q) (t : Bool) (τ : Q → Q → Bool)
    (h : ∀ e ∈ E, e.2 = d → t = τ e.1 d) :
    (if t then kick E r d else 0) = sumIf E (fun e => e.2 = d ∧ τ e.1 d = true) (fun e => r e.1) ∧
    (if t then 0 else kick E r d) = sumIf E (fun e => e.2 = d ∧ τ e.1 d = false) (fun e => r e.1) := by
  unfold kick sumIf
  cases t
  · simp only [Bool.false_eq_true, if_false]
    constructor
    · symm
      apply List.sum_eq_zero
      intro v hv
      obtain ⟨e, he, rfl⟩ := List.mem_map.1 hv
      rw [if_neg]
      rintro ⟨h1, h2⟩
      rw [← h e he h1] at h2
      simp at h2
    · congr 1
      refine List.map_congr_left fun e he => ?_
      by_cases h1 : e.2 = d
      · simp [h1, ← h e he h1]
      · simp [h1]
  · simp only [if_true]
    constructor
    · congr 1
      refine List.map_congr_left fun e he => ?_
      by_cases h1 : e.2 = d
      · simp [h1, ← h e he h1]
      · simp [h1]
    · symm
      apply List.sum_eq_zero
      intro v hv
      obtain ⟨e, he, rfl⟩ := List.mem_map.1 hv
      rw [if_neg]
      rintro ⟨h1, h2⟩
      rw [← h e he h1] at h2
      simp at h2

theorem tog1 {p : Prop} [Decidable p] {τ : Bool} (h : p ↔ τ = true) :
    xor false (decide p) = τ := by
  by_cases a : p <;> cases τ <;> simp_all

theorem tog2 {p q : Prop} [Decidable p] [Decidable q] {τ : Bool} (h : (p ↔ ¬ q) ↔ τ = true) :
    xor (xor false (decide p)) (decide q) = τ := by
  by_cases a : p <;> by_cases b : q <;> cases τ <;> simp_all

theorem tog3 {p q r : Prop} [Decidable p] [Decidable q] [Decidable r] {τ : Bool}
    (h : ((p ↔ ¬ q) ↔ ¬ r) ↔ τ = true) :
    xor (xor (xor false (decide p)) (decide q)) (decide r) = τ := by
  by_cases a : p <;> by_cases b : q <;> by_cases c : r <;> cases τ <;> simp_all

theorem add_cancel_cross (a b c u v : ZMod 2) (h : u + v = 0) :
    a + ((b + u) + (c + v)) = a + (b + c) := by
  have : a + ((b + u) + (c + v)) = a + (b + c) + (u + v) := by abel
  rw [this, h, add_zero]

theorem if_kick (p q : Prop) [Decidable p] [Decidable q] (h : p ↔ q) (a b : ZMod 2) :
    (if p then a else b) = if q then a else b := by
  by_cases hp : p
  · rw [if_pos hp, if_pos (h.1 hp)]
  · rw [if_neg hp, if_neg (fun hq => hp (h.2 hq))]

set_option linter.unusedSimpArgs false in
/-- Every ancilla picks up its stabilizer; the data qubits pick up stabilizers. -/
theorem Coherent.run {isA : Q → Bool} {τ : Q → Q → Bool} {S0 S1 S2 S3 : List Q}
    {E0 E1 E2 : List (Q × Q)} (h : Coherent isA τ S0 S1 S2 S3 E0 E1 E2) (ρ : Nat → ZMod 2)
    (st : FState Q) :
    let st' := Spec.run ρ st (coherentOps S0 S1 S2 S3 E0 E1 E2)
    let E := E0 ++ E1 ++ E2
    st'.recs = st.recs ∧ st'.dets = st.dets ∧ st'.obs = st.obs ∧ st'.rnd = st.rnd ∧
    (∀ a, isA a = true → st'.z a = st.z a ∧
      st'.x a = st.x a + pick E (fun d => if τ a d then st.z d else st.x d) a) ∧
    (∀ d, isA d = false →
      st'.x d = st.x d + sumIf E (fun e => e.2 = d ∧ τ e.1 d = true) (fun e => st.z e.1) ∧
      st'.z d = st.z d + sumIf E (fun e => e.2 = d ∧ τ e.1 d = false) (fun e => st.z e.1)) := by
  intro st' E
  have r0 := (Rep.start st).h ρ h.n0
  have r1 := r0.cz ρ isA (E := E0) (fun e he => by
    obtain ⟨h1, h2, h3, h4⟩ := h.e0 e he
    refine ⟨h1, h2, ?_⟩
    simp [h3])
  have r2 := r1.h ρ h.n1
  have r3 := r2.cz ρ isA (E := E1) (fun e he => by
    obtain ⟨h1, h2, h3, h4⟩ := h.e1 e he
    refine ⟨h1, h2, ?_⟩
    exact tog2 (iff_true_right rfl |>.2 h3))
  have r4 := r3.h ρ h.n2
  have r5 := r4.cz ρ isA (E := E2) (fun e he => by
    obtain ⟨h1, h2, h3, h4⟩ := h.e2 e he
    refine ⟨h1, h2, ?_⟩
    exact tog3 (iff_true_right rfl |>.2 h3))
  have r6 := r5.h ρ h.n3
  simp only [← run_append] at r6
  have ht : ∀ q, xor (xor (xor (xor false (decide (q ∈ S0))) (decide (q ∈ S1))) (decide (q ∈ S2)))
      (decide (q ∈ S3)) = false := by
    intro q
    rw [tog3 (τ := decide (q ∈ S3)) ((h.back q).trans (by simp))]
    simp
  have hx := r6.x
  have hz := r6.z
  simp only [ht, Bool.false_eq_true, if_false] at hx hz
  refine ⟨r6.recs, r6.dets, r6.obs, r6.rnd, ?_, ?_⟩
  · intro a ha
    refine ⟨(hz a).trans (by simp [ha]), (hx a).trans ?_⟩
    simp only [ha, if_true]
    -- the ancilla part of the frame never changes
    have k1 : ∀ d, kick E1 (fun q => st.z q + if isA q = true then 0 else
        if (xor false (decide (q ∈ S0))) = true then 0 else kick E0 st.z q) d = kick E1 st.z d := by
      intro d
      apply kick_congr
      intro e he
      simp [(h.e1 e he).1]
    have hc := h.cross st.z a ha
    rw [add_assoc, add_assoc]
    congr 1
    have hE : pick E (fun d => if τ a d then st.z d else st.x d) a =
        pick E0 (fun d => if τ a d then st.z d else st.x d) a +
        (pick E1 (fun d => if τ a d then st.z d else st.x d) a +
        pick E2 (fun d => if τ a d then st.z d else st.x d) a) := by
      rw [pick_append, pick_append, add_assoc]
    rw [hE]
    have g0 : pick E0 (fun d => if (xor false (decide (d ∈ S0))) = true then st.z d else st.x d) a =
        pick E0 (fun d => if τ a d then st.z d else st.x d) a := by
      apply pick_congr
      rintro e he rfl
      apply if_kick
      rw [← (h.e0 e he).2.2.2]
      simp
    have g1 : pick E1 (fun d =>
        if (xor (xor false (decide (d ∈ S0))) (decide (d ∈ S1))) = true then
          st.z d + if isA d = true then 0 else
            if (xor false (decide (d ∈ S0))) = true then 0 else kick E0 st.z d
        else st.x d + if isA d = true then
            pick E0 (fun d => if (xor false (decide (d ∈ S0))) = true then st.z d else st.x d) d
          else if (xor false (decide (d ∈ S0))) = true then kick E0 st.z d else 0) a =
        pick E1 (fun d => if τ a d then st.z d else st.x d) a +
        pick E1 (fun d => if d ∈ S1 then kick E0 st.z d else 0) a := by
      rw [← pick_add]
      apply pick_congr
      rintro e he rfl
      obtain ⟨-, h2, -, h4⟩ := h.e1 e he
      rw [← if_kick _ _ h4]
      by_cases p : e.2 ∈ S0 <;> by_cases q : e.2 ∈ S1 <;> simp [h2, p, q]
    have g2 : pick E2 (fun d =>
        if (xor (xor (xor false (decide (d ∈ S0))) (decide (d ∈ S1))) (decide (d ∈ S2))) = true then
          (st.z d + if isA d = true then 0 else
            if (xor false (decide (d ∈ S0))) = true then 0 else kick E0 st.z d) +
            if isA d = true then 0 else
              if (xor (xor false (decide (d ∈ S0))) (decide (d ∈ S1))) = true then 0 else
                kick E1 (fun q => st.z q + if isA q = true then 0 else
                  if (xor false (decide (q ∈ S0))) = true then 0 else kick E0 st.z q) d
        else (st.x d + if isA d = true then
            pick E0 (fun d => if (xor false (decide (d ∈ S0))) = true then st.z d else st.x d) d
          else if (xor false (decide (d ∈ S0))) = true then kick E0 st.z d else 0) +
          if isA d = true then
            pick E1 (fun d =>
              if (xor (xor false (decide (d ∈ S0))) (decide (d ∈ S1))) = true then
                st.z d + if isA d = true then 0 else
                  if (xor false (decide (d ∈ S0))) = true then 0 else kick E0 st.z d
              else st.x d + if isA d = true then
                  pick E0 (fun d => if (xor false (decide (d ∈ S0))) = true then st.z d else st.x d) d
                else if (xor false (decide (d ∈ S0))) = true then kick E0 st.z d else 0) d
          else if (xor (xor false (decide (d ∈ S0))) (decide (d ∈ S1))) = true then
              kick E1 (fun q => st.z q + if isA q = true then 0 else
                if (xor false (decide (q ∈ S0))) = true then 0 else kick E0 st.z q) d else 0) a =
        pick E2 (fun d => if τ a d then st.z d else st.x d) a +
        pick E2 (fun d => (if d ∈ S1 ↔ d ∉ S2 then kick E0 st.z d else 0) +
          (if d ∈ S2 then kick E1 st.z d else 0)) a := by
      rw [← pick_add]
      apply pick_congr
      rintro e he rfl
      obtain ⟨-, h2, -, h4⟩ := h.e2 e he
      rw [← if_kick _ _ h4, k1]
      by_cases p : e.2 ∈ S0 <;> by_cases q : e.2 ∈ S1 <;> by_cases w : e.2 ∈ S2 <;>
        simp [h2, p, q, w, add_assoc]
    rw [g0, g1, g2]
    exact add_cancel_cross _ _ _ _ _ hc
  · intro d hd
    have k1 : kick E1 (fun q => st.z q + if isA q = true then 0 else
        if (xor false (decide (q ∈ S0))) = true then 0 else kick E0 st.z q) d = kick E1 st.z d := by
      apply kick_congr
      intro e he
      simp [(h.e1 e he).1]
    have k2 : kick E2 (fun q => (st.z q + if isA q = true then 0 else
        if (xor false (decide (q ∈ S0))) = true then 0 else kick E0 st.z q) +
        if isA q = true then 0 else
              if (xor (xor false (decide (q ∈ S0))) (decide (q ∈ S1))) = true then 0 else
                kick E1 (fun q => st.z q + if isA q = true then 0 else
                  if (xor false (decide (q ∈ S0))) = true then 0 else kick E0 st.z q) q) d =
        kick E2 st.z d := by
      apply kick_congr
      intro e he
      simp [(h.e2 e he).1]
    obtain ⟨a1, a2⟩ := kick_type E0 st.z d (xor false (decide (d ∈ S0))) τ (by
      rintro e he rfl
      exact tog1 (h.e0 e he).2.2.2)
    obtain ⟨b1, b2⟩ := kick_type E1 st.z d (xor (xor false (decide (d ∈ S0))) (decide (d ∈ S1))) τ (by
      rintro e he rfl
      exact tog2 (h.e1 e he).2.2.2)
    obtain ⟨c1, c2⟩ := kick_type E2 st.z d
      (xor (xor (xor false (decide (d ∈ S0))) (decide (d ∈ S1))) (decide (d ∈ S2))) τ (by
      rintro e he rfl
      exact tog3 (h.e2 e he).2.2.2)
    constructor
    · refine (hx d).trans ?_
      simp only [hd, Bool.false_eq_true, if_false, E]
      rw [k1, k2, a1, b1, c1, sumIf_append, sumIf_append]
      abel
    · refine (hz d).trans ?_
      simp only [hd, Bool.false_eq_true, if_false, E]
      rw [k1, k2, a2, b2, c2, sumIf_append, sumIf_append]
      abel

end SurfaceSim.Spec
