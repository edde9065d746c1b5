/-
Consequences of the specification of rounds.
-/
import Verif.Lemmas.CssRounds
import Verif.Spec.Code

namespace SurfaceSim
open Spec NoiseModel Blocks

variable {l : Layout} {L : List (String × Site × Kind)} {dirs : List (Site × String)}

theorem CanRun.usable {nm : NoiseModel} (h : CanRun nm l) (hg : OnGrid l L dirs) : Usable nm.inds L :=
  ⟨fun q _ _ hq => h.known _ hg.getQubits_all q (List.mem_map.2 ⟨_, hq, rfl⟩), h.inj⟩

theorem measured_roundOps (reset : Bool) (anc : List String) (S0 S1 S2 S3 : List String)
    (E0 E1 E2 : List (String × String)) :
    measured (roundOps reset anc (coherentOps S0 S1 S2 S3 E0 E1 E2)) = anc := by
  unfold roundOps coherentOps
  cases reset <;> simp only [measured_append, measured_m, if_true, if_false, Bool.false_eq_true] <;>
    simp only [measured_map_none _ _ (by simp : ∀ q : String, opMeas (Op.h q) = none),
      measured_map_none _ _ (by simp : ∀ q : String, opMeas (Op.r q) = none),
      measured_map_pair_none _ _ (by simp : ∀ a b : String, opMeas (Op.cz a b) = none), List.nil_append, measured_nil]

theorem distinct_ops_of_pairs {reset : Bool} {anc : List String} {S0 S1 S2 S3 : List String}
    {E0 E1 E2 : List (String × String)} (hE : ∀ e ∈ E0 ++ E1 ++ E2, e.1 ≠ e.2) :
    ∀ op ∈ roundOps reset anc (coherentOps S0 S1 S2 S3 E0 E1 E2), op.Distinct := by
  intro op ho
  unfold roundOps coherentOps at ho
  simp only [List.mem_append] at ho hE
  cases reset <;> simp only [if_true, if_false, Bool.false_eq_true, List.mem_map, List.not_mem_nil, false_or] at ho
  all_goals
    cases op with
    | cz a b =>
      simp only [reduceCtorEq, and_false, exists_false, false_or, or_false, Op.cz.injEq] at ho
      rcases ho with (⟨e, he, rfl, rfl⟩ | ⟨e, he, rfl, rfl⟩) | ⟨e, he, rfl, rfl⟩
      · exact hE e (.inl (.inl he))
      · exact hE e (.inl (.inr he))
      · exact hE e (.inr he)
    | cx a b => simp at ho
    | swap a b => simp at ho
    | _ => trivial

theorem distinct_roundOps {reset : Bool} {anc : List String} {isA : String → Bool} {τ : String → String → Bool}
    {S0 S1 S2 S3 : List String} {E0 E1 E2 : List (String × String)} (hc : Coherent isA τ S0 S1 S2 S3 E0 E1 E2) :
    ∀ op ∈ roundOps reset anc (coherentOps S0 S1 S2 S3 E0 E1 E2), op.Distinct := by
  have hE : ∀ e ∈ E0 ++ E1 ++ E2, e.1 ≠ e.2 := by
    intro e he h
    have : isA e.1 = true ∧ isA e.2 = false := by
      simp only [List.mem_append] at he
      rcases he with (he | he) | he
      · exact ⟨(hc.e0 e he).1, (hc.e0 e he).2.1⟩
      · exact ⟨(hc.e1 e he).1, (hc.e1 e he).2.1⟩
      · exact ⟨(hc.e2 e he).1, (hc.e2 e he).2.1⟩
    rw [h] at this
    exact absurd (this.1.symm.trans this.2) (by decide)
  exact distinct_ops_of_pairs hE

/-- A block consisting of coherent layers measures the stabilizers. -/
theorem roundMeasures_grid (hg : OnGrid l L dirs) {nm : NoiseModel} (hr : CanRun nm l) {b : Call1}
    {isX : String → String → Bool} {reset : Bool} {S0 S1 S2 S3 : List String}
    {E0 E1 E2 : List (String × String)} {sh : Kind → List Site}
    (hb : Does nm.inds b (roundOps reset (ancOf L) (coherentOps S0 S1 S2 S3 E0 E1 E2)))
    (hc : Coherent (fun q => decide (q ∈ ancOf L)) isX S0 S1 S2 S3 E0 E1 E2)
    (hE : Layer L (E0 ++ E1 ++ E2) sh)
    (hs : ∀ k, k ≠ .data → ∀ σ, σ ∈ sh k ↔ ∃ dir, (σ, dir) ∈ dirs)
    (hS : ∀ q ∈ S0 ++ S1 ++ S2 ++ S3, ∃ s k, (q, s, k) ∈ L) :
    RoundMeasures nm l b isX reset := by
  refine ⟨dataOf L, ancOf L, hg.getQubits_data, hg.getQubits_anc, fun s hist ht => ?_⟩
  obtain ⟨c, s', e, he, ho, t⟩ := hb.2 s hist ht
  rw [measured_roundOps] at t
  exact ⟨c, s', e, pairsOk_of_ops hr.inj he ho hb.1 (distinct_roundOps hc), t, by rw [measOrder_ops, ho, measured_rename, measured_roundOps], fun ρ st => measuresStabs_grid hg (CanRun.usable hr hg) hc hE hs hS ho ρ st⟩

theorem sum_even {α : Type} (A : List α) (p : α → Bool) (v : ZMod 2) (h : Even (A.countP p)) :
    (A.map fun a => if p a then v else 0).sum = 0 := by
  rw [sum_eq_count, even_cast h, zero_mul]

theorem total_eq (A : List String) (p : String → Bool) (r : String → ZMod 2) :
    total A p r = (A.map fun a => if p a then r a else 0).sum := by
  unfold total
  induction A with
  | nil => rfl
  | cons a A ih => by_cases h : p a <;> simp [List.filter_cons, h, ih]

/-- Products of stabilizers do not change whether the frame commutes with an operator that commutes with all
stabilizers. -/
theorem kicks_invariant {ι : String → Nat} {data anc : List String} {sup : String → List String}
    {isX : String → String → Bool} {st st' : FState Nat}
    (h : ∃ r : String → ZMod 2, ∀ d ∈ data,
      st'.x (ι d) = st.x (ι d) + total anc (fun a => d ∈ sup a ∧ isX a d = true) r ∧
      st'.z (ι d) = st.z (ι d) + total anc (fun a => d ∈ sup a ∧ isX a d = false) r) {S : List String} {τ : String → Bool}
    (hS : ∀ d ∈ S, d ∈ data)
    (hc : ∀ a ∈ anc, Even (S.countP fun d => decide (d ∈ sup a ∧ isX a d ≠ τ d))) :
    anticommutes ι st' S τ = anticommutes ι st S τ := by
  obtain ⟨r, hr⟩ := h
  unfold anticommutes
  have e1 : (S.map fun d => if τ d then st'.z (ι d) else st'.x (ι d)) =
      S.map fun d => (if τ d then st.z (ι d) else st.x (ι d)) +
        (anc.map fun a => if decide (d ∈ sup a ∧ isX a d ≠ τ d) then r a else 0).sum := by
    refine List.map_congr_left fun d hd => ?_
    obtain ⟨h1, h2⟩ := hr d (hS d hd)
    rw [total_eq] at h1 h2
    cases ht : τ d
    · simp only [Bool.false_eq_true, if_false, h1]
      congr 3
      funext a
      cases isX a d <;> simp
    · simp only [if_true, h2]
      congr 3
      funext a
      cases isX a d <;> simp
  rw [e1, List.sum_map_add, sum_swap]
  have e2 : (anc.map fun a => (S.map fun d => if decide (d ∈ sup a ∧ isX a d ≠ τ d) then r a else 0).sum).sum = 0 := by
    refine List.sum_eq_zero ?_
    intro v hv
    obtain ⟨a, ha, rfl⟩ := List.mem_map.1 hv
    exact sum_even S _ _ (hc a ha)
  rw [e2, add_zero]

/-- A round does not change whether the frame commutes with an operator that commutes with all stabilizers. -/
theorem MeasuresStabs.invariant {ι : String → Nat} {data anc : List String} {sup : String → List String}
    {isX : String → String → Bool} {reset : Bool} {st st' : FState Nat}
    (h : MeasuresStabs ι data anc sup isX reset st st') {S : List String} {τ : String → Bool}
    (hS : ∀ d ∈ S, d ∈ data)
    (hc : ∀ a ∈ anc, Even (S.countP fun d => decide (d ∈ sup a ∧ isX a d ≠ τ d))) :
    anticommutes ι st' S τ = anticommutes ι st S τ :=
  kicks_invariant h.kicks hS hc

end SurfaceSim
