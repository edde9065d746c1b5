import Verif.Spec.Noise
import Verif.Lemmas.NoiseModels
import Mathlib.Tactic.FieldSimp
import Mathlib.Tactic.Positivity
import Mathlib.Tactic.Ring
import Mathlib.Tactic.IntervalCases

namespace SurfaceSim
open Spec NoiseModel

theorem elems_append (a b : Circuit) : elems (a ++ b) = elems a ++ elems b := by
  simp [elems, List.flatMap_append]

theorem pairUp_append {α : Type} : ∀ (a b : List α), a.length % 2 = 0 →
    pairUp (a ++ b) = (pairUp a).bind fun x => (pairUp b).map (x ++ ·)
  | [], b, _ => by simp [pairUp]
  | [_], b, h => by simp at h
  | x :: y :: a, b, h => by
    have h' : a.length % 2 = 0 := by simp at h; omega
    simp only [List.cons_append, pairUp, pairUp_append a b h']
    cases pairUp a <;> cases pairUp b <;> simp

theorem pairUp_isSome {α : Type} : ∀ (a : List α), a.length % 2 = 0 → (pairUp a).isSome
  | [], _ => by simp [pairUp]
  | [_], h => by simp at h
  | x :: y :: a, h => by
    have h' : a.length % 2 = 0 := by simp at h; omega
    simp [pairUp, pairUp_isSome a h']

theorem pairs_append (a b : List Nat) (ha : a.length % 2 = 0) (hb : b.length % 2 = 0) :
    pairs (a ++ b) = pairs a ++ pairs b := by
  unfold pairs
  rw [pairUp_append a b ha]
  obtain ⟨x, hx⟩ := Option.isSome_iff_exists.1 (pairUp_isSome a ha)
  obtain ⟨y, hy⟩ := Option.isSome_iff_exists.1 (pairUp_isSome b hb)
  simp [hx, hy]

theorem elemsI_append (g : Gate) (a b : List Target) (args : List Arg)
    (ha : g.isTwoQubit = true → (Instr.mk g a args).qubits.length % 2 = 0)
    (hb : g.isTwoQubit = true → (Instr.mk g b args).qubits.length % 2 = 0) :
    elemsI ⟨g, a ++ b, args⟩ = elemsI ⟨g, a, args⟩ ++ elemsI ⟨g, b, args⟩ := by
  unfold elemsI
  simp only [Instr.qubits_mk_append]
  split
  · rename_i h
    rw [pairs_append _ _ (ha h) (hb h), List.map_append]
  · rw [List.map_append]

theorem elems_circuit_append (c : Circuit) (i : Instr) (hc : EvenPairs c)
    (hi : i.gate.isTwoQubit = true → i.qubits.length % 2 = 0) :
    elems (Circuit.append c i) = elems c ++ elemsI i ∧ EvenPairs (Circuit.append c i) := by
  unfold Circuit.append
  cases h : c.getLast? with
  | none =>
    have : c = [] := by simpa using h
    subst this
    refine ⟨by simp [elems], fun j hj => ?_⟩
    simp at hj
    exact hj ▸ hi
  | some l =>
    simp only
    have hce : c = c.dropLast ++ [l] := by
      have hne : c ≠ [] := by rintro rfl; simp at h
      rw [List.getLast?_eq_some_getLast hne] at h
      simp at h
      rw [← h]
      exact (List.dropLast_concat_getLast hne).symm
    split
    · rename_i hf
      obtain ⟨h1, h2, -⟩ := hf
      have hl := hc l (by rw [hce]; simp)
      obtain ⟨g, t, a⟩ := l
      obtain ⟨g', t', a'⟩ := i
      simp only at h1 h2 hi hl
      subst h1 h2
      constructor
      · conv_rhs => rw [hce]
        rw [elems_append, elems_append, List.append_assoc]
        simp [elems, elemsI_append _ _ _ _ hl hi]
      · intro j hj ht
        rcases List.mem_append.1 hj with hj | hj
        · exact hc j (by rw [hce]; exact List.mem_append_left _ hj) ht
        · simp at hj
          subst hj
          simp only at ht ⊢
          rw [Instr.qubits_mk_append, List.length_append]
          have := hl ht
          have := hi ht
          omega
    · refine ⟨by rw [elems_append]; simp [elems], ?_⟩
      intro j hj
      rcases List.mem_append.1 hj with hj | hj
      · exact hc j hj
      · simp at hj
        exact hj ▸ hi

/-- What the noise loop appends. -/
theorem noiseLoop_elems (noise : Gate) (rule : ArgRule) (argsOf : List String → List Arg)
    (l : List (List String × List Nat)) (c : Circuit) (hc : EvenPairs c)
    (hr : ∀ p ∈ l, rule p.1 = .ok (argsOf p.1) ∧ noise.argsOk (argsOf p.1) = true ∧
      ((noise.isTwoQubit = true ∧ ∃ a b, p.2 = [a, b] ∧ a ≠ b) ∨
       (noise.isTwoQubit = false ∧ ∃ a, p.2 = [a]))) :
    ∃ c', noiseLoop noise rule c l = .ok c' ∧
      elems c' = elems c ++ l.map (fun p => (noise, p.2, argsOf p.1)) ∧ EvenPairs c' := by
  induction l generalizing c with
  | nil => exact ⟨c, rfl, by simp, hc⟩
  | cons p l ih =>
    obtain ⟨qs, is⟩ := p
    obtain ⟨h1, h2, h3⟩ := hr (qs, is) (by simp)
    simp only at h1 h2 h3
    have hmk : mkInstr noise (is.map Target.qubit) (argsOf qs) =
        .ok ⟨noise, is.map Target.qubit, argsOf qs⟩ := by
      rcases h3 with ⟨ht, a, b, hab, hne⟩ | ⟨ht, a, ha⟩
      · subst hab
        exact mkInstr_two noise [(a, b)] _ h2 ht (by simpa using hne)
      · exact mkInstr_one _ _ _ h2 ht
    have hel : elemsI ⟨noise, is.map Target.qubit, argsOf qs⟩ = [(noise, is, argsOf qs)] := by
      unfold elemsI
      rcases h3 with ⟨ht, a, b, hab, hne⟩ | ⟨ht, a, ha⟩
      · subst hab
        simp only [Instr.qubits_map, ht, if_true]
        rfl
      · subst ha
        simp [ht, Instr.qubits]
    have hev : noise.isTwoQubit = true →
        (Instr.mk noise (is.map Target.qubit) (argsOf qs)).qubits.length % 2 = 0 := by
      rcases h3 with ⟨ht, a, b, hab, hne⟩ | ⟨ht, a, ha⟩
      · subst hab
        intro _
        rw [Instr.qubits_map]; simp
      · intro h; simp [ht] at h
    obtain ⟨k1, k2⟩ := elems_circuit_append c ⟨noise, is.map Target.qubit, argsOf qs⟩ hc hev
    obtain ⟨c', e1, e2, e3⟩ := ih (Circuit.append c ⟨noise, is.map Target.qubit, argsOf qs⟩) k2
      (fun p hp => hr p (List.mem_cons_of_mem _ hp))
    refine ⟨c', ?_, ?_, e3⟩
    · simp [noiseLoop, h1, appendOp, hmk, e1]
    · rw [e2, k1, hel]
      simp

theorem singles_eq (inds : Dict String Nat) (qs : List String) :
    singles qs (qs.map (ind inds)) = qs.map fun q => ([q], [ind inds q]) := by
  unfold singles
  induction qs with
  | nil => rfl
  | cons q qs ih => simpa using ih

/-- The rule evaluates to admissible arguments `argsOf`. -/
def RuleIs (noise : Gate) (rule : ArgRule) (qs : List String) (args : List Arg) : Prop :=
  rule qs = .ok args ∧ noise.argsOk args = true

theorem evenPairs_nil : EvenPairs [] := by intro i hi; simp at hi

theorem elemsI_one (g : Gate) (h2 : g.isTwoQubit = false) (l : List Nat) (args : List Arg) :
    elemsI ⟨g, l.map Target.qubit, args⟩ = l.map fun q => (g, [q], args) := by
  simp [elemsI, h2]

theorem elemsI_two (g : Gate) (h2 : g.isTwoQubit = true) (l : List (Nat × Nat)) (args : List Arg) :
    elemsI ⟨g, (l.flatMap fun p => [p.1, p.2]).map Target.qubit, args⟩ =
      l.map fun p => (g, [p.1, p.2], args) := by
  simp only [elemsI, h2, if_true, Instr.qubits_map, pairs_flat]

theorem sqOp_elems (inds : Dict String Nat) (g noise : Gate) (rule : ArgRule)
    (argsOf : String → List Arg) (hg1 : g.argsOk [] = true) (hg2 : g.isTwoQubit = false)
    (hn2 : noise.isTwoQubit = false)
    (hr : ∀ q ∈ inds.keys, RuleIs noise rule [q] (argsOf q)) :
    GateThenNoise inds (lift (sqOp inds g noise rule)) g noise argsOf := by
  intro qs hqs m
  have h0 := getInds_ok inds qs hqs
  obtain ⟨k1, k2⟩ := elems_circuit_append [] ⟨g, (qs.map (ind inds)).map Target.qubit, []⟩
    evenPairs_nil (by simp [hg2])
  obtain ⟨c', e1, e2, -⟩ := noiseLoop_elems noise rule (fun l => argsOf (l.headD ""))
    (singles qs (qs.map (ind inds)))
    (Circuit.append [] ⟨g, (qs.map (ind inds)).map Target.qubit, []⟩) k2 (by
      intro p hp
      obtain ⟨q, hq, rfl⟩ := singles_mem hqs hp
      obtain ⟨h1, h2⟩ := hr q hq
      exact ⟨h1, h2, Or.inr ⟨hn2, _, rfl⟩⟩)
  refine ⟨c', ?_, ?_⟩
  · simp only [lift, PyM.ofExcept, sqOp, h0, appendOp, mkInstr_one _ _ _ hg1 hg2, e1]
  · rw [e2, k1, elemsI_one g hg2, singles_eq]
    simp [elems, Function.comp_def]

theorem tqOp_elems (inds : Dict String Nat) (g noise : Gate) (rule : ArgRule)
    (argsOf : String → String → List Arg) (hg1 : g.argsOk [] = true) (hg2 : g.isTwoQubit = true)
    (hn2 : noise.isTwoQubit = true)
    (hr : ∀ p ∈ inds.keys, ∀ q ∈ inds.keys, RuleIs noise rule [p, q] (argsOf p q)) :
    GateThenNoise2 inds (lift (tqOp inds g noise rule)) g noise argsOf := by
  intro ps hps m
  set qs := ps.flatMap fun p => [p.1, p.2] with hqs
  have hk : ∀ q ∈ qs, q ∈ inds.keys := by
    intro q hq
    rw [hqs, List.mem_flatMap] at hq
    obtain ⟨p, hp, hq⟩ := hq
    simp at hq
    rcases hq with rfl | rfl
    · exact (hps p hp).1
    · exact (hps p hp).2.1
  have h0 := getInds_ok inds qs hk
  set js := ps.map fun p => (ind inds p.1, ind inds p.2) with hjs
  have hflat : qs.map (ind inds) = js.flatMap fun p => [p.1, p.2] := flat_map _ _
  have hne : ∀ p ∈ js, p.1 ≠ p.2 := by
    intro p hp
    obtain ⟨p', hp', rfl⟩ := List.mem_map.1 hp
    exact (hps p' hp').2.2
  have hz : ps.zip js = ps.map fun p => (p, (ind inds p.1, ind inds p.2)) := by
    rw [hjs]
    clear * -
    induction ps with
    | nil => rfl
    | cons q ps ih => simp [ih]
  have hpg : pairGroups qs (qs.map (ind inds)) =
      .ok (ps.map fun p => ([p.1, p.2], [ind inds p.1, ind inds p.2])) := by
    unfold pairGroups
    rw [hflat, hqs, pairUp_flat, pairUp_flat]
    simp only [hz, List.map_map, Function.comp_def]
  obtain ⟨k1, k2⟩ := elems_circuit_append [] ⟨g, (qs.map (ind inds)).map Target.qubit, []⟩
    evenPairs_nil (by
      intro _
      rw [Instr.qubits_map, List.length_map, hqs, flat_length]
      simp)
  obtain ⟨c', e1, e2, -⟩ := noiseLoop_elems noise rule
    (fun l => argsOf (l.headD "") (l.tail.headD ""))
    (ps.map fun p => ([p.1, p.2], [ind inds p.1, ind inds p.2]))
    (Circuit.append [] ⟨g, (qs.map (ind inds)).map Target.qubit, []⟩) k2 (by
      intro p hp
      obtain ⟨⟨a, b⟩, hm, rfl⟩ := List.mem_map.1 hp
      obtain ⟨ha, hb, hab⟩ := hps _ hm
      obtain ⟨h1, h2⟩ := hr _ ha _ hb
      exact ⟨h1, h2, Or.inl ⟨hn2, _, _, rfl, hab⟩⟩)
  refine ⟨c', ?_, ?_⟩
  · have hlen : ¬ qs.length % 2 ≠ 0 := by rw [hqs, flat_length]; omega
    have hmk := mkInstr_two g js [] hg1 hg2 hne
    rw [← hflat] at hmk
    simp only [lift, PyM.ofExcept, tqOp, if_neg hlen, h0, appendOp, hmk, hpg, e1]
  · rw [e2, k1, hflat, elemsI_two g hg2]
    simp [elems, hjs, Function.comp_def]

theorem noiseOnly_elems (inds : Dict String Nat) (noise : Gate) (rule : ArgRule)
    (argsOf : String → List Arg) (hn2 : noise.isTwoQubit = false)
    (hr : ∀ q ∈ inds.keys, RuleIs noise rule [q] (argsOf q))
    (qs : List String) (hqs : ∀ q ∈ qs, q ∈ inds.keys) (m : MeasState) :
    ∃ c, lift (noiseOnly inds noise rule) qs m = (.ok c, m) ∧
      elems c = qs.map (fun q => (noise, [ind inds q], argsOf q)) := by
  obtain ⟨c', e1, e2, -⟩ := noiseLoop_elems noise rule (fun l => argsOf (l.headD ""))
    (singles qs (qs.map (ind inds))) [] evenPairs_nil (by
      intro p hp
      obtain ⟨q, hq, rfl⟩ := singles_mem hqs hp
      obtain ⟨h1, h2⟩ := hr q hq
      exact ⟨h1, h2, Or.inr ⟨hn2, _, rfl⟩⟩)
  refine ⟨c', by simp only [lift, PyM.ofExcept, noiseOnly, getInds_ok inds qs hqs, e1], ?_⟩
  rw [e2, singles_eq]
  simp [elems, Function.comp_def]

theorem measLoop_elems (s : Setup) (inds : Dict String Nat) (g : Gate) (hgm : g.isMeas = true)
    (ha : AssignOk s inds)
    (qs : List String) (hqs : ∀ q ∈ qs, q ∈ inds.keys) (c : Circuit) (hc : EvenPairs c)
    (m : MeasState) (hist : List String) (hm : m.Tracks inds hist) :
    ∃ c' m', measLoop s inds g c (qs.zip (qs.map (ind inds))) m = (.ok c', m') ∧
      elems c' = elems c ++ qs.map (fun q => (g, [ind inds q], assignArgs s q)) ∧
      m'.Tracks inds (hist ++ qs) := by
  induction qs generalizing c m hist with
  | nil => exact ⟨c, m, rfl, by simp, by simpa using hm⟩
  | cons q qs ih =>
    obtain ⟨m1, hm1, ht1⟩ := MeasState.addMeas_known hm (hqs q (by simp))
    obtain ⟨v, hv, hv'⟩ := ha q (hqs q (by simp))
    have h2 : g.isTwoQubit = false := by cases g <;> simp_all [Gate.isMeas, Gate.isTwoQubit]
    have hargs : (if v.truthy = true then (PyM.ofExcept (plainArgs s "assign_error_prob" [q]) : PyM MeasState _)
        else pure []) m1 = (.ok (assignArgs s q), m1) ∧ g.argsOk (assignArgs s q) = true := by
      by_cases ht : v.truthy = true
      · obtain ⟨p, hp, h0, h1⟩ := hv' ht
        constructor
        · simp [ht, plainArgs, hp, assignArgs, hv, paramValue]
        · cases g <;> simp_all [Gate.isMeas, Gate.argsOk, Arg.isProb, assignArgs, paramValue]
      · constructor
        · simp [ht, assignArgs, hv]
        · cases g <;> simp_all [Gate.isMeas, Gate.argsOk, assignArgs]
    obtain ⟨hargs, hok⟩ := hargs
    have happ : appendOp c g [ind inds q] (assignArgs s q) =
        .ok (Circuit.append c ⟨g, [ind inds q].map Target.qubit, assignArgs s q⟩) := by
      simp [appendOp, mkInstr_one _ _ _ hok h2]
    obtain ⟨k1, k2⟩ := elems_circuit_append c ⟨g, [ind inds q].map Target.qubit, assignArgs s q⟩ hc
      (by simp [h2])
    obtain ⟨c', m', e1, e2, e3⟩ := ih (fun q hq => hqs q (List.mem_cons_of_mem _ hq))
      (Circuit.append c ⟨g, [ind inds q].map Target.qubit, assignArgs s q⟩) k2 m1 (hist ++ [q]) ht1
    refine ⟨c', m', ?_, ?_, by simpa using e3⟩
    · simp only [List.map_cons, List.zip_cons_cons, measLoop]
      rw [PyM.bind_ok hm1, PyM.bind_ok (by rw [PyM.ofExcept_apply, hv])]
      by_cases ht : v.truthy = true
      · rw [if_pos ht] at hargs ⊢
        rw [PyM.bind_ok hargs, PyM.bind_ok (by rw [PyM.ofExcept_apply, happ])]
        exact e1
      · rw [if_neg ht] at hargs ⊢
        rw [PyM.bind_ok hargs, PyM.bind_ok (by rw [PyM.ofExcept_apply, happ])]
        exact e1
    · rw [e2, k1, elemsI_one g h2]
      simp

theorem measOp_elems (s : Setup) (inds : Dict String Nat) (g noise : Gate) (hgm : g.isMeas = true)
    (ha : AssignOk s inds) (hn2 : noise.isTwoQubit = false)
    (argsOf : String → List Arg)
    (hr : ∀ q ∈ inds.keys, RuleIs noise (plainArgs s "meas_error_prob") [q] (argsOf q)) :
    NoiseThenMeasure inds (measOp s inds g noise) g noise argsOf (assignArgs s) := by
  intro qs hqs m hist hm
  obtain ⟨c1, e1, e2, e3⟩ := noiseLoop_elems noise (plainArgs s "meas_error_prob")
    (fun l => argsOf (l.headD "")) (singles qs (qs.map (ind inds))) [] evenPairs_nil (by
      intro p hp
      obtain ⟨q, hq, rfl⟩ := singles_mem hqs hp
      obtain ⟨h1, h2⟩ := hr q hq
      exact ⟨h1, h2, Or.inr ⟨hn2, _, rfl⟩⟩)
  obtain ⟨c', m', f1, f2, f3⟩ := measLoop_elems s inds g hgm ha qs hqs c1 e3 m hist hm
  refine ⟨c', m', ?_, ?_, f3⟩
  · unfold measOp
    rw [PyM.bind_ok (by rw [PyM.ofExcept_apply, getInds_ok inds qs hqs]),
      PyM.bind_ok (by rw [PyM.ofExcept_apply, e1])]
    exact f1
  · rw [f2, e2, singles_eq]
    simp [elems, Function.comp_def]

/-! ### parameters -/

theorem plainArgs_rule {s : Setup} {name : String} {qs : List String} {hi : Rat} {noise : Gate}
    (h : ProbParam s name qs hi)
    (hok : ∀ p : Rat, 0 ≤ p → p ≤ hi → noise.argsOk [.num p] = true) :
    RuleIs noise (plainArgs s name) qs [.num (paramValue s name qs)] := by
  obtain ⟨p, hp, h0, h1⟩ := h
  exact ⟨by simp [plainArgs, paramValue, hp], by simpa [paramValue, hp] using hok p h0 h1⟩

theorem argsOk_dep1 (p : Rat) (h0 : 0 ≤ p) (h1 : p ≤ 3/4) : Gate.DEPOLARIZE1.argsOk [.num p] = true := by
  simp [Gate.argsOk, h0, h1]

theorem argsOk_dep2 (p : Rat) (h0 : 0 ≤ p) (h1 : p ≤ 15/16) :
    Gate.DEPOLARIZE2.argsOk [.num p] = true := by
  simp [Gate.argsOk, h0, h1]

theorem argsOk_xerr (p : Rat) (h0 : 0 ≤ p) (h1 : p ≤ 1) : Gate.X_ERROR.argsOk [.num p] = true := by
  simp [Gate.argsOk, Arg.isProb, h0, h1]

theorem argsOk_zerr (p : Rat) (h0 : 0 ≤ p) (h1 : p ≤ 1) : Gate.Z_ERROR.argsOk [.num p] = true := by
  simp [Gate.argsOk, Arg.isProb, h0, h1]

theorem pauliOperators_one : pauliOperators 1 = pauliStrings 1 := by decide +kernel
theorem pauliOperators_two : pauliOperators 2 = pauliStrings 2 := by decide +kernel

theorem sum_ite_filter (P : String) (f : Rat) (l : List (List String)) :
    (l.map fun op => if P ∈ op then f else (1 : Rat)).sum =
      ((l.filter fun op => decide (P ∈ op)).length : Rat) * (f - 1) + l.length := by
  induction l with
  | nil => simp
  | cons a l ih =>
    by_cases h : P ∈ a
    · simp only [List.map_cons, List.sum_cons, ih, h, if_true, List.filter_cons, decide_true,
        List.length_cons, Nat.cast_add, Nat.cast_one]
      ring
    · simp only [List.map_cons, List.sum_cons, ih, h, if_false, List.filter_cons, decide_false,
        List.length_cons, Nat.cast_add, Nat.cast_one]
      simp
      ring

theorem biased_total_pos (P : String) (f : Rat) (hf : 0 ≤ f) (l : List (List String))
    (hex : ∃ op ∈ l, P ∉ op) : 0 < (l.map fun op => if P ∈ op then f else (1 : Rat)).sum := by
  have hnn : ∀ l : List (List String), 0 ≤ (l.map fun op => if P ∈ op then f else (1 : Rat)).sum := by
    intro l
    apply List.sum_nonneg
    intro x hx
    obtain ⟨op, -, rfl⟩ := List.mem_map.1 hx
    split <;> linarith
  induction l with
  | nil => simp at hex
  | cons a l ih =>
    obtain ⟨op, hop, hP⟩ := hex
    rw [List.map_cons, List.sum_cons]
    rcases List.mem_cons.1 hop with rfl | hop
    · have := hnn l
      simp [hP]; linarith
    · have := ih ⟨op, hop, hP⟩
      split <;> linarith

theorem biasedPrefactors_value (P : String) (f : Rat) (n : Nat) (ops : List (List String))
    (ho : pauliOperators n = ops) (hex : ∃ op ∈ ops, P ∉ op) (hf : 0 ≤ f) :
    biasedPrefactors P f n = .ok (ops.map fun op => (if P ∈ op then f else 1) /
      (ops.map fun op => if P ∈ op then f else (1 : Rat)).sum) := by
  have hpos := biased_total_pos P f hf ops hex
  have hs := sum_ite_filter P f ops
  unfold biasedPrefactors
  simp only [ho, ← hs, hpos.ne', if_false]
  congr 1
  apply List.map_congr_left
  intro op _
  split <;> ring

theorem biased_argsOk (P : String) (p f : Rat) (h0 : 0 ≤ p) (h1 : p ≤ 1) (hf : 0 ≤ f)
    (ops : List (List String)) (hex : ∃ op ∈ ops, P ∉ op) :
    ∀ a ∈ (ops.map fun op => Arg.num (p * ((if P ∈ op then f else 1) /
      (ops.map fun op => if P ∈ op then f else (1 : Rat)).sum))), a.isProb = true := by
  intro a ha
  obtain ⟨op, hop, rfl⟩ := List.mem_map.1 ha
  have hpos := biased_total_pos P f hf ops hex
  set T := (ops.map fun op => if P ∈ op then f else (1 : Rat)).sum with hT
  have hnn : ∀ x ∈ (ops.map fun op => if P ∈ op then f else (1 : Rat)), 0 ≤ x := by
    intro x hx
    obtain ⟨op, -, rfl⟩ := List.mem_map.1 hx
    split <;> linarith
  have hle : (if P ∈ op then f else (1 : Rat)) ≤ T :=
    List.single_le_sum hnn _ (List.mem_map.2 ⟨op, hop, rfl⟩)
  have hge : 0 ≤ (if P ∈ op then f else (1 : Rat)) := hnn _ (List.mem_map.2 ⟨op, hop, rfl⟩)
  have hq0 : 0 ≤ (if P ∈ op then f else (1 : Rat)) / T := by positivity
  have hq1 : (if P ∈ op then f else (1 : Rat)) / T ≤ 1 := (div_le_one hpos).2 hle
  simp only [Arg.isProb, Bool.and_eq_true, decide_eq_true_eq]
  exact ⟨mul_nonneg h0 hq0, mul_le_one₀ h1 hq0 hq1⟩

theorem biasedArgs_rule {s : Setup} {name : String} {qs : List String} {noise : Gate} (n : Nat)
    (hn : (n = 1 ∧ noise = .PAULI_CHANNEL_1) ∨ (n = 2 ∧ noise = .PAULI_CHANNEL_2))
    (h : ProbParam s name qs 1) (hb : BiasOk s qs) :
    RuleIs noise (biasedArgs s name n) qs (biasedChannelOf s name n qs) := by
  obtain ⟨p, hp, h0, h1⟩ := h
  obtain ⟨⟨P, hP, hPm⟩, f, hf, hf0⟩ := hb
  have hops : pauliOperators n = pauliStrings n := by
    rcases hn with ⟨rfl, -⟩ | ⟨rfl, -⟩
    · exact pauliOperators_one
    · exact pauliOperators_two
  have hex : ∃ op ∈ pauliStrings n, P ∉ op := by
    rcases hn with ⟨rfl, -⟩ | ⟨rfl, -⟩ <;> simp at hPm <;> rcases hPm with rfl | rfl | rfl <;> decide
  constructor
  · simp only [biasedArgs, hp, hP, hf, biasedPrefactors_value P f n _ hops hex hf0, biasedChannelOf,
      biasedChannel, paramValue, List.map_map, Function.comp_def]
  · have hall := biased_argsOk P p f h0 h1 hf0 _ hex
    simp only [biasedChannelOf, hP, biasedChannel, paramValue, hp, hf]
    rcases hn with ⟨rfl, rfl⟩ | ⟨rfl, rfl⟩
    · simp only [Gate.argsOk, Bool.and_eq_true]
      exact ⟨by simp [pauliStrings], List.all_eq_true.2 hall⟩
    · simp only [Gate.argsOk, Bool.and_eq_true]
      exact ⟨by simp [pauliStrings], List.all_eq_true.2 hall⟩

/-! ### two-qubit instructions are paired -/

theorem pairUp_length {α : Type} : ∀ (a : List α) (ps : List (α × α)), pairUp a = some ps →
    a.length % 2 = 0
  | [], _, _ => rfl
  | [_], _, h => by simp [pairUp] at h
  | x :: y :: a, ps, h => by
    simp only [pairUp, Option.map_eq_some_iff] at h
    obtain ⟨ps', h', -⟩ := h
    have := pairUp_length a ps' h'
    simp only [List.length_cons]
    omega

theorem appendOp_even {c c' : Circuit} {g : Gate} {ts : List Nat} {args : List Arg} (hc : EvenPairs c)
    (h : appendOp c g ts args = .ok c') : EvenPairs c' := by
  unfold appendOp at h
  cases hm : mkInstr g (ts.map Target.qubit) args with
  | error e => rw [hm] at h; simp at h
  | ok i =>
    rw [hm] at h
    simp only [Except.ok.injEq] at h
    subst h
    refine (elems_circuit_append c i hc ?_).2
    unfold mkInstr at hm
    split at hm
    · simp at hm
    · split at hm
      · cases hp : pairUp (ts.map Target.qubit) with
        | none => rw [hp] at hm; simp at hm
        | some ps =>
          rw [hp] at hm
          simp only at hm
          split at hm
          · simp at hm
          · simp only [Except.ok.injEq] at hm
            subst hm
            intro _
            have := pairUp_length _ _ hp
            simpa using this
      · rename_i h2
        simp only [Except.ok.injEq] at hm
        subst hm
        intro ht
        exact absurd ht h2

theorem noiseLoop_even {noise : Gate} {rule : ArgRule} :
    ∀ {l : List (List String × List Nat)} {c c' : Circuit}, EvenPairs c →
      noiseLoop noise rule c l = .ok c' → EvenPairs c'
  | [], c, c', hc, h => by simp only [noiseLoop, Except.ok.injEq] at h; exact h ▸ hc
  | (qs, is) :: l, c, c', hc, h => by
    simp only [noiseLoop] at h
    cases hr : rule qs with
    | error e => rw [hr] at h; simp at h
    | ok args =>
      rw [hr] at h
      simp only at h
      cases ha : appendOp c noise is args with
      | error e => rw [ha] at h; simp at h
      | ok c1 =>
        rw [ha] at h
        exact noiseLoop_even (appendOp_even hc ha) h

theorem lift_paired {f : List String → Except Err Circuit} (h : ∀ qs c, f qs = .ok c → EvenPairs c) :
    PairedOut (lift f) := by
  intro qs s c s' he
  simp only [lift, PyM.ofExcept, Prod.mk.injEq] at he
  exact h qs c he.1

theorem sqOp_paired (inds : Dict String Nat) (g noise : Gate) (rule : ArgRule) :
    PairedOut (lift (sqOp inds g noise rule)) := lift_paired fun qs c h => by
  unfold sqOp at h
  split at h
  · simp at h
  · split at h
    · simp at h
    · rename_i h1
      exact noiseLoop_even (appendOp_even evenPairs_nil h1) h

theorem tqOp_paired (inds : Dict String Nat) (g noise : Gate) (rule : ArgRule) :
    PairedOut (lift (tqOp inds g noise rule)) := lift_paired fun qs c h => by
  unfold tqOp at h
  split at h
  · simp at h
  · split at h
    · simp at h
    · split at h
      · simp at h
      · rename_i h1
        split at h
        · simp at h
        · exact noiseLoop_even (appendOp_even evenPairs_nil h1) h

theorem plainOp_paired (inds : Dict String Nat) (g : Gate) : PairedOut (lift (plainOp inds g)) :=
  lift_paired fun qs c h => by
    unfold plainOp at h
    split at h
    · simp at h
    · exact appendOp_even evenPairs_nil h

theorem noiseOnly_paired (inds : Dict String Nat) (noise : Gate) (rule : ArgRule) :
    PairedOut (lift (noiseOnly inds noise rule)) := lift_paired fun qs c h => by
  unfold noiseOnly at h
  split at h
  · simp at h
  · exact noiseLoop_even evenPairs_nil h

theorem incomingNoiseOp_paired (s : Setup) (inds : Dict String Nat) :
    PairedOut (lift (incomingNoiseOp s inds)) := lift_paired fun qs c h => by
  unfold incomingNoiseOp at h
  split at h
  · simp at h
  · split at h
    · simp at h
    · rename_i h1
      exact noiseLoop_even (noiseLoop_even evenPairs_nil h1) h

theorem noIncoming_paired : PairedOut noIncoming := by
  intro qs s c s' h
  simp only [noIncoming, Pure.pure, PyM.pure, Prod.mk.injEq, Except.ok.injEq] at h
  exact h.1 ▸ evenPairs_nil

theorem PyM.bind_eq_ok {σ α β : Type} {m : PyM σ α} {f : α → PyM σ β} {s s' : σ} {b : β}
    (h : (m >>= f) s = (.ok b, s')) : ∃ a s1, m s = (.ok a, s1) ∧ f a s1 = (.ok b, s') := by
  simp only [Bind.bind, PyM.bind] at h
  cases hm : m s with
  | mk r s1 =>
    rw [hm] at h
    cases r with
    | error e => simp at h
    | ok a => exact ⟨a, s1, rfl, h⟩

theorem measLoop_even {s : Setup} {inds : Dict String Nat} {g : Gate} :
    ∀ {l : List (String × Nat)} {c c' : Circuit} {m m' : MeasState}, EvenPairs c →
      measLoop s inds g c l m = (.ok c', m') → EvenPairs c'
  | [], c, c', m, m', hc, h => by
    simp only [measLoop, Pure.pure, PyM.pure, Prod.mk.injEq, Except.ok.injEq] at h
    exact h.1 ▸ hc
  | (q, i) :: l, c, c', m, m', hc, h => by
    simp only [measLoop] at h
    obtain ⟨_, s1, -, h⟩ := PyM.bind_eq_ok h
    obtain ⟨v, s2, -, h⟩ := PyM.bind_eq_ok h
    have h : ∃ args s3, ((PyM.ofExcept (appendOp c g [i] args) >>= fun c' => measLoop s inds g c' l) s3 =
        (.ok c', m')) := by
      split at h
      · obtain ⟨args, s3, -, h⟩ := PyM.bind_eq_ok h
        exact ⟨args, s3, h⟩
      · obtain ⟨args, s3, -, h⟩ := PyM.bind_eq_ok h
        exact ⟨args, s3, h⟩
    obtain ⟨args, s3, h⟩ := h
    obtain ⟨c1, s4, h1, h⟩ := PyM.bind_eq_ok h
    simp only [PyM.ofExcept, Prod.mk.injEq] at h1
    exact measLoop_even (appendOp_even hc h1.1) h

theorem measOp_paired (s : Setup) (inds : Dict String Nat) (g noise : Gate) :
    PairedOut (measOp s inds g noise) := by
  intro qs m c m' h
  unfold measOp at h
  obtain ⟨is, s1, -, h⟩ := PyM.bind_eq_ok h
  obtain ⟨c1, s2, h1, h⟩ := PyM.bind_eq_ok h
  simp only [PyM.ofExcept, Prod.mk.injEq] at h1
  exact measLoop_even (noiseLoop_even evenPairs_nil h1.1) h

theorem plainMeasLoop_even {inds : Dict String Nat} {g : Gate} :
    ∀ {l : List String} {c c' : Circuit} {m m' : MeasState}, EvenPairs c →
      plainMeasLoop inds g c l m = (.ok c', m') → EvenPairs c'
  | [], c, c', m, m', hc, h => by
    simp only [plainMeasLoop, Pure.pure, PyM.pure, Prod.mk.injEq, Except.ok.injEq] at h
    exact h.1 ▸ hc
  | q :: l, c, c', m, m', hc, h => by
    simp only [plainMeasLoop] at h
    obtain ⟨_, s1, -, h⟩ := PyM.bind_eq_ok h
    obtain ⟨v, s2, -, h⟩ := PyM.bind_eq_ok h
    obtain ⟨c1, s4, h1, h⟩ := PyM.bind_eq_ok h
    simp only [PyM.ofExcept, Prod.mk.injEq] at h1
    exact plainMeasLoop_even (appendOp_even hc h1.1) h

theorem plainMeas_paired (inds : Dict String Nat) (g : Gate) : PairedOut (plainMeasLoop inds g []) :=
  fun _ _ _ _ h => plainMeasLoop_even evenPairs_nil h

end SurfaceSim
