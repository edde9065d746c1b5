import Verif.Spec.Faithful
import Mathlib.Tactic.Linarith
import Mathlib.Tactic.NormNum

namespace SurfaceSim
open Spec NoiseModel

theorem ops_append (a b : Circuit) : ops (a ++ b) = ops a ++ ops b := by
  simp [ops, List.flatMap_append]

@[simp] theorem ops_nil : ops [] = [] := rfl

/-- Gates whose elementary operations are collected target by target. -/
def Gate.splits : Gate → Bool
  | .CZ | .CX | .SWAP | .DETECTOR | .OBSERVABLE_INCLUDE => false
  | _ => true

theorem Instr.qubits_mk_append (g : Gate) (a b : List Target) (args : List Arg) :
    (Instr.mk g (a ++ b) args).qubits = (Instr.mk g a args).qubits ++ (Instr.mk g b args).qubits := by
  simp [Instr.qubits, List.filterMap_append]

theorem instrOps_append (g : Gate) (hg : g.splits = true) (a b : List Target) (args : List Arg) :
    instrOps ⟨g, a ++ b, args⟩ = instrOps ⟨g, a, args⟩ ++ instrOps ⟨g, b, args⟩ := by
  cases g <;> simp_all [instrOps, Gate.splits, Instr.qubits_mk_append]

/-- stim's fusion of equal instructions does not change the operations. -/
theorem ops_circuit_append (c : Circuit) (i : Instr) (hg : i.gate.splits = true) :
    ops (Circuit.append c i) = ops c ++ instrOps i := by
  unfold Circuit.append
  cases h : c.getLast? with
  | none =>
    have : c = [] := by simpa using h
    subst this
    simp [ops]
  | some l =>
    simp only
    have hc : c = c.dropLast ++ [l] := by
      have hne : c ≠ [] := by rintro rfl; simp at h
      rw [List.getLast?_eq_some_getLast hne] at h
      simp at h
      rw [← h]
      exact (List.dropLast_concat_getLast hne).symm
    split
    · rename_i hf
      obtain ⟨h1, h2, -⟩ := hf
      obtain ⟨g, t, a⟩ := l
      obtain ⟨g', t', a'⟩ := i
      simp only at h1 h2 hg
      subst h1 h2
      conv_rhs => rw [hc]
      rw [ops_append, ops_append, List.append_assoc]
      simp [ops, instrOps_append _ hg]
    · rw [ops_append]
      simp [ops]

@[simp] theorem Instr.qubits_map (g : Gate) (l : List Nat) (args : List Arg) :
    (Instr.mk g (l.map Target.qubit) args).qubits = l := by
  simp [Instr.qubits, List.filterMap_map, Function.comp_def]

theorem getInds_ok (inds : Dict String Nat) (qs : List String) (h : ∀ q ∈ qs, q ∈ inds.keys) :
    getInds inds qs = .ok (qs.map (ind inds)) := by
  apply mapExcept_ok
  intro q hq
  have := (Dict.get?_isSome_iff inds q).2 (h q hq)
  obtain ⟨v, hv⟩ := Option.isSome_iff_exists.1 this
  simp [Dict.getE, hv, ind]

theorem mkInstr_one (g : Gate) (ts : List Target) (args : List Arg) (ha : g.argsOk args = true)
    (h2 : g.isTwoQubit = false) : mkInstr g ts args = .ok ⟨g, ts, args⟩ := by
  simp [mkInstr, ha, h2]

theorem pairUp_flat {α : Type} (ps : List (α × α)) :
    pairUp (ps.flatMap fun p => [p.1, p.2]) = some ps := by
  induction ps with
  | nil => rfl
  | cons p ps ih =>
    obtain ⟨a, b⟩ := p
    simp only [List.flatMap_cons, List.cons_append, List.nil_append]
    simp only [pairUp]
    rw [ih]
    rfl

theorem flat_map {α β : Type} (f : α → β) (ps : List (α × α)) :
    (ps.flatMap fun p => [p.1, p.2]).map f =
      (ps.map fun p => (f p.1, f p.2)).flatMap fun p => [p.1, p.2] := by
  induction ps with
  | nil => rfl
  | cons p ps ih => simpa using ih

theorem flat_length {α : Type} (ps : List (α × α)) :
    (ps.flatMap fun p => [p.1, p.2]).length = 2 * ps.length := by
  induction ps with
  | nil => rfl
  | cons p ps ih => simp only [List.flatMap_cons, List.length_append, ih, List.length_cons,
      List.length_nil]; omega

theorem mkInstr_two (g : Gate) (ps : List (Nat × Nat)) (args : List Arg) (ha : g.argsOk args = true)
    (h2 : g.isTwoQubit = true) (hne : ∀ p ∈ ps, p.1 ≠ p.2) :
    mkInstr g ((ps.flatMap fun p => [p.1, p.2]).map Target.qubit) args =
      .ok ⟨g, (ps.flatMap fun p => [p.1, p.2]).map Target.qubit, args⟩ := by
  unfold mkInstr
  rw [flat_map, pairUp_flat]
  have : ((ps.map fun p => (Target.qubit p.1, Target.qubit p.2)).any fun p => p.1 == p.2) = false := by
    rw [List.any_eq_false]
    intro p hp
    obtain ⟨p', hp', rfl⟩ := List.mem_map.1 hp
    simpa using hne p' hp'
  simp [ha, h2, this]

theorem pairs_flat (ps : List (Nat × Nat)) : pairs (ps.flatMap fun p => [p.1, p.2]) = ps := by
  simp [pairs, pairUp_flat]

/-- The noise loop appends only noise. -/
theorem noiseLoop_ok (noise : Gate) (hn : noise.isNoise = true) (rule : ArgRule)
    (l : List (List String × List Nat)) (c : Circuit)
    (hr : ∀ p ∈ l, ∃ args, rule p.1 = .ok args ∧ noise.argsOk args = true ∧
      (noise.isTwoQubit = true → ∃ a b, p.2 = [a, b] ∧ a ≠ b)) :
    ∃ c', noiseLoop noise rule c l = .ok c' ∧ ops c' = ops c := by
  induction l generalizing c with
  | nil => exact ⟨c, rfl, rfl⟩
  | cons p l ih =>
    obtain ⟨qs, is⟩ := p
    obtain ⟨args, h1, h2, h3⟩ := hr (qs, is) (by simp)
    have hmk : mkInstr noise (is.map Target.qubit) args = .ok ⟨noise, is.map Target.qubit, args⟩ := by
      cases ht : noise.isTwoQubit with
      | false => exact mkInstr_one _ _ _ h2 ht
      | true =>
        obtain ⟨a, b, hab, hne⟩ := h3 ht
        simp only at hab
        subst hab
        exact mkInstr_two noise [(a, b)] args h2 ht (by simpa using hne)
    obtain ⟨c', e1, e2⟩ := ih (Circuit.append c ⟨noise, is.map Target.qubit, args⟩)
      (fun p hp => hr p (List.mem_cons_of_mem _ hp))
    refine ⟨c', ?_, ?_⟩
    · simp only at h1
      simp [noiseLoop, h1, appendOp, hmk, e1]
    · rw [e2, ops_circuit_append]
      · cases noise <;> simp_all [instrOps, Gate.isNoise]
      · cases noise <;> simp_all [Gate.splits, Gate.isNoise]

/-- A rule that gives admissible arguments for every known qubit. -/
def GoodRule1 (inds : Dict String Nat) (noise : Gate) (rule : ArgRule) : Prop :=
  ∀ q ∈ inds.keys, ∃ args, rule [q] = .ok args ∧ noise.argsOk args = true

/-- A rule that gives admissible arguments for every pair of known qubits. -/
def GoodRule2 (inds : Dict String Nat) (noise : Gate) (rule : ArgRule) : Prop :=
  ∀ p ∈ inds.keys, ∀ q ∈ inds.keys, ∃ args, rule [p, q] = .ok args ∧ noise.argsOk args = true

theorem singles_mem {inds : Dict String Nat} {qs : List String} (h : ∀ q ∈ qs, q ∈ inds.keys)
    {p : List String × List Nat} (hp : p ∈ singles qs (qs.map (ind inds))) :
    ∃ q ∈ inds.keys, p = ([q], [ind inds q]) := by
  unfold singles at hp
  obtain ⟨⟨q, i⟩, hqi, rfl⟩ := List.mem_map.1 hp
  rw [List.zip_map_right] at hqi
  obtain ⟨⟨a, b⟩, hab, he⟩ := List.mem_map.1 hqi
  have hab' : a = b ∧ a ∈ qs := by
    have : (qs.zip qs) = qs.map fun q => (q, q) := by
      clear h hp hqi hab he
      induction qs with
      | nil => rfl
      | cons q qs ih => simp [ih]
    rw [this] at hab
    obtain ⟨q', hq', e⟩ := List.mem_map.1 hab
    simp at e
    exact ⟨e.1.symm.trans e.2, e.1 ▸ hq'⟩
  obtain ⟨rfl, ha⟩ := hab'
  simp at he
  obtain ⟨rfl, rfl⟩ := he
  exact ⟨_, h _ ha, rfl⟩

theorem sqOp_implements (inds : Dict String Nat) (g noise : Gate) (rule : ArgRule) (op : Nat → Op Nat)
    (hg : ∀ ts : List Nat, instrOps ⟨g, ts.map Target.qubit, []⟩ = ts.map op)
    (hg1 : g.argsOk [] = true) (hg2 : g.isTwoQubit = false) (hn : noise.isNoise = true)
    (hn2 : noise.isTwoQubit = false) (hr : GoodRule1 inds noise rule) :
    Implements1 inds (lift (sqOp inds g noise rule)) op := by
  intro qs hqs s
  have h0 := getInds_ok inds qs hqs
  obtain ⟨c', e1, e2⟩ := noiseLoop_ok noise hn rule (singles qs (qs.map (ind inds)))
    (Circuit.append [] ⟨g, (qs.map (ind inds)).map Target.qubit, []⟩) (by
      intro p hp
      obtain ⟨q, hq, rfl⟩ := singles_mem hqs hp
      obtain ⟨args, h1, h2⟩ := hr q hq
      exact ⟨args, h1, h2, by simp [hn2]⟩)
  refine ⟨c', ?_, ?_⟩
  · simp only [lift, PyM.ofExcept, sqOp, h0, appendOp, mkInstr_one _ _ _ hg1 hg2, e1]
  · rw [e2]
    simp only [Circuit.append, List.getLast?_nil, ops, List.flatMap_cons, List.flatMap_nil,
      List.append_nil, hg]
    simp only [List.map_map, Function.comp_def]

theorem tqOp_implements (inds : Dict String Nat) (g noise : Gate) (rule : ArgRule)
    (op : Nat → Nat → Op Nat)
    (hg : ∀ ts : List Nat, instrOps ⟨g, ts.map Target.qubit, []⟩ = (pairs ts).map fun p => op p.1 p.2)
    (hg1 : g.argsOk [] = true) (hg2 : g.isTwoQubit = true) (hn : noise.isNoise = true)
    (hr : GoodRule2 inds noise rule) :
    Implements2 inds (lift (tqOp inds g noise rule)) op := by
  intro ps hps s
  set qs := ps.flatMap fun p => [p.1, p.2] with hqs
  have hk : ∀ q ∈ qs, q ∈ inds.keys := by
    intro q hq
    rw [hqs, List.mem_flatMap] at hq
    obtain ⟨p, hp, hq⟩ := hq
    simp at hq
    rcases hq with rfl | rfl
    · exact (hps p hp).1
    · exact (hps p hp).2.1
  have h0 := getInds_ok inds qs hk
  set js := ps.map fun p => (ind inds p.1, ind inds p.2) with hjs
  have hflat : qs.map (ind inds) = js.flatMap fun p => [p.1, p.2] := flat_map _ _
  have hne : ∀ p ∈ js, p.1 ≠ p.2 := by
    intro p hp
    obtain ⟨p', hp', rfl⟩ := List.mem_map.1 hp
    exact (hps p' hp').2.2
  have hpg : pairGroups qs (qs.map (ind inds)) =
      .ok ((ps.zip js).map fun p => ([p.1.1, p.1.2], [p.2.1, p.2.2])) := by
    unfold pairGroups
    rw [hflat, hqs, pairUp_flat, pairUp_flat]
  obtain ⟨c', e1, e2⟩ := noiseLoop_ok noise hn rule
    ((ps.zip js).map fun p => ([p.1.1, p.1.2], [p.2.1, p.2.2]))
    (Circuit.append [] ⟨g, (qs.map (ind inds)).map Target.qubit, []⟩) (by
      intro p hp
      obtain ⟨⟨⟨a, b⟩, i, j⟩, hm, rfl⟩ := List.mem_map.1 hp
      have hz : ps.zip js = ps.map fun p => (p, (ind inds p.1, ind inds p.2)) := by
        rw [hjs]
        clear * -
        induction ps with
        | nil => rfl
        | cons q ps ih => simp [ih]
      rw [hz] at hm
      obtain ⟨q, hq, e⟩ := List.mem_map.1 hm
      simp only [Prod.mk.injEq] at e
      obtain ⟨rfl, rfl, rfl⟩ := e
      obtain ⟨ha, hb, hab⟩ := hps _ hq
      obtain ⟨args, h1, h2⟩ := hr _ ha _ hb
      exact ⟨args, h1, h2, fun _ => ⟨_, _, rfl, hab⟩⟩)
  refine ⟨c', ?_, ?_⟩
  · have hlen : ¬ qs.length % 2 ≠ 0 := by rw [hqs, flat_length]; omega
    have hmk := mkInstr_two g js [] hg1 hg2 hne
    rw [← hflat] at hmk
    simp only [lift, PyM.ofExcept, tqOp, if_neg hlen, h0, appendOp, hmk, hpg, e1]
  · rw [e2]
    simp only [Circuit.append, List.getLast?_nil, ops, List.flatMap_cons, List.flatMap_nil,
      List.append_nil, hg, hflat, pairs_flat]
    simp [hjs, List.map_map, Function.comp_def]

theorem plainOp_implements (inds : Dict String Nat) (g : Gate) (op : Nat → Op Nat)
    (hg : ∀ ts : List Nat, instrOps ⟨g, ts.map Target.qubit, []⟩ = ts.map op)
    (hg1 : g.argsOk [] = true) (hg2 : g.isTwoQubit = false) :
    Implements1 inds (lift (plainOp inds g)) op := by
  intro qs hqs s
  refine ⟨Circuit.append [] ⟨g, (qs.map (ind inds)).map Target.qubit, []⟩,
    by simp only [lift, PyM.ofExcept, plainOp, getInds_ok inds qs hqs, appendOp,
      mkInstr_one _ _ _ hg1 hg2], ?_⟩
  simp only [Circuit.append, List.getLast?_nil, ops, List.flatMap_cons, List.flatMap_nil,
      List.append_nil, hg]
  simp only [List.map_map, Function.comp_def]

theorem plainOp_implements2 (inds : Dict String Nat) (g : Gate) (op : Nat → Nat → Op Nat)
    (hg : ∀ ts : List Nat, instrOps ⟨g, ts.map Target.qubit, []⟩ = (pairs ts).map fun p => op p.1 p.2)
    (hg1 : g.argsOk [] = true) (hg2 : g.isTwoQubit = true) :
    Implements2 inds (lift (plainOp inds g)) op := by
  intro ps hps s
  have hk : ∀ q ∈ (ps.flatMap fun p => [p.1, p.2]), q ∈ inds.keys := by
    intro q hq
    rw [List.mem_flatMap] at hq
    obtain ⟨p, hp, hq⟩ := hq
    simp at hq
    rcases hq with rfl | rfl
    · exact (hps p hp).1
    · exact (hps p hp).2.1
  have hmk := mkInstr_two g (ps.map fun p => (ind inds p.1, ind inds p.2)) [] hg1 hg2 (by
    intro p hp
    obtain ⟨p', hp', rfl⟩ := List.mem_map.1 hp
    exact (hps p' hp').2.2)
  rw [← flat_map] at hmk
  refine ⟨Circuit.append [] ⟨g, ((ps.flatMap fun p => [p.1, p.2]).map (ind inds)).map Target.qubit, []⟩,
    by simp only [lift, PyM.ofExcept, plainOp, getInds_ok inds _ hk, appendOp, hmk], ?_⟩
  simp only [Circuit.append, List.getLast?_nil, ops, List.flatMap_cons, List.flatMap_nil,
      List.append_nil, hg]
  rw [flat_map (ind inds), pairs_flat]
  simp [List.map_map, Function.comp_def]

theorem noiseOnly_silent (inds : Dict String Nat) (noise : Gate) (rule : ArgRule)
    (hn : noise.isNoise = true) (hn2 : noise.isTwoQubit = false) (hr : GoodRule1 inds noise rule) :
    Silent inds (lift (noiseOnly inds noise rule)) := by
  intro qs hqs s
  obtain ⟨c', e1, e2⟩ := noiseLoop_ok noise hn rule (singles qs (qs.map (ind inds))) [] (by
      intro p hp
      obtain ⟨q, hq, rfl⟩ := singles_mem hqs hp
      obtain ⟨args, h1, h2⟩ := hr q hq
      exact ⟨args, h1, h2, by simp [hn2]⟩)
  exact ⟨c', by simp only [lift, PyM.ofExcept, noiseOnly, getInds_ok inds qs hqs, e1], by simpa using e2⟩

theorem noIncoming_silent (inds : Dict String Nat) : Silent inds noIncoming :=
  fun _ _ _ => ⟨[], rfl, rfl⟩

/-- Assignment-error parameters are usable for every known qubit. -/
def GoodAssign (s : Setup) (inds : Dict String Nat) : Prop :=
  ∀ q ∈ inds.keys, ∃ v, s.param "assign_error_flag" [q] = .ok v ∧
    (v.truthy = true → ∃ p, numParam s "assign_error_prob" [q] = .ok p ∧ 0 ≤ p ∧ p ≤ 1)

theorem measLoop_ok (s : Setup) (inds : Dict String Nat) (g : Gate) (op : Nat → Op Nat)
    (hg : ∀ (ts : List Nat) args, instrOps ⟨g, ts.map Target.qubit, args⟩ = ts.map op)
    (hgm : g.isMeas = true) (ha : GoodAssign s inds)
    (qs : List String) (hqs : ∀ q ∈ qs, q ∈ inds.keys) (c : Circuit) (m : MeasState)
    (hist : List String) (hm : m.Tracks inds hist) :
    ∃ c' m', measLoop s inds g c (qs.zip (qs.map (ind inds))) m = (.ok c', m') ∧
      ops c' = ops c ++ qs.map (fun q => op (ind inds q)) ∧ m'.Tracks inds (hist ++ qs) := by
  induction qs generalizing c m hist with
  | nil => exact ⟨c, m, rfl, by simp, by simpa using hm⟩
  | cons q qs ih =>
    obtain ⟨m1, hm1, ht1⟩ := MeasState.addMeas_known hm (hqs q (by simp))
    obtain ⟨v, hv, hv'⟩ := ha q (hqs q (by simp))
    have hsp : g.splits = true ∧ g.isTwoQubit = false := by cases g <;> simp_all [Gate.isMeas, Gate.splits, Gate.isTwoQubit]
    have hargs : ∃ args, (if v.truthy = true then (PyM.ofExcept (plainArgs s "assign_error_prob" [q]) : PyM MeasState _)
        else pure []) m1 = (.ok args, m1) ∧ g.argsOk args = true := by
      by_cases ht : v.truthy = true
      · obtain ⟨p, hp, h0, h1⟩ := hv' ht
        refine ⟨[.num p], ?_, ?_⟩
        · simp [ht, plainArgs, hp]
        · cases g <;> simp_all [Gate.isMeas, Gate.argsOk, Arg.isProb]
      · refine ⟨[], by simp [ht], ?_⟩
        cases g <;> simp_all [Gate.isMeas, Gate.argsOk]
    obtain ⟨args, hargs, hok⟩ := hargs
    have happ : appendOp c g [ind inds q] args =
        .ok (Circuit.append c ⟨g, [Target.qubit (ind inds q)], args⟩) := by
      simp [appendOp, mkInstr_one _ _ _ hok hsp.2]
    obtain ⟨c', m', e1, e2, e3⟩ := ih (fun q hq => hqs q (List.mem_cons_of_mem _ hq))
      (Circuit.append c ⟨g, [Target.qubit (ind inds q)], args⟩) m1 (hist ++ [q]) ht1
    refine ⟨c', m', ?_, ?_, by simpa using e3⟩
    · simp only [List.map_cons, List.zip_cons_cons, measLoop]
      rw [PyM.bind_ok hm1, PyM.bind_ok (by rw [PyM.ofExcept_apply, hv])]
      by_cases ht : v.truthy = true
      · rw [if_pos ht] at hargs ⊢
        rw [PyM.bind_ok hargs, PyM.bind_ok (by rw [PyM.ofExcept_apply, happ])]
        exact e1
      · rw [if_neg ht] at hargs ⊢
        rw [PyM.bind_ok hargs, PyM.bind_ok (by rw [PyM.ofExcept_apply, happ])]
        exact e1
    · rw [e2, ops_circuit_append _ _ hsp.1]
      have := hg [ind inds q] args
      simp only [List.map_cons, List.map_nil] at this
      simp [this]

theorem measOp_measures (s : Setup) (inds : Dict String Nat) (g noise : Gate) (op : Nat → Op Nat)
    (hg : ∀ (ts : List Nat) args, instrOps ⟨g, ts.map Target.qubit, args⟩ = ts.map op)
    (hgm : g.isMeas = true) (ha : GoodAssign s inds)
    (hn : noise.isNoise = true) (hn2 : noise.isTwoQubit = false)
    (hr : GoodRule1 inds noise (plainArgs s "meas_error_prob")) :
    Measures inds (measOp s inds g noise) op := by
  intro qs hqs m hist hm
  obtain ⟨c1, e1, e2⟩ := noiseLoop_ok noise hn (plainArgs s "meas_error_prob")
    (singles qs (qs.map (ind inds))) [] (by
      intro p hp
      obtain ⟨q, hq, rfl⟩ := singles_mem hqs hp
      obtain ⟨args, h1, h2⟩ := hr q hq
      exact ⟨args, h1, h2, by simp [hn2]⟩)
  obtain ⟨c', m', f1, f2, f3⟩ := measLoop_ok s inds g op hg hgm ha qs hqs c1 m hist hm
  refine ⟨c', m', ?_, by rw [f2, e2]; simp, f3⟩
  unfold measOp
  rw [PyM.bind_ok (by rw [PyM.ofExcept_apply, getInds_ok inds qs hqs]),
    PyM.bind_ok (by rw [PyM.ofExcept_apply, e1])]
  exact f1

theorem plainMeasLoop_ok (inds : Dict String Nat) (g : Gate) (op : Nat → Op Nat)
    (hg : ∀ (ts : List Nat) args, instrOps ⟨g, ts.map Target.qubit, args⟩ = ts.map op)
    (hgm : g.isMeas = true)
    (qs : List String) (hqs : ∀ q ∈ qs, q ∈ inds.keys) (c : Circuit) (m : MeasState)
    (hist : List String) (hm : m.Tracks inds hist) :
    ∃ c' m', plainMeasLoop inds g c qs m = (.ok c', m') ∧
      ops c' = ops c ++ qs.map (fun q => op (ind inds q)) ∧ m'.Tracks inds (hist ++ qs) := by
  induction qs generalizing c m hist with
  | nil => exact ⟨c, m, rfl, by simp, by simpa using hm⟩
  | cons q qs ih =>
    obtain ⟨m1, hm1, ht1⟩ := MeasState.addMeas_known hm (hqs q (by simp))
    have hsp : g.splits = true ∧ g.isTwoQubit = false ∧ g.argsOk [] = true := by
      cases g <;> simp_all [Gate.isMeas, Gate.splits, Gate.isTwoQubit, Gate.argsOk]
    have happ : appendOp c g [ind inds q] [] =
        .ok (Circuit.append c ⟨g, [Target.qubit (ind inds q)], []⟩) := by
      simp [appendOp, mkInstr_one _ _ _ hsp.2.2 hsp.2.1]
    obtain ⟨c', m', e1, e2, e3⟩ := ih (fun q hq => hqs q (List.mem_cons_of_mem _ hq))
      (Circuit.append c ⟨g, [Target.qubit (ind inds q)], []⟩) m1 (hist ++ [q]) ht1
    refine ⟨c', m', ?_, ?_, by simpa using e3⟩
    · simp only [plainMeasLoop]
      rw [PyM.bind_ok hm1, PyM.bind_ok (by
          rw [PyM.ofExcept_apply, getInds_ok inds [q] (by simpa using hqs q (by simp))]),
        PyM.bind_ok (by rw [PyM.ofExcept_apply]; simp only [List.map_cons, List.map_nil]; rw [happ])]
      exact e1
    · rw [e2, ops_circuit_append _ _ hsp.1]
      have := hg [ind inds q] []
      simp only [List.map_cons, List.map_nil] at this
      simp [this]

end SurfaceSim
