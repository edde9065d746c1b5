/-
Blocks of the library as lists of operations on labels.
-/
import Verif.Model.Blocks
import Verif.Lemmas.CircuitOps
import Verif.Spec.Round
import Verif.Lemmas.Kick

namespace SurfaceSim
open Spec NoiseModel

theorem instrOps_append_even (g : Gate) (hf : g.notFusable = false) (a b : List Target)
    (args : List Arg) (ha : g.isTwoQubit = true → (Instr.mk g a args).qubits.length % 2 = 0)
    (hb : g.isTwoQubit = true → (Instr.mk g b args).qubits.length % 2 = 0) :
    instrOps ⟨g, a ++ b, args⟩ = instrOps ⟨g, a, args⟩ ++ instrOps ⟨g, b, args⟩ := by
  by_cases hs : g.splits = true
  · exact instrOps_append g hs a b args
  · cases g <;> simp_all [Gate.splits, instrOps, Gate.isTwoQubit, Gate.notFusable] <;>
      rw [Instr.qubits_mk_append, pairs_append _ _ ha hb, List.map_append]

theorem ops_append_even (c : Circuit) (i : Instr) (hc : EvenPairs c)
    (hi : i.gate.isTwoQubit = true → i.qubits.length % 2 = 0) :
    ops (Circuit.append c i) = ops c ++ instrOps i := by
  unfold Circuit.append
  cases h : c.getLast? with
  | none =>
    have : c = [] := by simpa using h
    subst this
    simp [ops]
  | some l =>
    simp only
    have hce : c = c.dropLast ++ [l] := by
      have hne : c ≠ [] := by rintro rfl; simp at h
      rw [List.getLast?_eq_some_getLast hne] at h
      simp at h
      rw [← h]
      exact (List.dropLast_concat_getLast hne).symm
    split
    · rename_i hf
      obtain ⟨h1, h2, h3⟩ := hf
      have hl := hc l (by rw [hce]; simp)
      obtain ⟨g, t, a⟩ := l
      obtain ⟨g', t', a'⟩ := i
      simp only at h1 h2 h3 hi hl
      subst h1 h2
      conv_rhs => rw [hce]
      rw [ops_append, ops_append, List.append_assoc]
      simp [ops, instrOps_append_even _ h3 _ _ _ hl hi]
    · rw [ops_append]
      simp [ops]

theorem evenPairs_append {a b : Circuit} (ha : EvenPairs a) (hb : EvenPairs b) :
    EvenPairs (a ++ b) := by
  intro i hi
  rcases List.mem_append.1 hi with h | h
  · exact ha i h
  · exact hb i h

/-- `+` of circuits is concatenation of the operations. -/
theorem ops_concat {a b : Circuit} (ha : EvenPairs a) (hb : EvenPairs b) :
    ops (a.concat b) = ops a ++ ops b ∧ EvenPairs (a.concat b) := by
  cases b with
  | nil => exact ⟨by simp [Circuit.concat], ha⟩
  | cons i r =>
    have hi := hb i (by simp)
    have hr : EvenPairs r := fun j hj => hb j (by simp [hj])
    constructor
    · simp only [Circuit.concat]
      rw [ops_append, ops_append_even a i ha hi, List.append_assoc]
      simp [ops]
    · exact evenPairs_append (elems_circuit_append a i ha hi).2 hr

theorem Spec.PairsOk.concat {a b : Circuit} (ha : PairsOk a) (hb : PairsOk b) :
    ops (a.concat b) = ops a ++ ops b ∧ PairsOk (a.concat b) := by
  have h := ops_concat ha.1 hb.1
  refine ⟨h.1, h.2, fun op ho => ?_⟩
  rw [h.1] at ho
  rcases List.mem_append.1 ho with ho | ho
  · exact ha.2 op ho
  · exact hb.2 op ho

theorem Spec.PairsOk.of_nil {c : Circuit} (h : EvenPairs c) (ho : ops c = []) : PairsOk c := ⟨h, by simp [ho]⟩

/-- The qubit measured by an operation. -/
@[simp] def opMeas {Q : Type} : Op Q → Option Q
  | .m q => some q
  | .mx q => some q
  | .my q => some q
  | _ => none

/-- The labels measured by a list of operations, in order. -/
def measured {Q : Type} (L : List (Op Q)) : List Q := L.filterMap opMeas

theorem measured_append {Q : Type} (L M : List (Op Q)) : measured (L ++ M) = measured L ++ measured M := by
  simp [measured, List.filterMap_append]

@[simp] theorem measured_nil {Q : Type} : measured ([] : List (Op Q)) = [] := rfl

theorem measured_map_none (l : List String) (op : String → Op String)
    (h : ∀ q, opMeas (op q) = none) : measured (l.map op) = [] := by
  unfold measured
  rw [List.filterMap_map, List.filterMap_eq_nil_iff]
  exact fun q _ => h q

theorem measured_map_pair_none (l : List (String × String)) (op : String → String → Op String)
    (h : ∀ a b, opMeas (op a b) = none) : measured (l.map fun p => op p.1 p.2) = [] := by
  unfold measured
  rw [List.filterMap_map, List.filterMap_eq_nil_iff]
  exact fun q _ => h _ _

theorem measured_rename {Q R : Type} (f : Q → R) (L : List (Op Q)) :
    measured (L.map (Op.rename f)) = (measured L).map f := by
  unfold measured
  rw [List.filterMap_map, List.map_filterMap]
  refine List.filterMap_congr fun op _ => ?_
  cases op <;> rfl

/-- Every measurement adds one outcome to the record. -/
theorem length_recs {Q : Type} [DecidableEq Q] (ρ : Nat → ZMod 2) (L : List (Op Q)) (st : FState Q) :
    (run ρ st L).recs.length = st.recs.length + (measured L).length := by
  induction L generalizing st with
  | nil => rfl
  | cons op L ih =>
    rw [show run ρ st (op :: L) = run ρ (step ρ st op) L from rfl, ih,
      show op :: L = [op] ++ L from rfl, measured_append, List.length_append]
    cases op <;> simp [step, measured] <;> omega

theorem measured_eq_nil {Q : Type} [DecidableEq Q] {ρ : Nat → ZMod 2} {L : List (Op Q)} {st : FState Q}
    (h : (run ρ st L).recs = st.recs) : measured L = [] := by
  have := length_recs ρ L st
  rw [h] at this
  exact List.length_eq_zero_iff.1 (by omega)

theorem measOrder_ops (c : Circuit) : measOrder c = measured (ops c) := by
  unfold measOrder ops measured
  rw [List.filterMap_flatMap]
  congr 1
  funext i
  have h1 : ∀ (op : Nat → Op Nat), (∀ q, opMeas (op q) = none) → (i.qubits.map op).filterMap opMeas = [] := by
    intro op h
    rw [List.filterMap_map, List.filterMap_eq_nil_iff]
    exact fun q _ => h q
  have h2 : ∀ (op : Nat × Nat → Op Nat), (∀ q, opMeas (op q) = none) → ((pairs i.qubits).map op).filterMap opMeas = [] := by
    intro op h
    rw [List.filterMap_map, List.filterMap_eq_nil_iff]
    exact fun q _ => h q
  have h3 : ∀ (op : Nat → Op Nat), (∀ q, opMeas (op q) = some q) → (i.qubits.map op).filterMap opMeas = i.qubits := by
    intro op h
    rw [List.filterMap_map, show opMeas ∘ op = some from funext h, List.filterMap_some]
  unfold instrOps
  cases i.gate <;> simp only [Gate.isMeas, Bool.false_eq_true, if_false, if_true] <;>
    first
    | rfl
    | exact (h1 _ fun _ => rfl).symm
    | exact (h2 _ fun _ => rfl).symm
    | exact (h3 _ fun _ => rfl).symm

theorem measured_m (l : List String) : measured (l.map Op.m) = l := by
  induction l with
  | nil => rfl
  | cons a l ih =>
    have : measured ((a :: l).map Op.m) = measured [Op.m a] ++ measured (l.map Op.m) := by
      rw [← measured_append]; rfl
    rw [this, ih]; rfl

/-- The block `b` succeeds after any history, returns a circuit whose operations are `L` (in terms of
labels), and records the measurements in `L`. -/
def Does (inds : Dict String Nat) (b : Call1) (L : List (Op String)) : Prop :=
  (∀ op ∈ L, ∀ q ∈ op.qubits, q ∈ inds.keys) ∧
  ∀ (s : MeasState) (hist : List String), s.Tracks inds hist →
    ∃ c s', b s = (.ok c, s') ∧ EvenPairs c ∧ ops c = L.map (Op.rename (ind inds)) ∧
      s'.Tracks inds (hist ++ measured L)

/-- Renaming with distinct indices keeps pairs of different qubits. -/
theorem pairsOk_of_ops {inds : Dict String Nat} (hinj : IndsInj inds) {c : Circuit} {L : List (Op String)}
    (he : EvenPairs c) (ho : ops c = L.map (Op.rename (ind inds))) (hk : ∀ op ∈ L, ∀ q ∈ op.qubits, q ∈ inds.keys)
    (hd : ∀ op ∈ L, op.Distinct) : PairsOk c := by
  refine ⟨he, fun op h => ?_⟩
  rw [ho] at h
  obtain ⟨op, ho', rfl⟩ := List.mem_map.1 h
  have h1 := hd op ho'
  have h2 := hk op ho'
  cases op with
  | cz a b => exact fun e => h1 (hinj a (h2 a (by simp [Op.qubits])) b (h2 b (by simp [Op.qubits])) e)
  | cx a b => exact fun e => h1 (hinj a (h2 a (by simp [Op.qubits])) b (h2 b (by simp [Op.qubits])) e)
  | swap a b => exact fun e => h1 (hinj a (h2 a (by simp [Op.qubits])) b (h2 b (by simp [Op.qubits])) e)
  | _ => trivial

theorem Does.tick (inds : Dict String Nat) : Does inds Blocks.tick [] := by
  refine ⟨by simp, fun s hist h => ⟨NoiseModel.tick, s, rfl, ?_, rfl, by simpa using h⟩⟩
  intro i hi
  simp [NoiseModel.tick] at hi
  subst hi
  simp [Gate.isTwoQubit]

theorem Does.pure_nil (inds : Dict String Nat) : Does inds (pure []) [] :=
  ⟨by simp, fun s _ h => ⟨[], s, rfl, evenPairs_nil, rfl, by simpa using h⟩⟩

theorem Does.bind_concat {inds : Dict String Nat} {a b : Call1} {L M : List (Op String)}
    (ha : Does inds a L) (hb : Does inds b M) : Does inds (Blocks.plus a b) (L ++ M) := by
  refine ⟨fun op ho => ?_, fun s hist h => ?_⟩
  · rcases List.mem_append.1 ho with h | h
    · exact ha.1 op h
    · exact hb.1 op h
  · obtain ⟨c, s1, e1, p1, o1, t1⟩ := ha.2 s hist h
    obtain ⟨d, s2, e2, p2, o2, t2⟩ := hb.2 s1 _ t1
    obtain ⟨k1, k2⟩ := ops_concat p1 p2
    refine ⟨c.concat d, s2, ?_, k2, ?_, ?_⟩
    · simp only [Blocks.plus]
      rw [PyM.bind_ok e1, PyM.bind_ok e2]
      rfl
    · rw [k1, o1, o2, List.map_append]
    · rw [measured_append, ← List.append_assoc]; exact t2

theorem Does.sumFrom {inds : Dict String Nat} {g : Gen} {Ls : List (List (Op String))}
    (h : List.Forall₂ (Does inds) g Ls) :
    (∀ op ∈ Ls.flatten, ∀ q ∈ op.qubits, q ∈ inds.keys) ∧
    ∀ (acc : Circuit) (s : MeasState) (hist : List String), EvenPairs acc → s.Tracks inds hist →
      ∃ c s', Blocks.sumFrom acc g s = (.ok c, s') ∧ EvenPairs c ∧
        ops c = ops acc ++ Ls.flatten.map (Op.rename (ind inds)) ∧
        s'.Tracks inds (hist ++ measured Ls.flatten) := by
  induction h with
  | nil =>
    exact ⟨by simp, fun acc s hist ha ht => ⟨acc, s, rfl, ha, by simp, by simpa using ht⟩⟩
  | @cons b L g Ls hb _ ih =>
    refine ⟨fun op ho => ?_, fun acc s hist ha ht => ?_⟩
    · rw [List.flatten_cons] at ho
      rcases List.mem_append.1 ho with h | h
      · exact hb.1 op h
      · exact ih.1 op h
    · obtain ⟨c, s1, e1, p1, o1, t1⟩ := hb.2 s hist ht
      obtain ⟨k1, k2⟩ := ops_concat ha p1
      obtain ⟨d, s2, e2, p2, o2, t2⟩ := ih.2 (acc.concat c) s1 _ k2 t1
      refine ⟨d, s2, ?_, p2, ?_, ?_⟩
      · simp only [Blocks.sumFrom]
        rw [PyM.bind_ok e1, e2]
      · rw [o2, k1, o1, List.flatten_cons, List.map_append, List.append_assoc]
      · rw [List.flatten_cons, measured_append, ← List.append_assoc]; exact t2

theorem Does.sumGen {inds : Dict String Nat} {g : Gen} {Ls : List (List (Op String))}
    (h : List.Forall₂ (Does inds) g Ls) : Does inds (Blocks.sumGen g) Ls.flatten := by
  obtain ⟨h1, h2⟩ := Does.sumFrom h
  refine ⟨h1, fun s hist ht => ?_⟩
  obtain ⟨c, s', e1, e2, e3, e4⟩ := h2 [] s hist evenPairs_nil ht
  exact ⟨c, s', e1, e2, by simpa using e3, e4⟩

theorem Does.congr {inds : Dict String Nat} {b : Call1} {L M : List (Op String)} (h : Does inds b L)
    (e : L = M) : Does inds b M := e ▸ h

/-! ### methods of the model -/

theorem does1 {inds : Dict String Nat} {f : List String → PyM MeasState Circuit}
    {op : {Q : Type} → Q → Op Q} (hf : Implements1 inds f op) (hp : PairedOut f)
    (hr : ∀ q : String, (op q).rename (ind inds) = op (ind inds q))
    (hq : ∀ q : String, (op q).qubits = [q]) (hm : ∀ q : String, opMeas (op q) = none) (qs : List String)
    (hqs : ∀ q ∈ qs, q ∈ inds.keys) : Does inds (f qs) (qs.map op) := by
  refine ⟨?_, fun s hist ht => ?_⟩
  · intro o ho q hqo
    obtain ⟨q', h1, rfl⟩ := List.mem_map.1 ho
    rw [hq] at hqo
    simp at hqo
    exact hqo ▸ hqs _ h1
  · obtain ⟨c, h1, h2⟩ := hf qs hqs s
    refine ⟨c, s, h1, hp _ _ _ _ h1, ?_, ?_⟩
    · rw [h2, List.map_map]
      exact List.map_congr_left fun q _ => (hr q).symm
    · rw [measured_map_none _ _ hm, List.append_nil]; exact ht

theorem does2 {inds : Dict String Nat} {f : List String → PyM MeasState Circuit}
    {op : {Q : Type} → Q → Q → Op Q} (hf : Implements2 inds f op) (hp : PairedOut f)
    (hr : ∀ a b : String, (op a b).rename (ind inds) = op (ind inds a) (ind inds b))
    (hq : ∀ a b : String, (op a b).qubits = [a, b]) (hm : ∀ a b : String, opMeas (op a b) = none)
    (ps : List (String × String))
    (hps : ∀ p ∈ ps, p.1 ∈ inds.keys ∧ p.2 ∈ inds.keys ∧ ind inds p.1 ≠ ind inds p.2) :
    Does inds (f (Blocks.chain ps)) (ps.map fun p => op p.1 p.2) := by
  refine ⟨?_, fun s hist ht => ?_⟩
  · intro o ho q hqo
    obtain ⟨p, h1, rfl⟩ := List.mem_map.1 ho
    rw [hq] at hqo
    simp at hqo
    rcases hqo with rfl | rfl
    · exact (hps _ h1).1
    · exact (hps _ h1).2.1
  · obtain ⟨c, h1, h2⟩ := hf ps hps s
    refine ⟨c, s, h1, hp _ _ _ _ h1, ?_, ?_⟩
    · rw [h2, List.map_map]
      exact List.map_congr_left fun p _ => (hr p.1 p.2).symm
    · rw [measured_map_pair_none _ _ hm, List.append_nil]; exact ht

section
variable {nm : NoiseModel} (hn : Faithful nm) (qs : List String)
  (hqs : ∀ q ∈ qs, q ∈ nm.inds.keys)
include hn hqs

theorem does_h : Does nm.inds (nm.hadamard qs) (qs.map Op.h) :=
  does1 (op := fun q => Op.h q) hn.hadamard (hn.paired _ (by simp)) (fun _ => rfl) (fun _ => rfl) (by simp) qs hqs

theorem does_x : Does nm.inds (nm.xGate qs) (qs.map Op.x) :=
  does1 (op := fun q => Op.x q) hn.xGate (hn.paired _ (by simp)) (fun _ => rfl) (fun _ => rfl) (by simp) qs hqs

theorem does_z : Does nm.inds (nm.zGate qs) (qs.map Op.z) :=
  does1 (op := fun q => Op.z q) hn.zGate (hn.paired _ (by simp)) (fun _ => rfl) (fun _ => rfl) (by simp) qs hqs

theorem does_s : Does nm.inds (nm.sGate qs) (qs.map Op.s) :=
  does1 (op := fun q => Op.s q) hn.sGate (hn.paired _ (by simp)) (fun _ => rfl) (fun _ => rfl) (by simp) qs hqs

theorem does_sdag : Does nm.inds (nm.sDagGate qs) (qs.map Op.sdag) :=
  does1 (op := fun q => Op.sdag q) hn.sDagGate (hn.paired _ (by simp)) (fun _ => rfl) (fun _ => rfl) (by simp) qs hqs

theorem does_r : Does nm.inds (nm.reset qs) (qs.map Op.r) :=
  does1 (op := fun q => Op.r q) hn.reset (hn.paired _ (by simp)) (fun _ => rfl) (fun _ => rfl) (by simp) qs hqs

theorem does_m : Does nm.inds (nm.measure qs) (qs.map Op.m) := by
  refine ⟨?_, fun s hist ht => ?_⟩
  · intro o ho q hqo
    obtain ⟨q', h1, rfl⟩ := List.mem_map.1 ho
    simp [Op.qubits] at hqo
    exact hqo ▸ hqs _ h1
  · obtain ⟨c, s', h1, h2, h3⟩ := hn.measure qs hqs s hist ht
    refine ⟨c, s', h1, hn.paired _ (by simp) _ _ _ _ h1, ?_, ?_⟩
    · rw [h2, List.map_map]; rfl
    · rw [measured_m]; exact h3

theorem does_idle : Does nm.inds (nm.idle qs) [] := by
  refine ⟨by simp, fun s hist ht => ?_⟩
  obtain ⟨c, h1, h2⟩ := hn.idle qs hqs s
  exact ⟨c, s, h1, hn.paired _ (by simp) _ _ _ _ h1, h2, by simpa using ht⟩

theorem does_incoming : Does nm.inds (nm.incomingNoise qs) [] := by
  refine ⟨by simp, fun s hist ht => ?_⟩
  obtain ⟨c, h1, h2⟩ := hn.incomingNoise qs hqs s
  exact ⟨c, s, h1, hn.paired _ (by simp) _ _ _ _ h1, h2, by simpa using ht⟩

end

section
variable {nm : NoiseModel} (hn : Faithful nm) (ps : List (String × String))
  (hps : ∀ p ∈ ps, p.1 ∈ nm.inds.keys ∧ p.2 ∈ nm.inds.keys ∧ ind nm.inds p.1 ≠ ind nm.inds p.2)
include hn hps

theorem does_cz : Does nm.inds (nm.cphase (Blocks.chain ps)) (ps.map fun p => Op.cz p.1 p.2) :=
  does2 (op := fun a b => Op.cz a b) hn.cphase (hn.paired _ (by simp)) (fun _ _ => rfl) (fun _ _ => rfl)
    (by simp) ps hps

theorem does_cx : Does nm.inds (nm.cnot (Blocks.chain ps)) (ps.map fun p => Op.cx p.1 p.2) :=
  does2 (op := fun a b => Op.cx a b) hn.cnot (hn.paired _ (by simp)) (fun _ _ => rfl) (fun _ _ => rfl)
    (by simp) ps hps

theorem does_swap : Does nm.inds (nm.swap (Blocks.chain ps)) (ps.map fun p => Op.swap p.1 p.2) :=
  does2 (op := fun a b => Op.swap a b) hn.swap (hn.paired _ (by simp)) (fun _ _ => rfl) (fun _ _ => rfl)
    (by simp) ps hps

end

end SurfaceSim
