/-
C19, C20, C21: merging of circuits (`util/circuit_operations.py`).
-/
import Verif.Lemmas.CircuitOps

namespace SurfaceSim.Props
open SurfaceSim Spec CircuitOps

/-! ### C19: `merge_tick_blocks` keeps every instruction -/

/-- `merge_tick_blocks` succeeds exactly for one or more blocks of equal length. -/
theorem C19_raises_iff (blocks : List Circuit) :
    mergeTickBlocks blocks = .error .valueError ↔
      blocks = [] ∨ ∃ b ∈ blocks, ∃ b' ∈ blocks, b.length ≠ b'.length := by
  cases blocks with
  | nil => simp [mergeTickBlocks]
  | cons b0 bs =>
    constructor
    · intro h
      by_contra hn
      simp only [not_or, not_exists, not_and, not_not] at hn
      have := mergeTickBlocks_eq b0 bs fun b hb => hn.2 b (by simp [hb]) b0 (by simp)
      rw [this] at h
      cases h
    · rintro (h | ⟨b, hb, b', hb', hne⟩)
      · simp at h
      · have : (bs.any fun b => decide (b.length ≠ b0.length)) = true := by
          rw [List.any_eq_true]
          by_contra hn
          simp only [not_exists, not_and, decide_eq_true_eq, not_not] at hn
          have hl : ∀ b ∈ b0 :: bs, b.length = b0.length := by
            intro b hb
            rcases List.mem_cons.1 hb with rfl | hb
            · rfl
            · exact hn b hb
          exact hne ((hl b hb).trans (hl b' hb').symm)
        simp only [mergeTickBlocks, this, if_true]

/-- For blocks of equal length the merged circuit consists of appending, one after the other, exactly
the instructions of the blocks (each as often as it occurs), keeping the order inside each block. -/
theorem C19_merge_tick_blocks (blocks : List Circuit) (hne : blocks ≠ [])
    (hlen : ∀ b ∈ blocks, ∀ b' ∈ blocks, b.length = b'.length) :
    ∃ L : List Instr, mergeTickBlocks blocks = .ok (L.foldl Circuit.append []) ∧
      L.Perm blocks.flatten ∧ ∀ b ∈ blocks, b.Sublist L := by
  cases blocks with
  | nil => exact absurd rfl hne
  | cons b0 bs =>
    have hl : ∀ b ∈ b0 :: bs, b.length = b0.length := fun b hb => hlen b hb b0 (by simp)
    have hp := groups_perm (b0 :: bs)
    refine ⟨_, mergeTickBlocks_eq b0 bs fun b hb => hl b (by simp [hb]), ?_, ?_⟩
    · refine (transposed_perm _ _ fun b hb => hl b (hp.mem_iff.1 hb)).trans hp.flatten
    · intro b hb
      exact sublist_transposed _ _ b (hp.mem_iff.2 hb) (hl b hb)

/-- Same in terms of elementary operations and noise channels (one gate or channel on one qubit or pair),
which does not depend on how stim groups targets into instructions. -/
theorem C19_elementary (blocks : List Circuit) (hne : blocks ≠ [])
    (hlen : ∀ b ∈ blocks, ∀ b' ∈ blocks, b.length = b'.length)
    (hpair : ∀ b ∈ blocks, WellPaired b) :
    ∃ c, mergeTickBlocks blocks = .ok c ∧ (elems c).Perm (blocks.flatMap elems) ∧
      ∀ b ∈ blocks, (elems b).Sublist (elems c) := by
  obtain ⟨L, h1, h2, h3⟩ := C19_merge_tick_blocks blocks hne hlen
  have hw : WellPaired L := by
    intro i hi
    obtain ⟨b, hb, hib⟩ := List.mem_flatten.1 (h2.mem_iff.1 hi)
    exact hpair b hb i hib
  have he := (elems_foldl L [] (by intro i hi; simp at hi) hw).1
  refine ⟨_, h1, ?_, ?_⟩
  · rw [he]
    simp only [elems, List.flatMap_nil, List.nil_append]
    refine (h2.flatMap_right elemsI).trans ?_
    rw [List.flatMap_def, List.map_flatten, List.flatten_flatten, List.map_map, List.flatMap_def]
    exact List.Perm.refl _
  · intro b hb
    rw [he]
    simp only [elems, List.flatMap_nil, List.nil_append]
    exact (h3 b hb).flatMap elemsI

/-- Two blocks with different gates. -/
example : mergeTickBlocks [[⟨.H, [.qubit 0], []⟩, ⟨.DEPOLARIZE1, [.qubit 0], [.num (1/8)]⟩],
      [⟨.H, [.qubit 3], []⟩, ⟨.DEPOLARIZE1, [.qubit 3], [.num (1/8)]⟩],
      [⟨.S, [.qubit 1], []⟩, ⟨.DEPOLARIZE1, [.qubit 1], [.num (1/4)]⟩]] =
    .ok [⟨.H, [.qubit 0, .qubit 3], []⟩, ⟨.S, [.qubit 1], []⟩,
      ⟨.DEPOLARIZE1, [.qubit 0, .qubit 3], [.num (1/8)]⟩, ⟨.DEPOLARIZE1, [.qubit 1], [.num (1/4)]⟩] := by
  decide +kernel

/-! ### C20: the measurement record of merged blocks -/

/-- If every block has at most one measurement instruction and all measuring blocks use the same
instructions, the qubits are measured block after block: merging does not change the order in
which the model recorded the measurements.

Missing for the full claim: the hypotheses are needed, see the next two theorems. -/
theorem C20_measurement_order_partial (blocks : List Circuit) (sig : List Gate) (c : Circuit)
    (hone : (sig.filter Gate.isMeas).length ≤ 1)
    (hsig : ∀ b ∈ blocks, (∃ i ∈ b, i.gate.isMeas = true) → b.map Instr.gate = sig)
    (hok : mergeTickBlocks blocks = .ok c) :
    measOrder c = blocks.flatMap measOrder := by
  cases blocks with
  | nil => simp [mergeTickBlocks] at hok
  | cons b0 bs =>
    have hl : ∀ b ∈ b0 :: bs, b.length = b0.length := by
      by_contra hn
      simp only [not_forall] at hn
      obtain ⟨b, hb, hne⟩ := hn
      have := (C19_raises_iff (b0 :: bs)).2 (Or.inr ⟨b, hb, b0, by simp, hne⟩)
      rw [this] at hok
      cases hok
    rw [mergeTickBlocks_eq b0 bs fun b hb => hl b (by simp [hb])] at hok
    cases hok
    rw [measOrder_foldl, measOrder_nil, List.nil_append]
    exact measOrder_transposed (b0 :: bs) b0.length sig hl hone hsig

example : measOrder [⟨.M, [.qubit 0, .qubit 3], []⟩, ⟨.I, [.qubit 5], []⟩, ⟨.MX, [.qubit 4], []⟩] = [0, 3, 4] := by
  decide +kernel

/-- The hypotheses of `C20_measurement_order_partial` hold for two noisy measurement blocks. -/
example : ∃ c, mergeTickBlocks
      [[⟨.X_ERROR, [.qubit 0], [.num (1/8)]⟩, ⟨.M, [.qubit 0, .qubit 1], [.num (1/8)]⟩, ⟨.I, [.qubit 2], []⟩],
       [⟨.X_ERROR, [.qubit 3], [.num (1/8)]⟩, ⟨.M, [.qubit 4, .qubit 3], [.num (1/8)]⟩, ⟨.I, [.qubit 5], []⟩]] = .ok c ∧
      measOrder c = [0, 1, 4, 3] :=
  ⟨_, rfl, by decide +kernel⟩

/-- With qubit-dependent assignment errors a block has several measurement instructions; merging two such
blocks interleaves them, so the record order differs from the order of the `add_meas` calls. -/
theorem C20_several_measurements_reordered :
    ∃ blocks c, mergeTickBlocks blocks = .ok c ∧
      blocks.map (List.map Instr.gate) = [[.M, .M], [.M, .M]] ∧
      measOrder c ≠ blocks.flatMap measOrder :=
  ⟨[[⟨.M, [.qubit 0], [.num (1/8)]⟩, ⟨.M, [.qubit 1], [.num (1/4)]⟩],
    [⟨.M, [.qubit 2], [.num (1/8)]⟩, ⟨.M, [.qubit 3], [.num (1/4)]⟩]], _, rfl, by decide +kernel,
    by decide +kernel⟩

/-- Blocks are grouped by their instruction names: if the first and the third of three blocks agree and
the second does not, the third is measured before the second, even with one measurement per block. -/
theorem C20_grouping_reorders :
    ∃ blocks c, mergeTickBlocks blocks = .ok c ∧
      (∀ b ∈ blocks, (b.filter fun i => i.gate.isMeas).length = 1) ∧
      measOrder c ≠ blocks.flatMap measOrder :=
  ⟨[[⟨.M, [.qubit 0], []⟩, ⟨.I, [.qubit 1], []⟩],
    [⟨.X_ERROR, [.qubit 2], [.num (1/8)]⟩, ⟨.M, [.qubit 2], []⟩],
    [⟨.M, [.qubit 4], []⟩, ⟨.I, [.qubit 5], []⟩]], _, rfl, by decide +kernel, by decide +kernel⟩

/-! ### C21: `merge_circuits` -/

/-- The `k`-th TICK block contains a measurement. -/
def MeasuresIn (c : Circuit) (k : Nat) : Prop :=
  ∃ b, (tickBlocks c)[k]? = some b ∧ ∃ i ∈ b, i.gate.isMeas = true

/-- All measurements of all circuits happen in the same TICK block. -/
def MeasAligned (cs : List Circuit) : Prop :=
  ∀ c ∈ cs, ∀ c' ∈ cs, ∀ k k', MeasuresIn c k → MeasuresIn c' k' → k = k'

theorem sortBlock_perm (b : List Instr) : (sortBlock b).Perm b := List.perm_insertionSort _ _

theorem sortBlock_filter (b : List Instr) (g : Gate) :
    (sortBlock b).filter (fun i => i.gate = g) = b.filter fun i => i.gate = g := by
  have hsub : (b.filter fun i => i.gate = g).Sublist (sortBlock b) := by
    refine List.sublist_insertionSort ?_ List.filter_sublist
    rw [List.pairwise_filter]
    refine List.Pairwise.imp ?_ (List.pairwise_of_forall (R := fun _ _ => True) fun _ _ => trivial)
    intro i j _ hi hj
    simp only [decide_eq_true_eq] at *
    rw [hi, hj]
    exact String.le_refl _
  have h2 := hsub.filter (fun i => decide (i.gate = g))
  rw [List.filter_filter] at h2
  simp only [Bool.and_self] at h2
  refine (h2.eq_of_length ?_).symm
  exact ((sortBlock_perm b).filter _).length_eq.symm

theorem filterMap_head_mem (ms : List (List Nat)) (a : Nat)
    (h1 : ∀ m ∈ ms, m.length ≤ 1) :
    a ∈ ms.filterMap List.head? ↔ ∃ m ∈ ms, a ∈ m := by
  rw [List.mem_filterMap]
  constructor
  · rintro ⟨m, hm, ha⟩
    exact ⟨m, hm, List.mem_of_head? ha⟩
  · rintro ⟨m, hm, ha⟩
    refine ⟨m, hm, ?_⟩
    have := h1 m hm
    match m, ha, this with
    | [x], ha, _ => simp [List.mem_singleton.1 ha]

theorem nodup_length_le_one {l : List Nat} (hn : l.Nodup) (h : ∀ a ∈ l, ∀ b ∈ l, a = b) :
    l.length ≤ 1 := by
  match l, hn, h with
  | [], _, _ => simp
  | [_], _, _ => simp
  | a :: b :: l, hn, h =>
    have := h a (by simp) b (by simp)
    subst this
    simp at hn

theorem scan_meas_iff (c : Circuit) (B : List (List Instr)) (k : Nat) :
    k ∈ (scan c 0 B []).2 ↔ MeasuresIn c k := by
  rw [(scan_meas c 0 B [] (by simp)).2]
  unfold MeasuresIn chunk
  simp only [List.not_mem_nil, false_or, Nat.not_lt_zero, if_false, Nat.sub_zero]
  cases (tickBlocks c)[k]? <;> simp

/-- When `merge_circuits` raises: no circuits, different numbers of TICKs, or (if checked) measurements in
more than one TICK block. -/
theorem C21_raises_iff (cs : List Circuit) (chk : Bool) :
    mergeCircuits cs chk = .error .valueError ↔
      cs = [] ∨ (∃ c ∈ cs, ∃ c' ∈ cs, c.numTicks ≠ c'.numTicks) ∨ (chk = true ∧ ¬ MeasAligned cs) := by
  cases cs with
  | nil => simp [mergeCircuits]
  | cons c0 cs =>
    unfold mergeCircuits
    simp only
    by_cases hticks : ((c0 :: cs).any fun c => decide (c.numTicks ≠ c0.numTicks)) = true
    · rw [if_pos hticks]
      simp only [true_iff]
      obtain ⟨c, hc, hne⟩ := List.any_eq_true.1 hticks
      exact Or.inr (Or.inl ⟨c, hc, c0, by simp, by simpa using hne⟩)
    · rw [if_neg hticks]
      have heq : ∀ c ∈ c0 :: cs, c.numTicks = c0.numTicks := by
        intro c hc
        by_contra hne
        exact hticks (List.any_eq_true.2 ⟨c, hc, by simpa using hne⟩)
      have hno : ¬ ∃ c ∈ c0 :: cs, ∃ c' ∈ c0 :: cs, c.numTicks ≠ c'.numTicks := by
        rintro ⟨c, hc, c', hc', hne⟩
        exact hne ((heq c hc).trans (heq c' hc').symm)
      set B : List (List Instr) := List.replicate (c0.numTicks + 1) [] with hB
      obtain ⟨hb, hm⟩ := scanAll_spec (c0 :: cs) B []
      rw [List.nil_append] at hm
      cases chk with
      | false =>
        rw [if_neg (by simp), if_neg (by simp)]
        simp only [reduceCtorEq, false_and, or_false, false_or, hno]
      | true =>
        simp only [true_and, hno, false_or, reduceCtorEq]
        rw [hm]
        by_cases h1 : (((c0 :: cs).map fun c => (scan c 0 B []).2).any fun m => decide (1 < m.length)) = true
        · rw [if_pos h1]
          simp only [true_iff]
          intro hal
          obtain ⟨m, hmm, hlen⟩ := List.any_eq_true.1 h1
          obtain ⟨c, hc, rfl⟩ := List.mem_map.1 hmm
          have hle := nodup_length_le_one (scan_meas c 0 B [] (by simp)).1 (fun a ha b hb =>
            hal c hc c hc a b ((scan_meas_iff c B a).1 ha) ((scan_meas_iff c B b).1 hb))
          simp only [decide_eq_true_eq] at hlen
          omega
        · rw [if_neg h1]
          have hle : ∀ m ∈ ((c0 :: cs).map fun c => (scan c 0 B []).2), m.length ≤ 1 := by
            intro m hmm
            by_contra hn
            exact h1 (List.any_eq_true.2 ⟨m, hmm, by simpa using hn⟩)
          set F := ((c0 :: cs).map fun c => (scan c 0 B []).2).filterMap List.head? with hF
          have hFm : ∀ a, a ∈ F ↔ ∃ c ∈ c0 :: cs, MeasuresIn c a := by
            intro a
            rw [hF, filterMap_head_mem _ _ hle]
            constructor
            · rintro ⟨m, hmm, ha⟩
              obtain ⟨c, hc, rfl⟩ := List.mem_map.1 hmm
              exact ⟨c, hc, (scan_meas_iff c B a).1 ha⟩
            · rintro ⟨c, hc, ha⟩
              exact ⟨_, List.mem_map.2 ⟨c, hc, rfl⟩, (scan_meas_iff c B a).2 ha⟩
          by_cases h2 : (F.any fun a => F.any fun b => decide (a ≠ b)) = true
          · rw [if_pos h2]
            simp only [true_iff]
            intro hal
            obtain ⟨a, ha, h3⟩ := List.any_eq_true.1 h2
            obtain ⟨b, hb', hne⟩ := List.any_eq_true.1 h3
            obtain ⟨c, hc, hca⟩ := (hFm a).1 ha
            obtain ⟨c', hc', hcb⟩ := (hFm b).1 hb'
            simp only [decide_eq_true_eq] at hne
            exact hne (hal c hc c' hc' a b hca hcb)
          · rw [if_neg h2]
            simp only [reduceCtorEq, false_iff, not_not]
            intro c hc c' hc' k k' hk hk'
            by_contra hne
            refine h2 (List.any_eq_true.2 ⟨k, (hFm k).2 ⟨c, hc, hk⟩, List.any_eq_true.2
              ⟨k', (hFm k').2 ⟨c', hc', hk'⟩, by simpa using hne⟩⟩)

/-- Circuits with the same number of TICKs are merged TICK block by TICK block: the merged circuit has as
many TICKs, and its `k`-th block appends exactly the instructions of the `k`-th blocks of all circuits,
where instructions of the same name keep their relative order (circuit after circuit). -/
theorem C21_merge_circuits (cs : List Circuit) (chk : Bool) (n : Nat) (hne : cs ≠ [])
    (hticks : ∀ c ∈ cs, c.numTicks = n) (hal : chk = true → MeasAligned cs) :
    ∃ c, mergeCircuits cs chk = .ok c ∧ c.numTicks = n ∧
      ∀ k, k ≤ n → ∃ L : List Instr, (tickBlocks c)[k]? = some (L.foldl Circuit.append []) ∧
        L.Perm (cs.flatMap fun c => ((tickBlocks c)[k]?).getD []) ∧
        ∀ g, L.filter (fun i => i.gate = g) =
          (cs.flatMap fun c => ((tickBlocks c)[k]?).getD []).filter fun i => i.gate = g := by
  cases cs with
  | nil => exact absurd rfl hne
  | cons c0 cs =>
    obtain rfl : c0.numTicks = n := hticks c0 (by simp)
    obtain ⟨hb, hm⟩ := scanAll_spec (c0 :: cs) (List.replicate (c0.numTicks + 1) []) []
    set R := scanAll (c0 :: cs) (List.replicate (c0.numTicks + 1) []) [] with hR
    have hok : mergeCircuits (c0 :: cs) chk = .ok (assemble (R.1.map sortBlock)) := by
      have hnr : mergeCircuits (c0 :: cs) chk ≠ .error .valueError := by
        rw [Ne, C21_raises_iff]
        rintro (h | ⟨c, hc, c', hc', h⟩ | ⟨h, h'⟩)
        · cases h
        · exact h ((hticks c hc).trans (hticks c' hc').symm)
        · exact h' (hal h)
      unfold mergeCircuits at hnr ⊢
      simp only [← hR] at hnr ⊢
      split at hnr
      · exact absurd rfl hnr
      · rename_i h1
        rw [if_neg h1]
        split at hnr
        · exact absurd rfl hnr
        · rename_i h2
          rw [if_neg h2]
          split at hnr
          · exact absurd rfl hnr
          · rename_i h3
            rw [if_neg h3]
    have hlen : R.1.length = c0.numTicks + 1 := by
      have e1 := hb c0.numTicks
      have e2 := hb (c0.numTicks + 1)
      rw [List.getElem?_replicate_of_lt (by omega)] at e1
      have e3 : (List.replicate (c0.numTicks + 1) ([] : List Instr))[c0.numTicks + 1]? = none := by
        simp
      rw [e3, Option.map_none, List.getElem?_eq_none_iff] at e2
      have : c0.numTicks < R.1.length := by
        by_contra hlt
        rw [List.getElem?_eq_none (by omega)] at e1
        simp at e1
      omega
    have hRk : ∀ k, k ≤ c0.numTicks → R.1[k]? =
        some ((c0 :: cs).flatMap fun c => ((tickBlocks c)[k]?).getD []) := by
      intro k hk
      rw [hb k, List.getElem?_replicate_of_lt (by omega)]
      simp
    have hnt : ∀ b ∈ R.1.map sortBlock, ∀ i ∈ b, i.gate ≠ .TICK := by
      intro b hbm i hi
      obtain ⟨b', hb', rfl⟩ := List.mem_map.1 hbm
      obtain ⟨k, hk⟩ := List.getElem?_of_mem hb'
      have hkn : k ≤ c0.numTicks := by
        have := (List.getElem?_eq_some_iff.1 hk).1
        omega
      rw [hRk k hkn] at hk
      have hi' := (sortBlock_perm b').mem_iff.1 hi
      rw [← Option.some.inj hk] at hi'
      obtain ⟨c, hc, hic⟩ := List.mem_flatMap.1 hi'
      cases htb : (tickBlocks c)[k]? with
      | none => simp [htb] at hic
      | some tb =>
        rw [htb] at hic
        exact tickBlocks_mem_noTick c tb (List.mem_of_getElem? htb) i hic
    have hne' : R.1.map sortBlock ≠ [] := by
      intro h
      have := congrArg List.length h
      simp [hlen] at this
    have htb := assemble_blocks _ hne' hnt
    refine ⟨_, hok, ?_, fun k hk => ?_⟩
    · have := tickBlocks_length (assemble (R.1.map sortBlock))
      rw [htb] at this
      simp [hlen] at this
      omega
    · refine ⟨sortBlock ((c0 :: cs).flatMap fun c => ((tickBlocks c)[k]?).getD []), ?_,
        sortBlock_perm _, fun g => sortBlock_filter _ g⟩
      rw [htb, List.getElem?_map, List.getElem?_map, hRk k hk]
      rfl

/-- Three TICK blocks, two circuits. -/
example : mergeCircuits
    [[⟨.H, [.qubit 0], []⟩, ⟨.TICK, [], []⟩, ⟨.CZ, [.qubit 0, .qubit 1], []⟩, ⟨.TICK, [], []⟩,
      ⟨.M, [.qubit 1], []⟩],
     [⟨.S, [.qubit 2], []⟩, ⟨.H, [.qubit 3], []⟩, ⟨.TICK, [], []⟩, ⟨.TICK, [], []⟩,
      ⟨.M, [.qubit 3], []⟩]] true =
    .ok [⟨.H, [.qubit 0, .qubit 3], []⟩, ⟨.S, [.qubit 2], []⟩, ⟨.TICK, [], []⟩,
      ⟨.CZ, [.qubit 0, .qubit 1], []⟩, ⟨.TICK, [], []⟩, ⟨.M, [.qubit 1, .qubit 3], []⟩] := by
  decide +kernel

/-- Sorting by instruction name is not harmless: a circuit measuring in the X basis before another one
measuring in the Z basis ends up with the opposite record order, although the check passes. -/
theorem C21_sorting_reorders_record :
    ∃ a b c, mergeCircuits [a, b] true = .ok c ∧ measOrder c = measOrder b ++ measOrder a ∧
      measOrder c ≠ measOrder a ++ measOrder b :=
  ⟨[⟨.MX, [.qubit 0], []⟩], [⟨.M, [.qubit 1], []⟩], [⟨.M, [.qubit 1], []⟩, ⟨.MX, [.qubit 0], []⟩],
    by decide +kernel, by decide +kernel, by decide +kernel⟩

/-- It is not harmless inside one circuit either: noise before a measurement moves behind it. -/
theorem C21_sorting_moves_noise :
    ∃ a c, mergeCircuits [a] true = .ok c ∧ elems a = [(.X_ERROR, [0], [.num (1/8)]), (.M, [0], [])] ∧
      elems c = [(.M, [0], []), (.X_ERROR, [0], [.num (1/8)])] :=
  ⟨[⟨.X_ERROR, [.qubit 0], [.num (1/8)]⟩, ⟨.M, [.qubit 0], []⟩],
    [⟨.M, [.qubit 0], []⟩, ⟨.X_ERROR, [.qubit 0], [.num (1/8)]⟩],
    by decide +kernel, by decide +kernel, by decide +kernel⟩

end SurfaceSim.Props
