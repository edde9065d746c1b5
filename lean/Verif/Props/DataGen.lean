/-
Datasets of sampled outcomes (C33).
-/
import Verif.Lemmas.DataGen
import Verif.Props.Layout
import Verif.Props.Google

namespace SurfaceSim.Props
open SurfaceSim Spec Layout LayoutLib NoiseModel Blocks Experiments DataGen

variable {cfg : Detectors.Config} {sample : Sampler} {nm : NoiseModel} {l : Layout} {n : Nat}
  {e : PyM (Sim cfg) Circuit}

theorem qubits_of_role (hl : Reachable l) {data anc : List String} (hd : l.getQubits [("role", .str "data")] = .ok data)
    (ha : l.getQubits [("role", .str "anc")] = .ok anc) :
    (data ++ anc).Nodup ∧ ∃ qs, l.getQubits [] = .ok qs ∧ ∀ q ∈ data ++ anc, q ∈ qs := by
  obtain ⟨qs, h1, h2, h3⟩ := C09_exactly_matching l hl _ _ hd
  obtain ⟨qs', h1', -, h3'⟩ := C09_exactly_matching l hl _ _ ha
  cases h1.symm.trans h1'
  refine ⟨List.nodup_append.2 ⟨h3 ▸ h2.filter _, h3' ▸ h2.filter _, ?_⟩, qs, h1, fun q hq => ?_⟩
  · rintro q hq q' hq' rfl
    rw [h3, List.mem_filter, decide_eq_true_iff] at hq
    rw [h3', List.mem_filter, decide_eq_true_iff] at hq'
    have e1 := (hq.2 _ (List.mem_singleton.2 rfl)).2
    have e2 := (hq'.2 _ (List.mem_singleton.2 rfl)).2
    rw [e1] at e2
    simp at e2
  · rcases List.mem_append.1 hq with hq | hq
    · rw [h3] at hq; exact (List.mem_filter.1 hq).1
    · rw [h3'] at hq; exact (List.mem_filter.1 hq).1

/-- **C33** `sample_memory_experiment` puts the outcome of every measurement in the right place: if the experiment with `n`
rounds measures the qubits in the order of the C33 theorems above, then the entry for shot `i`, round `r` and ancilla `a` is the
outcome of the `r`-th measurement of `a` in shot `i`, the entry for a data qubit is the outcome of its only measurement, and the
ideal entries are those of one shot of the circuit without noise. -/
theorem C33_sample (hs : SamplesRecords sample) (hl : Reachable l) (hr : CanRun nm l) (h : RecordOrder cfg nm l n e)
    (shots : Nat) (hsh : 0 < shots) (seed : Option Int) :
    ∃ data anc, l.getQubits [("role", .str "data")] = .ok data ∧ l.getQubits [("role", .str "anc")] = .ok anc ∧
      (n * anc.length + data.length ≠ 1 → ∀ s, ∃ c s' d, e s = (.ok c, s') ∧
        sampleMemory sample l c shots n seed = .ok d ∧ HoldsOutcomes sample nm.inds c shots n seed anc data d) := by
  obtain ⟨data, anc, hd, ha, h⟩ := h
  obtain ⟨hn, qs, hq, hsub⟩ := qubits_of_role hl hd ha
  refine ⟨data, anc, hd, ha, fun h1 s => ?_⟩
  obtain ⟨c, s', e1, e2⟩ := h s
  have hlen : (measOrder c).length = n * anc.length + data.length := by rw [e2]; simp
  refine ⟨c, s', _, e1, sampleMemory_eq hs ha hd hlen hsh (by omega), holds_datasetOf hs hr.inj (fun q hq' => ?_) hn e2⟩
  exact hr.known qs hq q (hsub q (by simp at hq' ⊢; tauto))

/-- **C33** With another number of rounds (or no shots) `sample_memory_experiment` raises `ValueError`, it never mislabels
outcomes. -/
theorem C33_sample_wrong_rounds (hs : SamplesRecords sample) (h : RecordOrder cfg nm l n e) (shots : Nat)
    (seed : Option Int) :
    ∃ data anc, l.getQubits [("role", .str "data")] = .ok data ∧ l.getQubits [("role", .str "anc")] = .ok anc ∧
      (anc ≠ [] → n * anc.length + data.length ≠ 1 → ∀ n', n' ≠ n ∨ shots = 0 → ∀ s, ∃ c s', e s = (.ok c, s') ∧
        sampleMemory sample l c shots n' seed = .error .valueError) := by
  obtain ⟨data, anc, hd, ha, h⟩ := h
  refine ⟨data, anc, hd, ha, fun hne h1 n' hn' s => ?_⟩
  obtain ⟨c, s', e1, e2⟩ := h s
  have hlen : (measOrder c).length = n * anc.length + data.length := by rw [e2]; simp
  refine ⟨c, s', e1, ?_⟩
  rcases hn' with hn' | rfl
  · refine sampleMemory_error hs ha hd ?_ (by omega)
    rw [hlen]
    intro h'
    have : 0 < anc.length := List.length_pos_iff.2 hne
    exact hn' (Nat.eq_of_mul_eq_mul_right this (by omega)).symm
  · unfold sampleMemory
    rw [ha, hd]
    rfl

/-- **C33** Experiments with a single measurement cannot be sampled (`np.squeeze` removes the only axis): `IndexError`. -/
theorem C33_sample_single (hs : SamplesRecords sample) (h : RecordOrder cfg nm l n e) (shots : Nat) (hsh : 0 < shots)
    (seed : Option Int) :
    ∃ data anc, l.getQubits [("role", .str "data")] = .ok data ∧ l.getQubits [("role", .str "anc")] = .ok anc ∧
      (n * anc.length + data.length = 1 → ∀ s, ∃ c s', e s = (.ok c, s') ∧
        sampleMemory sample l c shots n seed = .error .indexError) := by
  obtain ⟨data, anc, hd, ha, h⟩ := h
  refine ⟨data, anc, hd, ha, fun h1 s => ?_⟩
  obtain ⟨c, s', e1, e2⟩ := h s
  have hlen : (measOrder c).length = n * anc.length + data.length := by rw [e2]; simp
  exact ⟨c, s', e1, sampleMemory_single hs ha hd hlen hsh (by omega)⟩

/-- A sampler for which shots and measurements can be told apart: outcome `k` of shot `i` is the parity of `i + k`. -/
def paritySampler : Sampler := fun c _ n =>
  ⟨[n, (measOrder c).length],
    (List.range n).flatMap fun i => (List.range (measOrder c).length).map fun k => (i + k) % 2 = 1⟩

theorem samples_parity : SamplesRecords paritySampler := fun c seed n =>
  ⟨rfl, (flatMap_blocks _ _ n fun i _ => by simp).1⟩

/-- Any number of shots and rounds of a distance-3 experiment. -/
example (o o' : SetOrder) (rotBasis reset gauge : Bool) (n shots : Nat) (hs : 0 < shots) :
    ∃ l, rotSurfaceCode 3 rotDefault = .ok l ∧
    ∀ s, ∃ c s' d, memory (rotCss (configFor l .postGate) o (noiselessFor l)) o' (noiselessFor l) l n [("D1", 1)] rotBasis
      reset none gauge s = (.ok c, s') ∧ sampleMemory paritySampler l c shots n none = .ok d ∧
      HoldsOutcomes paritySampler (noiselessFor l).inds c shots n none ["X1", "X2", "X3", "X4", "Z1", "Z2", "Z3", "Z4"]
        ["D1", "D2", "D3", "D4", "D5", "D6", "D7", "D8", "D9"] d := by
  have h1 : rotSurfaceCode 3 rotDefault = .ok (layoutOf (rotSurfaceCode 3 rotDefault)) :=
    ok_layoutOf (by decide +kernel)
  have h2 := canRun_noiseless (l := layoutOf (rotSurfaceCode 3 rotDefault)) (by decide +kernel)
  have h3 := C33_rot_css h1 .refl (by decide) (by decide) _ h2
    (memoryArgs_noiseless (frame := .postGate) (dataInit := [("D1", 1)]) (ancDetectors := none) (by decide +kernel)) o o'
    rotBasis reset gauge n
  obtain ⟨data, anc, hd, ha, h4⟩ := C33_sample samples_parity (isRot_of_params h1 .refl).grid.reach h2 h3 shots hs none
  have e1 : (layoutOf (rotSurfaceCode 3 rotDefault)).getQubits [("role", .str "anc")] =
    .ok ["X1", "X2", "X3", "X4", "Z1", "Z2", "Z3", "Z4"] := by decide +kernel
  have e2 : (layoutOf (rotSurfaceCode 3 rotDefault)).getQubits [("role", .str "data")] =
    .ok ["D1", "D2", "D3", "D4", "D5", "D6", "D7", "D8", "D9"] := by decide +kernel
  cases e1.symm.trans ha
  cases e2.symm.trans hd
  exact ⟨_, h1, h4 (by simp)⟩

/-- A code with a single qubit has experiments with a single measurement. -/
example (o o' : SetOrder) (n : Nat) : ∃ l, rotSurfaceCode 1 rotDefault = .ok l ∧
    ∀ s, ∃ c s', memory (rotCss (configFor l .postGate) o (noiselessFor l)) o' (noiselessFor l) l n [] false
      true none false s = (.ok c, s') ∧ sampleMemory paritySampler l c 10 n none = .error .indexError := by
  have h1 : rotSurfaceCode 1 rotDefault = .ok (layoutOf (rotSurfaceCode 1 rotDefault)) :=
    ok_layoutOf (by decide +kernel)
  have h2 := canRun_noiseless (l := layoutOf (rotSurfaceCode 1 rotDefault)) (by decide +kernel)
  have h3 := C33_rot_css h1 .refl (by decide) (by decide) _ h2
    (memoryArgs_noiseless (frame := .postGate) (dataInit := []) (ancDetectors := none) (by decide +kernel)) o o'
    false true false n
  obtain ⟨data, anc, hd, ha, h4⟩ := C33_sample_single samples_parity h3 10 (by decide) none
  have e1 : (layoutOf (rotSurfaceCode 1 rotDefault)).getQubits [("role", .str "anc")] = .ok [] := by decide +kernel
  have e2 : (layoutOf (rotSurfaceCode 1 rotDefault)).getQubits [("role", .str "data")] = .ok ["D1"] := by decide +kernel
  cases e1.symm.trans ha
  cases e2.symm.trans hd
  exact ⟨_, h1, h4 (by simp)⟩

end SurfaceSim.Props
