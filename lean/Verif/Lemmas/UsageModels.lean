/-
Qubits used by the methods of the noise models.
-/
import Verif.Spec.Usage
import Verif.Lemmas.MergeRounds

namespace SurfaceSim
open Spec NoiseModel Blocks

variable {p : Gate → Bool}

theorem used_append (a b : Circuit) : used p (a ++ b) = used p a ++ used p b := by simp [used]

theorem used_circuit_append (c : Circuit) (i : Instr) : used p (Circuit.append c i) = used p c ++ used p [i] := by
  unfold Circuit.append
  split
  · rename_i h
    rw [List.getLast?_eq_none_iff] at h
    subst h; rfl
  · rename_i l h
    split
    · rename_i hf
      have hc : c = c.dropLast ++ [l] := (List.dropLast_append_getLast? l h).symm
      conv => rhs; rw [hc]
      rw [used_append, used_append, List.append_assoc]
      congr 1
      simp only [used, List.flatMap_cons, List.flatMap_nil, List.append_nil]
      rw [← hf.1]
      split
      · simp [Instr.qubits, List.filterMap_append]
      · rfl
    · rw [used_append]

theorem used_concat (a b : Circuit) : used p (Circuit.concat a b) = used p a ++ used p b := by
  cases b with
  | nil => simp [Circuit.concat, used]
  | cons i r =>
    show used p (Circuit.append a i ++ r) = _
    rw [used_append, used_circuit_append, List.append_assoc, ← used_append]
    rfl

theorem used_appendOp {c c' : Circuit} {g : Gate} {ts : List Nat} {args : List Arg} (h : appendOp c g ts args = .ok c') :
    used p c' = used p c ++ if p g then ts else [] := by
  unfold appendOp at h
  split at h
  · simp at h
  · rename_i i hi
    cases h
    have hig : i = ⟨g, ts.map Target.qubit, args⟩ := by
      unfold mkInstr at hi
      split at hi
      · simp at hi
      · split at hi
        · split at hi
          · simp at hi
          · split at hi
            · simp at hi
            · simp at hi; rw [← hi]
        · simp at hi; rw [← hi]
    rw [used_circuit_append, hig]
    congr 1
    simp only [used, List.flatMap_cons, List.flatMap_nil, List.append_nil, Instr.qubits]
    split
    · induction ts with
      | nil => rfl
      | cons t ts ih => simp
    · rfl

theorem used_noiseLoop {noise : Gate} {rule : ArgRule} {L : List (List String × List Nat)} {c c' : Circuit}
    (h : noiseLoop noise rule c L = .ok c') : used p c' = used p c ++ if p noise then L.flatMap Prod.snd else [] := by
  induction L generalizing c with
  | nil => simp [noiseLoop] at h; simp [h]
  | cons e L ih =>
    obtain ⟨qs, is⟩ := e
    unfold noiseLoop at h
    split at h
    · simp at h
    · split at h
      · simp at h
      · rename_i c1 h1
        rw [ih h, used_appendOp h1, List.append_assoc]
        split <;> simp

theorem singles_snd {qs : List String} {is : List Nat} (h : is.length ≤ qs.length) : (singles qs is).flatMap Prod.snd = is := by
  unfold singles
  rw [List.flatMap_map]
  show (qs.zip is).flatMap (fun p => [p.2]) = is
  rw [← List.map_eq_flatMap]
  exact List.map_snd_zip h

theorem pairUp_both {α : Type} : ∀ {l : List α} {ps : List (α × α)}, pairUp l = some ps →
    ps.flatMap (fun p => [p.1, p.2]) = l ∧ l.length = 2 * ps.length
  | [], ps, h => by simp [pairUp] at h; subst h; exact ⟨rfl, rfl⟩
  | [a], ps, h => by simp [pairUp] at h
  | a :: b :: l, ps, h => by
    simp only [pairUp] at h
    cases hl : pairUp l with
    | none => rw [hl] at h; simp at h
    | some qs =>
      rw [hl] at h
      simp at h; subst h
      obtain ⟨h1, h2⟩ := pairUp_both hl
      exact ⟨by simp [h1], by simp [h2]; omega⟩

theorem pairGroups_snd {qs : List String} {is : List Nat} {gs : List (List String × List Nat)}
    (h : pairGroups qs is = .ok gs) (hl : is.length = qs.length) : gs.flatMap Prod.snd = is := by
  unfold pairGroups at h
  split at h
  · rename_i ps js h1 h2
    cases h
    obtain ⟨-, l1⟩ := pairUp_both h1
    obtain ⟨e2, l2⟩ := pairUp_both h2
    rw [List.flatMap_map]
    show (ps.zip js).flatMap (fun p => [p.2.1, p.2.2]) = is
    have : (ps.zip js).flatMap (fun p => [p.2.1, p.2.2]) = ((ps.zip js).map Prod.snd).flatMap (fun p => [p.1, p.2]) := by
      rw [List.flatMap_map]
    rw [this, List.map_snd_zip (by omega), e2]
  · simp at h

theorem getInds_eq {inds : Dict String Nat} {qs : List String} {is : List Nat} (h : getInds inds qs = .ok is) :
    is = qs.map (ind inds) := by
  unfold getInds at h
  induction qs generalizing is with
  | nil => simp [mapExcept] at h; simp [h]
  | cons q qs ih =>
    unfold mapExcept at h
    split at h
    · simp at h
    · rename_i b hb
      split at h
      · simp at h
      · rename_i bs hbs
        cases h
        rw [ih hbs, List.map_cons]
        congr 1
        unfold Dict.getE at hb
        unfold ind
        split at hb
        · rename_i v hv
          cases hb; rw [hv]; rfl
        · simp at hb

section
variable {inds : Dict String Nat} {g noise : Gate} {qs : List String} {c : Circuit}

theorem used_sqOp (hp : p g = !p noise) {rule : ArgRule} (h : sqOp inds g noise rule qs = .ok c) :
    used p c = qs.map (ind inds) := by
  unfold sqOp at h
  split at h
  · simp at h
  · rename_i is hi
    have hl := getInds_eq hi
    split at h
    · simp at h
    · rename_i c1 h1
      rw [used_noiseLoop h, used_appendOp h1, hp, singles_snd (by simp [hl]), hl]
      cases p noise <;> simp [used]

theorem used_tqOp (hp : p g = !p noise) {rule : ArgRule} (h : tqOp inds g noise rule qs = .ok c) :
    used p c = qs.map (ind inds) := by
  unfold tqOp at h
  split at h
  · simp at h
  · split at h
    · simp at h
    · rename_i is hi
      have hl := getInds_eq hi
      split at h
      · simp at h
      · rename_i c1 h1
        split at h
        · simp at h
        · rename_i gs hgs
          rw [used_noiseLoop h, used_appendOp h1, hp, pairGroups_snd hgs (by simp [hl]), hl]
          cases p noise <;> simp [used]

theorem used_noiseOnly {rule : ArgRule} (h : noiseOnly inds noise rule qs = .ok c) :
    used p c = if p noise then qs.map (ind inds) else [] := by
  unfold noiseOnly at h
  split at h
  · simp at h
  · rename_i is hi
    have hl := getInds_eq hi
    rw [used_noiseLoop h, singles_snd (by simp [hl]), hl]; rfl

theorem used_plainOp (h : plainOp inds g qs = .ok c) : used p c = if p g then qs.map (ind inds) else [] := by
  unfold plainOp at h
  split at h
  · simp at h
  · rename_i is hi
    rw [used_appendOp h, getInds_eq hi]; simp [used]

theorem used_plainMeasLoop {c' : Circuit} {s s' : MeasState} (h : plainMeasLoop inds g c qs s = (.ok c', s')) :
    used p c' = used p c ++ if p g then qs.map (ind inds) else [] := by
  induction qs generalizing c s with
  | nil => simp [plainMeasLoop, pure, PyM.pure] at h; rw [← h.1]; simp
  | cons q qs ih =>
    unfold plainMeasLoop at h
    obtain ⟨_, s1, -, h⟩ := PyM.bind_eq_ok h
    obtain ⟨is, s2, hi, h⟩ := PyM.bind_eq_ok h
    obtain ⟨c1, s3, h1, h⟩ := PyM.bind_eq_ok h
    simp only [PyM.ofExcept, Prod.mk.injEq] at h1 hi
    rw [ih h, used_appendOp h1.1, getInds_eq hi.1]
    split <;> simp

theorem used_measLoop {st : Setup} {ps : List (String × Nat)} {c' : Circuit} {s s' : MeasState}
    (h : measLoop st inds g c ps s = (.ok c', s')) : used p c' = used p c ++ if p g then ps.map Prod.snd else [] := by
  induction ps generalizing c s with
  | nil => simp [measLoop, pure, PyM.pure] at h; rw [← h.1]; simp
  | cons q qs ih =>
    unfold measLoop at h
    obtain ⟨_, s1, -, h⟩ := PyM.bind_eq_ok h
    obtain ⟨fl, s2, -, h⟩ := PyM.bind_eq_ok h
    simp only at h
    split at h <;>
    · obtain ⟨args, s2, -, h⟩ := PyM.bind_eq_ok h
      obtain ⟨c1, s3, h1, h⟩ := PyM.bind_eq_ok h
      simp only [PyM.ofExcept, Prod.mk.injEq] at h1
      rw [ih h, used_appendOp h1.1]
      cases p g <;> simp

theorem used_measOp (hp : p g = !p noise) {st : Setup} {s s' : MeasState} (h : measOp st inds g noise qs s = (.ok c, s')) :
    used p c = qs.map (ind inds) := by
  unfold measOp at h
  obtain ⟨is, s1, hi, h⟩ := PyM.bind_eq_ok h
  obtain ⟨c1, s2, h1, h⟩ := PyM.bind_eq_ok h
  simp only [PyM.ofExcept, Prod.mk.injEq] at h1 hi
  have hl := getInds_eq hi.1
  rw [used_measLoop h, used_noiseLoop h1.1, singles_snd (by simp [hl]), List.map_snd_zip (by simp [hl]), hl, hp]
  cases p noise <;> simp [used]

end

theorem used_incomingNoiseOp {st : Setup} {inds : Dict String Nat} {qs : List String} {c : Circuit}
    (h : incomingNoiseOp st inds qs = .ok c) : used acts c = [] := by
  unfold incomingNoiseOp at h
  split at h
  · simp at h
  · split at h
    · simp at h
    · rename_i c1 h1
      rw [used_noiseLoop h, used_noiseLoop h1]; rfl

theorem lift_uses {f : List String → Except Err Circuit} {u : List String → List Nat}
    (hf : ∀ qs c, f qs = .ok c → ∀ i ∈ c, i.gate ≠ .TICK) (hu : ∀ qs c, f qs = .ok c → used p c = u qs)
    (qs : List String) (s : MeasState) (c : Circuit) (s' : MeasState) (h : lift f qs s = (.ok c, s')) :
    (∀ i ∈ c, i.gate ≠ .TICK) ∧ used p c = u qs := by
  simp only [lift, PyM.ofExcept, Prod.mk.injEq] at h
  exact ⟨hf _ _ h.1, hu _ _ h.1⟩

theorem noIncoming_uses (qs : List String) (s : MeasState) (c : Circuit) (s' : MeasState)
    (h : noIncoming qs s = (.ok c, s')) : (∀ i ∈ c, i.gate ≠ .TICK) ∧ used p c = [] := by
  simp only [noIncoming, pure, PyM.pure, Prod.mk.injEq, Except.ok.injEq] at h
  rw [← h.1]; exact ⟨by simp, rfl⟩

theorem sq_uses {inds : Dict String Nat} {g noise : Gate} {rule : ArgRule} (hp : p g = !p noise) (ht : g ≠ .TICK)
    (ht' : noise ≠ .TICK) : ∀ qs s c s', lift (sqOp inds g noise rule) qs s = (.ok c, s') →
    (∀ i ∈ c, i.gate ≠ .TICK) ∧ used p c = qs.map (ind inds) :=
  lift_uses (fun _ _ h => sqOp_all (P := (· ≠ .TICK)) ht ht' h) fun _ _ h => used_sqOp hp h

theorem tq_uses {inds : Dict String Nat} {g noise : Gate} {rule : ArgRule} (hp : p g = !p noise) (ht : g ≠ .TICK)
    (ht' : noise ≠ .TICK) : ∀ qs s c s', lift (tqOp inds g noise rule) qs s = (.ok c, s') →
    (∀ i ∈ c, i.gate ≠ .TICK) ∧ used p c = qs.map (ind inds) :=
  lift_uses (fun _ _ h => tqOp_all (P := (· ≠ .TICK)) ht ht' h) fun _ _ h => used_tqOp hp h

theorem plain_uses {inds : Dict String Nat} {g : Gate} (hg : p g = true) (ht : g ≠ .TICK) :
    ∀ qs s c s', lift (plainOp inds g) qs s = (.ok c, s') →
    (∀ i ∈ c, i.gate ≠ .TICK) ∧ used p c = qs.map (ind inds) :=
  lift_uses (fun _ _ h => plainOp_all (P := (· ≠ .TICK)) ht h) fun _ _ h => by rw [used_plainOp h, hg]; rfl

theorem idle_uses {inds : Dict String Nat} {noise : Gate} {rule : ArgRule} (ht : noise ≠ .TICK) {ex : Bool} (hn : p noise = ex) :
    ∀ qs s c s', lift (noiseOnly inds noise rule) qs s = (.ok c, s') →
    (∀ i ∈ c, i.gate ≠ .TICK) ∧ used p c = if ex then qs.map (ind inds) else [] :=
  lift_uses (u := fun qs => if ex then qs.map (ind inds) else [])
    (fun _ _ h => noiseOnly_all (P := (· ≠ .TICK)) ht h) fun _ _ h => by rw [used_noiseOnly h, hn]

theorem meas_uses {st : Setup} {inds : Dict String Nat} {g noise : Gate} (hp : p g = !p noise) (ht : g ≠ .TICK)
    (ht' : noise ≠ .TICK) : ∀ qs s c s', measOp st inds g noise qs s = (.ok c, s') →
    (∀ i ∈ c, i.gate ≠ .TICK) ∧ used p c = qs.map (ind inds) := fun _ _ _ _ h =>
  ⟨measOp_all (P := (· ≠ .TICK)) ht ht' h, used_measOp hp h⟩

theorem uses_noiseless (inds : Dict String Nat) : Uses acts true (noiseless inds) where
  marks := by decide
  gates f hf := by
    simp only [noiseless, List.mem_cons, List.not_mem_nil, or_false] at hf
    rcases hf with rfl | rfl | rfl | rfl | rfl | rfl | rfl | rfl | rfl | rfl
    iterate 8 exact plain_uses rfl (by decide)
    · intro qs s c s' h
      exact ⟨plainMeasLoop_all (P := (· ≠ .TICK)) (by simp) h (by simp), by rw [used_plainMeasLoop h]; rfl⟩
    · exact plain_uses rfl (by decide)
  idle := plain_uses rfl (by decide)
  incoming := noIncoming_uses

theorem uses_incoming (st : Setup) (inds : Dict String Nat) : Uses acts true (incoming st inds) where
  marks := by decide
  gates := (uses_noiseless inds).gates
  idle := (uses_noiseless inds).idle
  incoming := lift_uses (u := fun _ => [])
    (fun _ _ h => incomingNoiseOp_all (P := (· ≠ .TICK)) (by decide) (by decide) h) fun _ _ h => used_incomingNoiseOp h

theorem uses_phenomenological (st : Setup) (inds : Dict String Nat) : Uses acts true (phenomenological st inds) where
  marks := by decide
  gates f hf := by
    simp only [phenomenological, incoming, noiseless, List.mem_cons, List.not_mem_nil, or_false] at hf
    rcases hf with rfl | rfl | rfl | rfl | rfl | rfl | rfl | rfl | rfl | rfl
    iterate 8 exact plain_uses rfl (by decide)
    · exact meas_uses rfl (by decide) (by decide)
    · exact plain_uses rfl (by decide)
  idle := (uses_noiseless inds).idle
  incoming := (uses_incoming st inds).incoming

/-- The gates of the circuit-level models, and their noise. -/
theorem uses_circuitNoise' (st : Setup) (inds : Dict String Nat) (hm : ∀ g ∈ [Gate.TICK, .QUBIT_COORDS, .DETECTOR, .OBSERVABLE_INCLUDE], p g = false)
    {ex : Bool} (hg : ∀ g ∈ [Gate.X, .Z, .H, .S, .S_DAG, .CZ, .CX, .SWAP, .M, .R], p g = !ex)
    (hn : ∀ g ∈ [Gate.DEPOLARIZE1, .DEPOLARIZE2, .X_ERROR], p g = ex) : Uses p ex (circuitNoise st inds) where
  marks := hm
  gates f hf := by
    simp only [circuitNoise, List.mem_cons, List.not_mem_nil, or_false] at hf
    rcases hf with rfl | rfl | rfl | rfl | rfl | rfl | rfl | rfl | rfl | rfl
    iterate 5 exact sq_uses (by rw [hg _ (by decide), hn _ (by decide)]) (by decide) (by decide)
    iterate 3 exact tq_uses (by rw [hg _ (by decide), hn _ (by decide)]) (by decide) (by decide)
    · exact meas_uses (by rw [hg _ (by decide), hn _ (by decide)]) (by decide) (by decide)
    · exact sq_uses (by rw [hg _ (by decide), hn _ (by decide)]) (by decide) (by decide)
  idle := idle_uses (by decide) (hn _ (by decide))
  incoming := noIncoming_uses

theorem uses_biasedNoise' (st : Setup) (inds : Dict String Nat) (hm : ∀ g ∈ [Gate.TICK, .QUBIT_COORDS, .DETECTOR, .OBSERVABLE_INCLUDE], p g = false)
    {ex : Bool} (hg : ∀ g ∈ [Gate.X, .Z, .H, .S, .S_DAG, .CZ, .CX, .SWAP, .M, .R], p g = !ex)
    (hn : ∀ g ∈ [Gate.PAULI_CHANNEL_1, .PAULI_CHANNEL_2, .X_ERROR], p g = ex) : Uses p ex (biasedNoise st inds) where
  marks := hm
  gates f hf := by
    simp only [biasedNoise, List.mem_cons, List.not_mem_nil, or_false] at hf
    rcases hf with rfl | rfl | rfl | rfl | rfl | rfl | rfl | rfl | rfl | rfl
    iterate 5 exact sq_uses (by rw [hg _ (by decide), hn _ (by decide)]) (by decide) (by decide)
    iterate 3 exact tq_uses (by rw [hg _ (by decide), hn _ (by decide)]) (by decide) (by decide)
    · exact meas_uses (by rw [hg _ (by decide), hn _ (by decide)]) (by decide) (by decide)
    · exact sq_uses (by rw [hg _ (by decide), hn _ (by decide)]) (by decide) (by decide)
  idle := idle_uses (by decide) (hn _ (by decide))
  incoming := noIncoming_uses

theorem uses_circuitNoise (st : Setup) (inds : Dict String Nat) : Uses acts false (circuitNoise st inds) :=
  uses_circuitNoise' st inds (by decide) (by decide) (by decide)

theorem uses_biasedNoise (st : Setup) (inds : Dict String Nat) : Uses acts false (biasedNoise st inds) :=
  uses_biasedNoise' st inds (by decide) (by decide) (by decide)

theorem noise_circuitNoise (st : Setup) (inds : Dict String Nat) : Uses Gate.isNoise true (circuitNoise st inds) :=
  uses_circuitNoise' st inds (by decide) (by decide) (by decide)

theorem noise_biasedNoise (st : Setup) (inds : Dict String Nat) : Uses Gate.isNoise true (biasedNoise st inds) :=
  uses_biasedNoise' st inds (by decide) (by decide) (by decide)

end SurfaceSim
