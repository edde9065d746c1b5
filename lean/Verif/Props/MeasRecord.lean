/-
C01, C02, C03 (model part): the measurement record of `Model`.
-/
import Verif.Lemmas.MeasRecord

namespace SurfaceSim.Props
open SurfaceSim

/-- The object after calling `add_meas(q)` for each `q` of `calls` on a new model; calls that raise
are caught by the caller. -/
def afterCalls (inds : Dict String Nat) (calls : List String) : MeasState :=
  calls.foldl (fun s q => (MeasState.addMeas inds q s).2) (MeasState.fresh inds)

/-- The measurements that really happened: the calls with a known qubit. -/
def recorded (inds : Dict String Nat) (calls : List String) : List String :=
  calls.filter (fun q => decide (q ∈ inds.keys))

theorem afterCalls_tracks (inds : Dict String Nat) (calls : List String) :
    (afterCalls inds calls).Tracks inds (recorded inds calls) := by
  suffices H : ∀ (calls : List String) (s : MeasState) (hist : List String), s.Tracks inds hist →
      (calls.foldl (fun s q => (MeasState.addMeas inds q s).2) s).Tracks inds
        (hist ++ recorded inds calls) by
    have := H calls _ [] (MeasState.tracks_fresh inds)
    rw [List.nil_append] at this
    exact this
  intro calls
  induction calls with
  | nil => intro s hist h; simpa [recorded] using h
  | cons q calls ih =>
    intro s hist h
    by_cases hq : q ∈ inds.keys
    · obtain ⟨s', e, h'⟩ := MeasState.addMeas_known h hq
      have := ih s' (hist ++ [q]) h'
      simpa [recorded, hq, e] using this
    · have e := MeasState.addMeas_unknown (s := s) hq
      have := ih s hist h
      simpa [recorded, hq, e] using this

/-- **C01.** After any history of `add_meas` calls, `meas_target(q, -k)` is the lookback of the `k`-th
most recent measurement of `q`. -/
theorem C01_meas_target_kth_last (inds : Dict String Nat) (calls : List String) (q : String) (k : Nat)
    (hq : q ∈ inds.keys) (hk : 1 ≤ k) (hk' : k ≤ (recorded inds calls).count q) :
    ∃ j : Nat, (afterCalls inds calls).measTarget q (-(k : Int))
        = .ok ((j : Int) - (recorded inds calls).length) ∧
      Spec.IsKthLast (recorded inds calls) q k j :=
  MeasState.measTarget_neg (afterCalls_tracks inds calls) hq hk hk'

/-- Witness: interleaved measurements of three qubits, one unknown label. -/
example : (afterCalls [("a", 0), ("b", 1), ("c", 5)] ["a", "b", "x", "a", "c", "b"]).measTarget "a" (-2)
    = .ok (-5) ∧ ["a", "b", "a", "c", "b"].count "a" = 2 := by decide +kernel

/-- **C02.** Whatever integer is asked for, a returned target lies inside the record and belongs to
the qubit; and the exact outcome class for every index. -/
theorem C02_meas_target_sound (inds : Dict String Nat) (calls : List String) (q : String) (i t : Int)
    (h : (afterCalls inds calls).measTarget q i = .ok t) :
    -((recorded inds calls).length : Int) ≤ t ∧ t < 0 ∧
      (recorded inds calls)[((recorded inds calls).length + t).toNat]? = some q := by
  obtain ⟨hn, ho⟩ := afterCalls_tracks inds calls
  generalize recorded inds calls = hist at *
  generalize afterCalls inds calls = s at *
  unfold MeasState.measTarget at h
  rw [ho] at h
  by_cases hq : q ∈ inds.keys
  · simp only [hq, if_true] at h
    split at h
    · simp at h
    · rename_i hc
      split at h
      · simp at h
      · rename_i a ha
        simp only [Except.ok.injEq] at h
        -- the index points into `occ`
        have hmem : ∃ m : Nat, m < hist.count q ∧ (occ q hist 0)[m]? = some a := by
          obtain ⟨m, hm⟩ := pyIndex_ok ha
          refine ⟨m, ?_, hm⟩
          have := (List.getElem?_eq_some_iff.1 hm).1
          rwa [occ_length] at this
        obtain ⟨m, hm, hma⟩ := hmem
        obtain ⟨j, e1, e2, -⟩ := occ_get q hist 0 m hm
        rw [e1] at hma
        rw [Option.some.injEq] at hma
        subst hma
        have hj : j < hist.length := (List.getElem?_eq_some_iff.1 e2).1
        rw [hn] at h
        have : ((hist.length : Int) + t).toNat = j := by omega
        refine ⟨by omega, by omega, by rw [this]; exact e2⟩
  · simp [hq] at h

example : (afterCalls [("a", 0), ("b", 1)] ["a", "b", "a"]).measTarget "a" 1 = .ok (-1) := by
  decide +kernel

/-- **C02**, failure side: unknown labels give `KeyError`, indices out of range give `ValueError`,
except for `+len`, which passes the range check of the code and gives `IndexError`. -/
theorem C02_meas_target_errors (inds : Dict String Nat) (calls : List String) (q : String) (i : Int) :
    let n : Int := (recorded inds calls).count q
    let r := (afterCalls inds calls).measTarget q i
    (q ∉ inds.keys → r = .error .keyError) ∧
    (q ∈ inds.keys → i < -n ∨ n < i → r = .error .valueError) ∧
    (q ∈ inds.keys → i = n → r = .error .indexError) ∧
    (q ∈ inds.keys → -n ≤ i → i < n → ∃ t, r = .ok t) := by
  obtain ⟨hn, ho⟩ := afterCalls_tracks inds calls
  generalize recorded inds calls = hist at *
  generalize afterCalls inds calls = s at *
  have hl := occ_length q hist 0
  refine ⟨?_, ?_, ?_, ?_⟩
  · intro h; simp [MeasState.measTarget, ho, h]
  · intro h h'
    have : (i > (hist.count q : Int) ∨ i < -(hist.count q : Int)) := by omega
    simp [MeasState.measTarget, ho, h, hl, this]
  · intro h h'
    have h1 : ¬ (i > (hist.count q : Int) ∨ i < -(hist.count q : Int)) := by omega
    have h2 : ¬ i < 0 := by omega
    have h3 : i.toNat = (occ q hist 0).length := by omega
    simp [MeasState.measTarget, ho, h, hl, h1, pyIndex, h2, h3]
  · intro h h1 h2
    have h0 : ¬ (i > (hist.count q : Int) ∨ i < -(hist.count q : Int)) := by omega
    have : ∃ a, pyIndex (occ q hist 0) i = .ok a := by
      unfold pyIndex
      simp only
      have hj : ¬ (if i < 0 then i + (occ q hist 0).length else i) < 0 := by split <;> omega
      rw [if_neg hj]
      have hlt : (if i < 0 then i + ((occ q hist 0).length : Int) else i).toNat < (occ q hist 0).length := by
        split <;> omega
      rw [List.getElem?_eq_getElem hlt]
      exact ⟨_, rfl⟩
    obtain ⟨a, ha⟩ := this
    simp [MeasState.measTarget, ho, h, hl, h0, ha]

/-- **C02, disagreement**: the message of the `ValueError` promises "q has only n measurements" for an
index that is out of range, yet index `n` itself raises `IndexError`. -/
theorem C02_off_by_one :
    (afterCalls [("a", 0)] ["a"]).measTarget "a" 1 = .error .indexError := by decide +kernel

/-- **C03** (model part): after `new_circuit` the object equals a newly constructed one, whatever
happened before, even if the last call raised. -/
theorem C03_new_circuit_model (inds : Dict String Nat) (s : MeasState) :
    MeasState.newCircuit inds s = (.ok (), MeasState.fresh inds) := rfl

/-- **C03** (model part), observable version: every later call sequence and query agrees with a new
model. -/
theorem C03_new_circuit_model_obs (inds : Dict String Nat) (before later : List String) (q : String)
    (i : Int) :
    ((later.foldl (fun s q => (MeasState.addMeas inds q s).2)
        (MeasState.newCircuit inds (afterCalls inds before)).2).measTarget q i)
      = (afterCalls inds later).measTarget q i := rfl

end SurfaceSim.Props
