/-
The loops that compute the tables of the transversal S gate of rotated codes.
-/
import Verif.Lemmas.SGate

namespace SurfaceSim
open Spec NoiseModel Blocks LayoutLib LogGates

/-- The labels `g i j` found after `i` vertical and `j` horizontal jumps. -/
structure Walk (lab : Vec → Option String) (jh jv : Vec) (tp : Nat → Vec) (g : Nat → Nat → Option String) : Prop where
  next : ∀ m, tp m + (jv + jh) = tp (m + 1)
  left : ∀ m k : Nat, lab (tp m + (k : Rat) • jv) = g (m + k) m
  right : ∀ m k : Nat, lab (tp m + ((k + 1 : Nat) : Rat) • jh) = g m (m + k + 1)
  top : ∀ m, lab (tp m) = g m m

/-- The partner of a position. -/
def tau (i j : Nat) : Nat × Nat := if j ≤ i then (j, i + 1) else (j - 1, i)

section
variable {lab : Vec → Option String} {jh jv : Vec} {tp : Nat → Vec} {g : Nat → Nat → Option String}

/-- Only visited qubits get a partner. -/
theorem czSteps_keys (W : Walk lab jh jv tp g) (n : Nat) {m k : Nat} {cz r : Dict (Option String) (Option String)}
    (h : czSteps lab jh jv n (tp m) k cz = .ok r) (q : String) (hq : r.get? (some q) ≠ none) :
    cz.get? (some q) ≠ none ∨ ∃ i j, g i j = some q := by
  induction n generalizing m k cz with
  | zero => simp [czSteps] at h
  | succ n ih =>
    unfold czSteps at h
    rw [W.top, W.left, W.right, W.next] at h
    cases ht : g m m with
    | none =>
      simp only [ht, Except.ok.injEq] at h
      subst h
      exact Or.inl hq
    | some t =>
      simp only [ht] at h
      cases h1 : g (m + k) m with
      | none =>
        simp only [h1] at h
        exact ih h
      | some q1 =>
        simp only [h1] at h
        rcases ih h with h2 | h2
        · rw [Dict.get?_set] at h2
          split at h2
          · rename_i he
            exact Or.inr ⟨_, _, by rw [h1, he]⟩
          · rw [Dict.get?_set] at h2
            split at h2
            · rename_i he
              exact Or.inr ⟨_, _, he⟩
            · exact Or.inl h2
        · exact Or.inr h2

/-- Whether the partner of a position is set before the step `(m, k)`. -/
def Done (m k i j : Nat) : Prop := if j ≤ i then j < m ∨ j = m ∧ i < m + k else i < m ∨ i = m ∧ j < m + k + 1

theorem czSteps_ok (W : Walk lab jh jv tp g) {A B : Nat} (hrect : ∀ i j, (∃ q, g i j = some q) ↔ i < A ∧ j < B)
    (hinj : ∀ i j i' j' q, g i j = some q → g i' j' = some q → i = i' ∧ j = j') (hAB : B ≤ A + 1) (n : Nat) {m k : Nat}
    {cz r : Dict (Option String) (Option String)} (h : czSteps lab jh jv n (tp m) k cz = .ok r)
    (hd : ∀ i j q, g i j = some q → Done m k i j → cz.get? (some q) = some (g (tau i j).1 (tau i j).2)) :
    ∀ i j q, g i j = some q → r.get? (some q) = some (g (tau i j).1 (tau i j).2) := by
  induction n generalizing m k cz with
  | zero => simp [czSteps] at h
  | succ n ih =>
    unfold czSteps at h
    rw [W.top, W.left, W.right, W.next] at h
    cases ht : g m m with
    | none =>
      simp only [ht, Except.ok.injEq] at h
      subst h
      intro i j q hq
      refine hd i j q hq ?_
      have hm : ¬ (m < A ∧ m < B) := fun hc => by
        obtain ⟨q, hq⟩ := (hrect m m).2 hc
        rw [ht] at hq
        cases hq
      have hij := (hrect i j).1 ⟨q, hq⟩
      unfold Done
      split <;> omega
    | some t =>
      simp only [ht] at h
      cases h1 : g (m + k) m with
      | none =>
        simp only [h1] at h
        refine ih h fun i j q hq hD => hd i j q hq ?_
        have hm : ¬ (m + k < A ∧ m < B) := fun hc => by
          obtain ⟨q, hq⟩ := (hrect (m + k) m).2 hc
          rw [h1] at hq
          cases hq
        have hmm := (hrect m m).1 ⟨_, ht⟩
        have hij := (hrect i j).1 ⟨q, hq⟩
        unfold Done at hD ⊢
        split at hD <;> rename_i hji
        · rw [if_pos hji]; omega
        · rw [if_neg hji]; omega
      | some q1 =>
        simp only [h1] at h
        refine ih h fun i j q hq hD => ?_
        rw [Dict.get?_set]
        split
        · rename_i he
          obtain ⟨rfl, rfl⟩ := hinj _ _ _ _ _ h1 (hq.trans he.symm)
          simp [tau]
        · rename_i hne
          rw [Dict.get?_set]
          split
          · rename_i he
            obtain ⟨rfl, rfl⟩ := hinj _ _ _ _ _ he hq
            simp only [tau]
            rw [if_neg (by omega)]
            simp only [Nat.add_sub_cancel]
            rw [h1]
          · rename_i hne'
            refine hd i j q hq ?_
            unfold Done at hD ⊢
            split at hD <;> rename_i hji
            · rw [if_pos hji]
              rcases hD with hD | ⟨rfl, hD⟩
              · exact Or.inl hD
              · refine Or.inr ⟨rfl, ?_⟩
                by_contra hc
                have : i = j + k := by omega
                subst this
                exact hne (h1.symm.trans hq)
            · rw [if_neg hji]
              rcases hD with hD | ⟨rfl, hD⟩
              · exact Or.inl hD
              · refine Or.inr ⟨rfl, ?_⟩
                by_contra hc
                have : j = i + k + 1 := by omega
                subst this
                exact hne' hq

theorem czSteps_exists (W : Walk lab jh jv tp g) {A B : Nat} (hrect : ∀ i j, (∃ q, g i j = some q) ↔ i < A ∧ j < B) (n : Nat)
    {m k : Nat} (hm : m ≤ A) (hk : k ≤ A) (hn : (A - m) * (A + 2) + 1 ≤ n + k) (cz : Dict (Option String) (Option String))
    (h0 : m = A → 1 ≤ n) : ∃ r, czSteps lab jh jv n (tp m) k cz = .ok r := by
  induction n generalizing m k cz with
  | zero =>
    exfalso
    by_cases hA : m = A
    · have := h0 hA; omega
    · have : A + 2 ≤ (A - m) * (A + 2) := Nat.le_mul_of_pos_left _ (by omega)
      omega
  | succ n ih =>
    unfold czSteps
    rw [W.top, W.left, W.right, W.next]
    cases ht : g m m with
    | none => exact ⟨cz, rfl⟩
    | some t =>
      have hmA := (hrect m m).1 ⟨_, ht⟩
      have hmul : (A - m) * (A + 2) = (A - (m + 1)) * (A + 2) + (A + 2) := by
        rw [show A - m = (A - (m + 1)) + 1 by omega, Nat.add_mul, Nat.one_mul]
      cases h1 : g (m + k) m with
      | none =>
        simp only [h1]
        exact ih (by omega) (by omega) (by omega) cz (by omega)
      | some q1 =>
        have := (hrect (m + k) m).1 ⟨_, h1⟩
        simp only [h1]
        exact ih hm (by omega) (by omega) _ (by omega)

open Classical in
theorem sSteps_ok {step : Vec} {tp : Nat → Vec} {f : Nat → Option String} (hstep : ∀ m, tp m + step = tp (m + 1))
    (hf : ∀ m, lab (tp m) = f m) {M : Nat} (hM : ∀ m, (∃ q, f m = some q) ↔ m < M)
    (hinj : ∀ i j q, f i = some q → f j = some q → i = j) (n : Nat) {m : Nat} (hm : m ≤ M) {s s' : Dict (Option String) String}
    {c : Vec} (h : sSteps lab step n (tp m) s = .ok (s', c)) :
    c = tp M ∧ ∀ q, s'.get? (some q) = if ∃ i, m ≤ i ∧ f i = some q then some "S" else s.get? (some q) := by
  induction n generalizing m s with
  | zero => simp [sSteps] at h
  | succ n ih =>
    unfold sSteps at h
    rw [hf, hstep] at h
    cases ht : f m with
    | none =>
      simp only [ht, Except.ok.injEq, Prod.mk.injEq] at h
      obtain ⟨rfl, rfl⟩ := h
      have hmM : M ≤ m := by
        by_contra hc
        obtain ⟨q, hq⟩ := (hM m).2 (by omega)
        rw [ht] at hq
        cases hq
      have : m = M := by omega
      subst this
      refine ⟨rfl, fun q => ?_⟩
      rw [if_neg]
      rintro ⟨i, hi, hq⟩
      have := (hM i).1 ⟨q, hq⟩
      omega
    | some q0 =>
      simp only [ht] at h
      have hlt := (hM m).1 ⟨_, ht⟩
      obtain ⟨h1, h2⟩ := ih (by omega) h
      refine ⟨h1, fun q => ?_⟩
      rw [h2, Dict.get?_set]
      by_cases hq : q = q0
      · subst hq
        rw [if_pos (⟨m, le_refl m, ht⟩ : ∃ i, m ≤ i ∧ f i = some q), if_pos rfl]
        split <;> rfl
      · rw [if_neg (fun hc => hq (Option.some.inj hc).symm : ¬ some q0 = some q)]
        congr 1
        rw [eq_iff_iff]
        constructor
        · rintro ⟨i, hi, h⟩; exact ⟨i, by omega, h⟩
        · rintro ⟨i, hi, h'⟩
          refine ⟨i, ?_, h'⟩
          by_contra hc
          have : i = m := by omega
          subst this
          rw [ht] at h'
          exact hq (Option.some.inj h').symm

theorem sSteps_exists {step : Vec} {tp : Nat → Vec} {f : Nat → Option String} (hstep : ∀ m, tp m + step = tp (m + 1))
    (hf : ∀ m, lab (tp m) = f m) {M : Nat} (hM : ∀ m, (∃ q, f m = some q) ↔ m < M) (n : Nat) {m : Nat} (hm : m ≤ M)
    (hn : M - m + 1 ≤ n) (s : Dict (Option String) String) : ∃ r, sSteps lab step n (tp m) s = .ok r := by
  induction n generalizing m s with
  | zero => omega
  | succ n ih =>
    unfold sSteps
    rw [hf, hstep]
    cases ht : f m with
    | none => exact ⟨_, rfl⟩
    | some q0 =>
      have hlt := (hM m).1 ⟨_, ht⟩
      exact ih (by omega) (by omega) _

/-- The gates: `S` at the corner, `S_DAG` at the last position next to the diagonal, `S` at the other ones. -/
def rotGate (M i j : Nat) : String :=
  if j = i + 1 then (if i + 1 = M then "S_DAG" else "S") else if i = 0 ∧ j = 0 then "S" else "I"

theorem foldl_setI (data : List String) (acc : Dict (Option String) String) (q : String) :
    (data.foldl (fun acc d => Dict.set acc (some d) "I") acc).get? (some q) =
      if q ∈ data then some "I" else acc.get? (some q) := by
  induction data generalizing acc with
  | nil => simp
  | cons d data ih =>
    rw [List.foldl_cons, ih, Dict.get?_set]
    by_cases hq : q ∈ data
    · simp [hq]
    · by_cases hd : d = q
      · subst hd; simp
      · simp [hq, hd, Ne.symm hd]

theorem rotSGates_ok {l : Layout} {data : List String} {q : String} {p : Vec} (W : Walk lab jh jv tp g) {A B : Nat}
    (hrect : ∀ i j, (∃ q, g i j = some q) ↔ i < A ∧ j < B)
    (hinj : ∀ i j i' j' q, g i j = some q → g i' j' = some q → i = i' ∧ j = j') (hAB : B ≤ A + 1) (hB : 2 ≤ B)
    (hp : p = tp 0) (h0 : g 0 0 = some q) {s : Dict (Option String) String}
    (h : rotSGates l lab data q p jh jv = .ok s) :
    ∀ i j d, g i j = some d → d ∈ data → s.get? (some d) = some (rotGate (B - 1) i j) := by
  subst hp
  unfold rotSGates at h
  have hstep : ∀ m, (tp m + jh) + (jh + jv) = tp (m + 1) + jh := by
    intro m
    rw [← W.next m]
    abel
  have hf : ∀ m, lab (tp m + jh) = g m (m + 1) := by
    intro m
    have := W.right m 0
    simpa using this
  have hM : ∀ m, (∃ q, g m (m + 1) = some q) ↔ m < B - 1 := by
    intro m
    rw [hrect]
    omega
  cases hs : sSteps lab (jh + jv) (fuel l) (tp 0 + jh)
      ((data.foldl (fun acc d => Dict.set acc (some d) "I") ([] : Dict (Option String) String)).set (some q) "S") with
  | error e => simp [hs] at h
  | ok r =>
    obtain ⟨s', c⟩ := r
    simp only [hs, Except.ok.injEq] at h
    obtain ⟨h1, h2⟩ := sSteps_ok (tp := fun m => tp m + jh) (f := fun m => g m (m + 1)) hstep hf hM
      (fun i j q hi hj => (hinj _ _ _ _ _ hi hj).1) _ (Nat.zero_le _) hs
    have h3 : lab (c - jh - jv) = g (B - 2) (B - 1) := by
      rw [h1]
      have e := hf (B - 2)
      rw [show B - 2 + 1 = B - 1 by omega] at e
      rw [← e]
      congr 1
      have e2 := W.next (B - 2)
      rw [show B - 2 + 1 = B - 1 by omega] at e2
      simp only [← e2]
      abel
    obtain ⟨last, hlast⟩ := (hrect (B - 2) (B - 1)).2 (by omega)
    rw [h3, hlast] at h
    subst h
    intro i j d hd hdd
    rw [Dict.get?_set]
    unfold rotGate
    split
    · rename_i he
      rw [Option.some.injEq] at he
      subst he
      obtain ⟨rfl, rfl⟩ := hinj _ _ _ _ _ hlast hd
      rw [if_pos (by omega), if_pos (by omega)]
    · rename_i hne
      rw [h2, Dict.get?_set, foldl_setI, if_pos hdd]
      by_cases hj : j = i + 1
      · subst hj
        rw [if_pos ⟨i, Nat.zero_le _, hd⟩, if_pos rfl, if_neg]
        intro hc
        refine hne ?_
        rw [← hlast, ← hd, show B - 2 = i by omega, show B - 1 = i + 1 by omega]
      · rw [if_neg, if_neg hj]
        · by_cases h00 : i = 0 ∧ j = 0
          · obtain ⟨rfl, rfl⟩ := h00
            rw [h0] at hd
            simp [Option.some.inj hd]
          · rw [if_neg h00, if_neg]
            intro hc
            rw [Option.some.injEq] at hc
            subst hc
            have := hinj _ _ _ _ _ h0 hd
            omega
        · rintro ⟨i', -, hi'⟩
          have := hinj _ _ _ _ _ hi' hd
          omega

theorem rotSGates_exists {l : Layout} {data : List String} {q : String} {p : Vec} (W : Walk lab jh jv tp g) {A B : Nat}
    (hrect : ∀ i j, (∃ q, g i j = some q) ↔ i < A ∧ j < B) (hAB : B ≤ A + 1) (hB : 2 ≤ B) (hp : p = tp 0)
    (hf : B ≤ fuel l) : ∃ s, rotSGates l lab data q p jh jv = .ok s := by
  subst hp
  unfold rotSGates
  have hstep : ∀ m, (tp m + jh) + (jh + jv) = tp (m + 1) + jh := by
    intro m
    rw [← W.next m]
    abel
  have hf' : ∀ m, lab (tp m + jh) = g m (m + 1) := by
    intro m
    have := W.right m 0
    simpa using this
  have hM : ∀ m, (∃ q, g m (m + 1) = some q) ↔ m < B - 1 := by
    intro m
    rw [hrect]
    omega
  obtain ⟨⟨s, c⟩, hs⟩ := sSteps_exists (tp := fun m => tp m + jh) (f := fun m => g m (m + 1)) (m := 0) hstep hf' hM (fuel l)
    (Nat.zero_le _) (by omega) ((data.foldl (fun acc d => Dict.set acc (some d) "I") ([] : Dict (Option String) String)).set (some q) "S")
  simp only [hs]
  exact ⟨_, rfl⟩

end

end SurfaceSim
