/-
Signs of the transversal S gate of rotated codes.
-/
import Verif.Lemmas.RotSTables
import Verif.Lemmas.UnrotSSigned

namespace SurfaceSim
open Spec NoiseModel Blocks LayoutLib LogGates

section
variable {l : Layout} {a : Args} {dx : Int} {P : String → Option String} {G : String → String} {sw : String → String}

theorem RSTable.phase_off (ht : RSTable (rotEntries a dx (dx + 1)) dx P G sw) {e : String} {s : Site}
    (he : (e, s, Kind.data) ∈ rotEntries a dx (dx + 1)) (h : ¬ Gated s) : localPhase G e = 0 := by
  unfold localPhase
  rw [ht.gate e s he]
  rw [← gateSite_gated dx, not_or] at h
  rw [if_neg h.1, if_neg h.2]

theorem RSTable.phase_on (ht : RSTable (rotEntries a dx (dx + 1)) dx P G sw) {e : String} {s : Site}
    (he : (e, s, Kind.data) ∈ rotEntries a dx (dx + 1)) (h : Gated s) :
    localPhase G e = if s.2 = s.1 + 2 ∧ s.1 = 2 * dx - 1 then -1 else 1 := by
  unfold localPhase
  rw [ht.gate e s he]
  unfold gateSite
  unfold Gated at h
  by_cases h1 : s.2 = s.1 + 2
  · by_cases h2 : s.1 = 2 * dx - 1 <;> simp [h1, h2]
  · simp only [h1, false_or, if_false, false_and] at h ⊢
    simp [h]

theorem RSTable.no_pairs (ht : RSTable (rotEntries a dx (dx + 1)) dx P G sw) {S : List String}
    (hSd : ∀ e ∈ S, e ∈ dataOf (rotEntries a dx (dx + 1))) (h : ∀ e ∈ S, sw e ∉ S) : (S.map (pairTerm P S)).sum = 0 := by
  refine (congrArg List.sum (List.map_congr_left (g := fun _ => 0) fun e he => ?_)).trans (by simp)
  unfold pairTerm
  rw [ht.pair e (hSd e he)]
  simp [h e he]

/-- One pair inside `S`. -/
theorem RSTable.one_pair (hg : OnGrid l (rotEntries a dx (dx + 1)) (names rotDirs))
    (ht : RSTable (rotEntries a dx (dx + 1)) dx P G sw) {S : List String} (hS : S.Nodup)
    (hSd : ∀ e ∈ S, e ∈ dataOf (rotEntries a dx (dx + 1))) {d : String} (hd : d ∈ S) (hd' : sw d ∈ S)
    (h : ∀ e ∈ S, sw e ∈ S → e = d ∨ e = sw d) : (S.map (pairTerm P S)).sum = 1 := by
  have hne := ht.ne hg (hSd d hd)
  have hii := (ht.invol hg (hSd d hd)).2
  rw [sum_support4 (T := [d, sw d]) hS]
  · simp only [List.map_cons, List.map_nil, List.sum_cons, List.sum_nil, add_zero]
    unfold pairTerm
    rw [ht.pair d (hSd d hd), ht.pair _ (hSd _ hd')]
    simp only [hii, hd, hd', true_and]
    rcases lt_trichotomy d (sw d) with h1 | h1 | h1
    · rw [if_pos h1, if_neg (lt_asymm h1)]; simp
    · exact absurd h1.symm hne
    · rw [if_neg (lt_asymm h1), if_pos h1]; simp
  · simpa using Ne.symm hne
  · intro q hq
    simp only [List.mem_cons, List.not_mem_nil, or_false] at hq
    rcases hq with rfl | rfl
    · exact hd
    · exact hd'
  · intro q hq hqn
    unfold pairTerm
    rw [ht.pair q (hSd q hq)]
    simp only
    rw [if_neg]
    rintro ⟨h1, -⟩
    rcases h q hq h1 with rfl | rfl <;> simp at hqn

/-- The images of the X stabilizers have sign +, but for the one next to the last S_DAG. -/
theorem RSTable.phase_x (hg : OnGrid l (rotEntries a dx (dx + 1)) (names rotDirs))
    (ht : RSTable (rotEntries a dx (dx + 1)) dx P G sw) {x : String} {r c : Int}
    (hx : (x, (r, c), Kind.x) ∈ rotEntries a dx (dx + 1)) (hd2 : 2 ≤ dx) :
    imagePhase P G (l.getNeighbors [x] none) = if r = 2 * dx - 2 ∧ c = 2 * dx then 2 else 0 := by
  have gx := rotEntry hx
  simp only [RotSite] at gx
  have hNd : ∀ e ∈ l.getNeighbors [x] none, e ∈ dataOf (rotEntries a dx (dx + 1)) := fun e he =>
    nbr_data hg (mem_anc_of_x (mem_xOf.2 ⟨_, hx⟩)) he
  unfold imagePhase
  by_cases hc : c = r + 2
  · subst hc
    obtain ⟨d1, h1⟩ := exists_rotEntry (a := a) (dx := dx) (dz := dx + 1) (r := r + 1) (c := r + 1) (k := .data)
      (by simp only [RotSite]; omega)
    obtain ⟨d2, h2⟩ := exists_rotEntry (a := a) (dx := dx) (dz := dx + 1) (r := r + 1) (c := r + 3) (k := .data)
      (by simp only [RotSite]; omega)
    have hn1 := (rotN hg hx (by simp) h1).2 (by omega)
    have hn2 := (rotN hg hx (by simp) h2).2 (by omega)
    have hsw : sw d1 = d2 := by
      have := ht.swap _ _ h1
      unfold tauSite at this
      rw [if_pos (by simp)] at this
      simp only [add_assoc] at this
      exact (hg.unique' this h2).1
    have hpair : ((l.getNeighbors [x] none).map (pairTerm P (l.getNeighbors [x] none))).sum = 1 := by
      refine ht.one_pair hg (hg.neighbors_nodup x) hNd hn1 (hsw ▸ hn2) fun e he hse => ?_
      obtain ⟨⟨r', c'⟩, he'⟩ := mem_dataOf.1 (hNd e he)
      have m1 := (rotN hg hx (by simp) he').1 he
      have h2' := ht.swap _ _ he'
      have m2 := (rotN (r' := (tauSite (r', c')).1) (c' := (tauSite (r', c')).2) hg hx (by simp) h2').1 hse
      have : (r' = r + 1 ∧ c' = r + 1) ∨ (r' = r + 1 ∧ c' = r + 3) := by
        unfold tauSite at m2
        simp only at m2
        split at m2 <;> simp only at m2 <;> omega
      rcases this with ⟨rfl, rfl⟩ | ⟨rfl, rfl⟩
      · exact Or.inl (hg.unique' he' h1).1
      · exact Or.inr ((hg.unique' he' h2).1.trans hsw.symm)
    rw [hpair]
    have key : ∀ r0 c0 : Int, RotSite dx (dx + 1) r0 c0 .data → (r0 = r + 1 ∨ r0 = r - 1) → c0 = r + 1 →
        (c0 = r0 + 2 ∨ r0 = 1 ∧ c0 = 1) → r0 ≠ 2 * dx - 1 →
        (∀ r' c', RotSite dx (dx + 1) r' c' .data → (r' = r + 1 ∨ r' = r - 1) → (c' = r + 3 ∨ c' = r + 1) →
          (c' = r' + 2 ∨ r' = 1 ∧ c' = 1) → r' = r0 ∧ c' = c0 ∨ r' = r + 1 ∧ c' = r + 3) →
        ((l.getNeighbors [x] none).map (localPhase G)).sum + 2 * 1 = if r = 2 * dx - 2 ∧ r + 2 = 2 * dx then 2 else 0 := by
      intro r0 c0 g0 m1 m2 hgt hlast hall
      obtain ⟨q0, h0⟩ := exists_rotEntry (a := a) g0
      rw [sum_support4 (T := [q0, d2]) (hg.neighbors_nodup x)]
      · simp only [List.map_cons, List.map_nil, List.sum_cons, List.sum_nil, add_zero]
        rw [ht.phase_on h0 hgt, ht.phase_on h2 (Or.inl (by simp only; omega))]
        simp only
        rw [if_neg (by omega)]
        by_cases hl : r = 2 * dx - 2
        · rw [if_pos (by omega), if_pos (by omega)]; simp
        · rw [if_neg (by omega), if_neg (by omega)]; decide
      · simp only [List.nodup_cons, List.mem_singleton, List.not_mem_nil, not_false_eq_true, List.nodup_nil, and_true]
        rintro rfl
        have := (hg.unique h0 h2).1
        simp only [Prod.mk.injEq] at this
        omega
      · intro q hq
        simp only [List.mem_cons, List.not_mem_nil, or_false] at hq
        rcases hq with rfl | rfl
        · exact (rotN hg hx (by simp) h0).2 (by omega)
        · exact hn2
      · intro q hq hqn
        obtain ⟨⟨r', c'⟩, hq'⟩ := mem_dataOf.1 (hNd q hq)
        refine ht.phase_off hq' fun hf => hqn ?_
        have m := (rotN hg hx (by simp) hq').1 hq
        rcases hall r' c' (rotEntry hq') (by omega) (by omega) hf with ⟨rfl, rfl⟩ | ⟨rfl, rfl⟩
        · rw [(hg.unique' hq' h0).1]; simp
        · rw [(hg.unique' hq' h2).1]; simp
    simp only [RotSite] at key
    by_cases hr : r = 0
    · exact key (r + 1) (r + 1) (by omega) (by omega) rfl (by omega) (by omega) (by omega)
    · exact key (r - 1) (r + 1) (by omega) (by omega) rfl (by omega) (by omega) (by omega)
  · rw [if_neg (by omega), ht.no_pairs hNd, mul_zero, add_zero]
    · refine (congrArg List.sum (List.map_congr_left (g := fun _ => 0) fun q hq => ?_)).trans (by simp)
      obtain ⟨⟨r', c'⟩, hq'⟩ := mem_dataOf.1 (hNd q hq)
      have m := (rotN hg hx (by simp) hq').1 hq
      refine ht.phase_off hq' ?_
      simp only [Gated]
      omega
    · intro e he hse
      obtain ⟨⟨r', c'⟩, he'⟩ := mem_dataOf.1 (hNd e he)
      have g := rotEntry he'
      simp only [RotSite] at g
      have m1 := (rotN hg hx (by simp) he').1 he
      have h2' := ht.swap _ _ he'
      have m2 := (rotN (r' := (tauSite (r', c')).1) (c' := (tauSite (r', c')).2) hg hx (by simp) h2').1 hse
      unfold tauSite at m2
      simp only at m2
      split at m2 <;> simp only at m2 <;> omega

/-- The logical X is multiplied with `i` times the logical Z. -/
theorem RSTable.phase_logical (hu : IsRot a dx (dx + 1) l) (ht : RSTable (rotEntries a dx (dx + 1)) dx P G sw) (hd2 : 2 ≤ dx) :
    imagePhase P G (logXList a dx (dx + 1)) = 1 := by
  have hg := hu.grid
  have hXd : ∀ e ∈ logXList a dx (dx + 1), e ∈ dataOf (rotEntries a dx (dx + 1)) := fun e he =>
    mem_dataOf.2 (rot_logX_data (by omega) he)
  unfold imagePhase
  rw [ht.no_pairs hXd, mul_zero, add_zero]
  · obtain ⟨q0, h0⟩ := exists_rotEntry (a := a) (dx := dx) (dz := dx + 1) (r := 1) (c := 1) (k := .data)
      (by simp only [RotSite]; omega)
    rw [sum_support4 (T := [q0]) (logXList_nodup a dx (by omega)) (by simp)]
    · simp only [List.map_cons, List.map_nil, List.sum_cons, List.sum_nil, add_zero]
      rw [ht.phase_on h0 (Or.inr (by simp))]
      rw [if_neg (by simp)]
    · simp only [List.mem_singleton, forall_eq]
      exact (rot_mem_logX h0).2 rfl
    · intro q hq hqn
      obtain ⟨⟨r', c'⟩, hq'⟩ := mem_dataOf.1 (hXd q hq)
      have hc := (rot_mem_logX hq').1 hq
      subst hc
      have g := rotEntry hq'
      simp only [RotSite] at g
      refine ht.phase_off hq' fun hf => hqn ?_
      unfold Gated at hf
      simp only at hf
      have : r' = 1 := by omega
      subst this
      rw [(hg.unique' hq' h0).1]; simp
  · intro e he hse
    obtain ⟨⟨r', c'⟩, he'⟩ := mem_dataOf.1 (hXd e he)
    have h1 := (rot_mem_logX he').1 he
    have g := rotEntry he'
    simp only [RotSite] at g
    have h2' := ht.swap _ _ he'
    have h2 := (rot_mem_logX (r := (tauSite (r', c')).1) (c := (tauSite (r', c')).2) h2').1 hse
    unfold tauSite at h2
    simp only at h2
    split at h2 <;> simp only at h2 <;> omega

end

end SurfaceSim
