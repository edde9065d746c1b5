/-
Signs of the images under the transversal S gate of unrotated codes.
-/
import Verif.Lemmas.SSigned
import Verif.Lemmas.UnrotS

namespace SurfaceSim
open Spec NoiseModel Blocks LayoutLib LogGates

theorem sum_support4 {S T : List String} (hS : S.Nodup) (hT : T.Nodup) (hTS : ∀ q ∈ T, q ∈ S) (f : String → ZMod 4)
    (h : ∀ q ∈ S, q ∉ T → f q = 0) : (S.map f).sum = (T.map f).sum := by
  rw [← sum_sub4 hT hS hTS]
  congr 1
  refine List.map_congr_left fun q hq => ?_
  by_cases hqT : q ∈ T
  · rw [if_pos hqT]
  · rw [if_neg hqT, h q hq hqT]

section
variable {l : Layout} {a : Args} {d : Int} {p : Site} {e1 e2 : Int} {P : String → Option String}
  {G : String → String} {sw : String → String}

theorem USTable.no_pairs (hg : OnGrid l (unrotEntries a d d) (names unrotDirs))
    (ht : USTable (unrotEntries a d d) p e1 e2 P G sw) {S : List String} (hSd : ∀ e ∈ S, e ∈ dataOf (unrotEntries a d d))
    (h : ∀ e ∈ S, sw e ∈ S → sw e = e) :
    (S.map (pairTerm P S)).sum = 0 := by
  refine (congrArg List.sum (List.map_congr_left (g := fun _ => 0) fun e he => ?_)).trans (by simp)
  unfold pairTerm
  rcases ht.gate hg (hSd e he) with ⟨-, h2, -⟩ | ⟨h1, h2, -⟩
  · rw [h2]
  · rw [h2]
    exact if_neg fun hc => h1 (h e he hc.1)

theorem USTable.phase_off (ht : USTable (unrotEntries a d d) p e1 e2 P G sw) {e : String} {s : Site}
    (he : (e, s, Kind.data) ∈ unrotEntries a d d) (h : refl p (e1 * e2) s ≠ s) : localPhase G e = 0 := by
  unfold localPhase
  rw [ht.off e s he h]
  simp

theorem USTable.phase_on (ht : USTable (unrotEntries a d d) p e1 e2 P G sw) {e : String} {s : Site}
    (he : (e, s, Kind.data) ∈ unrotEntries a d d) (h : refl p (e1 * e2) s = s) :
    localPhase G e = if (s.1 - p.1) % 2 = 0 then 1 else -1 := by
  unfold localPhase
  rw [ht.on e s he h]
  split <;> simp

/-- The images of the X stabilizers have sign +. -/
theorem USTable.phase_x (hg : OnGrid l (unrotEntries a d d) (names unrotDirs))
    (ht : USTable (unrotEntries a d d) p e1 e2 P G sw)
    (hc1 : p.1 = 0 ∧ e1 = 1 ∨ p.1 = 2 * d - 2 ∧ e1 = -1) (hc2 : p.2 = 0 ∧ e2 = 1 ∨ p.2 = 2 * d - 2 ∧ e2 = -1)
    {x : String} (hx : x ∈ xOf (unrotEntries a d d)) : imagePhase P G (l.getNeighbors [x] none) = 0 := by
  obtain ⟨⟨r, c⟩, hx⟩ := mem_xOf.1 hx
  obtain ⟨p1, p2⟩ := p
  have gx := unrotEntry hx
  simp only [UnrotSite] at gx hc1 hc2
  have hNd : ∀ e ∈ l.getNeighbors [x] none, e ∈ dataOf (unrotEntries a d d) := fun e he =>
    nbr_data hg (mem_anc_of_x (mem_xOf.2 ⟨_, hx⟩)) he
  have hε : e1 * e2 = 1 ∧ p1 = p2 ∨ e1 * e2 = -1 ∧ p1 + p2 = 2 * d - 2 := by
    rcases hc1 with ⟨h1, rfl⟩ | ⟨h1, rfl⟩ <;> rcases hc2 with ⟨h2, rfl⟩ | ⟨h2, rfl⟩ <;> simp <;> omega
  have hp : p1 % 2 = 0 := by omega
  unfold imagePhase
  rw [ht.no_pairs hg hNd, mul_zero, add_zero]
  · -- local gates
    have key : ∀ s1 s2 : Site, UnrotSite d d s1.1 s1.2 .data → UnrotSite d d s2.1 s2.2 .data → s1.1 % 2 = 0 → s2.1 % 2 = 1 →
        refl (p1, p2) (e1 * e2) s1 = s1 → refl (p1, p2) (e1 * e2) s2 = s2 →
        (∀ s : Site, UnrotSite d d s.1 s.2 .data → (s.1 = r ∧ (s.2 = c + 1 ∨ s.2 = c - 1)) ∨ ((s.1 = r + 1 ∨ s.1 = r - 1) ∧ s.2 = c) →
          refl (p1, p2) (e1 * e2) s = s → s = s1 ∨ s = s2) →
        ((s1.1 = r ∧ (s1.2 = c + 1 ∨ s1.2 = c - 1)) ∨ ((s1.1 = r + 1 ∨ s1.1 = r - 1) ∧ s1.2 = c)) →
        ((s2.1 = r ∧ (s2.2 = c + 1 ∨ s2.2 = c - 1)) ∨ ((s2.1 = r + 1 ∨ s2.1 = r - 1) ∧ s2.2 = c)) →
        ((l.getNeighbors [x] none).map (localPhase G)).sum = 0 := by
      intro s1 s2 g1 g2 m1 m2 f1 f2 hall n1 n2
      obtain ⟨q1, h1⟩ := exists_unrotEntry (a := a) g1
      obtain ⟨q2, h2⟩ := exists_unrotEntry (a := a) g2
      rw [sum_support4 (T := [q1, q2]) (hg.neighbors_nodup x)]
      · simp only [List.map_cons, List.map_nil, List.sum_cons, List.sum_nil, add_zero, ht.phase_on h1 f1, ht.phase_on h2 f2]
        rw [if_pos (by omega), if_neg (by omega)]
        simp
      · simp only [List.nodup_cons, List.mem_singleton, List.not_mem_nil, not_false_eq_true, List.nodup_nil, and_true]
        rintro rfl
        have := (hg.unique h1 h2).1
        simp only [Prod.mk.injEq] at this
        omega
      · intro q hq
        simp only [List.mem_cons, List.not_mem_nil, or_false] at hq
        rcases hq with rfl | rfl
        · exact (unrotN hg hx (by simp) h1).2 n1
        · exact (unrotN hg hx (by simp) h2).2 n2
      · intro q hq hqn
        obtain ⟨⟨r', c'⟩, hq'⟩ := mem_dataOf.1 (hNd q hq)
        refine ht.phase_off hq' fun hf => hqn ?_
        rcases hall (r', c') (unrotEntry hq') ((unrotN hg hx (by simp) hq').1 hq) hf with h | h
        · rw [h] at hq'
          rw [(hg.unique' hq' h1).1]; simp
        · rw [h] at hq'
          rw [(hg.unique' hq' h2).1]; simp
    simp only [refl, UnrotSite, Prod.forall, Prod.mk.injEq] at key
    rcases hε with ⟨hε, hpp⟩ | ⟨hε, hpp⟩ <;> simp only [hε] at key
    · by_cases h1 : c = r + 1
      · exact key r r (r + 1) (r + 1) (by omega) (by omega) (by omega) (by omega) (by omega) (by omega) (by omega) (by omega) (by omega)
      · by_cases h2 : c = r - 1
        · exact key r r (r - 1) (r - 1) (by omega) (by omega) (by omega) (by omega) (by omega) (by omega) (by omega) (by omega) (by omega)
        · refine (congrArg List.sum (List.map_congr_left (g := fun _ => 0) fun q hq => ?_)).trans (by simp)
          obtain ⟨⟨r', c'⟩, hq'⟩ := mem_dataOf.1 (hNd q hq)
          have := (unrotN hg hx (by simp) hq').1 hq
          refine ht.phase_off hq' ?_
          simp only [refl, hε, ne_eq, Prod.mk.injEq]
          omega
    · by_cases h1 : r + c = 2 * d - 1
      · exact key r (c - 1) (r - 1) c (by omega) (by omega) (by omega) (by omega) (by omega) (by omega) (by omega) (by omega) (by omega)
      · by_cases h2 : r + c = 2 * d - 3
        · exact key r (c + 1) (r + 1) c (by omega) (by omega) (by omega) (by omega) (by omega) (by omega) (by omega) (by omega) (by omega)
        · refine (congrArg List.sum (List.map_congr_left (g := fun _ => 0) fun q hq => ?_)).trans (by simp)
          obtain ⟨⟨r', c'⟩, hq'⟩ := mem_dataOf.1 (hNd q hq)
          have := (unrotN hg hx (by simp) hq').1 hq
          refine ht.phase_off hq' ?_
          simp only [refl, hε, ne_eq, Prod.mk.injEq]
          omega
  · -- no pairs
    intro e he hse
    obtain ⟨⟨r', c'⟩, he'⟩ := mem_dataOf.1 (hNd e he)
    have h1 := (unrotN hg hx (by simp) he').1 he
    have h2' := ht.swap _ _ he'
    have h2 := (unrotN hg hx (by simp) h2').1 hse
    refine (ht.fixed hg he').2 ?_
    simp only [refl, Prod.mk.injEq]
    rcases hε with ⟨hε, hpp⟩ | ⟨hε, hpp⟩ <;> simp only [hε] at h2 ⊢ <;> omega

/-- The logical X is multiplied with `i` times the logical Z. -/
theorem USTable.phase_logical (hu : IsUnrot a d d l) (ht : USTable (unrotEntries a d d) p e1 e2 P G sw) (hd1 : 1 ≤ d)
    (hc1 : p.1 = 0 ∧ e1 = 1 ∨ p.1 = 2 * d - 2 ∧ e1 = -1) (hc2 : p.2 = 0 ∧ e2 = 1 ∨ p.2 = 2 * d - 2 ∧ e2 = -1) :
    imagePhase P G (logXList a d (2 * d - 1)) = 1 := by
  have hg := hu.grid
  obtain ⟨p1, p2⟩ := p
  simp only at hc1 hc2
  have hXd : ∀ e ∈ logXList a d (2 * d - 1), e ∈ dataOf (unrotEntries a d d) := fun e he =>
    mem_dataOf.2 (unrot_logX_data hd1 he)
  have hε : e1 * e2 = 1 ∧ p1 = p2 ∨ e1 * e2 = -1 ∧ p1 + p2 = 2 * d - 2 := by
    rcases hc1 with ⟨h1, rfl⟩ | ⟨h1, rfl⟩ <;> rcases hc2 with ⟨h2, rfl⟩ | ⟨h2, rfl⟩ <;> simp <;> omega
  have hp : p1 % 2 = 0 := by omega
  unfold imagePhase
  rw [ht.no_pairs hg hXd, mul_zero, add_zero]
  · have key : ∀ r0 : Int, UnrotSite d d r0 0 .data → refl (p1, p2) (e1 * e2) (r0, 0) = (r0, 0) → r0 % 2 = 0 →
        (∀ r, refl (p1, p2) (e1 * e2) (r, 0) = (r, 0) → r = r0) →
        ((logXList a d (2 * d - 1)).map (localPhase G)).sum = 1 := by
      intro r0 g0 f0 m0 hall
      obtain ⟨q0, h0⟩ := exists_unrotEntry (a := a) g0
      rw [sum_support4 (T := [q0]) (logXList_nodup a d (by omega)) (by simp)]
      · simp only [List.map_cons, List.map_nil, List.sum_cons, List.sum_nil, add_zero, ht.phase_on h0 f0]
        rw [if_pos (by omega)]
      · simp only [List.mem_singleton, forall_eq]
        exact (unrot_mem_logX h0).2 rfl
      · intro q hq hqn
        obtain ⟨⟨r', c'⟩, hq'⟩ := mem_dataOf.1 (hXd q hq)
        have hc := (unrot_mem_logX hq').1 hq
        subst hc
        refine ht.phase_off hq' fun hf => hqn ?_
        rw [hall r' hf] at hq'
        rw [(hg.unique' hq' h0).1]; simp
    simp only [refl, UnrotSite, Prod.mk.injEq] at key
    rcases hε with ⟨hε, hpp⟩ | ⟨hε, hpp⟩ <;> simp only [hε] at key
    · exact key 0 (by omega) (by omega) (by omega) (by omega)
    · exact key (2 * d - 2) (by omega) (by omega) (by omega) (by omega)
  · intro e he hse
    obtain ⟨⟨r', c'⟩, he'⟩ := mem_dataOf.1 (hXd e he)
    have h1 := (unrot_mem_logX he').1 he
    have h2' := ht.swap _ _ he'
    have h2 := (unrot_mem_logX h2').1 hse
    refine (ht.fixed hg he').2 ?_
    simp only [refl, Prod.mk.injEq]
    rcases hε with ⟨hε, hpp⟩ | ⟨hε, hpp⟩ <;> simp only [hε] at h2 ⊢ <;> omega

end

end SurfaceSim
