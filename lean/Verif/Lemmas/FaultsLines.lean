/-
Lines of data qubits that are equivalent to a logical operator.
-/
import Verif.Lemmas.FaultsGrid

namespace SurfaceSim
open Spec NoiseModel Blocks LayoutLib

variable {l : Layout} {L : List (String × Site × Kind)} {dirs : List (Site × String)}

theorem sum_filter_mul (D : List String) (p : String → Bool) (v : String → ZMod 2) :
    ((D.filter p).map v).sum = (D.map fun d => (if p d then 1 else 0) * v d).sum := by
  induction D with
  | nil => rfl
  | cons d D ih => cases h : p d <;> simp [List.filter_cons, h, ih]

/-- A sum over a sublist. -/
theorem sum_sublist {D S : List String} (hD : D.Nodup) (hS : S.Nodup) (hs : ∀ d ∈ S, d ∈ D) (v : String → ZMod 2) :
    (S.map v).sum = (D.map fun d => (if d ∈ S then 1 else 0) * v d).sum := by
  rw [sum_perm_of_mem hS (hD.filter fun d => decide (d ∈ S)) (fun q => ?_) v, sum_filter_mul]
  · simp
  · simp only [List.mem_filter, decide_eq_true_eq]
    exact ⟨fun h => ⟨hs q h, h⟩, fun h => h.2⟩

theorem sum_map_add_zmod (D : List String) (f g : String → ZMod 2) :
    (D.map fun d => f d + g d).sum = (D.map f).sum + (D.map g).sum := by
  induction D with
  | nil => simp
  | cons d D ih => simp only [List.map_cons, List.sum_cons, ih]; ring

/-- The sums over the supports of several stabilizers. -/
theorem sum_supports {D B : List String} (hD : D.Nodup) {N : String → List String} (hn : ∀ a ∈ B, (N a).Nodup)
    (hs : ∀ a ∈ B, ∀ d ∈ N a, d ∈ D) (v : String → ZMod 2) :
    (B.map fun a => ((N a).map v).sum).sum = (D.map fun d => (B.countP (fun a => decide (d ∈ N a)) : ZMod 2) * v d).sum := by
  induction B with
  | nil => simp
  | cons a B ih =>
    rw [List.map_cons, List.sum_cons, ih (fun a ha => hn a (by simp [ha])) (fun a ha => hs a (by simp [ha])),
      sum_sublist hD (hn a (by simp)) (hs a (by simp)) v, ← sum_map_add_zmod]
    congr 1
    refine List.map_congr_left fun d _ => ?_
    by_cases h : d ∈ N a
    · rw [List.countP_cons_of_pos (by simpa using h)]
      simp only [h, if_true]
      push_cast
      ring
    · rw [List.countP_cons_of_neg (by simpa using h)]
      simp [h]

theorem lines_grid (hg : OnGrid l L dirs) {n : Nat} {P : Nat → Site → Prop}
    (hone : ∀ s i j, P i s → P j s → i = j) {log stabs : List String} (hlog : log.Nodup)
    (hsub : ∀ d ∈ log, d ∈ dataOf L) (hl : ∀ q s, (q, s, Kind.data) ∈ L → (q ∈ log ↔ P 0 s))
    (hstab : ∀ a ∈ stabs, a ∈ ancOf L)
    (hstep : ∀ j, j + 1 < n → ∃ C : String × Site × Kind → Bool, (∀ e ∈ L, C e = true → e.1 ∈ stabs) ∧
      ∀ q s, (q, s, Kind.data) ∈ L → (Odd (L.countP fun e => decide (q ∈ l.getNeighbors [e.1] none) && C e) ↔
        (P j s ∨ P (j + 1) s))) :
    Lines l (dataOf L) stabs log fun j : Fin n => onLine L (P j) where
  sub := by
    intro j d hd
    obtain ⟨s, hs, -⟩ := (onLine_ne _ _).1 hd
    exact mem_dataOf.2 ⟨s, hs⟩
  one := by
    intro q i j hi hj
    obtain ⟨s, hq, hi⟩ := (onLine_ne _ _).1 hi
    obtain ⟨s', hq', hj⟩ := (onLine_ne _ _).1 hj
    rw [(hg.unique hq' hq).1] at hj
    exact Fin.ext (hone s i j hi hj)
  log := by
    classical
    have hD : (dataOf L).Nodup := hg.labelsOf_nodup _
    have key : ∀ j, j < n → ∃ B : List String, (∀ a ∈ B, a ∈ stabs) ∧ ∀ v : String → ZMod 2,
        ((dataOf L).map fun d => onLine L (P j) d * v d).sum =
          (log.map v).sum + (B.map fun a => ((l.getNeighbors [a] none).map v).sum).sum := by
      intro j
      induction j with
      | zero =>
        intro _
        refine ⟨[], by simp, fun v => ?_⟩
        rw [sum_sublist hD hlog hsub v]
        simp only [List.map_nil, List.sum_nil, add_zero]
        congr 1
        refine List.map_congr_left fun d hd => ?_
        obtain ⟨s, hs⟩ := mem_dataOf.1 hd
        rw [onLine_data hg _ hs]
        simp only [hl d s hs]
      | succ j ih =>
        intro hj
        obtain ⟨B, hB, hv⟩ := ih (by omega)
        obtain ⟨C, hC, hc⟩ := hstep j hj
        have hB' : ∀ a ∈ (L.filter C).map Prod.fst, a ∈ stabs := by
          intro a ha
          obtain ⟨e, he, rfl⟩ := List.mem_map.1 ha
          exact hC e (List.mem_of_mem_filter he) (List.mem_filter.1 he).2
        refine ⟨B ++ (L.filter C).map Prod.fst, ?_, fun v => ?_⟩
        · intro a ha
          rcases List.mem_append.1 ha with ha | ha
          · exact hB a ha
          · exact hB' a ha
        · rw [List.map_append, List.sum_append, ← add_assoc, ← hv v, sum_supports hD (fun a _ => ?_) (fun a ha d hd => ?_) v,
            ← sum_map_add_zmod]
          · congr 1
            refine List.map_congr_left fun d hd => ?_
            obtain ⟨s, hs⟩ := mem_dataOf.1 hd
            rw [onLine_data hg _ hs, onLine_data hg _ hs, List.countP_map, List.countP_filter, ← add_mul]
            congr 1
            have h1 := hc d s hs
            simp only [Function.comp_apply]
            by_cases ho : Odd (L.countP fun e => decide (d ∈ l.getNeighbors [e.1] none) && C e)
            · rw [(ZMod.natCast_eq_one_iff_odd).2 ho]
              rcases h1.1 ho with h2 | h2
              · have h3 : ¬ P (j + 1) s := fun h3 => by have := hone s _ _ h2 h3; omega
                simp only [h2, h3, if_true, if_false]; decide
              · have h3 : ¬ P j s := fun h3 => by have := hone s _ _ h2 h3; omega
                simp only [h2, h3, if_true, if_false]; decide
            · have h2 : ¬ (P j s ∨ P (j + 1) s) := fun h => ho (h1.2 h)
              rw [not_or] at h2
              rw [(ZMod.natCast_eq_zero_iff_even).2 (Nat.not_odd_iff_even.1 ho)]
              simp [h2]
          · exact hg.neighbors_nodup a
          · obtain ⟨s, k, ha, hk⟩ := mem_ancOf.1 (hstab a (hB' a ha))
            obtain ⟨sh, dir, -, hq⟩ := (hg.mem_neighbors_anc ha hk).1 hd
            exact mem_dataOf.2 ⟨_, hq⟩
    exact fun j => key j j.2

end SurfaceSim
