/-
The numbers of qubits of the generated unrotated layouts.
-/
import Verif.Lemmas.UnrotGeometry

namespace SurfaceSim
namespace LayoutLib

theorem unrot_row_count (r : Int) (n : Nat) :
    (List.range (2 * n + 1)).countP (fun c : Nat => decide (unrotKind (r, 0 + 1 * (c : Int)) = .data)) =
      if r % 2 = 0 then n + 1 else n := by
  induction n with
  | zero =>
    simp only [List.range_succ, List.range_zero, List.nil_append, List.countP_cons, List.countP_nil,
      unrotKind_data, Nat.mul_zero, Nat.zero_add]
    by_cases h : r % 2 = 0 <;> simp [h]
  | succ n ih =>
    rw [show 2 * (n + 1) + 1 = 2 * n + 1 + 1 + 1 by ring, List.range_succ, List.range_succ,
      List.countP_append, List.countP_append, ih]
    simp only [List.countP_cons, List.countP_nil, unrotKind_data, decide_eq_true_eq]
    push_cast
    split
    · rw [if_neg (by omega), if_pos (by omega)]
    · rw [if_pos (by omega), if_neg (by omega)]

theorem unrot_data_count {dx dz : Int} (hx : 1 ≤ dx) (hz : 1 ≤ dz) :
    ((unrotSites dx dz).countP (fun e => decide (e.2 = .data)) : Int) = dx * dz + (dx - 1) * (dz - 1) := by
  obtain ⟨m, rfl⟩ : ∃ m : Nat, dx = m + 1 := ⟨(dx - 1).toNat, by omega⟩
  obtain ⟨n, rfl⟩ : ∃ n : Nat, dz = n + 1 := ⟨(dz - 1).toNat, by omega⟩
  unfold unrotSites
  rw [pyRange_eq (b := 2 * ((m : Int) + 1) - 1) (m := 2 * m + 1) (by omega),
    pyRange_eq (b := 2 * ((n : Int) + 1) - 1) (m := 2 * n + 1) (by omega), List.countP_flatMap,
    List.map_map]
  have : (List.countP (fun e : Site × Kind => decide (e.2 = .data)) ∘ fun r : Int =>
      ((List.range (2 * n + 1)).map fun (k : Nat) => (0 : Int) + 1 * k).map fun c =>
        (((r, c) : Site), unrotKind (r, c))) ∘ (fun (k : Nat) => (0 : Int) + 1 * k) =
      fun k : Nat => if (k : Int) % 2 = 0 then n + 1 else n := by
    funext k
    simp only [Function.comp_apply, List.countP_map]
    refine Eq.trans ?_ (unrot_row_count (k : Int) n)
    simp [Function.comp_def]
  rw [this]
  clear hx hz this
  induction m with
  | zero => simp
  | succ m ih =>
    rw [show 2 * (m + 1) + 1 = 2 * m + 1 + 1 + 1 by ring, List.range_succ, List.range_succ]
    simp only [List.map_append, List.sum_append, List.map_cons, List.map_nil, List.sum_cons, List.sum_nil]
    push_cast at ih ⊢
    rw [ih, if_neg (by omega), if_pos (by omega)]
    ring

theorem unrot_total {dx dz : Int} (hx : 1 ≤ dx) (hz : 1 ≤ dz) :
    ((unrotSites dx dz).length : Int) = (2 * dx - 1) * (2 * dz - 1) := by
  unfold unrotSites
  have h1 : (pyRange 0 (2 * dx - 1) 1).length = (2 * dx - 1).toNat := by rw [pyRange_length]; omega
  have h2 : (pyRange 0 (2 * dz - 1) 1).length = (2 * dz - 1).toNat := by rw [pyRange_length]; omega
  simp only [List.length_flatMap, List.length_map, List.map_const', List.sum_replicate_nat, h1, h2]
  push_cast
  rw [Int.toNat_of_nonneg (by omega), Int.toNat_of_nonneg (by omega)]

theorem unrot_anc_count {dx dz : Int} (hx : 1 ≤ dx) (hz : 1 ≤ dz) :
    ((unrotSites dx dz).countP (fun e => decide (e.2 ≠ .data)) : Int) =
      dx * dz + (dx - 1) * (dz - 1) - 1 := by
  have h1 := unrot_data_count hx hz
  have h2 := unrot_total hx hz
  have h3 := List.length_eq_countP_add_countP (fun e : Site × Kind => decide (e.2 = .data)) (l := unrotSites dx dz)
  have h4 : (fun a : Site × Kind => decide ¬decide (a.2 = Kind.data) = true) =
      fun e : Site × Kind => decide (e.2 ≠ Kind.data) := by
    funext e; simp
  rw [h4] at h3
  have h5 : (2 * dx - 1) * (2 * dz - 1) = 2 * (dx * dz + (dx - 1) * (dz - 1)) - 1 := by ring
  omega

end LayoutLib
end SurfaceSim
