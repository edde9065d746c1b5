/-
The numbers of qubits of the generated layouts.
-/
import Verif.Lemmas.RotGeometry

namespace SurfaceSim
namespace LayoutLib

theorem pyRange_eq {a b s : Int} {m : Nat} (h : ((b - a + s - 1) / s).toNat = m) :
    pyRange a b s = (List.range m).map fun (k : Nat) => a + s * k := by
  unfold pyRange; rw [h]

theorem labelsOf_length (dl : Site → String) (ss : List (Site × Kind)) (xi zi : Int) (p : Kind → Bool) :
    (labelsOf (labelSites dl ss xi zi) p).length = ss.countP fun e => p e.2 := by
  unfold labelsOf
  conv_rhs => rw [← labelSites_snd dl ss xi zi]
  rw [List.length_map, ← List.countP_eq_length_filter, List.countP_map]
  rfl

theorem countP_flatMap_kind (R : List Int) (C : Int → List Int) (k : Kind) (p : Kind → Bool) :
    (R.flatMap fun r => (C r).map fun c => (((r, c) : Site), k)).countP (fun e => p e.2) =
      if p k then (R.map fun r => (C r).length).sum else 0 := by
  induction R with
  | nil => simp
  | cons r R ih =>
    rw [List.flatMap_cons, List.countP_append, ih, List.countP_map]
    cases hp : p k
    · simp [Function.comp_def, hp]
    · simp [Function.comp_def, hp]

theorem rot_counts {dx dz : Int} (hx : 1 ≤ dx) (hz : 1 ≤ dz) (p : Kind → Bool) :
    ((rotSites dx dz).countP (fun e => p e.2) : Int) =
      (if p .data then dx * dz else 0) +
      ((if p .x then ((pyRange 0 (2 * dx + 1) 2).map fun r =>
        (pyRange (2 + r % 4) (2 * dz + 1 - 1) 4).length).sum else 0 : Nat) : Int) +
      ((if p .z then ((pyRange 2 (2 * dx + 1 - 1) 2).map fun r =>
        (pyRange (r % 4) (2 * dz + 1) 4).length).sum else 0 : Nat) : Int) := by
  unfold rotSites
  simp only [List.countP_append, countP_flatMap_kind]
  push_cast
  congr 2
  split
  · have h1 : (pyRange 1 (2 * dx + 1) 2).length = dx.toNat := by rw [pyRange_length]; omega
    have h2 : (pyRange 1 (2 * dz + 1) 2).length = dz.toNat := by rw [pyRange_length]; omega
    simp only [List.map_const', List.sum_replicate_nat, h1, h2]
    push_cast
    rw [Int.toNat_of_nonneg (by omega), Int.toNat_of_nonneg (by omega)]
  · rfl

theorem rot_anc_count {dx dz : Int} (hx : 1 ≤ dx) (hz : 1 ≤ dz) :
    ((((pyRange 0 (2 * dx + 1) 2).map fun r => (pyRange (2 + r % 4) (2 * dz + 1 - 1) 4).length).sum : Nat) : Int) +
    ((((pyRange 2 (2 * dx + 1 - 1) 2).map fun r => (pyRange (r % 4) (2 * dz + 1) 4).length).sum : Nat) : Int) =
    dx * dz - 1 := by
  obtain ⟨n, rfl⟩ : ∃ n : Nat, dx = n + 1 := ⟨(dx - 1).toNat, by omega⟩
  rw [pyRange_eq (m := n + 2) (by omega), pyRange_eq (m := n) (by omega)]
  simp only [List.map_map, Function.comp_def, pyRange_length]
  clear hx
  induction n with
  | zero =>
    simp [List.range_succ]
    omega
  | succ n ih =>
    rw [List.range_succ (n := n + 2), List.range_succ (n := n)]
    simp only [List.map_append, List.sum_append, List.map_cons, List.map_nil, List.sum_cons,
      List.sum_nil, add_zero]
    have e : ((n : Int) + 1 + 1) * dz = (n + 1) * dz + dz := by ring
    push_cast at ih ⊢
    rw [e]
    omega

end LayoutLib
end SurfaceSim
