/-
Signs of the images under the transversal H gate of unrotated codes.
-/
import Verif.Lemmas.SSigned
import Verif.Lemmas.UnrotH

namespace SurfaceSim
open Spec NoiseModel Blocks LayoutLib LogGates

theorem quarter_zero : quarter 0 = 0 := by decide

theorem conj_h_ph {Q : Type} [DecidableEq Q] (L : List Q) (P : Pauli Q) (h : ∀ q, P.x q * P.z q = 0) :
    (P.conjAll (L.map Op.h)).ph = P.ph ∧ ∀ q, (P.conjAll (L.map Op.h)).x q * (P.conjAll (L.map Op.h)).z q = 0 := by
  induction L generalizing P with
  | nil => exact ⟨rfl, h⟩
  | cons q L ih =>
    rw [List.map_cons, conjAll_cons]
    have h1 : (P.conj (Op.h q)).ph = P.ph := by simp [Spec.Pauli.conj, h, quarter_zero]
    have h2 : ∀ q', (P.conj (Op.h q)).x q' * (P.conj (Op.h q)).z q' = 0 := by
      intro q'
      by_cases hq : q' = q
      · subst hq; simp [Spec.Pauli.conj, mul_comm, h]
      · simp [Spec.Pauli.conj, hq, h]
    rw [← h1]
    exact ih _ h2

theorem conj_swap_ph {Q : Type} [DecidableEq Q] (L : List (Q × Q)) (P : Pauli Q) :
    (P.conjAll (L.map fun e => Op.swap e.1 e.2)).ph = P.ph := by
  induction L generalizing P with
  | nil => rfl
  | cons e L ih => rw [List.map_cons, conjAll_cons, ih]; rfl

section
variable {l : Layout} {a : Args} {d : Int} {p : Site} {ε : Int} {nm : NoiseModel}

/-- Products of X operators become products of Z operators at the partners, and conversely, with sign +. -/
theorem mapsOp_transH {L : List (String × Site × Kind)} {dirs : List (Site × String)} {P : String → Option String} {lab : String}
    (hg : OnGrid l L dirs) (hr : CanRun nm l) (o : SetOrder) (hcode : l.code = "unrotated_surface_code")
    (hlab : firstLogical l = .ok lab) (ht : SymTable l (dataOf L) ("trans-h_" ++ lab) "swap" P fun _ => "H") (isX : Bool)
    {S : List String} (hSd : ∀ d ∈ S, d ∈ dataOf L) {B : Pauli Nat} (h1 : B.ph = 0)
    (h2 : ∀ q ∈ nm.inds.keys, B.x (ind nm.inds q) = if isX then 0 else if q ∈ dataOf L then atQ S ((P q).getD q) else 0)
    (h3 : ∀ q ∈ nm.inds.keys, B.z (ind nm.inds q) = if isX then (if q ∈ dataOf L then atQ S ((P q).getD q) else 0) else 0) :
    MapsOp nm (sumGen (transHIter o nm l)) (pauliString (ind nm.inds) isX S) B := by
  have hk := grid_known hr hg
  have hkd : ∀ q ∈ dataOf L, q ∈ nm.inds.keys := fun q h => hk q (List.mem_append_left _ h)
  obtain ⟨ps, sa, k1, k2, k4, k5, hb⟩ := does_transH hg hr o hcode hlab ht
  refine mapsOp_of_does hr.inj hb ?_ (pstr_agree hr isX fun q hq => hkd q (hSd q hq)) ?_ fun q hq => ?_
  · intro o ho
    simp only [List.mem_append, List.mem_map] at ho
    rcases ho with ⟨q, -, rfl⟩ | ⟨q, -, rfl⟩ <;> simp
  · rw [h1, conjAll_append, conj_swap_ph, (conj_h_ph sa _ _).1]
    · unfold pstr; cases isX <;> rfl
    · intro q; unfold pstr; cases isX <;> simp
  · rw [run_transH ht.sym k1 k2 k4 k5, h2 q hq, h3 q hq]
    have hz : q ∉ dataOf L → atQ S q = 0 := fun h => if_neg fun h' => h (hSd q h')
    by_cases hqd : q ∈ dataOf L <;> cases isX <;> simp [pstr, hqd, hz]

theorem HTable.atQ_perm (hg : OnGrid l (unrotEntries a d d) (names unrotDirs)) (hε : ε = 1 ∨ ε = -1) {label : String}
    (ht : HTable l (unrotEntries a d d) label p ε) {S S' : List String} (hSd : ∀ d' ∈ S, d' ∈ dataOf (unrotEntries a d d))
    (h : (S.map (SurfaceSim.swapWith l label)).Perm S') {q : String} (hq : q ∈ dataOf (unrotEntries a d d)) :
    atQ S ((partnerAt l label "swap" q).getD q) = atQ S' q := by
  have hinv : ∀ d' ∈ dataOf (unrotEntries a d d), SurfaceSim.swapWith l label (SurfaceSim.swapWith l label d') = d' := by
    intro d' hd
    obtain ⟨s, hd⟩ := mem_dataOf.1 hd
    have h1 := (ht.swapWith (ht.swapWith hd).1).1
    rw [refl_refl hε] at h1
    exact (hg.unique' h1 hd).1
  unfold atQ
  congr 1
  rw [eq_iff_iff, ← h.mem_iff, List.mem_map]
  constructor
  · exact fun h => ⟨_, h, hinv q hq⟩
  · rintro ⟨e, he, rfl⟩
    have := hinv e (hSd e he)
    change SurfaceSim.swapWith l label (SurfaceSim.swapWith l label e) ∈ S
    rwa [this]

theorem HTable.signed (hu : IsUnrot a d d l) (hr : CanRun nm l) (o : SetOrder) (hε : ε = 1 ∨ ε = -1)
    (ht : HTable l (unrotEntries a d d) ("trans-h_" ++ a.label) p ε) {x : String} (hx : x ∈ ancOf (unrotEntries a d d)) :
    MapsSigned nm [l] ("trans-h_" ++ a.label) (sumGen (transHIter o nm l)) l x 0 := by
  have hg := hu.grid
  have hk := grid_known hr hg
  have hkd : ∀ q ∈ dataOf (unrotEntries a d d), q ∈ nm.inds.keys := fun q h => hk q (List.mem_append_left _ h)
  obtain ⟨s, k, hxs, hk⟩ := mem_ancOf.1 hx
  obtain ⟨y, hy, hn⟩ := ht.newGen hxs hk
  have hky : flipKind k ≠ .data := by cases k <;> simp [flipKind] at hk ⊢
  have hya : y ∈ ancOf (unrotEntries a d d) := mem_ancOf.2 ⟨_, _, hy, hky⟩
  have hxx : x ∈ xOf (unrotEntries a d d) ↔ k = .x := by
    rw [mem_xOf]
    constructor
    · rintro ⟨s', h⟩; exact (hg.unique hxs h).2
    · rintro rfl; exact ⟨s, hxs⟩
  have hyx : y ∈ xOf (unrotEntries a d d) ↔ k = .z := by
    rw [mem_xOf]
    constructor
    · rintro ⟨s', h⟩
      have := (hg.unique hy h).2
      cases k <;> simp [flipKind] at this ⊢
    · rintro rfl; exact ⟨_, hy⟩
  have hN : ∀ e ∈ l.getNeighbors [x] none, e ∈ dataOf (unrotEntries a d d) := fun e he => nbr_data hg hx he
  have hNy : ∀ e ∈ l.getNeighbors [y] none, e ∈ dataOf (unrotEntries a d d) := fun e he => nbr_data hg hya he
  have hperm := ht.nbrs hg hε hxs hk hy
  have hat : ∀ q ∈ nm.inds.keys, atQubits (ind nm.inds) (l.getNeighbors [y] none) (ind nm.inds q) =
      if q ∈ dataOf (unrotEntries a d d) then
        atQ (l.getNeighbors [x] none) ((partnerAt l ("trans-h_" ++ a.label) "swap" q).getD q) else 0 := by
    intro q hq
    rw [atQubits_ind hr (fun q h => hkd q (hNy q h)) hq]
    by_cases hqd : q ∈ dataOf (unrotEntries a d d)
    · rw [if_pos hqd, ht.atQ_perm hg hε hN hperm hqd]
    · rw [if_neg hqd]; exact if_neg fun h => hqd (hNy q h)
  unfold MapsSigned
  rw [stabOp_grid hg, hn]
  refine mapsOp_transH hg hr o hu.code (firstLogical_of hu.log) (ht.symTable hg hε) _ hN ?_ ?_ ?_
  · simp only [xzProduct, Spec.Pauli.times, stabOp_grid hg, pauliString, List.map_cons, List.map_nil, List.sum_cons, List.sum_nil]
    split <;> simp
  all_goals
    intro q hq
    rw [← hat q hq]
    simp only [xzProduct, Spec.Pauli.times, stabOp_grid hg, pauliString, List.map_cons, List.map_nil, List.sum_cons, List.sum_nil,
      hxx, hyx, add_zero, decide_eq_true_eq]
    cases k
    · exact absurd rfl hk
    · simp
    · simp

end

end SurfaceSim
