/-
From the effect of a block on frames to its effect on stabilizers and logical operators.
-/
import Verif.Lemmas.Tables
import Verif.Lemmas.UnrotFold

namespace SurfaceSim
open Spec NoiseModel Blocks LayoutLib LogGates

section
variable {l : Layout} {L : List (String × Site × Kind)} {dirs : List (Site × String)}

theorem dataOfLayout_grid (hg : OnGrid l L dirs) : dataOfLayout l = dataOf L := by
  unfold dataOfLayout qubitsWith
  rw [hg.getQubits_data]
  rfl

theorem ancOfLayout_grid (hg : OnGrid l L dirs) : ancOfLayout l = ancOf L := by
  unfold ancOfLayout qubitsWith
  rw [hg.getQubits_anc]
  rfl

theorem xOfLayout_grid (hg : OnGrid l L dirs) : xOfLayout l = xOf L := by
  unfold xOfLayout qubitsWith
  rw [hg.getQubits_x]
  rfl

theorem zOfLayout_grid (hg : OnGrid l L dirs) : zOfLayout l = zOf L := by
  unfold zOfLayout qubitsWith
  rw [hg.getQubits_z]
  rfl

/-- The value of a stabilizer in terms of values at the labels. -/
def stabSum (l : Layout) (L : List (String × Site × Kind)) (x z : String → ZMod 2) (a : String) : ZMod 2 :=
  ((l.getNeighbors [a] none).map fun d => if a ∈ xOf L then z d else x d).sum

theorem stabValue_grid (hg : OnGrid l L dirs) (ι : String → Nat) (st : FState Nat) (a : String) :
    stabValue ι [l] st a = stabSum l L (fun q => st.x (ι q)) (fun q => st.z (ι q)) a := by
  unfold stabValue stabSum anticommutes
  simp [xOfLayout_grid hg]

theorem nbr_data (hg : OnGrid l L dirs) {a d : String} (ha : a ∈ ancOf L) (hd : d ∈ l.getNeighbors [a] none) :
    d ∈ dataOf L := by
  obtain ⟨s, k, ha, hk⟩ := mem_ancOf.1 ha
  obtain ⟨sh, dir, -, h⟩ := (hg.mem_neighbors_anc ha hk).1 hd
  exact mem_dataOf.2 ⟨_, h⟩

variable {nm : NoiseModel} {b : Call1} {X Z : (String → ZMod 2) → (String → ZMod 2) → String → ZMod 2}

theorem appliesGate_of_acts (hg : OnGrid l L dirs) (hr : CanRun nm l) (hb : Acts nm b X Z) {label : String}
    (hanc : ∀ q, q ∉ dataOf L → ∀ x z, X x z q = x q ∧ Z x z q = z q)
    (hsyn : ∀ a ∈ ancOf L, ∀ x z, stabSum l L (X x z) (Z x z) a = ((newGen l label a).map (stabSum l L x z)).sum) :
    AppliesGate nm [l] label b := by
  have hk := grid_known hr hg
  intro s hist hs
  obtain ⟨c, s', e, hs', he, hc⟩ := hb s hist hs
  refine ⟨c, s', e, hs', he, fun ρ st => ?_⟩
  obtain ⟨h1, h2, h3, h4⟩ := hc ρ st
  refine ⟨h1, h2, h3, fun q hq hql => ?_, fun l' hl' a ha => ?_⟩
  · have hqd := hql l (by simp)
    rw [dataOfLayout_grid hg] at hqd
    rw [(h4 q hq).1, (hanc q hqd _ _).1, (h4 q hq).2, (hanc q hqd _ _).2]
    exact ⟨rfl, rfl⟩
  · rw [List.mem_singleton] at hl'
    subst hl'
    rw [ancOfLayout_grid hg] at ha
    rw [stabValue_grid hg, show stabValue (ind nm.inds) [l'] st = _ from funext (stabValue_grid hg _ st), ← hsyn a ha]
    unfold stabSum
    congr 1
    refine List.map_congr_left fun d hd => ?_
    have hkd := hk d (List.mem_append_left _ (nbr_data hg ha hd))
    simp only [(h4 d hkd).1, (h4 d hkd).2]

theorem mapsLogical_of_acts (hg : OnGrid l L dirs) (hr : CanRun nm l) (hb : Acts nm b X Z) {label : String} {isX : Bool}
    {S : List String} (hS : ((if isX then l.logX else l.logZ).get? label) = some S) (hSd : ∀ d ∈ S, d ∈ dataOf L)
    {image : List (Bool)} {T : List String} (hT : ∀ a ∈ T, a ∈ ancOf L)
    (h : ∀ x z, (S.map fun d => if isX then Z x z d else X x z d).sum =
      (image.map fun i => ((((if i then l.logX else l.logZ).get? label).getD []).map fun d => if i then z d else x d).sum).sum +
        (T.map (stabSum l L x z)).sum) :
    MapsLogical nm [l] b l label isX (image.map fun i => (l, label, i)) := by
  have hk := grid_known hr hg
  refine ⟨T, fun a ha => ⟨l, by simp, by rw [ancOfLayout_grid hg]; exact hT a ha⟩, fun s hist hs => ?_⟩
  obtain ⟨c, s', e, -, -, hc⟩ := hb s hist hs
  refine ⟨c, s', e, fun ρ st => ?_⟩
  obtain ⟨-, -, -, h4⟩ := hc ρ st
  rw [show stabValue (ind nm.inds) [l] st = _ from funext (stabValue_grid hg _ st), List.map_map]
  refine Eq.trans ?_ (h _ _)
  unfold logicalValue anticommutes
  rw [hS]
  simp only [Option.getD_some]
  congr 1
  refine List.map_congr_left fun d hd => ?_
  have hkd := hk d (List.mem_append_left _ (hSd d hd))
  rw [(h4 d hkd).1, (h4 d hkd).2]

/-! ### products of all stabilizers of a type -/

theorem sum_flatMap (zs : List String) (N : String → List String) (f : String → ZMod 2) :
    (zs.map fun z => ((N z).map f).sum).sum = ((zs.flatMap N).map f).sum := by
  induction zs with
  | nil => rfl
  | cons z zs ih => simp [ih]

theorem sum_by_count (M D : List String) (hD : D.Nodup) (hM : ∀ q ∈ M, q ∈ D) (f : String → ZMod 2) :
    (M.map f).sum = (D.map fun d => ((M.count d : Nat) : ZMod 2) * f d).sum := by
  induction M with
  | nil => simp
  | cons q M ih =>
    rw [List.map_cons, List.sum_cons, ih fun q' h => hM q' (by simp [h])]
    have hsplit : (D.map fun d => (((q :: M).count d : Nat) : ZMod 2) * f d).sum =
        (D.map fun d => ((M.count d : Nat) : ZMod 2) * f d).sum + (D.map fun d => if d = q then f d else 0).sum := by
      rw [← List.sum_map_add]
      congr 1
      refine List.map_congr_left fun d _ => ?_
      rw [List.count_cons]
      by_cases h : q = d
      · subst h; simp; ring
      · simp [h, Ne.symm h]
    rw [hsplit, add_comm]
    congr 1
    have := sumIf_unique hD (p := fun d => d = q) (f := f) (hM q (by simp)) rfl fun b _ h => h
    unfold sumIf at this
    exact this.symm

theorem count_flatMap_nodup (zs : List String) (N : String → List String) (hN : ∀ z, (N z).Nodup) (d : String) :
    (zs.flatMap N).count d = zs.countP fun z => decide (d ∈ N z) := by
  induction zs with
  | nil => rfl
  | cons z zs ih =>
    rw [List.flatMap_cons, List.count_append, List.countP_cons, ih]
    by_cases h : d ∈ N z
    · rw [List.count_eq_one_of_mem (hN z) h]; simp [h]; omega
    · rw [List.count_eq_zero_of_not_mem h]; simp [h]

/-- The product of the stabilizers of the ancillas in `zs`, of one type. -/
theorem sum_stabs (hg : OnGrid l L dirs) {zs : List String} (hz : ∀ z ∈ zs, z ∈ ancOf L) (f : String → ZMod 2) :
    (zs.map fun z => ((l.getNeighbors [z] none).map f).sum).sum =
      ((dataOf L).map fun d => ((zs.countP fun z => decide (d ∈ l.getNeighbors [z] none) : Nat) : ZMod 2) * f d).sum := by
  rw [sum_flatMap, sum_by_count _ (dataOf L) (hg.labelsOf_nodup _)]
  · congr 1
    refine List.map_congr_left fun d _ => ?_
    rw [count_flatMap_nodup _ _ fun z => hg.neighbors_nodup z]
  · intro q hq
    obtain ⟨z, h1, h2⟩ := List.mem_flatMap.1 hq
    exact nbr_data hg (hz z h1) h2

/-- Sums over a list of data qubits. -/
theorem sum_sub (hg : OnGrid l L dirs) {S : List String} (hS : S.Nodup) (hSd : ∀ d ∈ S, d ∈ dataOf L) (f : String → ZMod 2) :
    (S.map f).sum = ((dataOf L).map fun d => if d ∈ S then f d else 0).sum := by
  rw [sum_by_count S (dataOf L) (hg.labelsOf_nodup _) hSd]
  congr 1
  refine List.map_congr_left fun d _ => ?_
  by_cases h : d ∈ S
  · rw [List.count_eq_one_of_mem hS h]; simp [h]
  · rw [List.count_eq_zero_of_not_mem h]; simp [h]

/-- Counting the qubits of a kind by their sites. -/
theorem countP_kind (hg : OnGrid l L dirs) (k : Kind) {P : String → Bool} (T : List Site) (hT : T.Nodup)
    (hTL : ∀ s ∈ T, ∃ q, (q, s, k) ∈ L) (hiff : ∀ q s, (q, s, k) ∈ L → (P q = true ↔ s ∈ T)) :
    (labelsOf L fun k' => k' = k).countP P = T.length := by
  unfold labelsOf
  rw [List.countP_map, List.countP_eq_length_filter, List.filter_filter, ← List.length_map (f := fun e => e.2.1)]
  refine List.Perm.length_eq ?_
  rw [List.perm_ext_iff_of_nodup _ hT]
  · intro s
    simp only [List.mem_map, List.mem_filter, Bool.and_eq_true, Function.comp_apply, decide_eq_true_eq]
    constructor
    · rintro ⟨⟨q, s', k'⟩, ⟨h1, h2, h3⟩, rfl⟩
      simp only at h2 h3
      subst h3
      exact (hiff q s' h1).1 h2
    · intro hs
      obtain ⟨q, hq⟩ := hTL s hs
      exact ⟨(q, s, k), ⟨hq, (hiff q s hq).2 hs, rfl⟩, rfl⟩
  · exact (List.filter_sublist.map _).nodup hg.sites

end

/-! ### unrotated codes -/

section
variable {l : Layout} {a : Args} {dx dz : Int}

/-- Every data qubit between the first and the last row has an even number of Z ancillas. -/
theorem unrot_count_z (hg : OnGrid l (unrotEntries a dx dz) (names unrotDirs)) {d : String} {r c : Int}
    (hd : (d, (r, c), Kind.data) ∈ unrotEntries a dx dz) :
    (((zOf (unrotEntries a dx dz)).countP fun z => decide (d ∈ l.getNeighbors [z] none) : Nat) : ZMod 2) =
      (if r = 0 then 1 else 0) + if r = 2 * dx - 2 then 1 else 0 := by
  have gd := unrotEntry hd
  simp only [UnrotSite] at gd
  have key : ∀ T : List Site, T.Nodup → (∀ t ∈ T, UnrotSite dx dz t.1 t.2 .z) →
      (∀ r0 c0, UnrotSite dx dz r0 c0 .z → ((r = r0 ∧ (c = c0 + 1 ∨ c = c0 - 1)) ∨
        ((r = r0 + 1 ∨ r = r0 - 1) ∧ c = c0) ↔ (r0, c0) ∈ T)) →
      (zOf (unrotEntries a dx dz)).countP (fun z => decide (d ∈ l.getNeighbors [z] none)) = T.length := by
    intro T hT hTd hiff
    refine countP_kind hg .z T hT (fun t ht => exists_unrotEntry (hTd t ht)) ?_
    rintro q ⟨r0, c0⟩ hq
    rw [decide_eq_true_eq, unrotN hg hq (by simp) hd]
    exact hiff r0 c0 (unrotEntry hq)
  by_cases hr : r % 2 = 0
  · by_cases h0 : r = 0
    · by_cases h1 : r = 2 * dx - 2
      · rw [key [] (by simp) (by simp) ?_, if_pos h0, if_pos h1]
        · simp only [List.length_cons, List.length_nil]; decide
        · intro r0 c0 h; simp only [UnrotSite] at h; simp; omega
      · rw [key [(r + 1, c)] (by simp) ?_ ?_, if_pos h0, if_neg h1]
        · simp only [List.length_cons, List.length_nil]; decide
        · simp only [List.mem_singleton]; rintro t rfl; simp only [UnrotSite]; omega
        · intro r0 c0 h; simp only [UnrotSite] at h; simp; omega
    · by_cases h1 : r = 2 * dx - 2
      · rw [key [(r - 1, c)] (by simp) ?_ ?_, if_neg h0, if_pos h1]
        · simp only [List.length_cons, List.length_nil]; decide
        · simp only [List.mem_singleton]; rintro t rfl; simp only [UnrotSite]; omega
        · intro r0 c0 h; simp only [UnrotSite] at h; simp; omega
      · rw [key [(r - 1, c), (r + 1, c)] (by simp; omega) ?_ ?_, if_neg h0, if_neg h1]
        · simp only [List.length_cons, List.length_nil]; decide
        · simp only [List.mem_cons, List.not_mem_nil, or_false]
          rintro t (rfl | rfl) <;> simp only [UnrotSite] <;> omega
        · intro r0 c0 h; simp only [UnrotSite] at h; simp; omega
  · rw [key [(r, c - 1), (r, c + 1)] (by simp; omega) ?_ ?_, if_neg (by omega), if_neg (by omega)]
    · simp only [List.length_cons, List.length_nil]; decide
    · simp only [List.mem_cons, List.not_mem_nil, or_false]
      rintro t (rfl | rfl) <;> simp only [UnrotSite] <;> omega
    · intro r0 c0 h; simp only [UnrotSite] at h; simp; omega

/-- Every data qubit between the first and the last column has an even number of X ancillas. -/
theorem unrot_count_x (hg : OnGrid l (unrotEntries a dx dz) (names unrotDirs)) {d : String} {r c : Int}
    (hd : (d, (r, c), Kind.data) ∈ unrotEntries a dx dz) :
    (((xOf (unrotEntries a dx dz)).countP fun z => decide (d ∈ l.getNeighbors [z] none) : Nat) : ZMod 2) =
      (if c = 0 then 1 else 0) + if c = 2 * dz - 2 then 1 else 0 := by
  have gd := unrotEntry hd
  simp only [UnrotSite] at gd
  have key : ∀ T : List Site, T.Nodup → (∀ t ∈ T, UnrotSite dx dz t.1 t.2 .x) →
      (∀ r0 c0, UnrotSite dx dz r0 c0 .x → ((r = r0 ∧ (c = c0 + 1 ∨ c = c0 - 1)) ∨
        ((r = r0 + 1 ∨ r = r0 - 1) ∧ c = c0) ↔ (r0, c0) ∈ T)) →
      (xOf (unrotEntries a dx dz)).countP (fun z => decide (d ∈ l.getNeighbors [z] none)) = T.length := by
    intro T hT hTd hiff
    refine countP_kind hg .x T hT (fun t ht => exists_unrotEntry (hTd t ht)) ?_
    rintro q ⟨r0, c0⟩ hq
    rw [decide_eq_true_eq, unrotN hg hq (by simp) hd]
    exact hiff r0 c0 (unrotEntry hq)
  by_cases hr : c % 2 = 0
  · by_cases h0 : c = 0
    · by_cases h1 : c = 2 * dz - 2
      · rw [key [] (by simp) (by simp) ?_, if_pos h0, if_pos h1]
        · simp only [List.length_cons, List.length_nil]; decide
        · intro r0 c0 h; simp only [UnrotSite] at h; simp; omega
      · rw [key [(r, c + 1)] (by simp) ?_ ?_, if_pos h0, if_neg h1]
        · simp only [List.length_cons, List.length_nil]; decide
        · simp only [List.mem_singleton]; rintro t rfl; simp only [UnrotSite]; omega
        · intro r0 c0 h; simp only [UnrotSite] at h; simp; omega
    · by_cases h1 : c = 2 * dz - 2
      · rw [key [(r, c - 1)] (by simp) ?_ ?_, if_neg h0, if_pos h1]
        · simp only [List.length_cons, List.length_nil]; decide
        · simp only [List.mem_singleton]; rintro t rfl; simp only [UnrotSite]; omega
        · intro r0 c0 h; simp only [UnrotSite] at h; simp; omega
      · rw [key [(r, c - 1), (r, c + 1)] (by simp; omega) ?_ ?_, if_neg h0, if_neg h1]
        · simp only [List.length_cons, List.length_nil]; decide
        · simp only [List.mem_cons, List.not_mem_nil, or_false]
          rintro t (rfl | rfl) <;> simp only [UnrotSite] <;> omega
        · intro r0 c0 h; simp only [UnrotSite] at h; simp; omega
  · rw [key [(r - 1, c), (r + 1, c)] (by simp; omega) ?_ ?_, if_neg (by omega), if_neg (by omega)]
    · simp only [List.length_cons, List.length_nil]; decide
    · simp only [List.mem_cons, List.not_mem_nil, or_false]
      rintro t (rfl | rfl) <;> simp only [UnrotSite] <;> omega
    · intro r0 c0 h; simp only [UnrotSite] at h; simp; omega

end

end SurfaceSim
