/-
Transversal S gates: from the stored tables to their effect.
-/
import Verif.Lemmas.NewStabDict

namespace SurfaceSim
open Spec NoiseModel Blocks LayoutLib LogGates

/-- What an X at `d` is multiplied with: the value of the Z operators. -/
def sTerm (P : String → Option String) (G : String → String) (f : String → ZMod 2) (d : String) : ZMod 2 :=
  (if G d = "S" ∨ G d = "S_DAG" then f d else 0) + (match P d with
    | some e => f e
    | none => 0)

/-- A stored table of an S gate whose new generators are right. -/
structure STable (l : Layout) (L : List (String × Site × Kind)) (label : String) (P : String → Option String)
    (G : String → String) : Prop where
  sym : SymTable l (dataOf L) label "cz" P G
  x : ∀ x ∈ xOf L, (l.param label x = .ok (.gate [("new_stab_gen", .strs [x])]) ∧
      ∀ f, ((l.getNeighbors [x] none).map (sTerm P G f)).sum = 0) ∨
    ∃ z ∈ zOf L, l.param label x = .ok (.gate [("new_stab_gen", .strs [x, z])]) ∧
      ∀ f, ((l.getNeighbors [x] none).map (sTerm P G f)).sum = ((l.getNeighbors [z] none).map f).sum
  z : ∀ z ∈ zOf L, l.param label z = .ok (.gate [("new_stab_gen", .strs [z])])

section
variable {l : Layout} {L : List (String × Site × Kind)} {dirs : List (Site × String)} {label lab : String}
  {P : String → Option String} {G : String → String} {nm : NoiseModel}

theorem newGen_of {g : List String} {a : String} (h : l.param label a = .ok (.gate [("new_stab_gen", .strs g)])) :
    newGen l label a = g := by
  unfold newGen gateAt
  rw [h]
  simp [Dict.get?]

theorem STable.congr {l' : Layout} (h : STable l L label P G) (hn : ∀ q, l'.getNeighbors [q] none = l.getNeighbors [q] none)
    (he : ∀ q, l'.param label q = l.param label q) : STable l' L label P G := by
  refine ⟨⟨fun d hd => by rw [he]; exact h.sym.attrs d hd, h.sym.sym⟩, fun x hx => ?_, fun z hz => by rw [he]; exact h.z z hz⟩
  rw [he, hn]
  rcases h.x x hx with h | ⟨z, hz, h1, h2⟩
  · exact Or.inl h
  · exact Or.inr ⟨z, hz, h1, by rw [hn]; exact h2⟩

theorem anc_cases {a : String} (ha : a ∈ ancOf L) : a ∈ xOf L ∨ a ∈ zOf L := by
  obtain ⟨s, k, h, hk⟩ := mem_ancOf.1 ha
  cases k with
  | data => exact absurd rfl hk
  | x => exact Or.inl (mem_xOf.2 ⟨s, h⟩)
  | z => exact Or.inr (mem_zOf.2 ⟨s, h⟩)

theorem x_not_z (hg : OnGrid l L dirs) {a : String} (hz : a ∈ zOf L) : a ∉ xOf L := by
  intro h
  obtain ⟨s, h1⟩ := mem_xOf.1 h
  obtain ⟨s', h2⟩ := mem_zOf.1 hz
  have := (hg.unique h1 h2).2
  simp at this

theorem mem_anc_of_x {a : String} (h : a ∈ xOf L) : a ∈ ancOf L := by
  obtain ⟨s, h⟩ := mem_xOf.1 h
  exact mem_ancOf.2 ⟨s, _, h, by simp⟩

theorem mem_anc_of_z {a : String} (h : a ∈ zOf L) : a ∈ ancOf L := by
  obtain ⟨s, h⟩ := mem_zOf.1 h
  exact mem_ancOf.2 ⟨s, _, h, by simp⟩

theorem STable.applies (hg : OnGrid l L dirs) (hr : CanRun nm l) (o : SetOrder)
    (hcode : l.code = "rotated_surface_code" ∨ l.code = "unrotated_surface_code") (hlab : firstLogical l = .ok lab)
    (ht : STable l L ("trans-s_" ++ lab) P G) :
    AppliesGate nm [l] ("trans-s_" ++ lab) (sumGen (transSIter o nm l)) := by
  have hb := acts_transS hg hr o hcode hlab ht.sym
  refine appliesGate_of_acts hg hr hb (fun q hq x z => by simp [hq]) fun a ha fx fz => ?_
  rcases anc_cases ha with hx | hz
  · have e1 : stabSum l L fx (fun q => fz q + if q ∈ dataOf L then (if G q = "S" ∨ G q = "S_DAG" then fx q else 0) +
        (match P q with
          | some e => fx e
          | none => 0) else 0) a =
        stabSum l L fx fz a + ((l.getNeighbors [a] none).map (sTerm P G fx)).sum := by
      unfold stabSum
      simp only [if_pos hx]
      rw [← List.sum_map_add]
      congr 1
      refine List.map_congr_left fun d hd => ?_
      rw [if_pos (nbr_data hg ha hd)]
      rfl
    refine e1.trans ?_
    rcases ht.x a hx with ⟨h1, h2⟩ | ⟨z, hz, h1, h2⟩
    · rw [newGen_of h1, h2]
      simp
    · rw [newGen_of h1, h2]
      simp only [List.map_cons, List.map_nil, List.sum_cons, List.sum_nil, add_zero]
      congr 1
      unfold stabSum
      simp only [if_neg (x_not_z hg hz)]
  · rw [newGen_of (ht.z a hz)]
    simp only [List.map_cons, List.map_nil, List.sum_cons, List.sum_nil, add_zero]
    unfold stabSum
    simp only [if_neg (x_not_z hg hz)]

theorem STable.involutive (hg : OnGrid l L dirs) (ht : STable l L label P G) : Involutive [l] label := by
  intro l' hl' a ha
  rw [List.mem_singleton] at hl'
  subst hl'
  rw [ancOfLayout_grid hg] at ha
  rcases anc_cases ha with hx | hz
  · rcases ht.x a hx with ⟨h1, -⟩ | ⟨z, hz, h1, -⟩
    · rw [newGen_of h1]
      refine ⟨by simp, fun b hb => ⟨l', by simp, ?_⟩, fun y => ?_⟩
      · rw [List.mem_singleton] at hb
        rw [ancOfLayout_grid hg, hb]
        exact ha
      · simp only [List.flatMap_cons, List.flatMap_nil, List.append_nil, ancOfLayout_grid hg, if_pos ha, newGen_of h1]
        by_cases h : y = a
        · subst h; simp
        · simp [h, Ne.symm h]
    · have hne : a ≠ z := fun h => x_not_z hg hz (h ▸ hx)
      have hza := mem_anc_of_z hz
      rw [newGen_of h1]
      refine ⟨by simp [hne], fun b hb => ⟨l', by simp, ?_⟩, fun y => ?_⟩
      · rw [ancOfLayout_grid hg]
        simp only [List.mem_cons, List.not_mem_nil, or_false] at hb
        rcases hb with rfl | rfl
        · exact ha
        · exact hza
      · simp only [List.flatMap_cons, List.flatMap_nil, List.append_nil, ancOfLayout_grid hg, if_pos ha, if_pos hza,
          newGen_of h1, newGen_of (ht.z z hz)]
        by_cases h : y = a
        · subst h; simp [List.countP_cons, Ne.symm hne]
        · by_cases h' : y = z
          · subst h'; simp [List.countP_cons, hne, h]
          · simp [List.countP_cons, h, h', Ne.symm h, Ne.symm h']
  · rw [newGen_of (ht.z a hz)]
    refine ⟨by simp, fun b hb => ⟨l', by simp, ?_⟩, fun y => ?_⟩
    · rw [List.mem_singleton] at hb
      rw [ancOfLayout_grid hg, hb]
      exact ha
    · simp only [List.flatMap_cons, List.flatMap_nil, List.append_nil, ancOfLayout_grid hg, if_pos ha, newGen_of (ht.z a hz)]
      by_cases h : y = a
      · subst h; simp
      · simp [h, Ne.symm h]

theorem STable.gens (ht : STable l L label P G) {a : String} (ha : a ∈ ancOf L) :
    ∃ g, l.param label a = .ok (.gate [("new_stab_gen", .strs g)]) := by
  rcases anc_cases ha with hx | hz
  · rcases ht.x a hx with ⟨h, -⟩ | ⟨z, -, h, -⟩
    · exact ⟨_, h⟩
    · exact ⟨_, h⟩
  · exact ⟨_, ht.z a hz⟩

end

/-! ### the computation of the new generators -/

/-- The sum over a set that may contain `None`. -/
def osum (f : String → ZMod 2) (z : List (Option String)) : ZMod 2 := (z.map fun e => (e.map f).getD 0).sum

theorem sum_filter_split {α : Type} [DecidableEq α] (a b : List α) (ha : a.Nodup) (hb : b.Nodup) (f : α → ZMod 2) :
    ((symmDiff a b).map f).sum = (a.map f).sum + (b.map f).sum := by
  have hsplit : ∀ (s t : List α), (s.map f).sum = ((diff s t).map f).sum + ((s.filter (· ∈ t)).map f).sum := by
    intro s t
    induction s with
    | nil => simp [diff]
    | cons x s ih =>
      unfold diff at ih ⊢
      by_cases h : x ∈ t
      · simp [List.filter_cons, h, ih]; ring
      · simp [List.filter_cons, h, ih]; ring
  have hsame : ((a.filter (· ∈ b)).map f).sum = ((b.filter (· ∈ a)).map f).sum := by
    refine (List.Perm.map f ?_).sum_eq
    rw [List.perm_ext_iff_of_nodup (ha.filter _) (hb.filter _)]
    intro x
    simp [and_comm]
  unfold Blocks.symmDiff
  rw [List.map_append, List.sum_append, hsplit a b, hsplit b a, hsame]
  have := CharTwo.add_self_eq_zero ((b.filter (· ∈ a)).map f).sum
  generalize ((b.filter (· ∈ a)).map f).sum = t at this ⊢
  rw [add_add_add_comm, this, add_zero]

/-- What `zProduct` computes. -/
theorem zProduct_ok {cz : Dict (Option String) (Option String)} {s : Dict (Option String) String} {withPair : Bool}
    (ds : List String) {z r : List (Option String)} (hz : z.Nodup) (h : zProduct cz s withPair ds z = .ok r) :
    r.Nodup ∧ ∀ (P : String → Option String) (G : String → String),
      (∀ d ∈ ds, s.get? (some d) = some (G d)) → (∀ d ∈ ds, G d = "I" ∨ G d = "S" ∨ G d = "S_DAG") →
      (∀ d ∈ ds, cz.get? (some d) = some (P d)) → (∀ d ∈ ds, P d ≠ some d) →
      (withPair = false → ∀ d ∈ ds, G d ≠ "I" → P d = none) →
      ∀ f, osum f r = osum f z + (ds.map (sTerm P G f)).sum := by
  induction ds generalizing z with
  | nil =>
    simp only [zProduct, Except.ok.injEq] at h
    subst h
    exact ⟨hz, fun _ _ _ _ _ _ _ f => by simp⟩
  | cons d ds ih =>
    unfold zProduct at h
    cases hs : s.getE (some d) with
    | error e => simp [hs] at h
    | ok g =>
      simp only [hs] at h
      have hs' := (Dict.getE_ok_iff _ _ _).1 hs
      split at h
      · rename_i hc
        have n1 : [some d].Nodup := by simp
        obtain ⟨h1, h2⟩ := ih (symmDiff_nodup hz n1) h
        refine ⟨h1, fun P G ks hG kcz hP hw f => ?_⟩
        have := ks d (by simp)
        rw [hs', Option.some.injEq] at this
        subst this
        rw [h2 P G (fun d hd => ks d (by simp [hd])) (fun d hd => hG d (by simp [hd])) (fun d hd => kcz d (by simp [hd]))
          (fun d hd => hP d (by simp [hd])) (fun hw' d hd => hw hw' d (by simp [hd]))]
        have hp : P d = none := hw (by simpa using hc.2) d (by simp) hc.1
        unfold osum
        rw [sum_filter_split _ _ hz n1]
        have : G d = "S" ∨ G d = "S_DAG" := (hG d (by simp)).resolve_left hc.1
        simp only [List.map_cons, List.map_nil, List.sum_cons, List.sum_nil, sTerm, hp, this, if_true, Option.map_some,
          Option.getD_some]
        ring
      · rename_i hc
        cases hcz : cz.getE (some d) with
        | error e => simp [hcz] at h
        | ok p =>
          simp only [hcz] at h
          have hcz' := (Dict.getE_ok_iff _ _ _).1 hcz
          have n1 : (if g = "I" then [p] else Layout.dedup [some d, p]).Nodup := by
            split
            · simp
            · by_cases hp : p = some d
              · subst hp; simp [Layout.dedup]
              · simp [Layout.dedup, hp, Ne.symm hp]
          obtain ⟨h1, h2⟩ := ih (symmDiff_nodup hz n1) h
          refine ⟨h1, fun P G ks hG kcz hP hw f => ?_⟩
          have := ks d (by simp)
          rw [hs', Option.some.injEq] at this
          subst this
          have := kcz d (by simp)
          rw [hcz', Option.some.injEq] at this
          subst this
          rw [h2 P G (fun d hd => ks d (by simp [hd])) (fun d hd => hG d (by simp [hd])) (fun d hd => kcz d (by simp [hd]))
            (fun d hd => hP d (by simp [hd])) (fun hw' d hd => hw hw' d (by simp [hd]))]
          have hPd : P d ≠ some d := hP d (by simp)
          unfold osum
          rw [sum_filter_split _ _ hz n1]
          have key : ((if G d = "I" then [P d] else Layout.dedup [some d, P d]).map fun e => (e.map f).getD 0).sum =
              sTerm P G f d := by
            unfold sTerm
            rcases hG d (by simp) with hg | hg | hg <;> rw [hg] <;> cases hp : P d <;>
              simp [Layout.dedup, hp ▸ hPd, Ne.symm (hp ▸ hPd)]
          rw [key, List.map_cons, List.sum_cons]
          ring

theorem zProduct_exists {cz : Dict (Option String) (Option String)} {s : Dict (Option String) String} {withPair : Bool}
    (ds : List String) (h : ∀ d ∈ ds, (∃ g, s.get? (some d) = some g) ∧ ∃ p, cz.get? (some d) = some p)
    (z : List (Option String)) : ∃ r, zProduct cz s withPair ds z = .ok r := by
  induction ds generalizing z with
  | nil => exact ⟨z, rfl⟩
  | cons d ds ih =>
    obtain ⟨⟨g, hg⟩, p, hp⟩ := h d (by simp)
    unfold zProduct
    rw [(Dict.getE_ok_iff _ _ _).2 hg]
    simp only
    split
    · exact ih (fun e he => h e (by simp [he])) _
    · rw [(Dict.getE_ok_iff _ _ _).2 hp]
      exact ih (fun e he => h e (by simp [he])) _

/-! ### sorting -/

theorem insertStr_perm (s : String) (l : List String) : (insertStr s l).Perm (s :: l) := by
  induction l with
  | nil => exact .refl _
  | cons t l ih =>
    unfold insertStr
    split
    · exact (ih.cons t).trans (.swap s t l)
    · exact .refl _

theorem sortStr_perm (l : List String) : (sortStr l).Perm l := by
  induction l with
  | nil => exact .refl _
  | cons s l ih => exact (insertStr_perm s _).trans (ih.cons s)

theorem insertStr_sorted (s : String) (l : List String) (h : l.Pairwise (· ≤ ·)) : (insertStr s l).Pairwise (· ≤ ·) := by
  induction l with
  | nil => simp [insertStr]
  | cons t l ih =>
    rw [List.pairwise_cons] at h
    unfold insertStr
    split
    · rename_i hts
      rw [List.pairwise_cons]
      refine ⟨fun u hu => ?_, ih h.2⟩
      rcases List.mem_cons.1 ((insertStr_perm s l).mem_iff.1 hu) with rfl | hu
      · exact le_of_lt hts
      · exact h.1 u hu
    · rename_i hts
      have hst : s ≤ t := not_lt.1 hts
      rw [List.pairwise_cons, List.pairwise_cons]
      refine ⟨fun u hu => ?_, h⟩
      rcases List.mem_cons.1 hu with rfl | hu
      · exact hst
      · exact hst.trans (h.1 u hu)

theorem sortStr_sorted (l : List String) : (sortStr l).Pairwise (· ≤ ·) := by
  induction l with
  | nil => simp [sortStr]
  | cons s l ih => exact insertStr_sorted s _ ih

theorem sortStr_eq_iff {l l' : List String} : sortStr l = sortStr l' ↔ l.Perm l' := by
  constructor
  · intro h
    exact (sortStr_perm l).symm.trans (h ▸ sortStr_perm l')
  · intro h
    exact List.Perm.eq_of_pairwise (fun a b _ _ h1 h2 => le_antisymm h1 h2) (sortStr_sorted l) (sortStr_sorted l')
      ((sortStr_perm l).trans (h.trans (sortStr_perm l').symm))

theorem sortOpt_ok {z : List (Option String)} {key : List String} (h : sortOpt z = .ok key) :
    none ∉ z ∧ key = sortStr (z.filterMap id) := by
  unfold sortOpt at h
  split at h
  · split at h <;> simp at h
  · rename_i hn
    simp only [Except.ok.injEq] at h
    exact ⟨hn, h.symm⟩

theorem osum_filterMap (f : String → ZMod 2) (z : List (Option String)) : osum f z = ((z.filterMap id).map f).sum := by
  unfold osum
  induction z with
  | nil => rfl
  | cons e z ih => cases e <;> simp [ih]

/-! ### the dictionary of Z stabilizers -/

theorem zstabDict_get {l : Layout} {key : List String} {z : String} (zs : List String)
    (h : (zstabDict l zs).get? key = some z) : z ∈ zs ∧ key = sortStr (l.getNeighbors [z] none) := by
  unfold zstabDict at h
  have key' : ∀ (zs : List String) (acc : Dict (List String) String),
      (zs.foldl (fun acc z => Dict.set acc (sortStr (l.getNeighbors [z] none)) z) acc).get? key = some z →
      (z ∈ zs ∧ key = sortStr (l.getNeighbors [z] none)) ∨ acc.get? key = some z := by
    intro zs
    induction zs with
    | nil => intro acc h; exact Or.inr h
    | cons w zs ih =>
      intro acc h
      rw [List.foldl_cons] at h
      rcases ih _ h with ⟨h1, h2⟩ | h
      · exact Or.inl ⟨by simp [h1], h2⟩
      · rw [Dict.get?_set] at h
        split at h
        · rename_i hk
          simp only [Option.some.injEq] at h
          subst h
          exact Or.inl ⟨by simp, hk.symm⟩
        · exact Or.inr h
  rcases key' zs [] h with h | h
  · exact h
  · simp at h

theorem zstabDict_exists {l : Layout} {z : String} (zs : List String) (h : z ∈ zs) :
    ∃ z', (zstabDict l zs).get? (sortStr (l.getNeighbors [z] none)) = some z' := by
  unfold zstabDict
  have key' : ∀ (zs : List String) (acc : Dict (List String) String) (key : List String),
      (key ∈ acc.keys ∨ ∃ z ∈ zs, key = sortStr (l.getNeighbors [z] none)) →
      key ∈ (zs.foldl (fun acc z => Dict.set acc (sortStr (l.getNeighbors [z] none)) z) acc).keys := by
    intro zs
    induction zs with
    | nil =>
      rintro acc key (h | ⟨z, hz, -⟩)
      · exact h
      · simp at hz
    | cons w zs ih =>
      intro acc key h
      rw [List.foldl_cons]
      refine ih _ _ ?_
      rw [Dict.mem_keys_set]
      rcases h with h | ⟨z, hz, h⟩
      · exact Or.inl (Or.inr h)
      · rcases List.mem_cons.1 hz with rfl | hz
        · exact Or.inl (Or.inl h)
        · exact Or.inr ⟨z, hz, h⟩
  exact Option.isSome_iff_exists.1 ((Dict.get?_isSome_iff _ _).2 (key' zs [] _ (Or.inr ⟨z, h, rfl⟩)))

/-! ### the loop -/

/-- What the loop finds for the X ancilla `x`. -/
def Finds (l : Layout) (zs : Dict (List String) String) (cz : Dict (Option String) (Option String))
    (s : Dict (Option String) String) (withPair : Bool) (x z : String) : Prop :=
  ∃ r key, zProduct cz s withPair (sortStr (l.getNeighbors [x] none)) [] = .ok r ∧ sortOpt r = .ok key ∧
    zs.get? key = some z

theorem newStabS_ok {l : Layout} {zs : Dict (List String) String} {cz : Dict (Option String) (Option String)}
    {s : Dict (Option String) String} {withPair : Bool} {skip : Option String} (xs : List String)
    {acc r : Dict String (List String)} (h : newStabS l zs cz s withPair skip xs acc = .ok r)
    (hd : ∀ key z, zs.get? key = some z → z ∉ xs) :
    (∀ x ∈ xs, (some x = skip ∧ r.get? x = some [x]) ∨
      (some x ≠ skip ∧ ∃ z, Finds l zs cz s withPair x z ∧ r.get? x = some [x, z] ∧ r.get? z = some [z])) ∧
    ∀ q, q ∉ xs → r.get? q = acc.get? q ∨ (r.get? q = some [q] ∧ ∃ x ∈ xs, some x ≠ skip ∧ Finds l zs cz s withPair x q) := by
  induction xs generalizing acc with
  | nil =>
    simp only [newStabS, Except.ok.injEq] at h
    subst h
    exact ⟨by simp, fun q _ => Or.inl rfl⟩
  | cons x xs ih =>
    have hd' : ∀ key z, zs.get? key = some z → z ∉ xs := fun key z hz hm => hd key z hz (by simp [hm])
    unfold newStabS at h
    split at h
    · rename_i hsk
      obtain ⟨h1, h2⟩ := ih h hd'
      refine ⟨fun y hy => ?_, fun q hq => ?_⟩
      · by_cases hm : y ∈ xs
        · exact h1 y hm
        · have hyx : y = x := by simpa [hm] using hy
          subst hyx
          refine Or.inl ⟨hsk, ?_⟩
          rcases h2 y hm with h3 | ⟨h3, -⟩
          · rw [h3, Dict.get?_set_self]
          · exact h3
      · simp only [List.mem_cons, not_or] at hq
        rcases h2 q hq.2 with h3 | ⟨h3, y, hy, h4⟩
        · left
          rw [h3, Dict.get?_set, if_neg (Ne.symm hq.1)]
        · exact Or.inr ⟨h3, y, by simp [hy], h4⟩
    · rename_i hsk
      cases hz : zProduct cz s withPair (sortStr (l.getNeighbors [x] none)) [] with
      | error e => simp [hz] at h
      | ok zr =>
        simp only [hz] at h
        cases hso : sortOpt zr with
        | error e => simp [hso] at h
        | ok key =>
          simp only [hso] at h
          cases hg : zs.getE key with
          | error e => simp [hg] at h
          | ok az =>
            simp only [hg] at h
            have hg' := (Dict.getE_ok_iff _ _ _).1 hg
            have hf : Finds l zs cz s withPair x az := ⟨zr, key, hz, hso, hg'⟩
            obtain ⟨h1, h2⟩ := ih h hd'
            have hax : az ≠ x := fun he => hd key az hg' (by simp [he])
            have haz : az ∉ xs := hd' key az hg'
            have hraz : r.get? az = some [az] := by
              rcases h2 az haz with h3 | ⟨h3, -⟩
              · rw [h3, Dict.get?_set_self]
              · exact h3
            refine ⟨fun y hy => ?_, fun q hq => ?_⟩
            · by_cases hm : y ∈ xs
              · exact h1 y hm
              · have hyx : y = x := by simpa [hm] using hy
                subst hyx
                refine Or.inr ⟨hsk, ?_⟩
                rcases h2 y hm with h3 | ⟨h3, w, hw, -, r', key', k1, k2, k3⟩
                · refine ⟨az, hf, ?_, hraz⟩
                  rw [h3, Dict.get?_set, if_neg hax, Dict.get?_set_self]
                · exact absurd (by simp) (hd key' y k3)
            · simp only [List.mem_cons, not_or] at hq
              rcases h2 q hq.2 with h3 | ⟨h3, y, hy, h4⟩
              · by_cases hqa : q = az
                · subst hqa
                  exact Or.inr ⟨hraz, x, by simp, hsk, hf⟩
                · left
                  rw [h3, Dict.get?_set, if_neg (Ne.symm hqa), Dict.get?_set, if_neg (Ne.symm hq.1)]
              · exact Or.inr ⟨h3, y, by simp [hy], h4⟩

theorem newStabS_exists {l : Layout} {zs : Dict (List String) String} {cz : Dict (Option String) (Option String)}
    {s : Dict (Option String) String} {withPair : Bool} {skip : Option String} (xs : List String)
    (h : ∀ x ∈ xs, some x ≠ skip → ∃ z, Finds l zs cz s withPair x z) (acc : Dict String (List String)) :
    ∃ r, newStabS l zs cz s withPair skip xs acc = .ok r := by
  induction xs generalizing acc with
  | nil => exact ⟨acc, rfl⟩
  | cons x xs ih =>
    have ih := fun acc => ih (fun y hy => h y (by simp [hy])) acc
    unfold newStabS
    split
    · exact ih _
    · rename_i hsk
      obtain ⟨z, r, key, h1, h2, h3⟩ := h x (by simp) hsk
      simp only [h1, h2, (Dict.getE_ok_iff _ _ _).2 h3]
      exact ih _

/-- What it means that the loop finds `z`. -/
theorem Finds.spec {l : Layout} {L : List (String × Site × Kind)} {dirs : List (Site × String)} (hg : OnGrid l L dirs)
    {cz : Dict (Option String) (Option String)}
    {s : Dict (Option String) String} {withPair : Bool} {x z : String} (hx : x ∈ xOf L)
    (h : Finds l (zstabDict l (zOf L)) cz s withPair x z)
    {P : String → Option String} {G : String → String}
    (hs : ∀ d ∈ dataOf L, s.get? (some d) = some (G d)) (hG : ∀ d ∈ dataOf L, G d = "I" ∨ G d = "S" ∨ G d = "S_DAG")
    (hcz : ∀ d ∈ dataOf L, cz.get? (some d) = some (P d)) (hP : ∀ d ∈ dataOf L, P d ≠ some d)
    (hw : withPair = false → ∀ d ∈ dataOf L, G d ≠ "I" → P d = none) :
    z ∈ zOf L ∧ ∀ f, ((l.getNeighbors [x] none).map (sTerm P G f)).sum = ((l.getNeighbors [z] none).map f).sum := by
  obtain ⟨r, key, h1, h2, h3⟩ := h
  obtain ⟨hz, hkey⟩ := zstabDict_get _ h3
  obtain ⟨hn, hkey'⟩ := sortOpt_ok h2
  obtain ⟨h4, h5⟩ := zProduct_ok _ List.nodup_nil h1
  have hd : ∀ d ∈ sortStr (l.getNeighbors [x] none), d ∈ dataOf L := fun d hd =>
    nbr_data hg (mem_anc_of_x hx) ((sortStr_perm _).mem_iff.1 hd)
  refine ⟨hz, fun f => ?_⟩
  have h6 := h5 P G (fun d h => hs d (hd d h)) (fun d h => hG d (hd d h)) (fun d h => hcz d (hd d h))
    (fun d h => hP d (hd d h)) (fun w d h => hw w d (hd d h)) f
  rw [hkey', sortStr_eq_iff] at hkey
  rw [osum_filterMap, (hkey.map f).sum_eq, ((sortStr_perm _).map (sTerm P G f)).sum_eq] at h6
  simpa [osum] using h6.symm

theorem zProduct_none {cz : Dict (Option String) (Option String)} {s : Dict (Option String) String} {withPair : Bool}
    (ds : List String) {z r : List (Option String)} (hz : none ∉ z) (h : zProduct cz s withPair ds z = .ok r)
    (hn : ∀ d ∈ ds, cz.get? (some d) = some none → withPair = false ∧ s.get? (some d) ≠ some "I") : none ∉ r := by
  induction ds generalizing z with
  | nil =>
    simp only [zProduct, Except.ok.injEq] at h
    exact h ▸ hz
  | cons d ds ih =>
    have hmem : ∀ {a b : List (Option String)}, none ∉ a → none ∉ b → none ∉ Blocks.symmDiff a b := by
      intro a b ha hb h
      unfold Blocks.symmDiff diff at h
      simp only [List.mem_append, List.mem_filter] at h
      rcases h with h | h
      · exact ha h.1
      · exact hb h.1
    unfold zProduct at h
    cases hs : s.getE (some d) with
    | error e => simp [hs] at h
    | ok g =>
      simp only [hs] at h
      have hs' := (Dict.getE_ok_iff _ _ _).1 hs
      split at h
      · exact ih (hmem hz (by simp)) h fun e he => hn e (by simp [he])
      · rename_i hc
        cases hcz : cz.getE (some d) with
        | error e => simp [hcz] at h
        | ok p =>
          simp only [hcz] at h
          have hcz' := (Dict.getE_ok_iff _ _ _).1 hcz
          refine ih (hmem hz ?_) h fun e he => hn e (by simp [he])
          have hp : p ≠ none := by
            rintro rfl
            obtain ⟨h1, h2⟩ := hn d (by simp) hcz'
            refine hc ⟨fun hg => h2 (hg ▸ hs'), by simp [h1]⟩
          split
          · simpa using Ne.symm hp
          · by_cases hpd : p = some d
            · subst hpd; simp [Layout.dedup]
            · simp [Layout.dedup, hpd, Ne.symm hp]

theorem perm_of_sums {a b : List String} (ha : a.Nodup) (hb : b.Nodup)
    (h : ∀ f : String → ZMod 2, (a.map f).sum = (b.map f).sum) : a.Perm b := by
  rw [List.perm_ext_iff_of_nodup ha hb]
  have key : ∀ (l : List String), l.Nodup → ∀ e, ((l.map fun d => if d = e then (1 : ZMod 2) else 0).sum = 1 ↔ e ∈ l) := by
    intro l hl e
    by_cases he : e ∈ l
    · have := sumIf_unique hl (p := fun d => d = e) (f := fun _ => (1 : ZMod 2)) he rfl fun b _ h => h
      unfold sumIf at this
      simp [this, he]
    · have := sumIf_none (l := l) (p := fun d => d = e) (f := fun _ => (1 : ZMod 2)) fun b hb h => he (h ▸ hb)
      unfold sumIf at this
      simp [this, he]
  intro e
  rw [← key a ha e, ← key b hb e, h]

/-- When the loop finds a stabilizer. -/
theorem finds_exists {l : Layout} {L : List (String × Site × Kind)} {dirs : List (Site × String)} (hg : OnGrid l L dirs)
    {cz : Dict (Option String) (Option String)}
    {s : Dict (Option String) String} {withPair : Bool} {x z : String} (hx : x ∈ xOf L)
    {P : String → Option String} {G : String → String}
    (hs : ∀ d ∈ dataOf L, s.get? (some d) = some (G d)) (hG : ∀ d ∈ dataOf L, G d = "I" ∨ G d = "S" ∨ G d = "S_DAG")
    (hcz : ∀ d ∈ dataOf L, cz.get? (some d) = some (P d)) (hP : ∀ d ∈ dataOf L, P d ≠ some d)
    (hw : withPair = false → ∀ d ∈ dataOf L, G d ≠ "I" → P d = none)
    (hn : ∀ d ∈ dataOf L, P d = none → withPair = false ∧ G d ≠ "I")
    (hz : z ∈ zOf L) (h : ∀ f, ((l.getNeighbors [x] none).map (sTerm P G f)).sum = ((l.getNeighbors [z] none).map f).sum) :
    ∃ z', Finds l (zstabDict l (zOf L)) cz s withPair x z' ∧ z' ∈ zOf L ∧
      (l.getNeighbors [z'] none).Perm (l.getNeighbors [z] none) := by
  have hd : ∀ d ∈ sortStr (l.getNeighbors [x] none), d ∈ dataOf L := fun d hd =>
    nbr_data hg (mem_anc_of_x hx) ((sortStr_perm _).mem_iff.1 hd)
  obtain ⟨r, hr⟩ := zProduct_exists (cz := cz) (s := s) (withPair := withPair) (sortStr (l.getNeighbors [x] none))
    (fun d h => ⟨⟨_, hs d (hd d h)⟩, _, hcz d (hd d h)⟩) []
  obtain ⟨h4, h5⟩ := zProduct_ok _ List.nodup_nil hr
  have h6 := h5 P G (fun d h => hs d (hd d h)) (fun d h => hG d (hd d h)) (fun d h => hcz d (hd d h))
    (fun d h => hP d (hd d h)) (fun w d h => hw w d (hd d h))
  have h7 := zProduct_none _ (by simp) hr fun d h hc => by
    rw [hcz d (hd d h), Option.some.injEq] at hc
    rw [hs d (hd d h)]
    exact ⟨(hn d (hd d h) hc).1, fun he => (hn d (hd d h) hc).2 (by simpa using he)⟩
  have h8 : (r.filterMap id).Perm (l.getNeighbors [z] none) := by
    refine perm_of_sums ?_ (hg.neighbors_nodup z) fun f => ?_
    · refine List.Nodup.filterMap ?_ h4
      intro a b c h1 h2
      simp only [id, Option.mem_def] at h1 h2
      rw [h1, h2]
    · have := h6 f
      rw [osum_filterMap, ((sortStr_perm _).map (sTerm P G f)).sum_eq, h f] at this
      simpa [osum] using this
  obtain ⟨z', hz'⟩ := zstabDict_exists (l := l) _ hz
  have hz2 := zstabDict_get _ hz'
  refine ⟨z', ⟨r, _, hr, ?_, hz'⟩, hz2.1, sortStr_eq_iff.1 hz2.2.symm⟩
  unfold sortOpt
  rw [if_neg h7, sortStr_eq_iff.2 h8]

section
variable {l : Layout} {L : List (String × Site × Kind)} {dirs : List (Site × String)} {lab : String}
  {P : String → Option String} {G : String → String} {nm : NoiseModel}

/-- The gate multiplies the logical X with the logical Z. -/
theorem STable.mapsLogicalX (hg : OnGrid l L dirs) (hr : CanRun nm l) (o : SetOrder)
    (hcode : l.code = "rotated_surface_code" ∨ l.code = "unrotated_surface_code") (hlab : firstLogical l = .ok lab)
    (ht : STable l L ("trans-s_" ++ lab) P G) {X Z : List String} (hX : l.logX.get? lab = some X) (hZ : l.logZ.get? lab = some Z)
    (hXd : ∀ d ∈ X, d ∈ dataOf L) (T : List String) (hT : ∀ z ∈ T, z ∈ zOf L)
    (h : ∀ f, (X.map (sTerm P G f)).sum = (Z.map f).sum + (T.map fun z => ((l.getNeighbors [z] none).map f).sum).sum) :
    MapsLogical nm [l] (sumGen (transSIter o nm l)) l lab true [(l, lab, true), (l, lab, false)] := by
  have hb := acts_transS hg hr o hcode hlab ht.sym
  refine mapsLogical_of_acts (image := [true, false]) (S := X) (T := T) hg hr hb (by simpa using hX) hXd
    (fun z hz => mem_anc_of_z (hT z hz)) fun fx fz => ?_
  simp only [if_true, List.map_cons, List.map_nil, List.sum_cons, List.sum_nil, add_zero, Bool.false_eq_true, if_false, hX,
    hZ, Option.getD_some]
  have e1 : (X.map fun q => fz q + if q ∈ dataOf L then (if G q = "S" ∨ G q = "S_DAG" then fx q else 0) +
        (match P q with
          | some e => fx e
          | none => 0) else 0).sum = (X.map fz).sum + (X.map (sTerm P G fx)).sum := by
    rw [← List.sum_map_add]
    congr 1
    refine List.map_congr_left fun d hd => ?_
    rw [if_pos (hXd d hd)]
    rfl
  have e2 : (T.map (stabSum l L fx fz)).sum = (T.map fun z => ((l.getNeighbors [z] none).map fx).sum).sum := by
    congr 1
    refine List.map_congr_left fun z hz => ?_
    unfold stabSum
    simp only [if_neg (x_not_z hg (hT z hz))]
  rw [e2, add_assoc, ← h fx]
  exact e1

/-- The gate leaves the logical Z. -/
theorem STable.mapsLogicalZ (hg : OnGrid l L dirs) (hr : CanRun nm l) (o : SetOrder)
    (hcode : l.code = "rotated_surface_code" ∨ l.code = "unrotated_surface_code") (hlab : firstLogical l = .ok lab)
    (ht : STable l L ("trans-s_" ++ lab) P G) {Z : List String} (hZ : l.logZ.get? lab = some Z)
    (hZd : ∀ d ∈ Z, d ∈ dataOf L) :
    MapsLogical nm [l] (sumGen (transSIter o nm l)) l lab false [(l, lab, false)] := by
  have hb := acts_transS hg hr o hcode hlab ht.sym
  refine mapsLogical_of_acts (image := [false]) (S := Z) (T := []) hg hr hb (by simpa using hZ) hZd (by simp) fun fx fz => ?_
  simp [hZ]

end

end SurfaceSim
