import Verif.Spec.CircuitOps
import Verif.Model.CircuitOps
import Verif.Lemmas.NoiseElems
import Mathlib.Data.List.Perm.Basic
import Mathlib.Data.List.Flatten

namespace SurfaceSim
open Spec CircuitOps

theorem Circuit.concat_singleton (a : Circuit) (i : Instr) : Circuit.concat a [i] = Circuit.append a i := by
  simp [Circuit.concat]

theorem take_one_drop {α : Type} (b : List α) (t : Nat) : (b.drop t).take 1 = (b[t]?).toList := by
  rw [List.take_one, List.head?_drop]

theorem Circuit.concat_toList (a : Circuit) (o : Option Instr) :
    Circuit.concat a o.toList = o.toList.foldl Circuit.append a := by
  cases o <;> simp [Circuit.concat]

/-- Transposition: first entries of all blocks, then second entries, ... -/
def transposed (G : List Circuit) (n : Nat) : List Instr :=
  (List.range n).flatMap fun t => G.filterMap fun b => b[t]?

theorem foldl_flatMap {α β γ : Type} (l : List α) (f : α → List β) (g : γ → β → γ) (a : γ) :
    (l.flatMap f).foldl g a = l.foldl (fun acc x => (f x).foldl g acc) a := by
  induction l generalizing a with
  | nil => rfl
  | cons x l ih => simp [List.flatMap_cons, List.foldl_append, ih]

theorem filterMap_eq_flatMap_toList {α β : Type} (l : List α) (f : α → Option β) :
    l.filterMap f = l.flatMap fun a => (f a).toList := by
  induction l with
  | nil => rfl
  | cons a l ih => cases h : f a <;> simp [List.filterMap_cons, h, ih, List.flatMap_cons]

theorem mergeTickBlocks_eq (b0 : Circuit) (bs : List Circuit)
    (h : ∀ b ∈ bs, b.length = b0.length) :
    mergeTickBlocks (b0 :: bs) = .ok ((transposed ((groupBlocks (b0 :: bs) []).map Prod.snd).flatten
      b0.length).foldl Circuit.append []) := by
  have hany : (bs.any fun b => decide (b.length ≠ b0.length)) = false := by
    rw [List.any_eq_false]
    intro b hb
    simp [h b hb]
  simp only [mergeTickBlocks, hany]
  simp only [Bool.false_eq_true, if_false]
  congr 1
  unfold transposed
  rw [foldl_flatMap]
  congr 1
  funext acc t
  generalize (groupBlocks (b0 :: bs) []).map Prod.snd = gs
  induction gs generalizing acc with
  | nil => rfl
  | cons g gs ih =>
    rw [List.foldl_cons, ih, List.flatten_cons, List.filterMap_append, List.foldl_append]
    congr 1
    clear ih
    induction g generalizing acc with
    | nil => rfl
    | cons b g ih =>
      rw [List.foldl_cons, ih, filterMap_eq_flatMap_toList, filterMap_eq_flatMap_toList,
        List.flatMap_cons, List.foldl_append, take_one_drop, Circuit.concat_toList]

theorem flatten_set_perm (d : Dict (List Gate) (List Circuit)) (k : List Gate) (b : Circuit) :
    ((d.set k ((d.get? k).getD [] ++ [b])).map Prod.snd).flatten.Perm
      ((d.map Prod.snd).flatten ++ [b]) := by
  induction d with
  | nil => simp [Dict.set]
  | cons p d ih =>
    obtain ⟨a, v⟩ := p
    by_cases h : a = k
    · subst h
      simp only [Dict.set, if_true, Dict.get?_cons, Option.getD_some, List.map_cons, List.flatten_cons,
        List.append_assoc]
      exact List.Perm.append_left _ (List.perm_append_comm)
    · simp only [Dict.set, h, if_false, Dict.get?_cons, List.map_cons, List.flatten_cons,
        List.append_assoc]
      exact List.Perm.append_left _ ih

theorem groupBlocks_perm (bs : List Circuit) (d : Dict (List Gate) (List Circuit)) :
    ((groupBlocks bs d).map Prod.snd).flatten.Perm ((d.map Prod.snd).flatten ++ bs) := by
  induction bs generalizing d with
  | nil => simp [groupBlocks]
  | cons b bs ih =>
    refine (ih _).trans ?_
    have := flatten_set_perm d (b.map Instr.gate) b
    refine (List.Perm.append_right bs this).trans ?_
    simp

theorem groups_perm (bs : List Circuit) :
    ((groupBlocks bs []).map Prod.snd).flatten.Perm bs := by
  simpa using groupBlocks_perm bs []

/-- Every group is keyed by the common signature of its members. -/
def KeyedBySig (d : Dict (List Gate) (List Circuit)) : Prop :=
  ∀ p ∈ d, ∀ b ∈ p.2, b.map Instr.gate = p.1

theorem KeyedBySig.set {d : Dict (List Gate) (List Circuit)} (h : KeyedBySig d) (b : Circuit) :
    KeyedBySig (d.set (b.map Instr.gate) ((d.get? (b.map Instr.gate)).getD [] ++ [b])) := by
  generalize hk : b.map Instr.gate = k
  induction d with
  | nil =>
    intro p hp b' hb'
    simp [Dict.set] at hp
    subst hp
    simp at hb'
    rw [hb', hk]
  | cons q d ih =>
    obtain ⟨a, v⟩ := q
    have hd : KeyedBySig d := fun p hp => h p (List.mem_cons_of_mem _ hp)
    by_cases ha : a = k
    · subst ha
      simp only [Dict.set, if_true, Dict.get?_cons, Option.getD_some]
      intro p hp b' hb'
      rcases List.mem_cons.1 hp with rfl | hp
      · rcases List.mem_append.1 hb' with hb' | hb'
        · exact h (a, v) (by simp) b' hb'
        · simp at hb'; rw [hb', hk]
      · exact hd p hp b' hb'
    · simp only [Dict.set, ha, if_false, Dict.get?_cons]
      intro p hp
      rcases List.mem_cons.1 hp with rfl | hp
      · exact h (a, v) (by simp)
      · exact ih hd p hp

theorem flatten_filter_sig {d : Dict (List Gate) (List Circuit)} (h : KeyedBySig d)
    (hn : d.keys.Nodup) (k : List Gate) :
    ((d.map Prod.snd).flatten.filter fun b => b.map Instr.gate = k) = (d.get? k).getD [] := by
  induction d with
  | nil => rfl
  | cons q d ih =>
    obtain ⟨a, v⟩ := q
    have hd : KeyedBySig d := fun p hp => h p (List.mem_cons_of_mem _ hp)
    simp only [Dict.keys, List.map_cons, List.nodup_cons] at hn
    rw [List.map_cons, List.flatten_cons, List.filter_append, ih hd hn.2, Dict.get?_cons]
    have hv := h (a, v) (by simp)
    simp only at hv
    by_cases ha : a = k
    · subst ha
      have h1 : v.filter (fun b => b.map Instr.gate = a) = v := by
        rw [List.filter_eq_self]
        intro b hb
        simp [hv b hb]
      have h2 : Dict.get? d a = none := (Dict.get?_eq_none_iff d a).2 hn.1
      rw [h1, h2]
      simp
    · have h1 : v.filter (fun b => b.map Instr.gate = k) = [] := by
        rw [List.filter_eq_nil_iff]
        intro b hb
        simp [hv b hb, ha]
      rw [h1]
      simp [ha]

theorem groupBlocks_spec (bs : List Circuit) (d : Dict (List Gate) (List Circuit))
    (h : KeyedBySig d) (hn : d.keys.Nodup) :
    KeyedBySig (groupBlocks bs d) ∧ (groupBlocks bs d).keys.Nodup ∧
    ∀ k, ((groupBlocks bs d).get? k).getD [] =
      (d.get? k).getD [] ++ bs.filter fun b => b.map Instr.gate = k := by
  induction bs generalizing d with
  | nil => exact ⟨h, hn, fun k => by simp [groupBlocks]⟩
  | cons b bs ih =>
    obtain ⟨h1, h2, h3⟩ := ih _ (h.set b) (Dict.keys_nodup_set hn _ _)
    refine ⟨h1, h2, fun k => ?_⟩
    unfold groupBlocks
    rw [h3 k, Dict.get?_set]
    by_cases hk : b.map Instr.gate = k
    · subst hk
      simp
    · have : ¬ k = b.map Instr.gate := fun e => hk e.symm
      simp [hk]

/-- Within one signature the order of the blocks is kept. -/
theorem groups_filter_sig (bs : List Circuit) (k : List Gate) :
    ((((groupBlocks bs []).map Prod.snd).flatten).filter fun b => b.map Instr.gate = k) =
      bs.filter fun b => b.map Instr.gate = k := by
  obtain ⟨h1, h2, h3⟩ := groupBlocks_spec bs [] (by intro p hp; simp at hp) (by simp [Dict.keys])
  rw [flatten_filter_sig h1 h2, h3]
  simp

theorem filterMap_range_getElem {α : Type} (b : List α) :
    (List.range b.length).filterMap (fun t => b[t]?) = b := by
  induction b with
  | nil => rfl
  | cons a b ih =>
    rw [List.length_cons, List.range_succ_eq_map, List.filterMap_cons]
    simp only [List.getElem?_cons_zero, List.filterMap_map]
    congr 1

theorem transposed_perm (G : List Circuit) (n : Nat) (h : ∀ b ∈ G, b.length = n) :
    (transposed G n).Perm G.flatten := by
  unfold transposed
  induction G with
  | nil => simp
  | cons b G ih =>
    have hb : b.length = n := h b (by simp)
    have e : (List.range n).flatMap (fun t => (b :: G).filterMap fun b => b[t]?) =
        (List.range n).flatMap (fun t => (b[t]?).toList ++ G.filterMap fun b => b[t]?) := by
      congr 1
      funext t
      rw [List.filterMap_cons]
      cases b[t]? <;> simp
    rw [e, List.flatten_cons]
    refine (List.flatMap_append_perm _ _ _).symm.trans ?_
    refine List.Perm.append ?_ (ih fun b hb => h b (List.mem_cons_of_mem _ hb))
    rw [← filterMap_eq_flatMap_toList, ← hb, filterMap_range_getElem]

theorem sublist_flatMap {α β : Type} (l : List α) (f g : α → List β)
    (h : ∀ a ∈ l, (f a).Sublist (g a)) : (l.flatMap f).Sublist (l.flatMap g) := by
  induction l with
  | nil => simp
  | cons a l ih =>
    rw [List.flatMap_cons, List.flatMap_cons]
    exact List.Sublist.append (h a (by simp)) (ih fun x hx => h x (List.mem_cons_of_mem _ hx))

theorem sublist_transposed (G : List Circuit) (n : Nat) (b : Circuit) (hb : b ∈ G)
    (hn : b.length = n) : b.Sublist (transposed G n) := by
  unfold transposed
  have e : (List.range n).flatMap (fun t => (b[t]?).toList) = b := by
    rw [← filterMap_eq_flatMap_toList, ← hn, filterMap_range_getElem]
  conv_lhs => rw [← e]
  refine sublist_flatMap _ _ _ fun t _ => ?_
  rw [filterMap_eq_flatMap_toList]
  obtain ⟨l, r, rfl⟩ := List.append_of_mem hb
  rw [List.flatMap_append, List.flatMap_cons]
  exact (List.sublist_append_left _ _).trans (List.sublist_append_right _ _)

/-! ### elementary content of circuits built with `append` -/

theorem measOrder_nil : measOrder [] = [] := rfl

theorem measOrder_append (a b : Circuit) : measOrder (a ++ b) = measOrder a ++ measOrder b := by
  simp [measOrder]

theorem measOrder_circuit_append (c : Circuit) (i : Instr) :
    measOrder (Circuit.append c i) = measOrder c ++ measOrder [i] := by
  unfold Circuit.append
  cases h : c.getLast? with
  | none =>
    have : c = [] := List.getLast?_eq_none_iff.1 h
    subst this
    simp [measOrder]
  | some l =>
    have hc : c = c.dropLast ++ [l] := by
      obtain ⟨ys, rfl⟩ := List.getLast?_eq_some_iff.1 h
      simp
    simp only
    split
    · rename_i hf
      conv_rhs => rw [hc]
      simp only [measOrder_append]
      rw [List.append_assoc]
      congr 1
      simp only [measOrder, List.flatMap_cons, List.flatMap_nil, List.append_nil, hf.1]
      split <;> simp [Instr.qubits]
    · rw [measOrder_append]

theorem measOrder_foldl (L : List Instr) (c : Circuit) :
    measOrder (L.foldl Circuit.append c) = measOrder c ++ measOrder L := by
  induction L generalizing c with
  | nil => simp [measOrder]
  | cons i L ih =>
    rw [List.foldl_cons, ih, measOrder_circuit_append, List.append_assoc, ← measOrder_append]
    rfl

end SurfaceSim

namespace SurfaceSim
open Spec CircuitOps

theorem elems_foldl (L : List Instr) (c : Circuit) (hc : EvenPairs c) (hL : WellPaired L) :
    elems (L.foldl Circuit.append c) = elems c ++ elems L ∧ EvenPairs (L.foldl Circuit.append c) := by
  induction L generalizing c with
  | nil => exact ⟨by simp [elems], hc⟩
  | cons i L ih =>
    obtain ⟨h1, h2⟩ := elems_circuit_append c i hc (hL i (by simp))
    obtain ⟨h3, h4⟩ := ih (Circuit.append c i) h2 (fun j hj => hL j (List.mem_cons_of_mem _ hj))
    refine ⟨?_, h4⟩
    rw [List.foldl_cons, h3, h1, List.append_assoc]
    simp [elems]

/-- Blocks that are kept apart by the grouping do not contribute to a fixed signature. -/
theorem flatMap_filter_of_nil {α β : Type} (l : List α) (p : α → Bool) (f : α → List β)
    (h : ∀ a ∈ l, p a = false → f a = []) : l.flatMap f = (l.filter p).flatMap f := by
  induction l with
  | nil => rfl
  | cons a l ih =>
    have ih' := ih fun x hx => h x (List.mem_cons_of_mem _ hx)
    cases hp : p a
    · rw [List.flatMap_cons, List.filter_cons_of_neg (by simp [hp]), h a (by simp) hp, ih']
      rfl
    · rw [List.flatMap_cons, List.filter_cons_of_pos hp, List.flatMap_cons, ih']

/-- A block with at most one measurement instruction measures only at the position of that instruction. -/
theorem measOrder_at (b : Circuit) (t0 : Nat)
    (h : ∀ t, t ≠ t0 → ∀ i, b[t]? = some i → i.gate.isMeas = false) :
    measOrder b = measOrder (b[t0]?).toList := by
  induction b generalizing t0 with
  | nil => simp [measOrder]
  | cons i b ih =>
    cases t0 with
    | zero =>
      have hb : measOrder b = [] := by
        unfold measOrder
        rw [List.flatMap_eq_nil_iff]
        intro j hj
        obtain ⟨t, ht⟩ := List.getElem?_of_mem hj
        have := h (t + 1) (by omega) j (by simpa using ht)
        simp [this]
      have : measOrder (i :: b) = measOrder [i] ++ measOrder b := measOrder_append [i] b
      rw [this, hb]
      simp
    | succ t0 =>
      have hi : measOrder [i] = [] := by
        have := h 0 (by omega) i (by simp)
        simp [measOrder, this]
      have hc : measOrder (i :: b) = measOrder [i] ++ measOrder b := measOrder_append [i] b
      rw [hc, hi, ih t0 fun t ht j hj => h (t + 1) (by omega) j (by simpa using hj)]
      simp

theorem measOrder_filterMap (G : List Circuit) (t : Nat) :
    measOrder (G.filterMap fun b => b[t]?) = G.flatMap fun b => measOrder (b[t]?).toList := by
  induction G with
  | nil => rfl
  | cons b G ih =>
    rw [List.flatMap_cons, ← ih, ← measOrder_append]
    congr 1
    rw [List.filterMap_cons]
    cases b[t]? <;> simp

/-- Number of measurement instructions. -/
theorem meas_position (sig : List Gate) (h : (sig.filter Gate.isMeas).length ≤ 1) :
    ∃ t0 : Nat, ∀ t : Nat, t ≠ t0 → ∀ g : Gate, sig[t]? = some g → g.isMeas = false := by
  induction sig with
  | nil => exact ⟨0, fun t _ g hg => by simp at hg⟩
  | cons g0 sig ih =>
    by_cases hg : g0.isMeas
    · refine ⟨0, fun t ht g hgt => ?_⟩
      rw [List.filter_cons_of_pos hg, List.length_cons] at h
      have h0 : sig.filter Gate.isMeas = [] := List.length_eq_zero_iff.1 (by omega)
      rw [List.filter_eq_nil_iff] at h0
      obtain ⟨t', rfl⟩ : ∃ t', t = t' + 1 := ⟨t - 1, by omega⟩
      have := h0 g (List.mem_of_getElem? (by simpa using hgt))
      simpa using this
    · rw [List.filter_cons_of_neg hg] at h
      obtain ⟨t0, ht0⟩ := ih h
      refine ⟨t0 + 1, fun t ht g hgt => ?_⟩
      cases t with
      | zero => simp at hgt; subst hgt; simpa using hg
      | succ t => exact ht0 t (by omega) g (by simpa using hgt)

theorem measOrder_transposed (blocks : List Circuit) (n : Nat) (sig : List Gate)
    (hlen : ∀ b ∈ blocks, b.length = n)
    (hone : (sig.filter Gate.isMeas).length ≤ 1)
    (hsig : ∀ b ∈ blocks, (∃ i ∈ b, i.gate.isMeas = true) → b.map Instr.gate = sig) :
    measOrder (transposed ((groupBlocks blocks []).map Prod.snd).flatten n) =
      blocks.flatMap measOrder := by
  set G := ((groupBlocks blocks []).map Prod.snd).flatten with hG
  have hmem : ∀ b, b ∈ G ↔ b ∈ blocks := fun b => (groups_perm blocks).mem_iff
  obtain ⟨t0, ht0⟩ := meas_position sig hone
  have hpos : ∀ b ∈ blocks, ∀ t, t ≠ t0 → ∀ i, b[t]? = some i → i.gate.isMeas = false := by
    intro b hb t ht i hi
    by_contra hm
    simp only [Bool.not_eq_false] at hm
    have hs := hsig b hb ⟨i, List.mem_of_getElem? hi, hm⟩
    have : sig[t]? = some i.gate := by rw [← hs, List.getElem?_map, hi]; rfl
    rw [ht0 t ht _ this] at hm
    cases hm
  have hother : ∀ b ∈ blocks, decide (b.map Instr.gate = sig) = false → measOrder b = [] := by
    intro b hb hs
    unfold measOrder
    rw [List.flatMap_eq_nil_iff]
    intro i hi
    by_cases hm : i.gate.isMeas
    · exact absurd (hsig b hb ⟨i, hi, hm⟩) (by simpa using hs)
    · simp [hm]
  have hlevel : ∀ t, t ≠ t0 → measOrder (G.filterMap fun b => b[t]?) = [] := by
    intro t ht
    rw [measOrder_filterMap, List.flatMap_eq_nil_iff]
    intro b hb
    cases hi : b[t]? with
    | none => rfl
    | some i => simp [measOrder, hpos b ((hmem b).1 hb) t ht i hi]
  have hat : G.flatMap (fun b => measOrder (b[t0]?).toList) = blocks.flatMap measOrder := by
    have e1 : G.flatMap (fun b => measOrder (b[t0]?).toList) = G.flatMap measOrder := by
      refine List.flatMap_congr fun b hb => ?_
      exact (measOrder_at b t0 (hpos b ((hmem b).1 hb))).symm
    rw [e1, flatMap_filter_of_nil G _ _ (fun b hb => hother b ((hmem b).1 hb)),
      flatMap_filter_of_nil blocks _ _ hother, hG, groups_filter_sig]
  unfold transposed
  by_cases h0 : t0 < n
  · obtain ⟨l, r, e⟩ : ∃ l r, List.range n = l ++ t0 :: r := List.append_of_mem (List.mem_range.2 h0)
    have hnd : (l ++ t0 :: r).Nodup := e ▸ List.nodup_range
    rw [e, List.flatMap_append, List.flatMap_cons, measOrder_append, measOrder_append,
      measOrder_filterMap, hat]
    have hz : ∀ l' : List Nat, t0 ∉ l' →
        measOrder (l'.flatMap fun t => G.filterMap fun b => b[t]?) = [] := by
      intro l' hl'
      induction l' with
      | nil => rfl
      | cons t l' ih =>
        simp only [List.mem_cons, not_or] at hl'
        rw [List.flatMap_cons, measOrder_append, hlevel t (fun e => hl'.1 e.symm), ih hl'.2]
        rfl
    have hnl : t0 ∉ l ∧ t0 ∉ r := by
      rw [List.nodup_append] at hnd
      refine ⟨fun hm => hnd.2.2 t0 hm t0 (by simp) rfl, (List.nodup_cons.1 hnd.2.1).1⟩
    rw [hz l hnl.1, hz r hnl.2]
    simp
  · have hz : ∀ l' : List Nat, t0 ∉ l' →
        measOrder (l'.flatMap fun t => G.filterMap fun b => b[t]?) = [] := by
      intro l' hl'
      induction l' with
      | nil => rfl
      | cons t l' ih =>
        simp only [List.mem_cons, not_or] at hl'
        rw [List.flatMap_cons, measOrder_append, hlevel t (fun e => hl'.1 e.symm), ih hl'.2]
        rfl
    rw [hz _ (by simpa using h0), ← hat]
    symm
    rw [List.flatMap_eq_nil_iff]
    intro b hb
    have : b[t0]? = none := by
      rw [List.getElem?_eq_none_iff, hlen b ((hmem b).1 hb)]
      omega
    rw [this]
    rfl

end SurfaceSim

/-! ### `merge_circuits` -/

namespace SurfaceSim
open Spec CircuitOps

theorem tickBlocks_ne_nil (c : Circuit) : tickBlocks c ≠ [] := by
  cases c with
  | nil => simp [tickBlocks]
  | cons i c =>
    unfold tickBlocks
    split
    · simp
    · split <;> simp

theorem tickBlocks_cons_other (i : Instr) (c : Circuit) (h : i.gate ≠ .TICK) :
    ∃ b bs, tickBlocks c = b :: bs ∧ tickBlocks (i :: c) = (i :: b) :: bs := by
  cases hc : tickBlocks c with
  | nil => exact absurd hc (tickBlocks_ne_nil c)
  | cons b bs => exact ⟨b, bs, rfl, by simp [tickBlocks, h, hc]⟩

theorem tickBlocks_length (c : Circuit) : (tickBlocks c).length = c.numTicks + 1 := by
  induction c with
  | nil => rfl
  | cons i c ih =>
    by_cases h : i.gate = .TICK
    · simp only [tickBlocks, h, if_true, List.length_cons, ih, Circuit.numTicks]
      rw [List.countP_cons_of_pos (by simp [h])]
    · obtain ⟨b, bs, h1, h2⟩ := tickBlocks_cons_other i c h
      rw [h2, List.length_cons]
      rw [h1, List.length_cons] at ih
      rw [ih]
      unfold Circuit.numTicks
      rw [List.countP_cons_of_neg (by simp [h])]

theorem tickBlocks_append (b c : Circuit) (hb : ∀ i ∈ b, i.gate ≠ .TICK) (t : Instr)
    (ht : t.gate = .TICK) : tickBlocks (b ++ t :: c) = b :: tickBlocks c := by
  induction b with
  | nil => simp [tickBlocks, ht]
  | cons i b ih =>
    have hi := hb i (by simp)
    rw [List.cons_append]
    conv_lhs => unfold tickBlocks
    rw [ih fun j hj => hb j (List.mem_cons_of_mem _ hj)]
    simp [hi]

theorem tickBlocks_noTick (b : Circuit) (hb : ∀ i ∈ b, i.gate ≠ .TICK) : tickBlocks b = [b] := by
  induction b with
  | nil => rfl
  | cons i b ih =>
    have hi := hb i (by simp)
    unfold tickBlocks
    rw [ih fun j hj => hb j (List.mem_cons_of_mem _ hj)]
    simp [hi]

theorem tickBlocks_mem_noTick (c : Circuit) : ∀ b ∈ tickBlocks c, ∀ i ∈ b, i.gate ≠ .TICK := by
  induction c with
  | nil => simp [tickBlocks]
  | cons i c ih =>
    by_cases h : i.gate = .TICK
    · simp only [tickBlocks, h, if_true]
      intro b hb
      rcases List.mem_cons.1 hb with rfl | hb
      · simp
      · exact ih b hb
    · obtain ⟨b, bs, h1, h2⟩ := tickBlocks_cons_other i c h
      rw [h2]
      rw [h1] at ih
      intro b' hb'
      rcases List.mem_cons.1 hb' with rfl | hb'
      · intro j hj
        rcases List.mem_cons.1 hj with rfl | hj
        · exact h
        · exact ih b (by simp) j hj
      · exact ih b' (by simp [hb'])

/-- The instructions of block `j` when the first block has number `id`. -/
def chunk (c : Circuit) (id j : Nat) : List Instr :=
  if j < id then [] else ((tickBlocks c)[j - id]?).getD []

theorem chunk_tick (i : Instr) (c : Circuit) (h : i.gate = .TICK) (id j : Nat) :
    chunk (i :: c) id j = chunk c (id + 1) j := by
  unfold chunk
  simp only [tickBlocks, h, if_true]
  by_cases h1 : j < id
  · simp [h1, show j < id + 1 by omega]
  · by_cases h2 : j = id
    · subst h2; simp
    · have : j - id = (j - (id + 1)) + 1 := by omega
      rw [if_neg h1, if_neg (show ¬ j < id + 1 by omega), this, List.getElem?_cons_succ]

theorem chunk_other (i : Instr) (c : Circuit) (h : i.gate ≠ .TICK) (id j : Nat) :
    chunk (i :: c) id j = (if j = id then [i] else []) ++ chunk c id j := by
  obtain ⟨b, bs, h1, h2⟩ := tickBlocks_cons_other i c h
  unfold chunk
  rw [h1, h2]
  by_cases hj : j < id
  · simp [hj, show j ≠ id by omega]
  · by_cases h3 : j = id
    · subst h3; simp
    · have : j - id = (j - id - 1) + 1 := by omega
      rw [if_neg hj, if_neg hj, if_neg h3, this]
      simp

theorem scan_blocks (c : Circuit) (id : Nat) (B : List (List Instr)) (m : List Nat) (j : Nat) :
    (scan c id B m).1[j]? = B[j]?.map (· ++ chunk c id j) := by
  induction c generalizing id B m with
  | nil =>
    have : chunk [] id j = [] := by
      unfold chunk
      split
      · rfl
      · simp only [tickBlocks]
        cases j - id <;> simp
    simp [scan, this]
  | cons i c ih =>
    unfold scan
    by_cases h : i.gate = .TICK
    · rw [if_pos h, ih, chunk_tick i c h]
    · rw [if_neg h, ih, chunk_other i c h, List.getElem?_modify]
      cases hB : B[j]? with
      | none => simp
      | some b =>
        by_cases hj : j = id
        · subst hj; simp
        · have : ¬ id = j := fun e => hj e.symm
          simp [hj, this]

theorem scan_meas (c : Circuit) (id : Nat) (B : List (List Instr)) (m : List Nat) (hm : m.Nodup) :
    (scan c id B m).2.Nodup ∧
    ∀ k, k ∈ (scan c id B m).2 ↔ k ∈ m ∨ ∃ i ∈ chunk c id k, i.gate.isMeas = true := by
  induction c generalizing id B m with
  | nil =>
    refine ⟨hm, fun k => ?_⟩
    have : chunk [] id k = [] := by
      unfold chunk
      split
      · rfl
      · simp only [tickBlocks]
        cases k - id <;> simp
    simp [scan, this]
  | cons i c ih =>
    unfold scan
    by_cases h : i.gate = .TICK
    · rw [if_pos h]
      obtain ⟨h1, h2⟩ := ih (id + 1) B m hm
      exact ⟨h1, fun k => by rw [h2, chunk_tick i c h]⟩
    · rw [if_neg h]
      have hm' : (if i.gate.isMeas ∧ id ∉ m then m ++ [id] else m).Nodup := by
        split
        · rename_i h'
          rw [List.nodup_append]
          refine ⟨hm, by simp, ?_⟩
          intro a ha b hb e
          simp at hb
          subst e hb
          exact h'.2 ha
        · exact hm
      obtain ⟨h1, h2⟩ := ih id (B.modify id (· ++ [i])) _ hm'
      refine ⟨h1, fun k => ?_⟩
      rw [h2, chunk_other i c h]
      by_cases hmeas : i.gate.isMeas = true
      · by_cases hid : id ∈ m
        · by_cases hk : k = id
          · subst hk; simp [hid]
          · simp [hmeas, hid, hk]
        · by_cases hk : k = id
          · subst hk; simp [hmeas, hid]
          · simp [hmeas, hid, hk]
      · by_cases hk : k = id
        · subst hk; simp [hmeas]
        · simp [hmeas, hk]

theorem scanAll_spec (cs : List Circuit) (B : List (List Instr)) (ms : List (List Nat)) :
    (∀ j : Nat, (scanAll cs B ms).1[j]? =
      B[j]?.map (· ++ cs.flatMap fun c => ((tickBlocks c)[j]?).getD [])) ∧
    (scanAll cs B ms).2 = ms ++ cs.map fun c => (scan c 0 B []).2 := by
  induction cs generalizing B ms with
  | nil => simp [scanAll]
  | cons c cs ih =>
    unfold scanAll
    obtain ⟨h1, h2⟩ := ih (scan c 0 B []).1 (ms ++ [(scan c 0 B []).2])
    have hch : ∀ j, chunk c 0 j = ((tickBlocks c)[j]?).getD [] := fun j => by simp [chunk]
    refine ⟨fun j => ?_, ?_⟩
    · rw [h1, scan_blocks, hch]
      cases B[j]? <;> simp
    · rw [h2]
      have : ∀ (c' : Circuit) (B B' : List (List Instr)) (id : Nat) (m : List Nat),
          (scan c' id B m).2 = (scan c' id B' m).2 := by
        intro c'
        induction c' with
        | nil => intros; rfl
        | cons i c' ih' =>
          intro B B' id m
          unfold scan
          split
          · exact ih' _ _ _ _
          · exact ih' _ _ _ _
      simp only [List.map_cons, List.append_assoc, List.cons_append, List.nil_append]
      congr 2
      exact List.map_congr_left fun c' _ => this c' _ _ _ _

/-! assembling -/

theorem append_gates (c : Circuit) (i : Instr) (h : ∀ j ∈ c, j.gate ≠ .TICK) (hi : i.gate ≠ .TICK) :
    ∀ j ∈ Circuit.append c i, j.gate ≠ .TICK := by
  unfold Circuit.append
  cases hl : c.getLast? with
  | none => simpa using hi
  | some l =>
    simp only
    have hlm : l ∈ c := List.mem_of_getLast? hl
    split
    · intro j hj
      rcases List.mem_append.1 hj with hj | hj
      · exact h j (List.mem_of_mem_dropLast hj)
      · simp at hj; subst hj; exact h l hlm
    · intro j hj
      rcases List.mem_append.1 hj with hj | hj
      · exact h j hj
      · simp at hj; subst hj; exact hi

theorem parse_noTick (b : List Instr) (hb : ∀ i ∈ b, i.gate ≠ .TICK) :
    ∀ j ∈ parse b, j.gate ≠ .TICK := by
  unfold parse
  suffices ∀ c : Circuit, (∀ j ∈ c, j.gate ≠ .TICK) → ∀ j ∈ b.foldl Circuit.append c, j.gate ≠ .TICK by
    exact this [] (by simp)
  induction b with
  | nil => intro c hc; exact hc
  | cons i b ih =>
    intro c hc
    exact ih (fun j hj => hb j (List.mem_cons_of_mem _ hj)) _ (append_gates c i hc (hb i (by simp)))

theorem concat_tick (c : Circuit) : Circuit.concat c tickCircuit = c ++ tickCircuit := by
  unfold tickCircuit Circuit.concat Circuit.append
  cases h : c.getLast? with
  | none =>
    have : c = [] := List.getLast?_eq_none_iff.1 h
    simp [this]
  | some l => simp [Gate.notFusable]

/-- No fusion at a seam after a TICK or at the start. -/
theorem concat_after_tick (a b : Circuit) (h : a = [] ∨ ∃ a', a = a' ++ tickCircuit) :
    Circuit.concat a b = a ++ b := by
  rcases h with rfl | ⟨a', rfl⟩
  · cases b <;> simp [Circuit.concat, Circuit.append]
  · cases b with
    | nil => simp [Circuit.concat]
    | cons i b =>
      simp only [Circuit.concat, Circuit.append, tickCircuit, List.getLast?_append_of_ne_nil _ (List.cons_ne_nil _ _),
        List.getLast?_singleton]
      by_cases hi : i.gate = .TICK
      · simp [hi, Gate.notFusable]
      · have : ¬ Gate.TICK = i.gate := fun e => hi e.symm
        simp [this]

theorem sum_ticked (init : List Circuit) (a : Circuit) (h : a = [] ∨ ∃ a', a = a' ++ tickCircuit) :
    (init.map (· ++ tickCircuit)).foldl Circuit.concat a =
      a ++ (init.map (· ++ tickCircuit)).flatten ∧
    ((a ++ (init.map (· ++ tickCircuit)).flatten = []) ∨
      ∃ a', a ++ (init.map (· ++ tickCircuit)).flatten = a' ++ tickCircuit) := by
  induction init generalizing a with
  | nil => simpa using h
  | cons b init ih =>
    have := ih (a ++ (b ++ tickCircuit)) (Or.inr ⟨a ++ b, by simp⟩)
    simp only [List.map_cons, List.foldl_cons, List.flatten_cons]
    rw [concat_after_tick a _ h]
    simpa [List.append_assoc] using this

theorem tickBlocks_ticked (init : List Circuit) (last : Circuit)
    (hi : ∀ b ∈ init, ∀ i ∈ b, i.gate ≠ .TICK) (hl : ∀ i ∈ last, i.gate ≠ .TICK) :
    tickBlocks ((init.map (· ++ tickCircuit)).flatten ++ last) = init ++ [last] := by
  induction init with
  | nil => simpa using tickBlocks_noTick last hl
  | cons b init ih =>
    rw [List.map_cons, List.flatten_cons, List.append_assoc, List.append_assoc]
    show tickBlocks (b ++ (⟨.TICK, [], []⟩ :: _)) = _
    rw [tickBlocks_append b _ (hi b (by simp)) _ rfl]
    have := ih fun b hb => hi b (List.mem_cons_of_mem _ hb)
    exact congrArg (b :: ·) this

theorem modify_length_append {α : Type} (l : List α) (a : α) (f : α → α) :
    (l ++ [a]).modify (l.length) f = l ++ [f a] := by
  induction l with
  | nil => rfl
  | cons b l ih => simpa [List.modify_succ_cons] using ih

theorem assemble_blocks (blocks : List (List Instr)) (hne : blocks ≠ [])
    (h : ∀ b ∈ blocks, ∀ i ∈ b, i.gate ≠ .TICK) :
    tickBlocks (assemble blocks) = blocks.map parse := by
  obtain ⟨init, last, rfl⟩ : ∃ init last, blocks = init ++ [last] :=
    ⟨blocks.dropLast, blocks.getLast hne, (List.dropLast_concat_getLast hne).symm⟩
  have e : assemble (init ++ [last]) =
      ((init.map parse).map (· ++ tickCircuit)).flatten ++ parse last := by
    simp only [assemble, concat_tick]
    have e1 : ((init ++ [last]).map fun b => parse b ++ tickCircuit).modify
        (((init ++ [last]).map fun b => parse b ++ tickCircuit).length - 1) List.dropLast =
        (init.map parse).map (· ++ tickCircuit) ++ [parse last] := by
      rw [List.map_append, List.length_append]
      simp only [List.map_cons, List.map_nil, List.length_singleton, Nat.add_sub_cancel, List.map_map]
      rw [modify_length_append]
      simp [tickCircuit, Function.comp_def]
    rw [e1]
    unfold Circuit.sum
    rw [List.foldl_append]
    obtain ⟨h1, h2⟩ := sum_ticked (init.map parse) [] (Or.inl rfl)
    rw [h1]
    simp only [List.foldl_cons, List.foldl_nil]
    rw [concat_after_tick _ _ h2]
    simp
  rw [e, tickBlocks_ticked]
  · simp
  · intro b hb
    obtain ⟨b', hb', rfl⟩ := List.mem_map.1 hb
    exact parse_noTick b' (h b' (by simp [hb']))
  · exact parse_noTick last (h last (by simp))

end SurfaceSim
