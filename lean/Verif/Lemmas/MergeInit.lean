/-
Merging the initializations of two layouts.
-/
import Verif.Lemmas.MergeAll
import Verif.Lemmas.MemoryGrid

namespace SurfaceSim
open Spec NoiseModel Blocks Experiments CircuitOps

/-- A reordered image is the image of a reordered list. -/
theorem perm_map_exists {α β : Type} {f : α → β} {l : List α} {M : List β} (h : M.Perm (l.map f)) :
    ∃ l' : List α, l'.Perm l ∧ M = l'.map f := by
  induction l generalizing M with
  | nil => exact ⟨[], .refl _, by simpa using h⟩
  | cons a l ih =>
    obtain ⟨M1, M2, rfl⟩ := List.append_of_mem (h.symm.subset (by simp : f a ∈ (a :: l).map f))
    have h2 : (M1 ++ M2).Perm (l.map f) := (List.perm_middle.symm.trans h).cons_inv
    obtain ⟨l', h3, h4⟩ := ih h2
    obtain ⟨l1, l2, rfl, rfl, rfl⟩ := List.append_eq_map_iff.1 h4
    exact ⟨l1 ++ a :: l2, List.perm_middle.trans (h3.cons a), by simp⟩

/-- Circuits with a TICK after each of them. -/
def ticked (cs : List Circuit) : Circuit := (cs.map (· ++ tickCircuit)).flatten

theorem sumFrom_ticked {inds : Dict String Nat} {bs : List Call1} {Ls : List (List (Op String))}
    (h : List.Forall₂ (fun b L => Does inds b L ∧ NoTick b) bs Ls) :
    ∀ (acc : Circuit) (s : MeasState) (hist : List String), (acc = [] ∨ ∃ a, acc = a ++ tickCircuit) → s.Tracks inds hist →
      ∃ cs s', sumFrom acc (bs.flatMap fun b => [b, Blocks.tick]) s = (.ok (acc ++ ticked cs), s') ∧
        List.Forall₂ (fun c L => EvenPairs c ∧ (∀ i ∈ c, i.gate ≠ .TICK) ∧ ops c = L.map (Op.rename (ind inds))) cs Ls ∧
        s'.Tracks inds (hist ++ measured Ls.flatten) := by
  induction h with
  | nil =>
    intro acc s hist _ ht
    exact ⟨[], s, by simp [sumFrom, ticked, pure, PyM.pure], .nil, by simpa using ht⟩
  | @cons b L bs Ls hb _ ih =>
    intro acc s hist ha ht
    obtain ⟨c, s1, e1, p1, o1, t1⟩ := hb.1.2 s hist ht
    have e3 : (acc.concat c).concat NoiseModel.tick = acc ++ (c ++ tickCircuit) := by
      rw [concat_after_tick _ _ ha]
      have := concat_tick (acc ++ c)
      rw [List.append_assoc] at this
      exact this
    obtain ⟨cs, s2, e2, f2, t2⟩ := ih (acc ++ (c ++ tickCircuit)) s1 _ (.inr ⟨acc ++ c, by simp⟩) t1
    refine ⟨c :: cs, s2, ?_, .cons ⟨p1, hb.2 _ _ _ e1, o1⟩ f2, ?_⟩
    · simp only [List.flatMap_cons, List.cons_append, List.nil_append, sumFrom]
      rw [PyM.bind_ok e1]
      rw [PyM.bind_ok (show Blocks.tick s1 = (.ok NoiseModel.tick, s1) from rfl)]
      rw [e3, e2]
      simp [ticked]
    · rw [List.flatten_cons, measured_append, ← List.append_assoc]; exact t2

theorem tickBlocks_of_ticked {cs : List Circuit} (h : ∀ c ∈ cs, ∀ i ∈ c, i.gate ≠ .TICK) :
    tickBlocks (ticked cs) = cs ++ [[]] := by
  have := tickBlocks_ticked cs [] h (by simp)
  rwa [List.append_nil] at this

theorem ops_tickBlocks (c : Circuit) : ops c = (tickBlocks c).flatMap ops := by
  induction c with
  | nil => rfl
  | cons i c ih =>
    by_cases h : i.gate = .TICK
    · simp only [tickBlocks, h, if_true, List.flatMap_cons, ← ih]
      simp [ops, instrOps, h]
    · obtain ⟨b, bs, h1, h2⟩ := tickBlocks_cons_other i c h
      rw [h2, List.flatMap_cons]
      rw [h1, List.flatMap_cons] at ih
      show instrOps i ++ ops c = (instrOps i ++ ops b) ++ _
      rw [ih, List.append_assoc]

theorem mem_tickBlocks {c : Circuit} {i : Instr} (hi : i ∈ c) (h : i.gate ≠ .TICK) : ∃ b ∈ tickBlocks c, i ∈ b := by
  induction c with
  | nil => simp at hi
  | cons j c ih =>
    rcases List.mem_cons.1 hi with rfl | hi
    · obtain ⟨b, bs, -, h2⟩ := tickBlocks_cons_other i c h
      exact ⟨i :: b, by rw [h2]; simp, by simp⟩
    · obtain ⟨b, hb, hib⟩ := ih hi
      by_cases hj : j.gate = .TICK
      · exact ⟨b, by simp [tickBlocks, hj, hb], hib⟩
      · obtain ⟨b', bs, h1, h2⟩ := tickBlocks_cons_other j c hj
        rw [h1] at hb
        rcases List.mem_cons.1 hb with rfl | hb
        · exact ⟨j :: b, by rw [h2]; simp, by simp [hib]⟩
        · exact ⟨b, by rw [h2]; simp [hb], hib⟩

/-- Merging two circuits with the same number of TICKs: the operations between two TICKs are reordered. -/
theorem merged_ops {cs1 cs2 : List Circuit} (hlen : cs1.length = cs2.length)
    (h1 : ∀ c ∈ cs1, EvenPairs c ∧ ∀ i ∈ c, i.gate ≠ .TICK) (h2 : ∀ c ∈ cs2, EvenPairs c ∧ ∀ i ∈ c, i.gate ≠ .TICK)
    {m : Circuit} (h : mergeCircuits [ticked cs1, ticked cs2] true = .ok m) :
    EvenPairs m ∧ ∃ Ms : List (List (Op Nat)), ops m = Ms.flatten ∧ Ms.length = cs1.length ∧
      ∀ k : Nat, ((Ms[k]?).getD []).Perm (ops ((cs1[k]?).getD []) ++ ops ((cs2[k]?).getD [])) := by
  have b1 := tickBlocks_of_ticked fun c hc => (h1 c hc).2
  have b2 := tickBlocks_of_ticked fun c hc => (h2 c hc).2
  have n1 : (ticked cs1).numTicks = cs1.length := by
    have := tickBlocks_length (ticked cs1)
    rw [b1, List.length_append, List.length_singleton] at this
    omega
  have n2 : (ticked cs2).numTicks = cs1.length := by
    have := tickBlocks_length (ticked cs2)
    rw [b2, List.length_append, List.length_singleton] at this
    omega
  have hal : Props.MeasAligned [ticked cs1, ticked cs2] := by
    by_contra hcon
    have := (Props.C21_raises_iff [ticked cs1, ticked cs2] true).2 (.inr (.inr ⟨rfl, hcon⟩))
    rw [this] at h
    cases h
  obtain ⟨c, e1, e2, e3⟩ := Props.C21_merge_circuits [ticked cs1, ticked cs2] true cs1.length (by simp)
    (by simp [n1, n2]) (fun _ => hal)
  rw [h] at e1
  cases e1
  have hblock : ∀ k, k ≤ cs1.length → ∃ b, (tickBlocks m)[k]? = some b ∧ EvenPairs b ∧
      (ops b).Perm (ops ((cs1[k]?).getD []) ++ ops ((cs2[k]?).getD [])) := by
    intro k hk
    obtain ⟨L, f1, f2, -⟩ := e3 k hk
    have hcat : (List.flatMap (fun c => ((tickBlocks c)[k]?).getD []) [ticked cs1, ticked cs2]) =
        (cs1[k]?).getD [] ++ (cs2[k]?).getD [] := by
      have hget : ∀ cs : List Circuit, ((cs ++ [[]])[k]?).getD [] = (cs[k]?).getD [] := by
        intro cs
        rcases Nat.lt_trichotomy k cs.length with hk | hk | hk
        · rw [List.getElem?_append_left hk]
        · subst hk; simp
        · rw [List.getElem?_eq_none (by simp; omega), List.getElem?_eq_none (by omega)]
      simp only [List.flatMap_cons, List.flatMap_nil, List.append_nil, b1, b2]
      rw [hget, hget]
    rw [hcat] at f2
    have hev : EvenPairs L := by
      intro i hi
      rcases List.mem_append.1 (f2.mem_iff.1 hi) with hi | hi
      · cases hk1 : cs1[k]? with
        | none => rw [hk1] at hi; simp at hi
        | some c => rw [hk1] at hi; exact (h1 c (List.mem_of_getElem? hk1)).1 i hi
      · cases hk1 : cs2[k]? with
        | none => rw [hk1] at hi; simp at hi
        | some c => rw [hk1] at hi; exact (h2 c (List.mem_of_getElem? hk1)).1 i hi
    obtain ⟨g1, g2⟩ := ops_foldl_append L [] evenPairs_nil hev
    refine ⟨_, f1, g2, ?_⟩
    rw [g1]
    have := f2.flatMap_right instrOps
    rw [List.flatMap_append] at this
    exact this
  have hl : (tickBlocks m).length = cs1.length + 1 := by rw [tickBlocks_length, e2]
  refine ⟨?_, (tickBlocks m).dropLast.map ops, ?_, by simp [hl], ?_⟩
  · intro i hi
    by_cases ht : i.gate = .TICK
    · rw [ht]; simp [Gate.isTwoQubit]
    · obtain ⟨b, hb, hib⟩ := mem_tickBlocks hi ht
      obtain ⟨k, hk⟩ := List.mem_iff_getElem?.1 hb
      have hlt := (List.getElem?_eq_some_iff.1 hk).1
      obtain ⟨b', q1, q2, -⟩ := hblock k (by omega)
      rw [hk] at q1; cases q1
      exact q2 i hib
  · have hne : tickBlocks m ≠ [] := tickBlocks_ne_nil m
    rw [ops_tickBlocks]
    conv_lhs => rw [← List.dropLast_concat_getLast hne]
    rw [List.flatMap_append, List.flatMap_def]
    obtain ⟨b', q1, -, q3⟩ := hblock cs1.length (by omega)
    have : (tickBlocks m).getLast hne = b' := by
      rw [List.getLast_eq_getElem]
      have : (tickBlocks m).length - 1 = cs1.length := by omega
      simp only [this]
      exact (List.getElem?_eq_some_iff.1 q1).2
    rw [this]
    have hnil : ops b' = [] := by
      rw [List.getElem?_eq_none (by omega), List.getElem?_eq_none (by omega)] at q3
      simpa using q3.eq_nil
    simp [hnil]
  · intro k
    rw [List.getElem?_map]
    by_cases hk : k < cs1.length
    · obtain ⟨b', q1, -, q3⟩ := hblock k (by omega)
      have : (tickBlocks m).dropLast[k]? = some b' := by
        rw [List.getElem?_dropLast, if_pos (by omega), q1]
      rw [this]
      exact q3
    · rw [List.getElem?_eq_none (by simp; omega), List.getElem?_eq_none (by omega), List.getElem?_eq_none (by omega)]
      exact .refl _

section
variable {nm : NoiseModel} {l : Layout} {L : List (String × Site × Kind)} {dirs : List (Site × String)}

/-- The items of an initialization. -/
theorem initIter_items (hr : CanRun nm l) (nt : NoTicks nm) (hg : OnGrid l L dirs) (o : SetOrder)
    {dataInit : Dict String Int} (hd : ∀ q, isOne dataInit q = 1 → q ∈ nm.inds.keys) (rb : Bool) :
    ∃ bs : List Call1, initIter o nm l dataInit rb = bs.flatMap (fun b => [b, Blocks.tick]) ∧
      List.Forall₂ (fun b L => Does nm.inds b L ∧ NoTick b) bs
        ([(o.ord (setOf (dataOf L ++ ancOf L))).map Op.r, (o.ord (excited dataInit)).map Op.x] ++
          if rb then [(dataOf L).map Op.h] else []) := by
  have hk := grid_known hr hg
  have hh := does_initHead hr.faithful o hk hd
  unfold initIter ancQubits dataQubits
  rw [hg.getQubits_anc, hg.getQubits_data]
  simp only [withE]
  unfold initHead at hh ⊢
  cases hh with
  | cons h1 hh =>
  cases hh with
  | cons _ hh =>
  cases hh with
  | cons h2 _ =>
  have n2 : NoTick (plus (if (excited dataInit).isEmpty then pure [] else nm.xGate (o.ord (excited dataInit)))
      (nm.idle (o.ord (diff (setOf (dataOf L ++ ancOf L)) (excited dataInit))))) := by
    refine NoTick.plus ?_ (nt.idle _)
    split
    · intro s c s' h
      simp only [pure, PyM.pure, Prod.mk.injEq, Except.ok.injEq] at h
      rw [← h.1]; simp
    · exact nt.xGate _
  cases rb
  · refine ⟨[_, _], ?_, .cons ⟨h1, nt.reset _⟩ (.cons ⟨h2, n2⟩ .nil)⟩
    rfl
  · refine ⟨[_, _, plus (nm.hadamard (dataOf L)) (nm.idle (ancOf L))], ?_, .cons ⟨h1, nt.reset _⟩ (.cons ⟨h2, n2⟩
      (.cons ⟨?_, NoTick.plus (nt.hadamard _) (nt.idle _)⟩ .nil))⟩
    · rfl
    · exact ((does_h hr.faithful _ fun q h => hk q (List.mem_append_left _ h)).bind_concat
        (does_idle hr.faithful _ fun q h => hk q (List.mem_append_right _ h))).congr (by simp)

end

section
variable {nm : NoiseModel} {l₁ l₂ : Layout} {L₁ L₂ : List (String × Site × Kind)} {dirs : List (Site × String)}

/-- The merged initialization of two layouts. -/
theorem merged_init (hr₁ : CanRun nm l₁) (hr₂ : CanRun nm l₂) (nt : NoTicks nm) (hg₁ : OnGrid l₁ L₁ dirs)
    (hg₂ : OnGrid l₂ L₂ dirs) (o : SetOrder) {d₁ d₂ : Dict String Int} (hd₁ : ∀ q, isOne d₁ q = 1 → q ∈ nm.inds.keys)
    (hd₂ : ∀ q, isOne d₂ q = 1 → q ∈ nm.inds.keys) (rb : Bool) {s : MeasState} {hist : List String}
    (ht : s.Tracks nm.inds hist) :
    ∃ c₁ s₁ c₂ s₂, sumGen (initIter o nm l₁ d₁ rb) s = (.ok c₁, s₁) ∧ sumGen (initIter o nm l₂ d₂ rb) s₁ = (.ok c₂, s₂) ∧
      s₂.Tracks nm.inds hist ∧ c₁.numTicks = c₂.numTicks ∧ ∀ m, mergeCircuits [c₁, c₂] true = .ok m → EvenPairs m ∧
        ∃ A E H : List String, A.Perm (o.ord (setOf (dataOf L₁ ++ ancOf L₁)) ++ o.ord (setOf (dataOf L₂ ++ ancOf L₂))) ∧
          E.Perm (o.ord (excited d₁) ++ o.ord (excited d₂)) ∧ H.Perm (if rb then dataOf L₁ ++ dataOf L₂ else []) ∧
          ops m = (A.map Op.r ++ E.map Op.x ++ H.map Op.h).map (Op.rename (ind nm.inds)) := by
  obtain ⟨bs₁, e₁, f₁⟩ := initIter_items hr₁ nt hg₁ o hd₁ rb
  obtain ⟨bs₂, e₂, f₂⟩ := initIter_items hr₂ nt hg₂ o hd₂ rb
  have hnil : ∀ (L : List (String × Site × Kind)) (d : Dict String Int), measured ([(o.ord (setOf (dataOf L ++ ancOf L))).map Op.r,
      (o.ord (excited d)).map Op.x] ++ if rb then [(dataOf L).map Op.h] else []).flatten = [] := by
    intro L d
    cases rb <;> simp only [Bool.false_eq_true, if_false, if_true, List.append_nil, List.flatten_append, List.flatten_cons,
      List.flatten_nil, measured_append] <;>
    · rw [measured_map_none _ _ (by simp), measured_map_none _ _ (by simp)]
      try rw [measured_map_none _ _ (by simp)]
      rfl
  obtain ⟨cs₁, s₁, k₁, r₁, t₁⟩ := sumFrom_ticked f₁ [] s hist (.inl rfl) ht
  rw [hnil, List.append_nil] at t₁
  obtain ⟨cs₂, s₂, k₂, r₂, t₂⟩ := sumFrom_ticked f₂ [] s₁ hist (.inl rfl) t₁
  rw [hnil, List.append_nil] at t₂
  rw [List.nil_append] at k₁ k₂
  have hall : ∀ {cs : List Circuit} {Ls : List (List (Op String))},
      List.Forall₂ (fun c L => EvenPairs c ∧ (∀ i ∈ c, i.gate ≠ .TICK) ∧ ops c = L.map (Op.rename (ind nm.inds))) cs Ls →
      ∀ c ∈ cs, EvenPairs c ∧ ∀ i ∈ c, i.gate ≠ .TICK := by
    intro cs Ls h
    induction h with
    | nil => simp
    | cons h _ ih =>
      intro c hc
      rcases List.mem_cons.1 hc with rfl | hc
      · exact ⟨h.1, h.2.1⟩
      · exact ih c hc
  have hlen : cs₁.length = cs₂.length := by
    rw [r₁.length_eq, r₂.length_eq]
    cases rb <;> rfl
  have nticks : ∀ {cs : List Circuit}, (∀ c ∈ cs, EvenPairs c ∧ ∀ i ∈ c, i.gate ≠ .TICK) → (ticked cs).numTicks = cs.length := by
    intro cs h
    have := tickBlocks_length (ticked cs)
    rw [tickBlocks_of_ticked fun c hc => (h c hc).2, List.length_append, List.length_singleton] at this
    omega
  refine ⟨ticked cs₁, s₁, ticked cs₂, s₂, by rw [e₁]; exact k₁, by rw [e₂]; exact k₂, t₂,
    by rw [nticks (hall r₁), nticks (hall r₂), hlen], fun m hm => ?_⟩
  obtain ⟨p, Ms, o1, o2, o3⟩ := merged_ops hlen (hall r₁) (hall r₂) hm
  refine ⟨p, ?_⟩
  have hget : ∀ {cs : List Circuit} {Ls : List (List (Op String))},
      List.Forall₂ (fun c L => EvenPairs c ∧ (∀ i ∈ c, i.gate ≠ .TICK) ∧ ops c = L.map (Op.rename (ind nm.inds))) cs Ls →
      ∀ k : Nat, ops ((cs[k]?).getD []) = ((Ls[k]?).getD []).map (Op.rename (ind nm.inds)) := by
    intro cs Ls h k
    rcases getElem?_forall₂ h k with ⟨h1, h2⟩ | ⟨a, b, h1, h2, h3⟩
    · rw [h1, h2]; rfl
    · rw [h1, h2]; exact h3.2.2
  have q0 := o3 0
  have q1 := o3 1
  have q2 := o3 2
  rw [hget r₁, hget r₂] at q0 q1 q2
  simp only [List.cons_append, List.nil_append, List.getElem?_cons_zero, List.getElem?_cons_succ, Option.getD_some,
    List.map_map, ← List.map_append] at q0 q1 q2
  obtain ⟨A, hA, hA'⟩ := perm_map_exists q0
  obtain ⟨E, hE, hE'⟩ := perm_map_exists q1
  refine ⟨A, E, ?_⟩
  rw [r₁.length_eq] at o2
  cases rb
  · obtain ⟨M0, M1, rfl⟩ : ∃ a b, Ms = [a, b] := by
      match Ms, o2 with
      | [a, b], _ => exact ⟨a, b, rfl⟩
    refine ⟨[], hA, hE, .refl _, ?_⟩
    simp only [List.getElem?_cons_zero, List.getElem?_cons_succ, Option.getD_some] at hA' hE'
    rw [o1, hA', hE']
    simp [Function.comp_def]
  · obtain ⟨M0, M1, M2, rfl⟩ : ∃ a b c, Ms = [a, b, c] := by
      match Ms, o2 with
      | [a, b, c], _ => exact ⟨a, b, c, rfl⟩
    simp only [if_true, List.getElem?_cons_zero, List.getElem?_cons_succ, Option.getD_some, List.map_map,
      ← List.map_append] at hA' hE' q2
    obtain ⟨H, hH, hH'⟩ := perm_map_exists q2
    refine ⟨H, hA, hE, hH, ?_⟩
    rw [o1, hA', hE', hH']
    simp [Function.comp_def]

end

end SurfaceSim
