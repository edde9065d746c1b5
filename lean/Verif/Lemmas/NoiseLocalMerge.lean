/-
Two-qubit channels follow their gates in merged blocks.
-/
import Verif.Lemmas.NoiseLocalExp
import Verif.Lemmas.UsageMerge

namespace SurfaceSim
open Spec NoiseModel Blocks Experiments LayoutLib CircuitOps

/-! ### instructions one after the other -/

theorem local_glue {a b : Circuit} (ha : Local a) (hb : EvenPairs b) (h : Follows [] (a ++ b)) : Local (a.concat b) := by
  refine ⟨(ops_concat ha.1 hb).2, ?_⟩
  cases b with
  | nil => exact ha.2
  | cons i r =>
    show Follows [] (Circuit.append a i ++ r)
    have hi := hb i (by simp)
    have h2 : Follows [] ((a ++ [i]) ++ r) := by simpa using h
    rw [follows_append] at h2
    have h3 : Follows [] (Circuit.append a i) := (follows_circuit_append ha.1 hi).2 h2.1
    rw [follows_append]
    refine ⟨h3, follows_mono h2.2 ?_⟩
    clear h2 h3 h
    unfold Circuit.append
    cases h : a.getLast? with
    | none =>
      have : a = [] := by simpa using h
      subst this
      simp
    | some l =>
      simp only
      have hce : a = a.dropLast ++ [l] := (List.dropLast_append_getLast? l h).symm
      split
      · rename_i hf
        obtain ⟨h1, h2, h3⟩ := hf
        have hl := ha.1 l (by rw [hce]; simp)
        obtain ⟨g, t, x⟩ := l
        obtain ⟨g', t', x'⟩ := i
        simp only at h1 h2 h3 hi hl
        subst h1 h2
        have happ : ∀ (S : List (Nat × Nat)) (u v : Circuit), coupled S (u ++ v) = coupled (coupled S u) v := by
          intro S u
          induction u generalizing S with
          | nil => intro v; rfl
          | cons j u ih =>
            intro v
            rw [List.cons_append]
            simp only [coupled]
            split
            · exact ih _ _
            · split <;> exact ih _ _
        have e1 : coupled [] (a ++ [⟨g, t', x⟩]) = coupled (coupled [] a.dropLast) [⟨g, t, x⟩, ⟨g, t', x⟩] := by
          conv_lhs => rw [hce]
          rw [List.append_assoc, happ]
          rfl
        rw [e1, happ]
        generalize coupled [] a.dropLast = S
        have ht : g ≠ .TICK := by rintro rfl; simp [Gate.notFusable] at h3
        by_cases h4 : g ∈ [Gate.CZ, .CX, .SWAP]
        · have h22 : g.isTwoQubit = true := by revert h4; cases g <;> decide
          simp only [coupled, if_neg ht, if_pos h4]
          rw [Instr.qubits_mk_append, pairs_append _ _ (hl h22) (hi h22)]
          intro p hp
          simp only [List.mem_append] at hp ⊢
          tauto
        · simp only [coupled, if_neg ht, if_neg h4]
          exact fun p hp => hp
      · exact fun p hp => hp

theorem local_foldl_from {L : List Instr} {acc : Circuit} (ha : Local acc) (hL : EvenPairs L) (h : Follows [] (acc ++ L)) :
    Local (L.foldl Circuit.append acc) := by
  induction L generalizing acc with
  | nil => exact ha
  | cons i L ih =>
    have hg : Local (Circuit.append acc i ++ L) := local_glue ha hL h
    exact ih ⟨fun j hj => hg.1 j (List.mem_append_left _ hj), (follows_append.1 hg.2).1⟩ (fun j hj => hL j (by simp [hj])) hg.2

theorem local_foldl {L : List Instr} (hL : EvenPairs L) (h : Follows [] L) : Local (L.foldl Circuit.append []) :=
  local_foldl_from local_nil hL (by simpa using h)

/-! ### instructions of several blocks in turns -/

theorem mem_coupled {c : Circuit} (hc : ∀ i ∈ c, i.gate ≠ .TICK) {S : List (Nat × Nat)} {q : Nat × Nat} :
    q ∈ coupled S c ↔ q ∈ S ∨ ∃ i ∈ c, i.gate ∈ [Gate.CZ, .CX, .SWAP] ∧ q ∈ pairs i.qubits := by
  induction c generalizing S with
  | nil => simp [coupled]
  | cons i c ih =>
    rw [coupled_cons, if_neg (hc i (by simp))]
    have ih' := fun T : List (Nat × Nat) => ih (fun j hj => hc j (by simp [hj])) (S := T)
    split
    · rename_i h
      rw [ih']
      simp only [List.mem_append, List.exists_mem_cons_iff]
      tauto
    · rename_i h
      rw [ih']
      simp only [List.exists_mem_cons_iff]
      tauto

theorem follows_each {L : List Instr} (hL : ∀ i ∈ L, i.gate ≠ .TICK) {S : List (Nat × Nat)} (h : ∀ i ∈ L, Follows S [i]) :
    Follows S L := by
  induction L generalizing S with
  | nil => trivial
  | cons i L ih =>
    have e : i :: L = [i] ++ L := rfl
    rw [e, follows_append]
    refine ⟨h i (by simp), ih (fun j hj => hL j (by simp [hj])) fun j hj => follows_mono (h j (by simp [hj])) fun q hq => ?_⟩
    exact (mem_coupled (by simpa using hL i (by simp))).2 (.inl hq)

theorem transposed_succ (G : List Circuit) (n : Nat) : transposed G (n + 1) = transposed G n ++ G.filterMap fun b => b[n]? := by
  unfold transposed
  rw [List.range_succ, List.flatMap_append]
  simp

theorem mem_transposed {G : List Circuit} {n : Nat} {i : Instr} (h : i ∈ transposed G n) : ∃ b ∈ G, i ∈ b := by
  unfold transposed at h
  obtain ⟨t, -, h⟩ := List.mem_flatMap.1 h
  obtain ⟨b, hb, hi⟩ := List.mem_filterMap.1 h
  exact ⟨b, hb, List.mem_of_getElem? hi⟩

theorem transposed_follows {G : List Circuit} (hG : ∀ b ∈ G, ∀ i ∈ b, i.gate ≠ .TICK) (hf : ∀ b ∈ G, Follows [] b) (n : Nat) :
    Follows [] (transposed G n) := by
  induction n with
  | zero => simp [transposed, Follows]
  | succ n ih =>
    rw [transposed_succ, follows_append]
    refine ⟨ih, follows_each (fun i hi => ?_) fun i hi => ?_⟩
    · obtain ⟨b, hb, hi⟩ := List.mem_filterMap.1 hi
      exact hG b hb i (List.mem_of_getElem? hi)
    · obtain ⟨b, hb, hi⟩ := List.mem_filterMap.1 hi
      have hlt := (List.getElem?_eq_some_iff.1 hi).1
      have e : b = b.take n ++ ([i] ++ b.drop (n + 1)) := by
        have := (List.getElem?_eq_some_iff.1 hi).2
        rw [← this]
        simp
      have h1 := hf b hb
      rw [e, follows_append, follows_append] at h1
      refine follows_mono h1.2.1 fun q hq => ?_
      rw [mem_coupled fun j hj => hG b hb j (List.mem_of_mem_take hj)] at hq
      rw [mem_coupled fun j hj => by
        obtain ⟨b', hb', hj'⟩ := mem_transposed hj
        exact hG b' hb' j hj']
      rcases hq with hq | ⟨j, hj, hg, hq⟩
      · exact .inl hq
      · refine .inr ⟨j, ?_, hg, hq⟩
        obtain ⟨t, ht, hj⟩ := List.mem_iff_getElem?.1 hj |>.imp fun t ht => (⟨(by
          have := (List.getElem?_eq_some_iff.1 ht).1
          simp only [List.length_take] at this
          omega : t < n), ht⟩ : t < n ∧ _)
        unfold transposed
        refine List.mem_flatMap.2 ⟨t, List.mem_range.2 ht, List.mem_filterMap.2 ⟨b, hb, ?_⟩⟩
        rw [List.getElem?_take, if_pos ht] at hj
        exact hj

theorem mergeTickBlocks_local {cs : List Circuit} {c : Circuit} (ht : ∀ b ∈ cs, ∀ i ∈ b, i.gate ≠ .TICK)
    (hl : ∀ b ∈ cs, Local b) (h : mergeTickBlocks cs = .ok c) : Local c := by
  have hr : CircuitOps.mergeTickBlocks cs ≠ .error .valueError := by
    intro e
    rw [e] at h
    cases h
  rw [Ne, Props.C19_raises_iff] at hr
  simp only [not_or, not_exists, not_and, not_not] at hr
  cases cs with
  | nil => exact absurd rfl hr.1
  | cons b0 bs =>
    rw [mergeTickBlocks_eq b0 bs fun b hb => hr.2 b (by simp [hb]) b0 (by simp), Except.ok.injEq] at h
    rw [← h]
    have hp := groups_perm (b0 :: bs)
    refine local_foldl (fun i hi => ?_) (transposed_follows (fun b hb => ht b (hp.mem_iff.1 hb))
      (fun b hb => (hl b (hp.mem_iff.1 hb)).2) _)
    obtain ⟨b, hb, hi⟩ := mem_transposed hi
    exact (hl b (hp.mem_iff.1 hb)).1 i hi

/-! ### merged generators -/

theorem mergeStep_local {acc c : Circuit} {cs : List Circuit} (ha : Local acc) (hl : ∀ c ∈ cs, Local c)
    (hc : ∀ c ∈ cs, ∀ i ∈ c, i.gate ≠ Gate.TICK) (h : mergeStep acc cs = .ok c) : Local c := by
  unfold mergeStep at h
  cases e : mergeTickBlocks cs with
  | error e' => rw [e] at h; cases h
  | ok m =>
    have hm := mergeTickBlocks_local hc hl e
    rw [e] at h
    cases m with
    | nil =>
      simp only [Except.ok.injEq] at h
      rw [← h]; exact ha
    | cons i m =>
      simp only at h
      split at h
      · rename_i hi
        simp only [Except.ok.injEq] at h
        have : acc.append i = acc.concat [i] := by simp [Circuit.concat]
        rw [← h, this]
        refine local_concat ha (local_marks ?_)
        simp [hi]
      · simp only [Except.ok.injEq] at h
        rw [← h]
        exact local_concat ha hm

theorem mergeStep_tick_local {acc c : Circuit} {cs : List Circuit} (ha : Local acc) (hc : ∀ c ∈ cs, c = NoiseModel.tick)
    (h : mergeStep acc cs = .ok c) : Local c := by
  obtain ⟨L, hp, hm⟩ := mergeStep_ok h
  have hL : ∀ i ∈ L, i.gate = .TICK := by
    intro i hi
    obtain ⟨b, hb, hib⟩ := List.mem_flatten.1 (hp.mem_iff.1 hi)
    rw [hc b hb, NoiseModel.tick, List.mem_singleton] at hib
    rw [hib]
  have hL' : ∀ i ∈ L.foldl Circuit.append [], i.gate = .TICK := by
    intro i hi
    rcases mem_foldl_append hi with ⟨j, hj, -⟩ | ⟨j, hj, he⟩
    · simp at hj
    · rw [← he, hL j hj]
  cases e : L.foldl Circuit.append [] with
  | nil => rw [e] at hm; rw [hm]; exact ha
  | cons i m =>
    rw [e] at hm hL'
    have hi := hL' i (by simp)
    simp only [if_pos hi] at hm
    have : acc.append i = acc.concat [i] := by simp [Circuit.concat]
    rw [hm, this]
    exact local_concat ha (local_marks (by simp [hi]))

variable {p : Gate → Bool} {ex : Bool} {inds : Dict String Nat}

theorem mergeLoop_step_local {items : List (Call1 × Gen)} {us : List (List String)}
    (hu : List.Forall₂ (fun (x : Call1 × Gen) u => DoesUse p inds x.1 (.qs u)) items us) (hl : ∀ x ∈ items, IsLocal x.1)
    {fuel : Nat} {acc c : Circuit} (ha : Local acc)
    {s s' : MeasState} (h : mergeLoop (fuel + 2) (items.map fun x => x.1 :: Blocks.tick :: x.2) acc s = (.ok c, s')) :
    ∃ c1 s1, Local c1 ∧ mergeLoop fuel (items.map Prod.snd) c1 s1 = (.ok c, s') := by
  rw [mergeLoop] at h
  obtain ⟨r, s1, h1, h⟩ := PyM.bind_eq_ok h
  obtain ⟨cs, rfl, hcs⟩ := nextAll_heads (items := items.map fun x => (x.1, Blocks.tick :: x.2))
    (by simpa only [List.map_map, Function.comp_def] using h1)
  obtain ⟨c1, s2, h2, h⟩ := PyM.bind_eq_ok h
  simp only [PyM.ofExcept, Prod.mk.injEq] at h2
  simp only [List.map_map, Function.comp_def] at h
  rw [mergeLoop] at h
  obtain ⟨r', s3, h3, h⟩ := PyM.bind_eq_ok h
  obtain ⟨ts, rfl, hts⟩ := nextAll_heads (items := items.map fun x => (Blocks.tick, x.2))
    (by simpa only [List.map_map, Function.comp_def] using h3)
  obtain ⟨c2, s4, h4, h⟩ := PyM.bind_eq_ok h
  simp only [PyM.ofExcept, Prod.mk.injEq] at h4
  rw [List.forall₂_map_left_iff] at hcs hts
  have hc : ∀ c ∈ cs, Local c ∧ ∀ i ∈ c, i.gate ≠ Gate.TICK := by
    clear * - hu hcs hl
    induction hu generalizing cs with
    | nil => cases hcs; simp
    | cons hx _ ih =>
      cases hcs with
      | cons hd htl =>
        obtain ⟨s0, s0', he⟩ := hd
        intro c hc
        rcases List.mem_cons.1 hc with rfl | hc
        · exact ⟨hl _ List.mem_cons_self _ _ _ he, (hx _ _ _ he).1⟩
        · exact ih (fun x hx => hl x (by simp [hx])) _ htl c hc
  have ht : ∀ c ∈ ts, c = NoiseModel.tick := by
    clear * - hts
    induction hts with
    | nil => simp
    | cons hd _ ih =>
      obtain ⟨s0, s0', he⟩ := hd
      intro c hc
      rcases List.mem_cons.1 hc with rfl | hc
      · exact DoesUse.isTick (p := acts) ([] : Dict String Nat) _ _ _ he
      · exact ih c hc
  exact ⟨c2, s4, mergeStep_tick_local (mergeStep_local ha (fun c h => (hc c h).1) (fun c h => (hc c h).2) h2.1) ht h4.1,
    by simpa only [List.map_map, Function.comp_def] using h⟩

theorem mergeLoop_local {n : Nat} {gens : List Gen} {Qs : List (List String)} (hne : gens ≠ [])
    (hg : List.Forall₂ (fun Q g => Alt p ex inds Q g n) Qs gens) (hl : ∀ g ∈ gens, GenLocal g) {fuel : Nat} (hf : 2 * n ≤ fuel)
    {acc c : Circuit} (ha : Local acc) {s s' : MeasState} (h : mergeLoop fuel gens acc s = (.ok c, s')) : Local c := by
  induction n generalizing gens fuel acc s with
  | zero =>
    have hc : c = acc := by
      cases fuel with
      | zero =>
        simp only [mergeLoop, pure, PyM.pure, Prod.mk.injEq, Except.ok.injEq] at h
        exact h.1.symm
      | succ fuel =>
        cases hg with
        | nil => exact absurd rfl hne
        | cons hd _ =>
          cases hd
          rw [mergeLoop] at h
          obtain ⟨r, s1, h1, h⟩ := PyM.bind_eq_ok h
          simp only [nextAll, pure, PyM.pure, Prod.mk.injEq, Except.ok.injEq] at h1
          rw [← h1.1] at h
          simp only [pure, PyM.pure, Prod.mk.injEq, Except.ok.injEq] at h
          exact h.1.symm
    rw [hc]; exact ha
  | succ n ih =>
    obtain ⟨items, us, rfl, h2, h3, h4⟩ := alt_items hg
    obtain ⟨k, rfl⟩ := Nat.exists_eq_add_of_le hf
    rw [show 2 * (n + 1) + k = (2 * n + k) + 2 by omega] at h
    have hl' : ∀ x ∈ items, GenLocal (x.1 :: Blocks.tick :: x.2) := fun x hx => hl _ (List.mem_map.2 ⟨x, hx, rfl⟩)
    obtain ⟨c1, s1, hc1, h5⟩ := mergeLoop_step_local h2 (fun x hx => hl' x hx _ (by simp)) ha h
    refine ih (by simpa using hne) h3 (fun g hg b hb => ?_) (by omega) hc1 h5
    obtain ⟨x, hx, rfl⟩ := List.mem_map.1 hg
    exact hl' x hx b (by simp [hb])

/-- Merged generators. -/
theorem isLocal_mergeGens {gens : List Gen} {ls : List Layout} {n : Nat} (hne : gens ≠ [])
    (hg : List.Forall₂ (fun l g => AltOf p ex inds l n g) ls gens) (hl : ∀ g ∈ gens, GenLocal g) : IsLocal (mergeGens gens) := by
  have key : ∃ (items : List (Call1 × Gen)) (Qs : List (List String)), gens = items.map (fun x => x.1 :: Blocks.tick :: x.2) ∧
      List.Forall₂ (fun (x : Call1 × Gen) u => DoesUse p inds x.1 (.qs u)) items (items.map fun _ => []) ∧
      List.Forall₂ (fun Q g => Alt p ex inds Q g n) Qs (items.map Prod.snd) := by
    clear hne hl
    induction hg with
    | nil => exact ⟨[], [], rfl, .nil, .nil⟩
    | cons hd _ ih =>
      obtain ⟨items, Qs, rfl, h2, h3⟩ := ih
      obtain ⟨Q, b, g', k1, k2, rfl, k3, k4⟩ := hd
      exact ⟨(b, g') :: items, Q :: Qs, rfl, .cons k3 h2, .cons k4 h3⟩
  obtain ⟨items, Qs, rfl, h2, h3⟩ := key
  intro s c s' h
  cases items with
  | nil => exact absurd rfl hne
  | cons x items =>
    have hlen : x.2.length = 2 * n := by
      cases h3 with
      | cons hd _ => exact hd.length
    simp only [List.map_cons, mergeGens] at h
    rw [List.length_cons, List.length_cons, show x.2.length + 1 + 1 + 1 = (x.2.length + 1) + 2 by omega] at h
    have hl' : ∀ y ∈ x :: items, GenLocal (y.1 :: Blocks.tick :: y.2) := fun y hy => hl _ (List.mem_map.2 ⟨y, hy, rfl⟩)
    obtain ⟨c1, s1, hc1, h5⟩ := mergeLoop_step_local (items := x :: items) h2 (fun y hy => hl' y hy _ (by simp)) local_nil h
    refine mergeLoop_local (by simp) h3 (fun g hg b hb => ?_) (by omega) hc1 h5
    obtain ⟨y, hy, rfl⟩ := List.mem_map.1 hg
    exact hl' y hy b (by simp [hb])

/-! ### merged rounds and measurements -/

variable {cfg : Detectors.Config}

theorem isLocal_mergeQecRounds {iter : Layout → Bool → Gen} {ls : List Layout} {n : Nat} (hne : ls ≠ []) (reset : Bool)
    (sel : Option (List String)) (hg : ∀ l ∈ ls, AltOf p ex inds l n (iter l reset)) (hl : ∀ l ∈ ls, GenLocal (iter l reset)) :
    IsLocal (mergeQecRounds (cfg := cfg) iter ls reset sel) := by
  intro s c s' h
  obtain ⟨c0, D, rfl, e1, e2⟩ := mergeQecRounds_parts h
  refine local_concat (isLocal_mergeGens (gens := ls.map fun l => iter l reset) (ls := ls) (by simpa using hne)
    (List.forall₂_map_right_iff.2 (List.forall₂_same.2 hg)) (by simpa using hl) _ _ _ e1) (local_marks fun i hi => ?_)
  rw [buildFromAnc_gates e2 i hi]
  decide

theorem layoutObservables_local {ops' : Dict String (List String)} {k m : Nat} {labs : List (String × Nat)}
    {circuit c : Circuit} {s s' : MeasState} (h : layoutObservables k m ops' labs circuit s = (.ok c, s'))
    (he : Local circuit) : Local c := by
  induction labs generalizing circuit s with
  | nil =>
    simp only [layoutObservables, pure, PyM.pure, Prod.mk.injEq, Except.ok.injEq] at h
    obtain ⟨rfl, rfl⟩ := h
    exact he
  | cons q labs ih =>
    obtain ⟨lab, i⟩ := q
    unfold layoutObservables at h
    obtain ⟨qs, s1, h1, h2⟩ := PyM.bind_eq_ok h
    obtain ⟨obs, s2, h3, h4⟩ := PyM.bind_eq_ok h2
    refine ih h4 ?_
    have : circuit.append obs = circuit.concat [obs] := by simp [Circuit.concat]
    rw [this]
    exact local_concat he (local_marks (by simp [(observable_gate h3).2]))

theorem allObservables_local {es : List ((Layout × Bool) × Nat)} {circuit c : Circuit}
    {s s' : MeasState} (h : allObservables es circuit s = (.ok c, s')) (he : Local circuit) : Local c := by
  induction es generalizing circuit s with
  | nil =>
    simp only [allObservables, pure, PyM.pure, Prod.mk.injEq, Except.ok.injEq] at h
    obtain ⟨rfl, rfl⟩ := h
    exact he
  | cons e es ih =>
    obtain ⟨⟨l, r⟩, k⟩ := e
    unfold allObservables at h
    obtain ⟨c1, s1, h1, h2⟩ := PyM.bind_eq_ok h
    exact ih h2 (layoutObservables_local h1 he)

theorem isLocal_mergeLogMeas {iter : Layout → Bool → Gen} {ls : List Layout} {n : Nat}
    (hne : ls ≠ []) (rot : Bool) (rots : List Bool) (hr : ∀ b ∈ rots, b = rot) (reset : Bool) (sel : Option (List String))
    (hg : ∀ l ∈ ls, AltOf p ex inds l n (iter l rot)) (hl : ∀ l ∈ ls, GenLocal (iter l rot)) :
    IsLocal (mergeLogMeas (cfg := cfg) iter ls rots reset sel) := by
  intro s c s' h
  unfold mergeLogMeas at h
  split at h
  · simp [PyM.raise] at h
  · rename_i hlen
    obtain ⟨_, s1, h0, h⟩ := PyM.bind_eq_ok h
    obtain ⟨c1, s2, k1, h⟩ := PyM.bind_eq_ok h
    obtain ⟨ss, s3, -, h⟩ := PyM.bind_eq_ok h
    obtain ⟨dets, s4, k2, h⟩ := PyM.bind_eq_ok h
    have e : (ls.zip rots).map (fun lr => iter lr.1 lr.2) = ls.map fun l => iter l rot := by
      have hlen' : rots.length = ls.length := by simpa using hlen
      clear * - hlen' hr
      induction ls generalizing rots with
      | nil => simp
      | cons l ls ih =>
        cases rots with
        | nil => simp at hlen'
        | cons b rots =>
          rw [List.zip_cons_cons, List.map_cons, List.map_cons, hr b (by simp)]
          rw [ih rots (fun b hb => hr b (by simp [hb])) (by simpa using hlen')]
    unfold onModel at k1 h
    unfold onDets at k2
    simp only [Prod.mk.injEq] at k1 k2 h
    rw [e] at k1
    refine allObservables_local (Prod.ext h.1 rfl) (local_concat (isLocal_mergeGens (gens := ls.map fun l => iter l rot) (ls := ls)
      (by simpa using hne) (List.forall₂_map_right_iff.2 (List.forall₂_same.2 hg)) (by simpa using hl) _ _ _ (Prod.ext k1.1 rfl))
      (local_marks fun i hi => ?_))
    rw [buildFromData_gates (Prod.ext k2.1 rfl) i hi]
    decide

end SurfaceSim
