/-
Qubits used by merged blocks of several layouts.
-/
import Verif.Lemmas.UsageRounds
import Verif.Props.CircuitOps
import Verif.Lemmas.LayoutInv

namespace SurfaceSim
open Spec NoiseModel Blocks LayoutLib Experiments Props

variable {p : Gate → Bool} {ex : Bool} {inds : Dict String Nat}

theorem Once.append {α : Type} {qs qs' u u' : List α} (h : Once ex qs u) (h' : Once ex qs' u') :
    Once ex (qs ++ qs') (u ++ u') := by
  cases ex
  · exact List.Subperm.append (l₁ := u) (l₂ := qs) h h'
  · exact List.Perm.append (l₁ := u) (l₂ := qs) h h'

theorem Once.congr {α : Type} {qs u u' : List α} (h : Once ex qs u) (hp : u'.Perm u) : Once ex qs u' := by
  cases ex
  · exact hp.subperm.trans (show u.Subperm qs from h)
  · exact hp.trans (show u.Perm qs from h)

theorem Once.nil {α : Type} : Once ex ([] : List α) [] := by
  cases ex
  · exact List.Subperm.refl _
  · exact List.Perm.refl _

theorem once_flatten {α : Type} {qss us : List (List α)} (h : List.Forall₂ (Once ex) qss us) :
    Once ex qss.flatten us.flatten := by
  induction h with
  | nil => exact .nil
  | cons h1 _ ih => exact h1.append ih

theorem used_perm {a b : Circuit} (h : a.Perm b) : (used p a).Perm (used p b) := h.flatMap_right _

theorem used_foldl (L : List Instr) (acc : Circuit) : used p (L.foldl Circuit.append acc) = used p acc ++ used p L := by
  induction L generalizing acc with
  | nil => simp [used]
  | cons i L ih =>
    rw [List.foldl_cons, ih]
    rw [used_circuit_append, List.append_assoc, ← used_append]
    rfl

/-- `nextAll` advances all generators. -/
theorem nextAll_heads {items : List (Call1 × Gen)} {s s' : MeasState} {r : Option (List Circuit × List Gen)}
    (h : nextAll (items.map fun x => x.1 :: x.2) s = (.ok r, s')) :
    ∃ cs, r = some (cs, items.map Prod.snd) ∧ List.Forall₂ (fun (x : Call1 × Gen) c => ∃ s s', x.1 s = (.ok c, s')) items cs := by
  induction items generalizing s s' r with
  | nil =>
    simp only [List.map_nil, nextAll, pure, PyM.pure, Prod.mk.injEq, Except.ok.injEq] at h
    exact ⟨[], by rw [← h.1]; rfl, .nil⟩
  | cons x items ih =>
    simp only [List.map_cons, nextAll] at h
    obtain ⟨c, s1, h1, h⟩ := PyM.bind_eq_ok h
    obtain ⟨r', s2, h2, h⟩ := PyM.bind_eq_ok h
    obtain ⟨cs, rfl, hf⟩ := ih h2
    simp only [pure, PyM.pure, Prod.mk.injEq, Except.ok.injEq] at h
    exact ⟨c :: cs, by rw [← h.1]; rfl, .cons ⟨_, _, h1⟩ hf⟩

theorem mergeStep_ok {acc c : Circuit} {cs : List Circuit} (h : mergeStep acc cs = .ok c) :
    ∃ L : List Instr, L.Perm cs.flatten ∧ (match L.foldl Circuit.append [] with
      | [] => c = acc
      | i :: m => if i.gate = .TICK then c = acc.append i else c = acc.concat (i :: m)) := by
  unfold mergeStep at h
  have hr : CircuitOps.mergeTickBlocks cs ≠ .error .valueError := by
    intro e
    rw [e] at h
    cases h
  rw [Ne, C19_raises_iff] at hr
  simp only [not_or, not_exists, not_and, not_not] at hr
  obtain ⟨L, e, hp, -⟩ := C19_merge_tick_blocks cs hr.1 hr.2
  rw [e] at h
  refine ⟨L, hp, ?_⟩
  cases hL : L.foldl Circuit.append [] with
  | nil =>
    rw [hL] at h
    simp only [Except.ok.injEq] at h
    exact h.symm
  | cons i m =>
    rw [hL] at h
    simp only at h
    split at h
    · rename_i hi
      simp only [Except.ok.injEq] at h
      simp [hi, h]
    · rename_i hi
      simp only [Except.ok.injEq] at h
      simp [hi, h]

theorem noTick_foldl {L : List Instr} (hL : ∀ i ∈ L, i.gate ≠ .TICK) {acc : Circuit} (ha : ∀ i ∈ acc, i.gate ≠ .TICK) :
    ∀ i ∈ L.foldl Circuit.append acc, i.gate ≠ .TICK := by
  induction L generalizing acc with
  | nil => exact ha
  | cons i L ih =>
    refine ih (fun j hj => hL j (by simp [hj])) ?_
    have := NoTick.concat ha (b := [i]) (by simpa using hL i (by simp))
    simpa [Circuit.concat] using this

/-- A merged step without TICKs. -/
theorem mergeStep_used {acc c : Circuit} {cs : List Circuit} (hc : ∀ c ∈ cs, ∀ i ∈ c, i.gate ≠ Gate.TICK)
    (h : mergeStep acc cs = .ok c) :
    ∃ v, v.Perm (cs.flatMap (used p)) ∧ ublocks p c = glue (ublocks p acc) [v] := by
  obtain ⟨L, hp, hm⟩ := mergeStep_ok h
  have hu : (used p (L.foldl Circuit.append [])).Perm (cs.flatMap (used p)) := by
    rw [used_foldl]
    refine (used_perm hp).trans ?_
    rw [← List.flatMap_id (L := cs), used, List.flatMap_assoc]
    exact List.Perm.refl _
  have hL : ∀ i ∈ L.foldl Circuit.append [], i.gate ≠ .TICK := by
    refine noTick_foldl (fun i hi => ?_) (by simp)
    obtain ⟨b, hb, hib⟩ := List.mem_flatten.1 (hp.mem_iff.1 hi)
    exact hc b hb i hib
  refine ⟨_, hu, ?_⟩
  cases e : L.foldl Circuit.append [] with
  | nil =>
    rw [e] at hm
    rw [hm]
    exact (glue_nil _ (ublocks_ne _)).symm
  | cons i m =>
    rw [e] at hm hL
    simp only [if_neg (hL i (by simp))] at hm
    rw [hm, ublocks_concat, ublocks_noTick hL]

/-- A merged step that consists of TICKs. -/
theorem mergeStep_tick {acc c : Circuit} {cs : List Circuit} (hne : cs ≠ []) (hc : ∀ c ∈ cs, c = NoiseModel.tick)
    (h : mergeStep acc cs = .ok c) : ublocks p c = glue (ublocks p acc) [[], []] := by
  obtain ⟨L, hp, hm⟩ := mergeStep_ok h
  have hL : ∀ i ∈ L, i.gate = .TICK := by
    intro i hi
    obtain ⟨b, hb, hib⟩ := List.mem_flatten.1 (hp.mem_iff.1 hi)
    rw [hc b hb, NoiseModel.tick, List.mem_singleton] at hib
    rw [hib]
  have hl : L ≠ [] := by
    rintro rfl
    have := hp.length_eq
    cases cs with
    | nil => exact hne rfl
    | cons b cs =>
      rw [hc b (by simp)] at this
      simp [NoiseModel.tick] at this
  have hf : L.foldl Circuit.append [] ≠ [] := by
    have key : ∀ (L : List Instr) (acc : Circuit), L ≠ [] ∨ acc ≠ [] → L.foldl Circuit.append acc ≠ [] := by
      intro L
      induction L with
      | nil => simp
      | cons i L ih =>
        intro acc _
        refine ih _ (.inr ?_)
        unfold Circuit.append
        split
        · simp
        · split <;> simp
    exact key L [] (.inl hl)
  cases e : L.foldl Circuit.append [] with
  | nil => exact absurd e hf
  | cons i m =>
    have hi : i.gate = .TICK := by
      rcases mem_foldl_append (L := L) (c := []) (i := i) (by rw [e]; simp) with ⟨j, hj, -⟩ | ⟨j, hj, he⟩
      · simp at hj
      · rw [← he, hL j hj]
    rw [e] at hm
    simp only [if_pos hi] at hm
    rw [hm, ublocks_circuit_append, ublocks_cons, if_pos hi]
    rfl

/-- One merged step and the TICK after it. -/
theorem mergeLoop_step {items : List (Call1 × Gen)} {us : List (List String)} (hne : items ≠ [])
    (hu : List.Forall₂ (fun (x : Call1 × Gen) u => DoesUse p inds x.1 (.qs u)) items us) {fuel : Nat} {acc c : Circuit}
    {s s' : MeasState} (h : mergeLoop (fuel + 2) (items.map fun x => x.1 :: Blocks.tick :: x.2) acc s = (.ok c, s')) :
    ∃ c1 s1 v, v.Perm (us.flatten.map (ind inds)) ∧ ublocks p c1 = glue (ublocks p acc) [v, []] ∧
      mergeLoop fuel (items.map Prod.snd) c1 s1 = (.ok c, s') := by
  rw [mergeLoop] at h
  obtain ⟨r, s1, h1, h⟩ := PyM.bind_eq_ok h
  obtain ⟨cs, rfl, hcs⟩ := nextAll_heads (items := items.map fun x => (x.1, Blocks.tick :: x.2))
    (by simpa only [List.map_map, Function.comp_def] using h1)
  obtain ⟨c1, s2, h2, h⟩ := PyM.bind_eq_ok h
  simp only [PyM.ofExcept, Prod.mk.injEq] at h2
  simp only [List.map_map, Function.comp_def] at h
  rw [mergeLoop] at h
  obtain ⟨r', s3, h3, h⟩ := PyM.bind_eq_ok h
  obtain ⟨ts, rfl, hts⟩ := nextAll_heads (items := items.map fun x => (Blocks.tick, x.2))
    (by simpa only [List.map_map, Function.comp_def] using h3)
  obtain ⟨c2, s4, h4, h⟩ := PyM.bind_eq_ok h
  simp only [PyM.ofExcept, Prod.mk.injEq] at h4
  rw [List.forall₂_map_left_iff] at hcs hts
  have hc : (∀ c ∈ cs, ∀ i ∈ c, i.gate ≠ Gate.TICK) ∧ cs.flatMap (used p) = us.flatten.map (ind inds) := by
    clear * - hu hcs
    induction hu generalizing cs with
    | nil => cases hcs; simp
    | cons hx _ ih =>
      cases hcs with
      | cons hd htl =>
        obtain ⟨s0, s0', he⟩ := hd
        obtain ⟨a1, a2⟩ := hx _ _ _ he
        obtain ⟨b1, b2⟩ := ih _ htl
        refine ⟨?_, ?_⟩
        · intro c hc
          rcases List.mem_cons.1 hc with rfl | hc
          · exact a1
          · exact b1 c hc
        · rw [List.flatMap_cons, a2, b2, List.flatten_cons, List.map_append]
  have ht : ∀ c ∈ ts, c = NoiseModel.tick := by
    clear * - hts
    induction hts with
    | nil => simp
    | cons hd _ ih =>
      obtain ⟨s0, s0', he⟩ := hd
      intro c hc
      rcases List.mem_cons.1 hc with rfl | hc
      · exact DoesUse.isTick (p := p) inds _ _ _ he
      · exact ih c hc
  have htn : ts ≠ [] := by
    rintro rfl
    cases hts
    exact hne rfl
  obtain ⟨v, hv, e1⟩ := mergeStep_used (p := p) hc.1 h2.1
  have e2 := mergeStep_tick (p := p) htn ht h4.1
  refine ⟨c2, s4, v, by rw [← hc.2]; exact hv, ?_, by simpa only [List.map_map, Function.comp_def] using h⟩
  rw [e2, e1, glue_assoc' _ _ _ (ublocks_ne _) (by simp) (by simp)]
  simp [glue]

theorem alt_items {gens : List Gen} {Qs : List (List String)} {n : Nat}
    (h : List.Forall₂ (fun Q g => Alt p ex inds Q g (n + 1)) Qs gens) :
    ∃ (items : List (Call1 × Gen)) (us : List (List String)), gens = items.map (fun x => x.1 :: Blocks.tick :: x.2) ∧
      List.Forall₂ (fun (x : Call1 × Gen) u => DoesUse p inds x.1 (.qs u)) items us ∧
      List.Forall₂ (fun Q g => Alt p ex inds Q g n) Qs (items.map Prod.snd) ∧ List.Forall₂ (Once ex) Qs us := by
  induction h with
  | nil => exact ⟨[], [], rfl, .nil, .nil, .nil⟩
  | cons hd _ ih =>
    obtain ⟨items, us, rfl, h2, h3, h4⟩ := ih
    cases hd with
    | @cons g _ b u h hb ho => exact ⟨(b, g) :: items, u :: us, rfl, .cons hb h2, .cons h h3, .cons ho h4⟩

theorem mergeLoop_alt {n : Nat} {gens : List Gen} {Qs : List (List String)} (hne : gens ≠ [])
    (hg : List.Forall₂ (fun Q g => Alt p ex inds Q g n) Qs gens) {fuel : Nat} (hf : 2 * n ≤ fuel) {acc c : Circuit}
    {s s' : MeasState} (h : mergeLoop fuel gens acc s = (.ok c, s')) :
    ∃ bs, ublocks p c = glue (ublocks p acc) (bs ++ [[]]) ∧ bs.length = n ∧
      ∀ u ∈ bs, Once ex (Qs.flatten.map (ind inds)) u := by
  induction n generalizing gens fuel acc s with
  | zero =>
    refine ⟨[], ?_, rfl, by simp⟩
    have hc : c = acc := by
      cases fuel with
      | zero =>
        simp only [mergeLoop, pure, PyM.pure, Prod.mk.injEq, Except.ok.injEq] at h
        exact h.1.symm
      | succ fuel =>
        cases hg with
        | nil => exact absurd rfl hne
        | cons hd _ =>
          cases hd
          rw [mergeLoop] at h
          obtain ⟨r, s1, h1, h⟩ := PyM.bind_eq_ok h
          simp only [nextAll, pure, PyM.pure, Prod.mk.injEq, Except.ok.injEq] at h1
          rw [← h1.1] at h
          simp only [pure, PyM.pure, Prod.mk.injEq, Except.ok.injEq] at h
          exact h.1.symm
    rw [hc, List.nil_append, glue_nil _ (ublocks_ne _)]
  | succ n ih =>
    obtain ⟨items, us, rfl, h2, h3, h4⟩ := alt_items hg
    obtain ⟨k, rfl⟩ := Nat.exists_eq_add_of_le hf
    rw [show 2 * (n + 1) + k = (2 * n + k) + 2 by omega] at h
    obtain ⟨c1, s1, v, hv, e1, h5⟩ := mergeLoop_step (by simpa using hne) h2 h
    obtain ⟨bs, e2, rfl, hb⟩ := ih (by simpa using hne) h3 (by omega) h5
    refine ⟨v :: bs, ?_, rfl, ?_⟩
    · rw [e2, e1, glue_assoc' _ _ _ (ublocks_ne _) (by simp) (by simp)]
      cases bs <;> simp [glue]
    · intro u hu
      rcases List.mem_cons.1 hu with rfl | hu
      · exact ((once_flatten h4).map _).congr hv
      · exact hb u hu

theorem Alt.length {Q : List String} {g : Gen} {n : Nat} (h : Alt p ex inds Q g n) : g.length = 2 * n := by
  induction h with
  | nil => rfl
  | cons _ _ _ ih => simp [ih]; omega

/-- Merged generators. -/
theorem mergeGens_alt {gens : List Gen} {ls : List Layout} {n : Nat} (hne : gens ≠ [])
    (hg : List.Forall₂ (fun l g => AltOf p ex inds l n g) ls gens) :
    ∃ Qs, List.Forall₂ (fun l Q => l.getQubits [] = .ok Q ∧ Q.Nodup) ls Qs ∧
      ∀ s c s', mergeGens gens s = (.ok c, s') → EachOnce p ex (Qs.flatten.map (ind inds)) true n true c := by
  have key : ∃ (items : List (Call1 × Gen)) (Qs : List (List String)), gens = items.map (fun x => x.1 :: Blocks.tick :: x.2) ∧
      List.Forall₂ (fun (x : Call1 × Gen) u => DoesUse p inds x.1 (.qs u)) items (items.map fun _ => []) ∧
      List.Forall₂ (fun Q g => Alt p ex inds Q g n) Qs (items.map Prod.snd) ∧
      List.Forall₂ (fun (l : Layout) Q => l.getQubits [] = .ok Q ∧ Q.Nodup) ls Qs := by
    clear hne
    induction hg with
    | nil => exact ⟨[], [], rfl, .nil, .nil, .nil⟩
    | cons hd _ ih =>
      obtain ⟨items, Qs, rfl, h2, h3, h4⟩ := ih
      obtain ⟨Q, b, g', k1, k2, rfl, k3, k4⟩ := hd
      exact ⟨(b, g') :: items, Q :: Qs, rfl, .cons k3 h2, .cons k4 h3, .cons ⟨k1, k2⟩ h4⟩
  obtain ⟨items, Qs, rfl, h2, h3, h4⟩ := key
  refine ⟨Qs, h4, ?_⟩
  intro s c s' h
  cases items with
  | nil => exact absurd rfl hne
  | cons x items =>
    have hlen : x.2.length = 2 * n := by
      cases h3 with
      | cons hd _ => exact hd.length
    simp only [List.map_cons, mergeGens] at h
    rw [List.length_cons, List.length_cons, show x.2.length + 1 + 1 + 1 = (x.2.length + 1) + 2 by omega] at h
    obtain ⟨c1, s1, v, hv, e1, h5⟩ := mergeLoop_step (items := x :: items) (by simp) h2 h
    have hv' : v = [] := by
      have : ((x :: items).map fun _ => ([] : List String)).flatten = [] := by simp
      rw [this] at hv
      simpa using hv
    subst hv'
    obtain ⟨bs, e2, rfl, hb⟩ := mergeLoop_alt (by simp) h3 (by omega) h5
    refine ⟨bs, ?_, rfl, hb⟩
    show ublocks p c = _
    rw [e2, e1]
    cases bs <;> simp [glue, ublocks, tickBlocks, used]

theorem forall₂_nodup {ls : List Layout} {Qs : List (List String)}
    (h : List.Forall₂ (fun l Q => l.getQubits [] = .ok Q ∧ Q.Nodup) ls Qs) (hd : NoCommonQubit ls) : Qs.flatten.Nodup := by
  induction h with
  | nil => simp
  | @cons l Q ls Qs h1 h2 ih =>
    rw [NoCommonQubit, List.pairwise_cons] at hd
    rw [List.flatten_cons, List.nodup_append]
    refine ⟨h1.2, ih hd.2, ?_⟩
    rintro a ha b hb rfl
    obtain ⟨Q', hQ', hab⟩ := List.mem_flatten.1 hb
    obtain ⟨l', hl', e⟩ : ∃ l' ∈ ls, l'.getQubits [] = .ok Q' := by
      clear ih hb hd
      induction h2 with
      | nil => simp at hQ'
      | cons k1 _ ih =>
        rcases List.mem_cons.1 hQ' with rfl | hQ'
        · exact ⟨_, by simp, k1.1⟩
        · obtain ⟨l', hl', e⟩ := ih hQ'
          exact ⟨l', by simp [hl'], e⟩
    exact hd.1 l' hl' Q Q' h1.1 e a ha hab

/-- Merged rounds. -/
theorem once_mergeQecRounds (hm : Marks p) {cfg : Detectors.Config} {iter : Layout → Bool → Gen} {ls : List Layout} {n : Nat}
    (hne : ls ≠ []) (reset : Bool) (sel : Option (List String)) (hd : NoCommonQubit ls)
    (hg : ∀ l ∈ ls, AltOf p ex inds l n (iter l reset)) :
    OncePerTickAll p ex inds ls true n true (mergeQecRounds (cfg := cfg) iter ls reset sel) := by
  obtain ⟨Qs, h1, h2⟩ := mergeGens_alt (gens := ls.map fun l => iter l reset) (ls := ls) (by simpa using hne)
    (List.forall₂_map_right_iff.2 (List.forall₂_same.2 hg))
  refine ⟨Qs, h1.imp fun _ _ h => h.1, forall₂_nodup h1 hd, ?_⟩
  intro s c s' h
  obtain ⟨c0, D, rfl, e1, e2⟩ := mergeQecRounds_parts h
  exact (h2 _ _ _ e1).declare hm fun i hi => .inl (buildFromAnc_gates e2 i hi)

theorem layoutObservables_once (hm : Marks p) {ops' : Dict String (List String)} {k m : Nat} {labs : List (String × Nat)}
    {circuit c : Circuit} {s s' : MeasState} (h : layoutObservables k m ops' labs circuit s = (.ok c, s'))
    {qs : List Nat} {pre post : Bool} {n : Nat} (he : EachOnce p ex qs pre n post circuit) : EachOnce p ex qs pre n post c := by
  induction labs generalizing circuit s with
  | nil =>
    simp only [layoutObservables, pure, PyM.pure, Prod.mk.injEq, Except.ok.injEq] at h
    obtain ⟨rfl, rfl⟩ := h
    exact he
  | cons q labs ih =>
    obtain ⟨lab, i⟩ := q
    unfold layoutObservables at h
    obtain ⟨qs, s1, h1, h2⟩ := PyM.bind_eq_ok h
    obtain ⟨obs, s2, h3, h4⟩ := PyM.bind_eq_ok h2
    exact ih h4 (he.declare1 hm (observable_gate h3).2)

theorem allObservables_once (hm : Marks p) {es : List ((Layout × Bool) × Nat)} {circuit c : Circuit}
    {s s' : MeasState} (h : allObservables es circuit s = (.ok c, s'))
    {qs : List Nat} {pre post : Bool} {n : Nat} (he : EachOnce p ex qs pre n post circuit) : EachOnce p ex qs pre n post c := by
  induction es generalizing circuit s with
  | nil =>
    simp only [allObservables, pure, PyM.pure, Prod.mk.injEq, Except.ok.injEq] at h
    obtain ⟨rfl, rfl⟩ := h
    exact he
  | cons e es ih =>
    obtain ⟨⟨l, r⟩, k⟩ := e
    unfold allObservables at h
    obtain ⟨c1, s1, h1, h2⟩ := PyM.bind_eq_ok h
    exact ih h2 (layoutObservables_once hm h1 he)

/-- Merged logical measurements in the same basis. -/
theorem once_mergeLogMeas (hm : Marks p) {cfg : Detectors.Config} {iter : Layout → Bool → Gen} {ls : List Layout} {n : Nat}
    (hne : ls ≠ []) (rot : Bool) (rots : List Bool) (hr : ∀ b ∈ rots, b = rot) (reset : Bool) (sel : Option (List String))
    (hd : NoCommonQubit ls) (hg : ∀ l ∈ ls, AltOf p ex inds l n (iter l rot)) :
    OncePerTickAll p ex inds ls true n true (mergeLogMeas (cfg := cfg) iter ls rots reset sel) := by
  obtain ⟨Qs, h1, h2⟩ := mergeGens_alt (gens := ls.map fun l => iter l rot) (ls := ls) (by simpa using hne)
    (List.forall₂_map_right_iff.2 (List.forall₂_same.2 hg))
  refine ⟨Qs, h1.imp fun _ _ h => h.1, forall₂_nodup h1 hd, ?_⟩
  intro s c s' h
  unfold mergeLogMeas at h
  split at h
  · simp [PyM.raise] at h
  · rename_i hlen
    obtain ⟨_, s1, h0, h⟩ := PyM.bind_eq_ok h
    obtain ⟨c1, s2, k1, h⟩ := PyM.bind_eq_ok h
    obtain ⟨ss, s3, -, h⟩ := PyM.bind_eq_ok h
    obtain ⟨dets, s4, k2, h⟩ := PyM.bind_eq_ok h
    have e : (ls.zip rots).map (fun lr => iter lr.1 lr.2) = ls.map fun l => iter l rot := by
      have hlen' : rots.length = ls.length := by simpa using hlen
      clear * - hlen' hr
      induction ls generalizing rots with
      | nil => simp
      | cons l ls ih =>
        cases rots with
        | nil => simp at hlen'
        | cons b rots =>
          rw [List.zip_cons_cons, List.map_cons, List.map_cons, hr b (by simp)]
          rw [ih rots (fun b hb => hr b (by simp [hb])) (by simpa using hlen')]
    unfold onModel at k1 h
    unfold onDets at k2
    simp only [Prod.mk.injEq] at k1 k2 h
    rw [e] at k1
    exact allObservables_once hm (Prod.ext h.1 rfl)
      ((h2 _ _ _ (Prod.ext k1.1 rfl)).declare hm fun i hi => .inl (buildFromData_gates (Prod.ext k2.1 rfl) i hi))

/-! ### `merge_circuits` -/

theorem timeline_of_eachOnce {qs : List Nat} {pre post : Bool} {n : Nat} {c : Circuit} (h : EachOnce p ex qs pre n post c) :
    Timeline p ex qs ((if pre then [false] else []) ++ List.replicate n true ++ (if post then [false] else [])) c := by
  obtain ⟨bs, h1, rfl, h3⟩ := h
  unfold Timeline
  rw [h1]
  refine List.rel_append (List.rel_append ?_ ?_) ?_
  · cases pre <;> simp
  · clear h1
    induction bs with
    | nil => exact .nil
    | cons u bs ih =>
      exact .cons (by simpa using h3 u (by simp)) (ih fun v hv => h3 v (by simp [hv]))
  · cases post <;> simp

theorem timeline_iff {qs : List Nat} {P : List Bool} {c : Circuit} :
    Timeline p ex qs P c ↔ P.length = (tickBlocks c).length ∧ ∀ (k : Nat) (b : Bool) (u : Circuit), P[k]? = some b → (tickBlocks c)[k]? = some u →
      if b then Once ex qs (used p u) else used p u = [] := by
  unfold Timeline
  rw [List.forall₂_iff_get]
  simp only [List.length_map, List.get_eq_getElem, List.getElem_map]
  refine and_congr_right fun _ => ⟨fun h k b u h1 h2 => ?_, fun h k h1 h2 => ?_⟩
  · obtain ⟨l1, rfl⟩ := List.getElem?_eq_some_iff.1 h1
    obtain ⟨l2, rfl⟩ := List.getElem?_eq_some_iff.1 h2
    exact h k l1 l2
  · exact h k _ _ (List.getElem?_eq_getElem h1) (List.getElem?_eq_getElem h2)

theorem timeline_merge {cs : List Circuit} {Qs : List (List Nat)} {P : List Bool}
    (h : List.Forall₂ (fun Q c => Timeline p ex Q P c) Qs cs) {chk : Bool} {c : Circuit}
    (hc : CircuitOps.mergeCircuits cs chk = .ok c) : Timeline p ex Qs.flatten P c := by
  have hr : CircuitOps.mergeCircuits cs chk ≠ .error .valueError := by rw [hc]; simp
  rw [Ne, C21_raises_iff] at hr
  simp only [not_or, not_exists, not_and, not_not] at hr
  obtain ⟨r1, r2, r3⟩ := hr
  obtain ⟨c0, cs', rfl⟩ := List.exists_cons_of_ne_nil r1
  obtain ⟨c', e1, e2, e3⟩ := C21_merge_circuits (c0 :: cs') chk c0.numTicks r1 (fun c hc => r2 c hc c0 (by simp)) r3
  rw [hc, Except.ok.injEq] at e1
  subst e1
  have hP : P.length = c0.numTicks + 1 := by
    cases h with
    | cons hd _ => rw [(timeline_iff.1 hd).1, tickBlocks_length]
  rw [timeline_iff]
  refine ⟨by rw [tickBlocks_length, e2, hP], ?_⟩
  intro k b u hb hu
  have hk : k ≤ c0.numTicks := by
    have := (List.getElem?_eq_some_iff.1 hb).1
    omega
  obtain ⟨L, l1, l2, -⟩ := e3 k hk
  rw [hu, Option.some.injEq] at l1
  have hp : (used p u).Perm ((c0 :: cs').flatMap fun c => used p (((tickBlocks c)[k]?).getD [])) := by
    rw [l1, used_foldl]
    refine (used_perm l2).trans ?_
    unfold used
    rw [List.flatMap_assoc]
  have hf : List.Forall₂ (fun (Q : List Nat) c => if b then Once ex Q (used p (((tickBlocks c)[k]?).getD []))
      else used p (((tickBlocks c)[k]?).getD []) = []) Qs (c0 :: cs') := by
    refine h.imp fun Q c ht => ?_
    obtain ⟨t1, t2⟩ := timeline_iff.1 ht
    have hlt : k < (tickBlocks c).length := by rw [← t1, hP]; omega
    have := t2 k b _ hb (List.getElem?_eq_getElem hlt)
    rwa [List.getElem?_eq_getElem hlt, Option.getD_some]
  cases b
  · simp only [Bool.false_eq_true, if_false] at hf ⊢
    have : ((c0 :: cs').flatMap fun c => used p (((tickBlocks c)[k]?).getD [])) = [] := by
      rw [List.flatMap_eq_nil_iff]
      intro c hc
      obtain ⟨Q, -, hq⟩ := Layout.forall₂_mem_right hf c hc
      exact hq
    rw [this] at hp
    simpa using hp
  · simp only [if_true] at hf ⊢
    have := once_flatten (List.forall₂_map_right_iff.2 hf)
    exact this.congr hp

end SurfaceSim
