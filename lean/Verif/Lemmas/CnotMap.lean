/-
The map between the qubits of two layouts that `set_trans_cnot` chooses.
-/
import Verif.Lemmas.FoldTotal

namespace SurfaceSim
open Spec LayoutLib LogGates

/-! ### twins: qubits of the same grid position -/

section twins
variable {L L' : List (String × Site × Kind)}

/-- The grid position of a label. -/
def siteOf (L : List (String × Site × Kind)) (q : String) : Site :=
  match L.find? fun e => decide (e.1 = q) with
  | some e => e.2.1
  | none => 0

theorem siteOf_eq (hL : (L.map Prod.fst).Nodup) {q : String} {s : Site} {k : Kind} (h : (q, s, k) ∈ L) : siteOf L q = s := by
  unfold siteOf
  induction L with
  | nil => simp at h
  | cons e L ih =>
    rw [List.map_cons, List.nodup_cons] at hL
    rw [List.find?_cons]
    rcases List.mem_cons.1 h with rfl | h
    · simp
    · have : e.1 ≠ q := fun he => hL.1 (List.mem_map.2 ⟨_, h, he.symm⟩)
      simp only [this, decide_false]
      exact ih hL.2 h

theorem sites_of_labels (hL : (L.map Prod.fst).Nodup) : (L.map Prod.fst).map (siteOf L) = L.map fun e => e.2.1 := by
  rw [List.map_map]
  exact List.map_congr_left fun e he => siteOf_eq hL he

/-- The labels in `L'` of the positions of the labels in `L`. -/
theorem exists_twin (h : L.map Prod.snd = L'.map Prod.snd) {q : String} {s : Site} {k : Kind} (hq : (q, s, k) ∈ L) :
    ∃ q', (q', s, k) ∈ L' := by
  have : (s, k) ∈ L'.map Prod.snd := h ▸ List.mem_map.2 ⟨_, hq, rfl⟩
  obtain ⟨⟨q', s', k'⟩, h1, h2⟩ := List.mem_map.1 this
  cases h2
  exact ⟨q', h1⟩

/-- The map between twins. -/
def twins (L L' : List (String × Site × Kind)) : Dict String String := (L.map Prod.fst).zip (L'.map Prod.fst)

theorem mem_twins (h : L.map Prod.snd = L'.map Prod.snd) {q q' : String} (hq : (q, q') ∈ twins L L') :
    ∃ s k, (q, s, k) ∈ L ∧ (q', s, k) ∈ L' := by
  unfold twins at hq
  obtain ⟨i, hi, h1⟩ := List.mem_iff_getElem.1 hq
  rw [List.getElem_zip, Prod.mk.injEq, List.getElem_map, List.getElem_map] at h1
  simp only [List.length_zip, List.length_map] at hi
  have hi1 : i < L.length := by omega
  have hi2 : i < L'.length := by omega
  have h2 : L[i].2 = L'[i].2 := by
    have : (L.map Prod.snd)[i]'(by simpa) = (L'.map Prod.snd)[i]'(by simpa) := by simp only [h]
    simpa using this
  refine ⟨L[i].2.1, L[i].2.2, ?_, ?_⟩
  · rw [← h1.1]; exact List.getElem_mem hi1
  · rw [← h1.2, h2]; exact List.getElem_mem hi2

end twins

/-! ### comparing coordinates -/

section
variable {lc lt : Layout} {Lc Lt : List (String × Site × Kind)} {dirs : List (Site × String)} {oc ot : Vec}

/-- The vector between two qubits. -/
def offVec (oc ot : Vec) (s s' : Site) : List Rat := [(place ot s').1 - (place oc s).1, (place ot s').2 - (place oc s).2]

theorem Placed.getCoords_one {l : Layout} {L : List (String × Site × Kind)} {o : Vec} (h : Placed l L dirs o) {q : String}
    {s : Site} {k : Kind} (hq : (q, s, k) ∈ L) : l.getCoords [q] = .ok [[(place o s).1, (place o s).2]] := by
  have hc := h.coordOf hq
  have hk : q ∈ l.qubitCoords.keys := by
    unfold Layout.coordOf at hc
    cases hv : l.qubitCoords.getE q with
    | error e => simp [hv] at hc
    | ok v => exact (Dict.get?_isSome_iff _ _).1 (by rw [(Dict.getE_ok_iff _ _ _).1 hv]; rfl)
  unfold Layout.getCoords Layout.strictSuperset
  rw [if_neg]
  · simp [mapExcept, hc]
  · simp [hk]

theorem offset_ok (hc : Placed lc Lc dirs oc) (ht : Placed lt Lt dirs ot) {q q' : String} {s s' : Site} {k k' : Kind}
    (hq : (q, s, k) ∈ Lc) (hq' : (q', s', k') ∈ Lt) : offset lc lt (q, q') = .ok (offVec oc ot s s') := by
  unfold offset
  rw [hc.getCoords_one hq, ht.getCoords_one hq']
  simp [pyIndex, offVec]

theorem allclose_self (v : List Rat) : allclose v v = .ok true := by
  unfold allclose
  rw [if_pos rfl]
  congr 1
  rw [List.all_eq_true]
  intro ab hab
  have : ab.1 = ab.2 := by
    obtain ⟨i, hi, h1⟩ := List.mem_iff_getElem.1 hab
    rw [List.getElem_zip] at h1
    rw [← h1]
  rw [this, sub_self, abs_zero, decide_eq_true_eq]
  have := abs_nonneg ab.2
  linarith

/-- Close vectors between grid positions are equal if they are short enough. -/
theorem close_eq {x y : Rat} {n : Int} (hxy : x - y = n) (hy : |y| < 99999)
    (h : |x - y| ≤ 1 / 100000000 + 1 / 100000 * |y|) : n = 0 := by
  rw [hxy] at h
  have h1 : |(n : Rat)| < 1 := by linarith
  have h2 : |n| < 1 := by exact_mod_cast h1
  exact Int.abs_lt_one_iff.1 h2

theorem allclose_eq {s s' t t' : Site} (h1 : |(place ot t').1 - (place oc t).1| < 99999)
    (h2 : |(place ot t').2 - (place oc t).2| < 99999)
    (h : allclose (offVec oc ot s s') (offVec oc ot t t') = .ok true) : s' - s = t' - t := by
  unfold allclose offVec at h
  simp only [List.length_cons, List.length_nil, if_true, List.zip_cons_cons, List.zip_nil_right, List.all_cons, List.all_nil,
    Bool.and_true, Except.ok.injEq, Bool.and_eq_true, decide_eq_true_eq] at h
  have k1 := close_eq (n := s'.1 - s.1 - (t'.1 - t.1)) (by simp [place]; ring) h1 h.1
  have k2 := close_eq (n := s'.2 - s.2 - (t'.2 - t.2)) (by simp [place]; ring) h2 h.2
  refine Prod.ext ?_ ?_
  · simp only [Prod.fst_sub]; omega
  · simp only [Prod.snd_sub]; omega

theorem parallel_true {base : List Rat} {m : Dict String String} (h : parallel lc lt base m = .ok true) :
    ∀ ct ∈ m, ∃ v, offset lc lt ct = .ok v ∧ allclose v base = .ok true := by
  induction m with
  | nil => simp
  | cons a m ih =>
    unfold parallel at h
    cases ho : offset lc lt a with
    | error e => simp [ho] at h
    | ok v =>
      cases ha : allclose v base with
      | error e => simp [ho, ha] at h
      | ok b =>
        cases b with
        | false => simp [ho, ha] at h
        | true =>
          simp only [ho, ha] at h
          intro ct hct
          rcases List.mem_cons.1 hct with rfl | hct
          · exact ⟨v, ho, ha⟩
          · exact ih h ct hct

theorem chooseMap_some {ms : List (Dict String String)} {acc : Option (Dict String String)} {m : Dict String String}
    (h : chooseMap lc lt ms acc = .ok (some m)) : acc = some m ∨
      m ∈ ms ∧ ∃ ct rest base, m = ct :: rest ∧ offset lc lt ct = .ok base ∧ parallel lc lt base m = .ok true := by
  induction ms generalizing acc with
  | nil =>
    unfold chooseMap at h
    exact Or.inl (Except.ok.inj h)
  | cons m' ms ih =>
    unfold chooseMap at h
    cases m' with
    | nil => simp at h
    | cons ct rest =>
      simp only at h
      cases ho : offset lc lt ct with
      | error e => simp [ho] at h
      | ok base =>
        cases hp : parallel lc lt base (ct :: rest) with
        | error e => simp [ho, hp] at h
        | ok b =>
          simp only [ho, hp] at h
          rcases ih h with h1 | ⟨h1, h2⟩
          · cases b with
            | false => exact Or.inl (by simpa using h1)
            | true =>
              simp only [if_true, Option.some.injEq] at h1
              subst h1
              exact Or.inr ⟨by simp, ct, rest, base, rfl, ho, hp⟩
          · exact Or.inr ⟨by simp [h1], h2⟩

/-- Coordinates are near enough for the tolerance of `np.allclose`. -/
def NearBy (Lc Lt : List (String × Site × Kind)) (oc ot : Vec) : Prop :=
  ∀ e ∈ Lc, ∀ e' ∈ Lt, |(place ot e'.2.1).1 - (place oc e.2.1).1| < 99999 ∧ |(place ot e'.2.1).2 - (place oc e.2.1).2| < 99999

theorem LogGates.Mono.perm_keys (hc : OnGrid lc Lc dirs) (ht : OnGrid lt Lt dirs) (hs : Lc.map Prod.snd = Lt.map Prod.snd)
    {m : Dict String String} (hm : Mono lc.graph lt.graph m) :
    m.keys.Perm (Lc.map Prod.fst) ∧ (m.map Prod.snd).Perm (Lt.map Prod.fst) := by
  have h2 := hm.onto
  rw [ht.keys] at h2
  refine ⟨(List.subperm_of_subset hm.keys fun a ha => ?_).perm_of_length_le ?_, h2⟩
  · rw [← hc.keys]; exact hm.dom a ha
  · have h3 := h2.length_eq
    have h4 := congrArg List.length hs
    simp only [List.length_map, Dict.keys] at h3 h4 ⊢
    omega

theorem LogGates.Mono.entries (hc : OnGrid lc Lc dirs) (ht : OnGrid lt Lt dirs) (hs : Lc.map Prod.snd = Lt.map Prod.snd)
    {m : Dict String String} (hm : Mono lc.graph lt.graph m) {q q' : String} (h : (q, q') ∈ m) :
    ∃ s k s' k', (q, s, k) ∈ Lc ∧ (q', s', k') ∈ Lt := by
  obtain ⟨h1, h2⟩ := hm.perm_keys hc ht hs
  have h3 : q ∈ Lc.map Prod.fst := h1.mem_iff.1 (List.mem_map.2 ⟨_, h, rfl⟩)
  have h4 : q' ∈ Lt.map Prod.fst := h2.mem_iff.1 (List.mem_map.2 ⟨_, h, rfl⟩)
  obtain ⟨⟨a, s, k⟩, h5, rfl⟩ := List.mem_map.1 h3
  obtain ⟨⟨b, s', k'⟩, h6, rfl⟩ := List.mem_map.1 h4
  exact ⟨s, k, s', k', h5, h6⟩

/-- A monomorphism with parallel vectors maps each qubit to its twin. -/
theorem parallel_twins (hc : Placed lc Lc dirs oc) (ht : Placed lt Lt dirs ot) (hs : Lc.map Prod.snd = Lt.map Prod.snd)
    (hn : NearBy Lc Lt oc ot) {m : Dict String String} (hm : Mono lc.graph lt.graph m) {ct : String × String}
    {rest : Dict String String} {base : List Rat} (hct : m = ct :: rest) (ho : offset lc lt ct = .ok base)
    (hp : parallel lc lt base m = .ok true) : ∀ q q', (q, q') ∈ m → ∃ s k, (q, s, k) ∈ Lc ∧ (q', s, k) ∈ Lt := by
  obtain ⟨h1, h2⟩ := hm.perm_keys hc.grid ht.grid hs
  obtain ⟨c, t⟩ := ct
  obtain ⟨s0, k0, s0', k0', hc0, ht0⟩ := hm.entries hc.grid ht.grid hs (q := c) (q' := t) (by simp [hct])
  rw [offset_ok hc ht hc0 ht0] at ho
  have ho := Except.ok.inj ho
  subst ho
  have hv : ∀ p ∈ m, siteOf Lt p.2 - siteOf Lc p.1 = s0' - s0 := by
    rintro ⟨q, q'⟩ hq
    obtain ⟨s, k, s', k', hqc, hqt⟩ := hm.entries hc.grid ht.grid hs hq
    obtain ⟨v, hv, hcl⟩ := parallel_true hp _ hq
    rw [offset_ok hc ht hqc hqt] at hv
    have hv := Except.ok.inj hv
    subst hv
    obtain ⟨n1, n2⟩ := hn _ hc0 _ ht0
    rw [siteOf_eq hc.grid.labels hqc, siteOf_eq ht.grid.labels hqt]
    exact allclose_eq n1 n2 hcl
  have hsum : (m.map fun p => siteOf Lt p.2).sum = (m.map fun p => siteOf Lc p.1).sum := by
    have e1 : (m.map fun p => siteOf Lt p.2).sum = (Lt.map fun e => e.2.1).sum := by
      rw [← sites_of_labels ht.grid.labels, ← (h2.map _).sum_eq, List.map_map]; rfl
    have e2 : (m.map fun p => siteOf Lc p.1).sum = (Lc.map fun e => e.2.1).sum := by
      rw [← sites_of_labels hc.grid.labels, ← (h1.map _).sum_eq, Dict.keys, List.map_map]; rfl
    have e3 : (Lc.map fun e => e.2.1) = Lt.map fun e => e.2.1 := by
      have := congrArg (List.map Prod.fst) hs
      simpa [List.map_map, Function.comp_def] using this
    rw [e1, e2, e3]
  have hsum2 : (m.map fun p => siteOf Lt p.2).sum = (m.map fun p => siteOf Lc p.1).sum + m.length • (s0' - s0) := by
    rw [← List.sum_replicate, ← List.map_const', ← List.sum_map_add]
    congr 1
    refine List.map_congr_left fun p hp' => ?_
    rw [← hv p hp']
    abel
  have hδ : s0' - s0 = 0 := by
    rw [hsum, left_eq_add] at hsum2
    have hl : m.length ≠ 0 := by simp [hct]
    have k1 := congrArg Prod.fst hsum2
    have k2 := congrArg Prod.snd hsum2
    rw [Prod.smul_fst, Prod.fst_zero, nsmul_eq_mul, mul_eq_zero, Nat.cast_eq_zero] at k1
    rw [Prod.smul_snd, Prod.snd_zero, nsmul_eq_mul, mul_eq_zero, Nat.cast_eq_zero] at k2
    have k1 := k1.resolve_left hl
    have k2 := k2.resolve_left hl
    exact Prod.ext k1 k2
  intro q q' hq
  obtain ⟨s, k, s', k', hqc, hqt⟩ := hm.entries hc.grid ht.grid hs hq
  have h3 := hv _ hq
  simp only at h3
  rw [hδ, siteOf_eq hc.grid.labels hqc, siteOf_eq ht.grid.labels hqt, sub_eq_zero] at h3
  subst h3
  obtain ⟨q2, h4⟩ := exists_twin hs hqc
  obtain ⟨h5, h6⟩ := ht.grid.unique' hqt h4
  subst h6
  exact ⟨s', k', hqc, hqt⟩

/-! ### the map exists -/

theorem adj_iff {l : Layout} {L : List (String × Site × Kind)} (hg : OnGrid l L dirs) {q q' : String}
    (hq : q ∈ L.map Prod.fst) : ((l.graph.adj.get? q).getD []).has q' = true ↔ ∃ dir, Rel L dirs q dir q' := by
  rw [← hg.mem_neighbors, Dict.has_iff]
  unfold Layout.getNeighbors Layout.getNeighborPairs Layout.outEdgeView
  have : l.graph.nodes.has q = true := by rw [Dict.has_iff, hg.keys]; exact hq
  simp [Layout.dedup, this, Dict.keys]

theorem mono_twins (hc : OnGrid lc Lc dirs) (ht : OnGrid lt Lt dirs) (hs : Lc.map Prod.snd = Lt.map Prod.snd) :
    Mono lc.graph lt.graph (twins Lc Lt) := by
  have hlen : (Lc.map Prod.fst).length = (Lt.map Prod.fst).length := by
    have := congrArg List.length hs
    simpa using this
  have hkeys : (twins Lc Lt).keys = Lc.map Prod.fst := by
    unfold twins Dict.keys
    rw [List.map_fst_zip]
    exact hlen.le
  refine ⟨hkeys ▸ hc.labels, fun a ha => ?_, ?_, ?_⟩
  · rw [hc.keys, ← hkeys]; exact ha
  · rw [ht.keys]
    unfold twins
    rw [List.map_snd_zip]
    exact hlen.ge
  · intro a b a' b' h1 h2 he
    obtain ⟨s, k, e1, e2⟩ := mem_twins hs h1
    obtain ⟨s', k', e3, e4⟩ := mem_twins hs h2
    rw [adj_iff ht (List.mem_map.2 ⟨_, e2, rfl⟩)] at he
    rw [adj_iff hc (List.mem_map.2 ⟨_, e1, rfl⟩)]
    obtain ⟨dir, he⟩ := he
    refine ⟨dir, ?_⟩
    obtain ⟨u, j, u', j', sh, f1, f2, f3, f4, f5⟩ := he
    obtain ⟨rfl, rfl⟩ := ht.unique e2 f1
    obtain ⟨rfl, rfl⟩ := ht.unique e4 f2
    exact ⟨s, k, s', k', sh, e1, e3, f3, f4, f5⟩

theorem parallel_ok (hc : Placed lc Lc dirs oc) (ht : Placed lt Lt dirs ot) {s0 s0' : Site} {m : Dict String String}
    (hm : ∀ p ∈ m, ∃ s k s' k', (p.1, s, k) ∈ Lc ∧ (p.2, s', k') ∈ Lt) :
    ∃ b, parallel lc lt (offVec oc ot s0 s0') m = .ok b ∧
      ((∀ p ∈ m, ∃ s k s' k', (p.1, s, k) ∈ Lc ∧ (p.2, s', k') ∈ Lt ∧ offVec oc ot s s' = offVec oc ot s0 s0') → b = true) := by
  induction m with
  | nil => exact ⟨true, rfl, fun _ => rfl⟩
  | cons p m ih =>
    obtain ⟨s, k, s', k', h1, h2⟩ := hm p (by simp)
    obtain ⟨b, h3, h4⟩ := ih fun p hp => hm p (by simp [hp])
    obtain ⟨b', hb'⟩ : ∃ b', allclose (offVec oc ot s s') (offVec oc ot s0 s0') = .ok b' := ⟨_, rfl⟩
    unfold parallel
    have ho : offset lc lt p = .ok (offVec oc ot s s') := offset_ok hc ht h1 h2
    simp only [ho, hb']
    cases b' with
    | false =>
      refine ⟨false, rfl, fun h => ?_⟩
      obtain ⟨u, j, u', j', h5, h6, h7⟩ := h p (by simp)
      obtain ⟨rfl, -⟩ := hc.grid.unique h1 h5
      obtain ⟨rfl, -⟩ := ht.grid.unique h2 h6
      rw [h7, allclose_self] at hb'
      simp at hb'
    | true => exact ⟨b, h3, fun h => h4 fun p hp => h p (by simp [hp])⟩

theorem chooseMap_ok (hc : Placed lc Lc dirs oc) (ht : Placed lt Lt dirs ot) {ms : List (Dict String String)}
    (hm : ∀ m ∈ ms, m ≠ [] ∧ ∀ p ∈ m, ∃ s k s' k', (p.1, s, k) ∈ Lc ∧ (p.2, s', k') ∈ Lt) (acc : Option (Dict String String)) :
    ∃ r, chooseMap lc lt ms acc = .ok r ∧ ((acc.isSome = true ∨ ∃ m ∈ ms, ∃ v, ∀ p ∈ m, ∃ s k s' k', (p.1, s, k) ∈ Lc ∧
      (p.2, s', k') ∈ Lt ∧ offVec oc ot s s' = v) → r.isSome = true) := by
  induction ms generalizing acc with
  | nil =>
    refine ⟨acc, rfl, ?_⟩
    rintro (h | ⟨m, hm, -⟩)
    · exact h
    · simp at hm
  | cons m ms ih =>
    obtain ⟨h1, h2⟩ := hm m (by simp)
    obtain ⟨ct, rest, rfl⟩ := List.exists_cons_of_ne_nil h1
    obtain ⟨s, k, s', k', h3, h4⟩ := h2 ct (by simp)
    obtain ⟨b, h5, h6⟩ := parallel_ok hc ht (s0 := s) (s0' := s') h2
    have ho : offset lc lt ct = .ok (offVec oc ot s s') := offset_ok hc ht h3 h4
    obtain ⟨r, h7, h8⟩ := ih (fun m hm' => hm m (by simp [hm'])) (if b then some (ct :: rest) else acc)
    refine ⟨r, ?_, fun h => h8 ?_⟩
    · unfold chooseMap
      simp only [ho, h5]
      exact h7
    · rcases h with h | ⟨m, hm, v, hv⟩
      · left; cases b
        · exact h
        · rfl
      · rcases List.mem_cons.1 hm with rfl | hm
        · left
          rw [h6 fun p hp => ?_]
          · rfl
          · obtain ⟨u, j, u', j', e1, e2, e3⟩ := hv p hp
            obtain ⟨w, i, w', i', f1, f2, f3⟩ := hv ct (by simp)
            obtain ⟨rfl, -⟩ := hc.grid.unique h3 f1
            obtain ⟨rfl, -⟩ := ht.grid.unique h4 f2
            exact ⟨u, j, u', j', e1, e2, e3.trans f3.symm⟩
        · exact Or.inr ⟨m, hm, v, hv⟩

/-- The search finds a map. -/
theorem chooseMap_exists (hc : Placed lc Lc dirs oc) (ht : Placed lt Lt dirs ot) (hs : Lc.map Prod.snd = Lt.map Prod.snd)
    (hne : Lc ≠ []) (mt : Matcher) : mt.all lc.graph lt.graph ≠ [] ∧
      ∃ m, chooseMap lc lt (mt.all lc.graph lt.graph) none = .ok (some m) := by
  obtain ⟨m0, hm0, hp⟩ := mt.complete _ _ _ (mono_twins hc.grid ht.grid hs)
  refine ⟨fun h => by simp [h] at hm0, ?_⟩
  obtain ⟨r, h1, h2⟩ := chooseMap_ok hc ht (ms := mt.all lc.graph lt.graph) (fun m hm => by
    have hmono := mt.sound _ _ m hm
    refine ⟨?_, fun p hp => hmono.entries hc.grid ht.grid hs hp⟩
    rintro rfl
    have := (hmono.perm_keys hc.grid ht.grid hs).1.length_eq
    simp only [Dict.keys, List.map_nil, List.length_nil, List.length_map] at this
    exact hne (List.length_eq_zero_iff.1 this.symm)) none
  have h3 := h2 (Or.inr ⟨m0, hm0, [ot.1 - oc.1, ot.2 - oc.2], fun p hp' => by
    obtain ⟨s, k, e1, e2⟩ := mem_twins hs (hp.mem_iff.1 hp')
    exact ⟨s, k, s, k, e1, e2, by simp [offVec, place]⟩⟩)
  obtain ⟨m, hm⟩ := Option.isSome_iff_exists.1 h3
  exact ⟨m, by rw [h1, hm]⟩

end

end SurfaceSim
