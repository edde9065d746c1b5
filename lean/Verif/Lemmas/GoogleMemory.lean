/-
Memory experiments of rot_surface_code_xzzx_google.py.
-/
import Verif.Lemmas.GoogleFinal

namespace SurfaceSim
open Spec NoiseModel Blocks Experiments LayoutLib

variable {nm : NoiseModel} {l : Layout} {rb : Bool} {data anc stabs log : List String} {isX : String → String → Bool}
  {R : List String} {cfg : Detectors.Config}

theorem addLists_map_map {α : Type} (A : List α) (f g : α → ZMod 2) :
    addLists (A.map f) (A.map g) = A.map fun a => f a + g a := by
  unfold addLists
  induction A with
  | nil => rfl
  | cons a A ih => simp [ih]

theorem addLists_append {a b c d : List (ZMod 2)} (h : a.length = c.length) :
    addLists (a ++ b) (c ++ d) = addLists a c ++ addLists b d := by
  unfold addLists
  rw [List.zipWith_append h]

theorem length_addLists {a b : List (ZMod 2)} (h : a.length = b.length) : (addLists a b).length = a.length := by
  unfold addLists
  simp [h]

theorem addLists_flatMap {α : Type} (A : List α) (f g : α → List (ZMod 2)) (h : ∀ a, (f a).length = (g a).length) :
    A.flatMap (fun a => addLists (f a) (g a)) = addLists (A.flatMap f) (A.flatMap g) := by
  induction A with
  | nil => rfl
  | cons a A ih => rw [List.flatMap_cons, List.flatMap_cons, List.flatMap_cons, ih, addLists_append (h a)]

/-- The values of the detectors of round `r` that do not depend on the initial bits. -/
def roundConst (ancs anc stabs sel : List String) (κ ε : String → ZMod 2) (r : Nat) : List (ZMod 2) :=
  ancs.map fun a => if a ∈ sel ∧ a ∈ anc then (if r = 0 then (if a ∈ stabs then κ a else 0) else ε a) else 0

theorem length_roundConst (ancs anc stabs sel : List String) (κ ε : String → ZMod 2) (sup : String → List String)
    (reset : Bool) (dataInit : Dict String Int) (g : String → ZMod 2) (r : Nat) :
    (roundConst ancs anc stabs sel κ ε r).length = (roundDetsWith ancs anc stabs sel sup reset dataInit g r).length := by
  simp [roundConst, roundDetsWith]

theorem round_dets_shift (o : SetOrder) (sel : List String) (gauge reset : Bool) (κ ε : String → ZMod 2)
    (dataInit : Dict String Int) (r : Nat) (G : String → ZMod 2) :
    (cfg.anc.map fun a => if a ∈ roundSel o stabs sel gauge r ∧ a ∈ anc then
          (if r = 0 ∧ a ∉ stabs then G a else
          roundVal κ ε reset (fun a => l.getNeighbors [a] none) dataInit r a) else 0) =
      addLists (roundConst cfg.anc anc stabs sel κ ε r)
        (roundDetsWith cfg.anc anc stabs sel (fun a => l.getNeighbors [a] none) reset dataInit
          (if gauge then G else 0) r) := by
  unfold roundDetsWith roundConst roundSel
  rw [addLists_map_map]
  refine List.map_congr_left fun a _ => ?_
  unfold roundVal
  by_cases hr : r = 0
  · cases gauge
    · simp only [hr, true_and, if_true, mem_first, Bool.false_eq_true, if_false]
      by_cases h1 : a ∈ sel <;> by_cases h2 : a ∈ stabs <;> by_cases h3 : a ∈ anc <;> simp [h1, h2, h3, add_assoc]
    · simp only [hr, true_and, if_true, Bool.true_eq_false, if_false]
      by_cases h1 : a ∈ sel <;> by_cases h2 : a ∈ stabs <;> by_cases h3 : a ∈ anc <;> simp [h1, h2, h3, add_assoc]
  · simp only [hr, false_and, if_false]
    by_cases h1 : a ∈ sel ∧ a ∈ anc
    · simp only [h1, and_self, if_true]
      split <;> simp
    · simp only [h1, if_false, add_zero]

theorem google_rounds (hm : MemCode nm l rb data anc stabs log isX R) (hcode : l.code = "rotated_surface_code")
    (hcfg : ConfigOk cfg) (hsub : ∀ a ∈ anc, a ∈ cfg.anc)
    {dataInit : Dict String Int} {κ ε : String → ZMod 2} {εL : ZMod 2} (o : SetOrder)
    (hb : RoundEff nm l anc log isX R false true κ ε εL (sumGen (googleIter o nm l))) {sel : List String}
    (hsel : ∀ a ∈ sel, a ∈ anc) (gauge : Bool) (m : Nat) :
    ∀ (D : (Nat → ZMod 2) → (Nat → ZMod 2) → List (ZMod 2)) (r : Nat) (e : Circuit) (s : Sim cfg),
    MemInv nm l anc stabs log isX R false true κ ε εL dataInit D r e s →
    ∃ e' s', ∃ G : (Nat → ZMod 2) → (Nat → ZMod 2) → String → ZMod 2,
      addAll e (List.range' r m) (googleMemoryRound o nm l rb sel gauge) s = (.ok e', s') ∧
      MemInv nm l anc stabs log isX R false true κ ε εL dataInit (fun ζ ρ => D ζ ρ ++ (List.range' r m).flatMap fun r =>
        addLists (roundConst cfg.anc anc stabs sel κ ε r)
          (roundDetsWith cfg.anc anc stabs sel (fun a => l.getNeighbors [a] none) false dataInit
            (if gauge then G ζ ρ else 0) r)) (r + m) e' s' := by
  induction m with
  | zero =>
    intro D r e s h
    exact ⟨e, s, 0, rfl, by simpa using h⟩
  | succ m ih =>
    intro D r e s h
    set sel' := roundSel o stabs sel gauge r with hsel'
    have hs1 : ∀ a ∈ sel', a ∈ anc := fun a ha => hsel a (roundSel_sub a ha)
    obtain ⟨c, s1, c', d', G, h1, h2, h3⟩ := memInv_round_any hm hcfg hsub hb h sel' (fun a ha => hsub a (hs1 a ha))
    have hround : googleMemoryRound o nm l rb sel gauge r s = (.ok (c.concat c'), (s1, d')) := by
      have key : googleRound o nm l (some sel') s = (.ok (c.concat c'), (s1, d')) := by
        unfold googleRound
        rw [if_neg (by simp [hcode])]
        rw [PyM.bind_ok (onModel_ok h1)]
        have h2' : Detectors.buildFromAnc s1.measTarget true (some sel') s.2 = (.ok c', d') := by
          rw [← h2]; simp
        rw [PyM.bind_ok (onDets_ok (s := (s1, s.2)) (f := fun getRec => Detectors.buildFromAnc getRec true (some sel')) h2')]
        rfl
      unfold googleMemoryRound
      by_cases h0 : r = 0 ∧ gauge = false
      · rw [if_pos (by simpa using h0)]
        rw [PyM.bind_ok (show PyM.ofExcept (firstDets o [l] rb sel) s = (.ok (o.ord (inter (setOf sel) stabs)), s) by
          rw [firstDets_ok hm]; rfl)]
        rw [← key, hsel']
        unfold roundSel
        rw [if_pos h0]
      · rw [if_neg (by simpa using h0), ← key, hsel']
        unfold roundSel
        rw [if_neg h0]
    simp only [hsel', round_dets_shift] at h3
    obtain ⟨e', s', G', h4, h5⟩ := ih _ _ _ _ h3
    refine ⟨e', s', if r = 0 then G else G', ?_, ?_⟩
    · rw [List.range'_succ]
      show ((addTo e (googleMemoryRound o nm l rb sel gauge r)) >>= fun e =>
        addAll e (List.range' (r + 1) m) (googleMemoryRound o nm l rb sel gauge)) s = _
      have : addTo e (googleMemoryRound o nm l rb sel gauge r) s = (.ok (e.concat (c.concat c')), (s1, d')) := by
        unfold addTo
        rw [PyM.bind_ok hround]
        rfl
      rw [PyM.bind_ok this]
      exact h4
    · rw [show r + (m + 1) = r + 1 + m by omega]
      convert h5 using 3 with ζ ρ
      rw [List.range'_succ, List.flatMap_cons, ← List.append_assoc]
      congr 1
      · congr 2
        by_cases h0 : r = 0
        · rw [if_pos h0]
        · exact roundDetsWith_congr _ _ _ _ _ _ _ _ _ h0
      · refine flatMap_congr_from fun k hk => ?_
        rw [roundDetsWith_congr]
        have := (List.mem_range'_1.1 hk).1
        omega

/-- The values of the final detectors that do not depend on the initial bits. -/
def finalConst (ancs anc stabs sel : List String) (κ : String → ZMod 2) : List (ZMod 2) :=
  (ancs.filter (· ∈ stabs)).map fun a => if a ∈ sel ∧ a ∈ anc then κ a else 0

open Classical in
/-- The last round with the measurement of the data qubits. -/
theorem google_last (hm : MemCode nm l rb data anc stabs log isX R) (hcode : l.code = "rotated_surface_code")
    (hcfg : ConfigOk cfg) (hsub : ∀ a ∈ anc, a ∈ cfg.anc) (hdata : ∀ d ∈ data, d ∉ cfg.anc)
    {dataInit : Dict String Int} {κ ε : String → ZMod 2} {εL : ZMod 2} {κ' ε' : String → ZMod 2} {εL' : ZMod 2}
    (o : SetOrder) (hb : FinalEff nm l data anc stabs log isX R κ' ε' εL' (sumGen (googleFinalIter o nm l rb)))
    {sel : List String} (hsel : ∀ a ∈ sel, a ∈ anc) (gauge : Bool)
    {D : (Nat → ZMod 2) → (Nat → ZMod 2) → List (ZMod 2)} {r : Nat} {e : Circuit} {s : Sim cfg}
    (h : MemInv nm l anc stabs log isX R false true κ ε εL dataInit D r e s) :
    ∃ c s', googleFinal o nm l (some (roundSel o stabs sel gauge r)) rb s = (.ok c, s') ∧
      PairsOk (e.concat c) ∧ measOrder (e.concat c) = (histOf anc (r + 1) ++ data).map (ind nm.inds) ∧
      ∀ ζ ρ : Nat → ZMod 2, ∃ G : String → ZMod 2,
        detectors ζ ρ (e.concat c) = D ζ ρ ++
          addLists (roundConst cfg.anc anc stabs sel κ' (fun a => κ' a + κ a + ε a) r)
            (roundDetsWith cfg.anc anc stabs sel (fun a => l.getNeighbors [a] none) false dataInit
              (if gauge then G else 0) r) ++
          addLists (finalConst cfg.anc anc stabs sel fun a => ε' a + κ' a)
            ((cfg.anc.filter (· ∈ stabs)).map fun a => if a ∈ sel ∧ a ∈ anc then
              (if r = 0 then isOne dataInit a else 0) else 0) ∧
        observables ζ ρ (e.concat c) = [(0, (εL' + r * εL) + bits dataInit log)] := by
  set sel' := roundSel o stabs sel gauge r with hsel'
  have hs1 : ∀ a ∈ sel', a ∈ anc := fun a ha => hsel a (roundSel_sub a ha)
  obtain ⟨c, s1, e1, p1, t1, mo, f1⟩ := hb _ _ h.tracks
  rw [← List.append_assoc, ← histOf_succ] at t1
  have hca : ∀ a ∈ anc, (histOf anc (r + 1) ++ data).count a = r + 1 := by
    intro a ha
    rw [List.count_append, count_histOf hm.ancN ha, List.count_eq_zero.2 (fun h => hm.disj h ha), Nat.add_zero]
  have hfind : ∀ a ∈ anc, Props.FindsAt s1.measTarget (lookOf s1) a (min 3 (r + 1)) := by
    intro a ha k hk1 hk2
    exact (lookOf_spec t1 (hm.known (List.mem_append_right _ ha)) hk1 (by rw [hca a ha]; omega)).1
  obtain ⟨c', d', e2, p2, hd, f2⟩ := DetAt.round hcfg h.det s1.measTarget (lookOf s1) true sel'
    (fun a ha => hsub a (hs1 a ha)) hfind
  have o1 := p1.concat p2
  obtain ⟨c4, s4, h4, p4, hs4, T, hT, f4⟩ := finish_values hm hcfg hsub hdata (s := (s1, d')) t1 o1.2 hd sel'
    (fun a ha => hsub a (hs1 a ha)) true (fun a ha => hm.sup a (hm.stabsSub a ha))
  have o4 := h.even.concat p4
  refine ⟨c4, s4, ?_, o4.2, ?_, fun ζ ρ => ?_⟩
  · unfold googleFinal
    rw [if_neg (by simp [hcode])]
    rw [PyM.bind_ok (show PyM.ofExcept (checkAncDetectors l (some sel')) s = (.ok sel', s) by
        rw [checkAnc_ok hm hs1]; rfl)]
    rw [PyM.bind_ok (onModel_ok e1)]
    rw [PyM.bind_ok (onDets_ok (s := (s1, s.2)) (f := fun getRec => Detectors.buildFromAnc getRec true (some sel')) e2)]
    exact h4
  · have hT0 : measured T = [] := measured_eq_nil (ρ := 0) (by
      rw [f4 0 ⟨0, 0, (data.map 0).reverse ++ List.replicate (histOf anc (r + 1)).length 0, [], [], 0⟩ 0 _ rfl (by simp)])
    rw [measOrder_ops, o4.1, hT, o1.1, measured_append, measured_append, measured_append, hT0,
      measured_eq_nil (L := ops c') (ρ := 0) (st := FState.init Nat) (by rw [f2]), List.append_nil, List.append_nil,
      ← measOrder_ops, ← measOrder_ops, h.order, mo, histOf_succ, List.map_append, List.map_append, List.map_append,
      List.append_assoc]
  · obtain ⟨g1, g2, g3, g4, σ, g5, g6⟩ := h.frame ζ ρ
    set st := run ρ (FState.start ζ) (ops e) with hst
    obtain ⟨v, k1, k2, k3, k4, k5⟩ := f1 ρ st
    have key := f4 ρ (run ρ st (ops c ++ ops c')) v
    rw [run_append, f2] at key
    have key := key _ k1 (by simp [g1, histOf_succ]; omega)
    unfold detectors observables
    rw [o4.1, hT, o1.1, run_append, run_append _ _ (_ ++ _), ← hst, run_append, f2, key]
    have hlen : (run ρ st (ops c)).recs.length = (histOf anc (r + 1) ++ data).length := by
      rw [k1, histOf_succ]; simp [g1]; omega
    have houts : ∀ a ∈ anc, outs (histOf anc (r + 1) ++ data) (run ρ st (ops c)).recs a =
        (κ' a + st.x (ind nm.inds a) + anticommutes (ind nm.inds) st (l.getNeighbors [a] none) (isX a)) ::
          outs (histOf anc r) st.recs a := by
      intro a ha
      rw [k1, outs_append hm.dataN, if_neg (fun h => hm.disj h ha), histOf_succ, outs_append hm.ancN, if_pos ha]
    have hx : ∀ a ∈ anc, st.x (ind nm.inds a) = if r = 0 then isOne dataInit a else 0 := by
      intro a ha
      rw [(g6 a ha).2.2]
      simp
    refine ⟨fun a => κ' a + isOne dataInit a + σ a, ?_, ?_⟩
    · simp only [k4, g3, List.reverse_append, List.reverse_reverse]
      rw [List.append_assoc, List.append_assoc]
      congr 1
      have L : ∀ a ∈ anc, ∀ k, 1 ≤ k → k ≤ r + 1 → lookback (run ρ st (ops c)).recs (lookOf s1 a k) =
          ((κ' a + st.x (ind nm.inds a) + anticommutes (ind nm.inds) st (l.getNeighbors [a] none) (isX a)) ::
          outs (histOf anc r) st.recs a).getD (k - 1) 0 := by
        intro a ha k hk1 hk2
        rw [(lookOf_spec t1 (hm.known (List.mem_append_right _ ha)) hk1 (by rw [hca a ha]; omega)).2 _ hlen, houts a ha]
      congr 1
      · unfold roundConst roundDetsWith
        rw [addLists_map_map]
        refine List.map_congr_left fun a _ => ?_
        have hgau : a ∈ anc → r = 0 → parity (run ρ st (ops c)).recs (lookOf s1 a 1 ::
            (if 1 ≤ r then [lookOf s1 a 2] else [])) = κ' a + isOne dataInit a + σ a := by
          intro ha hr
          obtain ⟨m1, m2, m3⟩ := g6 a ha
          unfold parity
          rw [List.map_cons, List.sum_cons, L a ha 1 (by omega) (by omega), m1, m2, hx a ha]
          subst hr
          simp
        have hval : a ∈ anc → (r = 0 → a ∈ stabs) → parity (run ρ st (ops c)).recs (lookOf s1 a 1 ::
            (if 1 ≤ r then [lookOf s1 a 2] else [])) = (if r = 0 then κ' a + (isOne dataInit a +
              bits dataInit (l.getNeighbors [a] none)) else κ' a + κ a + ε a + if r = 1 then isOne dataInit a else 0) := by
          intro ha h0
          obtain ⟨m1, m2, m3⟩ := g6 a ha
          unfold parity
          rw [List.map_cons, List.sum_cons, L a ha 1 (by omega) (by omega), m1, m2, hx a ha]
          rcases Nat.eq_zero_or_pos r with hr | hr
          · rw [g5 a (h0 hr)]
            subst hr
            simp [add_assoc]
          · obtain ⟨k, rfl⟩ : ∃ k, r = k + 1 := ⟨r - 1, by omega⟩
            simp only [show 1 ≤ k + 1 by omega, if_true, List.map_cons, List.map_nil, List.sum_cons, List.sum_nil,
              L a ha 2 (by omega) (by omega), m2, Nat.succ_ne_zero, if_false]
            rw [List.range_succ, List.map_append, List.reverse_append]
            simp only [List.map_cons, List.map_nil, List.reverse_cons, List.reverse_nil, List.nil_append,
              List.cons_append, Nat.sub_self, List.getD_cons_zero, show 2 - 1 = 0 + 1 from rfl, List.getD_cons_succ]
            cases k with
            | zero =>
              simp [outSeq]
              generalize κ a = x1; generalize κ' a = x2; generalize ε a = x3; generalize σ a = x4
              generalize isOne dataInit a = x5
              clear * -
              revert x1 x2 x3 x4 x5; decide
            | succ k =>
              simp [outSeq]
              generalize κ a = x1; generalize κ' a = x2; generalize ε a = x3; generalize σ a = x4
              generalize (k : ZMod 2) = x5
              clear * -
              revert x1 x2 x3 x4 x5; decide
        rcases Nat.eq_zero_or_pos r with hr | hr
        · by_cases h1 : a ∈ sel ∧ a ∈ anc
          · by_cases h2 : a ∈ stabs
            · rw [if_pos (by
                refine ⟨?_, h1.2⟩
                rw [hsel']
                unfold roundSel
                split
                · exact mem_first.2 ⟨h1.1, h2⟩
                · exact h1.1)]
              simp only [if_true]
              rw [hval h1.2 (fun _ => h2)]
              simp [hr, h1, h2]
            · cases gauge
              · rw [if_neg (by
                  rw [hsel']
                  unfold roundSel
                  rw [if_pos ⟨hr, rfl⟩]
                  exact fun h => h2 (mem_first.1 h.1).2)]
                simp [hr, h2]
              · have : sel' = sel := by rw [hsel']; unfold roundSel; rw [if_neg (by simp)]
                rw [this, if_pos h1]
                simp only [if_true]
                rw [hgau h1.2 hr]
                simp [hr, h1, h2]
          · rw [if_neg (fun h => h1 ⟨roundSel_sub a h.1, h.2⟩)]
            simp [h1]
        · have hr' : r ≠ 0 := by omega
          have : sel' = sel := by rw [hsel']; unfold roundSel; rw [if_neg (fun h => hr' h.1)]
          rw [this]
          by_cases h1 : a ∈ sel ∧ a ∈ anc
          · rw [if_pos h1]
            simp only [if_true]
            rw [hval h1.2 (fun h => absurd h hr')]
            simp [hr', h1]
          · rw [if_neg h1]; simp [h1]
      · unfold finalConst
        rw [addLists_map_map]
        refine List.map_congr_left fun a ha => ?_
        have hst' : a ∈ stabs := by simpa using (List.mem_filter.1 ha).2
        have haa := hm.stabsSub a hst'
        have hiff : (a ∈ sel' ∧ a ∈ anc) ↔ (a ∈ sel ∧ a ∈ anc) := by
          rw [hsel']
          unfold roundSel
          split
          · rw [mem_first]; tauto
          · rfl
        simp only [hiff]
        by_cases h1 : a ∈ sel ∧ a ∈ anc
        · simp only [h1, and_self, if_true]
          have ho : outs (histOf anc (r + 1)) ((anc.map fun a => κ' a + st.x (ind nm.inds a) +
              anticommutes (ind nm.inds) st (l.getNeighbors [a] none) (isX a)).reverse ++ st.recs) a =
              (κ' a + st.x (ind nm.inds a) + anticommutes (ind nm.inds) st (l.getNeighbors [a] none) (isX a)) ::
                outs (histOf anc r) st.recs a := by
            rw [histOf_succ, outs_append hm.ancN, if_pos haa]
          rw [ho, k2 a hst', hx a haa]
          simp only [show 1 ≤ r + 1 by omega, if_true, List.getD_cons_zero, Bool.true_eq_false, false_and, if_false,
            add_zero]
          generalize anticommutes (ind nm.inds) st (l.getNeighbors [a] none) (isX a) = x1
          generalize κ' a = x2; generalize ε' a = x3
          generalize (if r = 0 then isOne dataInit a else 0) = x4
          clear * -
          revert x1 x2 x3 x4; decide
        · simp [h1]
    · simp only [k5, g2, List.reverse_cons, List.reverse_nil, List.nil_append]
      rw [k3, g4]
      congr 2
      ring

/-- The detectors and the observable of a memory experiment. -/
theorem google_values_any (hm : MemCode nm l rb data anc stabs log isX R) (hcode : l.code = "rotated_surface_code")
    (hcfg : ConfigOk cfg) (hsub : ∀ a ∈ anc, a ∈ cfg.anc) (hdata : ∀ d ∈ data, d ∉ cfg.anc)
    {dataInit : Dict String Int} {κ ε : String → ZMod 2} {εL : ZMod 2} {κ' ε' : String → ZMod 2} {εL' : ZMod 2}
    (o : SetOrder) (hi : InitEff nm data anc R dataInit (sumGen (initXzzxIter o nm l dataInit rb)))
    (hb : RoundEff nm l anc log isX R false true κ ε εL (sumGen (googleIter o nm l)))
    (hb' : FinalEff nm l data anc stabs log isX R κ' ε' εL' (sumGen (googleFinalIter o nm l rb)))
    (ancDetectors : Option (List String)) (hsel : ∀ sel, ancDetectors = some sel → ∀ a ∈ sel, a ∈ anc)
    (gauge : Bool) (r : Nat) (s : Sim cfg) :
    ∃ c s', googleMemory o nm l (r + 1 : Nat) dataInit rb ancDetectors gauge s = (.ok c, s') ∧ PairsOk c ∧
      measOrder c = (histOf anc (r + 1) ++ data).map (ind nm.inds) ∧
      ∀ ζ ρ : Nat → ZMod 2, ∃ g : String → ZMod 2,
        detectors ζ ρ c = addLists ((List.range r).flatMap (roundConst cfg.anc anc stabs (ancDetectors.getD anc) κ ε) ++
            roundConst cfg.anc anc stabs (ancDetectors.getD anc) κ' (fun a => κ' a + κ a + ε a) r ++
            finalConst cfg.anc anc stabs (ancDetectors.getD anc) fun a => ε' a + κ' a)
          ((List.range (r + 1)).flatMap (roundDetsWith cfg.anc anc stabs (ancDetectors.getD anc)
              (fun a => l.getNeighbors [a] none) false dataInit (if gauge then g else 0)) ++
            finalDets cfg.anc anc stabs (ancDetectors.getD anc) (fun a => l.getNeighbors [a] none) false (r + 1)
              dataInit) ∧
        observables ζ ρ c = [(0, (εL' + r * εL) + bits dataInit log)] := by
  set sel := ancDetectors.getD anc with hseld
  have hsel' : ∀ a ∈ sel, a ∈ anc := by
    cases ancDetectors with
    | none => exact fun a ha => ha
    | some x => exact hsel x rfl
  obtain ⟨e0, h0, p0, o0⟩ := start_ok hm s
  obtain ⟨c1, s1, h1, i1⟩ := memInv_init hm hcfg hsub hi false true κ ε εL p0 o0
    (s := (MeasState.fresh nm.inds, Detectors.State.fresh cfg)) (MeasState.tracks_fresh _) DetAt.new
  obtain ⟨e2, s2, G, h2, i2⟩ := google_rounds hm hcode hcfg hsub o hb hsel' gauge r _ _ _ _ i1
  simp only [Nat.zero_add, List.nil_append] at i2
  obtain ⟨c3, s3, h3, p3, mo, f3⟩ := google_last hm hcode hcfg hsub hdata o hb' hsel' gauge i2
  refine ⟨e2.concat c3, s3, ?_, p3, mo, fun ζ ρ => ?_⟩
  · unfold googleMemory
    rw [if_neg (by omega)]
    have k0 : PyM.ofExcept (ancDefault [l] ancDetectors) s = (.ok sel, s) := by
      cases ancDetectors with
      | some x => rfl
      | none =>
        unfold ancDefault allAnc ancQubits
        simp only [mapExcept, hm.qAnc]
        simp [hseld]
    rw [PyM.bind_ok k0, PyM.bind_ok h0]
    have k1 : addTo e0 (initQubitsXzzx o nm l dataInit rb) (MeasState.fresh nm.inds, Detectors.State.fresh cfg) =
        (.ok (e0.concat c1), s1) := by
      unfold addTo initQubitsXzzx
      rw [PyM.bind_ok h1]
      rfl
    rw [PyM.bind_ok k1]
    cases r with
    | zero =>
      rw [if_pos (by simp)]
      cases h2
      rw [PyM.bind_ok (show PyM.ofExcept (firstSel o [l] rb sel gauge) s1 = (.ok (roundSel o stabs sel gauge 0), s1) by
          unfold firstSel roundSel
          cases gauge
          · rw [if_neg (by simp), firstDets_ok hm]; rfl
          · rw [if_pos (by simp)]; rfl)]
      unfold addTo
      rw [PyM.bind_ok h3]
      rfl
    | succ r =>
      rw [if_neg (by omega)]
      rw [Int.toNat_natCast, Nat.add_sub_cancel, List.range_eq_range', PyM.bind_ok h2]
      unfold addTo
      unfold roundSel at h3
      rw [if_neg (by omega)] at h3
      rw [PyM.bind_ok h3]
      rfl
  · obtain ⟨G', f4, f5⟩ := f3 ζ ρ
    refine ⟨if r = 0 then G' else G ζ ρ, ?_, f5⟩
    have e0 : (List.range' 0 r).flatMap (fun r => addLists (roundConst cfg.anc anc stabs sel κ ε r)
          (roundDetsWith cfg.anc anc stabs sel (fun a => l.getNeighbors [a] none) false dataInit
            (if gauge then G ζ ρ else 0) r)) = (List.range r).flatMap (fun k => addLists (roundConst cfg.anc anc stabs sel κ ε k)
          (roundDetsWith cfg.anc anc stabs sel (fun a => l.getNeighbors [a] none) false dataInit
            (if gauge then (if r = 0 then G' else G ζ ρ) else 0) k)) := by
      rw [← List.range_eq_range']
      refine flatMap_congr_from fun k hk => ?_
      rw [if_neg (show r ≠ 0 by have := List.mem_range.1 hk; omega)]
    have e0' : roundDetsWith cfg.anc anc stabs sel (fun a => l.getNeighbors [a] none) false dataInit
        (if gauge then G' else 0) r = roundDetsWith cfg.anc anc stabs sel (fun a => l.getNeighbors [a] none) false dataInit
        (if gauge then (if r = 0 then G' else G ζ ρ) else 0) r := by
      by_cases h0 : r = 0
      · rw [if_pos h0]
      · exact roundDetsWith_congr _ _ _ _ _ _ _ _ _ h0
    rw [f4, e0, e0']
    generalize (if gauge then (if r = 0 then G' else G ζ ρ) else 0) = g
    rw [addLists_flatMap _ _ _ (fun r => length_roundConst _ _ _ _ _ _ _ _ _ _ r)]
    have hl1 : ((List.range r).flatMap (roundConst cfg.anc anc stabs sel κ ε)).length = ((List.range r).flatMap
        (roundDetsWith cfg.anc anc stabs sel (fun a => l.getNeighbors [a] none) false dataInit g)).length := by
      rw [List.length_flatMap, List.length_flatMap]
      congr 1
      exact List.map_congr_left fun r _ => length_roundConst _ _ _ _ _ _ _ _ _ _ r
    have e1 : finalDets cfg.anc anc stabs sel (fun a => l.getNeighbors [a] none) false (r + 1) dataInit =
        ((cfg.anc.filter (· ∈ stabs)).map fun a => if a ∈ sel ∧ a ∈ anc then
              (if r = 0 then isOne dataInit a else 0) else 0) := by
      unfold finalDets
      refine List.map_congr_left fun a _ => ?_
      simp
    rw [e1, List.range_succ, List.flatMap_append, List.flatMap_cons, List.flatMap_nil, List.append_nil,
      addLists_append, addLists_append hl1]
    rw [List.length_append, List.length_append, hl1]
    congr 1
    exact length_roundConst _ _ _ _ _ _ _ _ _ _ r

theorem Spec.SameButGauge.addLists {ancs anc stabs sel : List String} {n : Nat} {A B : List (ZMod 2)}
    (h : SameButGauge ancs anc stabs sel n A B) (K : List (ZMod 2)) :
    SameButGauge ancs anc stabs sel n (addLists K A) (addLists K B) := by
  refine ⟨by unfold Spec.addLists; simp [h.1], fun i hi => ?_⟩
  unfold Spec.addLists
  rw [List.getElem?_zipWith, List.getElem?_zipWith, h.2 i hi]

variable {a : Args} {dx dz : Int} {L : List (String × Site × Kind)} {dirs : List (Site × String)}

theorem google_lengths (ancs anc stabs sel : List String) (κ ε κ' ε' : String → ZMod 2) (r : Nat)
    (sup : String → List String) (dataInit : Dict String Int) (g : String → ZMod 2) :
    ((List.range r).flatMap (roundConst ancs anc stabs sel κ ε) ++
        roundConst ancs anc stabs sel κ' (fun a => κ' a + κ a + ε a) r ++
        finalConst ancs anc stabs sel fun a => ε' a + κ' a).length =
      ((List.range (r + 1)).flatMap (roundDetsWith ancs anc stabs sel sup false dataInit g) ++
            finalDets ancs anc stabs sel sup false (r + 1) dataInit).length := by
  unfold roundConst finalConst roundDetsWith finalDets
  simp [List.range_succ, List.length_flatMap]

theorem IsRot.memory_google (h : IsRot a dx dz l) (hnum : NumCoords l) (hdx : 2 ≤ dx) (hdz : 2 ≤ dz) (hr : CanRun nm l)
    (ancDetectors : Option (List String)) (o : SetOrder) (rb : Bool) (r : Nat) :
    FixedValuesUpTo cfg nm l a.label (r + 1) rb false ancDetectors
      (fun dataInit => googleMemory o nm l (r + 1 : Nat) dataInit rb ancDetectors false) ∧
    FixedButGaugeUpTo cfg nm l a.label (r + 1) rb false ancDetectors
      (fun dataInit => googleMemory o nm l (r + 1 : Nat) dataInit rb ancDetectors true) ∧
    ∀ dataInit, MemoryArgs cfg nm l dataInit ancDetectors → ∀ gauge,
      RecordOrder cfg nm l (r + 1) (googleMemory o nm l (r + 1 : Nat) dataInit rb ancDetectors gauge) ∧
      ∀ s : Sim cfg, ∃ c s',
        googleMemory o nm l (r + 1 : Nat) dataInit rb ancDetectors gauge s = (.ok c, s') ∧ PairsOk c := by
  have hg := h.grid
  have hc := h.codeGrid (dx := dx) (dz := dz) (by omega) (by omega)
  have hlog := logicalSupport_of h.log h.logX h.logZ rb
  have hR : ∀ q ∈ xzzxR l (rotEntries a dx dz) rb, q ∈ dataOf (rotEntries a dx dz) := fun _ hq => xzzxR_data h.grid hq
  have hsub : ∀ d ∈ (if rb then logXList a dx dz else logZList a dz), d ∈ dataOf (rotEntries a dx dz) := by
    cases rb
    · exact hc.subZ
    · exact hc.subX
  have hm := memCode_grid hg hr hnum hlog hsub hR (h.xzzx_type hdx hdz rb)
  obtain ⟨κ, ε, εL, hb⟩ := h.google_round hdx hdz hr o rb
  obtain ⟨κ', ε', εL', hb'⟩ := h.google_final hdx hdz hr o rb
  have key : ∀ dataInit, MemoryArgs cfg nm l dataInit ancDetectors → ∀ gauge, _ := fun dataInit hargs gauge =>
    google_values_any (cfg := cfg) hm h.code hargs.config (hargs.anc _ hg.getQubits_anc).1 (hargs.data _ hg.getQubits_data) o
      (initEff_xzzx hr hg o hargs.init h.code rb hR) hb hb' ancDetectors (hargs.anc _ hg.getQubits_anc).2 gauge r
  have hst : l.getQubits [("role", .str "anc"), ("stab_type", .str (if rb then "x_type" else "z_type"))] =
      .ok (stabsOf (rotEntries a dx dz) rb) := by
    have := stabQubits_grid hg rb
    unfold stabQubits stabType at this
    cases rb <;> exact this
  have hlo : (if rb then l.logX else l.logZ).get? a.label =
      some (if rb then logXList a dx dz else logZList a dz) := by
    cases rb
    · simp [h.logZ, Dict.get?]
    · simp [h.logX, Dict.get?]
  have hlen : ∀ (dataInit : Dict String Int) (g : String → ZMod 2), _ := fun dataInit g =>
    google_lengths cfg.anc (ancOf (rotEntries a dx dz)) (stabsOf (rotEntries a dx dz) rb)
      (ancDetectors.getD (ancOf (rotEntries a dx dz))) κ ε κ' ε' r (fun a => l.getNeighbors [a] none) dataInit g
  refine ⟨⟨ancOf (rotEntries a dx dz), stabsOf (rotEntries a dx dz) rb, if rb then logXList a dx dz else logZList a dz,
    (List.range r).flatMap (roundConst cfg.anc (ancOf (rotEntries a dx dz)) (stabsOf (rotEntries a dx dz) rb)
        (ancDetectors.getD (ancOf (rotEntries a dx dz))) κ ε) ++
      roundConst cfg.anc (ancOf (rotEntries a dx dz)) (stabsOf (rotEntries a dx dz) rb)
        (ancDetectors.getD (ancOf (rotEntries a dx dz))) κ' (fun a => κ' a + κ a + ε a) r ++
      finalConst cfg.anc (ancOf (rotEntries a dx dz)) (stabsOf (rotEntries a dx dz) rb)
        (ancDetectors.getD (ancOf (rotEntries a dx dz))) fun a => ε' a + κ' a, εL' + r * εL, hg.getQubits_anc, hst, hlo, fun dataInit hargs s => ?_⟩,
    ⟨ancOf (rotEntries a dx dz), stabsOf (rotEntries a dx dz) rb, if rb then logXList a dx dz else logZList a dz,
    (List.range r).flatMap (roundConst cfg.anc (ancOf (rotEntries a dx dz)) (stabsOf (rotEntries a dx dz) rb)
        (ancDetectors.getD (ancOf (rotEntries a dx dz))) κ ε) ++
      roundConst cfg.anc (ancOf (rotEntries a dx dz)) (stabsOf (rotEntries a dx dz) rb)
        (ancDetectors.getD (ancOf (rotEntries a dx dz))) κ' (fun a => κ' a + κ a + ε a) r ++
      finalConst cfg.anc (ancOf (rotEntries a dx dz)) (stabsOf (rotEntries a dx dz) rb)
        (ancDetectors.getD (ancOf (rotEntries a dx dz))) fun a => ε' a + κ' a, εL' + r * εL, hg.getQubits_anc, hst, hlo, fun dataInit hargs s => ?_⟩,
    fun dataInit hargs gauge => ⟨?_, fun s => ?_⟩⟩
  · obtain ⟨c, s', e1, -, -, e2⟩ := key dataInit hargs false s
    refine ⟨c, s', e1, fun ζ ρ => ?_⟩
    obtain ⟨g, e3, e4⟩ := e2 ζ ρ
    refine ⟨by rw [e3, memoryDetectors_eq]; rfl, ?_, e4⟩
    rw [e3, length_addLists (hlen dataInit _)]
  · obtain ⟨c, s', e1, -, -, e2⟩ := key dataInit hargs true s
    refine ⟨c, s', e1, fun ζ ρ => ?_⟩
    obtain ⟨g, e3, e4⟩ := e2 ζ ρ
    refine ⟨?_, ?_, e4⟩
    · rw [e3, memoryDetectors_eq]
      exact (roundDetsWith_fixed _ _ _ _ _ _ _ _ _ _).addLists _
    · rw [e3, length_addLists (hlen dataInit _)]
  · refine ⟨_, _, hg.getQubits_data, hg.getQubits_anc, fun s => ?_⟩
    obtain ⟨c, s', e1, -, e2, -⟩ := key dataInit hargs gauge s
    exact ⟨c, s', e1, e2⟩
  · obtain ⟨c, s', e1, e2, -⟩ := key dataInit hargs gauge s
    exact ⟨c, s', e1, e2⟩

theorem Spec.RoundMeasuresShifted.leaves (hg : OnGrid l L dirs) {b : PyM MeasState Circuit}
    (h : RoundMeasuresShifted nm l b isX) {rot : String → Bool} (ht : Typed l L isX rot) {lx lz : List String}
    (hc : CodeGrid l L lx lz) {label : String} (h1 : l.logX.get? label = some lx) (h2 : l.logZ.get? label = some lz) :
    LeavesCodeShifted nm l label b isX (fun d => !rot d) rot := by
  obtain ⟨data, anc, κ, px, pz, hd, ha, h⟩ := h
  have e1 : data = dataOf L := by have := hg.getQubits_data; rw [hd] at this; exact Except.ok.inj this
  have e2 : anc = ancOf L := by have := hg.getQubits_anc; rw [ha] at this; exact Except.ok.inj this
  subst e1; subst e2
  refine ⟨_, lx, lz, fun y => shiftOf px pz (l.getNeighbors [y] none) (isX y), shiftOf px pz lx (fun d => !rot d),
    shiftOf px pz lz rot, ha, h1, h2, fun s hist hs => ?_⟩
  obtain ⟨c, s', e, -, -, -, h⟩ := h s hist hs
  refine ⟨c, s', e, fun ρ st => ⟨fun y hy => ?_, ?_, ?_⟩⟩
  · exact (h ρ st).invariant (fun d hd => nbrs_data hg hy hd) (hc.stabs hg ht hy)
  · exact (h ρ st).invariant hc.subX (hc.logicalX ht)
  · exact (h ρ st).invariant hc.subZ (hc.logicalZ ht)

theorem Spec.RoundMeasuresShifted.detects (hg : OnGrid l L dirs) (hr : CanRun nm l) {b : PyM MeasState Circuit}
    (h : RoundMeasuresShifted nm l b isX)
    (hex : ∀ d ∈ dataOf L, ∀ v, ∃ x ∈ ancOf L, d ∈ l.getNeighbors [x] none ∧ isX x d = v) :
    DetectsErrors nm l b := by
  obtain ⟨data, anc, κ, px, pz, hd, ha, h⟩ := h
  have h1 : data = dataOf L := by have := hg.getQubits_data; rw [hd] at this; exact Except.ok.inj this
  have h2 : anc = ancOf L := by have := hg.getQubits_anc; rw [ha] at this; exact Except.ok.inj this
  subst h1; subst h2
  have hu := CanRun.usable hr hg
  refine ⟨_, hd, fun s hist hs => ?_⟩
  obtain ⟨c, s', e, -, -, -, h⟩ := h s hist hs
  refine ⟨c, s', e, fun d hd ex ez hne ρ ρ' st heq => ?_⟩
  rw [(h ρ' _).recs, (h ρ st).recs] at heq
  have heq2 := List.reverse_injective (List.append_cancel_right heq)
  have key : ∀ x ∈ ancOf L, d ∈ l.getNeighbors [x] none → (if isX x d then ez else ex) = 0 := by
    intro x hx hdx
    have h3 := add_left_cancel (List.map_inj_left.1 heq2 x hx)
    unfold ancOutcome at h3
    rw [anticommutes_withError (hg.neighbors_nodup x), if_pos hdx] at h3
    · have hxx : (withError st (ind nm.inds d) ex ez).x (ind nm.inds x) = st.x (ind nm.inds x) := by
        unfold withError
        refine Function.update_of_ne ?_ _ _
        intro he
        obtain ⟨sx, kx, hkx, hkd⟩ := mem_ancOf.1 hx
        obtain ⟨sd, hsd⟩ := mem_dataOf.1 hd
        have := hu.inj _ (hu.known _ _ _ hkx) _ (hu.known _ _ _ hsd) he
        subst this
        exact hkd (hg.unique hkx hsd).2
      rw [hxx] at h3
      have h4 := add_left_cancel h3
      simpa using h4
    · intro q hq he
      obtain ⟨sq, hsq⟩ := mem_dataOf.1 (nbrs_data hg hx hq)
      obtain ⟨sd, hsd⟩ := mem_dataOf.1 hd
      exact hu.inj _ (hu.known _ _ _ hsq) _ (hu.known _ _ _ hsd) he
  rcases hne with hne | hne
  · obtain ⟨x, hx, h5, h6⟩ := hex d hd false
    have := key x hx h5
    rw [h6] at this
    exact hne (by simpa using this)
  · obtain ⟨x, hx, h5, h6⟩ := hex d hd true
    have := key x hx h5
    rw [h6] at this
    exact hne (by simpa using this)

end SurfaceSim
