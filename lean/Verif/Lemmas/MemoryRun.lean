/-
Memory experiments: the whole experiment.
-/
import Verif.Lemmas.MemoryFinal
import Verif.Spec.Memory

namespace SurfaceSim
open Spec NoiseModel Blocks Experiments

variable {nm : NoiseModel} {l : Layout} {rb : Bool} {data anc stabs log : List String} {isX : String → String → Bool}
  {R : List String} {cfg : Detectors.Config}

theorem start_ok (hm : MemCode nm l rb data anc stabs log isX R) (s : Sim cfg) :
    ∃ c, start nm [l] s = (.ok c, (MeasState.fresh nm.inds, Detectors.State.fresh cfg)) ∧ PairsOk c ∧ ops c = [] := by
  obtain ⟨c, h1, h2, h3⟩ := hm.coords
  have h4 := ops_concat (a := []) (fun i hi => by simp at hi) h2
  refine ⟨Circuit.concat [] c, ?_, .of_nil h4.2 (by rw [h4.1, h3]; rfl), by rw [h4.1, h3]; rfl⟩
  unfold start
  rw [PyM.bind_ok (show onModel (cfg := cfg) (MeasState.newCircuit nm.inds) s = (.ok (), (MeasState.fresh nm.inds, s.2))
    from rfl)]
  rw [PyM.bind_ok (show onDets (cfg := cfg) (fun _ => Detectors.newCircuit cfg) (MeasState.fresh nm.inds, s.2) =
    (.ok (), (MeasState.fresh nm.inds, Detectors.State.fresh cfg)) from rfl)]
  rw [h1]
  rfl

theorem checkAnc_ok (hm : MemCode nm l rb data anc stabs log isX R) {sel : List String} (h : ∀ a ∈ sel, a ∈ anc) :
    checkAncDetectors l (some sel) = .ok sel := by
  unfold checkAncDetectors ancQubits
  rw [hm.qAnc]
  simp only [Option.getD_some, not_strictSuperset h, Bool.false_eq_true, if_false]

theorem firstDets_ok (hm : MemCode nm l rb data anc stabs log isX R) (o : SetOrder) (sel : List String) :
    firstDets o [l] rb sel = .ok (o.ord (inter (setOf sel) stabs)) := by
  unfold firstDets
  simp only [mapExcept, hm.qStabs, List.flatten_cons, List.flatten_nil, List.append_nil]

theorem mem_first {o : SetOrder} {sel stabs : List String} {a : String} :
    a ∈ o.ord (inter (setOf sel) stabs) ↔ a ∈ sel ∧ a ∈ stabs := by
  rw [mem_ord]
  unfold inter
  rw [List.mem_filter, mem_setOf]
  simp

/-- The values of the detectors of round `r`. -/
def roundDets (ancs anc stabs sel : List String) (sup : String → List String) (reset : Bool) (dataInit : Dict String Int)
    (r : Nat) : List (ZMod 2) :=
  ancs.map fun a => if a ∈ sel ∧ a ∈ anc then
    (if r = 0 then (if a ∈ stabs then (if reset then 0 else isOne dataInit a) + bits dataInit (sup a) else 0)
      else if r = 1 then (if reset then 0 else isOne dataInit a) else 0) else 0

theorem round_dets_eq (hm : MemCode nm l rb data anc stabs log isX R) (o : SetOrder) (sel : List String) (reset : Bool)
    (dataInit : Dict String Int) (r : Nat) :
    (cfg.anc.map fun a => if a ∈ (if r = 0 then o.ord (inter (setOf sel) stabs) else sel) ∧ a ∈ anc then
          roundVal 0 0 reset (fun a => l.getNeighbors [a] none) dataInit r a else 0) =
      roundDets cfg.anc anc stabs sel (fun a => l.getNeighbors [a] none) reset dataInit r := by
  unfold roundDets
  refine List.map_congr_left fun a _ => ?_
  unfold roundVal
  by_cases hr : r = 0
  · simp only [hr, if_true, mem_first, Pi.zero_apply, zero_add]
    by_cases h1 : a ∈ sel <;> by_cases h2 : a ∈ stabs <;> by_cases h3 : a ∈ anc <;> simp [h1, h2, h3]
  · simp only [hr, if_false, Pi.zero_apply, zero_add]

/-- The values of the detectors of round `r`, if those of the other type have the values `g` in the first round. -/
def roundDetsWith (ancs anc stabs sel : List String) (sup : String → List String) (reset : Bool) (dataInit : Dict String Int)
    (g : String → ZMod 2) (r : Nat) : List (ZMod 2) :=
  ancs.map fun a => if a ∈ sel ∧ a ∈ anc then
    (if r = 0 then (if a ∈ stabs then (if reset then 0 else isOne dataInit a) + bits dataInit (sup a) else g a)
      else if r = 1 then (if reset then 0 else isOne dataInit a) else 0) else 0

theorem roundDetsWith_zero (ancs anc stabs sel : List String) (sup : String → List String) (reset : Bool)
    (dataInit : Dict String Int) :
    roundDetsWith ancs anc stabs sel sup reset dataInit 0 = roundDets ancs anc stabs sel sup reset dataInit := rfl

theorem roundDetsWith_congr (ancs anc stabs sel : List String) (sup : String → List String) (reset : Bool)
    (dataInit : Dict String Int) (g g' : String → ZMod 2) {r : Nat} (h : r ≠ 0) :
    roundDetsWith ancs anc stabs sel sup reset dataInit g r = roundDetsWith ancs anc stabs sel sup reset dataInit g' r := by
  unfold roundDetsWith
  refine List.map_congr_left fun a _ => ?_
  rw [if_neg h, if_neg h]

/-- The ancillas asked for in round `r`. -/
def roundSel (o : SetOrder) (stabs sel : List String) (gauge : Bool) (r : Nat) : List String :=
  if r = 0 ∧ gauge = false then o.ord (inter (setOf sel) stabs) else sel

theorem roundSel_sub {o : SetOrder} {stabs sel : List String} {gauge : Bool} {r : Nat} :
    ∀ a ∈ roundSel o stabs sel gauge r, a ∈ sel := by
  intro a ha
  unfold roundSel at ha
  split at ha
  · exact (mem_first.1 ha).1
  · exact ha

theorem round_dets_with (o : SetOrder) (sel : List String) (gauge reset : Bool) (dataInit : Dict String Int) (r : Nat)
    (G : String → ZMod 2) :
    (cfg.anc.map fun a => if a ∈ roundSel o stabs sel gauge r ∧ a ∈ anc then
          (if r = 0 ∧ a ∉ stabs then G a else
          roundVal 0 0 reset (fun a => l.getNeighbors [a] none) dataInit r a) else 0) =
      roundDetsWith cfg.anc anc stabs sel (fun a => l.getNeighbors [a] none) reset dataInit
        (if gauge then G else 0) r := by
  unfold roundDetsWith roundSel
  refine List.map_congr_left fun a _ => ?_
  unfold roundVal
  by_cases hr : r = 0
  · cases gauge
    · simp only [hr, true_and, if_true, mem_first, Pi.zero_apply, zero_add, Bool.false_eq_true, if_false]
      by_cases h1 : a ∈ sel <;> by_cases h2 : a ∈ stabs <;> by_cases h3 : a ∈ anc <;> simp [h1, h2, h3]
    · simp only [hr, true_and, if_true, Pi.zero_apply, zero_add, Bool.true_eq_false, if_false]
      by_cases h2 : a ∈ stabs <;> simp [h2]
  · simp only [hr, false_and, if_false, Pi.zero_apply, zero_add]

theorem memory_rounds (hm : MemCode nm l rb data anc stabs log isX R) (hcfg : ConfigOk cfg) (hsub : ∀ a ∈ anc, a ∈ cfg.anc)
    {dataInit : Dict String Int} {fam : Family cfg} {iter : Gen} {reset : Bool}
    (hf : ∀ sel, fam.round l reset sel = qecRound iter l reset sel)
    (hb : RoundEff nm l anc log isX R reset false 0 0 0 (sumGen iter)) (o : SetOrder) {sel : List String}
    (hsel : ∀ a ∈ sel, a ∈ anc) (gauge : Bool) (m : Nat) :
    ∀ (D : (Nat → ZMod 2) → (Nat → ZMod 2) → List (ZMod 2)) (r : Nat) (e : Circuit) (s : Sim cfg),
    MemInv nm l anc stabs log isX R reset false 0 0 0 dataInit D r e s →
    ∃ e' s', ∃ G : (Nat → ZMod 2) → (Nat → ZMod 2) → String → ZMod 2,
      addAll e (List.range' r m) (memoryRound fam o l rb reset sel gauge) s = (.ok e', s') ∧
      MemInv nm l anc stabs log isX R reset false 0 0 0 dataInit (fun ζ ρ => D ζ ρ ++ (List.range' r m).flatMap
        (roundDetsWith cfg.anc anc stabs sel (fun a => l.getNeighbors [a] none) reset dataInit
          (if gauge then G ζ ρ else 0))) (r + m) e' s' := by
  induction m with
  | zero =>
    intro D r e s h
    exact ⟨e, s, 0, rfl, by simpa using h⟩
  | succ m ih =>
    intro D r e s h
    set sel' := roundSel o stabs sel gauge r with hsel'
    have hs1 : ∀ a ∈ sel', a ∈ anc := fun a ha => hsel a (roundSel_sub a ha)
    obtain ⟨c, s1, c', d', G, h1, h2, h3⟩ := memInv_round_any hm hcfg hsub hb h sel' (fun a ha => hsub a (hs1 a ha))
    have hround : memoryRound fam o l rb reset sel gauge r s = (.ok (c.concat c'), (s1, d')) := by
      have key : qecRound iter l reset (some sel') s = (.ok (c.concat c'), (s1, d')) := by
        unfold qecRound
        rw [PyM.bind_ok (onModel_ok h1)]
        rw [PyM.bind_ok (show PyM.ofExcept (checkAncDetectors l (some sel')) (s1, s.2) = (.ok sel', (s1, s.2)) by
          rw [checkAnc_ok hm hs1]; rfl)]
        have h2' : Detectors.buildFromAnc s1.measTarget reset (some sel') s.2 = (.ok c', d') := by
          rw [← h2]; simp
        rw [PyM.bind_ok (onDets_ok (s := (s1, s.2)) (f := fun getRec => Detectors.buildFromAnc getRec reset (some sel')) h2')]
        rfl
      unfold memoryRound
      by_cases h0 : r = 0 ∧ gauge = false
      · rw [if_pos (by simpa using h0)]
        rw [PyM.bind_ok (show PyM.ofExcept (firstDets o [l] rb sel) s = (.ok (o.ord (inter (setOf sel) stabs)), s) by
          rw [firstDets_ok hm]; rfl)]
        rw [hf, ← key, hsel']
        unfold roundSel
        rw [if_pos h0]
      · rw [if_neg (by simpa using h0), hf, ← key, hsel']
        unfold roundSel
        rw [if_neg h0]
    simp only [hsel', round_dets_with] at h3
    obtain ⟨e', s', G', h4, h5⟩ := ih _ _ _ _ h3
    refine ⟨e', s', if r = 0 then G else G', ?_, ?_⟩
    · rw [List.range'_succ]
      show ((addTo e (memoryRound fam o l rb reset sel gauge r)) >>= fun e =>
        addAll e (List.range' (r + 1) m) (memoryRound fam o l rb reset sel gauge)) s = _
      have : addTo e (memoryRound fam o l rb reset sel gauge r) s = (.ok (e.concat (c.concat c')), (s1, d')) := by
        unfold addTo
        rw [PyM.bind_ok hround]
        rfl
      rw [PyM.bind_ok this]
      exact h4
    · rw [show r + (m + 1) = r + 1 + m by omega]
      convert h5 using 3 with ζ ρ
      rw [List.range'_succ, List.flatMap_cons, ← List.append_assoc]
      congr 1
      · congr 1
        by_cases h0 : r = 0
        · rw [if_pos h0]
        · exact roundDetsWith_congr _ _ _ _ _ _ _ _ _ h0
      · refine List.flatMap_congr fun k hk => roundDetsWith_congr _ _ _ _ _ _ _ _ _ ?_
        have := (List.mem_range'_1.1 hk).1
        omega

/-- The values of the final detectors. -/
def finalDets (ancs anc stabs sel : List String) (sup : String → List String) (reset : Bool) (n : Nat)
    (dataInit : Dict String Int) : List (ZMod 2) :=
  (ancs.filter (· ∈ stabs)).map fun a => if a ∈ sel ∧ a ∈ anc then
      (if n = 0 then bits dataInit (sup a) else if n = 1 then (if reset then 0 else isOne dataInit a) else 0) else 0

theorem memoryDetectors_eq (ancs anc stabs sel : List String) (sup : String → List String) (reset : Bool) (n : Nat)
    (dataInit : Dict String Int) : memoryDetectors ancs anc stabs sel sup reset n dataInit =
      (List.range n).flatMap (roundDetsWith ancs anc stabs sel sup reset dataInit 0) ++
        finalDets ancs anc stabs sel sup reset n dataInit := rfl

/-- The detectors and the observable of a memory experiment. -/
theorem memory_values_any (hm : MemCode nm l rb data anc stabs log isX R) (hcfg : ConfigOk cfg) (hsub : ∀ a ∈ anc, a ∈ cfg.anc)
    (hdata : ∀ d ∈ data, d ∉ cfg.anc) {dataInit : Dict String Int} {fam : Family cfg} {gi iter gm : Gen} {reset : Bool}
    (hfi : fam.init l dataInit rb = activateAndSum l gi)
    (hfr : ∀ sel, fam.round l reset sel = qecRound iter l reset sel)
    (hfm : ∀ sel, fam.meas l rb reset sel = (do
      let sel ← PyM.ofExcept (checkAncDetectors l sel)
      let circuit ← onModel (sumGen gm)
      finishMeas l rb reset sel circuit))
    (hi : InitEff nm data anc R dataInit (sumGen gi))
    (hb : RoundEff nm l anc log isX R reset false 0 0 0 (sumGen iter))
    (hM : MeasEff nm data R (sumGen gm)) (o : SetOrder) (ancDetectors : Option (List String))
    (hsel : ∀ sel, ancDetectors = some sel → ∀ a ∈ sel, a ∈ anc) (gauge : Bool) (n : Nat) (s : Sim cfg) :
    ∃ c s', memory fam o nm l n dataInit rb reset ancDetectors gauge s = (.ok c, s') ∧ PairsOk c ∧
      s'.1.Tracks nm.inds (histOf anc n ++ data) ∧ measOrder c = (histOf anc n ++ data).map (ind nm.inds) ∧
      ∀ ζ ρ : Nat → ZMod 2, ∃ g : String → ZMod 2,
        detectors ζ ρ c = (List.range n).flatMap (roundDetsWith cfg.anc anc stabs (ancDetectors.getD anc)
            (fun a => l.getNeighbors [a] none) reset dataInit (if gauge then g else 0)) ++
          finalDets cfg.anc anc stabs (ancDetectors.getD anc) (fun a => l.getNeighbors [a] none) reset n dataInit ∧
        observables ζ ρ c = [(0, bits dataInit log)] := by
  set sel := ancDetectors.getD anc with hseld
  have hsel' : ∀ a ∈ sel, a ∈ anc := by
    cases ancDetectors with
    | none => exact fun a ha => ha
    | some x => exact hsel x rfl
  obtain ⟨e0, h0, p0, o0⟩ := start_ok hm s
  obtain ⟨c1, s1, h1, i1⟩ := memInv_init hm hcfg hsub hi reset false 0 0 0 p0 o0
    (s := (MeasState.fresh nm.inds, Detectors.State.fresh cfg)) (MeasState.tracks_fresh _) DetAt.new
  obtain ⟨e2, s2, G, h2, i2⟩ := memory_rounds hm hcfg hsub hfr hb o hsel' gauge n _ _ _ _ i1
  simp only [Nat.zero_add, List.nil_append] at i2
  obtain ⟨c3, s3, h3, p3, t3, mo, f3⟩ := MeasEff.frame hm hM i2.tracks
  obtain ⟨c4, s4, h4, p4, hs4, T, hT, f4⟩ := finish_values hm hcfg hsub hdata (s := (s3, s2.2)) t3 p3 i2.det sel
    (fun a ha => hsub a (hsel' a ha)) reset (fun a ha => hm.sup a (hm.stabsSub a ha))
  have o4 := i2.even.concat p4
  refine ⟨e2.concat c4, s4, ?_, o4.2, by rw [hs4]; exact t3, ?_, fun ζ ρ => ?_⟩
  · unfold memory
    rw [if_neg (by simp)]
    have k0 : PyM.ofExcept (ancDefault [l] ancDetectors) s = (.ok sel, s) := by
      cases ancDetectors with
      | some x => rfl
      | none =>
        unfold ancDefault allAnc ancQubits
        simp only [mapExcept, hm.qAnc]
        simp [hseld]
    rw [PyM.bind_ok k0, PyM.bind_ok h0]
    have k1 : addTo e0 (fam.init l dataInit rb) (MeasState.fresh nm.inds, Detectors.State.fresh cfg) =
        (.ok (e0.concat c1), s1) := by
      unfold addTo
      rw [hfi, PyM.bind_ok h1]
      rfl
    rw [PyM.bind_ok k1]
    rw [Int.toNat_natCast, List.range_eq_range', PyM.bind_ok h2]
    unfold addTo
    have k2 : fam.meas l rb reset (some sel) s2 = (.ok c4, s4) := by
      rw [hfm]
      rw [PyM.bind_ok (show PyM.ofExcept (checkAncDetectors l (some sel)) s2 = (.ok sel, s2) by
          rw [checkAnc_ok hm hsel']; rfl)]
      rw [PyM.bind_ok (onModel_ok h3)]
      exact h4
    rw [PyM.bind_ok k2]
    rfl
  · have hT0 : measured T = [] := measured_eq_nil (ρ := 0) (by
      rw [f4 0 ⟨0, 0, (data.map 0).reverse ++ List.replicate (histOf anc n).length 0, [], [], 0⟩ 0 _ rfl (by simp)])
    rw [measOrder_ops, o4.1, hT, measured_append, measured_append, hT0, List.append_nil, ← measOrder_ops, ← measOrder_ops,
      i2.order, mo, List.map_append]
  · obtain ⟨g1, g2, g3, g4, σ, g5, g6⟩ := i2.frame ζ ρ
    obtain ⟨k1, k2, k3⟩ := f3 ρ (run ρ (FState.start ζ) (ops e2))
    have key := f4 ρ _ _ _ k1 g1
    unfold detectors observables
    rw [o4.1, hT, run_append, run_append, key]
    have hv : ∀ S : List String, (S.map fun d => if decide (d ∈ R) then (run ρ (FState.start ζ) (ops e2)).z (ind nm.inds d)
        else (run ρ (FState.start ζ) (ops e2)).x (ind nm.inds d)).sum =
        anticommutes (ind nm.inds) (run ρ (FState.start ζ) (ops e2)) S (fun d => decide (d ∈ R)) := fun S => rfl
    refine ⟨G ζ ρ, ?_, ?_⟩
    · simp only [k2, g3, List.reverse_append, List.reverse_reverse]
      unfold finalDets
      congr 1
      · rw [List.range_eq_range']
      · refine List.map_congr_left fun a ha => ?_
        have hst : a ∈ stabs := by simpa using (List.mem_filter.1 ha).2
        have haa := hm.stabsSub a hst
        by_cases h : a ∈ sel ∧ a ∈ anc
        · rw [if_pos h, if_pos h]
          obtain ⟨m1, m2, m3⟩ := g6 a haa
          rw [hv]
          have e1 : anticommutes (ind nm.inds) (run ρ (FState.start ζ) (ops e2)) (l.getNeighbors [a] none)
              (fun d => decide (d ∈ R)) = bits dataInit (l.getNeighbors [a] none) := by
            rw [← g5 a hst]
            simp only [Pi.zero_apply, mul_zero, add_zero] at m1
            rw [← m1]
            show (List.map _ _).sum = (List.map _ _).sum
            congr 1
            refine List.map_congr_left fun d hd => ?_
            rw [hm.type a hst d hd]
          rw [e1, m2, ← g5 a hst]
          have gd : ∀ k, k < n → (((List.range n).map (outSeq reset false 0 0 (isOne dataInit a) (σ a))).reverse).getD k 0 =
              outSeq reset false 0 0 (isOne dataInit a) (σ a) (n - 1 - k) := by
            intro k hk
            rw [List.getD_eq_getElem?_getD, List.getElem?_reverse (by simpa using hk)]
            simp only [List.length_map, List.length_range, List.getElem?_map]
            rw [List.getElem?_range (by omega)]
            rfl
          simp only [Pi.zero_apply]
          rcases n with _ | _ | n
          · simp
          · simp only [Nat.zero_add, le_refl, if_true, gd 0 (by omega)]
            have := outSeq_final_pair
            cases reset
            · have := outSeq_final_one 0 0 (isOne dataInit a) (σ a)
              simpa using this
            · have := outSeq_final_pair true false 0 0 (isOne dataInit a) (σ a) rfl 0
              simpa using this
          · simp only [show 1 ≤ n + 1 + 1 by omega, if_true, gd 0 (by omega), gd 1 (by omega)]
            cases reset
            · have := outSeq_final_two 0 0 (isOne dataInit a) (σ a) n
              simpa using this
            · have := outSeq_final_pair true false 0 0 (isOne dataInit a) (σ a) rfl (n + 1)
              simpa using this
        · rw [if_neg h, if_neg h]
    · simp only [k3, g2, List.reverse_cons, List.reverse_nil, List.nil_append]
      rw [hv, g4]
      simp

/-- Without gauge detectors nothing is random. -/
theorem memory_values (hm : MemCode nm l rb data anc stabs log isX R) (hcfg : ConfigOk cfg) (hsub : ∀ a ∈ anc, a ∈ cfg.anc)
    (hdata : ∀ d ∈ data, d ∉ cfg.anc) {dataInit : Dict String Int} {fam : Family cfg} {gi iter gm : Gen} {reset : Bool}
    (hfi : fam.init l dataInit rb = activateAndSum l gi)
    (hfr : ∀ sel, fam.round l reset sel = qecRound iter l reset sel)
    (hfm : ∀ sel, fam.meas l rb reset sel = (do
      let sel ← PyM.ofExcept (checkAncDetectors l sel)
      let circuit ← onModel (sumGen gm)
      finishMeas l rb reset sel circuit))
    (hi : InitEff nm data anc R dataInit (sumGen gi))
    (hb : RoundEff nm l anc log isX R reset false 0 0 0 (sumGen iter))
    (hM : MeasEff nm data R (sumGen gm)) (o : SetOrder) (ancDetectors : Option (List String))
    (hsel : ∀ sel, ancDetectors = some sel → ∀ a ∈ sel, a ∈ anc) (n : Nat) (s : Sim cfg) :
    ∃ c s', memory fam o nm l n dataInit rb reset ancDetectors false s = (.ok c, s') ∧ PairsOk c ∧
      s'.1.Tracks nm.inds (histOf anc n ++ data) ∧ measOrder c = (histOf anc n ++ data).map (ind nm.inds) ∧
      ∀ ζ ρ : Nat → ZMod 2,
        detectors ζ ρ c = memoryDetectors cfg.anc anc stabs (ancDetectors.getD anc) (fun a => l.getNeighbors [a] none)
          reset n dataInit ∧ observables ζ ρ c = [(0, bits dataInit log)] := by
  obtain ⟨c, s', h1, h2, h3, h4, h5⟩ := memory_values_any hm hcfg hsub hdata hfi hfr hfm hi hb hM o ancDetectors hsel false n s
  refine ⟨c, s', h1, h2, h3, h4, fun ζ ρ => ?_⟩
  obtain ⟨g, k1, k2⟩ := h5 ζ ρ
  exact ⟨by rw [k1, memoryDetectors_eq]; rfl, k2⟩

theorem flatMap_congr_from {α β : Type} {f g : α → List β} {A : List α} (h : ∀ a ∈ A, f a = g a) :
    A.flatMap f = A.flatMap g := by
  induction A with
  | nil => rfl
  | cons a A ih => rw [List.flatMap_cons, List.flatMap_cons, h a (by simp), ih fun b hb => h b (by simp [hb])]

/-- The detectors that do not depend on `g`. -/
theorem roundDetsWith_fixed (ancs anc stabs sel : List String) (sup : String → List String) (reset : Bool)
    (dataInit : Dict String Int) (g : String → ZMod 2) (n : Nat) (F : List (ZMod 2)) :
    SameButGauge ancs anc stabs sel n ((List.range n).flatMap (roundDetsWith ancs anc stabs sel sup reset dataInit g) ++ F)
      ((List.range n).flatMap (roundDetsWith ancs anc stabs sel sup reset dataInit 0) ++ F) := by
  cases n with
  | zero => exact ⟨rfl, fun _ _ => rfl⟩
  | succ n =>
    simp only [List.range_succ_eq_map, List.flatMap_cons]
    have h : (List.map Nat.succ (List.range n)).flatMap (roundDetsWith ancs anc stabs sel sup reset dataInit g) =
        (List.map Nat.succ (List.range n)).flatMap (roundDetsWith ancs anc stabs sel sup reset dataInit 0) := by
      refine flatMap_congr_from fun k hk => roundDetsWith_congr _ _ _ _ _ _ _ _ _ ?_
      obtain ⟨m, -, rfl⟩ := List.mem_map.1 hk
      exact Nat.succ_ne_zero m
    have hl : ∀ g : String → ZMod 2, (roundDetsWith ancs anc stabs sel sup reset dataInit g 0).length = ancs.length := by
      intro g; simp [roundDetsWith]
    refine ⟨by simp only [List.length_append, hl, h], fun i hi => ?_⟩
    rw [h, List.append_assoc, List.append_assoc]
    by_cases hlt : i < ancs.length
    · rw [List.getElem?_append_left (by rw [hl]; exact hlt), List.getElem?_append_left (by rw [hl]; exact hlt)]
      unfold roundDetsWith
      rw [List.getElem?_map, List.getElem?_map, List.getElem?_eq_getElem hlt]
      simp only [Option.map_some, if_true]
      have := hi (by omega) _ (List.getElem?_eq_getElem hlt)
      congr 1
      by_cases hs : ancs[i] ∈ sel ∧ ancs[i] ∈ anc
      · rw [if_pos hs, if_pos hs, if_pos (this hs.1 hs.2), if_pos (this hs.1 hs.2)]
      · rw [if_neg hs, if_neg hs]
    · have hge : ∀ g : String → ZMod 2, (roundDetsWith ancs anc stabs sel sup reset dataInit g 0).length ≤ i := by
        intro g; rw [hl]; omega
      rw [List.getElem?_append_right (hge g), List.getElem?_append_right (hge 0), hl, hl]

end SurfaceSim
