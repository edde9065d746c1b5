/-
Properties of the circuits returned by `Detectors` (C25-C27, exact detectors without gates).
-/
import Verif.Lemmas.DetExact

namespace SurfaceSim.Props
open SurfaceSim Spec Detectors

variable {cfg : Config}

/-- Coordinates of a detector. -/
def detCoords (cfg : Config) (a : String) (t : Rat) : List Arg :=
  (((cfg.coords.get? a).getD []) ++ [t]).map Arg.num

/-! ### C25 -/

/-- `build_from_anc` emits exactly one detector per ancilla, at the time given by the number of rounds
built since `new_circuit`, and advances that number by one. -/
theorem C25_one_detector_per_ancilla (hn : cfg.anc.Nodup) (hist : List (Call cfg))
    (hv : ∀ c ∈ hist, c.Valid) (hr : AllReturned hist)
    (g : String → Int → Except Err Int) (reset : Bool) (ancs : Option (List String)) (c : Circuit)
    (s' : State cfg) (hb : buildFromAnc g reset ancs (afterHistory hist) = (.ok c, s')) :
    ∃ labels : List String, labels.Perm cfg.anc ∧
      ((∀ c ∈ hist, c.InOrder) → labels = cfg.anc) ∧
      c.map (fun i => (i.gate, i.args)) = labels.map (fun a => (Gate.DETECTOR, detCoords cfg a (roundCount hist))) ∧
      s'.total = roundCount hist + 1 := by
  obtain ⟨hs, sel, D, -, hD, hc⟩ := buildFromAnc_ok hb
  have ht := (track hn hist hv hr).1
  have hwf := afterHistory_inv hist hv
  refine ⟨(detOrder (afterHistory hist)).map cfg.label, ?_, ?_, ?_, ?_⟩
  · have := (detOrder_perm _ hwf).map cfg.label
    rwa [labels_finRange] at this
  · intro ho
    rw [← labels_finRange (cfg := cfg)]
    congr 1
    unfold detOrder
    split
    · rfl
    · exact inOrder_order hist ho
  · rw [hc, ← ancDets_fst hD, List.map_map, List.map_map, List.map_map, ← ht]
    rfl
  · rw [hs, ← ht]; rfl

/-- `build_from_data` emits exactly one detector per reconstructable ancilla, half a time unit before
the next round, and does not advance the number of rounds. -/
theorem C25_one_detector_per_reconstructable (hn : cfg.anc.Nodup) (hist : List (Call cfg))
    (hv : ∀ c ∈ hist, c.Valid) (hr : AllReturned hist)
    (g : String → Int → Except Err Int) (sup : Dict String (List String)) (reset : Bool)
    (stabs : List String) (ancs : Option (List String)) (c : Circuit)
    (s' : State cfg) (hb : buildFromData g sup reset stabs ancs (afterHistory hist) = (.ok c, s')) :
    ∃ labels : List String, labels.Perm (cfg.anc.filter (· ∈ stabs)) ∧
      ((∀ c ∈ hist, c.InOrder) → labels = cfg.anc.filter (· ∈ stabs)) ∧
      c.map (fun i => (i.gate, i.args)) =
        labels.map (fun a => (Gate.DETECTOR, detCoords cfg a ((roundCount hist : Rat) - 1/2))) ∧
      s'.total = roundCount hist := by
  obtain ⟨hs, sel, D, D', -, hD, hD', hc⟩ := buildFromData_ok hb
  have ht := (track hn hist hv hr).1
  have hwf := afterHistory_inv hist hv
  refine ⟨((detOrder (afterHistory hist)).filter fun i => decide (cfg.label i ∈ stabs)).map cfg.label,
    ?_, ?_, ?_, ?_⟩
  · have := ((detOrder_perm _ hwf).filter fun i => decide (cfg.label i ∈ stabs)).map cfg.label
    rwa [filter_finRange_label] at this
  · intro ho
    rw [← filter_finRange_label]
    congr 2
    unfold detOrder
    split
    · rfl
    · exact inOrder_order hist ho
  · have e : (D.filter fun d => decide (cfg.label d.1 ∈ stabs)).map Prod.fst =
        (detOrder (afterHistory hist)).filter fun i => decide (cfg.label i ∈ stabs) := by
      rw [← dataDets_fst hD, List.filter_map]; rfl
    rw [hc, ← e, ← toDataDets_fst hD', List.map_map, List.map_map, List.map_map, ← ht]
    rfl
  · rw [hs, ← ht]; rfl

/-! ### C26 -/

/-- Targets of ancillas that are not selected or not active are empty; the detectors of selected
ancillas do not depend on which other ancillas are selected. -/
theorem C26_selection (hn : cfg.anc.Nodup) (hist : List (Call cfg))
    (hv : ∀ c ∈ hist, c.Valid) (hr : AllReturned hist)
    (g : String → Int → Except Err Int) (reset : Bool) (ancs ancs' : Option (List String)) (c c' : Circuit)
    (s' s'' : State cfg) (hb : buildFromAnc g reset ancs (afterHistory hist) = (.ok c, s'))
    (hb' : buildFromAnc g reset ancs' (afterHistory hist) = (.ok c', s'')) :
    s' = s'' ∧ c.length = c'.length ∧
    ∀ (k : Nat) (i i' : Instr), c[k]? = some i → c'[k]? = some i' →
      ∃ a ∈ cfg.anc, i.args = detCoords cfg a (roundCount hist) ∧ i'.args = i.args ∧
        (¬ (Selects cfg ancs a ∧ (ancTrack a hist).1 = true) → i.targets = []) ∧
        (Selects cfg ancs a → Selects cfg ancs' a → i = i') := by
  obtain ⟨hs, sel, D, hsel, hD, hc⟩ := buildFromAnc_ok hb
  obtain ⟨hs', sel', D', hsel', hD', hc'⟩ := buildFromAnc_ok hb'
  rw [hD] at hD'
  cases hD'
  have ht := track hn hist hv hr
  have hwf := afterHistory_inv hist hv
  have e1 := selected_eq _ hwf ancs (selOk_of_ok hwf hsel)
  have e2 := selected_eq _ hwf ancs' (selOk_of_ok hwf hsel')
  rw [hsel] at e1
  rw [hsel'] at e2
  cases e1
  cases e2
  refine ⟨by rw [hs, hs'], by rw [hc, hc']; simp, ?_⟩
  intro k i i' hi hi'
  rw [hc, List.getElem?_map] at hi
  rw [hc', List.getElem?_map] at hi'
  obtain ⟨d, hd, hdi⟩ := Option.map_eq_some_iff.1 hi
  rw [hd] at hi'
  simp only [Option.map_some, Option.some.injEq] at hi'
  have hact := ht.2 (cfg.label d.1) (label_mem d.1)
  have hact1 : isActive (afterHistory hist) (cfg.label d.1) = (ancTrack (cfg.label d.1) hist).1 := by
    rw [← hact]
  refine ⟨cfg.label d.1, label_mem d.1, ?_, ?_, ?_, ?_⟩
  · rw [← hdi, ← ht.1]; rfl
  · rw [← hdi, ← hi']; rfl
  · intro hno
    rw [← hdi]
    unfold detInstr
    simp only
    rw [if_neg]
    rw [mem_selList _ hwf, hact1]
    exact hno
  · intro h1 h2
    rw [← hdi, ← hi']
    unfold detInstr
    simp only [mem_selList _ hwf, h1, h2, true_and]

/-- Without active ancillas all detectors are empty. -/
theorem C26_inactive_empty (hn : cfg.anc.Nodup) (hist : List (Call cfg))
    (hv : ∀ c ∈ hist, c.Valid) (hr : AllReturned hist) (hina : ∀ a ∈ cfg.anc, (ancTrack a hist).1 = false)
    (g : String → Int → Except Err Int) (sup : Dict String (List String)) (reset : Bool)
    (stabs : List String) (ancs : Option (List String)) (c : Circuit)
    (s' : State cfg) (hb : buildFromAnc g reset ancs (afterHistory hist) = (.ok c, s') ∨
      buildFromData g sup reset stabs ancs (afterHistory hist) = (.ok c, s')) :
    ∀ i ∈ c, i.targets = [] := by
  have ht := track hn hist hv hr
  have hwf := afterHistory_inv hist hv
  have key : ∀ sel, selected (afterHistory hist) ancs = .ok sel → ∀ i, cfg.label i ∉ sel := by
    intro sel hsel i
    have e1 := selected_eq _ hwf ancs (selOk_of_ok hwf hsel)
    rw [hsel] at e1
    cases e1
    rw [mem_selList _ hwf]
    have := ht.2 (cfg.label i) (label_mem i)
    rw [show isActive (afterHistory hist) (cfg.label i) = false from by
      rw [← hina (cfg.label i) (label_mem i), ← this]]
    simp
  intro i hi
  rcases hb with hb | hb
  · obtain ⟨-, sel, D, hsel, -, rfl⟩ := buildFromAnc_ok hb
    obtain ⟨d, -, rfl⟩ := List.mem_map.1 hi
    simp [detInstr, key sel hsel]
  · obtain ⟨-, sel, D, D', hsel, -, -, rfl⟩ := buildFromData_ok hb
    obtain ⟨d, -, rfl⟩ := List.mem_map.1 hi
    simp [detInstr, key sel hsel]

/-- Detectors of a logical measurement: unselected or inactive ancillas have empty detectors, and the
selection does not influence the other detectors. -/
theorem C26_selection_data (hn : cfg.anc.Nodup) (hist : List (Call cfg))
    (hv : ∀ c ∈ hist, c.Valid) (hr : AllReturned hist)
    (g : String → Int → Except Err Int) (sup : Dict String (List String)) (reset : Bool)
    (stabs : List String) (ancs ancs' : Option (List String)) (c c' : Circuit)
    (s' s'' : State cfg) (hb : buildFromData g sup reset stabs ancs (afterHistory hist) = (.ok c, s'))
    (hb' : buildFromData g sup reset stabs ancs' (afterHistory hist) = (.ok c', s'')) :
    s' = s'' ∧ c.length = c'.length ∧
    ∀ (k : Nat) (i i' : Instr), c[k]? = some i → c'[k]? = some i' →
      ∃ a ∈ cfg.anc, i.args = detCoords cfg a ((roundCount hist : Rat) - 1/2) ∧ i'.args = i.args ∧
        (¬ (Selects cfg ancs a ∧ (ancTrack a hist).1 = true) → i.targets = []) ∧
        (Selects cfg ancs a → Selects cfg ancs' a → i = i') := by
  obtain ⟨hs, sel, D, E, hsel, hD, hE, hc⟩ := buildFromData_ok hb
  obtain ⟨hs', sel', D', E', hsel', hD', hE', hc'⟩ := buildFromData_ok hb'
  rw [hD] at hD'
  cases hD'
  rw [hE] at hE'
  cases hE'
  have ht := track hn hist hv hr
  have hwf := afterHistory_inv hist hv
  have e1 := selected_eq _ hwf ancs (selOk_of_ok hwf hsel)
  have e2 := selected_eq _ hwf ancs' (selOk_of_ok hwf hsel')
  rw [hsel] at e1
  rw [hsel'] at e2
  cases e1
  cases e2
  refine ⟨by rw [hs, hs'], by rw [hc, hc']; simp, ?_⟩
  intro k i i' hi hi'
  rw [hc, List.getElem?_map] at hi
  rw [hc', List.getElem?_map] at hi'
  obtain ⟨d, hd, hdi⟩ := Option.map_eq_some_iff.1 hi
  rw [hd] at hi'
  simp only [Option.map_some, Option.some.injEq] at hi'
  have hact := ht.2 (cfg.label d.1) (label_mem d.1)
  have hact1 : isActive (afterHistory hist) (cfg.label d.1) = (ancTrack (cfg.label d.1) hist).1 := by
    rw [← hact]
  refine ⟨cfg.label d.1, label_mem d.1, ?_, ?_, ?_, ?_⟩
  · rw [← hdi, ← ht.1]; rfl
  · rw [← hdi, ← hi']; rfl
  · intro hno
    rw [← hdi]
    unfold detInstr
    simp only
    rw [if_neg]
    rw [mem_selList _ hwf, hact1]
    exact hno
  · intro h1 h2
    rw [← hdi, ← hi']
    unfold detInstr
    simp only [mem_selList _ hwf, h1, h2, true_and]

/-! ### exact detectors without gates (C24, C27) -/

/-- A lookup that finds the `k`-th last measurement of `q` at `look q k`, for `k = 1..N`. -/
def FindsAt (g : String → Int → Except Err Int) (look : String → Nat → Int) (q : String) (N : Nat) : Prop :=
  ∀ k : Nat, 1 ≤ k → k ≤ N → g q (-(k : Int)) = .ok (look q k)

open Classical in
/-- Without gates, in all three frames: with reset the detector of a round compares an outcome with the
previous one, without reset with the one two rounds before, if there is one. -/
theorem C24_memory_detectors (hcfg : ConfigOk cfg) (hist : List (Call cfg)) (hv : ∀ c ∈ hist, c.Valid)
    (hr : AllReturned hist) (hg : ∀ c ∈ hist, c.NoGate)
    (g : String → Int → Except Err Int) (look : String → Nat → Int) (reset : Bool)
    (ancs : Option (List String)) (hs : ∀ l, ancs = some l → ∀ a ∈ l, a ∈ cfg.anc)
    (hl : ∀ a ∈ cfg.anc, Selects cfg ancs a → (ancTrack a hist).1 = true →
      FindsAt g look a (min 3 ((ancTrack a hist).2 + 1))) :
    (buildFromAnc g reset ancs (afterHistory hist)).1 = .ok (cfg.anc.map fun a =>
      let n := (ancTrack a hist).2
      let recs : List Int := look a 1 :: (if reset then (if 1 ≤ n then [look a 2] else [])
        else (if 2 ≤ n then [look a 3] else []))
      ⟨.DETECTOR, if Selects cfg ancs a ∧ (ancTrack a hist).1 = true then recs.map Target.record else [],
        detCoords cfg a (roundCount hist)⟩) := by
  have ht := track hcfg.1 hist hv hr
  have hwf := afterHistory_inv hist hv
  obtain ⟨h1, h2, h3⟩ := noGate_mats hist hg
  have hact : ∀ i, isActive (afterHistory hist) (cfg.label i) = (ancTrack (cfg.label i) hist).1 := fun i => by
    rw [← ht.2 _ (label_mem i)]
  have hnr : ∀ i, nrOf (afterHistory hist).rounds (cfg.label i) = (ancTrack (cfg.label i) hist).2 := fun i => by
    rw [← ht.2 _ (label_mem i)]
  rw [build_noGate hcfg _ hwf h1 h2 h3 g reset ancs hs]
  · simp only
    congr 1
    rw [← labels_finRange (cfg := cfg), List.map_map]
    apply List.map_congr_left
    intro i _
    simp only [Function.comp]
    unfold detInstr detCoords
    simp only
    rw [ht.1]
    congr 1
    have hmem : cfg.label i ∈ selList (afterHistory hist) ancs ↔
        (Selects cfg ancs (cfg.label i) ∧ (ancTrack (cfg.label i) hist).1 = true) := by
      rw [mem_selList _ hwf, hact]
    by_cases hsel : Selects cfg ancs (cfg.label i) ∧ (ancTrack (cfg.label i) hist).1 = true
    · rw [if_pos (hmem.2 hsel), if_pos hsel]
      have hb : nrOf (bumped (afterHistory hist)) (cfg.label i) = (ancTrack (cfg.label i) hist).2 + 1 := by
        rw [nrOf_bumped _ _ hwf (label_mem i), hact, hsel.2, hnr]; rfl
      have hl' := hl _ (label_mem i) hsel.1 hsel.2
      generalize hn : (ancTrack (cfg.label i) hist).2 = n at hb hl'
      have r1 := hl' 1 (by omega) (by omega)
      simp only [Nat.cast_one] at r1
      unfold gateIndepAnc
      rw [hb]
      cases reset with
      | true =>
        by_cases h2 : 1 ≤ n
        · have r2 := hl' 2 (by omega) (by omega)
          simp only [Nat.cast_ofNat] at r2
          simp only [if_true, show (0 : Int) ≤ -2 + ((n + 1 : Nat) : Int) from by omega]
          rw [removePairs_nodup _ (by simp)]
          simp [recOf, r1, r2, h2]
        · simp only [if_true, show ¬ (0 : Int) ≤ -2 + ((n + 1 : Nat) : Int) from by omega, if_false]
          rw [removePairs_nodup _ (by simp)]
          simp [recOf, r1, h2]
      | false =>
        by_cases h2 : 2 ≤ n
        · have r3 := hl' 3 (by omega) (by omega)
          simp only [Nat.cast_ofNat] at r3
          simp only [Bool.false_eq_true, if_false, show (0 : Int) ≤ -3 + ((n + 1 : Nat) : Int) from by omega, if_true]
          rw [removePairs_nodup _ (by simp)]
          simp [recOf, r1, r3, h2]
        · simp only [Bool.false_eq_true, if_false, show ¬ (0 : Int) ≤ -3 + ((n + 1 : Nat) : Int) from by omega]
          rw [removePairs_nodup _ (by simp)]
          simp [recOf, r1, h2]
    · rw [if_neg (fun h => hsel (hmem.1 h)), if_neg hsel]
  · intro i hsel hac k hk1 hk3 hk
    rw [hact] at hac
    rw [hnr] at hk
    exact ⟨_, hl _ (label_mem i) hsel hac k hk1 (by omega)⟩

open Classical in
/-- Without gates, in all three frames: the detector of a logical measurement consists of the last
measurements of the data qubits in the support and the last one (with reset) or two (without) of the
ancilla, if that many rounds exist. -/
theorem C27_data_detectors (hcfg : ConfigOk cfg) (hist : List (Call cfg)) (hv : ∀ c ∈ hist, c.Valid)
    (hr : AllReturned hist) (hg : ∀ c ∈ hist, c.NoGate)
    (g : String → Int → Except Err Int) (look : String → Nat → Int) (reset : Bool)
    (ancs : Option (List String)) (hs : ∀ l, ancs = some l → ∀ a ∈ l, a ∈ cfg.anc)
    (sup : Dict String (List String)) (stabs : List String)
    (hstabs : ∀ a ∈ stabs, a ∈ sup.keys)
    (hsup : ∀ a qs, sup.get? a = some qs → qs.Nodup ∧ ∀ q ∈ qs, q ∉ cfg.anc ∧ FindsAt g look q 1)
    (hl : ∀ a ∈ cfg.anc, a ∈ stabs → Selects cfg ancs a → (ancTrack a hist).1 = true →
      FindsAt g look a (min 2 (ancTrack a hist).2)) :
    (buildFromData g sup reset stabs ancs (afterHistory hist)).1 =
      .ok ((cfg.anc.filter (· ∈ stabs)).map fun a =>
        let n := (ancTrack a hist).2
        let recs : List Int := ((sup.get? a).getD []).map (look · 1) ++
          (if 1 ≤ n then [look a 1] else []) ++ (if reset = false ∧ 2 ≤ n then [look a 2] else [])
        ⟨.DETECTOR, if Selects cfg ancs a ∧ (ancTrack a hist).1 = true then recs.map Target.record else [],
          detCoords cfg a ((roundCount hist : Rat) - 1/2)⟩) := by
  have ht := track hcfg.1 hist hv hr
  have hwf := afterHistory_inv hist hv
  obtain ⟨h1, h2, h3⟩ := noGate_mats hist hg
  have hact : ∀ i, isActive (afterHistory hist) (cfg.label i) = (ancTrack (cfg.label i) hist).1 := fun i => by
    rw [← ht.2 _ (label_mem i)]
  have hnr : ∀ i, nrOf (afterHistory hist).rounds (cfg.label i) = (ancTrack (cfg.label i) hist).2 := fun i => by
    rw [← ht.2 _ (label_mem i)]
  have hb : ∀ i, (ancTrack (cfg.label i) hist).1 = true →
      nrOf (bumped (afterHistory hist)) (cfg.label i) = (ancTrack (cfg.label i) hist).2 + 1 := by
    intro i hi
    rw [nrOf_bumped _ _ hwf (label_mem i), hact, hi, hnr]; rfl
  -- the terms of a selected ancilla
  have hterms : ∀ i, (ancTrack (cfg.label i) hist).1 = true →
      (gateIndepData (bumped (afterHistory hist)) reset (cfg.label i)).flatMap (toDataTerm sup) =
      ((sup.get? (cfg.label i)).getD []).map (fun q => (q, (-1 : Int))) ++
        (if 1 ≤ (ancTrack (cfg.label i) hist).2 then [(cfg.label i, (-1 : Int))] else []) ++
        (if reset = false ∧ 2 ≤ (ancTrack (cfg.label i) hist).2 then [(cfg.label i, (-2 : Int))] else []) := by
    intro i hi
    unfold gateIndepData
    rw [hb i hi]
    generalize (ancTrack (cfg.label i) hist).2 = n
    by_cases hn1 : 1 ≤ n
    · by_cases hn2 : 2 ≤ n
      · cases reset <;> simp [toDataTerm, hn1, hn2, show 1 < n + 1 by omega, show 2 < n + 1 by omega]
      · cases reset <;> simp [toDataTerm, hn1, hn2, show 1 < n + 1 by omega, show ¬ 2 < n + 1 by omega]
    · have hn2 : ¬ 2 ≤ n := by omega
      cases reset <;> simp [toDataTerm, hn1, hn2, show ¬ 1 < n + 1 by omega, show ¬ 2 < n + 1 by omega]
  have hnodup : ∀ i, (ancTrack (cfg.label i) hist).1 = true →
      ((gateIndepData (bumped (afterHistory hist)) reset (cfg.label i)).flatMap (toDataTerm sup)).Nodup := by
    intro i hi
    rw [hterms i hi]
    have hq : ∀ q ∈ (sup.get? (cfg.label i)).getD [], q ≠ cfg.label i := by
      intro q hq e
      cases hg : sup.get? (cfg.label i) with
      | none => rw [hg] at hq; simp at hq
      | some qs =>
        rw [hg] at hq
        exact ((hsup _ _ hg).2 q hq).1 (e ▸ label_mem i)
    have hqn : ((sup.get? (cfg.label i)).getD []).Nodup := by
      cases hg : sup.get? (cfg.label i) with
      | none => simp
      | some qs => exact (hsup _ _ hg).1
    have hmapn : (((sup.get? (cfg.label i)).getD []).map (fun q => (q, (-1 : Int)))).Nodup :=
      hqn.map fun a b e => (Prod.mk.inj e).1
    rw [List.append_assoc]
    refine List.Nodup.append hmapn ?_ ?_
    · split <;> split <;> simp
    · intro x hx hx'
      obtain ⟨q, hqm, rfl⟩ := List.mem_map.1 hx
      have := hq q hqm
      simp only [List.mem_append] at hx'
      rcases hx' with hx' | hx' <;> split at hx' <;> simp at hx'
      · exact this hx'
  have hfound : ∀ i, cfg.label i ∈ stabs → Selects cfg ancs (cfg.label i) → (ancTrack (cfg.label i) hist).1 = true →
      ∀ t ∈ (gateIndepData (bumped (afterHistory hist)) reset (cfg.label i)).flatMap (toDataTerm sup),
        g t.1 t.2 = .ok (look t.1 t.2.natAbs) := by
    intro i hst hsel hi t ht
    rw [hterms i hi, List.mem_append, List.mem_append] at ht
    have hl' := hl _ (label_mem i) hst hsel hi
    rcases ht with (ht | ht) | ht
    · obtain ⟨q, hq, rfl⟩ := List.mem_map.1 ht
      cases hgq : sup.get? (cfg.label i) with
      | none => rw [hgq] at hq; simp at hq
      | some qs =>
        rw [hgq] at hq
        exact ((hsup _ _ hgq).2 q hq).2 1 (by omega) (by omega)
    · split at ht
      · simp only [List.mem_singleton] at ht
        subst ht
        exact hl' 1 (by omega) (by omega)
      · simp at ht
    · split at ht
      · simp only [List.mem_singleton] at ht
        subst ht
        exact hl' 2 (by omega) (by omega)
      · simp at ht
  have hsub : strictSubset sup.keys stabs = false := by
    unfold strictSubset NoiseModel.strictSuperset
    rw [Bool.and_eq_false_iff]
    right
    rw [List.any_eq_false]
    intro a ha
    simpa using hstabs a ha
  rw [buildFromData_eq hcfg _ hwf g sup reset stabs ancs hs hsub _ (dataDets_noGate _ h1 h2 h3 _ reset)]
  · simp only
    congr 1
    rw [← filter_finRange_label, List.filter_map, List.map_map, List.map_map, List.map_map]
    simp only [Function.comp_def]
    apply List.map_congr_left
    intro i hi
    have hst : cfg.label i ∈ stabs := by simpa using (List.mem_filter.1 hi).2
    unfold detInstr detCoords
    simp only
    rw [ht.1]
    congr 1
    have hmem : cfg.label i ∈ selList (afterHistory hist) ancs ↔
        (Selects cfg ancs (cfg.label i) ∧ (ancTrack (cfg.label i) hist).1 = true) := by
      rw [mem_selList _ hwf, hact]
    by_cases hsel : Selects cfg ancs (cfg.label i) ∧ (ancTrack (cfg.label i) hist).1 = true
    · rw [if_pos (hmem.2 hsel), if_pos hsel, removePairs_nodup _ (hnodup i hsel.2)]
      have e : ∀ t ∈ (gateIndepData (bumped (afterHistory hist)) reset (cfg.label i)).flatMap (toDataTerm sup),
          Target.record (recOf g t) = Target.record (look t.1 t.2.natAbs) := by
        intro t ht
        rw [recOf, hfound i hst hsel.1 hsel.2 t ht]
      rw [List.map_congr_left e, hterms i hsel.2]
      simp only [List.map_append, List.map_map]
      congr 1
      · congr 1
        split <;> simp
      · split <;> simp
    · rw [if_neg (fun h => hsel (hmem.1 h)), if_neg hsel]
  · intro d hd hst t htm ht1
    obtain ⟨i, -, rfl⟩ := List.mem_map.1 hd
    simp only [gateIndepData, List.mem_append, List.mem_singleton] at htm
    rcases htm with (rfl | htm) | htm
    · exact hstabs _ hst
    · split at htm
      · simp only [List.mem_singleton] at htm; subst htm; simp at ht1
      · simp at htm
    · split at htm
      · simp only [List.mem_singleton] at htm; subst htm; simp at ht1
      · simp at htm
  · intro d hd hst hsel t htm
    obtain ⟨i, -, rfl⟩ := List.mem_map.1 hd
    obtain ⟨hs1, hs2⟩ := (mem_selList _ hwf ancs i).1 hsel
    rw [hact] at hs2
    exact ⟨_, hfound i hst hs1 hs2 t ((mem_removePairs _ _).1 htm).1⟩

/-! ### a concrete history -/

/-- Object with two ancillas. -/
def exCfg : Config := ⟨["X1", "Z1"], .postGate, [("X1", [0, 1]), ("Z1", [2, 1])]⟩

/-- Lookup of a record with one entry per qubit and round. -/
def exRec (q : String) (k : Int) : Except Err Int :=
  match q with
  | "X1" => .ok (3 * k)
  | "Z1" => .ok (3 * k + 1)
  | _ => .ok (3 * k + 2)

/-- Two rounds, an aborted circuit before. -/
def exHist : List (Call exCfg) :=
  [.activate ["X1"], .newCircuit, .activate ["X1", "Z1"], .buildFromAnc exRec false none,
    .buildFromAnc exRec false (some ["Z1"])]

/-- The history meets the hypotheses of C24_memory_detectors, C25, C26 and C27. -/
example : ConfigOk exCfg ∧ (∀ c ∈ exHist, c.Valid) ∧ AllReturned exHist ∧ (∀ c ∈ exHist, c.NoGate) ∧
    (∀ c ∈ exHist, c.InOrder) ∧ roundCount exHist = 2 ∧ ancTrack "Z1" exHist = (true, 2) :=
  ⟨⟨by decide, by decide⟩, by simp [exHist, Call.Valid], allReturned_of_check _ (by decide +kernel),
    by simp [exHist, Call.NoGate], by simp [exHist, Call.InOrder], by decide +kernel, by decide +kernel⟩

example : (buildFromAnc exRec false (some ["Z1"]) (afterHistory exHist)).1.toOption =
    some [⟨.DETECTOR, [], [.num 0, .num 1, .num 2]⟩,
      ⟨.DETECTOR, [.record (-2), .record (-8)], [.num 2, .num 1, .num 2]⟩] := by decide +kernel

example : (buildFromData exRec [("Z1", ["D1", "D2"])] false ["Z1"] none (afterHistory exHist)).1.toOption =
    some [⟨.DETECTOR, [.record (-1), .record (-1), .record (-2), .record (-5)],
      [.num 2, .num 1, .num (3/2)]⟩] := by decide +kernel

end SurfaceSim.Props
