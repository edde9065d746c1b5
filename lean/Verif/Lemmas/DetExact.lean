import Verif.Lemmas.DetRounds

namespace SurfaceSim
open Spec Detectors
variable {cfg : Config}

/-- Order in which detectors are emitted. -/
def detOrder (s : State cfg) : List (Fin cfg.n) :=
  match cfg.frame with
  | .gateIndependent => List.finRange cfg.n
  | _ => s.order

theorem detOrder_perm (s : State cfg) (h : DetWF s) : (detOrder s).Perm (List.finRange cfg.n) := by
  unfold detOrder
  split
  · exact List.Perm.refl _
  · exact h.order

theorem labels_finRange : (List.finRange cfg.n).map cfg.label = cfg.anc := by
  rw [← List.ofFn_eq_map]
  exact List.ofFn_get cfg.anc

theorem ancMeas_fst {curr prev basis : cfg.Mat Int} {order : List (Fin cfg.n)} {rounds : Dict String Nat}
    {a b : Bool} {D : List (Fin cfg.n × List MeasTerm)}
    (h : ancMeasForDetectors curr prev basis order rounds a b = .ok D) : D.map Prod.fst = order := by
  unfold ancMeasForDetectors at h
  split at h
  · cases h
  · split at h
    · cases h
    · cases h
      simp [Function.comp_def]

theorem ancDets_fst {s : State cfg} {rounds : Dict String Nat} {reset : Bool}
    {D : List (Fin cfg.n × List MeasTerm)} (h : ancDets s rounds reset = .ok D) :
    D.map Prod.fst = detOrder s := by
  unfold ancDets at h
  unfold detOrder
  cases hf : cfg.frame with
  | gateIndependent =>
    simp only [hf, Except.ok.injEq] at h
    subst h
    simp [Function.comp_def]
  | preGate => simp only [hf] at h; exact ancMeas_fst h
  | postGate => simp only [hf] at h; exact ancMeas_fst h

theorem dataDets_fst {s : State cfg} {rounds : Dict String Nat} {reset : Bool}
    {D : List (Fin cfg.n × List MeasTerm)} (h : dataDets s rounds reset = .ok D) :
    D.map Prod.fst = detOrder s := by
  unfold dataDets at h
  unfold detOrder
  cases hf : cfg.frame with
  | gateIndependent =>
    simp only [hf, Except.ok.injEq] at h
    subst h
    simp [Function.comp_def]
  | preGate => simp only [hf] at h; exact ancMeas_fst h
  | postGate => simp only [hf] at h; exact ancMeas_fst h

theorem toDataDets_fst {sup : Dict String (List String)} {D D' : List (Fin cfg.n × List MeasTerm)}
    (h : mapExcept D (toDataDet sup) = .ok D') : D'.map Prod.fst = D.map Prod.fst := by
  induction D generalizing D' with
  | nil => simp [mapExcept] at h; simp [← h]
  | cons d D ih =>
    unfold mapExcept at h
    split at h
    · cases h
    · rename_i d' hd'
      split at h
      · cases h
      · rename_i r hr
        cases h
        simp only [List.map_cons, ih hr]
        congr 1
        unfold toDataDet at hd'
        split at hd'
        · cases hd'
        · cases hd'; rfl

theorem selOk_of_ok {s : State cfg} (h : DetWF s) {ancs : Option (List String)} {sel : List String}
    (hs : selected s ancs = .ok sel) : SelOk cfg ancs := by
  intro l hl a ha
  subst hl
  unfold selected at hs
  simp only [Option.getD_some] at hs
  split at hs
  · cases hs
  · rename_i flags hflags
    clear hs
    rw [← h.active, ← Dict.get?_isSome_iff]
    induction l generalizing flags with
    | nil => simp at ha
    | cons b l ih =>
      unfold mapExcept at hflags
      split at hflags
      · cases hflags
      · rename_i x hx
        split at hflags
        · cases hflags
        · rename_i r hr
          rcases List.mem_cons.1 ha with rfl | ha
          · simp only [Dict.getE] at hx
            split at hx
            · rename_i w hw
              rw [hw]; rfl
            · cases hx
          · exact ih ha r hr

theorem filter_finRange_label (stabs : List String) :
    ((List.finRange cfg.n).filter fun i => decide (cfg.label i ∈ stabs)).map cfg.label =
      cfg.anc.filter fun a => decide (a ∈ stabs) := by
  conv_rhs => rw [← labels_finRange (cfg := cfg)]
  rw [List.filter_map]
  rfl

/-- Detectors of a round without declared gates. -/
theorem build_noGate (hcfg : ConfigOk cfg) (s : State cfg) (h : DetWF s) (h1 : s.curr = 1) (h2 : s.prev = 1)
    (h3 : s.order = List.finRange cfg.n) (getRec : String → Int → Except Err Int) (reset : Bool)
    (ancs : Option (List String)) (hs : SelOk cfg ancs)
    (hrec : ∀ i, Selects cfg ancs (cfg.label i) → isActive s (cfg.label i) = true →
      ∀ k : Nat, 1 ≤ k → k ≤ 3 → k ≤ nrOf s.rounds (cfg.label i) + 1 →
        ∃ r, getRec (cfg.label i) (-(k : Int)) = .ok r) :
    buildFromAnc getRec reset ancs s =
      (.ok ((List.finRange cfg.n).map fun i => detInstr cfg getRec (selList s ancs) s.total
        (i, gateIndepAnc (bumped s) reset (cfg.label i))), afterBuild s) := by
  by_cases hf : cfg.frame = .gateIndependent
  · rw [buildFromAnc_indep hcfg s h getRec reset ancs hs hf, List.map_map]
    · rfl
    · intro i hsel hact k hk1 hk3 hk
      rw [nrOf_bumped s _ h (label_mem i), hact] at hk
      exact hrec i hsel hact k hk1 hk3 (by simp only [if_true] at hk; omega)
  · have hb : basisOf cfg s = 1 := by
      unfold basisOf
      split
      · exact h1
      · exact h2
      · rfl
    have h11 : mulInv (1 : cfg.Mat Int) 1 = .ok 1 := mulInv_self 1 (by simp [mod2_one])
    have hD : ancDets s (bumped s) reset = .ok (frameTargets s 1 1 reset) := by
      unfold ancDets
      cases hfr : cfg.frame with
      | gateIndependent => exact absurd hfr hf
      | preGate => simp only [ancMeasForDetectors, h1, h2, h11]; rfl
      | postGate => simp only [ancMeasForDetectors, h1, h2, h11]; rfl
    have hterms : ∀ i, removePairs (ancTargets s.order ((1 : cfg.Mat Rat) i) ((1 : cfg.Mat Rat) i)
        (nrOf (bumped s) (cfg.label i)) reset reset) =
        removePairs (gateIndepAnc (bumped s) reset (cfg.label i)) := by
      intro i
      unfold ancTargets gateIndepAnc
      have hperm : s.order.Perm (List.finRange cfg.n) := by rw [h3]
      rw [nonzero_one s.order hperm, nonzero_one s.order hperm, nonzero_one s.order hperm]
      generalize nrOf (bumped s) (cfg.label i) = nr
      generalize cfg.label i = a
      cases reset with
      | true =>
        by_cases h2 : 2 ≤ nr
        · simp [h2, show (0 : Int) ≤ -2 + (nr : Int) by omega]
        · simp [h2, show ¬ (0 : Int) ≤ -2 + (nr : Int) by omega]
      | false =>
        have d1 : ((a, (-1 : Int)) = (a, -2)) = False := by simp
        have d2 : ((a, (-2 : Int)) = (a, -1)) = False := by simp
        have d3 : ((a, (-3 : Int)) = (a, -1)) = False := by simp
        have d4 : ((a, (-3 : Int)) = (a, -2)) = False := by simp
        have d5 : ((a, (-1 : Int)) = (a, -3)) = False := by simp
        have d6 : ((a, (-2 : Int)) = (a, -3)) = False := by simp
        by_cases h3 : 3 ≤ nr
        · have h2 : 2 ≤ nr := by omega
          simp [h2, h3, show (0 : Int) ≤ -3 + (nr : Int) by omega, removePairs, List.filter_cons,
            List.count_cons]
        · by_cases h2 : 2 ≤ nr
          · simp [h2, h3, show ¬ (0 : Int) ≤ -3 + (nr : Int) by omega, removePairs, List.filter_cons,
              List.count_cons]
          · simp [h2, h3, show ¬ (0 : Int) ≤ -3 + (nr : Int) by omega]
    have hinstr : ∀ i, detInstr cfg getRec (selList s ancs) s.total
        (i, ancTargets s.order ((1 : cfg.Mat Rat) i) ((1 : cfg.Mat Rat) i)
          (nrOf (bumped s) (cfg.label i)) reset reset) =
        detInstr cfg getRec (selList s ancs) s.total (i, gateIndepAnc (bumped s) reset (cfg.label i)) := by
      intro i
      unfold detInstr
      simp only [hterms i]
    have hemit := emit_ok (cfg := cfg) getRec (selList s ancs) (s.total : Rat) (frameTargets s 1 1 reset) hcfg.2
      (by
        intro d hd hsel t ht
        obtain ⟨i, _, rfl⟩ := List.mem_map.1 hd
        simp only at hsel ht
        rw [hterms i] at ht
        have ht' := ((mem_removePairs _ _).1 ht).1
        obtain ⟨hsel1, hsel2⟩ := (mem_selList s h ancs i).1 hsel
        have hr := hrec i hsel1 hsel2
        have hnr : nrOf (bumped s) (cfg.label i) = nrOf s.rounds (cfg.label i) + 1 := by
          rw [nrOf_bumped s _ h (label_mem i), hsel2]; rfl
        simp only [gateIndepAnc, List.mem_append, List.mem_singleton, hnr] at ht'
        rcases ht' with rfl | ht'
        · exact hr 1 (by omega) (by omega) (by omega)
        · cases reset with
          | true =>
            simp only [if_true] at ht'
            split at ht'
            · simp only [List.mem_singleton] at ht'
              subst ht'
              exact hr 2 (by omega) (by omega) (by omega)
            · simp at ht'
          | false =>
            simp only [Bool.false_eq_true, if_false] at ht'
            split at ht'
            · simp only [List.mem_singleton] at ht'
              subst ht'
              exact hr 3 (by omega) (by omega) (by omega)
            · simp at ht')
    have htime : (((s.total + 1 : Nat) : Rat)) - 1 = (s.total : Rat) := by push_cast; ring
    unfold buildFromAnc
    rw [selected_eq s h ancs hs]
    simp only
    rw [hD]
    simp only
    rw [htime, hemit]
    simp only
    suffices e : (frameTargets s 1 1 reset).map (detInstr cfg getRec (selList s ancs) (s.total : Rat)) =
        (List.finRange cfg.n).map fun i => detInstr cfg getRec (selList s ancs) s.total
          (i, gateIndepAnc (bumped s) reset (cfg.label i)) by
      rw [e]; rfl
    simp only [frameTargets, List.map_map, h3]
    apply List.map_congr_left
    intro i _
    have := hinstr i
    rw [h3] at this
    exact this

/-- Detectors of a logical measurement without declared gates, before the replacement of the ancillas. -/
theorem dataDets_noGate (s : State cfg) (h1 : s.curr = 1) (h2 : s.prev = 1)
    (h3 : s.order = List.finRange cfg.n) (rounds : Dict String Nat) (reset : Bool) :
    dataDets s rounds reset =
      .ok ((List.finRange cfg.n).map fun i => (i, gateIndepData rounds reset (cfg.label i))) := by
  unfold dataDets
  split
  · rfl
  · have h11 : mulInv (1 : cfg.Mat Int) 1 = .ok 1 := mulInv_self 1 (by simp [mod2_one])
    simp only [ancMeasForDetectors, h1, h2, h11, h3]
    congr 1
    apply List.map_congr_left
    intro i _
    congr 1
    unfold ancTargets gateIndepData
    rw [nonzero_one _ (List.Perm.refl _), nonzero_one _ (List.Perm.refl _), nonzero_one _ (List.Perm.refl _)]
    simp only [Bool.not_true, Bool.false_eq_true, false_and, if_false, List.append_nil]
    congr 1

end SurfaceSim
