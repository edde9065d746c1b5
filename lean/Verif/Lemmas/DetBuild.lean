import Verif.Lemmas.Detectors

namespace SurfaceSim
open Spec Detectors
variable {cfg : Config}

theorem nrOf_bumped (s : State cfg) (a : String) (h : DetWF s) (ha : a ∈ cfg.anc) :
    nrOf (bumped s) a = if isActive s a then nrOf s.rounds a + 1 else nrOf s.rounds a := by
  unfold bumped isActive
  have hm : a ∈ s.active.keys := by rw [h.active]; exact ha
  clear h ha
  generalize s.rounds = rds
  generalize s.active = d at *
  induction d with
  | nil => simp [Dict.keys] at hm
  | cons kv d ih =>
    obtain ⟨k, b⟩ := kv
    by_cases hk : k = a
    · subst hk
      simp [nrOf]
    · have : a ∈ Dict.keys d := by
        simp only [Dict.keys, List.map_cons, List.mem_cons] at hm
        rcases hm with rfl | hm
        · exact absurd rfl hk
        · exact hm
      have := ih this
      simp only [nrOf, List.map_cons, Dict.get?_cons, hk, if_false] at this ⊢
      exact this

/-- The list of selected ancillas. -/
def selList (s : State cfg) (ancs : Option (List String)) : List String :=
  (ancs.getD (s.order.map cfg.label)).filter (isActive s)

/-- The argument names only ancillas of the object. -/
def SelOk (cfg : Config) (ancs : Option (List String)) : Prop :=
  ∀ l, ancs = some l → ∀ a ∈ l, a ∈ cfg.anc

theorem selected_eq (s : State cfg) (h : DetWF s) (ancs : Option (List String)) (hs : SelOk cfg ancs) :
    selected s ancs = .ok (selList s ancs) := by
  cases ancs with
  | none => rw [selected_none, selected_ok s _ (order_label_mem s h)]; rfl
  | some l =>
    rw [selected_ok s l (by rw [h.active]; exact hs l rfl)]
    rfl

theorem mem_selList (s : State cfg) (h : DetWF s) (ancs : Option (List String)) (i : Fin cfg.n) :
    cfg.label i ∈ selList s ancs ↔ Selects cfg ancs (cfg.label i) ∧ isActive s (cfg.label i) = true := by
  unfold selList Selects
  rw [List.mem_filter]
  cases ancs with
  | none =>
    simp only [Option.getD_none, true_and, and_iff_right_iff_imp]
    intro _
    exact List.mem_map.2 ⟨i, h.order.mem_iff.2 (List.mem_finRange i), rfl⟩
  | some l => simp

/-- Basis matrix used by `build_from_anc`. -/
def basisOf (cfg : Config) (s : State cfg) : cfg.Mat Int :=
  match cfg.frame with
  | .postGate => s.curr
  | .preGate => s.prev
  | .gateIndependent => 1

/-- State after a successful `build_from_anc`. -/
def afterBuild (s : State cfg) : State cfg :=
  { s with total := s.total + 1, rounds := bumped s, prev := s.curr }

/-- Targets of `build_from_anc` in the matrix frames. -/
def frameTargets (s : State cfg) (C P : cfg.Mat Rat) (reset : Bool) : List (Fin cfg.n × List MeasTerm) :=
  s.order.map fun i =>
    (i, ancTargets s.order (C i) (P i) (nrOf (bumped s) (cfg.label i)) reset reset)

theorem mem_ancTargets {order : List (Fin cfg.n)} {c p : Fin cfg.n → Rat} {nr : Nat} {rc rp : Bool}
    {t : MeasTerm} (h : t ∈ ancTargets order c p nr rc rp) :
    ∃ j, t.1 = cfg.label j ∧ (t.2 = -1 ∨ (t.2 = -2 ∧ 2 ≤ nr) ∨ (t.2 = -3 ∧ 3 ≤ nr)) := by
  have hn : ∀ row rel, t ∈ nonzero order row rel → ∃ j, t.1 = cfg.label j ∧ t.2 = rel := by
    intro row rel ht
    obtain ⟨j, _, rfl⟩ := List.mem_map.1 ht
    exact ⟨j, rfl, rfl⟩
  have hite : ∀ (P : Prop) [Decidable P] (l : List MeasTerm), t ∈ (if P then l else []) → P ∧ t ∈ l := by
    intro P _ l h
    split at h
    · exact ⟨by assumption, h⟩
    · simp at h
  unfold ancTargets at h
  rcases List.mem_append.1 h with h | h
  · rcases List.mem_append.1 h with h | h
    · rcases List.mem_append.1 h with h | h
      · obtain ⟨j, h1, h2⟩ := hn _ _ h
        exact ⟨j, h1, Or.inl h2⟩
      · obtain ⟨h0, h⟩ := hite _ _ h
        obtain ⟨j, h1, h2⟩ := hn _ _ h
        exact ⟨j, h1, Or.inr (Or.inl ⟨h2, h0⟩)⟩
    · obtain ⟨h0, h⟩ := hite _ _ h
      obtain ⟨j, h1, h2⟩ := hn _ _ h
      exact ⟨j, h1, Or.inr (Or.inl ⟨h2, h0.2⟩)⟩
  · obtain ⟨h0, h⟩ := hite _ _ h
    obtain ⟨j, h1, h2⟩ := hn _ _ h
    exact ⟨j, h1, Or.inr (Or.inr ⟨h2, h0.2⟩)⟩

theorem buildFromAnc_frame (hcfg : ConfigOk cfg) (s : State cfg) (h : DetWF s)
    (getRec : String → Int → Except Err Int) (reset : Bool) (ancs : Option (List String))
    (hs : SelOk cfg ancs) (hf : cfg.frame ≠ .gateIndependent) (C P : cfg.Mat Rat)
    (hC : mulInv s.curr (basisOf cfg s) = .ok C) (hP : mulInv s.prev (basisOf cfg s) = .ok P)
    (hrec : ∀ i, Selects cfg ancs (cfg.label i) → isActive s (cfg.label i) = true →
      ∀ j, ∀ k : Nat, 1 ≤ k → k ≤ 3 → (k = 1 ∨ k ≤ nrOf (bumped s) (cfg.label i)) →
        ∃ r, getRec (cfg.label j) (-(k : Int)) = .ok r) :
    buildFromAnc getRec reset ancs s =
      (.ok ((frameTargets s C P reset).map
        (detInstr cfg getRec (selList s ancs) ((s.total : Rat)))), afterBuild s) := by
  have hemit := emit_ok (cfg := cfg) getRec (selList s ancs) (s.total : Rat) (frameTargets s C P reset) hcfg.2
    (by
      intro d hd hsel t ht
      obtain ⟨i, hi, rfl⟩ := List.mem_map.1 hd
      have ht' := ((mem_removePairs _ _).1 ht).1
      obtain ⟨j, h1, h2⟩ := mem_ancTargets ht'
      obtain ⟨hsel1, hsel2⟩ := (mem_selList s h ancs i).1 hsel
      have hr := hrec i hsel1 hsel2 j
      rw [h1]
      rcases h2 with h2 | ⟨h2, h3⟩ | ⟨h2, h3⟩
      · rw [h2]; exact hr 1 (by omega) (by omega) (Or.inl rfl)
      · rw [h2]; exact hr 2 (by omega) (by omega) (Or.inr h3)
      · rw [h2]; exact hr 3 (by omega) (by omega) (Or.inr h3))
  have htime : (((s.total + 1 : Nat) : Rat)) - 1 = (s.total : Rat) := by push_cast; ring
  unfold buildFromAnc
  rw [selected_eq s h ancs hs]
  simp only
  unfold basisOf at hC hP
  cases hfr : cfg.frame with
  | gateIndependent => exact absurd hfr hf
  | postGate =>
    simp only [hfr] at hC hP
    simp only [ancDets, hfr, ancMeasForDetectors, hC, hP]
    unfold frameTargets at hemit
    rw [htime, hemit]
    rfl
  | preGate =>
    simp only [hfr] at hC hP
    simp only [ancDets, hfr, ancMeasForDetectors, hC, hP]
    unfold frameTargets at hemit
    rw [htime, hemit]
    rfl

end SurfaceSim

namespace SurfaceSim
open Spec Detectors
variable {cfg : Config}

theorem buildFromAnc_indep (hcfg : ConfigOk cfg) (s : State cfg) (h : DetWF s)
    (getRec : String → Int → Except Err Int) (reset : Bool) (ancs : Option (List String))
    (hs : SelOk cfg ancs) (hf : cfg.frame = .gateIndependent)
    (hrec : ∀ i, Selects cfg ancs (cfg.label i) → isActive s (cfg.label i) = true →
      ∀ k : Nat, 1 ≤ k → k ≤ 3 → (k = 1 ∨ k ≤ nrOf (bumped s) (cfg.label i)) →
        ∃ r, getRec (cfg.label i) (-(k : Int)) = .ok r) :
    buildFromAnc getRec reset ancs s =
      (.ok (((List.finRange cfg.n).map fun i => (i, gateIndepAnc (bumped s) reset (cfg.label i))).map
        (detInstr cfg getRec (selList s ancs) ((s.total : Rat)))), afterBuild s) := by
  have hemit := emit_ok (cfg := cfg) getRec (selList s ancs) (s.total : Rat)
    ((List.finRange cfg.n).map fun i => (i, gateIndepAnc (bumped s) reset (cfg.label i))) hcfg.2
    (by
      intro d hd hsel t ht
      obtain ⟨i, hi, rfl⟩ := List.mem_map.1 hd
      have ht' := ((mem_removePairs _ _).1 ht).1
      obtain ⟨hsel1, hsel2⟩ := (mem_selList s h ancs i).1 hsel
      have hr := hrec i hsel1 hsel2
      simp only [gateIndepAnc, List.mem_append, List.mem_singleton] at ht'
      rcases ht' with rfl | ht'
      · exact hr 1 (by omega) (by omega) (Or.inl rfl)
      · cases reset with
        | true =>
          simp only [if_true] at ht'
          split at ht'
          · simp only [List.mem_singleton] at ht'
            subst ht'
            exact hr 2 (by omega) (by omega) (Or.inr (by omega))
          · simp at ht'
        | false =>
          simp only [Bool.false_eq_true, if_false] at ht'
          split at ht'
          · simp only [List.mem_singleton] at ht'
            subst ht'
            exact hr 3 (by omega) (by omega) (Or.inr (by omega))
          · simp at ht')
  have htime : (((s.total + 1 : Nat) : Rat)) - 1 = (s.total : Rat) := by push_cast; ring
  unfold buildFromAnc
  rw [selected_eq s h ancs hs]
  simp only [ancDets, hf]
  rw [htime, hemit]
  rfl

/-- Replacement of one term by data measurements. -/
def toDataTerm (sup : Dict String (List String)) (t : MeasTerm) : List MeasTerm :=
  if t.2 ≠ -1 then [(t.1, t.2 + 1)] else ((sup.get? t.1).getD []).map fun q => (q, -1)

theorem toData_ok (sup : Dict String (List String)) (l : List MeasTerm)
    (h : ∀ t ∈ l, t.2 = -1 → t.1 ∈ sup.keys) :
    toData sup l = .ok (l.flatMap (toDataTerm sup)) := by
  induction l with
  | nil => rfl
  | cons t l ih =>
    obtain ⟨a, rel⟩ := t
    have ih' := ih fun t ht => h t (List.mem_cons_of_mem _ ht)
    unfold toData
    by_cases hr : rel = -1
    · subst hr
      have hm := h (a, -1) (by simp) rfl
      rw [← Dict.get?_isSome_iff] at hm
      obtain ⟨qs, hqs⟩ := Option.isSome_iff_exists.1 hm
      simp [Dict.getE, hqs, ih', toDataTerm]
    · simp [hr, ih', toDataTerm]

/-- State after a successful `build_from_data`. -/
def afterData (s : State cfg) : State cfg := { s with prev := s.curr }

/-- `build_from_data`, once the ancilla targets are known. -/
theorem buildFromData_eq (hcfg : ConfigOk cfg) (s : State cfg) (h : DetWF s)
    (getRec : String → Int → Except Err Int) (sup : Dict String (List String)) (reset : Bool)
    (stabs : List String) (ancs : Option (List String)) (hs : SelOk cfg ancs)
    (hsub : strictSubset sup.keys stabs = false)
    (D : List (Fin cfg.n × List MeasTerm))
    (hD : dataDets s (bumped s) reset = .ok D)
    (hsup : ∀ d ∈ D, cfg.label d.1 ∈ stabs → ∀ t ∈ d.2, t.2 = -1 → t.1 ∈ sup.keys)
    (hrec : ∀ d ∈ D, cfg.label d.1 ∈ stabs → cfg.label d.1 ∈ selList s ancs →
      ∀ t ∈ removePairs (d.2.flatMap (toDataTerm sup)), ∃ r, getRec t.1 t.2 = .ok r) :
    buildFromData getRec sup reset stabs ancs s =
      (.ok (((D.filter fun d => decide (cfg.label d.1 ∈ stabs)).map fun d =>
        (d.1, d.2.flatMap (toDataTerm sup))).map
          (detInstr cfg getRec (selList s ancs) ((s.total : Rat) - 1/2))), afterData s) := by
  set D' := D.filter fun d => decide (cfg.label d.1 ∈ stabs) with hD'
  have hmap : mapExcept D' (toDataDet sup) = .ok (D'.map fun d => (d.1, d.2.flatMap (toDataTerm sup))) := by
    have hm : ∀ d ∈ D', toData sup d.2 = .ok (d.2.flatMap (toDataTerm sup)) := by
      intro d hd
      obtain ⟨h1, h2⟩ := List.mem_filter.1 hd
      exact toData_ok sup d.2 (hsup d h1 (by simpa using h2))
    clear_value D'
    clear hD'
    induction D' with
    | nil => rfl
    | cons d D' ih =>
      simp only [mapExcept, toDataDet, hm d (by simp), ih fun d hd => hm d (List.mem_cons_of_mem _ hd),
        List.map_cons]
  have hemit := emit_ok (cfg := cfg) getRec (selList s ancs) ((s.total : Rat) - 1/2)
    (D'.map fun d => (d.1, d.2.flatMap (toDataTerm sup))) hcfg.2
    (by
      intro d hd hsel t ht
      obtain ⟨d0, hd0, rfl⟩ := List.mem_map.1 hd
      obtain ⟨h1, h2⟩ := List.mem_filter.1 hd0
      exact hrec d0 h1 (by simpa using h2) hsel t ht)
  unfold buildFromData
  rw [if_neg (by simp [hsub]), selected_eq s h ancs hs]
  simp only
  rw [hD]
  simp only
  rw [← hD', hmap]
  simp only
  rw [hemit]
  rfl

theorem mulInv_self (B : cfg.Mat Int) (hB : (mod2 B).det ≠ 0) : mulInv B B = .ok 1 := by
  rw [mulInv_of_mul B B 1 (Matrix.one_mul B) (rat_det_ne_zero B hB)]
  congr 1
  exact Matrix.map_one _ (by simp) (by simp)

theorem nonzero_one (order : List (Fin cfg.n)) (ho : order.Perm (List.finRange cfg.n)) (i : Fin cfg.n)
    (rel : Int) : nonzero order ((1 : cfg.Mat Rat) i) rel = [(cfg.label i, rel)] := by
  unfold nonzero
  have hf : (order.filter fun j => decide ((1 : cfg.Mat Rat) i j ≠ 0)) = [i] := by
    have hnd : order.Nodup := ho.nodup_iff.2 (List.nodup_finRange _)
    have hmem : i ∈ order := ho.mem_iff.2 (List.mem_finRange i)
    have : (order.filter fun j => decide ((1 : cfg.Mat Rat) i j ≠ 0)) = order.filter fun j => decide (j = i) := by
      apply List.filter_congr
      intro j _
      by_cases hij : i = j
      · subst hij; simp
      · have : ¬ j = i := fun e => hij e.symm
        simp [Matrix.one_apply_ne hij, this]
    rw [this]
    have h2 := List.Nodup.count hnd (a := i)
    rw [if_pos hmem] at h2
    rw [show (order.filter fun j => decide (j = i)) = List.replicate (order.count i) i from by
      rw [← List.filter_beq]
      congr 1, h2]
    rfl
  rw [hf]
  rfl

end SurfaceSim
