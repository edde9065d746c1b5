/-
The detectors object in a circuit without gates.
-/
import Verif.Props.DetectorCircuits
import Verif.Spec.Memory
import Verif.Lemmas.Frame
import Verif.Lemmas.Does

namespace SurfaceSim
open Spec Detectors Props
variable {cfg : Config}

/-- No gate was declared, exactly the ancillas `anc` are active and `r` rounds have been built since they were
activated. -/
def DetAt (anc : List String) (r : Nat) (d : State cfg) : Prop :=
  ∃ h : List (Call cfg), d = afterHistory h ∧ (∀ c ∈ h, c.Valid) ∧ AllReturned h ∧ (∀ c ∈ h, c.NoGate) ∧
    (∀ a ∈ anc, ancTrack a h = (true, r)) ∧ (∀ a, a ∉ anc → (ancTrack a h).1 = false) ∧ roundCount h = r

theorem AllReturned.snoc {p : List (Call cfg)} {c : Call cfg} (h : AllReturned p)
    (hc : (c.exec (afterHistory p)).1 = true) : AllReturned (p ++ [c]) := by
  intro p' c' q e
  rcases List.eq_nil_or_concat q with rfl | ⟨q', x, rfl⟩
  · obtain ⟨rfl, rfl⟩ : p = p' ∧ c = c' := by
      have := List.append_inj' e rfl
      exact ⟨this.1, by simpa using this.2⟩
    exact hc
  · rw [List.concat_eq_append] at e
    have : p ++ [c] = (p' ++ c' :: q') ++ [x] := by rw [e]; simp
    obtain ⟨h1, -⟩ := List.append_inj' this rfl
    exact h p' c' q' h1

theorem DetAt.new : DetAt (cfg := cfg) [] 0 (State.fresh cfg) :=
  ⟨[], rfl, by simp, by intro p c q e; simp at e, by simp, by simp, fun a _ => rfl, rfl⟩

theorem forEach_activate_isOk (l : List String) : ∀ (s : State cfg), l.Nodup → (∀ a ∈ l, s.active.get? a = some false) →
    (PyM.forEach l (activateOne (cfg := cfg)) s).1.isOk = true := by
  induction l with
  | nil => intro s _ _; rfl
  | cons a l ih =>
    intro s hnd h
    simp only [PyM.forEach, PyM.bind]
    have ha := h a (by simp)
    simp only [activateOne, ha]
    refine ih _ (List.nodup_cons.1 hnd).2 fun b hb => ?_
    simp only
    rw [Dict.get?_set_ne]
    · exact h b (by simp [hb])
    · rintro rfl; exact (List.nodup_cons.1 hnd).1 hb

theorem forEach_deactivate_isOk (l : List String) (hi : ∀ a ∈ l, a ∈ cfg.anc) : ∀ (s : State cfg), l.Nodup →
    (∀ a ∈ l, s.active.get? a = some true) → (PyM.forEach l (deactivateOne (cfg := cfg)) s).1.isOk = true := by
  induction l with
  | nil => intro s _ _; rfl
  | cons a l ih =>
    intro s hnd h
    simp only [PyM.forEach, PyM.bind]
    have ha := h a (by simp)
    have hx : ∃ i, cfg.idx a = .ok i := by
      unfold Config.idx
      cases hf : List.finIdxOf? a cfg.anc with
      | none => rw [List.finIdxOf?_eq_none_iff] at hf; exact absurd (hi a (by simp)) hf
      | some i => exact ⟨i, rfl⟩
    obtain ⟨i, hx⟩ := hx
    simp only [deactivateOne, ha, hx]
    refine ih (fun b hb => hi b (by simp [hb])) _ (List.nodup_cons.1 hnd).2 fun b hb => ?_
    simp only
    rw [Dict.get?_set_ne]
    · exact h b (by simp [hb])
    · rintro rfl; exact (List.nodup_cons.1 hnd).1 hb

theorem not_strictSuperset {l m : List String} (h : ∀ a ∈ l, a ∈ m) : NoiseModel.strictSuperset l m = false := by
  unfold NoiseModel.strictSuperset
  rw [Bool.and_eq_false_iff]
  right
  rw [Bool.eq_false_iff]
  intro h'
  rw [List.any_eq_true] at h'
  obtain ⟨x, hx, hx'⟩ := h'
  exact (of_decide_eq_true hx') (h x hx)

theorem get_of_isActive {s : State cfg} (h : DetWF s) {a : String} (ha : a ∈ cfg.anc) :
    s.active.get? a = some (isActive s a) := by
  have : a ∈ s.active.keys := by rw [h.active]; exact ha
  obtain ⟨b, hb⟩ := Option.isSome_iff_exists.1 ((Dict.get?_isSome_iff _ _).2 this)
  rw [hb]; unfold isActive; rw [hb]; rfl

theorem DetAt.activateMore (hn : cfg.anc.Nodup) {anc anc0 : List String} (hanc : anc.Nodup) (hsub : ∀ a ∈ anc, a ∈ cfg.anc)
    (hnew : ∀ a ∈ anc, a ∉ anc0) {d : State cfg} (hd : DetAt anc0 0 d) :
    ∃ d', Detectors.activate anc d = (.ok (), d') ∧ DetAt (anc0 ++ anc) 0 d' := by
  obtain ⟨h, rfl, hv, hr, hg, ha0, hi, hc⟩ := hd
  have hwf := afterHistory_inv h hv
  have ht := track hn h hv hr
  have hok : (PyM.forEach anc (activateOne (cfg := cfg)) (afterHistory h)).1.isOk = true := by
    refine forEach_activate_isOk _ _ hanc fun a ha => ?_
    rw [get_of_isActive hwf (hsub a ha)]
    have := ht.2 a (hsub a ha)
    rw [← hi a (hnew a ha)]
    congr 1
    rw [← this]
  have e : Detectors.activate anc (afterHistory h) = PyM.forEach anc (activateOne (cfg := cfg)) (afterHistory h) := by
    unfold Detectors.activate
    rw [if_neg]
    rw [not_strictSuperset]
    · simp
    · rw [hwf.active]; exact hsub
  have hex : (Call.exec (afterHistory h) (.activate anc)) = (true, (Detectors.activate anc (afterHistory h)).2) := by
    simp only [Call.exec]; rw [e, hok]
  obtain ⟨u, hu⟩ := isOk_eq hok
  refine ⟨(Detectors.activate anc (afterHistory h)).2, by rw [e]; exact hu, h ++ [.activate anc], ?_, ?_, ?_, ?_, ?_, ?_, ?_⟩
  · rw [afterHistory_snoc, hex]
  · intro c hc'
    rcases List.mem_append.1 hc' with h' | h'
    · exact hv c h'
    · simp at h'; subst h'; trivial
  · exact AllReturned.snoc hr (by rw [hex])
  · intro c hc'
    rcases List.mem_append.1 hc' with h' | h'
    · exact hg c h'
    · simp at h'; subst h'; trivial
  · intro a ha
    rw [ancTrack_snoc]
    by_cases h1 : a ∈ anc
    · simp [h1]
    · have := ha0 a ((List.mem_append.1 ha).resolve_right h1)
      simp [h1, this]
  · intro a ha
    rw [ancTrack_snoc]
    have h1 : a ∉ anc := fun h => ha (List.mem_append_right _ h)
    have h2 := hi a fun h => ha (List.mem_append_left _ h)
    simp [h1, h2]
  · rw [roundCount_snoc]; simpa using hc

theorem DetAt.activate (hn : cfg.anc.Nodup) {anc : List String} (hanc : anc.Nodup) (hsub : ∀ a ∈ anc, a ∈ cfg.anc)
    {d : State cfg} (hd : DetAt [] 0 d) :
    ∃ d', Detectors.activate anc d = (.ok (), d') ∧ DetAt anc 0 d' :=
  DetAt.activateMore hn hanc hsub (by simp) hd

theorem DetAt.snoc_other {anc : List String} {r : Nat} {h : List (Call cfg)} (hv : ∀ c ∈ h, c.Valid)
    (hr : AllReturned h) (hg : ∀ c ∈ h, c.NoGate) (ha : ∀ a ∈ anc, ancTrack a h = (true, r))
    (hi : ∀ a, a ∉ anc → (ancTrack a h).1 = false) (hc : roundCount h = r)
    {g : String → Int → Except Err Int} {reset : Bool} {ancs : Option (List String)}
    (hok : (buildFromAnc g reset ancs (afterHistory h)).1.isOk = true) :
    DetAt anc (r + 1) (buildFromAnc g reset ancs (afterHistory h)).2 := by
  have hex : (Call.exec (afterHistory h) (.buildFromAnc g reset ancs)) =
      (true, (buildFromAnc g reset ancs (afterHistory h)).2) := by
    simp only [Call.exec]; rw [hok]
  refine ⟨h ++ [.buildFromAnc g reset ancs], ?_, ?_, AllReturned.snoc hr (by rw [hex]), ?_, ?_, ?_, ?_⟩
  · rw [afterHistory_snoc, hex]
  · intro c hc'
    rcases List.mem_append.1 hc' with h' | h'
    · exact hv c h'
    · simp at h'; subst h'; trivial
  · intro c hc'
    rcases List.mem_append.1 hc' with h' | h'
    · exact hg c h'
    · simp at h'; subst h'; trivial
  · intro a h'
    rw [ancTrack_snoc]; simp [ha a h']
  · intro a h'
    rw [ancTrack_snoc]
    have := hi a h'
    simp only [this]
    simpa using this
  · rw [roundCount_snoc]; simp [hc]

/-- Value of the detectors of a circuit that consists of detectors only. -/
theorem run_dets (ρ : Nat → ZMod 2) {α : Type} (A : List α) (recs : α → List Int) (args : α → List Arg)
    (st : FState Nat) :
    run ρ st (ops (A.map fun a => (⟨.DETECTOR, (recs a).map Target.record, args a⟩ : Instr))) =
      { st with dets := (A.map fun a => parity st.recs (recs a)).reverse ++ st.dets } := by
  induction A generalizing st with
  | nil => rfl
  | cons a A ih =>
    have h1 : (⟨.DETECTOR, (recs a).map Target.record, args a⟩ : Instr).recs = recs a := by
      unfold Instr.recs
      induction recs a with
      | nil => rfl
      | cons k l ih2 => simpa using ih2
    rw [List.map_cons]
    unfold ops
    rw [List.flatMap_cons, run_append]
    have h2 : run ρ st (instrOps ⟨.DETECTOR, (recs a).map Target.record, args a⟩) =
        { st with dets := parity st.recs (recs a) :: st.dets } := by
      simp only [instrOps, h1]; rfl
    rw [h2]
    have := ih { st with dets := parity st.recs (recs a) :: st.dets }
    unfold ops at this
    rw [this]
    simp

theorem evenPairs_dets {α : Type} (A : List α) (t : α → List Target) (args : α → List Arg) :
    EvenPairs (A.map fun a => (⟨.DETECTOR, t a, args a⟩ : Instr)) := by
  intro i hi h
  obtain ⟨a, -, rfl⟩ := List.mem_map.1 hi
  simp [Gate.isTwoQubit] at h

theorem pairsOk_dets {α : Type} (A : List α) (t : α → List Target) (args : α → List Arg) :
    PairsOk (A.map fun a => (⟨.DETECTOR, t a, args a⟩ : Instr)) := by
  refine ⟨evenPairs_dets A t args, fun op ho => ?_⟩
  simp only [ops, List.mem_flatMap, List.mem_map] at ho
  obtain ⟨i, ⟨a, -, rfl⟩, ho⟩ := ho
  simp only [instrOps, List.mem_singleton] at ho
  rw [ho]
  trivial

open Classical in
/-- The detectors of a round. -/
theorem DetAt.round (hcfg : ConfigOk cfg) {anc : List String} {r : Nat} {d : State cfg} (hd : DetAt anc r d)
    (g : String → Int → Except Err Int) (look : String → Nat → Int) (reset : Bool) (sel : List String)
    (hs : ∀ a ∈ sel, a ∈ cfg.anc)
    (hl : ∀ a ∈ anc, FindsAt g look a (min 3 (r + 1))) :
    ∃ c d', buildFromAnc g reset (some sel) d = (.ok c, d') ∧ PairsOk c ∧ DetAt anc (r + 1) d' ∧
      ∀ ρ st, run ρ st (ops c) = { st with dets := (cfg.anc.map fun a =>
        if a ∈ sel ∧ a ∈ anc then parity st.recs (look a 1 :: (if reset then (if 1 ≤ r then [look a 2] else [])
          else (if 2 ≤ r then [look a 3] else []))) else 0).reverse ++ st.dets } := by
  obtain ⟨h, rfl, hv, hr, hg, ha, hi, hc⟩ := hd
  have hact : ∀ a, (ancTrack a h).1 = true ↔ a ∈ anc := by
    intro a
    constructor
    · intro h1
      by_contra h2
      rw [hi a h2] at h1; simp at h1
    · intro h1; rw [ha a h1]
  have key := C24_memory_detectors hcfg h hv hr hg g look reset (some sel)
    (by intro l hl a ha'; cases hl; exact hs a ha')
    (by
      intro a _ _ h1
      have := (hact a).1 h1
      rw [ha a this]
      exact hl a this)
  have hok : (buildFromAnc g reset (some sel) (afterHistory h)).1.isOk = true := by rw [key]; rfl
  have e1 : (cfg.anc.map fun a =>
      let n := (ancTrack a h).2
      let recs : List Int := look a 1 :: (if reset then (if 1 ≤ n then [look a 2] else [])
        else (if 2 ≤ n then [look a 3] else []))
      (⟨.DETECTOR, if Selects cfg (some sel) a ∧ (ancTrack a h).1 = true then recs.map Target.record else [],
        detCoords cfg a (roundCount h)⟩ : Instr)) =
      cfg.anc.map fun a => ⟨.DETECTOR, (if a ∈ sel ∧ a ∈ anc then look a 1 ::
        (if reset then (if 1 ≤ r then [look a 2] else []) else (if 2 ≤ r then [look a 3] else [])) else []).map
          Target.record, detCoords cfg a r⟩ := by
    refine List.map_congr_left fun a _ => ?_
    simp only [Selects, hact, hc]
    by_cases h1 : a ∈ sel ∧ a ∈ anc
    · rw [if_pos h1, if_pos h1, ha a h1.2]
    · rw [if_neg h1, if_neg h1]; rfl
  rw [e1] at key
  refine ⟨_, _, Prod.ext key rfl, pairsOk_dets _ _ _, DetAt.snoc_other hv hr hg ha hi hc hok, fun ρ st => ?_⟩
  rw [run_dets]
  congr 3
  refine List.map_congr_left fun a _ => ?_
  split <;> simp [parity]

open Classical in
/-- The detectors of a logical measurement, followed by the deactivation. -/
theorem DetAt.final (hcfg : ConfigOk cfg) {anc : List String} (hanc : anc.Nodup) (hsub : ∀ a ∈ anc, a ∈ cfg.anc)
    {r : Nat} {d : State cfg} (hd : DetAt anc r d)
    (g : String → Int → Except Err Int) (look : String → Nat → Int) (reset : Bool) (sel : List String)
    (hs : ∀ a ∈ sel, a ∈ cfg.anc) (sup : Dict String (List String)) (stabs : List String)
    (hstabs : ∀ a ∈ stabs, a ∈ sup.keys)
    (hsup : ∀ a qs, sup.get? a = some qs → qs.Nodup ∧ ∀ q ∈ qs, q ∉ cfg.anc ∧ FindsAt g look q 1)
    (hl : ∀ a ∈ anc, FindsAt g look a (min 2 r)) :
    ∃ c d' d'', buildFromData g sup reset stabs (some sel) d = (.ok c, d') ∧ PairsOk c ∧
      Detectors.deactivate anc d' = (.ok (), d'') ∧
      ∀ ρ st, run ρ st (ops c) = { st with dets := ((cfg.anc.filter (· ∈ stabs)).map fun a =>
        if a ∈ sel ∧ a ∈ anc then parity st.recs (((sup.get? a).getD []).map (look · 1) ++
          (if 1 ≤ r then [look a 1] else []) ++ (if reset = false ∧ 2 ≤ r then [look a 2] else [])) else 0).reverse ++
          st.dets } := by
  obtain ⟨h, rfl, hv, hr, hg, ha, hi, hc⟩ := hd
  have hact : ∀ a, (ancTrack a h).1 = true ↔ a ∈ anc := by
    intro a
    constructor
    · intro h1
      by_contra h2
      rw [hi a h2] at h1; simp at h1
    · intro h1; rw [ha a h1]
  have key := C27_data_detectors hcfg h hv hr hg g look reset (some sel)
    (by intro l hl a ha'; cases hl; exact hs a ha') sup stabs hstabs hsup
    (by
      intro a _ _ _ h1
      have := (hact a).1 h1
      rw [ha a this]
      exact hl a this)
  have hok : (buildFromData g sup reset stabs (some sel) (afterHistory h)).1.isOk = true := by rw [key]; rfl
  have e1 : ((cfg.anc.filter (· ∈ stabs)).map fun a =>
        let n := (ancTrack a h).2
        let recs : List Int := ((sup.get? a).getD []).map (look · 1) ++
          (if 1 ≤ n then [look a 1] else []) ++ (if reset = false ∧ 2 ≤ n then [look a 2] else [])
        (⟨.DETECTOR, if Selects cfg (some sel) a ∧ (ancTrack a h).1 = true then recs.map Target.record else [],
          detCoords cfg a ((roundCount h : Rat) - 1/2)⟩ : Instr)) =
      (cfg.anc.filter (· ∈ stabs)).map fun a => ⟨.DETECTOR, (if a ∈ sel ∧ a ∈ anc then
        ((sup.get? a).getD []).map (look · 1) ++
          (if 1 ≤ r then [look a 1] else []) ++ (if reset = false ∧ 2 ≤ r then [look a 2] else []) else []).map
          Target.record, detCoords cfg a ((r : Rat) - 1/2)⟩ := by
    refine List.map_congr_left fun a _ => ?_
    simp only [Selects, hact, hc]
    by_cases h1 : a ∈ sel ∧ a ∈ anc
    · rw [if_pos h1, if_pos h1, ha a h1.2]
    · rw [if_neg h1, if_neg h1]; rfl
  rw [e1] at key
  set d' := (buildFromData g sup reset stabs (some sel) (afterHistory h)).2 with hd'
  have hex : (Call.exec (afterHistory h) (.buildFromData g sup reset stabs (some sel))) = (true, d') := by
    simp only [Call.exec]; rw [hok]
  have hd'h : d' = afterHistory (h ++ [.buildFromData g sup reset stabs (some sel)]) := by
    rw [afterHistory_snoc, hex]
  have hv' : ∀ c ∈ h ++ [Call.buildFromData g sup reset stabs (some sel)], c.Valid := by
    intro c hc'
    rcases List.mem_append.1 hc' with h' | h'
    · exact hv c h'
    · simp at h'; subst h'; trivial
  have hwf := afterHistory_inv _ hv'
  have ht := track hcfg.1 _ hv' (AllReturned.snoc hr (c := .buildFromData g sup reset stabs (some sel)) (by rw [hex]))
  rw [← hd'h] at hwf ht
  have hdok : (PyM.forEach anc (deactivateOne (cfg := cfg)) d').1.isOk = true := by
    refine forEach_deactivate_isOk _ hsub _ hanc fun a ha' => ?_
    rw [get_of_isActive hwf (hsub a ha')]
    have := ht.2 a (hsub a ha')
    rw [ancTrack_snoc] at this
    simp only [ha a ha'] at this
    congr 1
    exact congrArg Prod.fst this
  obtain ⟨u, hu⟩ := isOk_eq hdok
  have e : Detectors.deactivate anc d' = PyM.forEach anc (deactivateOne (cfg := cfg)) d' := by
    unfold Detectors.deactivate
    rw [if_neg]
    rw [not_strictSuperset]
    · simp
    · rw [hwf.active]; exact hsub
  refine ⟨_, d', _, Prod.ext key rfl, pairsOk_dets _ _ _, by rw [e]; exact hu, fun ρ st => ?_⟩
  rw [run_dets]
  congr 3
  refine List.map_congr_left fun a _ => ?_
  split <;> simp [parity]

end SurfaceSim
