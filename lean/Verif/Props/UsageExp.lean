/-
The time steps of merged blocks and of whole experiments (C28, C56).
-/
import Verif.Props.NoiseOnce
import Verif.Lemmas.UsageExp
import Verif.Props.Memory
import Verif.Props.MergeRounds

namespace SurfaceSim.Props
open Spec NoiseModel Blocks LayoutLib LogGates Experiments

variable {p : Gate → Bool} {ex : Bool} {l0 l l' l'' : Layout} {a : Args} {dx dz dx' dz' : Int} {nm : NoiseModel}
  {cfg : Detectors.Config}

/-! ### merged blocks -/

/-- **C28** In a merged round of any number of layouts every qubit of every layout is used once between TICKs: with the CSS
rounds of rotated codes (also pipelined, also XZZX) and of unrotated codes. -/
theorem C28_merged_rounds (hu : Uses p ex nm) (ls : List Layout) (hne : ls ≠ []) (hd : NoCommonQubit ls) (o : SetOrder)
    (reset : Bool) (sel : Option (List String)) :
    ((∀ l ∈ ls, ∃ a dx dz l0, rotSurfaceCodeRectangle dx dz a = .ok l0 ∧ WithParams l0 l) →
      OncePerTickAll p ex nm.inds ls true (if reset then 10 else 9) true
        (mergeQecRounds (cfg := cfg) (cssIter "rotated_surface_code" o nm) ls reset sel) ∧
      OncePerTickAll p ex nm.inds ls true (if reset then 13 else 12) true
        (mergeQecRounds (cfg := cfg) (cssPipeIter o nm) ls reset sel) ∧
      OncePerTickAll p ex nm.inds ls true (if reset then 13 else 12) true
        (mergeQecRounds (cfg := cfg) (xzzxPipeIter o nm) ls reset sel)) ∧
    ((∀ l ∈ ls, ∃ a dx dz l0, unrotSurfaceCodeRectangle dx dz a = .ok l0 ∧ WithParams l0 l) →
      OncePerTickAll p ex nm.inds ls true (if reset then 10 else 9) true
        (mergeQecRounds (cfg := cfg) (cssIter "unrotated_surface_code" o nm) ls reset sel)) := by
  refine ⟨fun hl => ⟨?_, ?_, ?_⟩, fun hl => ?_⟩ <;> refine once_mergeQecRounds hu.marks hne reset sel hd fun l h => ?_
  all_goals obtain ⟨a, dx, dz, l0, h1, h2⟩ := hl l h
  · exact alt_rot_css h1 h2 hu o reset
  · exact (alt_pipelined h1 h2 hu o reset).1
  · exact (alt_pipelined h1 h2 hu o reset).2
  · exact alt_unrot_css h1 h2 hu o reset

/-- **C28** Same for merged logical measurements in the same basis. -/
theorem C28_merged_meas (hu : Uses p ex nm) (ls : List Layout) (hne : ls ≠ []) (hd : NoCommonQubit ls)
    (hl : ∀ l ∈ ls, ∃ a dx dz l0, (rotSurfaceCodeRectangle dx dz a = .ok l0 ∨ unrotSurfaceCodeRectangle dx dz a = .ok l0) ∧
      WithParams l0 l) (rot : Bool) (rots : List Bool) (hr : ∀ b ∈ rots, b = rot) (reset : Bool) (sel : Option (List String)) :
    OncePerTickAll p ex nm.inds ls true (if rot then 2 else 1) true
      (mergeLogMeas (cfg := cfg) (logMeasIter nm) ls rots reset sel) := by
  refine once_mergeLogMeas hu.marks hne rot rots hr reset sel hd fun l h => ?_
  obtain ⟨a, dx, dz, l0, h1 | h1, h2⟩ := hl l h
  · exact alt_logMeas hu (isRot_of_params h1 h2).grid rot
  · exact alt_logMeas hu (isUnrot_of_params h1 h2).grid rot

/-! ### experiments -/

theorem _root_.SurfaceSim.Spec.OncePerTick.of {σ : Type} {inds : Dict String Nat} {pre post : Bool} {n : Nat} {b : PyM σ Circuit} {qs : List String}
    (h : OncePerTick p ex inds l pre n post b) (hq : l.getQubits [] = .ok qs) {s s' : σ} {c : Circuit}
    (hc : b s = (.ok c, s')) : EachOnce p ex (qs.map (ind inds)) pre n post c := by
  obtain ⟨qs', h1, -, h3⟩ := h
  rw [hq, Except.ok.injEq] at h1
  subst h1
  exact h3 _ _ _ hc

section
variable {qs : List String} {dataInit : Dict String Int} (hq : l.getQubits [] = .ok qs)
  (hk : ∀ q v, (q, v) ∈ dataInit → v ≠ 0 → q ∈ qs) (hu : Uses p ex nm) (o : SetOrder) (reset : Bool)
include hq hk hu

theorem rot_family (h : rotSurfaceCodeRectangle dx dz a = .ok l0) (hw : WithParams l0 l) :
    FamilyUses p ex (qs.map (ind nm.inds)) (rotCss cfg o nm) l dataInit (fun b => if b then 3 else 2)
      (fun b => if b then 2 else 1) (if reset then 10 else 9) reset where
  marks := hu.marks
  init rot _ _ _ hc := (C28_rot_init h hw hu o dataInit hq hk rot).1.of hq hc
  round sel _ _ _ hc := (C28_rot_css h hw hu o reset sel).of hq hc
  meas rot sel _ _ _ hc := (C28_rot_meas h hw hu o rot reset sel).1.of hq hc

theorem unrot_family (h : unrotSurfaceCodeRectangle dx dz a = .ok l0) (hw : WithParams l0 l) :
    FamilyUses p ex (qs.map (ind nm.inds)) (unrotCss cfg o nm) l dataInit (fun b => if b then 3 else 2)
      (fun b => if b then 2 else 1) (if reset then 10 else 9) reset where
  marks := hu.marks
  init rot _ _ _ hc := (C28_unrot_init h hw hu o dataInit hq hk rot).of hq hc
  round sel _ _ _ hc := (C28_unrot_css h hw hu o reset sel).of hq hc
  meas rot sel _ _ _ hc := (C28_unrot_meas h hw hu rot reset sel).of hq hc

theorem pipe_family (h : rotSurfaceCodeRectangle dx dz a = .ok l0) (hw : WithParams l0 l) :
    FamilyUses p ex (qs.map (ind nm.inds)) (rotCssPipelined cfg o nm) l dataInit (fun b => if b then 3 else 2)
      (fun b => if b then 2 else 1) (if reset then 13 else 12) reset where
  marks := hu.marks
  init rot _ _ _ hc := (C28_rot_init h hw hu o dataInit hq hk rot).1.of hq hc
  round sel _ _ _ hc := (C28_pipelined h hw hu o reset sel).1.of hq hc
  meas rot sel _ _ _ hc := (C28_rot_meas h hw hu o rot reset sel).1.of hq hc

theorem xzzxPipe_family (h : rotSurfaceCodeRectangle dx dz a = .ok l0) (hw : WithParams l0 l) :
    FamilyUses p ex (qs.map (ind nm.inds)) (xzzxPipelined cfg o nm) l dataInit (fun _ => 3)
      (fun _ => 2) (if reset then 13 else 12) reset where
  marks := hu.marks
  init rot _ _ _ hc := (C28_rot_init h hw hu o dataInit hq hk rot).2.of hq hc
  round sel _ _ _ hc := (C28_pipelined h hw hu o reset sel).2.of hq hc
  meas rot sel _ _ _ hc := (C28_rot_meas h hw hu o rot reset sel).2.of hq hc

end

/-- **C28** The memory experiments on rotated codes, from the first to the last time step: the initialization, the rounds and
the measurement, between which there is one step with nothing but incoming noise. -/
theorem C28_rot_memory (h : rotSurfaceCodeRectangle dx dz a = .ok l0) (hw : WithParams l0 l) (hu : Uses p ex nm)
    {qs : List String} {dataInit : Dict String Int} (hq : l.getQubits [] = .ok qs)
    (hk : ∀ q v, (q, v) ∈ dataInit → v ≠ 0 → q ∈ qs) (o : SetOrder) (rounds : Int) (rot reset gauge : Bool)
    (sel : Option (List String)) (s : Sim cfg) (c : Circuit) (s' : Sim cfg) :
    (memory (rotCss cfg o nm) o nm l rounds dataInit rot reset sel gauge s = (.ok c, s') →
      Timeline p ex (qs.map (ind nm.inds)) (cycle (if rot then 3 else 2) ++
        (List.replicate rounds.toNat (cycle (if reset then 10 else 9))).flatten ++ cycle (if rot then 2 else 1)) c) ∧
    (memory (rotCssPipelined cfg o nm) o nm l rounds dataInit rot reset sel gauge s = (.ok c, s') →
      Timeline p ex (qs.map (ind nm.inds)) (cycle (if rot then 3 else 2) ++
        (List.replicate rounds.toNat (cycle (if reset then 13 else 12))).flatten ++ cycle (if rot then 2 else 1)) c) ∧
    (memory (xzzxPipelined cfg o nm) o nm l rounds dataInit rot reset sel gauge s = (.ok c, s') →
      Timeline p ex (qs.map (ind nm.inds)) (cycle 3 ++
        (List.replicate rounds.toNat (cycle (if reset then 13 else 12))).flatten ++ cycle 2) c) ∧
    (googleMemory o nm l rounds dataInit rot sel gauge s = (.ok c, s') →
      Timeline p ex (qs.map (ind nm.inds)) (cycle 3 ++ (List.replicate (rounds.toNat - 1) (cycle 11)).flatten ++
        List.replicate 10 true) c) :=
  ⟨fun hc => time_memory (rot_family hq hk hu o reset h hw) hc, fun hc => time_memory (pipe_family hq hk hu o reset h hw) hc,
    fun hc => time_memory (xzzxPipe_family hq hk hu o reset h hw) hc,
    fun hc => time_google hu.marks (fun _ _ _ hi => (C28_rot_init h hw hu o dataInit hq hk rot).2.of hq hi)
      (fun sel _ _ _ hi => (C28_google h hw hu o sel rot).1.of hq hi)
      (fun sel _ _ _ hi => (C28_google h hw hu o sel rot).2.of hq hi) hc⟩

/-- **C28** Same for unrotated codes. -/
theorem C28_unrot_memory (h : unrotSurfaceCodeRectangle dx dz a = .ok l0) (hw : WithParams l0 l) (hu : Uses p ex nm)
    {qs : List String} {dataInit : Dict String Int} (hq : l.getQubits [] = .ok qs)
    (hk : ∀ q v, (q, v) ∈ dataInit → v ≠ 0 → q ∈ qs) (o : SetOrder) (rounds : Int) (rot reset gauge : Bool)
    (sel : Option (List String)) (s : Sim cfg) (c : Circuit) (s' : Sim cfg)
    (hc : memory (unrotCss cfg o nm) o nm l rounds dataInit rot reset sel gauge s = (.ok c, s')) :
    Timeline p ex (qs.map (ind nm.inds)) (cycle (if rot then 3 else 2) ++
      (List.replicate rounds.toNat (cycle (if reset then 10 else 9))).flatten ++ cycle (if rot then 2 else 1)) c :=
  time_memory (unrot_family hq hk hu o reset h hw) hc

/-- **C28** Same for the experiments with repeated S gates: after the first round, each gate takes two steps and is followed by
its rounds. -/
theorem C28_repeated_s (hu : Uses p ex nm) {qs : List String} {dataInit : Dict String Int} (hq : l''.getQubits [] = .ok qs)
    (hk : ∀ q v, (q, v) ∈ dataInit → v ≠ 0 → q ∈ qs) {q : String} (hw : WithParams l0 l)
    (hk' : KeptGate ("trans-s_" ++ a.label) l' l'') (hw' : WithParams l0 l'') (o : SetOrder) (gates rounds : Int)
    (rot reset gauge : Bool) (sel : Option (List String)) (s : Sim cfg) (c : Circuit) (s' : Sim cfg) :
    (unrotSurfaceCodeRectangle dx dz a = .ok l0 → unrotSetTransS q l = (.ok (), l') →
      repeatedS (unrotCss cfg o nm) o nm l'' gates rounds dataInit rot reset sel gauge s = (.ok c, s') →
      Timeline p ex (qs.map (ind nm.inds)) (cycle (if rot then 3 else 2) ++ cycle (if reset then 10 else 9) ++
        (List.replicate gates.toNat (cycle 2 ++ (List.replicate rounds.toNat (cycle (if reset then 10 else 9))).flatten)).flatten ++
        cycle (if rot then 2 else 1)) c) ∧
    (rotSurfaceCodeRectangle dx dz a = .ok l0 → rotSetTransS q l = (.ok (), l') →
      (repeatedS (rotCss cfg o nm) o nm l'' gates rounds dataInit rot reset sel gauge s = (.ok c, s') →
        Timeline p ex (qs.map (ind nm.inds)) (cycle (if rot then 3 else 2) ++ cycle (if reset then 10 else 9) ++
          (List.replicate gates.toNat (cycle 2 ++ (List.replicate rounds.toNat (cycle (if reset then 10 else 9))).flatten)).flatten ++
          cycle (if rot then 2 else 1)) c) ∧
      (repeatedS (rotCssPipelined cfg o nm) o nm l'' gates rounds dataInit rot reset sel gauge s = (.ok c, s') →
        Timeline p ex (qs.map (ind nm.inds)) (cycle (if rot then 3 else 2) ++ cycle (if reset then 13 else 12) ++
          (List.replicate gates.toNat (cycle 2 ++ (List.replicate rounds.toNat (cycle (if reset then 13 else 12))).flatten)).flatten ++
          cycle (if rot then 2 else 1)) c)) :=
  ⟨fun h e hc => time_repeatedS (unrot_family hq hk hu o reset h hw')
      (fun _ _ _ hc => (C28_unrot_trans_s h hw e hk' hu o).of hq hc) hc,
    fun h e => ⟨fun hc => time_repeatedS (rot_family hq hk hu o reset h hw')
        (fun _ _ _ hc => (C28_rot_trans_s h hw e hk' hu o).of hq hc) hc,
      fun hc => time_repeatedS (pipe_family hq hk hu o reset h hw')
        (fun _ _ _ hc => (C28_rot_trans_s h hw e hk' hu o).of hq hc) hc⟩⟩

/-- **C28** Same for the experiment with repeated H gates on unrotated codes. -/
theorem C28_repeated_h (hu : Uses p ex nm) {qs : List String} {dataInit : Dict String Int} (hq : l''.getQubits [] = .ok qs)
    (hk : ∀ q v, (q, v) ∈ dataInit → v ≠ 0 → q ∈ qs) {q : String} (h : unrotSurfaceCodeRectangle dx dz a = .ok l0)
    (hw : WithParams l0 l) (e : unrotSetTransH q l = (.ok (), l')) (hk' : KeptGate ("trans-h_" ++ a.label) l' l'')
    (hw' : WithParams l0 l'') (o : SetOrder) (gates rounds : Int)
    (rot reset gauge : Bool) (sel : Option (List String)) (s : Sim cfg) (c : Circuit) (s' : Sim cfg)
    (hc : repeatedH (unrotCss cfg o nm) o nm l'' gates rounds dataInit rot reset sel gauge s = (.ok c, s')) :
    Timeline p ex (qs.map (ind nm.inds)) (cycle (if rot then 3 else 2) ++ cycle (if reset then 10 else 9) ++
      (List.replicate gates.toNat (cycle 2 ++ (List.replicate rounds.toNat (cycle (if reset then 10 else 9))).flatten)).flatten ++
      cycle (if (if gates % 2 = 0 then rot else !rot) then 2 else 1)) c :=
  time_repeatedH (unrot_family hq hk hu o reset h hw') (fun _ _ _ hc => (C28_unrot_trans_h h hw e hk' hu o).of hq hc) hc

theorem _root_.SurfaceSim.Spec.OncePerTickAll.of {σ : Type} {inds : Dict String Nat} {pre post : Bool} {n : Nat} {b : PyM σ Circuit}
    {lc lt : Layout} {qc qt : List String} (h : OncePerTickAll p ex inds [lc, lt] pre n post b) (hqc : lc.getQubits [] = .ok qc)
    (hqt : lt.getQubits [] = .ok qt) {s s' : σ} {c : Circuit} (hc : b s = (.ok c, s')) :
    EachOnce p ex (qc.map (ind inds) ++ qt.map (ind inds)) pre n post c := by
  obtain ⟨Qs, h1, -, h3⟩ := h
  cases h1 with
  | cons e1 h1 => cases h1 with
    | cons e2 h1 => cases h1 with
      | nil =>
        rw [hqc, Except.ok.injEq] at e1
        rw [hqt, Except.ok.injEq] at e2
        subst e1 e2
        have := h3 _ _ _ hc
        rwa [List.flatten_cons, List.flatten_cons, List.flatten_nil, List.append_nil, List.map_append] at this

/-- The steps of experiments with repeated CNOT gates, from the ones of the gates. -/
theorem time_cnots {code : String} {ac a_t : Args} {lc0 lt0 lc lt : Layout}
    (hc : MadeBy code dx dz ac lc0) (ht : MadeBy code dx' dz' a_t lt0) (hwc : WithParams lc0 lc)
    (hwt : WithParams lt0 lt) (hu : Uses p ex nm) (o₁ o₂ : SetOrder) {qc qt : List String} (hqc : lc.getQubits [] = .ok qc)
    (hqt : lt.getQubits [] = .ok qt) (hnd : (qc ++ qt).Nodup) {C : Layout × Layout → Prop} {orient : String} (hC : C (lc, lt))
    (hs : orient = "alternating" → ∀ ct, C ct → C (ct.2, ct.1)) (hCe : ∀ ct, C ct → ct = (lc, lt) ∨ ct = (lt, lc))
    (hg : ∀ ct, C ct → Adds (cfg := cfg) p ex (qc.map (ind nm.inds) ++ qt.map (ind nm.inds)) 1 (transCnot o₂ nm ct.1 ct.2))
    {dataInit : Dict String Int} (gates rounds : Int) (rot reset gauge : Bool) (sel : Option (List String)) (s : Sim cfg) (c : Circuit)
    (s' : Sim cfg)
    (hr : repeatedCnot (cssIter code o₁ nm) o₂ nm lc lt gates rounds dataInit orient rot reset sel gauge s = (.ok c, s')) :
    Timeline p ex ((qc ++ qt).map (ind nm.inds)) (cycle (if rot then 3 else 2) ++ cycle (if reset then 10 else 9) ++
      (List.replicate gates.toNat (cycle 1 ++ (List.replicate rounds.toNat (cycle (if reset then 10 else 9))).flatten)).flatten ++
      cycle (if rot then 2 else 1)) c := by
  have hd : NoCommonQubit [lc, lt] := by
    refine List.pairwise_pair.2 fun qs qs' h1 h2 => ?_
    rw [hqc, Except.ok.injEq] at h1
    rw [hqt, Except.ok.injEq] at h2
    subst h1 h2
    exact fun q h1 h2 => (List.nodup_append.1 hnd).2.2 q h1 q h2 rfl
  have hd' : NoCommonQubit [lt, lc] := by
    refine List.pairwise_pair.2 fun qs qs' h1 h2 => ?_
    rw [hqt, Except.ok.injEq] at h1
    rw [hqc, Except.ok.injEq] at h2
    subst h1 h2
    exact fun q h1 h2 => (List.nodup_append.1 hnd).2.2 q h2 q h1 rfl
  rw [List.map_append]
  have hfil : ∀ (qs : List String) q v, (q, v) ∈ (dataInit.filter fun kv => kv.1 ∈ qs) → v ≠ 0 → q ∈ qs := by
    intro qs q v h _
    simpa using (List.mem_filter.1 h).2
  have both : ∀ {n : Nat} {b : List Layout → PyM (Sim cfg) Circuit},
      OncePerTickAll p ex nm.inds [lc, lt] true n true (b [lc, lt]) → OncePerTickAll p ex nm.inds [lt, lc] true n true (b [lt, lc]) →
      ∀ ct, C ct → Adds p ex (qc.map (ind nm.inds) ++ qt.map (ind nm.inds)) n (b [ct.1, ct.2]) := by
    intro n b h1 h2 ct hct s c s' h
    rcases hCe ct hct with rfl | rfl
    · exact h1.of hqc hqt h
    · exact (h2.of hqt hqc h).perm List.perm_append_comm
  rcases hc with ⟨rfl, hc⟩ | ⟨rfl, hc⟩
  · have ht : rotSurfaceCodeRectangle dx' dz' a_t = .ok lt0 := by
      rcases ht with ⟨-, ht⟩ | ⟨h1, -⟩
      · exact ht
      · exact absurd h1 (by decide)
    have hl : ∀ l, l = lc ∨ l = lt → ∃ a dx dz l0, rotSurfaceCodeRectangle dx dz a = .ok l0 ∧ WithParams l0 l := by
      rintro l (rfl | rfl)
      · exact ⟨_, _, _, _, hc, hwc⟩
      · exact ⟨_, _, _, _, ht, hwt⟩
    have hl' : ∀ l, l = lc ∨ l = lt → ∃ a dx dz l0,
        (rotSurfaceCodeRectangle dx dz a = .ok l0 ∨ unrotSurfaceCodeRectangle dx dz a = .ok l0) ∧ WithParams l0 l := fun l h => by
      obtain ⟨a, dx, dz, l0, h1, h2⟩ := hl l h
      exact ⟨a, dx, dz, l0, .inl h1, h2⟩
    exact time_repeatedCnot hu.marks hqc hqt
      (fun _ _ _ h => (C28_rot_init hc hwc hu o₂ _ hqc (hfil qc) rot).1.of hqc h)
      (fun _ _ _ h => (C28_rot_init ht hwt hu o₂ _ hqt (hfil qt) rot).1.of hqt h) hC hs
      (fun ct hct sel => both (b := fun ls => mergeQecRounds (cssIter "rotated_surface_code" o₁ nm) ls reset sel)
        ((C28_merged_rounds hu _ (by simp) hd o₁ reset sel).1 fun l h => hl l (by simpa using h)).1
        ((C28_merged_rounds hu _ (by simp) hd' o₁ reset sel).1 fun l h => hl l (Or.symm (by simpa using h))).1 ct hct) hg
      (fun ct hct sel => both (b := fun ls => mergeLogMeas (logMeasIter nm) ls [rot, rot] reset sel)
        (C28_merged_meas hu _ (by simp) hd (fun l h => hl' l (by simpa using h)) rot _ (by simp) reset sel)
        (C28_merged_meas hu _ (by simp) hd' (fun l h => hl' l (Or.symm (by simpa using h))) rot _ (by simp) reset sel) ct hct) hr
  · have ht : unrotSurfaceCodeRectangle dx' dz' a_t = .ok lt0 := by
      rcases ht with ⟨h1, -⟩ | ⟨-, ht⟩
      · exact absurd h1 (by decide)
      · exact ht
    have hl : ∀ l, l = lc ∨ l = lt → ∃ a dx dz l0, unrotSurfaceCodeRectangle dx dz a = .ok l0 ∧ WithParams l0 l := by
      rintro l (rfl | rfl)
      · exact ⟨_, _, _, _, hc, hwc⟩
      · exact ⟨_, _, _, _, ht, hwt⟩
    have hl' : ∀ l, l = lc ∨ l = lt → ∃ a dx dz l0,
        (rotSurfaceCodeRectangle dx dz a = .ok l0 ∨ unrotSurfaceCodeRectangle dx dz a = .ok l0) ∧ WithParams l0 l := fun l h => by
      obtain ⟨a, dx, dz, l0, h1, h2⟩ := hl l h
      exact ⟨a, dx, dz, l0, .inr h1, h2⟩
    exact time_repeatedCnot hu.marks hqc hqt
      (fun _ _ _ h => (C28_unrot_init hc hwc hu o₂ _ hqc (hfil qc) rot).of hqc h)
      (fun _ _ _ h => (C28_unrot_init ht hwt hu o₂ _ hqt (hfil qt) rot).of hqt h) hC hs
      (fun ct hct sel => both (b := fun ls => mergeQecRounds (cssIter "unrotated_surface_code" o₁ nm) ls reset sel)
        ((C28_merged_rounds hu _ (by simp) hd o₁ reset sel).2 fun l h => hl l (by simpa using h))
        ((C28_merged_rounds hu _ (by simp) hd' o₁ reset sel).2 fun l h => hl l (Or.symm (by simpa using h))) ct hct) hg
      (fun ct hct sel => both (b := fun ls => mergeLogMeas (logMeasIter nm) ls [rot, rot] reset sel)
        (C28_merged_meas hu _ (by simp) hd (fun l h => hl' l (by simpa using h)) rot _ (by simp) reset sel)
        (C28_merged_meas hu _ (by simp) hd' (fun l h => hl' l (Or.symm (by simpa using h))) rot _ (by simp) reset sel) ct hct) hr

/-- **C28** Same for the experiment with repeated CNOT gates, all from the first to the second layout. -/
theorem C28_repeated_cnot {code : String} {ac a_t : Args} {lc0 lt0 lc lt lc' lt' lc'' lt'' : Layout} {mt : Matcher} {o : SetOrder}
    (hc : MadeBy code dx dz ac lc0) (ht : MadeBy code dx' dz' a_t lt0) (hwc : WithParams lc0 lc)
    (hwt : WithParams lt0 lt) (hn : CoordsNear lc lt) (e : setTransCnot code mt o (lc, lt) = (.ok (), (lc', lt')))
    (hkc : KeptGate ("trans-cnot_" ++ ac.label ++ "_" ++ a_t.label) lc' lc'')
    (hkt : KeptGate ("trans-cnot_" ++ ac.label ++ "_" ++ a_t.label) lt' lt'') (hu : Uses p ex nm) (o₁ o₂ : SetOrder)
    {dataInit : Dict String Int} (gates rounds : Int) (rot reset gauge : Bool) (sel : Option (List String)) (s : Sim cfg) (c : Circuit)
    (s' : Sim cfg)
    (hr : repeatedCnot (cssIter code o₁ nm) o₂ nm lc'' lt'' gates rounds dataInit "constant" rot reset sel gauge s = (.ok c, s')) :
    ∃ qc qt, lc''.getQubits [] = .ok qc ∧ lt''.getQubits [] = .ok qt ∧ (qc ++ qt).Nodup ∧
      Timeline p ex ((qc ++ qt).map (ind nm.inds)) (cycle (if rot then 3 else 2) ++ cycle (if reset then 10 else 9) ++
        (List.replicate gates.toNat (cycle 1 ++ (List.replicate rounds.toNat (cycle (if reset then 10 else 9))).flatten)).flatten ++
        cycle (if rot then 2 else 1)) c := by
  obtain ⟨_, _, _, _, _, -, -, -, k1, k2, -⟩ := cnot_done hc ht hwc hwt hn e hkc hkt
  obtain ⟨qc, qt, hqc, hqt, hnd, hg⟩ := C28_trans_cnot (cfg := cfg) hc ht hwc hwt hn e hkc hkt hu o₂
  have hwc' := WithParams.trans hwc (WithParams.trans k1 hkc.1)
  have hwt' := WithParams.trans hwt (WithParams.trans k2 hkt.1)
  refine ⟨qc, qt, hqc, hqt, hnd, ?_⟩
  rw [List.map_append] at hg
  exact time_cnots hc ht hwc' hwt' hu o₁ o₂ hqc hqt hnd (C := (· = (lc'', lt''))) rfl (fun h => absurd h (by decide))
    (fun _ h => .inl h) (fun ct hct => by rw [hct]; exact hg) gates rounds rot reset gauge sel s c s' hr

/-! ### noise channels -/

section
variable {st : Setup} {inds : Dict String Nat}

/-- **C56** In merged rounds and in merged measurements in the same basis every qubit of every layout has exactly one noise channel
between TICKs. -/
theorem C56_merged (hn : nm = circuitNoise st inds ∨ nm = biasedNoise st inds) (ls : List Layout) (hne : ls ≠ [])
    (hd : NoCommonQubit ls) (o : SetOrder) (rot reset : Bool) (rots : List Bool) (hr : ∀ b ∈ rots, b = rot)
    (sel : Option (List String)) :
    ((∀ l ∈ ls, ∃ a dx dz l0, rotSurfaceCodeRectangle dx dz a = .ok l0 ∧ WithParams l0 l) →
      OncePerTickAll Gate.isNoise true nm.inds ls true (if reset then 10 else 9) true
        (mergeQecRounds (cfg := cfg) (cssIter "rotated_surface_code" o nm) ls reset sel) ∧
      OncePerTickAll Gate.isNoise true nm.inds ls true (if reset then 13 else 12) true
        (mergeQecRounds (cfg := cfg) (cssPipeIter o nm) ls reset sel) ∧
      OncePerTickAll Gate.isNoise true nm.inds ls true (if reset then 13 else 12) true
        (mergeQecRounds (cfg := cfg) (xzzxPipeIter o nm) ls reset sel) ∧
      OncePerTickAll Gate.isNoise true nm.inds ls true (if rot then 2 else 1) true
        (mergeLogMeas (cfg := cfg) (logMeasIter nm) ls rots reset sel)) ∧
    ((∀ l ∈ ls, ∃ a dx dz l0, unrotSurfaceCodeRectangle dx dz a = .ok l0 ∧ WithParams l0 l) →
      OncePerTickAll Gate.isNoise true nm.inds ls true (if reset then 10 else 9) true
        (mergeQecRounds (cfg := cfg) (cssIter "unrotated_surface_code" o nm) ls reset sel) ∧
      OncePerTickAll Gate.isNoise true nm.inds ls true (if rot then 2 else 1) true
        (mergeLogMeas (cfg := cfg) (logMeasIter nm) ls rots reset sel)) := by
  have hu := noise_of hn
  refine ⟨fun hl => ?_, fun hl => ?_⟩
  · obtain ⟨h1, h2, h3⟩ := (C28_merged_rounds (cfg := cfg) hu ls hne hd o reset sel).1 hl
    exact ⟨h1, h2, h3, C28_merged_meas hu ls hne hd
      (fun l h => by obtain ⟨a, dx, dz, l0, h1, h2⟩ := hl l h; exact ⟨a, dx, dz, l0, .inl h1, h2⟩) rot rots hr reset sel⟩
  · exact ⟨(C28_merged_rounds hu ls hne hd o reset sel).2 hl, C28_merged_meas hu ls hne hd
      (fun l h => by obtain ⟨a, dx, dz, l0, h1, h2⟩ := hl l h; exact ⟨a, dx, dz, l0, .inr h1, h2⟩) rot rots hr reset sel⟩

/-- **C56** In the memory experiments on rotated codes every qubit has exactly one noise channel in every time step of a block,
and there is none between blocks. -/
theorem C56_rot_memory (h : rotSurfaceCodeRectangle dx dz a = .ok l0) (hw : WithParams l0 l)
    (hn : nm = circuitNoise st inds ∨ nm = biasedNoise st inds)
    {qs : List String} {dataInit : Dict String Int} (hq : l.getQubits [] = .ok qs)
    (hk : ∀ q v, (q, v) ∈ dataInit → v ≠ 0 → q ∈ qs) (o : SetOrder) (rounds : Int) (rot reset gauge : Bool)
    (sel : Option (List String)) (s : Sim cfg) (c : Circuit) (s' : Sim cfg) :
    (memory (rotCss cfg o nm) o nm l rounds dataInit rot reset sel gauge s = (.ok c, s') →
      Timeline Gate.isNoise true (qs.map (ind nm.inds)) (cycle (if rot then 3 else 2) ++
        (List.replicate rounds.toNat (cycle (if reset then 10 else 9))).flatten ++ cycle (if rot then 2 else 1)) c) ∧
    (memory (rotCssPipelined cfg o nm) o nm l rounds dataInit rot reset sel gauge s = (.ok c, s') →
      Timeline Gate.isNoise true (qs.map (ind nm.inds)) (cycle (if rot then 3 else 2) ++
        (List.replicate rounds.toNat (cycle (if reset then 13 else 12))).flatten ++ cycle (if rot then 2 else 1)) c) ∧
    (memory (xzzxPipelined cfg o nm) o nm l rounds dataInit rot reset sel gauge s = (.ok c, s') →
      Timeline Gate.isNoise true (qs.map (ind nm.inds)) (cycle 3 ++
        (List.replicate rounds.toNat (cycle (if reset then 13 else 12))).flatten ++ cycle 2) c) ∧
    (googleMemory o nm l rounds dataInit rot sel gauge s = (.ok c, s') →
      Timeline Gate.isNoise true (qs.map (ind nm.inds)) (cycle 3 ++ (List.replicate (rounds.toNat - 1) (cycle 11)).flatten ++
        List.replicate 10 true) c) :=
  C28_rot_memory h hw (noise_of hn) hq hk o rounds rot reset gauge sel s c s'

/-- **C56** Same for unrotated codes. -/
theorem C56_unrot_memory (h : unrotSurfaceCodeRectangle dx dz a = .ok l0) (hw : WithParams l0 l)
    (hn : nm = circuitNoise st inds ∨ nm = biasedNoise st inds)
    {qs : List String} {dataInit : Dict String Int} (hq : l.getQubits [] = .ok qs)
    (hk : ∀ q v, (q, v) ∈ dataInit → v ≠ 0 → q ∈ qs) (o : SetOrder) (rounds : Int) (rot reset gauge : Bool)
    (sel : Option (List String)) (s : Sim cfg) (c : Circuit) (s' : Sim cfg)
    (hc : memory (unrotCss cfg o nm) o nm l rounds dataInit rot reset sel gauge s = (.ok c, s')) :
    Timeline Gate.isNoise true (qs.map (ind nm.inds)) (cycle (if rot then 3 else 2) ++
      (List.replicate rounds.toNat (cycle (if reset then 10 else 9))).flatten ++ cycle (if rot then 2 else 1)) c :=
  C28_unrot_memory h hw (noise_of hn) hq hk o rounds rot reset gauge sel s c s' hc

/-- **C56** Same for the experiment with repeated CNOT gates. -/
theorem C56_repeated_cnot {code : String} {ac a_t : Args} {lc0 lt0 lc lt lc' lt' lc'' lt'' : Layout} {mt : Matcher} {o : SetOrder}
    (hc : MadeBy code dx dz ac lc0) (ht : MadeBy code dx' dz' a_t lt0) (hwc : WithParams lc0 lc)
    (hwt : WithParams lt0 lt) (hn : CoordsNear lc lt) (e : setTransCnot code mt o (lc, lt) = (.ok (), (lc', lt')))
    (hkc : KeptGate ("trans-cnot_" ++ ac.label ++ "_" ++ a_t.label) lc' lc'')
    (hkt : KeptGate ("trans-cnot_" ++ ac.label ++ "_" ++ a_t.label) lt' lt'')
    (hm : nm = circuitNoise st inds ∨ nm = biasedNoise st inds) (o₁ o₂ : SetOrder)
    {dataInit : Dict String Int} (gates rounds : Int) (rot reset gauge : Bool) (sel : Option (List String)) (s : Sim cfg) (c : Circuit)
    (s' : Sim cfg)
    (hr : repeatedCnot (cssIter code o₁ nm) o₂ nm lc'' lt'' gates rounds dataInit "constant" rot reset sel gauge s = (.ok c, s')) :
    ∃ qc qt, lc''.getQubits [] = .ok qc ∧ lt''.getQubits [] = .ok qt ∧ (qc ++ qt).Nodup ∧
      Timeline Gate.isNoise true ((qc ++ qt).map (ind nm.inds)) (cycle (if rot then 3 else 2) ++ cycle (if reset then 10 else 9) ++
        (List.replicate gates.toNat (cycle 1 ++ (List.replicate rounds.toNat (cycle (if reset then 10 else 9))).flatten)).flatten ++
        cycle (if rot then 2 else 1)) c :=
  C28_repeated_cnot hc ht hwc hwt hn e hkc hkt (noise_of hm) o₁ o₂ gates rounds rot reset gauge sel s c s' hr

end

/-! ### examples -/

/-- C28, C56: one round between initialization and measurement on a rotated code of distance 2 with circuit-level noise: all seven
qubits are used, and have a noise channel, in each of the 2 + 9 + 1 steps. -/
example : ∃ l c s', rotSurfaceCode 2 rotDefault = .ok l ∧
    memory (rotCss (configFor l .postGate) .insertion (noisyFor l)) .insertion (noisyFor l) l 1 [("D1", 1)] false false none false
      (.fresh (noisyFor l).inds, Detectors.State.fresh _) = (.ok c, s') ∧
    (tickBlocks c).map (fun b => (used Gate.isNoise b).length) =
      [7, 7, 0, 7, 7, 7, 7, 7, 7, 7, 7, 7, 0, 7, 0] :=
  ⟨_, _, _, ok_layoutOf (by decide +kernel), eq_circuitOf (by decide +kernel), by decide +kernel⟩

/-- C28: the hypotheses of `C28_merged_rounds` hold for two rotated codes. -/
example (o : SetOrder) (reset : Bool) :
    OncePerTickAll acts true (noiseless pairInds).inds [pairA, pairB] true (if reset then 10 else 9) true
      (mergeQecRounds (cfg := cfg) (cssIter "rotated_surface_code" o (noiseless pairInds)) [pairA, pairB] reset none) :=
  ((C28_merged_rounds (uses_noiseless _) _ (by simp) pair_apart o reset none).1 fun l h => by
    obtain ⟨a, dx, dz, l0, h1, h2, -⟩ := pair_code l h
    exact ⟨a, dx, dz, l0, h1, h2⟩).1

end SurfaceSim.Props
