/-
Between TICKs the blocks use every qubit of their layout once (C28).
-/
import Verif.Lemmas.UsageRounds
import Verif.Lemmas.CommuteGrid
import Verif.Lemmas.Witness

namespace SurfaceSim.Props
open Spec NoiseModel Blocks LayoutLib

variable {l l0 : Layout} {a : Args} {dx dz : Int} {nm : NoiseModel} {p : Gate → Bool} {ex : Bool} {cfg : Detectors.Config}

/-- **C28** With the noise models that emit a gate for idling, the gates of every call are the given qubits. -/
theorem C28_explicit_models (st : Setup) (inds : Dict String Nat) :
    Uses acts true (noiseless inds) ∧ Uses acts true (incoming st inds) ∧ Uses acts true (phenomenological st inds) :=
  ⟨uses_noiseless inds, uses_incoming st inds, uses_phenomenological st inds⟩

/-- **C28** The circuit-level noise models emit only noise for idling. -/
theorem C28_circuit_models (st : Setup) (inds : Dict String Nat) :
    Uses acts false (circuitNoise st inds) ∧ Uses acts false (biasedNoise st inds) :=
  ⟨uses_circuitNoise st inds, uses_biasedNoise st inds⟩

theorem alt_rot_css (h : rotSurfaceCodeRectangle dx dz a = .ok l0) (hw : WithParams l0 l) (hu : Uses p ex nm) (o : SetOrder)
    (reset : Bool) :
    AltOf p ex nm.inds l (if reset then 10 else 9) (cssIter "rotated_surface_code" o nm l reset) := by
  have hi := isRot_of_params h hw
  have := alt_css hu hi.grid o hi.order (ξ0 := (1, 1)) (ξ1 := (1, -1)) (ξ2 := (-1, 1)) (ξ3 := (-1, -1))
    (ζ0 := (1, 1)) (ζ1 := (-1, 1)) (ζ2 := (1, -1)) (ζ3 := (-1, -1)) (by decide) (by decide)
    (fun x s z s' hx hz => by
      have gx := rotEntry hx
      have gz := rotEntry hz
      obtain ⟨r, c⟩ := s
      obtain ⟨r', c'⟩ := s'
      simp [RotSite] at gx gz ⊢
      omega) reset
  rw [hi.code] at this
  cases reset <;> exact this

theorem alt_unrot_css (h : unrotSurfaceCodeRectangle dx dz a = .ok l0) (hw : WithParams l0 l) (hu : Uses p ex nm) (o : SetOrder)
    (reset : Bool) :
    AltOf p ex nm.inds l (if reset then 10 else 9) (cssIter "unrotated_surface_code" o nm l reset) := by
  have hi := isUnrot_of_params h hw
  have := alt_css hu hi.grid o hi.order (ξ0 := (0, 1)) (ξ1 := (-1, 0)) (ξ2 := (1, 0)) (ξ3 := (0, -1))
    (ζ0 := (0, 1)) (ζ1 := (1, 0)) (ζ2 := (-1, 0)) (ζ3 := (0, -1)) (by decide) (by decide)
    (fun x s z s' hx hz => by
      have gx := unrotEntry hx
      have gz := unrotEntry hz
      obtain ⟨r, c⟩ := s
      obtain ⟨r', c'⟩ := s'
      simp [UnrotSite] at gx gz ⊢
      omega) reset
  rw [hi.code] at this
  cases reset <;> exact this

theorem alt_pipelined (h : rotSurfaceCodeRectangle dx dz a = .ok l0) (hw : WithParams l0 l) (hu : Uses p ex nm) (o : SetOrder)
    (reset : Bool) :
    AltOf p ex nm.inds l (if reset then 13 else 12) (cssPipeIter o nm l reset) ∧
    AltOf p ex nm.inds l (if reset then 13 else 12) (xzzxPipeIter o nm l reset) := by
  have hi := isRot_of_params h hw
  have hg := hi.grid
  have key := fun rotOf n1 n2 h1 h2 => alt_pipe hu hg o hi.code hi.order
    (ξ0 := (1, 1)) (ξ1 := (1, -1)) (ξ2 := (-1, 1)) (ξ3 := (-1, -1))
    (ζ0 := (1, 1)) (ζ1 := (-1, 1)) (ζ2 := (1, -1)) (ζ3 := (-1, -1)) (by decide) (by decide) reset rotOf n1 n2 h1 h2
  constructor
  · have := key cssPipeRot
      (by unfold cssPipeRot; rw [if_pos rfl]; exact union_nodup _ (setOf_nodup _))
      (by unfold cssPipeRot; rw [if_neg (by decide)]; exact setOf_nodup _)
      (by
        unfold cssPipeRot
        rw [if_pos rfl]
        intro q hq
        rcases mem_union.1 hq with hq | hq
        · exact (at_x hg).sub q (mem_setOf.1 hq)
        · exact (at_data hg).sub q hq)
      (by
        unfold cssPipeRot
        rw [if_neg (by decide)]
        intro q hq
        exact (at_z hg).sub q (mem_setOf.1 hq))
    cases reset <;> exact this
  · have := key (xzzxPipeRot l) (union_nodup _ (setOf_nodup _)) (union_nodup _ (setOf_nodup _))
      (by
        intro q hq
        rcases mem_union.1 hq with hq | hq
        · exact (at_x hg).sub q (mem_setOf.1 hq)
        · exact diagonal_known hg hq)
      (by
        intro q hq
        rcases mem_union.1 hq with hq | hq
        · exact (at_z hg).sub q (mem_setOf.1 hq)
        · exact diagonal_known hg hq)
    cases reset <;> exact this

/-- **C28** In a `qec_round` of rot_surface_code_css.py every qubit of the layout is used once between TICKs. -/
theorem C28_rot_css (h : rotSurfaceCodeRectangle dx dz a = .ok l0) (hw : WithParams l0 l) (hu : Uses p ex nm) (o : SetOrder)
    (reset : Bool) (sel : Option (List String)) :
    OncePerTick p ex nm.inds l true (if reset then 10 else 9) true
      (qecRound (cfg := cfg) (cssIter "rotated_surface_code" o nm l reset) l reset sel) := by
  exact once_qecRound hu.marks (alt_rot_css h hw hu o reset).once reset sel

/-- **C28** Same on unrotated surface codes. -/
theorem C28_unrot_css (h : unrotSurfaceCodeRectangle dx dz a = .ok l0) (hw : WithParams l0 l) (hu : Uses p ex nm)
    (o : SetOrder) (reset : Bool) (sel : Option (List String)) :
    OncePerTick p ex nm.inds l true (if reset then 10 else 9) true
      (qecRound (cfg := cfg) (cssIter "unrotated_surface_code" o nm l reset) l reset sel) := by
  exact once_qecRound hu.marks (alt_unrot_css h hw hu o reset).once reset sel

/-- **C28** Same for the pipelined rounds. -/
theorem C28_pipelined (h : rotSurfaceCodeRectangle dx dz a = .ok l0) (hw : WithParams l0 l) (hu : Uses p ex nm)
    (o : SetOrder) (reset : Bool) (sel : Option (List String)) :
    OncePerTick p ex nm.inds l true (if reset then 13 else 12) true
      (qecRound (cfg := cfg) (cssPipeIter o nm l reset) l reset sel) ∧
    OncePerTick p ex nm.inds l true (if reset then 13 else 12) true
      (qecRound (cfg := cfg) (xzzxPipeIter o nm l reset) l reset sel) := by
  exact ⟨once_qecRound hu.marks (alt_pipelined h hw hu o reset).1.once reset sel,
    once_qecRound hu.marks (alt_pipelined h hw hu o reset).2.once reset sel⟩

/-- **C28** Same for the rounds of rot_surface_code_xzzx_google.py, the last of which also measures the data qubits. -/
theorem C28_google (h : rotSurfaceCodeRectangle dx dz a = .ok l0) (hw : WithParams l0 l) (hu : Uses p ex nm)
    (o : SetOrder) (sel : Option (List String)) (rot : Bool) :
    OncePerTick p ex nm.inds l true 11 true (googleRound (cfg := cfg) o nm l sel) ∧
    OncePerTick p ex nm.inds l true 10 false (googleFinal (cfg := cfg) o nm l sel rot) := by
  have hi := isRot_of_params h hw
  have hc : ∀ x s z s', (x, s, Kind.x) ∈ rotEntries a dx dz → (z, s', Kind.z) ∈ rotEntries a dx dz →
      s + ((1, -1) : Site) ≠ s' + ((-1, 1) : Site) ∧ s + ((-1, 1) : Site) ≠ s' + ((1, -1) : Site) := by
    intro x s z s' hx hz
    have gx := rotEntry hx
    have gz := rotEntry hz
    obtain ⟨r, c⟩ := s
    obtain ⟨r', c'⟩ := s'
    simp [RotSite] at gx gz ⊢
    omega
  exact ⟨once_googleRound hu.marks (once_google hu hi.grid o (σ0 := (1, 1)) (σ3 := (-1, -1)) (by decide) (by decide) (by decide)
    (by decide) hc), once_googleFinalBlock hu.marks (once_googleFinal hu hi.grid o (σ0 := (1, 1)) (σ3 := (-1, -1)) (by decide)
      (by decide) (by decide) (by decide) hc rot)⟩

/-- **C28** Same for the initialization of rotated surface codes, also in the XZZX version.  The qubits that are
initialized in one must belong to the layout. -/
theorem C28_rot_init (h : rotSurfaceCodeRectangle dx dz a = .ok l0) (hw : WithParams l0 l) (hu : Uses p ex nm)
    (o : SetOrder) (dataInit : Dict String Int) {qs : List String} (hq : l.getQubits [] = .ok qs)
    (hk : ∀ q v, (q, v) ∈ dataInit → v ≠ 0 → q ∈ qs) (rot : Bool) :
    OncePerTick p ex nm.inds l false (if rot then 3 else 2) true (initQubits (cfg := cfg) o nm l dataInit rot) ∧
    OncePerTick p ex nm.inds l false 3 true (initQubitsXzzx (cfg := cfg) o nm l dataInit rot) := by
  have hi := isRot_of_params h hw
  have e := hi.grid.getQubits_all
  rw [hq, Except.ok.injEq] at e
  have hk' : ∀ q v, (q, v) ∈ dataInit → v ≠ 0 → ∃ s k, (q, s, k) ∈ rotEntries a dx dz := by
    intro q v h hv
    have := hk q v h hv
    rw [e] at this
    exact mem_labels.1 this
  exact ⟨once_activate (once_init hu hi.grid o hk' rot), once_activate (once_initXzzx hu hi.grid o hi.code hk' rot)⟩

/-- **C28** Same on unrotated surface codes. -/
theorem C28_unrot_init (h : unrotSurfaceCodeRectangle dx dz a = .ok l0) (hw : WithParams l0 l) (hu : Uses p ex nm)
    (o : SetOrder) (dataInit : Dict String Int) {qs : List String} (hq : l.getQubits [] = .ok qs)
    (hk : ∀ q v, (q, v) ∈ dataInit → v ≠ 0 → q ∈ qs) (rot : Bool) :
    OncePerTick p ex nm.inds l false (if rot then 3 else 2) true (initQubits (cfg := cfg) o nm l dataInit rot) := by
  have hi := isUnrot_of_params h hw
  have e := hi.grid.getQubits_all
  rw [hq, Except.ok.injEq] at e
  refine once_activate (once_init hu hi.grid o (fun q v h hv => ?_) rot)
  have := hk q v h hv
  rw [e] at this
  exact mem_labels.1 this

/-- **C28** Same for the logical measurement of rotated surface codes, also in the XZZX version. -/
theorem C28_rot_meas (h : rotSurfaceCodeRectangle dx dz a = .ok l0) (hw : WithParams l0 l) (hu : Uses p ex nm)
    (o : SetOrder) (rot reset : Bool) (sel : Option (List String)) :
    OncePerTick p ex nm.inds l true (if rot then 2 else 1) true (logMeas (cfg := cfg) nm l rot reset sel) ∧
    OncePerTick p ex nm.inds l true 2 true (logMeasXzzx (cfg := cfg) o nm l rot reset sel) := by
  have hg := (isRot_of_params h hw).grid
  exact ⟨once_measBlock hu.marks (alt_logMeas hu hg rot).once, once_measXzzxBlock hu.marks (alt_logMeasXzzx hu hg o rot).once⟩

/-- **C28** Same on unrotated surface codes. -/
theorem C28_unrot_meas (h : unrotSurfaceCodeRectangle dx dz a = .ok l0) (hw : WithParams l0 l) (hu : Uses p ex nm)
    (rot reset : Bool) (sel : Option (List String)) :
    OncePerTick p ex nm.inds l true (if rot then 2 else 1) true (logMeas (cfg := cfg) nm l rot reset sel) :=
  once_measBlock hu.marks (alt_logMeas hu (isUnrot_of_params h hw).grid rot).once

/-- **C28** Same for `log_x` and `log_z` on rotated surface codes. -/
theorem C28_rot_log (h : rotSurfaceCodeRectangle dx dz a = .ok l0) (hw : WithParams l0 l) (hdx : 1 ≤ dx) (hdz : 1 ≤ dz)
    (hu : Uses p ex nm) (o : SetOrder) :
    OncePerTick p ex nm.inds l true 1 true (logX o nm l) ∧ OncePerTick p ex nm.inds l true 1 true (logZ o nm l) := by
  have hi := isRot_of_params h hw
  have hc := hi.codeGrid hdx hdz
  exact ⟨once_logX hu hi.grid o (logicalSupport_of hi.log hi.logX hi.logZ true) (logXList_nodup a dx (by omega)) hc.subX,
    once_logZ hu hi.grid o (logicalSupport_of hi.log hi.logX hi.logZ false) (logZList_nodup a dz) hc.subZ⟩

/-- **C28** Same on unrotated surface codes. -/
theorem C28_unrot_log (h : unrotSurfaceCodeRectangle dx dz a = .ok l0) (hw : WithParams l0 l) (hdx : 1 ≤ dx)
    (hdz : 1 ≤ dz) (hu : Uses p ex nm) (o : SetOrder) :
    OncePerTick p ex nm.inds l true 1 true (logX o nm l) ∧ OncePerTick p ex nm.inds l true 1 true (logZ o nm l) := by
  have hi := isUnrot_of_params h hw
  have hc := hi.codeGrid hdx hdz
  exact ⟨once_logX hu hi.grid o (logicalSupport_of hi.log hi.logX hi.logZ true) (logXList_nodup a dx (by omega)) hc.subX,
    once_logZ hu hi.grid o (logicalSupport_of hi.log hi.logX hi.logZ false) (logZList_nodup a dz) hc.subZ⟩

/-- **C28** (partial) The round of rot_surface_code_xzzx.py would do the same if the variable in line 199 were spelled
like the other ones.  Missing: the round as it is, which does not (`C28_xzzx_wrong`). -/
theorem C28_xzzx_fixed_partial (h : rotSurfaceCodeRectangle dx dz a = .ok l0) (hw : WithParams l0 l) (hu : Uses p ex nm)
    (o : SetOrder) (reset : Bool) (sel : Option (List String)) :
    OncePerTick p ex nm.inds l true (if reset then 10 else 9) true
      (qecRound (cfg := cfg) (xzzxFixedIter o nm l reset) l reset sel) := by
  have hi := isRot_of_params h hw
  have hg := hi.grid
  have hc : ∀ x s z s', (x, s, Kind.x) ∈ rotEntries a dx dz → (z, s', Kind.z) ∈ rotEntries a dx dz →
      s + ((1, 1) : Site) ≠ s' + ((1, 1) : Site) ∧ s + ((1, -1) : Site) ≠ s' + ((-1, 1) : Site) ∧
      s + ((-1, 1) : Site) ≠ s' + ((1, -1) : Site) ∧ s + ((-1, -1) : Site) ≠ s' + ((-1, -1) : Site) := by
    intro x s z s' hx hz
    have gx := rotEntry hx
    have gz := rotEntry hz
    obtain ⟨r, c⟩ := s
    obtain ⟨r', c'⟩ := s'
    simp [RotSite] at gx gz ⊢
    omega
  obtain ⟨R, hR, hR'⟩ := use_czLayer hu hg o hi.order 3 (by decide)
  have := once_qecRound hu.marks (cfg := cfg) (AltOf.once (alt_xzzx hu hg o (stepG := fun qubits => czLayer o nm l qubits 3) hi.code hi.order (ξ0 := (1, 1)) (ξ1 := (1, -1)) (ξ2 := (-1, 1))
    (ζ0 := (1, 1)) (ζ1 := (-1, 1)) (ζ2 := (1, -1)) (by decide) (by decide)
    (fun x s z s' hx hz => ⟨(hc x s z s' hx hz).1, (hc x s z s' hx hz).2.1, (hc x s z s' hx hz).2.2.1⟩) reset
    hR' (once_cz hg o (ξ := (-1, -1)) (ζ := (-1, -1)) (by decide) (by decide)
      (fun x s z s' hx hz => (hc x s z s' hx hz).2.2.2) hR))) reset sel
  unfold xzzxFixedIter
  cases reset <;> exact this

/-! ### cases -/

theorem ok_result {b : PyM MeasState Circuit} {s : MeasState} (h : (match (b s).1 with | .ok _ => true | .error _ => false) = true) :
    b s = (.ok (result b s), (b s).2) := by
  unfold result
  split at h
  · next c e => rw [e]; exact Prod.ext e rfl
  · cases h

/-- A non-trivial case: the round on the code of distance 2, with qubits 0 to 3 for the data qubits.  It returns a
circuit, and the qubits used in its steps are shown. -/
example : ∃ l, rotSurfaceCode 2 rotDefault = .ok l ∧ Uses acts true (noiselessFor l) ∧
    ∃ c s', sumGen (cssIter "rotated_surface_code" .insertion (noiselessFor l) l false) (.fresh (noiselessFor l).inds) =
      (.ok c, s') ∧ (tickBlocks c).map (used acts) =
        [[], [4, 5, 6, 1, 2, 0, 3], [4, 1, 6, 3, 0, 2, 5], [0, 1, 2, 3, 4, 5, 6], [4, 0, 6, 1, 2, 3, 5],
         [5, 3, 6, 2, 0, 1, 4], [0, 1, 2, 3, 4, 5, 6], [5, 2, 6, 0, 1, 3, 4], [4, 5, 6, 1, 2, 0, 3],
         [4, 5, 6, 0, 1, 2, 3], []] :=
  ⟨_, ok_layoutOf (by decide +kernel), uses_noiseless _, _, _, ok_result (by decide +kernel), by decide +kernel⟩

/-- The hypotheses are met on the codes of distance 3, with nine and thirteen data qubits. -/
example (o : SetOrder) (reset rot : Bool) : ∃ l l' : Layout, rotSurfaceCode 3 rotDefault = .ok l ∧
    unrotSurfaceCode 3 rotDefault = .ok l' ∧
    OncePerTick acts true (noiselessFor l).inds l true (if reset then 10 else 9) true
      (qecRound (cfg := cfg) (cssIter "rotated_surface_code" o (noiselessFor l) l reset) l reset none) ∧
    OncePerTick acts true (noiselessFor l).inds l true 11 true (googleRound (cfg := cfg) o (noiselessFor l) l none) ∧
    OncePerTick acts true (noiselessFor l).inds l false (if rot then 3 else 2) true
      (initQubits (cfg := cfg) o (noiselessFor l) l [("D1", 1), ("D2", 0), ("D5", 1)] rot) ∧
    OncePerTick acts true (noiselessFor l').inds l' true (if reset then 10 else 9) true
      (qecRound (cfg := cfg) (cssIter "unrotated_surface_code" o (noiselessFor l') l' reset) l' reset none) ∧
    OncePerTick acts true (noiselessFor l').inds l' true 1 true (logX o (noiselessFor l') l') := by
  have h1 : rotSurfaceCode 3 rotDefault = .ok (layoutOf (rotSurfaceCode 3 rotDefault)) :=
    ok_layoutOf (by decide +kernel)
  have h2 : unrotSurfaceCode 3 rotDefault = .ok (layoutOf (unrotSurfaceCode 3 rotDefault)) :=
    ok_layoutOf (by decide +kernel)
  refine ⟨_, _, h1, h2, C28_rot_css h1 .refl (uses_noiseless _) o reset none,
    (C28_google h1 .refl (uses_noiseless _) o none rot).1,
    (C28_rot_init (a := rotDefault) h1 .refl (uses_noiseless _) o _
      (qs := ["D1", "D2", "D3", "D4", "D5", "D6", "D7", "D8", "D9", "X1", "X2", "X3", "X4", "Z1", "Z2", "Z3", "Z4"])
      (by decide +kernel) ?_ rot).1,
    C28_unrot_css h2 .refl (uses_noiseless _) o reset none,
    (C28_unrot_log h2 .refl (by decide) (by decide) (uses_noiseless _) o).1⟩
  intro q v h _
  simp only [List.mem_cons, Prod.mk.injEq, List.not_mem_nil, or_false] at h
  rcases h with h | h | h <;> rw [h.1] <;> decide

/-- In a circuit that uses each qubit once no step uses a qubit twice. -/
theorem eachOnce_nodup {qs : List Nat} {pre post : Bool} {n : Nat} {c : Circuit} (h : EachOnce p ex qs pre n post c)
    (hq : qs.Nodup) : ∀ u ∈ (tickBlocks c).map (used p), u.Nodup := by
  obtain ⟨bs, h1, -, h3⟩ := h
  intro u hu
  rw [h1] at hu
  simp only [List.mem_append] at hu
  rcases hu with (hu | hu) | hu
  · split at hu <;> simp_all
  · have := h3 u hu
    split at this
    · exact this.nodup_iff.2 hq
    · obtain ⟨v, h5, h6⟩ := this
      exact (h5.nodup_iff.1 (hq.sublist h6))
  · split at hu <;> simp_all

/-- **C28** The round of rot_surface_code_xzzx.py as it is uses ancilla qubits twice in step g, because it applies the
gates of step e again. -/
theorem C28_xzzx_wrong : ∃ l, rotSurfaceCode 2 rotDefault = .ok l ∧ Uses acts true (noiselessFor l) ∧
    ∀ n, ¬ OncePerTick acts true (noiselessFor l).inds l true n true
      (sumGen (xzzxIter .insertion (noiselessFor l) l false)) := by
  refine ⟨_, ok_layoutOf (by decide +kernel), uses_noiseless _, ?_⟩
  rintro n ⟨qs, h1, -, h3⟩
  have e := h3 (.fresh (noiselessFor (layoutOf (rotSurfaceCode 2 rotDefault))).inds) _ _ (ok_result (by decide +kernel))
  have hq : (layoutOf (rotSurfaceCode 2 rotDefault)).getQubits [] = .ok ["D1", "D2", "D3", "D4", "X1", "X2", "Z1"] := by
    decide +kernel
  rw [hq, Except.ok.injEq] at h1
  subst h1
  exact absurd (eachOnce_nodup e (by decide +kernel)) (by decide +kernel)

/-- **C28** `log_x_xzzx` and `log_z_xzzx` leave out data qubits: the ones outside the logical operator neither idle nor
take part in a gate. -/
theorem C28_log_xzzx_wrong : ∃ l, rotSurfaceCode 2 rotDefault = .ok l ∧ Uses acts true (noiselessFor l) ∧
    ¬ OncePerTick acts true (noiselessFor l).inds l true 1 true (logXXzzx .insertion (noiselessFor l) l) ∧
    ¬ OncePerTick acts true (noiselessFor l).inds l true 1 true (logZXzzx .insertion (noiselessFor l) l) := by
  refine ⟨_, ok_layoutOf (by decide +kernel), uses_noiseless _, ?_, ?_⟩ <;>
  · rintro ⟨qs, h1, -, h3⟩
    obtain ⟨bs, h4, h5, h6⟩ :=
      h3 (.fresh (noiselessFor (layoutOf (rotSurfaceCode 2 rotDefault))).inds) _ _ (ok_result (by decide +kernel))
    have hq : (layoutOf (rotSurfaceCode 2 rotDefault)).getQubits [] = .ok ["D1", "D2", "D3", "D4", "X1", "X2", "Z1"] := by
      decide +kernel
    rw [hq, Except.ok.injEq] at h1
    subst h1
    obtain ⟨u, rfl⟩ := List.length_eq_one_iff.1 h5
    have h7 := (h6 u (by simp)).length_eq
    have h8 := congrArg (fun bs => (bs[1]?).map List.length) h4
    simp only [if_pos, List.cons_append, List.nil_append, List.getElem?_cons_succ, List.getElem?_cons_zero, Option.map_some,
      h7] at h8
    exact absurd h8 (by decide +kernel)

end SurfaceSim.Props
