/-
C59: the objects of the README example fit together, for every distance.
-/
import Verif.Lemmas.Workflow
import Verif.Spec.Workflow
import Verif.Props.NoiseDistance

namespace SurfaceSim.Props
open SurfaceSim Spec NoiseModel Blocks Experiments LayoutLib

/-- **C59** `Detectors(anc_qubits, frame, anc_coords)` returns an object exactly if the frame is one of the three names, the
coordinates are given for the ancillas and for no other qubit, there is at least one ancilla, and all coordinates have the same
length. -/
theorem C59_detectors_init (anc : List String) (frame : String) (coords : Dict String (List Rat)) :
    (∃ cfg, Detectors.Config.make anc frame (some coords) = .ok cfg) ↔
      frame ∈ ["pre-gate", "post-gate", "gate-independent"] ∧ (∀ a, a ∈ coords.keys ↔ a ∈ anc) ∧ anc ≠ [] ∧
        ∃ m, ∀ kv ∈ coords, kv.2.length = m := by
  constructor
  · rintro ⟨cfg, h⟩
    obtain ⟨h1, -, -, h4, h5, h6⟩ := config_make_some.1 h
    refine ⟨frame_parse.1 ⟨_, h1⟩, h4, ?_, h6⟩
    rintro rfl
    cases hc : coords with
    | nil => exact h5 hc
    | cons kv r => exact absurd ((h4 kv.1).1 (by rw [hc]; simp [Dict.keys])) (by simp)
  · rintro ⟨h1, h2, h3, h4⟩
    obtain ⟨f, hf⟩ := frame_parse.2 h1
    refine ⟨⟨anc, f, coords⟩, config_make_some.2 ⟨hf, rfl, rfl, h2, ?_, h4⟩⟩
    rintro rfl
    cases anc with
    | nil => exact h3 rfl
    | cons a r => exact absurd ((h2 a).2 (by simp)) (by simp [Dict.keys])

/-- **C59** Without coordinates, any non-empty list of ancillas is accepted. -/
theorem C59_detectors_init_default (anc : List String) (frame : String) :
    (∃ cfg, Detectors.Config.make anc frame none = .ok cfg) ↔
      frame ∈ ["pre-gate", "post-gate", "gate-independent"] ∧ anc ≠ [] := by
  rw [config_make_none, C59_detectors_init]
  refine ⟨fun h => ⟨h.1, h.2.2.1⟩, fun h => ⟨h.1, fun a => by simp [Dict.keys], h.2, 0, fun kv hkv => ?_⟩⟩
  obtain ⟨a, -, rfl⟩ := List.mem_map.1 hkv
  rfl

example : (Detectors.Config.make ["X1", "Z1"] "post-gate" (some [("Z1", [0, 1]), ("X1", [1/2, 3])])).toOption.isSome = true ∧
    (Detectors.Config.make ["X1", "Z1"] "post-gate" (some [("Z1", [0, 1]), ("X1", [1/2])])).toOption.isSome = false ∧
    (Detectors.Config.make ["X1", "Z1"] "post-gate" (some [("Z1", [0, 1])])).toOption.isSome = false ∧
    (Detectors.Config.make ["X1", "Z1"] "post" none).toOption.isSome = false := by decide +kernel

/-- **C59** `anc_coords()` returns the coordinates of all ancillas, in the order of `get_qubits(role="anc")`. -/
theorem C59_anc_coords (l : Layout) (hl : Reachable l) (anc : List String) (ha : l.getQubits [("role", .str "anc")] = .ok anc)
    (d : Dict String (List Rat)) :
    l.ancCoords = .ok d ↔ d.keys = anc ∧ ∀ kv ∈ d, l.param "coords" kv.1 = .ok (.coords kv.2) := by
  refine ancCoords_ok (Layout.inv_of_reachable hl) ha (fun q hq => ?_) d
  obtain ⟨all, h1, -, rfl⟩ := C09_exactly_matching l hl _ _ ha
  rw [show l.getQubits [] = .ok l.graph.nodes.keys from rfl, Except.ok.injEq] at h1
  rw [h1]
  exact (List.mem_filter.1 hq).1

example : ((rotSurfaceCode 2 rotDefault).bind fun l => l.ancCoords) =
    .ok [("X1", [0, 2]), ("X2", [4, 2]), ("Z1", [2, 2])] := by decide +kernel

theorem prepares_of {l : Layout} (hl : Reachable l) {all data anc : List String} (h1 : l.getQubits [] = .ok all)
    (h2 : l.getQubits [("role", .str "data")] = .ok data) (h3 : l.getQubits [("role", .str "anc")] = .ok anc)
    (h4 : (data ++ anc).Perm all) {m : Int} (hm : 0 ≤ m)
    (h5 : l.getInds all = .ok ((List.range all.length).map fun (k : Nat) => m + k))
    (h6 : ∀ q ∈ all, ∃ r c, l.param "coords" q = .ok (.coords [r, c])) (hne : anc ≠ []) {frame : String}
    (hf : frame ∈ ["pre-gate", "post-gate", "gate-independent"]) (withCoords : Bool) :
    ∃ inds cfg, Prepares l frame withCoords data anc inds cfg ∧ IndsInj inds ∧ inds.keys = all ∧ ConfigOk cfg ∧ cfg.anc = anc ∧
      ∀ d ∈ data, d ∉ anc := by
  have hinv := Layout.inv_of_reachable hl
  rw [show l.getQubits [] = .ok l.graph.nodes.keys from rfl, Except.ok.injEq] at h1
  subst h1
  have hnd : (data ++ anc).Nodup := h4.nodup_iff.2 hinv.nodup
  obtain ⟨hn1, hn2, hn3⟩ := List.nodup_append.1 hnd
  obtain ⟨inds, i1, i2, i3⟩ := inds_ok hinv h5
    (by intro v hv; obtain ⟨k, -, rfl⟩ := List.mem_map.1 hv; omega)
    (List.Nodup.map_on (by intro x _ y _ h; omega) List.nodup_range)
  have hc : ∀ q ∈ anc, ∃ c : List Rat, l.param "coords" q = .ok (.coords c) ∧ c.length = 2 := by
    intro q hq
    obtain ⟨r, c, h⟩ := h6 q (h4.mem_iff.1 (List.mem_append.2 (.inr hq)))
    exact ⟨_, h, rfl⟩
  choose! f hf1 hf2 using hc
  have hco : l.ancCoords = .ok (anc.map fun q => (q, f q)) := by
    rw [C59_anc_coords l hl anc h3]
    refine ⟨by simp [Dict.keys, Function.comp_def], fun kv hkv => ?_⟩
    obtain ⟨q, hq, rfl⟩ := List.mem_map.1 hkv
    exact hf1 q hq
  have hmake : ∃ cfg, Detectors.Config.make anc frame (if withCoords then some (anc.map fun q => (q, f q)) else none) = .ok cfg := by
    cases withCoords
    · exact (C59_detectors_init_default anc frame).2 ⟨hf, hne⟩
    · refine (C59_detectors_init anc frame _).2 ⟨hf, fun a => by simp [Dict.keys], hne, 2, fun kv hkv => ?_⟩
      obtain ⟨q, hq, rfl⟩ := List.mem_map.1 hkv
      exact hf2 q hq
  obtain ⟨cfg, hcfg⟩ := hmake
  have hk : cfg.anc = anc ∧ ∀ x, x ∈ cfg.coords.keys ↔ x ∈ anc := by
    cases withCoords
    · rw [if_neg (by simp), config_make_none] at hcfg
      obtain ⟨-, k1, k2, k3, -⟩ := config_make_some.1 hcfg
      exact ⟨k1, k2 ▸ k3⟩
    · rw [if_pos rfl] at hcfg
      obtain ⟨-, k1, k2, k3, -⟩ := config_make_some.1 hcfg
      exact ⟨k1, k2 ▸ k3⟩
  refine ⟨inds, cfg, ⟨h2, h3, i1.symm, _, hco, hcfg⟩, i3, i2, ⟨hk.1 ▸ hn2, fun a ha => (hk.2 a).2 (hk.1 ▸ ha)⟩, hk.1,
    fun d hd ha => hn3 d hd d ha rfl⟩

variable {a : Args} {dx dz : Int} {p : Rat} {frame : String}

/-- With these objects an experiment can be called. -/
theorem prepared_args {l : Layout} {all data anc : List String} {inds : Dict String Nat} {cfg : Detectors.Config} {st : Setup}
    {withCoords : Bool} (h1 : l.getQubits [] = .ok all) (h4 : (data ++ anc).Perm all)
    (hp : Prepares l frame withCoords data anc inds cfg) (hi : IndsInj inds) (hk : inds.keys = all) (hc : ConfigOk cfg)
    (ha : cfg.anc = anc) (hd : ∀ d ∈ data, d ∉ anc) (hst : CircuitNoiseOk st inds) {dataInit : Dict String Int}
    (hdi : ∀ q v, (q, v) ∈ dataInit → q ∈ data) :
    CanRun (circuitNoise st inds) l ∧ MemoryArgs cfg (circuitNoise st inds) l dataInit none ∧
      ∀ q v, (q, v) ∈ dataInit → v ≠ 0 → q ∈ all := by
  have hall : ∀ q v, (q, v) ∈ dataInit → q ∈ all := fun q v h => h4.mem_iff.1 (List.mem_append.2 (.inl (hdi q v h)))
  have hinds : (circuitNoise st inds).inds = inds := rfl
  refine ⟨⟨(C34_circuit_noise _ _ hst).toFaithful, hi, fun qs hq q hqq => ?_⟩, ⟨hc, fun qs hq => ?_, fun qs hq d hdd => ?_, fun q hq => ?_⟩,
    fun q v h _ => hall q v h⟩
  · rw [h1, Except.ok.injEq] at hq
    rw [hinds, hk, hq]
    exact hqq
  · rw [hp.ancQubits, Except.ok.injEq] at hq
    subst hq
    exact ⟨fun a h => ha ▸ h, fun sel h => nomatch h⟩
  · rw [hp.dataQubits, Except.ok.injEq] at hq
    subst hq
    rw [ha]
    exact hd d hdd
  · rw [hinds, hk]
    simp [isOne] at hq
    obtain ⟨v, hv, -⟩ := hq
    exact hall q v hv

/-- **C59** The README example for every size of the rotated code, every error probability that stim accepts, every frame of
the detectors, with and without coordinates: the layout, its qubit indices, the detectors and the noise model are returned, and
`memory_experiment` called with them returns a circuit whose noise needs as many errors as the distance to change the observable
and no detector; without noise, its detectors and its observable have the values given by the initial bits. -/
theorem C59_rot_css (hdx : 1 ≤ dx) (hdz : 2 ≤ dz) (ha : 0 ≤ a.initInd) (h0 : 0 ≤ p) (h1 : p ≤ 3/4)
    (hf : frame ∈ ["pre-gate", "post-gate", "gate-independent"]) (withCoords : Bool) :
    ∃ l data anc inds cfg st, rotSurfaceCodeRectangle dx dz a = .ok l ∧ Prepares l frame withCoords data anc inds cfg ∧
      circuitNoiseSetup p = .ok st ∧ ∀ (o o' : SetOrder) (dataInit : Dict String Int) (rotBasis reset : Bool) (n : Nat),
        (∀ q v, (q, v) ∈ dataInit → q ∈ data) →
        (∀ gauge, NoiseDistance cfg (if rotBasis then dz else dx).toNat (memory (rotCss cfg o (circuitNoise st inds)) o'
          (circuitNoise st inds) l n dataInit rotBasis reset none gauge)) ∧
        FixedValues cfg l a.label n dataInit rotBasis reset none (memory (rotCss cfg o (circuitNoise st inds)) o'
          (circuitNoise st inds) l n dataInit rotBasis reset none false) := by
  obtain ⟨l, all, data, anc, -, -, hl, hr, g1, -, g2, g3, -, -, g4, -, g5, -, -, -, g6, g7, -⟩ := C11_generated dx dz hdx (by omega) a
  have hne : anc ≠ [] := by
    rintro rfl
    simp only [List.length_nil, Nat.cast_zero] at g5
    nlinarith
  obtain ⟨inds, cfg, k1, k2, k3, k4, k5, k6⟩ := prepares_of hr g1 g2 g3 g4 ha g6 g7 hne hf withCoords
  obtain ⟨st, s1, s2⟩ := C34_circuit_noise_setup_ok p h0 h1 inds
  refine ⟨l, data, anc, inds, cfg, st, hl, k1, s1, fun o o' dataInit rotBasis reset n hdi => ?_⟩
  obtain ⟨r1, r2, r3⟩ := prepared_args g1 g4 k1 k2 k3 k4 k5 k6 s2 hdi
  exact ⟨fun gauge => C58_rot_css hl .refl hdx hdz r1 (uses_circuitNoise _ _) (local_circuitNoise _ _) r2 g1 r3 o o' rotBasis reset
    gauge (fun _ h => nomatch h) n, C32_rot_css hl .refl hdx hdz _ r1 r2 o o' rotBasis reset n⟩

/-- **C59** Same for the pipelined and XZZX experiments of rotated codes. -/
theorem C59_rot_others (hdx : 2 ≤ dx) (hdz : 2 ≤ dz) (ha : 0 ≤ a.initInd) (h0 : 0 ≤ p) (h1 : p ≤ 3/4)
    (hf : frame ∈ ["pre-gate", "post-gate", "gate-independent"]) (withCoords : Bool) :
    ∃ l data anc inds cfg st, rotSurfaceCodeRectangle dx dz a = .ok l ∧ Prepares l frame withCoords data anc inds cfg ∧
      circuitNoiseSetup p = .ok st ∧ ∀ (o o' : SetOrder) (dataInit : Dict String Int) (rotBasis reset : Bool) (n : Nat),
        (∀ q v, (q, v) ∈ dataInit → q ∈ data) →
        (∀ gauge, NoiseDistance cfg (if rotBasis then dz else dx).toNat (memory (rotCssPipelined cfg o (circuitNoise st inds)) o'
            (circuitNoise st inds) l n dataInit rotBasis reset none gauge) ∧
          NoiseDistance cfg (if rotBasis then dz else dx).toNat (memory (xzzxPipelined cfg o (circuitNoise st inds)) o'
            (circuitNoise st inds) l n dataInit rotBasis reset none gauge) ∧
          NoiseDistance cfg (if rotBasis then dz else dx).toNat (googleMemory o (circuitNoise st inds) l (n + 1 : Nat) dataInit
            rotBasis none gauge)) ∧
        FixedValues cfg l a.label n dataInit rotBasis reset none (memory (rotCssPipelined cfg o (circuitNoise st inds)) o'
          (circuitNoise st inds) l n dataInit rotBasis reset none false) ∧
        FixedValues cfg l a.label n dataInit rotBasis reset none (memory (xzzxPipelined cfg o (circuitNoise st inds)) o'
          (circuitNoise st inds) l n dataInit rotBasis reset none false) := by
  obtain ⟨l, all, data, anc, -, -, hl, hr, g1, -, g2, g3, -, -, g4, -, g5, -, -, -, g6, g7, -⟩ :=
    C11_generated dx dz (by omega) (by omega) a
  have hne : anc ≠ [] := by
    rintro rfl
    simp only [List.length_nil, Nat.cast_zero] at g5
    nlinarith
  obtain ⟨inds, cfg, k1, k2, k3, k4, k5, k6⟩ := prepares_of hr g1 g2 g3 g4 ha g6 g7 hne hf withCoords
  obtain ⟨st, s1, s2⟩ := C34_circuit_noise_setup_ok p h0 h1 inds
  refine ⟨l, data, anc, inds, cfg, st, hl, k1, s1, fun o o' dataInit rotBasis reset n hdi => ?_⟩
  obtain ⟨r1, r2, r3⟩ := prepared_args g1 g4 k1 k2 k3 k4 k5 k6 s2 hdi
  have hu := uses_circuitNoise st inds
  have hn := local_circuitNoise st inds
  have hs : SelectsBasis l rotBasis none := fun _ h => nomatch h
  exact ⟨fun gauge => ⟨C58_rot_css_pipelined hl .refl (by omega) (by omega) r1 hu hn r2 g1 r3 o o' rotBasis reset gauge hs n,
      C58_xzzx_pipelined hl .refl hdx hdz r1 hu hn r2 g1 r3 o o' rotBasis reset gauge hs n,
      C58_google hl .refl hdx hdz r1 hu hn r2 g1 r3 o rotBasis gauge hs n⟩,
    C32_rot_css_pipelined hl .refl (by omega) (by omega) _ r1 r2 o o' rotBasis reset n,
    C32_xzzx_pipelined hl .refl hdx hdz _ r1 r2 o o' rotBasis reset n⟩

/-- **C59** Same for unrotated codes. -/
theorem C59_unrot_css (hdx : 1 ≤ dx) (hdz : 2 ≤ dz) (ha : 0 ≤ a.initInd) (h0 : 0 ≤ p) (h1 : p ≤ 3/4)
    (hf : frame ∈ ["pre-gate", "post-gate", "gate-independent"]) (withCoords : Bool) :
    ∃ l data anc inds cfg st, unrotSurfaceCodeRectangle dx dz a = .ok l ∧ Prepares l frame withCoords data anc inds cfg ∧
      circuitNoiseSetup p = .ok st ∧ ∀ (o o' : SetOrder) (dataInit : Dict String Int) (rotBasis reset : Bool) (n : Nat),
        (∀ q v, (q, v) ∈ dataInit → q ∈ data) →
        (∀ gauge, NoiseDistance cfg (if rotBasis then dz else dx).toNat (memory (unrotCss cfg o (circuitNoise st inds)) o'
          (circuitNoise st inds) l n dataInit rotBasis reset none gauge)) ∧
        FixedValues cfg l a.label n dataInit rotBasis reset none (memory (unrotCss cfg o (circuitNoise st inds)) o'
          (circuitNoise st inds) l n dataInit rotBasis reset none false) := by
  obtain ⟨l, all, data, anc, -, -, hl, hr, g1, -, g2, g3, -, -, g4, -, g5, -, -, -, g6, g7, -⟩ := C16_generated dx dz hdx (by omega) a
  have hne : anc ≠ [] := by
    rintro rfl
    simp only [List.length_nil, Nat.cast_zero] at g5
    nlinarith [mul_nonneg (show 0 ≤ dx - 1 by omega) (show 0 ≤ dz - 1 by omega)]
  obtain ⟨inds, cfg, k1, k2, k3, k4, k5, k6⟩ := prepares_of hr g1 g2 g3 g4 ha g6 g7 hne hf withCoords
  obtain ⟨st, s1, s2⟩ := C34_circuit_noise_setup_ok p h0 h1 inds
  refine ⟨l, data, anc, inds, cfg, st, hl, k1, s1, fun o o' dataInit rotBasis reset n hdi => ?_⟩
  obtain ⟨r1, r2, r3⟩ := prepared_args g1 g4 k1 k2 k3 k4 k5 k6 s2 hdi
  exact ⟨fun gauge => C58_unrot_css hl .refl hdx hdz r1 (uses_circuitNoise _ _) (local_circuitNoise _ _) r2 g1 r3 o o' rotBasis reset
    gauge (fun _ h => nomatch h) n, C32_unrot_css hl .refl hdx hdz _ r1 r2 o o' rotBasis reset n⟩

/-- **C59** The code of distance 1 has no ancillas, and `Detectors` raises `ValueError` for it. -/
theorem C59_distance_one : ∃ l, rotSurfaceCode 1 rotDefault = .ok l ∧ l.getQubits [("role", .str "anc")] = .ok [] ∧
    ∀ frame coords, ∃ e, Detectors.Config.make [] frame coords = .error e := by
  refine ⟨_, ok_layoutOf (by decide +kernel), by decide +kernel, fun frame coords => ?_⟩
  cases h : Detectors.Config.make [] frame coords with
  | error e => exact ⟨e, rfl⟩
  | ok cfg =>
    exfalso
    cases coords with
    | none => exact ((C59_detectors_init_default [] frame).1 ⟨_, h⟩).2 rfl
    | some d => exact ((C59_detectors_init [] frame d).1 ⟨_, h⟩).2.2.1 rfl

/-- The README example itself: distance 3, X basis, ten rounds, `prob = 1e-5`. -/
example (o o' : SetOrder) : ∃ l data anc inds cfg st, rotSurfaceCode 3 rotDefault = .ok l ∧
    Prepares l "pre-gate" false data anc inds cfg ∧ circuitNoiseSetup (1/100000) = .ok st ∧
    NoiseDistance cfg 3 (memory (rotCss cfg o (circuitNoise st inds)) o' (circuitNoise st inds) l 10 (data.map fun q => (q, 0)) true
      true none true) := by
  obtain ⟨l, data, anc, inds, cfg, st, h1, h2, h3, h4⟩ := C59_rot_css (a := rotDefault) (dx := 3) (dz := 3) (p := 1/100000)
    (frame := "pre-gate") (by decide) (by decide) (by decide) (by norm_num) (by norm_num) (by simp) false
  refine ⟨l, data, anc, inds, cfg, st, h1, h2, h3, (h4 o o' _ true true 10 fun q v h => ?_).1 true⟩
  obtain ⟨q', hq', he⟩ := List.mem_map.1 h
  cases he
  exact hq'

end SurfaceSim.Props
