/-
Merged QEC rounds (C50) and merged logical measurements with equal bases (C49).
-/
import Verif.Lemmas.MergeTail
import Verif.Lemmas.UniformMeas
import Verif.Lemmas.Witness

namespace SurfaceSim.Props
open Spec NoiseModel Blocks Experiments LayoutLib

variable {l : Layout} {L : List (String × Site × Kind)} {dirs : List (Site × String)} {nm : NoiseModel}

theorem roundOk_css (hr : CanRun nm l) (nt : NoTicks nm) {sig : List Gate}
    (hs1 : (sig.filter Gate.isMeas).length ≤ 1) (hs : ∀ qs rs : List String, qs ≠ [] → rs ≠ [] →
    ∀ s c s', Blocks.plus (nm.measure qs) (nm.idle rs) s = (.ok c, s') → c.map Instr.gate = sig)
    (hg : OnGrid l L dirs) (o : SetOrder) {x0 x1 x2 x3 z0 z1 z2 z3 : String}
    (ho : l.interactionOrder = order4 x0 x1 x2 x3 z0 z1 z2 z3) (reset : Bool)
    (hda : dataOf L ≠ []) (han : ancOf L ≠ []) {code : String} (hc : l.code = code)
    (hm : RoundMeasures nm l (sumGen (cssIter code o nm l reset)) (cssType L) reset) :
    ∃ p Q Ls, CssPatch l p ∧ RoundOk nm (cssIter code o nm l reset) (roundKinds reset sig) reset l p Q Ls := by
  obtain ⟨Ls, h1, h2, h3⟩ := css_genOk hr.faithful nt hs1 hs hg (CanRun.usable hr hg) o ho reset hda han
  rw [hc] at h1
  refine ⟨⟨dataOf L, ancOf L, fun x => l.getNeighbors [x] none, cssType L⟩, L.map Prod.fst, Ls,
    ⟨hg.getQubits_data, hg.getQubits_anc, fun _ => rfl, xOf L, hg.getQubits_x, fun _ _ => rfl⟩, ?_⟩
  have hL : ∀ q, q ∈ L.map Prod.fst ↔ ∃ s k, (q, s, k) ∈ L := by
    intro q
    constructor
    · rintro h
      obtain ⟨⟨q', s, k⟩, h', rfl⟩ := List.mem_map.1 h
      exact ⟨s, k, h'⟩
    · rintro ⟨s, k, h⟩
      exact List.mem_map.2 ⟨_, h, rfl⟩
  refine ⟨hg.getQubits_all, hr.known _ hg.getQubits_all, fun q hq => (hL q).2 (mem_data_or_anc.1 hq), ?_, h1, ?_, h3, ?_,
    stabs_of_round h1 hm hg.getQubits_data hg.getQubits_anc⟩
  · intro x hx d hd
    obtain ⟨s, k, hxs, hk⟩ := mem_ancOf.1 hx
    obtain ⟨s', hs'⟩ := neighbors_data hg hxs hk hd
    exact mem_dataOf.2 ⟨s', hs'⟩
  · intro op ho
    obtain ⟨a1, a2, a3⟩ := h2 op ho
    exact ⟨a1, a2, fun q hq => (hL q).2 (a3 q hq)⟩
  · obtain ⟨_, _, -, -, hm⟩ := hm
    have ht : (MeasState.fresh nm.inds).Tracks nm.inds [] := MeasState.tracks_fresh nm.inds
    obtain ⟨c, s', e, hp, -⟩ := hm _ [] ht
    obtain ⟨-, hD⟩ := Does.sumGen h1.forall₂
    obtain ⟨c', s'', e', -, ho, -⟩ := hD _ [] ht
    cases e.symm.trans e'
    rw [← ho]
    exact hp.2

theorem rot_nonempty {a : Args} {dx dz : Int} (hx : 1 ≤ dx) (hz : 2 ≤ dz) :
    dataOf (rotEntries a dx dz) ≠ [] ∧ ancOf (rotEntries a dx dz) ≠ [] := by
  constructor
  · obtain ⟨q, hq⟩ := exists_rotEntry (a := a) (dx := dx) (dz := dz) (r := 1) (c := 1) (k := .data)
      (by simp [RotSite]; omega)
    exact List.ne_nil_of_mem (mem_dataOf.2 ⟨_, hq⟩)
  · obtain ⟨q, hq⟩ := exists_rotEntry (a := a) (dx := dx) (dz := dz) (r := 0) (c := 2) (k := .x)
      (by simp [RotSite]; omega)
    exact List.ne_nil_of_mem (mem_ancOf.2 ⟨_, _, hq, by simp⟩)

theorem unrot_nonempty {a : Args} {dx dz : Int} (hx : 1 ≤ dx) (hz : 2 ≤ dz) :
    dataOf (unrotEntries a dx dz) ≠ [] ∧ ancOf (unrotEntries a dx dz) ≠ [] := by
  constructor
  · obtain ⟨q, hq⟩ := exists_unrotEntry (a := a) (dx := dx) (dz := dz) (r := 0) (c := 0) (k := .data)
      (by simp [UnrotSite]; omega)
    exact List.ne_nil_of_mem (mem_dataOf.2 ⟨_, hq⟩)
  · obtain ⟨q, hq⟩ := exists_unrotEntry (a := a) (dx := dx) (dz := dz) (r := 0) (c := 1) (k := .x)
      (by simp [UnrotSite]; omega)
    exact List.ne_nil_of_mem (mem_ancOf.2 ⟨_, _, hq, by simp⟩)

/-- **C50** `merge_qec_rounds` with the rounds of rot_surface_code_css.py: for layouts without common qubits (rotated
surface codes with `distance_z ≥ 2`), whenever a circuit is returned, it is followed by detectors a circuit that measures
the stabilizers of all layouts as separate rounds would, and the record contains the ancillas layout after layout. -/
theorem C50_rot_css {cfg : Detectors.Config} (nm : NoiseModel) (nt : NoTicks nm) (um : UniformMeas nm)
    (hinj : IndsInj nm.inds) (ls : List Layout)
    (hl : ∀ l ∈ ls, CanRun nm l ∧ ∃ a dx dz l0, rotSurfaceCodeRectangle dx dz a = .ok l0 ∧ WithParams l0 l ∧
      1 ≤ dx ∧ 2 ≤ dz) (hd : NoCommonQubit ls) (o : SetOrder) (reset : Bool) (sel : Option (List String))
    (s s' : Sim cfg) (hist : List String) (ht : s.1.Tracks nm.inds hist) (c : Circuit)
    (h : mergeQecRounds (cssIter "rotated_surface_code" o nm) ls reset sel s = (.ok c, s')) :
    ∃ c0 D ps, c = Circuit.concat c0 D ∧ (∀ i ∈ D, i.gate = .DETECTOR) ∧
      List.Forall₂ CssPatch ls ps ∧ s'.1.Tracks nm.inds (hist ++ ps.flatMap fun p => p.anc) ∧
      measOrder c0 = (ps.flatMap fun p => p.anc).map (ind nm.inds) ∧
      ∀ (ρ : Nat → ZMod 2) (st : FState Nat), MeasuresAll (ind nm.inds) ps reset st (run ρ st (ops c0)) := by
  obtain ⟨c0, D, e, hm, hD⟩ := mergeQecRounds_parts h
  obtain ⟨sig, hs1, hs⟩ := um
  obtain ⟨ps, h1, -, h3, h4, h5⟩ := merged_rounds (P := CssPatch) hinj hd (oneMeas_round reset sig) (fun l hll => by
    obtain ⟨hr, a, dx, dz, l0, k1, k2, k3, k4⟩ := hl l hll
    have hi := isRot_of_params k1 k2
    have hne := rot_nonempty (a := a) k3 k4
    exact roundOk_css hr nt hs1 hs hi.grid o hi.order reset hne.1 hne.2 hi.code (hi.css k4 hr o reset)) ht hm
  exact ⟨c0, D, ps, e, buildFromAnc_gates hD, h1, h3, h4, h5⟩

/-- **C50** Same for unrot_surface_code_css.py. -/
theorem C50_unrot_css {cfg : Detectors.Config} (nm : NoiseModel) (nt : NoTicks nm) (um : UniformMeas nm)
    (hinj : IndsInj nm.inds) (ls : List Layout)
    (hl : ∀ l ∈ ls, CanRun nm l ∧ ∃ a dx dz l0, unrotSurfaceCodeRectangle dx dz a = .ok l0 ∧ WithParams l0 l ∧
      1 ≤ dx ∧ 2 ≤ dz) (hd : NoCommonQubit ls) (o : SetOrder) (reset : Bool) (sel : Option (List String))
    (s s' : Sim cfg) (hist : List String) (ht : s.1.Tracks nm.inds hist) (c : Circuit)
    (h : mergeQecRounds (cssIter "unrotated_surface_code" o nm) ls reset sel s = (.ok c, s')) :
    ∃ c0 D ps, c = Circuit.concat c0 D ∧ (∀ i ∈ D, i.gate = .DETECTOR) ∧
      List.Forall₂ CssPatch ls ps ∧ s'.1.Tracks nm.inds (hist ++ ps.flatMap fun p => p.anc) ∧
      measOrder c0 = (ps.flatMap fun p => p.anc).map (ind nm.inds) ∧
      ∀ (ρ : Nat → ZMod 2) (st : FState Nat), MeasuresAll (ind nm.inds) ps reset st (run ρ st (ops c0)) := by
  obtain ⟨c0, D, e, hm, hD⟩ := mergeQecRounds_parts h
  obtain ⟨sig, hs1, hs⟩ := um
  obtain ⟨ps, h1, -, h3, h4, h5⟩ := merged_rounds (P := CssPatch) hinj hd (oneMeas_round reset sig) (fun l hll => by
    obtain ⟨hr, a, dx, dz, l0, k1, k2, k3, k4⟩ := hl l hll
    have hi := isUnrot_of_params k1 k2
    have hne := unrot_nonempty (a := a) k3 k4
    exact roundOk_css hr nt hs1 hs hi.grid o hi.order reset hne.1 hne.2 hi.code (hi.css k4 hr o reset)) ht hm
  exact ⟨c0, D, ps, e, buildFromAnc_gates hD, h1, h3, h4, h5⟩

/-- Measurement of the data qubits of a layout on a grid. -/
theorem measOk (hr : CanRun nm l) (nt : NoTicks nm) {sig : List Gate}
    (hs1 : (sig.filter Gate.isMeas).length ≤ 1) (hs : ∀ qs rs : List String, qs ≠ [] → rs ≠ [] →
    ∀ s c s', Blocks.plus (nm.measure qs) (nm.idle rs) s = (.ok c, s') → c.map Instr.gate = sig)
    (hg : OnGrid l L dirs) (rot : Bool) (hda : dataOf L ≠ []) (han : ancOf L ≠ []) :
    ∃ D Q Ls, l.getQubits [("role", .str "data")] = .ok D ∧ D.Nodup ∧ (l.getQubits [] = .ok Q ∧
      ∀ q ∈ Q, q ∈ nm.inds.keys) ∧ (∀ q ∈ D, q ∈ Q) ∧ GenOk nm.inds (logMeasIter nm l rot) Ls (measKinds rot sig) ∧
      Ls.flatten = (if rot then D.map Op.h else []) ++ D.map Op.m := by
  obtain ⟨Ls, h1, h2⟩ := logMeas_genOk hr.faithful nt hs1 hs hg (CanRun.usable hr hg) rot hda han
  refine ⟨dataOf L, L.map Prod.fst, Ls, hg.getQubits_data, hg.labelsOf_nodup _,
    ⟨hg.getQubits_all, hr.known _ hg.getQubits_all⟩, ?_, h1, h2⟩
  intro q hq
  obtain ⟨s, hs⟩ := mem_dataOf.1 hq
  exact List.mem_map.2 ⟨_, hs, rfl⟩

/-- The layouts of C49 and C50. -/
def CodeLayout (nm : NoiseModel) (l : Layout) : Prop :=
  CanRun nm l ∧ ∃ a dx dz l0, (rotSurfaceCodeRectangle dx dz a = .ok l0 ∨ unrotSurfaceCodeRectangle dx dz a = .ok l0) ∧
    WithParams l0 l ∧ 1 ≤ dx ∧ 2 ≤ dz

/-- **C49** (missing: bases that differ, for which the claim is false, see `C49_x_then_z_wrong`).
`merge_log_meas` for surface-code layouts without common qubits, all measured in the same basis: whenever a circuit is
returned, every data qubit of every layout is measured once in that basis, layout after layout; the record contains
exactly these measurements; and what follows are detectors and observables. -/
theorem C49_same_basis_partial {cfg : Detectors.Config} (nm : NoiseModel) (nt : NoTicks nm) (um : UniformMeas nm)
    (hinj : IndsInj nm.inds) (ls : List Layout) (hl : ∀ l ∈ ls, CodeLayout nm l) (hd : NoCommonQubit ls)
    (rots : List Bool) (rot : Bool) (hrot : ∀ b ∈ rots, b = rot) (reset : Bool) (sel : Option (List String))
    (s s' : Sim cfg) (hist : List String) (ht : s.1.Tracks nm.inds hist) (c : Circuit)
    (h : mergeLogMeas (logMeasIter nm) ls rots reset sel s = (.ok c, s')) :
    ∃ c0 T Ds, ops c = ops c0 ++ ops T ∧ (∀ i ∈ T, i.gate = .DETECTOR ∨ i.gate = .OBSERVABLE_INCLUDE) ∧
      List.Forall₂ (fun l D => l.getQubits [("role", .str "data")] = .ok D) ls Ds ∧
      s'.1.Tracks nm.inds (hist ++ Ds.flatten) ∧ measOrder c0 = Ds.flatten.map (ind nm.inds) ∧
      ∀ (ρ : Nat → ZMod 2) (st : FState Nat), MeasuresBasis (ind nm.inds) rot Ds.flatten st (run ρ st (ops c0)) := by
  obtain ⟨hlen, c0, hm, hT⟩ := mergeLogMeas_parts h
  have e : (ls.zip rots).map (fun lr => logMeasIter nm lr.1 lr.2) = ls.map fun l => logMeasIter nm l rot := by
    clear hm hT h hl hd
    induction ls generalizing rots with
    | nil => simp
    | cons l ls ih =>
      cases rots with
      | nil => simp at hlen
      | cons b rots =>
        rw [List.zip_cons_cons, List.map_cons, List.map_cons, hrot b (by simp)]
        rw [ih rots (fun b hb => hrot b (by simp [hb])) (by simpa using hlen)]
  rw [e] at hm
  obtain ⟨sig, hs1, hs⟩ := um
  obtain ⟨Ds, h1, h2, h3, h4, h5⟩ := merged_meas (iter := logMeasIter nm) hinj hd (oneMeas_meas rot sig) (fun l hll => by
    obtain ⟨hr, a, dx, dz, l0, k1, k2, k3, k4⟩ := hl l hll
    rcases k1 with k1 | k1
    · have hne := rot_nonempty (a := a) k3 k4
      exact measOk hr nt hs1 hs (isRot_of_params k1 k2).grid rot hne.1 hne.2
    · have hne := unrot_nonempty (a := a) k3 k4
      exact measOk hr nt hs1 hs (isUnrot_of_params k1 k2).grid rot hne.1 hne.2) ht hm
  obtain ⟨T, t1, t2⟩ := hT h2.1
  exact ⟨c0, T, Ds, t2, t1, h1, h3, h4, h5⟩

/-! ### Non-trivial cases -/

/-- The first of two layouts. -/
def pairA : Layout := layoutOf (rotSurfaceCodeRectangle 2 2 rotDefault)

/-- The second one, next to the first. -/
def pairB : Layout := layoutOf (rotSurfaceCodeRectangle 2 2 ⟨"L1", (1, 11), 5, 3, 3, 7⟩)

/-- Indices of both layouts. -/
def pairInds : Dict String Nat := (pairA.qubitInds ++ pairB.qubitInds).map fun kv => (kv.1, kv.2.toNat)

theorem pair_canRun (l : Layout) (hl : l ∈ [pairA, pairB]) : CanRun (noiseless pairInds) l := by
  have hk : [pairA, pairB].all (fun l => match l.getQubits [] with
      | .ok qs => qs.all (fun q => decide (q ∈ pairInds.keys))
      | .error _ => false) = true := by decide +kernel
  rw [List.all_eq_true] at hk
  refine ⟨(C34_noiseless _).toFaithful, by decide +kernel, fun qs hq q hqq => ?_⟩
  have := hk l hl
  rw [hq] at this
  simp only [List.all_eq_true, decide_eq_true_eq] at this
  exact this q hqq

theorem pair_code (l : Layout) (hl : l ∈ [pairA, pairB]) : ∃ a dx dz l0,
    rotSurfaceCodeRectangle dx dz a = .ok l0 ∧ WithParams l0 l ∧ 1 ≤ dx ∧ 2 ≤ dz := by
  simp only [List.mem_cons, List.not_mem_nil, or_false] at hl
  rcases hl with rfl | rfl
  · exact ⟨rotDefault, 2, 2, pairA, ok_layoutOf (by decide +kernel), .refl, by decide, by decide⟩
  · exact ⟨⟨"L1", (1, 11), 5, 3, 3, 7⟩, 2, 2, pairB, ok_layoutOf (by decide +kernel), .refl, by decide, by decide⟩

theorem pair_apart : NoCommonQubit [pairA, pairB] := by
  have h : (match pairA.getQubits [], pairB.getQubits [] with
      | .ok qs, .ok qs' => qs.all (fun q => decide (q ∉ qs')) | _, _ => false) = true := by decide +kernel
  unfold NoCommonQubit
  simp only [List.pairwise_cons, List.mem_singleton, forall_eq, List.not_mem_nil, false_implies, implies_true,
    List.Pairwise.nil, and_true]
  intro qs qs' h1 h2 q hq
  rw [h1, h2] at h
  simp only [List.all_eq_true, decide_eq_true_eq] at h
  exact h q hq

/-- A detectors object for both layouts. -/
def pairConfig : Detectors.Config := ⟨["Z1", "Z2", "X1", "Z3", "Z4", "X3"], .postGate,
  ["Z1", "Z2", "X1", "Z3", "Z4", "X3"].map fun a => (a, [])⟩

/-- The state of an experiment with both layouts. -/
def pairStart : Sim pairConfig := (MeasState.fresh pairInds, Detectors.State.fresh pairConfig)

/-- The merged round is returned and measures six ancillas. -/
theorem pair_round : (match (mergeQecRounds (cssIter "rotated_surface_code" .insertion (noiseless pairInds))
    [pairA, pairB] true none pairStart).1 with
      | .ok c => (measOrder c).length | .error _ => 0) = 6 := by decide +kernel

/-- Two smaller layouts (two data qubits and one ancilla each). -/
def smallA : Layout := layoutOf (rotSurfaceCodeRectangle 1 2 rotDefault)

/-- The second one. -/
def smallB : Layout := layoutOf (rotSurfaceCodeRectangle 1 2 ⟨"L1", (1, 11), 3, 3, 3, 3⟩)

/-- Their indices. -/
def smallInds : Dict String Nat := (smallA.qubitInds ++ smallB.qubitInds).map fun kv => (kv.1, kv.2.toNat)

/-- A detectors object for both. -/
def smallConfig : Detectors.Config := ⟨["X1", "X3"], .postGate, [("X1", []), ("X3", [])]⟩

/-- The merged measurement of the smaller layouts is returned and measures four data qubits. -/
theorem small_meas : (match (mergeLogMeas (cfg := smallConfig) (logMeasIter (noiseless smallInds)) [smallA, smallB]
    [true, true] true none (MeasState.fresh smallInds, Detectors.State.fresh smallConfig)).1 with
      | .ok c => (measOrder c, (declared c).length) | .error _ => ([], 0)) = ([0, 1, 3, 4], 2) := by decide +kernel

theorem pair_inj : IndsInj pairInds := by decide +kernel

/-- The hypotheses of `C50_rot_css` hold for the two layouts. -/
example : NoTicks (noiseless pairInds) ∧ UniformMeas (noiseless pairInds) ∧ IndsInj pairInds ∧
    (∀ l ∈ [pairA, pairB], CanRun (noiseless pairInds) l) ∧ NoCommonQubit [pairA, pairB] :=
  ⟨noTicks_noiseless _, uniformMeas_noiseless _, pair_inj, pair_canRun, pair_apart⟩

/-- The hypotheses of `C49_same_basis_partial` hold for the layouts of `pair_round` and of `small_meas`. -/
example : (∀ l ∈ [pairA, pairB], CodeLayout (noiseless pairInds) l) ∧ IndsInj smallInds ∧
    ∀ l ∈ [smallA, smallB], ∃ a dx dz l0, rotSurfaceCodeRectangle dx dz a = .ok l0 ∧ WithParams l0 l ∧ 1 ≤ dx ∧ 2 ≤ dz := by
  refine ⟨fun l hl => ⟨pair_canRun l hl, ?_⟩, by decide +kernel, ?_⟩
  · obtain ⟨a, dx, dz, l0, h1, h2⟩ := pair_code l hl
    exact ⟨a, dx, dz, l0, Or.inl h1, h2⟩
  · intro l hl
    simp only [List.mem_cons, List.not_mem_nil, or_false] at hl
    rcases hl with rfl | rfl
    · exact ⟨rotDefault, 1, 2, smallA, ok_layoutOf (by decide +kernel), .refl, by decide, by decide⟩
    · exact ⟨⟨"L1", (1, 11), 3, 3, 3, 3⟩, 1, 2, smallB, ok_layoutOf (by decide +kernel), .refl, by decide, by decide⟩

end SurfaceSim.Props
