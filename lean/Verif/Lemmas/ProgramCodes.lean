/-
Programs of logical operations on a layout on a grid.
-/
import Verif.Lemmas.ProgramRun
import Verif.Lemmas.GateBlocks
import Verif.Lemmas.LogicalGates

namespace SurfaceSim
open Spec NoiseModel Blocks Experiments LayoutLib LogGates

variable {cfg : Detectors.Config} {nm : NoiseModel} {l : Layout} {L : List (String × Site × Kind)}
  {dirs : List (Site × String)} {lab : String} {lx lz : List String} {isX : String → String → Bool} {rot : String → Bool}

/-- Values of the logical operators and stabilizers of a code of the given types. -/
def typedValues (nm : NoiseModel) (l : Layout) (L : List (String × Site × Kind)) (lx lz : List String)
    (isX : String → String → Bool) (rot : String → Bool) : FState Nat → Values Bool :=
  valuesOf (fun k st => anticommutes (ind nm.inds) st (if k then lx else lz) fun d => if k then !rot d else rot d)
    (fun st a => anticommutes (ind nm.inds) st (l.getNeighbors [a] none) (isX a)) (ancOf L)

theorem codeValues_typed (hg : OnGrid l L dirs) (hx : l.logX = [(lab, lx)]) (hz : l.logZ = [(lab, lz)]) :
    codeValues nm l L lab = typedValues nm l L lx lz (cssType L) fun _ => false := by
  funext st
  refine Prod.ext (funext fun k => ?_) (funext fun a => ?_)
  · show logicalValue _ _ _ _ _ = anticommutes _ _ _ _
    unfold logicalValue
    cases k
    · simp [hz, Dict.get?]
    · simp [hx, Dict.get?]
  · show (if a ∈ ancOf L then _ else 0) = (if a ∈ ancOf L then _ else 0)
    rw [stabValue_css hg]

theorem typedValues_congr (hg : OnGrid l L dirs) (hc : CodeGrid l L lx lz) {st st' : FState Nat}
    (h : ∀ q ∈ dataOf L, st.x (ind nm.inds q) = st'.x (ind nm.inds q) ∧ st.z (ind nm.inds q) = st'.z (ind nm.inds q)) :
    typedValues nm l L lx lz isX rot st = typedValues nm l L lx lz isX rot st' := by
  have key : ∀ (S : List String) (τ : String → Bool), (∀ d ∈ S, d ∈ dataOf L) →
      anticommutes (ind nm.inds) st S τ = anticommutes (ind nm.inds) st' S τ := by
    intro S τ hS
    unfold anticommutes
    congr 1
    refine List.map_congr_left fun d hd => ?_
    rw [(h d (hS d hd)).1, (h d (hS d hd)).2]
  refine Prod.ext (funext fun k => ?_) (funext fun a => ?_)
  · refine key _ _ ?_
    cases k
    · exact hc.subZ
    · exact hc.subX
  · show (if a ∈ ancOf L then _ else 0) = (if a ∈ ancOf L then _ else 0)
    split
    · rename_i ha
      exact key _ _ fun d hd => nbrs_data hg ha hd
    · rfl

theorem roundG_typed (hg : OnGrid l L dirs) {b : Call1} {reset : Bool} (h : RoundMeasures nm l b isX reset)
    (ht' : Typed l L isX rot) (hc : CodeGrid l L lx lz) :
    RoundG nm (ancOf L) (typedValues nm l L lx lz isX rot) reset b := by
  obtain ⟨data, anc, hd, ha, h⟩ := h
  have h1 : data = dataOf L := by have := hg.getQubits_data; rw [hd] at this; exact Except.ok.inj this
  have h2 : anc = ancOf L := by have := hg.getQubits_anc; rw [ha] at this; exact Except.ok.inj this
  subst h1; subst h2
  intro s hist hs
  obtain ⟨c, s', e, hp, ht, hm, h⟩ := h s hist hs
  refine ⟨c, s', e, ht, hp, hm, fun ρ st => ?_⟩
  have m := h ρ st
  have hout : ∀ a ∈ ancOf L, (if reset then 0 else st.x (ind nm.inds a)) + (typedValues nm l L lx lz isX rot st).2 a =
      ancOutcome (ind nm.inds) reset st (fun x => l.getNeighbors [x] none) isX a := by
    intro a ha
    show _ + (if a ∈ ancOf L then _ else 0) = _
    rw [if_pos ha]
    rfl
  refine ⟨?_, fun a ha => ?_, ?_, m.dets, m.obs⟩
  · rw [m.recs]
    congr 2
    exact List.map_congr_left fun a ha => (hout a ha).symm
  · rw [m.ancilla a ha, ← hout a ha]
  · refine Prod.ext (funext fun k => ?_) (funext fun a => ?_)
    · cases k
      · exact MeasuresStabs.invariant m hc.subZ (hc.logicalZ ht')
      · exact MeasuresStabs.invariant m hc.subX (hc.logicalX ht')
    · show (if a ∈ ancOf L then _ else 0) = (if a ∈ ancOf L then _ else 0)
      split
      · rename_i ha
        exact MeasuresStabs.invariant m (fun d hd => nbrs_data hg ha hd) (hc.stabs hg ht' ha)
      · rfl

/-- A block that applies a logical Pauli operator. -/
theorem blockG_pauli (hg : OnGrid l L dirs) (h2 : l.logX = [(lab, lx)]) (h3 : l.logZ = [(lab, lz)]) {b : Call1}
    {fx fz : ZMod 2} (h : AppliesLogical nm l lab b isX (fun d => !rot d) rot fx fz)
    (hp : ∀ (s : MeasState) (hist : List String), s.Tracks nm.inds hist → ∃ c s', b s = (.ok c, s') ∧ PairsOk c) :
    BlockG nm (ancOf L) (typedValues nm l L lx lz isX rot) (flipMap fun k => if k then fx else fz) b := by
  obtain ⟨anc, lx', lz', ha, hx, hz, h⟩ := h
  have h1 : anc = ancOf L := by have := hg.getQubits_anc; rw [ha] at this; exact Except.ok.inj this
  have e1 : lx' = lx := by
    rw [h2] at hx
    simp [Dict.get?] at hx
    exact hx.symm
  have e2 : lz' = lz := by
    rw [h3] at hz
    simp [Dict.get?] at hz
    exact hz.symm
  subst h1 e1 e2
  intro s hist hs
  obtain ⟨c, s', e, ht, -, hc⟩ := h s hist hs
  obtain ⟨c', s'', e', hp'⟩ := hp s hist hs
  cases e.symm.trans e'
  refine ⟨c, s', e, hp', ht, fun ρ st => ?_⟩
  obtain ⟨r1, r2, r3, r4, r5, r6, r7⟩ := hc ρ st
  refine ⟨r1, r2, r3, fun a ha => (r4 a ha).1, Prod.ext (funext fun k => ?_) (funext fun a => ?_)⟩
  · cases k
    · exact r7
    · exact r6
  · show (if a ∈ ancOf L then _ else 0) = (if a ∈ ancOf L then _ else 0)
    split
    · rename_i ha
      exact r5 a ha
    · rfl

theorem pairs_pauli (hinj : IndsInj nm.inds) {b : Call1} {px pz : List String}
    (hb : Does nm.inds b (px.map Op.x ++ pz.map Op.z)) (s : MeasState) (hist : List String)
    (hs : s.Tracks nm.inds hist) : ∃ c s', b s = (.ok c, s') ∧ PairsOk c := by
  refine pairs_of_does hinj hb (fun op hop => ?_) s hist hs
  rcases List.mem_append.1 hop with hop | hop
  · obtain ⟨d, -, rfl⟩ := List.mem_map.1 hop
    trivial
  · obtain ⟨d, -, rfl⟩ := List.mem_map.1 hop
    trivial

theorem cleanInvolution_one : CleanInvolution (1 : cfg.Mat Int) := by
  refine ⟨isBits_one, by rw [mod2_one, mul_one], 1, by rw [mul_one], fun a b => ?_⟩
  exact odd_of_bits isBits_one a b

/-- The flips of the logical operators by a gate with the given images. -/
def flipsOf (image : Bool → List Bool) (f : Bool → ZMod 2) (k : Bool) : ZMod 2 := ((image k).map f).sum

theorem gateMap_flip (gen : String → List String) (anc : List String) (image : Bool → List Bool) (T : Bool → List String)
    (w : Values Bool) (f : Bool → ZMod 2) :
    gateMap gen anc image T (flipMap f w) = flipMap (flipsOf image f) (gateMap gen anc image T w) := by
  refine Prod.ext (funext fun k => ?_) rfl
  show ((image k).map fun k => w.1 k + f k).sum + _ = _ + _ + ((image k).map f).sum
  have : ((image k).map fun k => w.1 k + f k).sum = ((image k).map w.1).sum + ((image k).map f).sum := by
    induction image k with
    | nil => simp
    | cons i is ih => simp only [List.map_cons, List.sum_cons, ih]; ring
  rw [this]
  show _ + ((T k).map w.2).sum = ((image k).map w.1).sum + ((T k).map w.2).sum + _
  ring

/-- How the flips of a program are computed. -/
theorem foldl_signs (k : GateKind) {M : (Bool → ZMod 2) → Bool → ZMod 2}
    (hM : ∀ f rb, M f rb = signOf rb (Step.act k .gate (f true, f false))) (steps : List Step) :
    ∀ f : Bool → ZMod 2,
    (fun g : Bool → ZMod 2 => (g true, g false)) (steps.foldl (flipStep (fun k => if k then 0 else 1) (fun k => if k then 1 else 0) M) f) = steps.foldl (fun f x => x.act k f) (f true, f false) := by
  induction steps with
  | nil => intro f; rfl
  | cons x xs ih =>
    intro f
    rw [List.foldl_cons, List.foldl_cons, ih]
    congr 1
    cases x with
    | round => rfl
    | gate => exact Prod.ext (hM f true) (hM f false)
    | x => simp [Step.act, flipStep]
    | z => simp [Step.act, flipStep]

/-- Programs of a code on a grid. -/
theorem program_grid (hg : OnGrid l L dirs) (hr : CanRun nm l) (hnum : NumCoords l)
    (h1 : l.logQubits = [lab]) (h2 : l.logX = [(lab, lx)]) (h3 : l.logZ = [(lab, lz)])
    (hc : CodeGrid l L lx lz) (ht : Typed l L isX rot) (rb rb' : Bool) {R : Bool → List String}
    (hR : ∀ rb, ∀ d ∈ R rb, d ∈ dataOf L)
    (hty : ∀ rb, ∀ x ∈ stabsOf L rb, ∀ d ∈ l.getNeighbors [x] none, isX x d = decide (d ∈ R rb))
    (hlR : ∀ rb, ∀ d ∈ (if rb then lx else lz), decide (d ∈ R rb) = (if rb then !rot d else rot d))
    {dataInit : Dict String Int} {ancDetectors : Option (List String)}
    (hargs : MemoryArgs cfg nm l dataInit ancDetectors) (hargs' : GateArgs cfg [l] dataInit)
    {fam : Family cfg} {gi iter gm : Gen} {reset : Bool}
    (hfi : fam.init l dataInit rb = activateAndSum l gi)
    (hfr : ∀ sel, fam.round l reset sel = qecRound iter l reset sel)
    (hfm : ∀ sel, fam.meas l rb' reset sel = (do
      let sel ← PyM.ofExcept (checkAncDetectors l sel)
      let circuit ← onModel (sumGen gm)
      finishMeas l rb' reset sel circuit))
    (hi : InitEff nm (dataOf L) (ancOf L) (R rb) dataInit (sumGen gi))
    (hb : RoundMeasures nm l (sumGen iter) isX reset)
    (hM : MeasEff nm (dataOf L) (R rb') (sumGen gm))
    {bx bz : Call1} (hbx : BlockG nm (ancOf L) (typedValues nm l L lx lz isX rot) (flipMap fun k => if k then 0 else 1) bx)
    (hbz : BlockG nm (ancOf L) (typedValues nm l L lx lz isX rot) (flipMap fun k => if k then 1 else 0) bz)
    {U : cfg.Mat Int} (hU : CleanInvolution U) {Φ : Values Bool → Values Bool}
    (hΦ : ∀ w i, (Φ w).2 (cfg.label i) = (mod2 U).mulVec (fun j => w.2 (cfg.label j)) i)
    {M : (Bool → ZMod 2) → Bool → ZMod 2} (hlin : ∀ w f, Φ (flipMap f w) = flipMap (M f) (Φ w))
    (kind : GateKind) (hk : ∀ f rb, M f rb = signOf rb (Step.act kind .gate (f true, f false)))
    {g : PyM (Sim cfg) Circuit} (steps : List Step)
    (hgate : Step.gate ∈ steps → GateG nm (ancOf L) (typedValues nm l L lx lz isX rot) Φ U g) {support : List String}
    (hsup : ∀ st0 : FState Nat, (∀ S : List String, (∀ d ∈ S, d ∈ dataOf L) →
        anticommutes (ind nm.inds) st0 S (fun d => decide (d ∈ R rb)) = bits dataInit S) →
      (Φ^[steps.count Step.gate] (typedValues nm l L lx lz isX rot st0)).1 rb' = bits dataInit support) (o : SetOrder) :
    FixedProgramValues cfg nm l (steps.count Step.round) dataInit rb rb' ancDetectors support
      (signOf rb' (signs kind steps))
      (program fam o nm l (onModel bx) (onModel bz) g steps dataInit rb rb' reset ancDetectors) := by
  have hlog := logicalSupport_of h1 h2 h3 rb
  have hlog' := logicalSupport_of h1 h2 h3 rb'
  have hsub : ∀ rb : Bool, ∀ d ∈ (if rb then lx else lz), d ∈ dataOf L := by
    intro rb
    cases rb
    · exact hc.subZ
    · exact hc.subX
  have hm := memCode_grid hg hr hnum hlog (hsub rb) (hR rb) (hty rb)
  have hm' := memCode_grid hg hr hnum hlog' (hsub rb') (hR rb') (hty rb')
  obtain ⟨ha1, ha2⟩ := hargs.anc _ hg.getQubits_anc
  have hall : ∀ q, q ∈ cfg.anc ↔ q ∈ ancOf L := fun q => ⟨fun hq => by
    obtain ⟨l', hl', hq⟩ := hargs'.anc q hq
    rw [List.mem_singleton] at hl'
    rw [hl', ancOfLayout_grid hg] at hq
    exact hq, ha1 q⟩
  have hst : ∀ rb : Bool, l.getQubits [("role", .str "anc"), ("stab_type", .str (if rb then "x_type" else "z_type"))] =
      .ok (stabsOf L rb) := by
    intro rb
    have := stabQubits_grid hg rb
    unfold stabQubits stabType at this
    cases rb <;> exact this
  have hv2 : ∀ (rb : Bool) (st : FState Nat), ∀ a ∈ stabsOf L rb, (typedValues nm l L lx lz isX rot st).2 a =
      anticommutes (ind nm.inds) st (l.getNeighbors [a] none) (fun d => decide (d ∈ R rb)) := by
    intro rb st a ha
    have ha' : a ∈ ancOf L := stabsOf_sub ha
    show (if a ∈ ancOf L then _ else 0) = _
    rw [if_pos ha']
    exact anticommutes_congr fun d hd => hty rb a ha d hd
  have hv1 : ∀ (rb : Bool) (st : FState Nat), (typedValues nm l L lx lz isX rot st).1 rb =
      anticommutes (ind nm.inds) st (if rb then lx else lz) (fun d => decide (d ∈ R rb)) :=
    fun rb st => anticommutes_congr fun d hd => (hlR rb d hd).symm
  have key := program_values hm hm' hargs.config hargs'.frame hU hall hfi hfr hfm hi
    (fun a ha => hargs'.init l (by simp) a (by rw [ancOfLayout_grid hg]; exact ha))
    (roundG_typed hg hb ht hc) hM
    (fun st st' e1 e2 => typedValues_congr hg hc fun q _ => by rw [e1, e2]; exact ⟨rfl, rfl⟩)
    (hv2 rb') (hv1 rb') hbx (fun _ => rfl) hbz (fun _ => rfl) steps hgate hΦ o ancDetectors ha2
  refine ⟨dataOf L, ancOf L, stabsOf L rb, stabsOf L rb', hg.getQubits_data, hg.getQubits_anc, hst rb, hst rb',
    fun gauge s => ?_⟩
  obtain ⟨c, s', e, hpo, hmo, hval⟩ := key gauge s
  refine ⟨c, s', e, hpo, hmo, fun ζ ρ => ?_⟩
  obtain ⟨st0, hst0, hdet, hobs⟩ := hval ζ ρ
  have hfirst : ∀ a ∈ stabsOf L rb, (typedValues nm l L lx lz isX rot st0).2 a = bits dataInit (l.getNeighbors [a] none) := by
    intro a ha
    rw [hv2 rb st0 a ha]
    exact hst0 _ fun d hd => nbrs_data hg (hm.stabsSub a ha) hd
  constructor
  · cases gauge
    · simp only [Bool.false_eq_true, if_false]
      rw [hdet]
      unfold gateDetectors
      congr 1
      refine List.map_congr_left fun a _ => ?_
      simp only [Bool.false_eq_true, false_or]
      split
      · rename_i h
        exact hfirst a h.2
      · rfl
    · simp only [if_true]
      rw [hdet]
      unfold gateDetectors
      refine ⟨by simp, fun i hi => ?_⟩
      by_cases hil : i < cfg.anc.length
      · rw [List.getElem?_append_left (by simpa using hil), List.getElem?_append_left (by simpa using hil),
          List.getElem?_map, List.getElem?_map]
        obtain ⟨a, hai⟩ : ∃ a, cfg.anc[i]? = some a := ⟨_, List.getElem?_eq_getElem hil⟩
        rw [hai]
        have haa : a ∈ ancOf L := (hall a).1 (List.mem_of_getElem? hai)
        have hi := hi (by omega) a hai
        simp only [Option.map_some, true_or, and_true]
        congr 1
        by_cases hs : a ∈ ancDetectors.getD (ancOf L)
        · have hs' := hi hs haa
          simp only [hs, hs', true_and, if_true]
          exact hfirst a hs'
        · simp only [hs, false_and, if_false]
      · rw [List.getElem?_append_right (by simpa using hil), List.getElem?_append_right (by simpa using hil)]
        simp
  · rw [hobs]
    have hz : typedValues nm l L lx lz isX rot st0 = flipMap 0 (typedValues nm l L lx lz isX rot st0) := by
      refine Prod.ext (funext fun k => ?_) rfl
      exact (add_zero _).symm
    rw [hz, foldl_steps hlin]
    show [(0, (Φ^[steps.count Step.gate] (typedValues nm l L lx lz isX rot st0)).1 rb' + _)] = _
    rw [hsup st0 hst0]
    congr 3
    have hs := foldl_signs kind hk steps 0
    unfold signs
    have h0 : ((0 : Bool → ZMod 2) true, (0 : Bool → ZMod 2) false) = (0, 0) := rfl
    rw [h0] at hs
    rw [← hs]
    cases rb' <;> rfl

/-- Programs without gates. -/
theorem program_plain (hg : OnGrid l L dirs) (hr : CanRun nm l) (hnum : NumCoords l)
    (h1 : l.logQubits = [lab]) (h2 : l.logX = [(lab, lx)]) (h3 : l.logZ = [(lab, lz)])
    (hc : CodeGrid l L lx lz) (ht : Typed l L isX rot) (rb : Bool) {R : Bool → List String}
    (hR : ∀ rb, ∀ d ∈ R rb, d ∈ dataOf L)
    (hty : ∀ rb, ∀ x ∈ stabsOf L rb, ∀ d ∈ l.getNeighbors [x] none, isX x d = decide (d ∈ R rb))
    (hlR : ∀ rb, ∀ d ∈ (if rb then lx else lz), decide (d ∈ R rb) = (if rb then !rot d else rot d))
    {dataInit : Dict String Int} {ancDetectors : Option (List String)}
    (hargs : MemoryArgs cfg nm l dataInit ancDetectors) (hargs' : GateArgs cfg [l] dataInit)
    {fam : Family cfg} {gi iter gm : Gen} {reset : Bool}
    (hfi : fam.init l dataInit rb = activateAndSum l gi)
    (hfr : ∀ sel, fam.round l reset sel = qecRound iter l reset sel)
    (hfm : ∀ sel, fam.meas l rb reset sel = (do
      let sel ← PyM.ofExcept (checkAncDetectors l sel)
      let circuit ← onModel (sumGen gm)
      finishMeas l rb reset sel circuit))
    (hi : InitEff nm (dataOf L) (ancOf L) (R rb) dataInit (sumGen gi))
    (hb : RoundMeasures nm l (sumGen iter) isX reset)
    (hM : MeasEff nm (dataOf L) (R rb) (sumGen gm))
    {bx bz : Call1} (hbx : BlockG nm (ancOf L) (typedValues nm l L lx lz isX rot) (flipMap fun k => if k then 0 else 1) bx)
    (hbz : BlockG nm (ancOf L) (typedValues nm l L lx lz isX rot) (flipMap fun k => if k then 1 else 0) bz)
    (g : PyM (Sim cfg) Circuit) (steps : List Step) (hgate : Step.gate ∉ steps) (o : SetOrder) :
    FixedProgramValues cfg nm l (steps.count Step.round) dataInit rb rb ancDetectors (if rb then lx else lz)
      (signOf rb (signs .none steps))
      (program fam o nm l (onModel bx) (onModel bz) g steps dataInit rb rb reset ancDetectors) := by
  refine program_grid hg hr hnum h1 h2 h3 hc ht rb rb hR hty hlR hargs hargs' hfi hfr hfm hi hb hM hbx hbz
    cleanInvolution_one (Φ := id) (fun w i => by simp [mod2_one]) (M := id) (fun _ _ => rfl) .none
    (fun f rb => by cases rb <;> rfl) steps (fun h => absurd h hgate) (fun st0 h0 => ?_) o
  rw [Function.iterate_id, id_eq, ← h0 (if rb then lx else lz) (by
    cases rb
    · exact hc.subZ
    · exact hc.subX)]
  exact anticommutes_congr fun d hd => (hlR rb d hd).symm

variable {glab : String} {b : Call1} {X Z : (String → ZMod 2) → (String → ZMod 2) → String → ZMod 2}
  {image : Bool → List Bool}

/-- Programs with a gate. -/
theorem program_gate (hg : OnGrid l L dirs) (hr : CanRun nm l) (hnum : NumCoords l)
    (h1 : l.logQubits = [lab]) (h2 : l.logX = [(lab, lx)]) (h3 : l.logZ = [(lab, lz)])
    (hc : CodeGrid l L lx lz) (rb rb' : Bool)
    {dataInit : Dict String Int} {ancDetectors : Option (List String)}
    (hargs : MemoryArgs cfg nm l dataInit ancDetectors) (hargs' : GateArgs cfg [l] dataInit)
    {fam : Family cfg} {gi iter gm : Gen} {reset : Bool}
    (hfi : fam.init l dataInit rb = activateAndSum l gi)
    (hfr : ∀ sel, fam.round l reset sel = qecRound iter l reset sel)
    (hfm : ∀ sel, fam.meas l rb' reset sel = (do
      let sel ← PyM.ofExcept (checkAncDetectors l sel)
      let circuit ← onModel (sumGen gm)
      finishMeas l rb' reset sel circuit))
    (hi : InitEff nm (dataOf L) (ancOf L) (if rb then dataOf L else []) dataInit (sumGen gi))
    (hb : RoundMeasures nm l (sumGen iter) (cssType L) reset)
    (hM : MeasEff nm (dataOf L) (if rb' then dataOf L else []) (sumGen gm))
    {bx bz : Call1}
    (hbx : BlockG nm (ancOf L) (typedValues nm l L lx lz (cssType L) fun _ => false) (flipMap fun k => if k then 0 else 1) bx)
    (hbz : BlockG nm (ancOf L) (typedValues nm l L lx lz (cssType L) fun _ => false) (flipMap fun k => if k then 1 else 0) bz)
    (hgb : GateBlock nm l L lab glab b X Z image) {g : PyM (Sim cfg) Circuit} {D : Dict String (List String)}
    (hDn : D.keys.Nodup) (hD : ∀ a ∈ ancOf L, D.get? a = some (newGen l glab a)) (hk : ∀ a, a ∈ D.keys ↔ a ∈ ancOf L)
    (hgate : ∀ (m m' : MeasState) (s s' : Detectors.State cfg) (c : Circuit), g (m, s) = (.ok c, (m', s')) ↔
      Detectors.updateFromDict D s = (.ok (), s') ∧ b m = (.ok c, m'))
    (kind : GateKind) (hkind : ∀ f rb, flipsOf image f rb = signOf rb (Step.act kind .gate (f true, f false)))
    (o : SetOrder) (steps : List Step) {support : List String}
    (hsup : (steps.count Step.gate % 2 = 0 ∧ rb' = rb ∧ support = if rb then lx else lz) ∨
      (steps.count Step.gate % 2 = 1 ∧ (∀ d ∈ support, d ∈ dataOf L) ∧
        ∀ x z, ((if rb' then lx else lz).map fun q => if rb' then Z x z q else X x z q) =
        support.map fun q => if rb then z q else x q)) :
    FixedProgramValues cfg nm l (steps.count Step.round) dataInit rb rb' ancDetectors support
      (signOf rb' (signs kind steps))
      (program fam o nm l (onModel bx) (onModel bz) g steps dataInit rb rb' reset ancDetectors) := by
  have hn := hargs.config.1
  obtain ⟨ha1, ha2⟩ := hargs.anc _ hg.getQubits_anc
  have hall : ∀ q, q ∈ cfg.anc ↔ q ∈ ancOf L := fun q => ⟨fun hq => by
    obtain ⟨l', hl', hq⟩ := hargs'.anc q hq
    rw [List.mem_singleton] at hl'
    rw [hl', ancOfLayout_grid hg] at hq
    exact hq, ha1 q⟩
  have hsub : ∀ rb : Bool, ∀ d ∈ (if rb then lx else lz), d ∈ dataOf L := by
    intro rb
    cases rb
    · exact hc.subZ
    · exact hc.subX
  have hv := codeValues_typed (nm := nm) hg h2 h3
  obtain ⟨T, hbl⟩ := hgb.block hg hr
  have hgg := gateG_of hn hall hgb.table hDn hD hk hgate hbl
  rw [hv] at hgg
  refine program_grid hg hr hnum h1 h2 h3 hc (typed_css hg) rb rb' (R := fun rb => if rb then dataOf L else []) css_R
    (css_type hg) (css_logR hc) hargs hargs' hfi hfr hfm hi hb hM hbx hbz (clean_genMat hn hall hgb.table)
    (fun w i => gateMap_mulVec hn hall hgb.table w i) (gateMap_flip _ _ _ _) kind hkind steps (fun _ => hgg)
    (fun st0 hst0 => ?_) o
  have hv1 : ∀ (rb : Bool) (st : FState Nat), (typedValues nm l L lx lz (cssType L) (fun _ => false) st).1 rb =
      anticommutes (ind nm.inds) st (if rb then lx else lz) (fun d => decide (d ∈ if rb then dataOf L else [])) :=
    fun rb st => anticommutes_congr fun d hd => (css_logR hc rb d hd).symm
  obtain ⟨⟨st', hst', hxz⟩, htw⟩ := hgb.twice hg hr h2 h3 hc hbl st0
  rw [hv] at hst' htw
  rw [iterate_involution htw]
  rcases hsup with ⟨hn2, rfl, rfl⟩ | ⟨hn2, hsd, hsup⟩
  · rw [if_pos hn2, hv1]
    rw [hst0 _ (hsub rb')]
  · rw [if_neg (by omega), hst', hv1 rb' st', ← hst0 _ hsd]
    have e1 := hsup (fun p => st0.x (ind nm.inds p)) (fun p => st0.z (ind nm.inds p))
    have e2 : anticommutes (ind nm.inds) st' (if rb' then lx else lz) (fun d => decide (d ∈ if rb' then dataOf L else [])) =
        ((if rb' then lx else lz).map fun q => if rb' then Z (fun p => st0.x (ind nm.inds p)) (fun p => st0.z (ind nm.inds p)) q
          else X (fun p => st0.x (ind nm.inds p)) (fun p => st0.z (ind nm.inds p)) q).sum := by
      unfold anticommutes
      congr 1
      refine List.map_congr_left fun d hd => ?_
      have hdd := hsub rb' d hd
      rw [(hxz d hdd).1, (hxz d hdd).2]
      cases rb' <;> simp [hdd]
    rw [e2, e1]
    unfold anticommutes
    congr 1
    refine List.map_congr_left fun d hd => ?_
    have hdd := hsd d hd
    cases rb <;> simp [hdd]

end SurfaceSim
