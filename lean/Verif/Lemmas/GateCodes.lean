/-
Experiments with a transversal gate of one layout.
-/
import Verif.Lemmas.GateMat
import Verif.Lemmas.GateRun
import Verif.Lemmas.MemoryCodes
import Verif.Lemmas.GateEffects
import Verif.Spec.GateExp

namespace SurfaceSim
open Spec NoiseModel Blocks Experiments LayoutLib LogGates

variable {cfg : Detectors.Config} {nm : NoiseModel} {l : Layout} {L : List (String × Site × Kind)}
  {dirs : List (Site × String)} {lab : String} {lx lz : List String}

/-- Values of the logical operators and stabilizers of a layout. -/
def codeValues (nm : NoiseModel) (l : Layout) (L : List (String × Site × Kind)) (lab : String) : FState Nat → Values Bool :=
  valuesOf (fun isX st => logicalValue (ind nm.inds) l lab isX st) (stabValue (ind nm.inds) [l]) (ancOf L)

theorem stabValue_css (hg : OnGrid l L dirs) (ι : String → Nat) (st : FState Nat) (a : String) :
    stabValue ι [l] st a = anticommutes ι st (l.getNeighbors [a] none) (cssType L a) := by
  unfold stabValue cssType
  simp [xOfLayout_grid hg]

/-- The values depend on the data qubits only. -/
theorem codeValues_congr (hg : OnGrid l L dirs) (hx : l.logX = [(lab, lx)]) (hz : l.logZ = [(lab, lz)])
    (hc : CodeGrid l L lx lz) {st st' : FState Nat}
    (h : ∀ q ∈ dataOf L, st.x (ind nm.inds q) = st'.x (ind nm.inds q) ∧ st.z (ind nm.inds q) = st'.z (ind nm.inds q)) :
    codeValues nm l L lab st = codeValues nm l L lab st' := by
  have key : ∀ (S : List String) (τ : String → Bool), (∀ d ∈ S, d ∈ dataOf L) →
      anticommutes (ind nm.inds) st S τ = anticommutes (ind nm.inds) st' S τ := by
    intro S τ hS
    unfold anticommutes
    congr 1
    refine List.map_congr_left fun d hd => ?_
    rw [(h d (hS d hd)).1, (h d (hS d hd)).2]
  refine Prod.ext (funext fun isX => ?_) (funext fun a => ?_)
  · show logicalValue _ _ _ _ _ = logicalValue _ _ _ _ _
    unfold logicalValue
    refine key _ _ ?_
    cases isX
    · simp only [hz, Dict.get?, Bool.false_eq_true, if_false]
      simpa using hc.subZ
    · simp only [hx, Dict.get?, if_true]
      simpa using hc.subX
  · show (if a ∈ ancOf L then _ else 0) = (if a ∈ ancOf L then _ else 0)
    split
    · rename_i ha
      rw [stabValue_css hg, stabValue_css hg]
      exact key _ _ fun d hd => nbrs_data hg ha hd
    · rfl

theorem roundG_grid (hg : OnGrid l L dirs) {b : Call1} {reset : Bool} (h : RoundMeasures nm l b (cssType L) reset)
    (hx : l.logX = [(lab, lx)]) (hz : l.logZ = [(lab, lz)]) (hc : CodeGrid l L lx lz) :
    RoundG nm (ancOf L) (codeValues nm l L lab) reset b := by
  obtain ⟨data, anc, hd, ha, h⟩ := h
  have h1 : data = dataOf L := by have := hg.getQubits_data; rw [hd] at this; exact Except.ok.inj this
  have h2 : anc = ancOf L := by have := hg.getQubits_anc; rw [ha] at this; exact Except.ok.inj this
  subst h1; subst h2
  intro s hist hs
  obtain ⟨c, s', e, hp, ht, hm, h⟩ := h s hist hs
  refine ⟨c, s', e, ht, hp, hm, fun ρ st => ?_⟩
  have m := h ρ st
  have hv : ∀ st : FState Nat, ∀ a ∈ ancOf L, (codeValues nm l L lab st).2 a =
      anticommutes (ind nm.inds) st (l.getNeighbors [a] none) (cssType L a) := by
    intro st a ha
    show (if a ∈ ancOf L then _ else 0) = _
    rw [if_pos ha, stabValue_css hg]
  have hout : ∀ a ∈ ancOf L, (if reset then 0 else st.x (ind nm.inds a)) + (codeValues nm l L lab st).2 a =
      ancOutcome (ind nm.inds) reset st (fun x => l.getNeighbors [x] none) (cssType L) a := by
    intro a ha
    rw [hv st a ha]
    rfl
  refine ⟨?_, fun a ha => ?_, ?_, m.dets, m.obs⟩
  · rw [m.recs]
    congr 2
    exact List.map_congr_left fun a ha => (hout a ha).symm
  · rw [m.ancilla a ha, ← hout a ha]
  · have ht' := typed_css hg
    refine Prod.ext (funext fun isX => ?_) (funext fun a => ?_)
    · show logicalValue _ _ _ _ _ = logicalValue _ _ _ _ _
      unfold logicalValue
      cases isX
      · have := MeasuresStabs.invariant m hc.subZ (hc.logicalZ ht')
        simpa [hz, Dict.get?] using this
      · have := MeasuresStabs.invariant m hc.subX (hc.logicalX ht')
        simpa [hx, Dict.get?] using this
    · show (if a ∈ ancOf L then _ else 0) = (if a ∈ ancOf L then _ else 0)
      split
      · rename_i ha
        rw [stabValue_css hg, stabValue_css hg]
        exact MeasuresStabs.invariant m (fun d hd => nbrs_data hg ha hd) (hc.stabs hg ht' ha)
      · rfl

/-- What has to be known about the block of a gate. -/
structure GateBlock (nm : NoiseModel) (l : Layout) (L : List (String × Site × Kind)) (lab glab : String)
    (b : Call1) (X Z : (String → ZMod 2) → (String → ZMod 2) → String → ZMod 2) (image : Bool → List Bool) : Prop where
  acts : Acts nm b X Z
  pairs : ∀ (s : MeasState) (hist : List String), s.Tracks nm.inds hist → ∃ c s', b s = (.ok c, s') ∧ PairsOk c
  inv : ∀ x z, ∀ q ∈ dataOf L, X (X x z) (Z x z) q = x q ∧ Z (X x z) (Z x z) q = z q
  local' : ∀ x z x' z', (∀ q ∈ dataOf L, x q = x' q ∧ z q = z' q) → ∀ q ∈ dataOf L, X x z q = X x' z' q ∧ Z x z q = Z x' z' q
  off : ∀ x z q, q ∉ dataOf L → X x z q = x q
  stabs : AppliesGate nm [l] glab b
  logs : ∀ k, MapsLogical nm [l] b l lab k ((image k).map fun i => (l, lab, i))
  table : GoodTable (ancOf L) (newGen l glab)

variable {glab : String} {b : Call1} {X Z : (String → ZMod 2) → (String → ZMod 2) → String → ZMod 2}
  {image : Bool → List Bool}

theorem GateBlock.block (hg : OnGrid l L dirs) (hr : CanRun nm l) (h : GateBlock nm l L lab glab b X Z image) :
    ∃ T : Bool → List String,
      BlockG nm (ancOf L) (codeValues nm l L lab) (gateMap (newGen l glab) (ancOf L) image T) b := by
  choose T hT hlog using h.logs
  refine ⟨T, blockG_of h.table (fun k a ha => ?_) fun s hist hs => ?_⟩
  · obtain ⟨l', hl', ha⟩ := hT k a ha
    rw [List.mem_singleton] at hl'
    rw [hl', ancOfLayout_grid hg] at ha
    exact ha
  · obtain ⟨c, s', e, ht, -, hc⟩ := h.stabs s hist hs
    obtain ⟨c', s'', e', hp⟩ := h.pairs s hist hs
    cases e.symm.trans e'
    refine ⟨c, s', e, hp, ht, fun ρ st => ?_⟩
    obtain ⟨r1, r2, r3, r4, r5⟩ := hc ρ st
    refine ⟨r1, r2, r3, fun a ha => (r4 a ?_ fun l' hl' => ?_).1, fun a ha => ?_, fun k => ?_⟩
    · exact grid_known hr hg a (List.mem_append_right _ ha)
    · rw [List.mem_singleton] at hl'
      rw [hl', dataOfLayout_grid hg]
      exact fun hd => (List.nodup_append.1 (data_anc_nodup hg)).2.2 a hd a ha rfl
    · exact r5 l (by simp) a (by rw [ancOfLayout_grid hg]; exact ha)
    · obtain ⟨c'', s3, e3, hc3⟩ := hlog k s hist hs
      cases e.symm.trans e3
      rw [hc3 ρ st, List.map_map]
      rfl

/-- The block acts on the values as an involution. -/
theorem GateBlock.twice (hg : OnGrid l L dirs) (hr : CanRun nm l) (hx : l.logX = [(lab, lx)]) (hz : l.logZ = [(lab, lz)])
    (hc : CodeGrid l L lx lz) (h : GateBlock nm l L lab glab b X Z image) {Φ : Values Bool → Values Bool}
    (hb : BlockG nm (ancOf L) (codeValues nm l L lab) Φ b) (st : FState Nat) :
    (∃ st', Φ (codeValues nm l L lab st) = codeValues nm l L lab st' ∧ ∀ q ∈ dataOf L,
      st'.x (ind nm.inds q) = X (fun p => st.x (ind nm.inds p)) (fun p => st.z (ind nm.inds p)) q ∧
      st'.z (ind nm.inds q) = Z (fun p => st.x (ind nm.inds p)) (fun p => st.z (ind nm.inds p)) q) ∧
    Φ (Φ (codeValues nm l L lab st)) = codeValues nm l L lab st := by
  obtain ⟨c, s', e, -, -, r⟩ := hb _ _ (MeasState.tracks_fresh nm.inds)
  obtain ⟨c', s'', e', -, -, k⟩ := h.acts _ _ (MeasState.tracks_fresh nm.inds)
  cases e.symm.trans e'
  have hk : ∀ q ∈ dataOf L, q ∈ nm.inds.keys := fun q hq => grid_known hr hg q (List.mem_append_left _ hq)
  have k1 := fun st q hq => (k 0 st).2.2.2 q (hk q hq)
  refine ⟨⟨_, (r 0 st).2.2.2.2.symm, k1 st⟩, ?_⟩
  rw [← (r 0 st).2.2.2.2, ← (r 0 _).2.2.2.2]
  refine codeValues_congr hg hx hz hc fun q hq => ?_
  obtain ⟨a1, a2⟩ := k1 (run 0 st (ops c)) q hq
  rw [a1, a2]
  have := h.local' _ _ _ _ (k1 st) q hq
  rw [this.1, this.2]
  exact h.inv _ _ q hq

/-- Experiments with such a gate. -/
theorem gateExp_grid (hg : OnGrid l L dirs) (hr : CanRun nm l) (hnum : NumCoords l)
    (h1 : l.logQubits = [lab]) (h2 : l.logX = [(lab, lx)]) (h3 : l.logZ = [(lab, lz)])
    (hc : CodeGrid l L lx lz) (rb rb' : Bool)
    {dataInit : Dict String Int} {ancDetectors : Option (List String)}
    (hargs : MemoryArgs cfg nm l dataInit ancDetectors) (hargs' : GateArgs cfg [l] dataInit)
    {fam : Family cfg} {gi iter gm : Gen} {reset : Bool}
    (hfi : fam.init l dataInit rb = activateAndSum l gi)
    (hfr : ∀ sel, fam.round l reset sel = qecRound iter l reset sel)
    (hfm : ∀ sel, fam.meas l rb' reset sel = (do
      let sel ← PyM.ofExcept (checkAncDetectors l sel)
      let circuit ← onModel (sumGen gm)
      finishMeas l rb' reset sel circuit))
    (hi : InitEff nm (dataOf L) (ancOf L) (if rb then dataOf L else []) dataInit (sumGen gi))
    (hb : RoundMeasures nm l (sumGen iter) (cssType L) reset)
    (hM : MeasEff nm (dataOf L) (if rb' then dataOf L else []) (sumGen gm))
    (hgb : GateBlock nm l L lab glab b X Z image) {g : PyM (Sim cfg) Circuit} {D : Dict String (List String)}
    (hDn : D.keys.Nodup) (hD : ∀ a ∈ ancOf L, D.get? a = some (newGen l glab a)) (hk : ∀ a, a ∈ D.keys ↔ a ∈ ancOf L)
    (hgate : ∀ (m m' : MeasState) (s s' : Detectors.State cfg) (c : Circuit), g (m, s) = (.ok c, (m', s')) ↔
      Detectors.updateFromDict D s = (.ok (), s') ∧ b m = (.ok c, m'))
    (o : SetOrder) (n m : Nat) {support : List String}
    (hsup : (n % 2 = 0 ∧ rb' = rb ∧ support = if rb then lx else lz) ∨
      (n % 2 = 1 ∧ (∀ d ∈ support, d ∈ dataOf L) ∧ ∀ x z, ((if rb' then lx else lz).map fun q => if rb' then Z x z q else X x z q) =
        support.map fun q => if rb then z q else x q)) :
    FixedGateValues cfg nm l (n * m) dataInit rb rb' ancDetectors support
      (gateExp fam o nm l g n m dataInit rb rb' reset ancDetectors) := by
  have hlog := logicalSupport_of h1 h2 h3 rb
  have hlog' := logicalSupport_of h1 h2 h3 rb'
  have hsub : ∀ rb : Bool, ∀ d ∈ (if rb then lx else lz), d ∈ dataOf L := by
    intro rb
    cases rb
    · exact hc.subZ
    · exact hc.subX
  have hm := memCode_grid hg hr hnum hlog (hsub rb) (css_R rb) (css_type hg rb)
  have hm' := memCode_grid hg hr hnum hlog' (hsub rb') (css_R rb') (css_type hg rb')
  obtain ⟨ha1, ha2⟩ := hargs.anc _ hg.getQubits_anc
  have hn := hargs.config.1
  have hall : ∀ q, q ∈ cfg.anc ↔ q ∈ ancOf L := fun q => ⟨fun hq => by
    obtain ⟨l', hl', hq⟩ := hargs'.anc q hq
    rw [List.mem_singleton] at hl'
    rw [hl', ancOfLayout_grid hg] at hq
    exact hq, ha1 q⟩
  obtain ⟨T, hbl⟩ := hgb.block hg hr
  have hst : ∀ rb : Bool, l.getQubits [("role", .str "anc"), ("stab_type", .str (if rb then "x_type" else "z_type"))] =
      .ok (stabsOf L rb) := by
    intro rb
    have := stabQubits_grid hg rb
    unfold stabQubits stabType at this
    cases rb <;> exact this
  have hv2 : ∀ (rb : Bool) (st : FState Nat), ∀ a ∈ stabsOf L rb, (codeValues nm l L lab st).2 a =
      anticommutes (ind nm.inds) st (l.getNeighbors [a] none) (fun d => decide (d ∈ if rb then dataOf L else [])) := by
    intro rb st a ha
    have ha' : a ∈ ancOf L := (memCode_grid hg hr hnum (logicalSupport_of h1 h2 h3 rb) (hsub rb) (css_R rb)
      (css_type hg rb)).stabsSub a ha
    show (if a ∈ ancOf L then _ else 0) = _
    rw [if_pos ha', stabValue_css hg]
    exact anticommutes_congr fun d hd => css_type hg rb a ha d hd
  have hv1 : ∀ (rb : Bool) (st : FState Nat), (codeValues nm l L lab st).1 rb =
      anticommutes (ind nm.inds) st (if rb then lx else lz) (fun d => decide (d ∈ if rb then dataOf L else [])) := by
    intro rb st
    show logicalValue _ _ _ _ _ = _
    unfold logicalValue
    have : ((if rb then l.logX else l.logZ).get? lab).getD [] = if rb then lx else lz := by
      cases rb
      · simp [h3, Dict.get?]
      · simp [h2, Dict.get?]
    rw [this]
    refine anticommutes_congr fun d hd => ?_
    have := css_logR hc rb d hd
    rw [this]
    cases rb <;> rfl
  have key := gate_values hm hm' hargs.config hargs'.frame (clean_genMat hn hall hgb.table) hall hfi hfr hfm hi
    (fun a ha => hargs'.init l (by simp) a (by rw [ancOfLayout_grid hg]; exact ha))
    (roundG_grid hg hb h2 h3 hc) hM
    (fun st st' e1 e2 => codeValues_congr hg h2 h3 hc fun q _ => by rw [e1, e2]; exact ⟨rfl, rfl⟩)
    (hv2 rb') (hv1 rb') (gateG_of hn hall hgb.table hDn hD hk hgate hbl)
    (fun w i => gateMap_mulVec hn hall hgb.table w i) o ancDetectors ha2
  refine ⟨dataOf L, ancOf L, stabsOf L rb, stabsOf L rb', hg.getQubits_data, hg.getQubits_anc, hst rb, hst rb',
    fun gauge s => ?_⟩
  obtain ⟨c, s', e, hpo, -, hmo, hval⟩ := key gauge n m s
  refine ⟨c, s', e, hpo, hmo, fun ζ ρ => ?_⟩
  obtain ⟨st0, hst0, hdet, hobs⟩ := hval ζ ρ
  have hfirst : ∀ a ∈ stabsOf L rb, (codeValues nm l L lab st0).2 a = bits dataInit (l.getNeighbors [a] none) := by
    intro a ha
    rw [hv2 rb st0 a ha]
    exact hst0 _ fun d hd => nbrs_data hg (hm.stabsSub a ha) hd
  constructor
  · cases gauge
    · simp only [Bool.false_eq_true, if_false]
      rw [hdet]
      unfold gateDetectors
      congr 1
      refine List.map_congr_left fun a _ => ?_
      simp only [Bool.false_eq_true, false_or]
      split
      · rename_i h
        exact hfirst a h.2
      · rfl
    · simp only [if_true]
      rw [hdet]
      unfold gateDetectors
      refine ⟨by simp, fun i hi => ?_⟩
      by_cases hil : i < cfg.anc.length
      · rw [List.getElem?_append_left (by simpa using hil), List.getElem?_append_left (by simpa using hil),
          List.getElem?_map, List.getElem?_map]
        obtain ⟨a, hai⟩ : ∃ a, cfg.anc[i]? = some a := ⟨_, List.getElem?_eq_getElem hil⟩
        rw [hai]
        have haa : a ∈ ancOf L := (hall a).1 (List.mem_of_getElem? hai)
        have hi := hi (by omega) a hai
        simp only [Option.map_some, true_or, and_true]
        congr 1
        by_cases hs : a ∈ ancDetectors.getD (ancOf L)
        · have hs' := hi hs haa
          simp only [hs, hs', true_and, if_true]
          exact hfirst a hs'
        · simp only [hs, false_and, if_false]
      · rw [List.getElem?_append_right (by simpa using hil), List.getElem?_append_right (by simpa using hil)]
        simp
  · obtain ⟨⟨st', hst', hxz⟩, htw⟩ := hgb.twice hg hr h2 h3 hc hbl st0
    rw [hobs, iterate_involution htw]
    rcases hsup with ⟨hn2, rfl, rfl⟩ | ⟨hn2, hsd, hsup⟩
    · rw [if_pos hn2, hv1]
      rw [hst0 _ (hsub rb')]
    · rw [if_neg (by omega), hst', hv1 rb' st', ← hst0 _ hsd]
      congr 2
      have e1 := hsup (fun p => st0.x (ind nm.inds p)) (fun p => st0.z (ind nm.inds p))
      have e2 : anticommutes (ind nm.inds) st' (if rb' then lx else lz) (fun d => decide (d ∈ if rb' then dataOf L else [])) =
          ((if rb' then lx else lz).map fun q => if rb' then Z (fun p => st0.x (ind nm.inds p)) (fun p => st0.z (ind nm.inds p)) q
            else X (fun p => st0.x (ind nm.inds p)) (fun p => st0.z (ind nm.inds p)) q).sum := by
        unfold anticommutes
        congr 1
        refine List.map_congr_left fun d hd => ?_
        have hdd := hsub rb' d hd
        rw [(hxz d hdd).1, (hxz d hdd).2]
        cases rb' <;> simp [hdd]
      rw [e2, e1]
      unfold anticommutes
      congr 1
      refine List.map_congr_left fun d hd => ?_
      have hdd := hsd d hd
      cases rb <;> simp [hdd]

end SurfaceSim
