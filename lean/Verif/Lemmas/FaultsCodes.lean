/-
Memory experiments with faults on the generated layouts.
-/
import Verif.Lemmas.FaultsHooks
import Verif.Lemmas.Record

namespace SurfaceSim
open Spec NoiseModel Blocks Experiments LayoutLib

variable {cfg : Detectors.Config} {nm : NoiseModel} {l : Layout} {L : List (String × Site × Kind)}
  {dirs : List (Site × String)} {J : Type} {V : Site → Kind → Prop} {P : J → Site → Prop}

/-- Which gates spread faults to a line, from the types. -/
theorem differ_typed (hg : OnGrid l L dirs) {τ : String → String → Bool}
    {Fs : List (List (String × String))} {steps : List (Kind → List Site)} (h : List.Forall₂ (Single L) Fs steps)
    (hdir : ∀ st ∈ steps, ∀ k, ∀ σ ∈ st k, ∃ dir, (σ, dir) ∈ dirs) {R : Bool → List String} {rb : Bool}
    (hty : ∀ rb, ∀ x ∈ stabsOf L rb, ∀ d ∈ l.getNeighbors [x] none, τ x d = decide (d ∈ R rb))
    (hcompl : ∀ d ∈ dataOf L, decide (d ∈ R (!rb)) = !decide (d ∈ R rb)) :
    ∀ F ∈ Fs, ∀ e ∈ F, ∀ s k, (e.1, s, k) ∈ L → differ τ (fun d => decide (d ∈ R rb)) e = spreads rb k := by
  intro F hFm e he s k ha
  obtain ⟨st, hst, hl⟩ : ∃ st ∈ steps, Single L F st := by
    clear hdir
    induction h with
    | nil => simp at hFm
    | @cons F' st Fs steps h1 h2 ih =>
      rcases List.mem_cons.1 hFm with rfl | hFm
      · exact ⟨st, by simp, h1⟩
      · obtain ⟨st', h3, h4⟩ := ih hFm
        exact ⟨st', by simp [h3], h4⟩
  obtain ⟨a, d⟩ := e
  obtain ⟨s', k', σ, ha', hk, hσ, hd⟩ := (hl.1.mem a d).1 he
  obtain ⟨rfl, rfl⟩ := hg.unique ha' ha
  obtain ⟨dir, hdir⟩ := hdir st hst _ σ hσ
  have hn : d ∈ l.getNeighbors [a] none := (hg.mem_neighbors_anc ha hk).2 ⟨σ, dir, hdir, hd⟩
  have hdd : d ∈ dataOf L := mem_dataOf.2 ⟨_, hd⟩
  have key : ∀ rb', a ∈ stabsOf L rb' → differ τ (fun d => decide (d ∈ R rb)) (a, d) = xor rb rb' := by
    intro rb' hm
    unfold differ
    simp only
    rw [hty rb' a hm d hn]
    by_cases hbb : rb' = rb
    · subst hbb; simp
    · have : rb' = !rb := by revert hbb; cases rb <;> cases rb' <;> simp
      rw [this, hcompl d hdd]
      cases decide (d ∈ R rb) <;> cases rb <;> rfl
  unfold spreads
  cases k' with
  | data => exact absurd rfl hk
  | x => exact key true (mem_xOf.2 ⟨_, ha⟩)
  | z => exact key false (mem_zOf.2 ⟨_, ha⟩)

/-- Rounds whose ancillas have types. -/
theorem roundPres_typed (hg : OnGrid l L dirs) (hr : CanRun nm l) (hV : Sites L V)
    {τ : String → String → Bool} {S0 S1 S2 S3 : List String} {E0 E1 E2 : List (String × String)}
    (hc : Coherent (fun q => decide (q ∈ ancOf L)) τ S0 S1 S2 S3 E0 E1 E2) {reset : Bool} {b : Call1}
    (hb : Does nm.inds b (roundOps reset (ancOf L) (coherentOps S0 S1 S2 S3 E0 E1 E2)))
    {Fs : List (List (String × String))} {steps : List (Kind → List Site)} (h : List.Forall₂ (Single L) Fs steps)
    (hF : E0 ++ E1 ++ E2 = Fs.flatten) (hdir : ∀ st ∈ steps, ∀ k, ∀ σ ∈ st k, ∃ dir, (σ, dir) ∈ dirs)
    {R : Bool → List String} {rb : Bool}
    (hty : ∀ rb, ∀ x ∈ stabsOf L rb, ∀ d ∈ l.getNeighbors [x] none, τ x d = decide (d ∈ R rb))
    (hcompl : ∀ d ∈ dataOf L, decide (d ∈ R (!rb)) = !decide (d ∈ R rb))
    (hone : ∀ s, AtMostOne fun j => P j s)
    (hs : SiteHooks V (spreads rb) P steps) (h0 : ∀ s k, V s k → k ≠ .data → ∀ j, siteW V (spreads rb) (P j) steps s k = 0) :
    RoundPres nm (ancOf L) nm.inds.keys.toFinset (fun j => fn (fun d => decide (d ∈ R rb)) (onLine L (P j))) b := by
  exact roundPres_layers hg hV (CanRun.usable hr hg).known hc hb h hF (differ_typed hg h hdir hty hcompl) hone hs h0

theorem css_compl (rb : Bool) : ∀ d ∈ dataOf L,
    decide (d ∈ (if (!rb) = true then dataOf L else [])) = !decide (d ∈ (if rb = true then dataOf L else [])) := by
  intro d hd; cases rb <;> simp [hd]

variable {a : Args} {dx dz : Int}

theorem IsRot.xzzx_compl (h : IsRot a dx dz l) (hdx : 2 ≤ dx) (hdz : 2 ≤ dz) (rb : Bool) : ∀ d ∈ dataOf (rotEntries a dx dz),
    decide (d ∈ xzzxR l (rotEntries a dx dz) (!rb)) = !decide (d ∈ xzzxR l (rotEntries a dx dz) rb) := by
  intro d hd
  have h1 := h.mem_xzzxR hdx hdz rb hd
  have h2 := h.mem_xzzxR hdx hdz (!rb) hd
  simp only [h1, h2]
  cases xzzxRotated l (zOf (rotEntries a dx dz)) d <;> cases rb <;> rfl

theorem rotSteps_dirs : ∀ st ∈ rotSteps, ∀ k, ∀ σ ∈ st k, ∃ dir, (σ, dir) ∈ names rotDirs := by
  intro st hst k σ hσ
  have : σ ∈ ([(1, 1), (1, -1), (-1, 1), (-1, -1)] : List Site) := by
    simp only [rotSteps, List.mem_cons, List.not_mem_nil, or_false] at hst
    rcases hst with rfl | rfl | rfl | rfl <;> cases k <;> simp [czSh] at hσ <;> subst hσ <;> decide
  simp only [List.mem_cons, List.not_mem_nil, or_false] at this
  rcases this with rfl | rfl | rfl | rfl
  · exact ⟨"north_east", by decide⟩
  · exact ⟨"north_west", by decide⟩
  · exact ⟨"south_east", by decide⟩
  · exact ⟨"south_west", by decide⟩

theorem rotStepsPipe_dirs : ∀ st ∈ rotStepsPipe, ∀ k, ∀ σ ∈ st k, ∃ dir, (σ, dir) ∈ names rotDirs := by
  intro st hst k σ hσ
  have : σ ∈ ([(1, 1), (1, -1), (-1, 1), (-1, -1)] : List Site) := by
    simp only [rotStepsPipe, List.mem_cons, List.not_mem_nil, or_false] at hst
    rcases hst with rfl | rfl | rfl | rfl | rfl | rfl | rfl | rfl <;> cases k <;> simp [oneSh] at hσ <;> subst hσ <;> decide
  simp only [List.mem_cons, List.not_mem_nil, or_false] at this
  rcases this with rfl | rfl | rfl | rfl
  · exact ⟨"north_east", by decide⟩
  · exact ⟨"north_west", by decide⟩
  · exact ⟨"south_east", by decide⟩
  · exact ⟨"south_west", by decide⟩

theorem unrotSteps_dirs : ∀ st ∈ unrotSteps, ∀ k, ∀ σ ∈ st k, ∃ dir, (σ, dir) ∈ names unrotDirs := by
  intro st hst k σ hσ
  have : σ ∈ ([(0, 1), (0, -1), (1, 0), (-1, 0)] : List Site) := by
    simp only [unrotSteps, List.mem_cons, List.not_mem_nil, or_false] at hst
    rcases hst with rfl | rfl | rfl | rfl <;> cases k <;> simp [czSh] at hσ <;> subst hσ <;> decide
  simp only [List.mem_cons, List.not_mem_nil, or_false] at this
  rcases this with rfl | rfl | rfl | rfl
  · exact ⟨"north", by decide⟩
  · exact ⟨"south", by decide⟩
  · exact ⟨"east", by decide⟩
  · exact ⟨"west", by decide⟩

theorem IsRot.single_layers (h : IsRot a dx dz l) : List.Forall₂ (Single (rotEntries a dx dz))
    [czPairs l (rotEntries a dx dz) "north_east" "north_east", czPairs l (rotEntries a dx dz) "north_west" "south_east",
      czPairs l (rotEntries a dx dz) "south_east" "north_west", czPairs l (rotEntries a dx dz) "south_west" "south_west"]
    rotSteps :=
  .cons (single_cz h.grid (by decide) (by decide)) (.cons (single_cz h.grid (by decide) (by decide))
    (.cons (single_cz h.grid (by decide) (by decide)) (.cons (single_cz h.grid (by decide) (by decide)) .nil)))

theorem IsUnrot.single_layers (h : IsUnrot a dx dz l) : List.Forall₂ (Single (unrotEntries a dx dz))
    [czPairs l (unrotEntries a dx dz) "north" "north", czPairs l (unrotEntries a dx dz) "west" "east",
      czPairs l (unrotEntries a dx dz) "east" "west", czPairs l (unrotEntries a dx dz) "south" "south"]
    unrotSteps :=
  .cons (single_cz h.grid (by decide) (by decide)) (.cons (single_cz h.grid (by decide) (by decide))
    (.cons (single_cz h.grid (by decide) (by decide)) (.cons (single_cz h.grid (by decide) (by decide)) .nil)))

theorem IsRot.single_pipe (h : IsRot a dx dz l) : List.Forall₂ (Single (rotEntries a dx dz))
    [l.getNeighborPairs (xOf (rotEntries a dx dz)) (some "north_east"), l.getNeighborPairs (xOf (rotEntries a dx dz)) (some "north_west"),
      l.getNeighborPairs (xOf (rotEntries a dx dz)) (some "south_east"), l.getNeighborPairs (xOf (rotEntries a dx dz)) (some "south_west"),
      l.getNeighborPairs (zOf (rotEntries a dx dz)) (some "north_east"), l.getNeighborPairs (zOf (rotEntries a dx dz)) (some "south_east"),
      l.getNeighborPairs (zOf (rotEntries a dx dz)) (some "north_west"), l.getNeighborPairs (zOf (rotEntries a dx dz)) (some "south_west")]
    rotStepsPipe :=
  .cons (single_x h.grid (by decide)) (.cons (single_x h.grid (by decide)) (.cons (single_x h.grid (by decide))
    (.cons (single_x h.grid (by decide)) (.cons (single_z h.grid (by decide)) (.cons (single_z h.grid (by decide))
      (.cons (single_z h.grid (by decide)) (.cons (single_z h.grid (by decide)) .nil)))))))

theorem IsRot.css_pres (h : IsRot a dx dz l) (hdz : 2 ≤ dz) (hr : CanRun nm l) (o : SetOrder) (reset rb : Bool) (n : Nat) :
    RoundPres nm (ancOf (rotEntries a dx dz)) nm.inds.keys.toFinset
      (fun j : Fin n => fn (fun d => decide (d ∈ (if rb then dataOf (rotEntries a dx dz) else [])))
        (onLine (rotEntries a dx dz) (rotLine rb j)))
      (sumGen (cssIter "rotated_surface_code" o nm l reset)) := by
  have hd := css_does hr.faithful h.grid (CanRun.usable hr h.grid) o h.order reset
  rw [h.code] at hd
  exact roundPres_typed h.grid hr (rot_sites a dx dz) (rot_css_coherent h hdz o) hd h.single_layers (by simp) rotSteps_dirs
    (R := fun rb => if rb then dataOf (rotEntries a dx dz) else []) (rb := rb) (css_type h.grid) (css_compl rb)
    (atMostOne_rot rb n) (rot_hooks rb n) (fun s k hv hk j => rot_zero rb s k hv hk j)

theorem IsUnrot.css_pres (h : IsUnrot a dx dz l) (hdz : 2 ≤ dz) (hr : CanRun nm l) (o : SetOrder) (reset rb : Bool) (n : Nat) :
    RoundPres nm (ancOf (unrotEntries a dx dz)) nm.inds.keys.toFinset
      (fun j : Fin n => fn (fun d => decide (d ∈ (if rb then dataOf (unrotEntries a dx dz) else [])))
        (onLine (unrotEntries a dx dz) (unrotLine rb j)))
      (sumGen (cssIter "unrotated_surface_code" o nm l reset)) := by
  have hd := css_does hr.faithful h.grid (CanRun.usable hr h.grid) o h.order reset
  rw [h.code] at hd
  exact roundPres_typed h.grid hr (unrot_sites a dx dz) (unrot_css_coherent h hdz o) hd h.single_layers (by simp) unrotSteps_dirs
    (R := fun rb => if rb then dataOf (unrotEntries a dx dz) else []) (rb := rb) (css_type h.grid) (css_compl rb)
    (atMostOne_unrot rb n) (unrot_hooks rb n) (fun s k hv hk j => unrot_zero rb s k hv hk j)

theorem IsRot.cssPipe_pres (h : IsRot a dx dz l) (hr : CanRun nm l) (o : SetOrder) (reset rb : Bool) (n : Nat) :
    RoundPres nm (ancOf (rotEntries a dx dz)) nm.inds.keys.toFinset
      (fun j : Fin n => fn (fun d => decide (d ∈ (if rb then dataOf (rotEntries a dx dz) else [])))
        (onLine (rotEntries a dx dz) (rotLine rb j)))
      (sumGen (cssPipeIter o nm l reset)) := by
  have hg := h.grid
  have k1 : ∀ q ∈ cssPipeRot (dataOf (rotEntries a dx dz)) "x_type" (xOf (rotEntries a dx dz)),
      ∃ s k, (q, s, k) ∈ rotEntries a dx dz := by
    unfold cssPipeRot
    rw [if_pos rfl]
    intro q hq
    rcases mem_union.1 hq with hq | hq
    · exact (at_x hg).sub q (mem_setOf.1 hq)
    · exact (at_data hg).sub q hq
  have k2 : ∀ q ∈ cssPipeRot (dataOf (rotEntries a dx dz)) "z_type" (zOf (rotEntries a dx dz)),
      ∃ s k, (q, s, k) ∈ rotEntries a dx dz := by
    unfold cssPipeRot
    rw [if_neg (by decide)]
    intro q hq
    exact (at_z hg).sub q (mem_setOf.1 hq)
  exact roundPres_typed h.grid hr (rot_sites a dx dz) (rot_cssPipe_coherent h o)
    (pipe_does hr.faithful hg (CanRun.usable hr hg) o h.code h.order reset cssPipeRot k1 k2) h.single_pipe (by simp [pairs4])
    rotStepsPipe_dirs
    (R := fun rb => if rb then dataOf (rotEntries a dx dz) else []) (rb := rb) (css_type h.grid) (css_compl rb)
    (atMostOne_rot rb n) (rot_hooks_pipe rb n) (fun s k hv hk j => rot_zero_pipe rb s k hv hk j)

theorem IsRot.xzzxPipe_pres (h : IsRot a dx dz l) (hdx : 2 ≤ dx) (hdz : 2 ≤ dz) (hr : CanRun nm l) (o : SetOrder) (reset rb : Bool) (n : Nat) :
    RoundPres nm (ancOf (rotEntries a dx dz)) nm.inds.keys.toFinset
      (fun j : Fin n => fn (fun d => decide (d ∈ xzzxR l (rotEntries a dx dz) rb))
        (onLine (rotEntries a dx dz) (rotLine rb j)))
      (sumGen (xzzxPipeIter o nm l reset)) := by
  have hg := h.grid
  have k1 : ∀ q ∈ xzzxPipeRot l (dataOf (rotEntries a dx dz)) "x_type" (xOf (rotEntries a dx dz)),
      ∃ s k, (q, s, k) ∈ rotEntries a dx dz := by
    intro q hq
    rcases mem_union.1 hq with hq | hq
    · exact (at_x hg).sub q (mem_setOf.1 hq)
    · exact diagonal_known hg hq
  have k2 : ∀ q ∈ xzzxPipeRot l (dataOf (rotEntries a dx dz)) "z_type" (zOf (rotEntries a dx dz)),
      ∃ s k, (q, s, k) ∈ rotEntries a dx dz := by
    intro q hq
    rcases mem_union.1 hq with hq | hq
    · exact (at_z hg).sub q (mem_setOf.1 hq)
    · exact diagonal_known hg hq
  exact roundPres_typed h.grid hr (rot_sites a dx dz) (rot_xzzxPipe_coherent h hdx hdz o)
    (pipe_does hr.faithful hg (CanRun.usable hr hg) o h.code h.order reset (xzzxPipeRot l) k1 k2) h.single_pipe (by simp [pairs4])
    rotStepsPipe_dirs
    (R := fun rb => xzzxR l (rotEntries a dx dz) rb) (rb := rb) (h.xzzx_type hdx hdz) (h.xzzx_compl hdx hdz rb)
    (atMostOne_rot rb n) (rot_hooks_pipe rb n) (fun s k hv hk j => rot_zero_pipe rb s k hv hk j)

theorem sum_indicator_overlap (D S : List String) :
    (D.map fun q => if q ∈ S then (1 : ZMod 2) else 0).sum = (overlap D S : Nat) := by
  unfold overlap
  induction D with
  | nil => simp
  | cons d D ih =>
    rw [List.map_cons, List.sum_cons, ih, List.countP_cons]
    by_cases h : d ∈ S <;> simp [h, add_comm]

theorem detects_grid (hg : OnGrid l L dirs) (hr : CanRun nm l) (hnum : NumCoords l) {label : String}
    {lx lz : List String} (h1 : l.logQubits = [label]) (h2 : l.logX = [(label, lx)]) (h3 : l.logZ = [(label, lz)])
    (hc : CodeGrid l L lx lz) {isX : String → String → Bool}
    {R : List String} (rb : Bool) (hR : ∀ d ∈ R, d ∈ dataOf L)
    (hty : ∀ x ∈ stabsOf L rb, ∀ d ∈ l.getNeighbors [x] none, isX x d = decide (d ∈ R))
    {dataInit : Dict String Int} {ancDetectors : Option (List String)}
    (hargs : MemoryArgs cfg nm l dataInit ancDetectors) (hsel : SelectsBasis l rb ancDetectors)
    {fam : Family cfg} {gi iter gm : Gen} {reset : Bool}
    (hfi : fam.init l dataInit rb = activateAndSum l gi)
    (hfr : ∀ sel, fam.round l reset sel = qecRound iter l reset sel)
    (hfm : ∀ sel, fam.meas l rb reset sel = (do
      let sel ← PyM.ofExcept (checkAncDetectors l sel)
      let circuit ← onModel (sumGen gm)
      finishMeas l rb reset sel circuit))
    (hi : InitEff nm (dataOf L) (ancOf L) R dataInit (sumGen gi))
    {m : Nat} {ln : Fin m → String → ZMod 2} (hln : Lines l (dataOf L) (stabsOf L rb) (if rb then lx else lz) ln)
    (hb : RoundPres nm (ancOf L) nm.inds.keys.toFinset (fun j => fn (fun d => decide (d ∈ R)) (ln j)) (sumGen iter))
    (hM : MeasEff nm (dataOf L) R (sumGen gm)) (o : SetOrder) (gauge : Bool) (n : Nat) (s : Sim cfg)
    (hlx : lx.Nodup) (hlz : lz.Nodup) (hodd : overlap lx lz = 1 ∧ overlap lz lx = 1)
    (hlen : (if rb then lz else lx).length = m) :
    ∃ c s', memory fam o nm l n dataInit rb reset ancDetectors gauge s = (.ok c, s') ∧ Detects m c ∧ Unseen m c := by
  have hlog := logicalSupport_of h1 h2 h3 rb
  have hsub : ∀ d ∈ (if rb then lx else lz), d ∈ dataOf L := by
    cases rb
    · exact hc.subZ
    · exact hc.subX
  have hm := memCode_grid hg hr hnum hlog hsub hR hty
  obtain ⟨ha1, ha2⟩ := hargs.anc _ hg.getQubits_anc
  have hst : l.getQubits [("role", .str "anc"), ("stab_type", .str (if rb then "x_type" else "z_type"))] =
      .ok (stabsOf L rb) := by
    have := stabQubits_grid hg rb
    unfold stabQubits stabType at this
    cases rb <;> exact this
  have := memory_detects hm hargs.config ha1 (hargs.data _ hg.getQubits_data) hfi hfr hfm hi hln hb hM o ancDetectors
    (fun sel he => ⟨ha2 sel he, hsel sel he _ hst⟩) gauge n s
  rw [Fintype.card_fin] at this
  obtain ⟨c, s', h, hd, hn⟩ := this
  refine ⟨c, s', h, hd, ?_⟩
  rw [← hlen]
  refine hn _ ?_ ?_ ?_ ?_
  · cases rb <;> assumption
  · cases rb
    · exact hc.subX
    · exact hc.subZ
  · intro x hx
    rw [sum_indicator_overlap, overlap_comm (hg.neighbors_nodup x) (by cases rb <;> assumption), ZMod.natCast_eq_zero_iff_even]
    cases rb
    · obtain ⟨s, hs⟩ := mem_zOf.1 hx
      exact hc.logX x s hs
    · obtain ⟨s, hs⟩ := mem_xOf.1 hx
      exact hc.logZ x s hs
  · rw [sum_indicator_overlap]
    cases rb
    · simp [hodd.2]
    · simp [hodd.1]

variable {dataInit : Dict String Int} {ancDetectors : Option (List String)}

theorem IsRot.detects_css (h : IsRot a dx dz l) (hnum : NumCoords l) (hdx : 1 ≤ dx) (hdz : 2 ≤ dz) (hr : CanRun nm l)
    (hargs : MemoryArgs cfg nm l dataInit ancDetectors) (o o' : SetOrder) (rb reset gauge : Bool)
    (hsel : SelectsBasis l rb ancDetectors) (n : Nat) (s : Sim cfg) :
    ∃ c s', memory (rotCss cfg o nm) o' nm l n dataInit rb reset ancDetectors gauge s = (.ok c, s') ∧
      Detects (lineCount dx dz rb) c ∧ Unseen (lineCount dx dz rb) c :=
  detects_grid h.grid hr hnum h.log h.logX h.logZ (h.codeGrid hdx (by omega)) rb (css_R rb) (css_type h.grid rb)
    hargs hsel rfl (fun _ => rfl) (fun _ => rfl) (initEff_css hr h.grid o hargs.init rb)
    (h.lines hdx (by omega) rb) (h.css_pres hdz hr o reset rb _) (measEff_css hr h.grid rb) o' gauge n s (logXList_nodup _ _ (by omega))
    (logZList_nodup _ _) (rot_logs_overlap h.grid (by omega) (by omega)) (by cases rb <;> simp [logXList, logZList, lineCount])

theorem IsRot.detects_cssPipe (h : IsRot a dx dz l) (hnum : NumCoords l) (hdx : 1 ≤ dx) (hdz : 1 ≤ dz) (hr : CanRun nm l)
    (hargs : MemoryArgs cfg nm l dataInit ancDetectors) (o o' : SetOrder) (rb reset gauge : Bool)
    (hsel : SelectsBasis l rb ancDetectors) (n : Nat) (s : Sim cfg) :
    ∃ c s', memory (rotCssPipelined cfg o nm) o' nm l n dataInit rb reset ancDetectors gauge s = (.ok c, s') ∧
      Detects (lineCount dx dz rb) c ∧ Unseen (lineCount dx dz rb) c :=
  detects_grid h.grid hr hnum h.log h.logX h.logZ (h.codeGrid hdx hdz) rb (css_R rb) (css_type h.grid rb)
    hargs hsel rfl (fun _ => rfl) (fun _ => rfl) (initEff_css hr h.grid o hargs.init rb)
    (h.lines hdx hdz rb) (h.cssPipe_pres hr o reset rb _) (measEff_css hr h.grid rb) o' gauge n s (logXList_nodup _ _ (by omega))
    (logZList_nodup _ _) (rot_logs_overlap h.grid (by omega) (by omega)) (by cases rb <;> simp [logXList, logZList, lineCount])

theorem IsRot.detects_xzzxPipe (h : IsRot a dx dz l) (hnum : NumCoords l) (hdx : 2 ≤ dx) (hdz : 2 ≤ dz) (hr : CanRun nm l)
    (hargs : MemoryArgs cfg nm l dataInit ancDetectors) (o o' : SetOrder) (rb reset gauge : Bool)
    (hsel : SelectsBasis l rb ancDetectors) (n : Nat) (s : Sim cfg) :
    ∃ c s', memory (xzzxPipelined cfg o nm) o' nm l n dataInit rb reset ancDetectors gauge s = (.ok c, s') ∧
      Detects (lineCount dx dz rb) c ∧ Unseen (lineCount dx dz rb) c :=
  have hR : ∀ q ∈ xzzxR l (rotEntries a dx dz) rb, q ∈ dataOf (rotEntries a dx dz) := fun _ hq => xzzxR_data h.grid hq
  detects_grid h.grid hr hnum h.log h.logX h.logZ (h.codeGrid (by omega) (by omega)) rb hR (h.xzzx_type hdx hdz rb)
    hargs hsel rfl (fun _ => rfl) (fun sel => logMeasXzzx_eq h.code o rb reset sel)
    (initEff_xzzx hr h.grid o hargs.init h.code rb hR)
    (h.lines (by omega) (by omega) rb) (h.xzzxPipe_pres hdx hdz hr o reset rb _) (measEff_xzzx hr h.grid o rb hR) o' gauge n s (logXList_nodup _ _ (by omega))
    (logZList_nodup _ _) (rot_logs_overlap h.grid (by omega) (by omega)) (by cases rb <;> simp [logXList, logZList, lineCount])

theorem IsUnrot.detects_css (h : IsUnrot a dx dz l) (hnum : NumCoords l) (hdx : 1 ≤ dx) (hdz : 2 ≤ dz) (hr : CanRun nm l)
    (hargs : MemoryArgs cfg nm l dataInit ancDetectors) (o o' : SetOrder) (rb reset gauge : Bool)
    (hsel : SelectsBasis l rb ancDetectors) (n : Nat) (s : Sim cfg) :
    ∃ c s', memory (unrotCss cfg o nm) o' nm l n dataInit rb reset ancDetectors gauge s = (.ok c, s') ∧
      Detects (lineCount dx dz rb) c ∧ Unseen (lineCount dx dz rb) c :=
  detects_grid h.grid hr hnum h.log h.logX h.logZ (h.codeGrid hdx (by omega)) rb (css_R rb) (css_type h.grid rb)
    hargs hsel rfl (fun _ => rfl) (fun _ => rfl) (initEff_css hr h.grid o hargs.init rb)
    (h.lines hdx (by omega) rb) (h.css_pres hdz hr o reset rb _) (measEff_css hr h.grid rb) o' gauge n s (logXList_nodup _ _ (by omega))
    (logZList_nodup _ _) (unrot_logs_overlap h.grid (by omega) (by omega)) (by cases rb <;> simp [logXList, logZList, lineCount])

end SurfaceSim
