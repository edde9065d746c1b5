/-
Experiments with transversal CNOT gates between two generated layouts, with faults.
-/
import Verif.Lemmas.FaultsCnotExp
import Verif.Lemmas.FaultsCodes

namespace SurfaceSim
open Spec NoiseModel Blocks Experiments LayoutLib LogGates

variable {cfg : Detectors.Config} {nm : NoiseModel} {lc lt : Layout} {Lc Lt : List (String × Site × Kind)}
  {dirs : List (Site × String)} {reset rb : Bool} {code : String} {dx dz : Int} {ac a_t : Args} {oc ot : Vec}

theorem twin_onLine (h : Twins lc lt Lc Lt dirs) (P : Site → Prop) : ∀ q ∈ dataOf Lc, onLine Lt P (tw Lc Lt q) = onLine Lc P q := by
  intro q hq
  obtain ⟨s, hs⟩ := mem_dataOf.1 hq
  rw [onLine_data h.t P (h.tw hs), onLine_data h.c P hs]

theorem fn_onLine (L : List (String × Site × Kind)) (P : Site → Prop) (rb : Bool) :
    fn (fun d => decide (d ∈ (if rb then dataOf L else []))) (onLine L P) = fn (fun _ => rb) (onLine L P) := by
  refine fn_congr fun q hq => ?_
  obtain ⟨s, hs, -⟩ := (onLine_ne P q).1 hq
  have := mem_dataOf.2 ⟨s, hs⟩
  cases rb
  · simp
  · simpa using this

/-- The lines of two layouts of the same kind, and a logical operator of the other type. -/
theorem Pair.faults (hp : Pair code dx dz ac a_t lc lt Lc Lt dirs oc ot) (h : Twins lc lt Lc Lt dirs) (hx : 1 ≤ dx) (hz : 2 ≤ dz)
    (hrc : CanRun nm lc) (hrt : CanRun nm lt) (o : SetOrder) (reset rb : Bool) {Xc Zc Xt Zt : List String}
    (h1 : lc.logX = [(ac.label, Xc)]) (h2 : lc.logZ = [(ac.label, Zc)]) (h3 : lt.logX = [(a_t.label, Xt)])
    (h4 : lt.logZ = [(a_t.label, Zt)]) :
    ∃ lnc lnt : Fin (lineCount dx dz rb) → String → ZMod 2,
      TwinLines lc lt Lc Lt rb (if rb then Xc else Zc) (if rb then Xt else Zt) lnc lnt ∧
      RoundPres nm (ancOf Lc) nm.inds.keys.toFinset (fun j => fn (fun _ => rb) (lnc j)) (sumGen (cssIter code o nm lc reset)) ∧
      RoundPres nm (ancOf Lt) nm.inds.keys.toFinset (fun j => fn (fun _ => rb) (lnt j)) (sumGen (cssIter code o nm lt reset)) ∧
      Xc.Nodup ∧ Zc.Nodup ∧ overlap Xc Zc = 1 ∧ overlap Zc Xc = 1 ∧ (if rb then Zc else Xc).length = lineCount dx dz rb := by
  rcases hp.shape with ⟨rfl, rfl, rfl, ic, it⟩ | ⟨rfl, rfl, rfl, ic, it⟩
  · obtain rfl : Xc = _ := by simpa using h1.symm.trans ic.logX
    obtain rfl : Zc = _ := by simpa using h2.symm.trans ic.logZ
    obtain rfl : Xt = _ := by simpa using h3.symm.trans it.logX
    obtain rfl : Zt = _ := by simpa using h4.symm.trans it.logZ
    refine ⟨_, _, ⟨ic.lines hx (by omega) rb, it.lines hx (by omega) rb, fun j => twin_onLine h _⟩, ?_, ?_,
      logXList_nodup _ _ (by omega), logZList_nodup _ _, (rot_logs_overlap ic.grid (by omega) (by omega)).1,
      (rot_logs_overlap ic.grid (by omega) (by omega)).2, by cases rb <;> simp [logXList, logZList, lineCount]⟩
    · have := ic.css_pres hz hrc o reset rb (lineCount dx dz rb)
      simpa only [fn_onLine] using this
    · have := it.css_pres hz hrt o reset rb (lineCount dx dz rb)
      simpa only [fn_onLine] using this
  · obtain rfl : Xc = _ := by simpa using h1.symm.trans ic.logX
    obtain rfl : Zc = _ := by simpa using h2.symm.trans ic.logZ
    obtain rfl : Xt = _ := by simpa using h3.symm.trans it.logX
    obtain rfl : Zt = _ := by simpa using h4.symm.trans it.logZ
    refine ⟨_, _, ⟨ic.lines hx (by omega) rb, it.lines hx (by omega) rb, fun j => twin_onLine h _⟩, ?_, ?_,
      logXList_nodup _ _ (by omega), logZList_nodup _ _, (unrot_logs_overlap ic.grid (by omega) (by omega)).1,
      (unrot_logs_overlap ic.grid (by omega) (by omega)).2, by cases rb <;> simp [logXList, logZList, lineCount]⟩
    · have := ic.css_pres hz hrc o reset rb (lineCount dx dz rb)
      simpa only [fn_onLine] using this
    · have := it.css_pres hz hrt o reset rb (lineCount dx dz rb)
      simpa only [fn_onLine] using this

variable {dx' dz' : Int} {lc0 lt0 lc' lt' lc'' lt'' : Layout} {mt : Matcher} {o : SetOrder} {dataInit : Dict String Int}
  {ancDetectors : Option (List String)}

/-- Experiments with transversal CNOT gates have the distance of the code. -/
theorem cnot_distance (hc : MadeBy code dx dz ac lc0) (ht : MadeBy code dx' dz' a_t lt0) (hwc : WithParams lc0 lc)
    (hwt : WithParams lt0 lt) (hn : CoordsNear lc lt) (e : setTransCnot code mt o (lc, lt) = (.ok (), (lc', lt')))
    (hkc : KeptGate ("trans-cnot_" ++ ac.label ++ "_" ++ a_t.label) lc' lc'')
    (hkt : KeptGate ("trans-cnot_" ++ ac.label ++ "_" ++ a_t.label) lt' lt'') (hx : 1 ≤ dx) (hz : 2 ≤ dz)
    (hrc : CanRun nm lc'') (hrt : CanRun nm lt'') (nt : NoTicks nm) (um : UniformMeas nm)
    (hargs : PairArgs cfg lc'' lt'' ancDetectors) (hargs' : GateArgs cfg [lc'', lt''] dataInit) (o₁ o₂ : SetOrder)
    (rb reset gauge : Bool) (hselc : SelectsBasis lc'' rb ancDetectors) (hselt : SelectsBasis lt'' rb ancDetectors)
    (n m : Nat) (s : Sim cfg) :
    ∃ Lc Lt dirs oc ot, Pair code dx dz ac a_t lc'' lt'' Lc Lt dirs oc ot ∧ Twins lc'' lt'' Lc Lt dirs ∧
      Gives (MergesOk code o₁ o₂ nm lc'' lt'' Lc Lt dataInit rb reset)
        (repeatedCnot (cfg := cfg) (cssIter code o₁ nm) o₂ nm lc'' lt'' n m dataInit "constant" rb reset ancDetectors gauge) s
        fun c _ => Detects (lineCount dx dz rb) c ∧ Unseen (lineCount dx dz rb) c := by
  obtain ⟨Lc, Lt, dirs, oc, ot, hp, hT, htab, -⟩ := cnot_done hc ht hwc hwt hn e hkc hkt
  obtain ⟨Xc, Zc, Xt, Zt, h1, h2, h3, h4, h5, h6⟩ := hp.logicals hx (by omega) hT
  obtain ⟨⟨lx, lz, gc⟩, lx', lz', gt⟩ := hp.codes hx hz
  have f1 : lx = Xc := by simpa [gc.logX, Dict.get?] using h1
  have f2 : lz = Zc := by simpa [gc.logZ, Dict.get?] using h2
  have f3 : lx' = Xt := by simpa [gt.logX, Dict.get?] using h3
  have f4 : lz' = Zt := by simpa [gt.logZ, Dict.get?] using h4
  subst f1 f2 f3 f4
  obtain ⟨lnc, lnt, hl, pc, pt, n1, n2, v1, v2, hlen⟩ := hp.faults hT hx hz hrc hrt o₁ reset rb gc.logX gc.logZ gt.logX gt.logZ
  refine ⟨Lc, Lt, dirs, oc, ot, hp, hT, ?_⟩
  refine (cnot_detects hT gc gt hrc hrt nt um hp.isCode (cnotLabel_of hp.logC hp.logT) htab h5 h6 hargs hargs'.frame hargs'.anc o₁ o₂
    hl pc pt hselc hselt gauge n m s).mono fun c s' hq => ?_
  obtain ⟨hd, hu⟩ := hq
  rw [Fintype.card_fin] at hd
  refine ⟨hd, ?_⟩
  rw [← hlen]
  refine hu _ ?_ ?_ ?_ ?_
  · cases rb <;> assumption
  · cases rb
    · exact gc.grid.subX
    · exact gc.grid.subZ
  · intro x hxx
    rw [sum_indicator_overlap, overlap_comm (hT.c.neighbors_nodup x) (by cases rb <;> assumption), ZMod.natCast_eq_zero_iff_even]
    cases rb
    · obtain ⟨s, hs⟩ := mem_zOf.1 hxx
      exact gc.grid.logX x s hs
    · obtain ⟨s, hs⟩ := mem_xOf.1 hxx
      exact gc.grid.logZ x s hs
  · rw [sum_indicator_overlap]
    cases rb
    · simp [v2]
    · simp [v1]

end SurfaceSim
