/-
Experiments with transversal CNOT gates in both directions, with faults.
-/
import Verif.Lemmas.AltFixed
import Verif.Lemmas.FaultsCnotCodes

namespace SurfaceSim
open Spec NoiseModel Blocks Experiments LayoutLib LogGates

variable {cfg : Detectors.Config} {nm : NoiseModel} {lc lt : Layout} {Lc Lt : List (String × Site × Kind)}
  {dirs : List (Site × String)} {reset rb : Bool} {code A B label label' : String} {Xc Zc Xt Zt : List String} {J : Type}
  {lnc lnt : J → String → ZMod 2} {Sc St : List String} {t s : Fin cfg.n → Bool} {τ : Fin cfg.n → Fin cfg.n}
  {H : List String} {G : cfg.Mat Int} {R : Prop}

theorem TwinLines.symm (h : Twins lc lt Lc Lt dirs) (hl : TwinLines lc lt Lc Lt rb Sc St lnc lnt) :
    TwinLines lt lc Lt Lc rb St Sc lnt lnc := by
  refine ⟨hl.t, hl.c, fun j q hq => ?_⟩
  obtain ⟨σ, hs⟩ := mem_dataOf.1 hq
  have := hl.twin j _ (mem_dataOf.2 ⟨σ, h.symm.tw hs⟩)
  rw [h.symm.tw_tw hs] at this
  exact this.symm

/-- The order of the layouts does not matter. -/
theorem TInv.swap {B B' : cfg.Mat Int} {r : Nat} {e : Circuit} {s : Sim cfg}
    (hi : TInv nm (ancOf Lc ++ ancOf Lt) nm.inds.keys.toFinset (jointW rb lnc lnt) (stabsOf Lc rb ++ stabsOf Lt rb) H r B B' e s) :
    TInv nm (ancOf Lt ++ ancOf Lc) nm.inds.keys.toFinset (jointW rb lnt lnc) (stabsOf Lt rb ++ stabsOf Lc rb) H r B B' e s := by
  obtain ⟨X, hX, hX0, hXf, hXr⟩ := hi.body
  refine ⟨hi.tracks, fun q hq => hi.counts q (by simpa [or_comm] using hq), fun q hq => by simpa [or_comm] using hi.only q hq,
    hi.even, hi.det, X, hX, fun α => ?_, hXf, fun P L k P' L' k' h1 h2 ρ st h3 h4 => ?_⟩
  · have : jointW rb lnt lnc α = jointW rb lnc lnt (α.2, α.1) := by
      funext j
      unfold jointW
      congr 1
      funext q
      exact add_comm _ _
    rw [this]
    exact hX0 _
  · obtain ⟨l1, l2⟩ := hXr P L k P' L' k' h1 h2 ρ st h3 h4
    exact ⟨l1, fun hd q hq => l2 hd q (by simpa [or_comm] using hq)⟩

theorem ClosedBits.swap {N : cfg.Mat (ZMod 2)} (hc : ClosedBits (stabsOf Lc rb ++ stabsOf Lt rb) N) :
    ClosedBits (stabsOf Lt rb ++ stabsOf Lc rb) N :=
  fun i j hi hj => hc i j (by simpa [or_comm] using hi) (by simpa [or_comm] using hj)

/-- A round. -/
def RoundT (cfg : Detectors.Config) (R : Prop) (nm : NoiseModel) (anc : List String) (W : ZMod 2 × ZMod 2 → J → Func String) (T : List String)
    (round : PyM (Sim cfg) Circuit) : Prop :=
  ∀ H M M' N e s r, FrameSteps M M' N → N * N = 1 → ClosedBits T N → TInv nm anc nm.inds.keys.toFinset W T H r M M' e s →
    Gives R round s fun c s' => TInv nm anc nm.inds.keys.toFinset W T (H ++ anc) (r + 1) M' M' (e.concat c) s'

/-- Several rounds. -/
theorem TInv.roundsGive {anc T : List String} {W : ZMod 2 × ZMod 2 → J → Func String} {round : PyM (Sim cfg) Circuit}
    (hround : RoundT cfg R nm anc W T round) {M' : cfg.Mat Int} (hM' : (mod2 M').det ≠ 0) {α : Type} (xs : List α) :
    ∀ {H : List String} {r : Nat} {M : cfg.Mat Int} {N : cfg.Mat (ZMod 2)} {e : Circuit} {s : Sim cfg}, xs ≠ [] →
    FrameSteps M M' N → N * N = 1 → ClosedBits T N → TInv nm anc nm.inds.keys.toFinset W T H r M M' e s →
    Gives R (addAll e xs (fun _ => round)) s fun e' s' => ∃ H', TInv nm anc nm.inds.keys.toFinset W T H' (r + xs.length) M' M' e' s' := by
  induction xs with
  | nil => exact fun h => absurd rfl h
  | cons x xs ih =>
    intro H r M N e s _ hS hN hc h
    show Gives R ((addTo e round) >>= fun e => addAll e xs fun _ => round) s _
    refine (Gives.addTo (hround H M M' N e s r hS hN hc h)).bind fun e1 s1 h2 => ?_
    cases xs with
    | nil => exact .of_ok rfl ⟨_, h2⟩
    | cons y ys =>
      refine (ih (by simp) (steps_self hM') (one_mul 1) closedBits_one h2).mono fun e2 s2 h4 => ?_
      obtain ⟨H', h4⟩ := h4
      exact ⟨H', by rw [List.length_cons (a := x), show r + ((y :: ys).length + 1) = r + 1 + (y :: ys).length by omega]; exact h4⟩

section
variable (h : Twins lc lt Lc Lt dirs) (hl : TwinLines lc lt Lc Lt rb Sc St lnc lnt)
    (hrc : CanRun nm lc) (hrt : CanRun nm lt)
    (hcc : lc.code = "rotated_surface_code" ∨ lc.code = "unrotated_surface_code")
    (hct : lt.code = "rotated_surface_code" ∨ lt.code = "unrotated_surface_code")
    (hlab : cnotLabel lc lt = .ok label) (ht : CnotTable lc lt Lc Lt label)
    (hn : cfg.anc.Nodup) (hall : ∀ q, q ∈ cfg.anc ↔ q ∈ ancOf Lc ++ ancOf Lt) (hx : TwinIndex cfg Lc Lt t s τ)
include h hl hrc hrt hcc hct hlab ht hn hall hx

/-- A gate. -/
theorem TInv.cnotAt (o : SetOrder) {M M' G' : cfg.Mat Int} (hG : IsBits G') (hm : mod2 G' = mod2 (cnotBlk t s τ false) * mod2 M')
    {r : Nat} {e : Circuit} {s0 : Sim cfg}
    (hi : TInv nm (ancOf Lc ++ ancOf Lt) nm.inds.keys.toFinset (jointW rb lnc lnt) (stabsOf Lc rb ++ stabsOf Lt rb) H r M M' e s0) :
    ∃ e' s', addTo e (transCnot o nm lc lt) s0 = (.ok e', s') ∧
      ClosedBits (stabsOf Lc rb ++ stabsOf Lt rb) (mod2 (cnotBlk (cfg := cfg) t s τ false)) ∧
      TInv nm (ancOf Lc ++ ancOf Lt) nm.inds.keys.toFinset (jointW rb lnc lnt) (stabsOf Lc rb ++ stabsOf Lt rb) H r M G' e' s' := by
  have hgood := goodTable_cnot h ht
  obtain ⟨p1, p2, p3, p4⟩ := hx.props h hn hall
  obtain ⟨Dt, hDn, hD, hk, hgate⟩ := Props.cnot_dict h ht hlab nm o cfg
  have hD' : ∀ a ∈ ancOf Lc ++ ancOf Lt, Dt.get? a = some (pairGen lc lt Lc label a) := by
    intro a ha
    unfold pairGen
    split
    · rename_i hac
      exact hD lc (by simp) a (by rw [ancOfLayout_grid h.c]; exact hac)
    · rename_i hac
      exact hD lt (by simp) a (by rw [ancOfLayout_grid h.t]; exact (List.mem_append.1 ha).resolve_left hac)
  have hk' : ∀ a, a ∈ Dt.keys ↔ a ∈ ancOf Lc ++ ancOf Lt := by
    intro a
    rw [hk]
    simp [ancOfLayout_grid h.c, ancOfLayout_grid h.t]
  have hU := hx.genMat h hn hall ht
  have hdm : dictMat (cfg := cfg) Dt = mod2 (cnotBlk t s τ false) := by rw [← hU]; exact (dictMat_genMat hall hD').symm
  obtain ⟨d', e2, d2⟩ := DetG.gateOf hn hDn (known_genMat hall hgood hDn hD' hk')
    (by rw [hdm]; exact cnotBlk_det p1 p2 p3 p4 false) hG (by rw [hdm]; exact hm) hi.det
  obtain ⟨ps, hps, hp, hdo⟩ := does_transCnot h hrc hrt o hcc hct hlab ht
  obtain ⟨c, m', e1, t1, e3, e4⟩ := hdo.2 s0.1 H hi.tracks
  have hrun := (hgate s0.1 m' s0.2 d' c).2 ⟨e2, e1⟩
  obtain ⟨q1, q2, q3⟩ := cnot_pres (nm := nm) h hl hps hp hdo.1
  rw [q2, List.append_nil] at e4
  have hpair : PairsOk c := pairsOk_of_ops hrc.inj t1 e3 hdo.1 fun op hop => by
    obtain ⟨p, hp', rfl⟩ := List.mem_map.1 hop
    obtain ⟨k1, k2⟩ := (hp p).1 hp'
    obtain ⟨σ, hs⟩ := mem_dataOf.1 k1
    show p.1 ≠ p.2
    intro he
    exact h.dataApart k1 (by rw [he, k2]; exact mem_dataOf.2 ⟨σ, h.tw hs⟩)
  have hclosed : ClosedBits (stabsOf Lc rb ++ stabsOf Lt rb) (mod2 (cnotBlk (cfg := cfg) t s τ false)) := by
    rw [← hU]
    exact closed_cnot h ht hall rb
  exact ⟨e.concat c, (m', d'), addTo_ok hrun, hclosed, hi.gateAt (s' := (m', d')) hpair e4 d2 e3 q1 q2 q3⟩

/-- A gate after a round. -/
theorem TInv.cnot (o : SetOrder) (hG : Orbit t s τ G) {r : Nat} {e : Circuit} {s0 : Sim cfg}
    (hi : TInv nm (ancOf Lc ++ ancOf Lt) nm.inds.keys.toFinset (jointW rb lnc lnt) (stabsOf Lc rb ++ stabsOf Lt rb) H r G G e s0) :
    ∃ e' s' G', addTo e (transCnot o nm lc lt) s0 = (.ok e', s') ∧ Orbit t s τ G' ∧
      FrameSteps G G' (mod2 (cnotBlk t s τ false)) ∧ ClosedBits (stabsOf Lc rb ++ stabsOf Lt rb) (mod2 (cnotBlk (cfg := cfg) t s τ false)) ∧
      TInv nm (ancOf Lc ++ ancOf Lt) nm.inds.keys.toFinset (jointW rb lnc lnt) (stabsOf Lc rb ++ stabsOf Lt rb) H r G G' e' s' := by
  obtain ⟨p1, p2, p3, p4⟩ := hx.props h hn hall
  obtain ⟨G', o1, o2, o3⟩ := hG.gate p1 p2 p3 p4 false
  obtain ⟨e', s', h1, h2, h3⟩ := hi.cnotAt h hl hrc hrt hcc hct hlab ht hn hall hx o o1.isBits o2
  exact ⟨e', s', G', h1, o1, o3, h2, h3⟩

/-- A gate with rounds after it. -/
theorem TInv.cnotRounds (o : SetOrder) {round : PyM (Sim cfg) Circuit}
    (hround : RoundT cfg R nm (ancOf Lc ++ ancOf Lt) (jointW rb lnc lnt) (stabsOf Lc rb ++ stabsOf Lt rb) round)
    {m : Nat} (hm : 1 ≤ m) (hG : Orbit t s τ G) {r : Nat} {e : Circuit} {s0 : Sim cfg}
    (hi : TInv nm (ancOf Lc ++ ancOf Lt) nm.inds.keys.toFinset (jointW rb lnc lnt) (stabsOf Lc rb ++ stabsOf Lt rb) H r G G e s0) :
    Gives R (gateAndRounds (transCnot o nm lc lt) m round e) s0 fun e' s' => ∃ H' G', Orbit t s τ G' ∧
      TInv nm (ancOf Lc ++ ancOf Lt) nm.inds.keys.toFinset (jointW rb lnc lnt) (stabsOf Lc rb ++ stabsOf Lt rb) H' (r + m) G' G' e' s' := by
  obtain ⟨e1, s1, G', h1, h2, h3, h4, h5⟩ := hi.cnot h hl hrc hrt hcc hct hlab ht hn hall hx o hG
  obtain ⟨p1, p2, p3, p4⟩ := hx.props h hn hall
  unfold gateAndRounds
  refine .bind_ok h1 ?_
  have hne : List.range m ≠ [] := by
    intro h0
    have := congrArg List.length h0
    simp at this
    omega
  refine (TInv.roundsGive hround h2.1 (List.range m) hne h3 (cnotBlk_sq p1 p2 p3 p4 false) h4 h5).mono fun e2 s2 h6 => ?_
  obtain ⟨H', h6⟩ := h6
  rw [List.length_range] at h6
  exact ⟨H', G', h2, h6⟩

end

section
variable (h : Twins lc lt Lc Lt dirs) (hl : TwinLines lc lt Lc Lt rb Sc St lnc lnt)
    (hrc : CanRun nm lc) (hrt : CanRun nm lt)
    (hcc : lc.code = "rotated_surface_code" ∨ lc.code = "unrotated_surface_code")
    (hct : lt.code = "rotated_surface_code" ∨ lt.code = "unrotated_surface_code")
    (hlab : cnotLabel lc lt = .ok label) (ht : CnotTable lc lt Lc Lt label)
    (hlab' : cnotLabel lt lc = .ok label') (ht' : CnotTable lt lc Lt Lc label')
    (hn : cfg.anc.Nodup) (hall : ∀ q, q ∈ cfg.anc ↔ q ∈ ancOf Lc ++ ancOf Lt) (hx : TwinIndex cfg Lc Lt t s τ)
include h hl hrc hrt hcc hct hlab ht hlab' ht' hn hall hx

/-- A gate of either direction with rounds after it. -/
theorem TInv.turnRounds (o : SetOrder) {round : List Layout → PyM (Sim cfg) Circuit}
    (hround : RoundT cfg R nm (ancOf Lc ++ ancOf Lt) (jointW rb lnc lnt) (stabsOf Lc rb ++ stabsOf Lt rb) (round [lc, lt]))
    (hround' : RoundT cfg R nm (ancOf Lt ++ ancOf Lc) (jointW rb lnt lnc) (stabsOf Lt rb ++ stabsOf Lc rb) (round [lt, lc]))
    {m : Nat} (hm : 1 ≤ m) (hG : Orbit t s τ G) (d : Bool) {r : Nat} {e : Circuit} {s0 : Sim cfg}
    (hi : TInv nm (ancOf Lc ++ ancOf Lt) nm.inds.keys.toFinset (jointW rb lnc lnt) (stabsOf Lc rb ++ stabsOf Lt rb) H r G G e s0) :
    Gives R (gateAndRounds (transCnot o nm (turned lc lt d).1 (turned lc lt d).2) m
      (round [(turned lc lt d).1, (turned lc lt d).2]) e) s0 fun e' s' => ∃ H' G', Orbit t s τ G' ∧
      TInv nm (ancOf Lc ++ ancOf Lt) nm.inds.keys.toFinset (jointW rb lnc lnt) (stabsOf Lc rb ++ stabsOf Lt rb) H' (r + m) G' G' e' s' := by
  cases d
  · exact hi.cnotRounds h hl hrc hrt hcc hct hlab ht hn hall hx o hround hm hG
  · have hall' : ∀ q, q ∈ cfg.anc ↔ q ∈ ancOf Lt ++ ancOf Lc := fun q => by rw [hall]; simp [or_comm]
    refine (hi.swap.cnotRounds h.symm (hl.symm h) hrt hrc hct hcc hlab' ht' hn hall' (hx.symm h hall) o hround' hm
      hG.flip).mono fun e' s' hq => ?_
    obtain ⟨H', G', h1, h2⟩ := hq
    exact ⟨H', G', h1.unflip, h2.swap⟩

/-- Gates of both directions with rounds after each of them. -/
theorem TInv.turns (o : SetOrder) {round : List Layout → PyM (Sim cfg) Circuit}
    (hround : RoundT cfg R nm (ancOf Lc ++ ancOf Lt) (jointW rb lnc lnt) (stabsOf Lc rb ++ stabsOf Lt rb) (round [lc, lt]))
    (hround' : RoundT cfg R nm (ancOf Lt ++ ancOf Lc) (jointW rb lnt lnc) (stabsOf Lt rb ++ stabsOf Lc rb) (round [lt, lc]))
    {m : Nat} (hm : 1 ≤ m) (ds : List Bool) : ∀ {H : List String} {G : cfg.Mat Int} {r : Nat} {e : Circuit} {s0 : Sim cfg},
    Orbit t s τ G →
    TInv nm (ancOf Lc ++ ancOf Lt) nm.inds.keys.toFinset (jointW rb lnc lnt) (stabsOf Lc rb ++ stabsOf Lt rb) H r G G e s0 →
    Gives R (Props.cnotSequence o nm round m (ds.map (turned lc lt)) e) s0 fun e' s' => ∃ H' G', Orbit t s τ G' ∧
      TInv nm (ancOf Lc ++ ancOf Lt) nm.inds.keys.toFinset (jointW rb lnc lnt) (stabsOf Lc rb ++ stabsOf Lt rb) H'
        (r + ds.length * m) G' G' e' s' := by
  induction ds with
  | nil =>
    intro H G r e s0 hG hi
    exact .of_ok rfl ⟨H, G, hG, by simpa using hi⟩
  | cons d ds ih =>
    intro H G r e s0 hG hi
    rw [List.map_cons, Props.cnotSequence, List.foldlM_cons]
    refine (hi.turnRounds h hl hrc hrt hcc hct hlab ht hlab' ht' hn hall hx o hround hround' hm hG d).bind
      fun e1 s1 hq => ?_
    obtain ⟨H1, G1, o1, i1⟩ := hq
    refine (ih o1 i1).mono fun e2 s2 hq => ?_
    obtain ⟨H2, G2, o2, i2⟩ := hq
    refine ⟨H2, G2, o2, ?_⟩
    rw [List.length_cons, show r + (ds.length + 1) * m = r + m + ds.length * m by ring]
    exact i2

end

/-- A merged round. -/
theorem TInv.mergedRound (h : Twins lc lt Lc Lt dirs) (gc : GridCode code lc Lc A Xc Zc) (gt : GridCode code lt Lt B Xt Zt)
    (hrc : CanRun nm lc) (hrt : CanRun nm lt) (nt : NoTicks nm) (um : UniformMeas nm) (hcfg : ConfigOk cfg)
    (hf : cfg.frame ≠ .gateIndependent) (hall : ∀ q, q ∈ cfg.anc ↔ q ∈ ancOf Lc ++ ancOf Lt)
    (hl : TwinLines lc lt Lc Lt rb Sc St lnc lnt) (o : SetOrder)
    (pc : RoundPres nm (ancOf Lc) nm.inds.keys.toFinset (fun j => fn (fun _ => rb) (lnc j)) (sumGen (cssIter code o nm lc reset)))
    (pt : RoundPres nm (ancOf Lt) nm.inds.keys.toFinset (fun j => fn (fun _ => rb) (lnt j)) (sumGen (cssIter code o nm lt reset)))
    (hR : R → ∀ (s : MeasState) (hist : List String), s.Tracks nm.inds hist →
      ∃ c s', mergeGens ([lc, lt].map fun l => cssIter code o nm l reset) s = (.ok c, s'))
    {sel : List String} (hs : ∀ q ∈ sel, q ∈ ancOf Lc ++ ancOf Lt) (hsT : ∀ q ∈ stabsOf Lc rb ++ stabsOf Lt rb, q ∈ sel) :
    RoundT cfg R nm (ancOf Lc ++ ancOf Lt) (jointW rb lnc lnt) (stabsOf Lc rb ++ stabsOf Lt rb)
      (mergeQecRounds (cssIter code o nm) [lc, lt] reset (some sel)) := by
  intro H M M' N e s r hS hN hc hi
  have hk : ∀ d ∈ ancOf Lc ++ ancOf Lt, d ∈ nm.inds.keys := by
    intro d hd
    rcases List.mem_append.1 hd with hd | hd
    · exact (gc.memCode h.c hrc rb).known (List.mem_append_right _ hd)
    · exact (gt.memCode h.t hrt rb).known (List.mem_append_right _ hd)
  have hTa : ∀ q ∈ stabsOf Lc rb ++ stabsOf Lt rb, q ∈ ancOf Lc ++ ancOf Lt := fun q hq => hs q (hsT q hq)
  unfold mergeQecRounds
  refine .bind_ok (show PyM.ofExcept (checkAnc [lc, lt] (some sel)) s = (.ok (), s) by rw [checkAnc_two h hs]; rfl) ?_
  refine (onModel_gives (Q := fun c s' => ∃ M, ops c = M.map (Op.rename (ind nm.inds)) ∧ PairsOk c ∧
    s'.Tracks nm.inds (H ++ (ancOf Lc ++ ancOf Lt)) ∧ Loud M ∧
    measured M = ancOf Lc ++ ancOf Lt ∧ ∀ α, Pres nm.inds.keys.toFinset M (jointW rb lnc lnt α) (jointW rb lnc lnt α))
    ⟨fun c s' e => pair_roundPres h gc gt hrc hrt nt um o hl pc pt hi.tracks e, fun hr => hR hr _ _ hi.tracks⟩).bind
    fun c s1 hq => ?_
  obtain ⟨h2, M, ho, p1, t1, hloud, hmeas, hpres⟩ := hq
  obtain ⟨s1, d1⟩ := s1
  obtain rfl : d1 = s.2 := h2
  obtain ⟨c', d', e2, h3⟩ := hi.roundAt (reset := reset) hcfg hf hS hN hc (anc_two_nodup h) hk hall hTa t1 p1 ho hloud hmeas hpres
    sel hs hsT
  refine .bind_ok (onDets_ok (s := (s1, s.2)) (f := fun getRec => Detectors.buildFromAnc getRec reset (some sel)) e2) ?_
  exact .pure h3

open Classical in
/-- Fewer faults than lines change the observables of an experiment on two codes only if a detector reports them; wrong
outcomes on the support of a logical operator of the layout that is measured first change them without. -/
theorem pair_detects [Fintype J] (h : Twins lc lt Lc Lt dirs) (gc : GridCode code lc Lc A Xc Zc)
    (gt : GridCode code lt Lt B Xt Zt) (hrc : CanRun nm lc) (hrt : CanRun nm lt) (nt : NoTicks nm) (um : UniformMeas nm)
    {dataInit : Dict String Int} {ancDetectors : Option (List String)} (hargs : PairArgs cfg lc lt ancDetectors)
    (hf : cfg.frame ≠ .gateIndependent) (hanc : ∀ a ∈ cfg.anc, ∃ l ∈ [lc, lt], a ∈ ancOfLayout l) (o o' : SetOrder)
    (hl : TwinLines lc lt Lc Lt rb (if rb then Xc else Zc) (if rb then Xt else Zt) lnc lnt)
    (pc : RoundPres nm (ancOf Lc) nm.inds.keys.toFinset (fun j => fn (fun _ => rb) (lnc j)) (sumGen (cssIter code o nm lc reset)))
    (pt : RoundPres nm (ancOf Lt) nm.inds.keys.toFinset (fun j => fn (fun _ => rb) (lnt j)) (sumGen (cssIter code o nm lt reset)))
    (hselc : SelectsBasis lc rb ancDetectors) (hselt : SelectsBasis lt rb ancDetectors)
    (gauge final : Bool) {body : List String → Circuit → PyM (Sim cfg) Circuit}
    (hR : R → MergesOk code o o' nm lc lt Lc Lt dataInit rb reset ∧ MergesOk code o o' nm lt lc Lt Lc dataInit rb reset)
    (hbody : (∀ q, q ∈ cfg.anc ↔ q ∈ ancOf Lc ++ ancOf Lt) → ∀ sel : List String,
      RoundT cfg R nm (ancOf Lc ++ ancOf Lt) (jointW rb lnc lnt) (stabsOf Lc rb ++ stabsOf Lt rb)
        (mergeQecRounds (cssIter code o nm) [lc, lt] reset (some sel)) →
      RoundT cfg R nm (ancOf Lt ++ ancOf Lc) (jointW rb lnt lnc) (stabsOf Lt rb ++ stabsOf Lc rb)
        (mergeQecRounds (cssIter code o nm) [lt, lc] reset (some sel)) → ∀ H e s,
      TInv nm (ancOf Lc ++ ancOf Lt) nm.inds.keys.toFinset (jointW rb lnc lnt) (stabsOf Lc rb ++ stabsOf Lt rb) H 1 1 1 e s →
      Gives R (body sel e) s fun e' s' => ∃ H' r' M M' N, 1 ≤ r' ∧ FrameSteps M M' N ∧ ClosedBits (stabsOf Lc rb ++ stabsOf Lt rb) N ∧
        TInv nm (ancOf Lc ++ ancOf Lt) nm.inds.keys.toFinset (jointW rb lnc lnt) (stabsOf Lc rb ++ stabsOf Lt rb) H' r' M M' e' s')
    (s : Sim cfg) :
    Gives R (pairExperiment (cfg := cfg) (cssIter code o nm) o' nm lc lt dataInit rb reset ancDetectors gauge body final) s
      fun c _ => Detects (Fintype.card J) c ∧
      ∀ S : List String, S.Nodup → (∀ q ∈ S, q ∈ dataOf (if final then Lt else Lc)) →
        (∀ a ∈ stabsOf (if final then Lt else Lc) rb,
          (((turned lc lt final).1.getNeighbors [a] none).map fun q => if q ∈ S then (1 : ZMod 2) else 0).sum = 0) →
        ((if final then (if rb then Xt else Zt) else (if rb then Xc else Zc)).map fun q => if q ∈ S then (1 : ZMod 2) else 0).sum = 1 →
        Unseen S.length c := by
  have hcfg := hargs.config
  have hn := hcfg.1
  have hall : ∀ q, q ∈ cfg.anc ↔ q ∈ ancOf Lc ++ ancOf Lt := by
    intro q
    rw [List.mem_append]
    constructor
    · intro hq
      obtain ⟨l, hl, hq⟩ := hanc q hq
      simp only [List.mem_cons, List.not_mem_nil, or_false] at hl
      rcases hl with rfl | rfl
      · rw [ancOfLayout_grid h.c] at hq
        exact Or.inl hq
      · rw [ancOfLayout_grid h.t] at hq
        exact Or.inr hq
    · rintro (hq | hq)
      · exact hargs.anc lc (by simp) q (by rw [ancOfLayout_grid h.c]; exact hq)
      · exact hargs.anc lt (by simp) q (by rw [ancOfLayout_grid h.t]; exact hq)
  have hsel : ∀ sel, ancDetectors = some sel → ∀ a ∈ sel, a ∈ ancOf Lc ++ ancOf Lt := by
    intro sel hs q hq
    obtain ⟨l, hl, hq⟩ := hargs.sel sel hs q hq
    simp only [List.mem_cons, List.not_mem_nil, or_false] at hl
    rw [List.mem_append]
    rcases hl with rfl | rfl
    · rw [ancOfLayout_grid h.c] at hq
      exact Or.inl hq
    · rw [ancOfLayout_grid h.t] at hq
      exact Or.inr hq
  have hmc := gc.memCode h.c hrc rb
  have hmt := gt.memCode h.t hrt rb
  set sel := ancDetectors.getD (ancOf Lc ++ ancOf Lt) with hseld
  have hsel' : ∀ a ∈ sel, a ∈ ancOf Lc ++ ancOf Lt := by
    cases ancDetectors with
    | none => exact fun a ha => ha
    | some x => exact hsel x rfl
  have hTa : ∀ q ∈ stabsOf Lc rb ++ stabsOf Lt rb, q ∈ ancOf Lc ++ ancOf Lt := by
    intro q hq
    rcases List.mem_append.1 hq with hq | hq
    · exact List.mem_append_left _ (stabsOf_sub hq)
    · exact List.mem_append_right _ (stabsOf_sub hq)
  have hselT : ∀ q ∈ stabsOf Lc rb ++ stabsOf Lt rb, q ∈ sel := by
    intro q hq
    cases ancDetectors with
    | none => exact hTa q hq
    | some x =>
      rcases List.mem_append.1 hq with hq | hq
      · exact hselc x rfl _ (stabs_grid h.c rb) q hq
      · exact hselt x rfl _ (stabs_grid h.t rb) q hq
  set first := (if gauge then sel else o'.ord (inter (setOf sel) (stabsOf Lc rb ++ stabsOf Lt rb))) with hfirst
  have hmf : ∀ q, q ∈ first ↔ q ∈ sel ∧ (gauge = true ∨ q ∈ stabsOf Lc rb ++ stabsOf Lt rb) := by
    intro q
    rw [hfirst]
    cases gauge
    · simp only [Bool.false_eq_true, if_false, mem_first, false_or]
    · simp
  obtain ⟨q0, hq0, hq1, hq2⟩ := qubitCoords_two gc.num (grid_nodes h.c hrc) gt.num (grid_nodes h.t hrt)
  have hq4 := ops_concat (a := []) (fun i hi => by simp at hi) hq1
  have p0 : PairsOk (Circuit.concat [] q0) := .of_nil hq4.2 (by rw [hq4.1, hq2]; rfl)
  have o0 : ops (Circuit.concat [] q0) = [] := by rw [hq4.1, hq2]; rfl
  have h0 : start nm [lc, lt] s = (.ok (Circuit.concat [] q0), (MeasState.fresh nm.inds, Detectors.State.fresh cfg)) := by
    unfold start
    rw [PyM.bind_ok (show onModel (cfg := cfg) (MeasState.newCircuit nm.inds) s = (.ok (), (MeasState.fresh nm.inds, s.2))
      from rfl)]
    rw [PyM.bind_ok (show onDets (cfg := cfg) (fun _ => Detectors.newCircuit cfg) (MeasState.fresh nm.inds, s.2) =
      (.ok (), (MeasState.fresh nm.inds, Detectors.State.fresh cfg)) from rfl)]
    rw [hq0]
    rfl
  obtain ⟨d1, hd1, hd1'⟩ := DetAt.activate hcfg.1 hmc.ancN (fun a ha => (hall a).2 (List.mem_append_left _ ha))
    (DetAt.new (cfg := cfg))
  obtain ⟨d2, hd2, hd2'⟩ := DetAt.activateMore hcfg.1 hmt.ancN (fun a ha => (hall a).2 (List.mem_append_right _ ha))
    (fun a ha hc => (List.nodup_append.1 (anc_two_nodup h)).2.2 a hc a ha rfl) hd1'
  obtain ⟨c₁, s₁, c₂, s₂, e1, e2, t2, hinit⟩ := pair_initPres h hrc hrt nt hl o' dataInit
    (MeasState.tracks_fresh nm.inds)
  unfold pairExperiment
  refine .bind_ok (s' := s) (a := sel) ?_ ?_
  · cases ancDetectors with
    | some x => rfl
    | none =>
      unfold ancDefault
      rw [allAnc_two h]
      rfl
  refine .bind_ok (show PyM.ofExcept (lc.getQubits []) s = (.ok (Lc.map Prod.fst), s) by rw [h.c.getQubits_all]; rfl) ?_
  refine .bind_ok (show PyM.ofExcept (lt.getQubits []) s = (.ok (Lt.map Prod.fst), s) by rw [h.t.getQubits_all]; rfl) ?_
  refine .bind_ok h0 ?_
  refine .bind_ok (activateAndSum_ok h.c.getQubits_anc hd1 e1) ?_
  refine .bind_ok (activateAndSum_ok (s := (s₁, d1)) h.t.getQubits_anc hd2 e2) ?_
  refine Gives.bind (Q := fun m s' => s' = (s₂, d2) ∧ CircuitOps.mergeCircuits [c₁, c₂] true = .ok m) ?_ fun m' s' hq => ?_
  · refine ⟨fun a s' ha => ?_, fun hR' => ?_⟩
    · cases hmm : CircuitOps.mergeCircuits [c₁, c₂] true with
      | error e => rw [hmm] at ha; cases ha
      | ok x => rw [hmm] at ha; cases ha; exact ⟨rfl, rfl⟩
    · obtain ⟨x, hx⟩ := (hR hR').1.init _ [] (MeasState.tracks_fresh nm.inds) _ _ _ _ e1 e2
      exact ⟨x, (s₂, d2), by rw [hx]; rfl⟩
  obtain ⟨rfl, hmm⟩ := hq
  obtain ⟨pm, MI, oM, lM, mM, prM⟩ := hinit m' hmm
  refine .bind_ok (s' := (s₂, d2)) (a := first) ?_ ?_
  · unfold firstSel
    rw [hfirst]
    cases gauge
    · simp only [Bool.false_eq_true, if_false]
      unfold firstDets
      simp only [mapExcept, hmc.qStabs, hmt.qStabs]
      show (Except.ok (o'.ord (inter (setOf sel) (stabsOf Lc rb ++ (stabsOf Lt rb ++ [])))), _) = _
      rw [List.append_nil]
    · rfl
  have hom := p0.concat pm
  have i1 : TInv nm (ancOf Lc ++ ancOf Lt) nm.inds.keys.toFinset (jointW rb lnc lnt) (stabsOf Lc rb ++ stabsOf Lt rb)
      [] 0 1 1 ((Circuit.concat [] q0).concat m') (s₂, d2) := by
    have hrec : ∀ P L k, Faulty P MI L k → ∀ ρ (st : FState String), st.recs = [] → st.obs = [] →
        (run ρ st L).recs = [] ∧ (run ρ st L).obs = [] ∧ (run ρ st L).dets = st.dets := by
      intro P L k hfl ρ st h1 h2
      obtain ⟨⟨v, g1, g2⟩, g3, g4⟩ := hfl.records lM ρ st
      rw [mM] at g1
      obtain rfl : v = [] := by simpa using g1
      exact ⟨by rw [g2, h1]; rfl, by rw [g4, h2], g3⟩
    refine ⟨t2, fun q _ => rfl, by simp, hom.2, hd2'.toG hcfg.1 (fun a ha => (hall a).1 ha), MI, ?_, prM, ?_, ?_⟩
    · rw [hom.1, o0, List.nil_append, oM]
    · intro P L k hfl ρ st h1 h2
      obtain ⟨r1, r2, -⟩ := hrec P L k hfl ρ st h1 h2
      exact ⟨by rw [r1]; rfl, r2⟩
    · intro P L k P' L' k' hfl hfl' ρ st h1 h2
      obtain ⟨r1, -, r3⟩ := hrec P L k hfl ρ st h1 h2
      obtain ⟨r1', -, r3'⟩ := hrec P' L' k' hfl' ρ st h1 h2
      rw [r1, r1', r3, r3']
      exact ⟨rfl, fun _ _ _ => rfl⟩
  have hall' : ∀ q, q ∈ cfg.anc ↔ q ∈ ancOf Lt ++ ancOf Lc := fun q => by rw [hall]; simp [or_comm]
  have hsel'' : ∀ a ∈ sel, a ∈ ancOf Lt ++ ancOf Lc := fun a ha => by simpa [or_comm] using hsel' a ha
  have hselT' : ∀ q ∈ stabsOf Lt rb ++ stabsOf Lc rb, q ∈ sel := fun q hq => hselT q (by simpa [or_comm] using hq)
  have hone : (mod2 (1 : cfg.Mat Int)).det ≠ 0 := by simp [mod2_one]
  have hround : ∀ {sel : List String}, (∀ q ∈ sel, q ∈ ancOf Lc ++ ancOf Lt) → (∀ q ∈ stabsOf Lc rb ++ stabsOf Lt rb, q ∈ sel) → _ :=
    fun {sel} hs hsT => TInv.mergedRound (cfg := cfg) (R := R)
      h gc gt hrc hrt nt um hcfg hf hall hl o pc pt (fun hR' s hist ht => (hR hR').1.round s hist ht) (sel := sel) hs hsT
  refine (Gives.addTo (hround (fun q hq => hsel' q ((hmf q).1 hq).1) (fun q hq => (hmf q).2 ⟨hselT q hq, Or.inr hq⟩)
    _ _ _ _ _ _ _ (steps_self hone) (one_mul 1) closedBits_one i1)).bind fun e2 s2 i2 => ?_
  refine (hbody hall sel (hround hsel' hselT)
    (TInv.mergedRound h.symm gt gc hrt hrc nt um hcfg hf hall' (hl.symm h) o pt pc (fun hR' s hist ht => (hR hR').2.round s hist ht)
      hsel'' hselT') _ _ _ i2).bind fun e3 s3 i3 => ?_
  obtain ⟨H3, r3, M3, M3', N3, hr3, o3, l3, i3⟩ := i3
  refine (Gives.addTo (Q := fun c _ => _) ?_)
  cases final
  · exact i3.mergedMeas h gc gt hrc hrt hcfg hf o3 l3 hall (iter := fun l b => logMeasIter nm l b) hl
      (fun s hist ht => ⟨fun c s' e => pair_measPres h gc gt hrc hrt nt um hl ht e, fun hR' => (hR hR').1.meas s hist ht⟩)
      hr3 hsel' hselT
  · exact i3.swap.mergedMeas h.symm gt gc hrt hrc hcfg hf o3 (l3.swap) hall' (iter := fun l b => logMeasIter nm l b)
      (hl.symm h)
      (fun s hist ht => ⟨fun c s' e => pair_measPres h.symm gt gc hrt hrc nt um (hl.symm h) ht e,
        fun hR' => (hR hR').2.meas s hist ht⟩)
      hr3 hsel'' hselT'

open Classical in
/-- The experiment with CNOT gates in both directions. -/
theorem turn_detects [Fintype J] (h : Twins lc lt Lc Lt dirs) (gc : GridCode code lc Lc A Xc Zc)
    (gt : GridCode code lt Lt B Xt Zt) (hrc : CanRun nm lc) (hrt : CanRun nm lt) (nt : NoTicks nm) (um : UniformMeas nm)
    (isCode : code = "rotated_surface_code" ∨ code = "unrotated_surface_code")
    (hlab : cnotLabel lc lt = .ok label) (ht : CnotTable lc lt Lc Lt label)
    (hlab' : cnotLabel lt lc = .ok label') (ht' : CnotTable lt lc Lt Lc label')
    {dataInit : Dict String Int} {ancDetectors : Option (List String)} (hargs : PairArgs cfg lc lt ancDetectors)
    (hf : cfg.frame ≠ .gateIndependent) (hanc : ∀ a ∈ cfg.anc, ∃ l ∈ [lc, lt], a ∈ ancOfLayout l) (o o' : SetOrder)
    (hl : TwinLines lc lt Lc Lt rb (if rb then Xc else Zc) (if rb then Xt else Zt) lnc lnt)
    (pc : RoundPres nm (ancOf Lc) nm.inds.keys.toFinset (fun j => fn (fun _ => rb) (lnc j)) (sumGen (cssIter code o nm lc reset)))
    (pt : RoundPres nm (ancOf Lt) nm.inds.keys.toFinset (fun j => fn (fun _ => rb) (lnt j)) (sumGen (cssIter code o nm lt reset)))
    (hselc : SelectsBasis lc rb ancDetectors) (hselt : SelectsBasis lt rb ancDetectors)
    (gauge : Bool) (ds : List Bool) (final : Bool) {m : Nat} (hm : 1 ≤ m) (s : Sim cfg) :
    Gives (MergesOk code o o' nm lc lt Lc Lt dataInit rb reset ∧ MergesOk code o o' nm lt lc Lt Lc dataInit rb reset)
      (Props.cnotExperiment (cfg := cfg) (cssIter code o nm) o' nm lc lt m dataInit rb reset ancDetectors gauge
        (ds.map (turned lc lt)) (turned lc lt final)) s
      fun c _ => Detects (Fintype.card J) c ∧
      ∀ S : List String, S.Nodup → (∀ q ∈ S, q ∈ dataOf (if final then Lt else Lc)) →
        (∀ a ∈ stabsOf (if final then Lt else Lc) rb,
          (((turned lc lt final).1.getNeighbors [a] none).map fun q => if q ∈ S then (1 : ZMod 2) else 0).sum = 0) →
        ((if final then (if rb then Xt else Zt) else (if rb then Xc else Zc)).map fun q => if q ∈ S then (1 : ZMod 2) else 0).sum = 1 →
        Unseen S.length c := by
  have key : Props.cnotExperiment (cfg := cfg) (cssIter code o nm) o' nm lc lt m dataInit rb reset ancDetectors gauge
      (ds.map (turned lc lt)) (turned lc lt final) = pairExperiment (cssIter code o nm) o' nm lc lt dataInit rb reset ancDetectors
        gauge (fun sel => Props.cnotSequence o' nm (fun ls => mergeQecRounds (cssIter code o nm) ls reset (some sel)) m
          (ds.map (turned lc lt))) final := by
    unfold Props.cnotExperiment
    rw [if_neg (by omega)]
    cases final <;> rfl
  rw [key]
  refine pair_detects h gc gt hrc hrt nt um hargs hf hanc o o' hl pc pt hselc hselt gauge final id
    (fun hall sel hr hr' H e s hi => ?_) s
  obtain ⟨t, sg, τ, hx⟩ := exists_twinIndex h hall
  refine (hi.turns h hl hrc hrt (by rw [gc.name]; exact isCode) (by rw [gt.name]; exact isCode) hlab ht hlab' ht' hargs.config.1
    hall hx o' (round := fun ls => mergeQecRounds (cssIter code o nm) ls reset (some sel)) hr hr' hm ds
    orbit_one).mono fun e3 s3 i3 => ?_
  obtain ⟨H3, G3, o3, i3⟩ := i3
  exact ⟨H3, _, G3, G3, 1, by omega, steps_self o3.1, closedBits_one, i3⟩

end SurfaceSim
