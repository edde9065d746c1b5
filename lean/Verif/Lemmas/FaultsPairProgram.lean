/-
Programs of logical operations on two codes, with faults.
-/
import Verif.Lemmas.FaultsTurn
import Verif.Lemmas.PairProgram

namespace SurfaceSim
open Spec NoiseModel Blocks Experiments LayoutLib LogGates

variable {cfg : Detectors.Config} {nm : NoiseModel} {lc lt : Layout} {Lc Lt : List (String × Site × Kind)}
  {dirs : List (Site × String)} {reset rb : Bool} {code A B label label' : String} {Xc Zc Xt Zt : List String} {J : Type}
  {lnc lnt : J → String → ZMod 2} {Sc St : List String} {t s : Fin cfg.n → Bool} {τ : Fin cfg.n → Fin cfg.n}
  {H : List String} {R : Prop}

/-! ### logical Pauli gates -/

/-- Pauli gates keep all parities. -/
theorem pres_pauli {K : Finset String} {W : J → Func String} {l : List (Op String)} (hp : ∀ o ∈ l, ∃ q, o = .x q ∨ o = .z q)
    (hk : ∀ o ∈ l, ∀ q ∈ o.qubits, q ∈ K) (hw : ∀ q ∈ K, AtMostOne fun j => ¬ (W j).Blind q) : Pres K l W W := by
  have hb : ∀ j, Func.backL l (W j) = W j := by
    intro j
    induction l with
    | nil => rfl
    | cons o l ih =>
      rw [Func.backL_cons, ih (fun o ho => hp o (by simp [ho])) (fun o ho => hk o (by simp [ho]))]
      obtain ⟨q, rfl | rfl⟩ := hp o (by simp) <;> rfl
  refine ⟨hk, fun j => ?_, ?_, hb⟩
  · clear hb hk
    induction l with
    | nil => trivial
    | cons o l ih =>
      refine ⟨?_, ih fun o ho => hp o (by simp [ho])⟩
      obtain ⟨q, rfl | rfl⟩ := hp o (by simp) <;> trivial
  · induction l with
    | nil => exact hw
    | cons o l ih =>
      refine ⟨fun q hq => ?_, fun a b he => ?_, fun q he => ?_, ?_⟩
      · simpa only [hb] using hw q hq
      · obtain ⟨q, rfl | rfl⟩ := hp o (by simp) <;> simp at he
      · obtain ⟨q, rfl | rfl⟩ := hp o (by simp) <;> simp at he
      · refine ih (fun o ho => hp o (by simp [ho])) (fun o ho => hk o (by simp [ho])) fun j => ?_
        have := hb j
        rw [Func.backL_cons] at this
        obtain ⟨q, rfl | rfl⟩ := hp o (by simp) <;> exact this

/-- A block of Pauli gates. -/
theorem TInv.pauli (h : Twins lc lt Lc Lt dirs) (hl : TwinLines lc lt Lc Lt rb Sc St lnc lnt) (hrc : CanRun nm lc)
    {b : Call1} {px pz : List String} (hd : Does nm.inds b (px.map Op.x ++ pz.map Op.z)) {M M' : cfg.Mat Int}
    {r : Nat} {e : Circuit} {s0 : Sim cfg}
    (hi : TInv nm (ancOf Lc ++ ancOf Lt) nm.inds.keys.toFinset (jointW rb lnc lnt) (stabsOf Lc rb ++ stabsOf Lt rb) H r M M' e s0) :
    ∃ e' s', addTo e (onModel b) s0 = (.ok e', s') ∧
      TInv nm (ancOf Lc ++ ancOf Lt) nm.inds.keys.toFinset (jointW rb lnc lnt) (stabsOf Lc rb ++ stabsOf Lt rb) H r M M' e' s' := by
  have hp : ∀ o ∈ px.map Op.x ++ pz.map Op.z, ∃ q, o = .x q ∨ o = .z q := by
    intro o ho
    rcases List.mem_append.1 ho with ho | ho
    · obtain ⟨q, -, rfl⟩ := List.mem_map.1 ho
      exact ⟨q, Or.inl rfl⟩
    · obtain ⟨q, -, rfl⟩ := List.mem_map.1 ho
      exact ⟨q, Or.inr rfl⟩
  obtain ⟨c, m', e1, t1, e3, e4⟩ := hd.2 s0.1 H hi.tracks
  have hmeas : measured (px.map Op.x ++ pz.map Op.z) = [] := by
    unfold measured
    rw [List.filterMap_eq_nil_iff]
    intro op hop
    obtain ⟨q, rfl | rfl⟩ := hp op hop <;> rfl
  rw [hmeas, List.append_nil] at e4
  have hpair : PairsOk c := pairsOk_of_ops hrc.inj t1 e3 hd.1 fun op hop => by
    obtain ⟨q, rfl | rfl⟩ := hp op hop <;> trivial
  refine ⟨e.concat c, (m', s0.2), addTo_ok (onModel_ok e1), hi.gateAt (s' := (m', s0.2)) hpair e4 hi.det e3 (fun op hop => ?_) hmeas
    fun α => ⟨α, ?_⟩⟩
  · obtain ⟨q, rfl | rfl⟩ := hp op hop <;> simp
  · refine pres_pauli hp (fun o ho q hq => by simpa using hd.1 o ho q hq) fun q _ => ?_
    refine (joint_one h hl α q).mono fun j hj => ?_
    unfold jointW at hj
    rwa [blind_fn] at hj

/-! ### the steps -/

section
variable (h : Twins lc lt Lc Lt dirs) (hl : TwinLines lc lt Lc Lt rb Sc St lnc lnt) (gc : GridCode code lc Lc A Xc Zc)
    (gt : GridCode code lt Lt B Xt Zt) (hrc : CanRun nm lc) (hrt : CanRun nm lt)
    (isCode : code = "rotated_surface_code" ∨ code = "unrotated_surface_code")
    (hlab : cnotLabel lc lt = .ok label) (ht : CnotTable lc lt Lc Lt label)
    (hlab' : cnotLabel lt lc = .ok label') (ht' : CnotTable lt lc Lt Lc label')
    (hn : cfg.anc.Nodup) (hall : ∀ q, q ∈ cfg.anc ↔ q ∈ ancOf Lc ++ ancOf Lt) (hx : TwinIndex cfg Lc Lt t s τ)
include h hl gc gt hrc hrt isCode hlab ht hlab' ht' hn hall hx

/-- A gate of either direction. -/
theorem TInv.cnotTurn (o : SetOrder) (d : Bool) {M M' G' : cfg.Mat Int} (hG : IsBits G')
    (hm : mod2 G' = mod2 (cnotBlk t s τ d) * mod2 M') {r : Nat} {e : Circuit} {s0 : Sim cfg}
    (hi : TInv nm (ancOf Lc ++ ancOf Lt) nm.inds.keys.toFinset (jointW rb lnc lnt) (stabsOf Lc rb ++ stabsOf Lt rb) H r M M' e s0) :
    ∃ e' s', addTo e (if d then transCnot o nm lt lc else transCnot o nm lc lt) s0 = (.ok e', s') ∧
      ClosedBits (stabsOf Lc rb ++ stabsOf Lt rb) (mod2 (cnotBlk (cfg := cfg) t s τ d)) ∧
      TInv nm (ancOf Lc ++ ancOf Lt) nm.inds.keys.toFinset (jointW rb lnc lnt) (stabsOf Lc rb ++ stabsOf Lt rb) H r M G' e' s' := by
  have hcc : lc.code = "rotated_surface_code" ∨ lc.code = "unrotated_surface_code" := by rw [gc.name]; exact isCode
  have hct : lt.code = "rotated_surface_code" ∨ lt.code = "unrotated_surface_code" := by rw [gt.name]; exact isCode
  cases d
  · exact hi.cnotAt h hl hrc hrt hcc hct hlab ht hn hall hx o hG hm
  · have hall' : ∀ q, q ∈ cfg.anc ↔ q ∈ ancOf Lt ++ ancOf Lc := fun q => by rw [hall]; simp [or_comm]
    have hU : cnotBlk t (fun i => !s i) τ false = cnotBlk (cfg := cfg) t s τ true := cnotBlk_not false
    rw [← hU] at hm ⊢
    obtain ⟨e', s', h1, h2, h3⟩ := hi.swap.cnotAt h.symm (hl.symm h) hrt hrc hct hcc hlab' ht' hn hall' (hx.symm h hall) o hG hm
    exact ⟨e', s', h1, h2.swap, h3.swap⟩

/-- The steps of a program. -/
theorem TInv.pairSteps (o : SetOrder) {round : List Layout → PyM (Sim cfg) Circuit}
    (hround : RoundT cfg R nm (ancOf Lc ++ ancOf Lt) (jointW rb lnc lnt) (stabsOf Lc rb ++ stabsOf Lt rb) (round [lc, lt]))
    (hround' : RoundT cfg R nm (ancOf Lt ++ ancOf Lc) (jointW rb lnt lnc) (stabsOf Lt rb ++ stabsOf Lc rb) (round [lt, lc]))
    (steps : List PairStep) : ∀ {p : Option Bool} {H : List String} {G M : cfg.Mat Int} {N : cfg.Mat (ZMod 2)}
    {r : Nat} {e : Circuit} {s0 : Sim cfg}, GatesApart p steps → Orbit t s τ G → Pending t s τ p G M N →
    ClosedBits (stabsOf Lc rb ++ stabsOf Lt rb) N → 1 ≤ r →
    TInv nm (ancOf Lc ++ ancOf Lt) nm.inds.keys.toFinset (jointW rb lnc lnt) (stabsOf Lc rb ++ stabsOf Lt rb) H r G M e s0 →
    Gives R (addAll e steps (PairStep.call round (transCnot o nm) (fun l => onModel (logX o nm l))
      (fun l => onModel (logZ o nm l)) lc lt)) s0 fun e' s' => ∃ H' r' M M' N, 1 ≤ r' ∧ FrameSteps M M' N ∧
        ClosedBits (stabsOf Lc rb ++ stabsOf Lt rb) N ∧
        TInv nm (ancOf Lc ++ ancOf Lt) nm.inds.keys.toFinset (jointW rb lnc lnt) (stabsOf Lc rb ++ stabsOf Lt rb) H' r' M M' e' s' := by
  obtain ⟨p1, p2, p3, p4⟩ := hx.props h hn hall
  induction steps with
  | nil =>
    intro p H G M N r e s0 _ hG hP hc hr hi
    exact .of_ok rfl ⟨H, r, G, M, N, hr, (hP.steps p1 p2 p3 p4 hG).1, hc, hi⟩
  | cons x xs ih =>
    intro p H G M N r e s0 hap hG hP hc hr hi
    show Gives R ((addTo e _) >>= fun e => addAll e xs _) s0 _
    obtain ⟨q1, q2, q3⟩ := hP.steps p1 p2 p3 p4 hG
    cases x with
    | round d =>
      have key : Gives R (round (inOrder lc lt d)) s0 fun c s' => ∃ H',
          TInv nm (ancOf Lc ++ ancOf Lt) nm.inds.keys.toFinset (jointW rb lnc lnt) (stabsOf Lc rb ++ stabsOf Lt rb) H' (r + 1) M M
            (e.concat c) s' := by
        cases d
        · exact (hround H G M N e s0 r q1 q2 hc hi).mono fun c s' hq => ⟨_, hq⟩
        · exact (hround' H G M N e s0 r q1 q2 hc.swap hi.swap).mono fun c s' hq => ⟨_, hq.swap⟩
      refine (Gives.addTo (Q := fun e s => ∃ H', TInv nm (ancOf Lc ++ ancOf Lt) nm.inds.keys.toFinset (jointW rb lnc lnt)
        (stabsOf Lc rb ++ stabsOf Lt rb) H' (r + 1) M M e s) key).bind fun e1 s1 i1 => ?_
      obtain ⟨H', i1⟩ := i1
      exact ih (p := none) hap q3 (Or.inl ⟨rfl, rfl⟩) closedBits_one (by omega) i1
    | cnot d =>
      obtain ⟨M', o1, o2, o3⟩ := hP.gate p1 p2 p3 p4 hG hap.1
      obtain ⟨e1, s1, k1, k2, k3⟩ := hi.cnotTurn h hl gc gt hrc hrt isCode hlab ht hlab' ht' hn hall hx o d o1.isBits o2
      refine .bind_ok k1 ?_
      refine ih (p := some d) hap.2 hG o3 ?_ hr k3
      rcases o3 with ⟨-, h2⟩ | ⟨d', h0, -, -, -, h2⟩
      · rw [h2]; exact closedBits_one
      · cases h0
        rw [h2]
        exact k2
    | x second =>
      have key : ∃ e1 s1, addTo e (onModel (logX o nm (if second then lt else lc))) s0 = (.ok e1, s1) ∧
          TInv nm (ancOf Lc ++ ancOf Lt) nm.inds.keys.toFinset (jointW rb lnc lnt) (stabsOf Lc rb ++ stabsOf Lt rb) H r G M e1 s1 := by
        cases second
        · exact hi.pauli h hl hrc (does_logX h.c hrc o gc.log gc.logX gc.logZ gc.grid.subX)
        · exact hi.pauli h hl hrc (does_logX h.t hrt o gt.log gt.logX gt.logZ gt.grid.subX)
      obtain ⟨e1, s1, k1, k2⟩ := key
      exact .bind_ok k1 (ih (p := p) hap hG hP hc hr k2)
    | z second =>
      have key : ∃ e1 s1, addTo e (onModel (logZ o nm (if second then lt else lc))) s0 = (.ok e1, s1) ∧
          TInv nm (ancOf Lc ++ ancOf Lt) nm.inds.keys.toFinset (jointW rb lnc lnt) (stabsOf Lc rb ++ stabsOf Lt rb) H r G M e1 s1 := by
        cases second
        · exact hi.pauli h hl hrc (does_logZ h.c hrc o gc.log gc.logX gc.logZ gc.grid.subZ)
        · exact hi.pauli h hl hrc (does_logZ h.t hrt o gt.log gt.logX gt.logZ gt.grid.subZ)
      obtain ⟨e1, s1, k1, k2⟩ := key
      exact .bind_ok k1 (ih (p := p) hap hG hP hc hr k2)

end

open Classical in
/-- Programs on two codes. -/
theorem pairProgram_detects [Fintype J] (h : Twins lc lt Lc Lt dirs) (gc : GridCode code lc Lc A Xc Zc)
    (gt : GridCode code lt Lt B Xt Zt) (hrc : CanRun nm lc) (hrt : CanRun nm lt) (nt : NoTicks nm) (um : UniformMeas nm)
    (isCode : code = "rotated_surface_code" ∨ code = "unrotated_surface_code")
    (hlab : cnotLabel lc lt = .ok label) (ht : CnotTable lc lt Lc Lt label)
    (hlab' : cnotLabel lt lc = .ok label') (ht' : CnotTable lt lc Lt Lc label')
    {dataInit : Dict String Int} {ancDetectors : Option (List String)} (hargs : PairArgs cfg lc lt ancDetectors)
    (hf : cfg.frame ≠ .gateIndependent) (hanc : ∀ a ∈ cfg.anc, ∃ l ∈ [lc, lt], a ∈ ancOfLayout l) (o o' : SetOrder)
    (hl : TwinLines lc lt Lc Lt rb (if rb then Xc else Zc) (if rb then Xt else Zt) lnc lnt)
    (pc : RoundPres nm (ancOf Lc) nm.inds.keys.toFinset (fun j => fn (fun _ => rb) (lnc j)) (sumGen (cssIter code o nm lc reset)))
    (pt : RoundPres nm (ancOf Lt) nm.inds.keys.toFinset (fun j => fn (fun _ => rb) (lnt j)) (sumGen (cssIter code o nm lt reset)))
    (hselc : SelectsBasis lc rb ancDetectors) (hselt : SelectsBasis lt rb ancDetectors)
    (gauge : Bool) (steps : List PairStep) (hap : GatesApart none steps) (final : Bool) (s : Sim cfg) :
    Gives (MergesOk code o o' nm lc lt Lc Lt dataInit rb reset ∧ MergesOk code o o' nm lt lc Lt Lc dataInit rb reset)
      (pairProgram (cfg := cfg) (cssIter code o nm) o' nm lc lt dataInit rb reset ancDetectors gauge steps final) s
      fun c _ => Detects (Fintype.card J) c ∧
      ∀ S : List String, S.Nodup → (∀ q ∈ S, q ∈ dataOf (if final then Lt else Lc)) →
        (∀ a ∈ stabsOf (if final then Lt else Lc) rb,
          (((turned lc lt final).1.getNeighbors [a] none).map fun q => if q ∈ S then (1 : ZMod 2) else 0).sum = 0) →
        ((if final then (if rb then Xt else Zt) else (if rb then Xc else Zc)).map fun q => if q ∈ S then (1 : ZMod 2) else 0).sum = 1 →
        Unseen S.length c := by
  unfold pairProgram
  refine pair_detects h gc gt hrc hrt nt um hargs hf hanc o o' hl pc pt hselc hselt gauge final id
    (fun hall sel hr hr' H e s hi => ?_) s
  obtain ⟨t, sg, τ, hx⟩ := exists_twinIndex h hall
  exact hi.pairSteps h hl gc gt hrc hrt isCode hlab ht hlab' ht' hargs.config.1 hall hx o'
    (round := fun ls => mergeQecRounds (cssIter code o nm) ls reset (some sel)) hr hr' steps hap orbit_one (Or.inl ⟨rfl, rfl⟩)
    closedBits_one (by omega)

end SurfaceSim
