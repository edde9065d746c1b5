/-
Programs of logical operations on two codes.
-/
import Verif.Lemmas.AltFixed
import Verif.Lemmas.ProgramCodes
import Verif.Props.Program

namespace SurfaceSim
open Spec NoiseModel Blocks Experiments LayoutLib LogGates

variable {cfg : Detectors.Config} {nm : NoiseModel} {lc lt : Layout} {Lc Lt : List (String × Site × Kind)}
  {dirs : List (Site × String)} {code A B label label' : String} {Xc Zc Xt Zt : List String} {reset : Bool}

/-! ### logical Pauli gates of one of two codes -/

/-- A block that applies Pauli gates to the first code. -/
theorem blockG_pair (h : Twins lc lt Lc Lt dirs) (gt : GridCode code lt Lt B Xt Zt) (hrc : CanRun nm lc)
    (hrt : CanRun nm lt) {b : Call1} {f : Bool → ZMod 2} {px pz : List String}
    (hb : BlockG nm (ancOf Lc) (codeValues nm lc Lc A) (flipMap f) b)
    (hd : Does nm.inds b (px.map Op.x ++ pz.map Op.z)) (hpx : ∀ d ∈ px, d ∈ dataOf Lc) (hpz : ∀ d ∈ pz, d ∈ dataOf Lc) :
    BlockG nm (ancOf Lc ++ ancOf Lt) (pairValues nm lc lt Lc Lt A B) (flipMap fun k => if k.1 then 0 else f k.2) b := by
  have kc := grid_known hrc h.c
  have kt := grid_known hrt h.t
  intro s hist hs
  obtain ⟨c, s', e, hp, ht, hc⟩ := hb s hist hs
  obtain ⟨c', s'', e', -, ho, -⟩ := hd.2 s hist hs
  cases e.symm.trans e'
  refine ⟨c, s', e, hp, ht, fun ρ st => ?_⟩
  obtain ⟨r1, r2, r3, r4, r5⟩ := hc ρ st
  have hoth : ∀ q ∈ dataOf Lt ++ ancOf Lt, (run ρ st (ops c)).x (ind nm.inds q) = st.x (ind nm.inds q) ∧
      (run ρ st (ops c)).z (ind nm.inds q) = st.z (ind nm.inds q) := by
    intro q hq
    have hne : ∀ d ∈ dataOf Lc, ind nm.inds q ≠ ind nm.inds d := by
      intro d hdd he
      obtain rfl := hrc.inj q (kt q hq) d (kc d (List.mem_append_left _ hdd)) he
      rcases List.mem_append.1 hq with hq | hq
      · exact (List.nodup_append.1 (data_two_nodup h)).2.2 q hdd q hq rfl
      · exact data_anc_two h q (List.mem_append_left _ hdd) (List.mem_append_right _ hq)
    refine run_other ρ _ st _ fun op hop hm => ?_
    rw [ho, List.map_append, List.map_map, List.map_map] at hop
    rcases List.mem_append.1 hop with hop | hop
    · obtain ⟨d, hdm, rfl⟩ := List.mem_map.1 hop
      exact hne d (hpx d hdm) (by simpa [Op.rename, Op.qubits] using hm)
    · obtain ⟨d, hdm, rfl⟩ := List.mem_map.1 hop
      exact hne d (hpz d hdm) (by simpa [Op.rename, Op.qubits] using hm)
  have htv : codeValues nm lt Lt B (run ρ st (ops c)) = codeValues nm lt Lt B st :=
    codeValues_congr h.t gt.logX gt.logZ gt.grid fun q hq => hoth q (List.mem_append_left _ hq)
  refine ⟨r1, r2, r3, fun a ha => ?_, Prod.ext (funext fun k => ?_) (funext fun a => ?_)⟩
  · rcases List.mem_append.1 ha with ha | ha
    · exact r4 a ha
    · exact (hoth a (List.mem_append_right _ ha)).1
  · obtain ⟨isT, isX⟩ := k
    show _ = (pairValues nm lc lt Lc Lt A B st).1 (isT, isX) + _
    rw [pairValues_log, pairValues_log]
    cases isT
    · simp only [Bool.false_eq_true, if_false]
      rw [r5]
      rfl
    · simp only [if_true, add_zero]
      rw [htv]
  · show _ = (pairValues nm lc lt Lc Lt A B st).2 a
    by_cases ha : a ∈ ancOf Lc ++ ancOf Lt
    · rcases List.mem_append.1 ha with ha | ha
      · rw [pairValues_c h _ ha, pairValues_c h _ ha, r5]
        rfl
      · rw [pairValues_t h _ ha, pairValues_t h _ ha, htv]
    · rw [pairValues_else _ ha, pairValues_else _ ha]

/-- The logical X and Z of the first code. -/
theorem pauli_pair (h : Twins lc lt Lc Lt dirs) (gc : GridCode code lc Lc A Xc Zc) (gt : GridCode code lt Lt B Xt Zt)
    (hrc : CanRun nm lc) (hrt : CanRun nm lt) {o : SetOrder} (hp : PaulisCss nm lc Lc Xc Zc o) :
    BlockG nm (ancOf Lc ++ ancOf Lt) (pairValues nm lc lt Lc Lt A B)
        (flipMap fun k => if k.1 then 0 else if k.2 then 0 else 1) (logX o nm lc) ∧
      BlockG nm (ancOf Lc ++ ancOf Lt) (pairValues nm lc lt Lc Lt A B)
        (flipMap fun k => if k.1 then 0 else if k.2 then 1 else 0) (logZ o nm lc) := by
  unfold PaulisCss at hp
  rw [← codeValues_typed h.c gc.logX gc.logZ] at hp
  exact ⟨blockG_pair h gt hrc hrt hp.1 (does_logX h.c hrc o gc.log gc.logX gc.logZ gc.grid.subX) gc.grid.subX (by simp),
    blockG_pair h gt hrc hrt hp.2 (does_logZ h.c hrc o gc.log gc.logX gc.logZ gc.grid.subZ) (by simp) gc.grid.subZ⟩

/-! ### gates since the last round -/

variable {t s : Fin cfg.n → Bool} {τ : Fin cfg.n → Fin cfg.n}

/-- The generators after gates in one direction, `G` being those of the last round. -/
def Pending (t s : Fin cfg.n → Bool) (τ : Fin cfg.n → Fin cfg.n) (p : Option Bool) (G M : cfg.Mat Int) (N : cfg.Mat (ZMod 2)) :
    Prop :=
  (M = G ∧ N = 1) ∨ ∃ d, p = some d ∧ Orbit t s τ M ∧ FrameSteps G M (mod2 (cnotBlk t s τ d)) ∧
    mod2 M = mod2 (cnotBlk t s τ d) * mod2 G ∧ N = mod2 (cnotBlk t s τ d)

section
variable (hτ : ∀ i, τ (τ i) = i) (hne : ∀ i, τ i ≠ i) (ht : ∀ i, t (τ i) = t i) (hs : ∀ i, s (τ i) = !s i)
  {p : Option Bool} {G M : cfg.Mat Int} {N : cfg.Mat (ZMod 2)}
include hτ hne ht hs

theorem Pending.steps (hG : Orbit t s τ G) (h : Pending t s τ p G M N) : FrameSteps G M N ∧ N * N = 1 ∧ Orbit t s τ M := by
  rcases h with ⟨rfl, rfl⟩ | ⟨d, -, h1, h2, -, rfl⟩
  · exact ⟨steps_self hG.1, one_mul 1, hG⟩
  · exact ⟨h2, cnotBlk_sq hτ hne ht hs d, h1⟩

theorem Pending.gate (hG : Orbit t s τ G) (h : Pending t s τ p G M N) {d : Bool} (hd : p = none ∨ p = some d) :
    ∃ M', Orbit t s τ M' ∧ mod2 M' = mod2 (cnotBlk t s τ d) * mod2 M ∧
      Pending t s τ (some d) G M' (mod2 (cnotBlk t s τ d) * N) := by
  rcases h with ⟨rfl, rfl⟩ | ⟨d', h0, h1, h2, h3, rfl⟩
  · obtain ⟨M', o1, o2, o3⟩ := hG.gate hτ hne ht hs d
    exact ⟨M', o1, o2, Or.inr ⟨d, rfl, o1, o3, o2, mul_one _⟩⟩
  · obtain rfl : d' = d := by
      rcases hd with hd | hd
      · rw [h0] at hd; cases hd
      · rw [h0] at hd; exact Option.some.inj hd
    refine ⟨G, hG, ?_, Or.inl ⟨rfl, cnotBlk_sq hτ hne ht hs d'⟩⟩
    rw [h3, ← Matrix.mul_assoc, cnotBlk_sq hτ hne ht hs d', Matrix.one_mul]

end

/-! ### the steps -/

variable {V : (Nat → ZMod 2) → (Nat → ZMod 2) → Values (Bool × Bool)}
  {D : (Nat → ZMod 2) → (Nat → ZMod 2) → List (ZMod 2)} {H : List String} {R : Prop}

section
variable (h : Twins lc lt Lc Lt dirs) (gc : GridCode code lc Lc A Xc Zc) (gt : GridCode code lt Lt B Xt Zt)
    (hrc : CanRun nm lc) (hrt : CanRun nm lt)
    (isCode : code = "rotated_surface_code" ∨ code = "unrotated_surface_code")
    (hlab : cnotLabel lc lt = .ok label) (ht : CnotTable lc lt Lc Lt label)
    (hlab' : cnotLabel lt lc = .ok label') (ht' : CnotTable lt lc Lt Lc label')
    (tX : TwinSets Lc Lt Xc Xt) (tZ : TwinSets Lc Lt Zc Zt)
    (hn : cfg.anc.Nodup) (hall : ∀ q, q ∈ cfg.anc ↔ q ∈ ancOf Lc ++ ancOf Lt) (hx : TwinIndex cfg Lc Lt t s τ)
include h gc gt hrc hrt isCode hlab ht hlab' ht' tX tZ hn hall hx

/-- A gate of either direction. -/
theorem HInv.cnotTurn (o : SetOrder) (d : Bool) {M M' G' : cfg.Mat Int} {N : cfg.Mat (ZMod 2)} (hG : IsBits G')
    (hm : mod2 G' = mod2 (cnotBlk t s τ d) * mod2 M') {r : Nat} {e : Circuit} {s0 : Sim cfg}
    (hi : HInv nm (ancOf Lc ++ ancOf Lt) (pairValues nm lc lt Lc Lt A B) reset H r V D M M' N e s0) :
    ∃ e' s' V', addTo e (if d then transCnot o nm lt lc else transCnot o nm lc lt) s0 = (.ok e', s') ∧
      (∀ ζ ρ, (V' ζ ρ).1 = logStep d (V ζ ρ).1) ∧
      HInv nm (ancOf Lc ++ ancOf Lt) (pairValues nm lc lt Lc Lt A B) reset H r V' D M G' (mod2 (cnotBlk t s τ d) * N) e' s' := by
  cases d
  · exact hi.cnotAt h gc gt hrc hrt isCode hlab ht tX tZ hn hall hx o hG hm
  · have hall' : ∀ q, q ∈ cfg.anc ↔ q ∈ ancOf Lt ++ ancOf Lc := fun q => by rw [hall]; simp [or_comm]
    have hU : cnotBlk t (fun i => !s i) τ false = cnotBlk (cfg := cfg) t s τ true := cnotBlk_not false
    rw [← hU] at hm ⊢
    obtain ⟨e', s', V', h1, h2, h3⟩ := (hi.swap h).cnotAt h.symm gt gc hrt hrc isCode hlab' ht' tX.symm tZ.symm hn hall'
      (hx.symm h hall) o hG hm
    refine ⟨e', s', _, h1, fun ζ ρ => ?_, h3.swap h.symm⟩
    funext k
    show (V' ζ ρ).1 (!k.1, k.2) = _
    rw [h2]
    rfl

/-- The steps of a program. -/
theorem HInv.pairSteps (o : SetOrder) {round : List Layout → PyM (Sim cfg) Circuit}
    (hround : RoundGivesH cfg R nm (ancOf Lc ++ ancOf Lt) (pairValues nm lc lt Lc Lt A B) reset (round [lc, lt]))
    (hround' : RoundGivesH cfg R nm (ancOf Lt ++ ancOf Lc) (pairValues nm lt lc Lt Lc B A) reset (round [lt, lc]))
    (hpc : PaulisCss nm lc Lc Xc Zc o) (hpt : PaulisCss nm lt Lt Xt Zt o) (rb : Bool) (steps : List PairStep) :
    ∀ {p : Option Bool} {H : List String} {G M : cfg.Mat Int} {N : cfg.Mat (ZMod 2)}
    {V : (Nat → ZMod 2) → (Nat → ZMod 2) → Values (Bool × Bool)} {D : (Nat → ZMod 2) → (Nat → ZMod 2) → List (ZMod 2)}
    {r : Nat} {e : Circuit} {s0 : Sim cfg}, GatesApart p steps → Orbit t s τ G → Pending t s τ p G M N → 1 ≤ r →
    HInv nm (ancOf Lc ++ ancOf Lt) (pairValues nm lc lt Lc Lt A B) reset H r V D G M N e s0 →
    Gives R (addAll e steps (PairStep.call round (transCnot o nm) (fun l => onModel (logX o nm l))
      (fun l => onModel (logZ o nm l)) lc lt)) s0 fun e' s' => ∃ G' M' N' V', FrameSteps G' M' N' ∧
      (∀ ζ ρ, pairOf rb (V' ζ ρ).1 = afterSteps rb steps (pairOf rb (V ζ ρ).1)) ∧
      HInv nm (ancOf Lc ++ ancOf Lt) (pairValues nm lc lt Lc Lt A B) reset
        (H ++ (roundsOf steps).flatMap fun d => (List.replicate 1 (turnedAnc Lc Lt d)).flatten)
        (r + (roundsOf steps).length * 1) V'
        (fun ζ ρ => D ζ ρ ++ List.replicate ((roundsOf steps).length * 1 * cfg.anc.length) 0) G' M' N' e' s' := by
  obtain ⟨p1, p2, p3, p4⟩ := hx.props h hn hall
  induction steps with
  | nil =>
    intro p H G M N V D r e s0 _ hG hP _ hi
    exact .of_ok rfl ⟨G, M, N, V, (hP.steps p1 p2 p3 p4 hG).1, fun _ _ => rfl, by simpa [roundsOf] using hi⟩
  | cons x xs ih =>
    intro p H G M N V D r e s0 hap hG hP hr hi
    show Gives R ((addTo e _) >>= fun e => addAll e xs _) s0 _
    obtain ⟨q1, q2, q3⟩ := hP.steps p1 p2 p3 p4 hG
    cases x with
    | round d =>
      have key : Gives R (round (inOrder lc lt d)) s0 fun c s' =>
          HInv nm (ancOf Lc ++ ancOf Lt) (pairValues nm lc lt Lc Lt A B) reset (H ++ turnedAnc Lc Lt d) (r + 1) V
            (fun ζ ρ => D ζ ρ ++ List.replicate cfg.anc.length 0) M M 1 (e.concat c) s' := by
        cases d
        · exact hround H V D G M N e s0 r hr q1 q2 hi
        · exact (hround' H _ D G M N e s0 r hr q1 q2 (hi.swap h)).mono fun c s' hq => by
            have := hq.swap h.symm
            have hV : (fun ζ ρ => swapV (swapV (V ζ ρ))) = V := by
              funext ζ ρ
              refine Prod.ext (funext fun k => ?_) rfl
              show (V ζ ρ).1 (! !k.1, k.2) = _
              rw [Bool.not_not]
            rw [hV] at this
            exact this
      refine (Gives.addTo key).bind fun e1 s1 i1 => ?_
      refine (ih (p := none) hap q3 (Or.inl ⟨rfl, rfl⟩) (by omega) i1).mono fun e2 s2 hq => ?_
      obtain ⟨G', M', N', V', f1, f2, f3⟩ := hq
      refine ⟨G', M', N', V', f1, f2, ?_⟩
      have hro : roundsOf (PairStep.round d :: xs) = d :: roundsOf xs := rfl
      rw [hro]
      convert f3 using 1
      · rw [List.flatMap_cons, List.append_assoc]
        simp
      · rw [List.length_cons]; ring
      · funext ζ ρ
        rw [List.append_assoc, List.replicate_append_replicate, List.length_cons]
        congr 2; ring
    | cnot d =>
      obtain ⟨M', o1, o2, o3⟩ := hP.gate p1 p2 p3 p4 hG hap.1
      obtain ⟨e1, s1, V1, k1, k2, k3⟩ := hi.cnotTurn h gc gt hrc hrt isCode hlab ht hlab' ht' tX tZ hn hall hx o d o1.isBits o2
      refine .bind_ok k1 ?_
      refine (ih (p := some d) hap.2 hG o3 hr k3).mono fun e2 s2 hq => ?_
      obtain ⟨G', M', N', V', f1, f2, f3⟩ := hq
      refine ⟨G', M', N', V', f1, fun ζ ρ => ?_, f3⟩
      rw [f2, k2]
      have := foldl_logStep rb [d] (V ζ ρ).1
      show _ = afterSteps rb xs (afterCnots rb [d] (pairOf rb (V ζ ρ).1))
      exact congrArg _ this
    | x second =>
      have key : ∃ e1 s1 V1, addTo e (onModel (logX o nm (if second then lt else lc))) s0 = (.ok e1, s1) ∧
          (∀ ζ ρ, pairOf rb (V1 ζ ρ).1 = (PairStep.x second).act rb (pairOf rb (V ζ ρ).1)) ∧
          HInv nm (ancOf Lc ++ ancOf Lt) (pairValues nm lc lt Lc Lt A B) reset H r V1 D G M N e1 s1 := by
        cases second
        · obtain ⟨e1, s1, k1, k2⟩ := hi.pauli (pauli_pair h gc gt hrc hrt hpc).1 (fun _ => rfl)
          refine ⟨e1, s1, _, k1, fun ζ ρ => ?_, k2⟩
          cases rb <;> simp [pairOf, PairStep.act, flipMap]
        · obtain ⟨e1, s1, k1, k2⟩ := (hi.swap h).pauli (pauli_pair h.symm gt gc hrt hrc hpt).1 (fun _ => rfl)
          refine ⟨e1, s1, _, k1, fun ζ ρ => ?_, k2.swap h.symm⟩
          cases rb <;> simp [pairOf, PairStep.act, flipMap, swapV]
      obtain ⟨e1, s1, V1, k1, k2, k3⟩ := key
      refine .bind_ok k1 ?_
      refine (ih (p := p) hap hG hP hr k3).mono fun e2 s2 hq => ?_
      obtain ⟨G', M', N', V', f1, f2, f3⟩ := hq
      refine ⟨G', M', N', V', f1, fun ζ ρ => ?_, f3⟩
      rw [f2, k2]
      rfl
    | z second =>
      have key : ∃ e1 s1 V1, addTo e (onModel (logZ o nm (if second then lt else lc))) s0 = (.ok e1, s1) ∧
          (∀ ζ ρ, pairOf rb (V1 ζ ρ).1 = (PairStep.z second).act rb (pairOf rb (V ζ ρ).1)) ∧
          HInv nm (ancOf Lc ++ ancOf Lt) (pairValues nm lc lt Lc Lt A B) reset H r V1 D G M N e1 s1 := by
        cases second
        · obtain ⟨e1, s1, k1, k2⟩ := hi.pauli (pauli_pair h gc gt hrc hrt hpc).2 (fun _ => rfl)
          refine ⟨e1, s1, _, k1, fun ζ ρ => ?_, k2⟩
          cases rb <;> simp [pairOf, PairStep.act, flipMap]
        · obtain ⟨e1, s1, k1, k2⟩ := (hi.swap h).pauli (pauli_pair h.symm gt gc hrt hrc hpt).2 (fun _ => rfl)
          refine ⟨e1, s1, _, k1, fun ζ ρ => ?_, k2.swap h.symm⟩
          cases rb <;> simp [pairOf, PairStep.act, flipMap, swapV]
      obtain ⟨e1, s1, V1, k1, k2, k3⟩ := key
      refine .bind_ok k1 ?_
      refine (ih (p := p) hap hG hP hr k3).mono fun e2 s2 hq => ?_
      obtain ⟨G', M', N', V', f1, f2, f3⟩ := hq
      refine ⟨G', M', N', V', f1, fun ζ ρ => ?_, f3⟩
      rw [f2, k2]
      rfl

end

/-- Programs on the codes on two grids. -/
theorem pairProgram_fixed (h : Twins lc lt Lc Lt dirs) (gc : GridCode code lc Lc A Xc Zc) (gt : GridCode code lt Lt B Xt Zt)
    (hrc : CanRun nm lc) (hrt : CanRun nm lt) (nt : NoTicks nm) (um : UniformMeas nm)
    (isCode : code = "rotated_surface_code" ∨ code = "unrotated_surface_code")
    (hlab : cnotLabel lc lt = .ok label) (ht : CnotTable lc lt Lc Lt label)
    (hlab' : cnotLabel lt lc = .ok label') (ht' : CnotTable lt lc Lt Lc label')
    (tX : TwinSets Lc Lt Xc Xt) (tZ : TwinSets Lc Lt Zc Zt)
    {dataInit : Dict String Int} {ancDetectors : Option (List String)} (hargs : PairArgs cfg lc lt ancDetectors)
    (hargs' : GateArgs cfg [lc, lt] dataInit) (o o' : SetOrder)
    (hpc : PaulisCss nm lc Lc Xc Zc o') (hpt : PaulisCss nm lt Lt Xt Zt o') (rb gauge : Bool) (steps : List PairStep)
    (hap : GatesApart none steps) (final : Bool) (s : Sim cfg) :
    Gives (MergesOk code o o' nm lc lt Lc Lt dataInit rb reset ∧ MergesOk code o o' nm lt lc Lt Lc dataInit rb reset)
      (pairProgram (cfg := cfg) (cssIter code o nm) o' nm lc lt dataInit rb reset ancDetectors gauge steps final) s
      fun c _ => FixedTurnValues cfg nm lc lt (roundsOf steps) 1 final dataInit rb gauge ancDetectors
        (afterSteps rb steps (bits dataInit (if rb then Xc else Zc), bits dataInit (if rb then Xt else Zt))) c := by
  unfold pairProgram
  refine pair_fixed (F := afterSteps rb steps) h gc gt hrc hrt nt um hargs hargs' o o' rb gauge (roundsOf steps) final id
    (fun hall sel hsel V D e s hi => ?_) s
  obtain ⟨t, sg, τ, hx⟩ := exists_twinIndex h hall
  exact hi.pairSteps h gc gt hrc hrt isCode hlab ht hlab' ht' tX tZ hargs.config.1 hall hx o'
    (round := fun ls => mergeQecRounds (cssIter code o nm) ls reset (some sel))
    (pair_roundH h gc gt hrc hrt nt um hargs.config hargs'.frame hall hsel o fun hR => hR.1.round)
    (pair_roundH h.symm gt gc hrt hrc nt um hargs.config hargs'.frame (fun q => by rw [hall]; simp [or_comm])
      (fun a ha => by simpa [or_comm] using hsel a ha) o fun hR => hR.2.round) hpc hpt rb steps hap orbit_one
    (Or.inl ⟨rfl, rfl⟩) (by omega)

end SurfaceSim
