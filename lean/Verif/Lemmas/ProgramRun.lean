/-
Programs of logical operations: the values of the detectors and the observable.
-/
import Verif.Lemmas.GateCodes
import Verif.Spec.Program

namespace SurfaceSim
open Spec NoiseModel Blocks Experiments

variable {cfg : Detectors.Config} {nm : NoiseModel} {l : Layout} {rb : Bool} {data anc stabs log : List String}
  {isX : String → String → Bool} {R : List String} {K : Type} {v : FState Nat → Values K} {Φ : Values K → Values K}
  {U : cfg.Mat Int} {reset : Bool} {v0 : (Nat → ZMod 2) → (Nat → ZMod 2) → Values K}
  {D : (Nat → ZMod 2) → (Nat → ZMod 2) → List (ZMod 2)}

/-- The gates so far as part of the initial value. -/
theorem GInv.rebase {r n : Nat} {a b : Bool} {e : Circuit} {s : Sim cfg} (h : GInv nm anc v Φ U reset v0 D r n a b e s) :
    GInv nm anc v Φ U reset (fun ζ ρ => Φ^[n] (v0 ζ ρ)) D r 0 a b e s :=
  ⟨h.tracks, h.even, h.order, h.det, fun ζ ρ => h.frame ζ ρ⟩

/-- A block that changes the values of the logical operators only. -/
theorem GInv.pauli {b' : Call1} {φ : Values K → Values K} (hb : BlockG nm anc v φ b') (hφ : ∀ w, (φ w).2 = w.2)
    {r : Nat} {a b : Bool} {e : Circuit} {s : Sim cfg} (h : GInv nm anc v Φ U reset v0 D r 0 a b e s) :
    ∃ e' s', addTo e (onModel b') s = (.ok e', s') ∧ GInv nm anc v Φ U reset (fun ζ ρ => φ (v0 ζ ρ)) D r 0 a b e' s' := by
  obtain ⟨c, s', h1, p1, t1, f1⟩ := hb s.1 _ h.tracks
  have o1 := h.even.concat p1
  refine ⟨e.concat c, (s', s.2), addTo_ok (onModel_ok h1), t1, o1.2, ?_, h.det, fun ζ ρ => ?_⟩
  · rw [measOrder_ops, o1.1, measured_append, ← measOrder_ops, h.order,
      measured_eq_nil (ρ := 0) (st := FState.init Nat) (f1 0 _).1, List.append_nil]
  · obtain ⟨g1, g2, g3, g4, g5, g6⟩ := h.frame ζ ρ
    rw [o1.1, run_append]
    obtain ⟨k1, k2, k3, k4, k5⟩ := f1 ρ (run ρ (FState.start ζ) (ops e))
    dsimp only
    rw [k1, k2, k3, k5]
    refine ⟨g1, g2, g3, by rw [g4]; rfl, fun q hq => by rw [k4 q hq, g5 q hq], fun i => ?_⟩
    rw [hφ]
    exact g6 i

/-- What the steps do to the values. -/
def stepMap (φx φz Φ : Values K → Values K) : Step → Values K → Values K
  | .round => id
  | .gate => Φ
  | .x => φx
  | .z => φz

/-- The number of rounds of a program. -/
theorem count_round_cons (x : Step) (xs : List Step) :
    (x :: xs).count Step.round = xs.count Step.round + if x = .round then 1 else 0 := by
  rw [List.count_cons]
  congr 1
  cases x <;> rfl

theorem GInv.steps {round g : PyM (Sim cfg) Circuit} {bx bz : Call1} {φx φz : Values K → Values K}
    (hround : ∀ v0, RoundStep nm anc v Φ U reset v0 round) (hU : CleanInvolution U)
    (hΦ : ∀ w i, (Φ w).2 (cfg.label i) = (mod2 U).mulVec (fun j => w.2 (cfg.label j)) i)
    (hx : BlockG nm anc v φx bx) (hφx : ∀ w, (φx w).2 = w.2) (hz : BlockG nm anc v φz bz) (hφz : ∀ w, (φz w).2 = w.2)
    (steps : List Step) :
    ∀ {v0 : (Nat → ZMod 2) → (Nat → ZMod 2) → Values K} {D : (Nat → ZMod 2) → (Nat → ZMod 2) → List (ZMod 2)}
      {r : Nat} {a b : Bool} {e : Circuit} {s : Sim cfg}, (Step.gate ∈ steps → GateG nm anc v Φ U g) →
    1 ≤ r → GInv nm anc v Φ U reset v0 D r 0 a b e s →
    ∃ a' b' e' s', addAll e steps (Step.call round g (onModel bx) (onModel bz)) s = (.ok e', s') ∧
      GInv nm anc v Φ U reset (fun ζ ρ => steps.foldl (fun w x => stepMap φx φz Φ x w) (v0 ζ ρ))
        (fun ζ ρ => D ζ ρ ++ List.replicate (steps.count Step.round * cfg.anc.length) 0) (r + steps.count Step.round) 0 a' b' e' s' := by
  induction steps with
  | nil =>
    intro v0 D r a b e s _ _ h
    exact ⟨a, b, e, s, rfl, by simpa using h⟩
  | cons x xs ih =>
    intro v0 D r a b e s hg hr h
    have ih := @ih
    have hg' : Step.gate ∈ xs → GateG nm anc v Φ U g := fun h => hg (List.mem_cons_of_mem _ h)
    have key : ∀ {p : PyM (Sim cfg) Circuit} {v1 : (Nat → ZMod 2) → (Nat → ZMod 2) → Values K}
        {D1 : (Nat → ZMod 2) → (Nat → ZMod 2) → List (ZMod 2)} {r1 : Nat} {a1 b1 : Bool} {e1 : Circuit} {s1 : Sim cfg},
        addTo e p s = (.ok e1, s1) → GInv nm anc v Φ U reset v1 D1 r1 0 a1 b1 e1 s1 → 1 ≤ r1 →
        ∃ a' b' e' s', (addTo e p >>= fun e => addAll e xs (Step.call round g (onModel bx) (onModel bz))) s = (.ok e', s') ∧
          GInv nm anc v Φ U reset (fun ζ ρ => xs.foldl (fun w x => stepMap φx φz Φ x w) (v1 ζ ρ))
            (fun ζ ρ => D1 ζ ρ ++ List.replicate (xs.count Step.round * cfg.anc.length) 0) (r1 + xs.count Step.round) 0 a' b' e' s' := by
      intro p v1 D1 r1 a1 b1 e1 s1 h1 h2 h3
      obtain ⟨a', b', e', s', h4, h5⟩ := ih hg' h3 h2
      exact ⟨a', b', e', s', by rw [PyM.bind_ok h1]; exact h4, h5⟩
    cases x with
    | round =>
      obtain ⟨c, s1, h1, h2⟩ := hround v0 D r 0 a b e s hr h
      obtain ⟨a', b', e', s', h4, h5⟩ := key (addTo_ok h1) h2 (by omega)
      refine ⟨a', b', e', s', h4, ?_⟩
      convert h5 using 1
      · rfl
      · funext ζ ρ
        rw [List.append_assoc, List.replicate_append_replicate, count_round_cons, if_pos rfl]
        congr 2; ring
      · rw [count_round_cons, if_pos rfl]; omega
    | gate =>
      obtain ⟨e1, s1, h1, h2⟩ := h.gate (hg (by simp)) hU hΦ
      obtain ⟨a', b', e', s', h4, h5⟩ := key h1 h2.rebase hr
      exact ⟨a', b', e', s', h4, h5⟩
    | x =>
      obtain ⟨e1, s1, h1, h2⟩ := h.pauli hx hφx
      obtain ⟨a', b', e', s', h4, h5⟩ := key h1 h2 hr
      exact ⟨a', b', e', s', h4, h5⟩
    | z =>
      obtain ⟨e1, s1, h1, h2⟩ := h.pauli hz hφz
      obtain ⟨a', b', e', s', h4, h5⟩ := key h1 h2 hr
      exact ⟨a', b', e', s', h4, h5⟩

/-- The values of the detectors and the observable of a program. -/
theorem program_values {rb' : Bool} {stabs' log' R' : List String} (hm : MemCode nm l rb data anc stabs log isX R)
    (hm' : MemCode nm l rb' data anc stabs' log' isX R') (hcfg : ConfigOk cfg)
    (hf : cfg.frame ≠ .gateIndependent) (hU : CleanInvolution U) (hall : ∀ q, q ∈ cfg.anc ↔ q ∈ anc)
    {dataInit : Dict String Int} {fam : Family cfg} {gi iter gm : Gen}
    (hfi : fam.init l dataInit rb = activateAndSum l gi)
    (hfr : ∀ sel, fam.round l reset sel = qecRound iter l reset sel)
    (hfm : ∀ sel, fam.meas l rb' reset sel = (do
      let sel ← PyM.ofExcept (checkAncDetectors l sel)
      let circuit ← onModel (sumGen gm)
      finishMeas l rb' reset sel circuit))
    (hi : InitEff nm data anc R dataInit (sumGen gi)) (hz : ∀ a ∈ anc, isOne dataInit a = 0)
    (hb : RoundG nm anc v reset (sumGen iter))
    (hM : MeasEff nm data R' (sumGen gm))
    (hv : ∀ st st' : FState Nat, st.x = st'.x → st.z = st'.z → v st = v st')
    (hv2 : ∀ st, ∀ a ∈ stabs', (v st).2 a =
      anticommutes (ind nm.inds) st (l.getNeighbors [a] none) (fun d => decide (d ∈ R')))
    {k : K} (hv1 : ∀ st, (v st).1 k = anticommutes (ind nm.inds) st log' (fun d => decide (d ∈ R')))
    {bx bz : Call1} {φx φz : Values K → Values K}
    (hbx : BlockG nm anc v φx bx) (hφx : ∀ w, (φx w).2 = w.2) (hbz : BlockG nm anc v φz bz) (hφz : ∀ w, (φz w).2 = w.2)
    {g : PyM (Sim cfg) Circuit} (steps : List Step) (hg : Step.gate ∈ steps → GateG nm anc v Φ U g)
    (hΦ : ∀ w i, (Φ w).2 (cfg.label i) = (mod2 U).mulVec (fun j => w.2 (cfg.label j)) i)
    (o : SetOrder) (ancDetectors : Option (List String))
    (hsel : ∀ sel, ancDetectors = some sel → ∀ a ∈ sel, a ∈ anc) (gauge : Bool) (s : Sim cfg) :
    ∃ c s', program fam o nm l (onModel bx) (onModel bz) g steps dataInit rb rb' reset ancDetectors gauge s = (.ok c, s') ∧
      PairsOk c ∧
      measOrder c = (histOf anc (1 + steps.count Step.round) ++ data).map (ind nm.inds) ∧
      ∀ ζ ρ : Nat → ZMod 2, ∃ st0 : FState Nat,
        (∀ S : List String, (∀ d ∈ S, d ∈ data) →
          anticommutes (ind nm.inds) st0 S (fun d => decide (d ∈ R)) = bits dataInit S) ∧
        detectors ζ ρ c = (cfg.anc.map fun q => if q ∈ ancDetectors.getD anc ∧ (gauge = true ∨ q ∈ stabs) then
            (v st0).2 q else 0) ++
          List.replicate (steps.count Step.round * cfg.anc.length + (cfg.anc.filter (· ∈ stabs')).length) 0 ∧
        observables ζ ρ c = [(0, (steps.foldl (fun w x => stepMap φx φz Φ x w) (v st0)).1 k)] := by
  set sel := ancDetectors.getD anc with hseld
  have hsel' : ∀ a ∈ sel, a ∈ anc := by
    cases ancDetectors with
    | none => exact fun a ha => ha
    | some x => exact hsel x rfl
  set first := (if gauge then sel else o.ord (inter (setOf sel) stabs)) with hfirst
  have hmf : ∀ q, q ∈ first ↔ q ∈ sel ∧ (gauge = true ∨ q ∈ stabs) := by
    intro q
    rw [hfirst]
    cases gauge
    · simp [mem_first]
    · simp
  obtain ⟨e0, h0, p0, o0⟩ := start_ok hm s
  obtain ⟨c1, s1, h1, i1, init⟩ := gInv_init hm hcfg hall hi hz v Φ U reset p0 o0
    (s := (MeasState.fresh nm.inds, Detectors.State.fresh cfg)) (MeasState.tracks_fresh _) DetAt.new
  obtain ⟨c2, s2, c2', d2, h2, h2', i2⟩ := i1.round hcfg hf hU hm.ancN
    (fun q hq => hm.known (List.mem_append_right _ hq)) hall hb hv (fun _ => rfl) first
    (fun q hq => hsel' q ((hmf q).1 hq).1)
  obtain ⟨a3, b3, e3, s3, h3, i3⟩ := i2.steps
    (fun v0 => roundStep_qec hm hcfg hf hU hall hb hv hsel') hU hΦ hbx hφx hbz hφz steps hg (by omega)
  obtain ⟨c4, s4, h4, p4, t4, mo, f4⟩ := i3.finish hm' hcfg hf hU hall hM hv2 hv1 (by omega) hsel'
  rw [Nat.zero_add] at mo
  refine ⟨e3.concat c4, s4, ?_, p4, mo, fun ζ ρ => ⟨run ρ (FState.start ζ) (ops c1), init ζ ρ, ?_, ?_⟩⟩
  · unfold program
    have k0 : PyM.ofExcept (ancDefault [l] ancDetectors) s = (.ok sel, s) := by
      cases ancDetectors with
      | some x => rfl
      | none =>
        unfold ancDefault allAnc ancQubits
        simp only [mapExcept, hm.qAnc]
        simp [hseld]
    rw [PyM.bind_ok k0, PyM.bind_ok h0, PyM.bind_ok (addTo_ok (by rw [hfi]; exact h1))]
    have k1 : PyM.ofExcept (firstSel o [l] rb sel gauge) s1 = (.ok first, s1) := by
      unfold firstSel
      rw [hfirst]
      cases gauge
      · simp only [Bool.false_eq_true, if_false]
        rw [firstDets_ok hm]; rfl
      · rfl
    rw [PyM.bind_ok k1]
    have k2 : fam.round l reset (some first) s1 = (.ok (c2.concat c2'), (s2, d2)) := by
      rw [hfr]
      exact qecRound_ok hm (fun q hq => hsel' q ((hmf q).1 hq).1) h2 h2'
    rw [PyM.bind_ok (addTo_ok k2), hfr, PyM.bind_ok h3]
    refine addTo_ok ?_
    rw [hfm]
    exact h4
  · rw [(f4 ζ ρ).1]
    simp only [List.nil_append, Function.iterate_zero, id_eq, and_true, hmf, List.append_assoc,
      List.replicate_append_replicate]
  · rw [(f4 ζ ρ).2]
    simp

/-- Maps that add flips of the logical operators. -/
def flipMap (f : K → ZMod 2) (w : Values K) : Values K := (fun k => w.1 k + f k, w.2)

/-- What the steps do to the flips. -/
def flipStep (fx fz : K → ZMod 2) (M : (K → ZMod 2) → K → ZMod 2) (f : K → ZMod 2) (x : Step) : K → ZMod 2 :=
  match x with
  | .round => f
  | .gate => M f
  | .x => f + fx
  | .z => f + fz

/-- The result of a program, as that of its gates and some flips. -/
theorem foldl_steps {fx fz : K → ZMod 2} {M : (K → ZMod 2) → K → ZMod 2}
    (hlin : ∀ w f, Φ (flipMap f w) = flipMap (M f) (Φ w)) (steps : List Step) : ∀ (w : Values K) (f : K → ZMod 2),
    steps.foldl (fun w x => stepMap (flipMap fx) (flipMap fz) Φ x w) (flipMap f w) =
      flipMap (steps.foldl (flipStep fx fz M) f) (Φ^[steps.count Step.gate] w) := by
  induction steps with
  | nil => intro w f; rfl
  | cons x xs ih =>
    intro w f
    have hadd : ∀ f' : K → ZMod 2, flipMap f' (flipMap f w) = flipMap (f + f') w := by
      intro f'
      refine Prod.ext (funext fun k => ?_) rfl
      show w.1 k + f k + f' k = w.1 k + (f k + f' k)
      ring
    cases x with
    | round => exact ih w f
    | gate =>
      rw [List.foldl_cons, List.foldl_cons]
      show List.foldl _ (Φ (flipMap f w)) xs = _
      rw [hlin, ih, List.count_cons_self, Function.iterate_succ_apply]
      rfl
    | x =>
      rw [List.foldl_cons, List.foldl_cons]
      show List.foldl _ (flipMap fx (flipMap f w)) xs = _
      rw [hadd, ih]
      rfl
    | z =>
      rw [List.foldl_cons, List.foldl_cons]
      show List.foldl _ (flipMap fz (flipMap f w)) xs = _
      rw [hadd, ih]
      rfl

end SurfaceSim
