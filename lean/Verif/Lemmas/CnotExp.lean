/-
Experiments with transversal CNOT gates between two layouts: rounds, gates and the final measurement.
-/
import Verif.Lemmas.CnotRun
import Verif.Props.TransCnot

namespace SurfaceSim
open Spec NoiseModel Blocks Experiments LayoutLib LogGates

variable {cfg : Detectors.Config} {nm : NoiseModel} {lc lt : Layout} {Lc Lt : List (String × Site × Kind)}
  {dirs : List (Site × String)} {K : Type} {v : FState Nat → Values K} {Φ : Values K → Values K}
  {U : cfg.Mat Int} {reset : Bool} {v0 : (Nat → ZMod 2) → (Nat → ZMod 2) → Values K}
  {D : (Nat → ZMod 2) → (Nat → ZMod 2) → List (ZMod 2)} {R : Prop}

theorem allAnc_two (h : Twins lc lt Lc Lt dirs) : allAnc [lc, lt] = .ok (ancOf Lc ++ ancOf Lt) := by
  unfold allAnc ancQubits
  simp only [mapExcept, h.c.getQubits_anc, h.t.getQubits_anc]
  show Except.ok (ancOf Lc ++ (ancOf Lt ++ [])) = _
  rw [List.append_nil]

theorem checkAnc_two (h : Twins lc lt Lc Lt dirs) {sel : List String} (hsel : ∀ a ∈ sel, a ∈ ancOf Lc ++ ancOf Lt) :
    checkAnc [lc, lt] (some sel) = .ok () := by
  unfold checkAnc
  rw [allAnc_two h]
  simp only [not_strictSuperset hsel, Bool.false_eq_true, if_false]

theorem onModel_gives {α : Type} {m : PyM MeasState α} {s : Sim cfg} {Q : α → MeasState → Prop} (h : Gives R m s.1 Q) :
    Gives R (onModel (cfg := cfg) m) s fun a s' => s'.2 = s.2 ∧ Q a s'.1 := by
  constructor
  · intro a s' e
    unfold onModel at e
    cases hm : m s.1 with
    | mk r s1 =>
      rw [hm] at e
      simp only [Prod.mk.injEq] at e
      obtain ⟨rfl, rfl⟩ := e
      exact ⟨rfl, h.1 a s1 hm⟩
  · intro hR
    obtain ⟨a, s1, e⟩ := h.2 hR
    exact ⟨a, _, onModel_ok e⟩

/-- Two layouts without common qubits. -/
theorem noCommon_two (h : Twins lc lt Lc Lt dirs) : NoCommonQubit [lc, lt] := by
  unfold NoCommonQubit
  simp only [List.pairwise_cons, List.mem_singleton, forall_eq, List.not_mem_nil, false_implies, implies_true,
    List.Pairwise.nil, and_true]
  intro qs qs' h1 h2 q hq
  rw [h.c.getQubits_all] at h1
  rw [h.t.getQubits_all] at h2
  cases h1
  cases h2
  exact h.apart q hq

theorem anc_two_nodup (h : Twins lc lt Lc Lt dirs) : (ancOf Lc ++ ancOf Lt).Nodup := by
  rw [List.nodup_append]
  refine ⟨(at_anc h.c).nodup, (at_anc h.t).nodup, ?_⟩
  rintro q h1 _ h2 rfl
  exact h.apart q (mem_grid_label.1 (List.mem_append_right _ h1)) (mem_grid_label.1 (List.mem_append_right _ h2))

theorem data_two_nodup (h : Twins lc lt Lc Lt dirs) : (dataOf Lc ++ dataOf Lt).Nodup := by
  rw [List.nodup_append]
  refine ⟨(at_data h.c).nodup, (at_data h.t).nodup, ?_⟩
  rintro q h1 _ h2 rfl
  exact h.apart q (mem_grid_label.1 (List.mem_append_left _ h1)) (mem_grid_label.1 (List.mem_append_left _ h2))

theorem data_anc_two (h : Twins lc lt Lc Lt dirs) : ∀ q ∈ dataOf Lc ++ dataOf Lt, q ∉ ancOf Lc ++ ancOf Lt := by
  intro q hd ha
  rcases List.mem_append.1 hd with hd | hd <;> rcases List.mem_append.1 ha with ha | ha
  · exact (List.nodup_append.1 (data_anc_nodup h.c)).2.2 q hd q ha rfl
  · exact h.apart q (mem_grid_label.1 (List.mem_append_left _ hd)) (mem_grid_label.1 (List.mem_append_right _ ha))
  · exact h.apart q (mem_grid_label.1 (List.mem_append_right _ ha)) (mem_grid_label.1 (List.mem_append_left _ hd))
  · exact (List.nodup_append.1 (data_anc_nodup h.t)).2.2 q hd q ha rfl

open Classical in
/-- A merged round. -/
theorem GInv.mergedRound (h : Twins lc lt Lc Lt dirs) (hcfg : ConfigOk cfg) (hf : cfg.frame ≠ .gateIndependent)
    (hU : CleanInvolution U) (hk : ∀ q ∈ ancOf Lc ++ ancOf Lt, q ∈ nm.inds.keys)
    (hall : ∀ q, q ∈ cfg.anc ↔ q ∈ ancOf Lc ++ ancOf Lt) {iter : Layout → Bool → Gen}
    (hM : ∀ (s : MeasState) (hist : List String), s.Tracks nm.inds hist →
      Gives R (mergeGens ([lc, lt].map fun l => iter l reset)) s fun c s' =>
        s'.Tracks nm.inds (hist ++ (ancOf Lc ++ ancOf Lt)) ∧ RoundAt nm (ancOf Lc ++ ancOf Lt) v reset c)
    (hv : ∀ st st' : FState Nat, st.x = st'.x → st.z = st'.z → v st = v st')
    {r n : Nat} {a b : Bool} {e : Circuit} {s : Sim cfg}
    (hi : GInv nm (ancOf Lc ++ ancOf Lt) v Φ U reset v0 D r n a b e s) (h0 : r = 0 → a = b)
    {sel : List String} (hsel : ∀ q ∈ sel, q ∈ ancOf Lc ++ ancOf Lt) :
    Gives R (mergeQecRounds iter [lc, lt] reset (some sel)) s fun c s' =>
      GInv nm (ancOf Lc ++ ancOf Lt) v Φ U reset v0 (fun ζ ρ => D ζ ρ ++ cfg.anc.map fun q => if q ∈ sel ∧ r = 0 then
        (Φ^[n] (v0 ζ ρ)).2 q else 0) (r + 1) n b b (e.concat c) s' := by
  unfold mergeQecRounds
  refine .bind_ok (show PyM.ofExcept (checkAnc [lc, lt] (some sel)) s = (.ok (), s) by rw [checkAnc_two h hsel]; rfl) ?_
  refine (onModel_gives (hM _ _ hi.tracks)).bind fun c s1 hq => ?_
  obtain ⟨h2, t1, hr⟩ := hq
  obtain ⟨s1, d1⟩ := s1
  obtain rfl : d1 = s.2 := h2
  obtain ⟨c', d', e2, h3⟩ := hi.roundAt hcfg hf hU (anc_two_nodup h) hk hall t1 hr hv h0 sel hsel
  refine .bind_ok (onDets_ok (s := (s1, s.2)) (f := fun getRec => Detectors.buildFromAnc getRec reset (some sel)) e2) ?_
  exact .pure h3

/-- A round that is not the first one. -/
def RoundGives (R : Prop) (nm : NoiseModel) (anc : List String) (v : FState Nat → Values K) (Φ : Values K → Values K)
    (U : cfg.Mat Int) (reset : Bool) (v0 : (Nat → ZMod 2) → (Nat → ZMod 2) → Values K)
    (round : PyM (Sim cfg) Circuit) : Prop :=
  ∀ D r n a b e s, 1 ≤ r → GInv nm anc v Φ U reset v0 D r n a b e s →
    Gives R round s fun c s' => GInv nm anc v Φ U reset v0
      (fun ζ ρ => D ζ ρ ++ List.replicate cfg.anc.length 0) (r + 1) n b b (e.concat c) s'

variable {anc : List String}

/-- Several rounds. -/
theorem GInv.roundsGive {round : PyM (Sim cfg) Circuit} (hround : RoundGives R nm anc v Φ U reset v0 round) {α : Type} (xs : List α) :
    ∀ {D : (Nat → ZMod 2) → (Nat → ZMod 2) → List (ZMod 2)} {r n : Nat} {a b : Bool} {e : Circuit} {s : Sim cfg},
    1 ≤ r → GInv nm anc v Φ U reset v0 D r n a b e s →
    Gives R (addAll e xs (fun _ => round)) s fun e' s' => ∃ a', GInv nm anc v Φ U reset v0
      (fun ζ ρ => D ζ ρ ++ List.replicate (xs.length * cfg.anc.length) 0) (r + xs.length) n a' b e' s' := by
  induction xs with
  | nil =>
    intro D r n a b e s _ h
    exact .of_ok rfl ⟨a, by simpa using h⟩
  | cons x xs ih =>
    intro D r n a b e s hr h
    show Gives R ((addTo e round) >>= fun e => addAll e xs fun _ => round) s _
    refine (Gives.addTo (hround D r n a b e s hr h)).bind fun e1 s1 h2 => ?_
    refine (ih (by omega) h2).mono fun e2 s2 h4 => ?_
    obtain ⟨a', h4⟩ := h4
    refine ⟨a', ?_⟩
    convert h4 using 1
    · funext ζ ρ
      rw [List.append_assoc, List.replicate_append_replicate, List.length_cons]
      congr 2; ring
    · simp; omega

/-- Several gates with rounds after each of them. -/
theorem GInv.cnots {o : SetOrder} (hg : GateG nm anc v Φ U (transCnot o nm lc lt)) (hU : CleanInvolution U)
    (hΦ : ∀ w i, (Φ w).2 (cfg.label i) = (mod2 U).mulVec (fun j => w.2 (cfg.label j)) i)
    {round : List Layout → PyM (Sim cfg) Circuit} (hround : RoundGives R nm anc v Φ U reset v0 (round [lc, lt])) (m k : Nat) :
    ∀ {D : (Nat → ZMod 2) → (Nat → ZMod 2) → List (ZMod 2)} {r n : Nat} {a b : Bool} {e : Circuit} {s : Sim cfg},
    1 ≤ r → GInv nm anc v Φ U reset v0 D r n a b e s →
    Gives R (Props.cnotSequence o nm round m (List.replicate k (lc, lt)) e) s fun e' s' =>
      ∃ a' b', GInv nm anc v Φ U reset v0 (fun ζ ρ => D ζ ρ ++ List.replicate (k * m * cfg.anc.length) 0) (r + k * m)
        (n + k) a' b' e' s' := by
  induction k with
  | zero =>
    intro D r n a b e s _ h
    exact .of_ok rfl ⟨a, b, by simpa using h⟩
  | succ k ih =>
    intro D r n a b e s hr h
    rw [List.replicate_succ, Props.cnotSequence, List.foldlM_cons]
    obtain ⟨e1, s1, h1, h2⟩ := h.gate hg hU hΦ
    have hfirst : Gives R (gateAndRounds (transCnot o nm lc lt) m (round [lc, lt]) e) s fun e' s' => ∃ a', GInv nm anc v Φ U reset v0
        (fun ζ ρ => D ζ ρ ++ List.replicate ((List.range m).length * cfg.anc.length) 0) (r + (List.range m).length) (n + 1) a' (!b) e' s' := by
      unfold gateAndRounds
      exact .bind_ok h1 (GInv.roundsGive hround (List.range m) hr h2)
    refine hfirst.bind fun e2 s2 h4 => ?_
    obtain ⟨a2, h4⟩ := h4
    refine (ih (by omega) h4).mono fun e3 s3 h6 => ?_
    obtain ⟨a3, b3, h6⟩ := h6
    refine ⟨a3, b3, ?_⟩
    convert h6 using 1
    · funext ζ ρ
      rw [List.append_assoc, List.replicate_append_replicate, List.length_range]
      congr 2; ring
    · simp; ring
    · omega

theorem support_nodup {l : Layout} {A : List String} {E : Dict String (List String)} (h : Blocks.support l A = .ok E) :
    E.keys.Nodup := by
  unfold Blocks.support at h
  split at h
  · cases h
  · split at h
    · cases h
      have : ∀ (f : String → List String) (A : List String) (acc : Dict String (List String)), acc.keys.Nodup →
          (A.foldl (fun acc a => Dict.set acc a (f a)) acc).keys.Nodup := by
        intro f A
        induction A with
        | nil => exact fun acc h => h
        | cons a A ih => exact fun acc h => ih _ (Dict.keys_nodup_set h _ _)
      exact this _ _ _ List.nodup_nil
    · cases h

/-- The supports of the stabilizers of both layouts. -/
theorem allSupport_two (h : Twins lc lt Lc Lt dirs) {rb : Bool} {Xc Xt : List String} {ic it : String → String → Bool}
    {Rc Rt : List String} (hmc : MemCode nm lc rb (dataOf Lc) (ancOf Lc) (stabsOf Lc rb) Xc ic Rc)
    (hmt : MemCode nm lt rb (dataOf Lt) (ancOf Lt) (stabsOf Lt rb) Xt it Rt) :
    ∃ E, allSupport [(lc, rb), (lt, rb)] [] [] = .ok (stabsOf Lc rb ++ stabsOf Lt rb, E) ∧
      (∀ a ∈ stabsOf Lc rb ++ stabsOf Lt rb, a ∈ E.keys) ∧ ∀ a qs, E.get? a = some qs →
        (a ∈ stabsOf Lc rb ∧ qs.Perm (lc.getNeighbors [a] none)) ∨ (a ∈ stabsOf Lt rb ∧ qs.Perm (lt.getNeighbors [a] none)) := by
  obtain ⟨Ec, c1, c2, c3⟩ := hmc.support
  obtain ⟨Et, t1, t2, t3⟩ := hmt.support
  have nc := support_nodup c1
  have nt := support_nodup t1
  have pc : ∀ a qs, Ec.get? a = some qs → a ∈ stabsOf Lc rb ∧ qs.Perm (lc.getNeighbors [a] none) := by
    intro a qs hq
    obtain ⟨h1, h2, h3⟩ := c3 a qs hq
    refine ⟨h1, (List.perm_ext_iff_of_nodup h2 (hmc.supN a)).2 fun q => ?_⟩
    rw [h3]
    exact ⟨fun h => h.2, fun h => ⟨List.mem_append_left _ (hmc.sup a (hmc.stabsSub a h1) q h), h⟩⟩
  have pt : ∀ a qs, Et.get? a = some qs → a ∈ stabsOf Lt rb ∧ qs.Perm (lt.getNeighbors [a] none) := by
    intro a qs hq
    obtain ⟨h1, h2, h3⟩ := t3 a qs hq
    refine ⟨h1, (List.perm_ext_iff_of_nodup h2 (hmt.supN a)).2 fun q => ?_⟩
    rw [h3]
    exact ⟨fun h => h.2, fun h => ⟨List.mem_append_left _ (hmt.sup a (hmt.stabsSub a h1) q h), h⟩⟩
  have hget : ∀ a, ((Dict.update ([] : Dict String (List String)) Ec).update Et).get? a = (Et.get? a).or (Ec.get? a) := by
    intro a
    rw [get?_update_nodup nt, get?_update_nodup nc]
    congr 1
    cases Ec.get? a <;> rfl
  refine ⟨(Dict.update [] Ec).update Et, ?_, fun a ha => ?_, fun a qs hq => ?_⟩
  · unfold allSupport
    simp only [hmc.qStabs, c1]
    unfold allSupport
    simp only [hmt.qStabs, t1]
    rfl
  · rw [← Dict.get?_isSome_iff, hget, Option.isSome_or, Bool.or_eq_true, Dict.get?_isSome_iff, Dict.get?_isSome_iff]
    rcases List.mem_append.1 ha with ha | ha
    · exact Or.inr (c2 a ha)
    · exact Or.inl (t2 a ha)
  · rw [hget] at hq
    cases ht : Et.get? a with
    | none =>
      rw [ht] at hq
      exact Or.inl (pc a qs hq)
    | some y =>
      rw [ht] at hq
      cases hq
      exact Or.inr (pt a _ ht)

/-- The observables of both layouts. -/
theorem allObservables_two {A B : String} {rb : Bool} {Xc Xt : List String} (hA : lc.logQubits = [A]) (hB : lt.logQubits = [B])
    (hXc : (if rb then lc.logX else lc.logZ).getE A = .ok Xc) (hXt : (if rb then lt.logX else lt.logZ).getE B = .ok Xt)
    {s : MeasState} {hist : List String} (t : s.Tracks nm.inds hist)
    (hc : ∀ q ∈ Xc, q ∈ nm.inds.keys ∧ 1 ≤ hist.count q) (ht : ∀ q ∈ Xt, q ∈ nm.inds.keys ∧ 1 ≤ hist.count q)
    {e : Circuit} :
    allObservables ([(lc, rb), (lt, rb)] : List (Layout × Bool)).zipIdx e s = (.ok
      ((e.append ⟨.OBSERVABLE_INCLUDE, (Xc.map (lookOf s · 1)).map Target.record, [.num (0 : Nat)]⟩).append
        ⟨.OBSERVABLE_INCLUDE, (Xt.map (lookOf s · 1)).map Target.record, [.num (1 : Nat)]⟩), s) := by
  show allObservables [((lc, rb), 0), ((lt, rb), 1)] e s = _
  have hl : ∀ {l : Layout} {lab : String} {X : List String} (k : Nat) (e : Circuit), l.logQubits = [lab] →
      (if rb then l.logX else l.logZ).getE lab = .ok X → (∀ q ∈ X, q ∈ nm.inds.keys ∧ 1 ≤ hist.count q) →
      layoutObservables k l.logQubits.length (if rb then l.logX else l.logZ) l.logQubits.zipIdx e s =
        (.ok (e.append ⟨.OBSERVABLE_INCLUDE, (X.map (lookOf s · 1)).map Target.record, [.num k]⟩), s) := by
    intro l lab X k e h1 h2 h3
    rw [h1]
    show layoutObservables k 1 _ [(lab, 0)] e s = _
    unfold layoutObservables
    rw [PyM.bind_ok (show PyM.ofExcept ((if rb then l.logX else l.logZ).getE lab) s = (.ok X, s) by rw [h2]; rfl)]
    rw [PyM.bind_ok (observable_data t (k * 1 + 0) h3), show k * 1 + 0 = k by omega]
    rfl
  unfold allObservables
  rw [PyM.bind_ok (hl 0 e hA hXc hc)]
  unfold allObservables
  rw [PyM.bind_ok (hl 1 _ hB hXt ht)]
  rfl

variable {code A B : String} {Xc Zc Xt Zt : List String}

/-- The values in the basis of the measurement. -/
theorem pairValues_basis (h : Twins lc lt Lc Lt dirs) (gc : GridCode code lc Lc A Xc Zc) (gt : GridCode code lt Lt B Xt Zt)
    (st : FState Nat) (rb : Bool) :
    (∀ a ∈ stabsOf Lc rb, (pairValues nm lc lt Lc Lt A B st).2 a =
      anticommutes (ind nm.inds) st (lc.getNeighbors [a] none) fun _ => rb) ∧
    (∀ a ∈ stabsOf Lt rb, (pairValues nm lc lt Lc Lt A B st).2 a =
      anticommutes (ind nm.inds) st (lt.getNeighbors [a] none) fun _ => rb) ∧
    (pairValues nm lc lt Lc Lt A B st).1 (false, rb) =
      anticommutes (ind nm.inds) st (if rb then Xc else Zc) (fun _ => rb) ∧
    (pairValues nm lc lt Lc Lt A B st).1 (true, rb) =
      anticommutes (ind nm.inds) st (if rb then Xt else Zt) (fun _ => rb) := by
  have key : ∀ {l : Layout} {L : List (String × Site × Kind)}, OnGrid l L dirs → ∀ {lab : String}, ∀ a ∈ stabsOf L rb,
      (codeValues nm l L lab st).2 a = anticommutes (ind nm.inds) st (l.getNeighbors [a] none) fun _ => rb := by
    intro l L hg lab a ha
    show (if a ∈ ancOf L then _ else 0) = _
    rw [if_pos (stabsOf_sub ha), stabValue_css hg]
    refine anticommutes_congr fun d hd => ?_
    rw [css_type hg rb a ha d hd]
    have := nbrs_data hg (stabsOf_sub ha) hd
    cases rb
    · rfl
    · simpa using this
  refine ⟨fun a ha => ?_, fun a ha => ?_, ?_, ?_⟩
  · rw [pairValues_c h st (stabsOf_sub ha)]
    exact key h.c a ha
  · rw [pairValues_t h st (stabsOf_sub ha)]
    exact key h.t a ha
  · show logicalValue _ _ _ _ _ = _
    unfold logicalValue
    simp only [Bool.false_eq_true, if_false, gc.logX, gc.logZ]
    cases rb <;> simp [Dict.get?]
  · show logicalValue _ _ _ _ _ = _
    unfold logicalValue
    simp only [if_true, gt.logX, gt.logZ]
    cases rb <;> simp [Dict.get?]

/-- The memory-experiment conditions of a code on a grid. -/
theorem GridCode.memCode {l : Layout} {L : List (String × Site × Kind)} {lab : String} {lx lz : List String}
    (g : GridCode code l L lab lx lz) (hg : OnGrid l L dirs) (hr : CanRun nm l) (rb : Bool) :
    MemCode nm l rb (dataOf L) (ancOf L) (stabsOf L rb) (if rb then lx else lz) (cssType L) (if rb then dataOf L else []) :=
  memCode_grid hg hr g.num (logicalSupport_of g.log g.logX g.logZ rb)
    (by cases rb; exacts [g.grid.subZ, g.grid.subX]) (css_R rb) (css_type hg rb)

/-- The merged measurement of the data qubits. -/
theorem GInv.mergedMeas (h : Twins lc lt Lc Lt dirs) (gc : GridCode code lc Lc A Xc Zc) (gt : GridCode code lt Lt B Xt Zt)
    (hrc : CanRun nm lc) (hrt : CanRun nm lt) (hcfg : ConfigOk cfg) (hf : cfg.frame ≠ .gateIndependent)
    (hU : CleanInvolution U) (hall : ∀ q, q ∈ cfg.anc ↔ q ∈ ancOf Lc ++ ancOf Lt) {rb : Bool} {iter : Layout → Bool → Gen}
    (hM : ∀ (s : MeasState) (hist : List String), s.Tracks nm.inds hist →
      Gives R (mergeGens [iter lc rb, iter lt rb]) s fun c s' => PairsOk c ∧
        s'.Tracks nm.inds (hist ++ (dataOf Lc ++ dataOf Lt)) ∧ measOrder c = (dataOf Lc ++ dataOf Lt).map (ind nm.inds) ∧
        ∀ (ρ : Nat → ZMod 2) (st : FState Nat), MeasuresBasis (ind nm.inds) rb (dataOf Lc ++ dataOf Lt) st (run ρ st (ops c)))
    {Φ : Values (Bool × Bool) → Values (Bool × Bool)} {v0 : (Nat → ZMod 2) → (Nat → ZMod 2) → Values (Bool × Bool)}
    {r n : Nat} {a b : Bool} {e : Circuit} {s : Sim cfg} (hr : 1 ≤ r)
    (hi : GInv nm (ancOf Lc ++ ancOf Lt) (pairValues nm lc lt Lc Lt A B) Φ U reset v0 D r n a b e s)
    {sel : List String} (hsel : ∀ q ∈ sel, q ∈ ancOf Lc ++ ancOf Lt) :
    Gives R (mergeLogMeas iter [lc, lt] [rb, rb] reset (some sel)) s fun c _ => PairsOk (e.concat c) ∧
      measOrder (e.concat c) = (histOf (ancOf Lc ++ ancOf Lt) r ++ (dataOf Lc ++ dataOf Lt)).map (ind nm.inds) ∧
      ∀ ζ ρ, detectors ζ ρ (e.concat c) =
          D ζ ρ ++ List.replicate (cfg.anc.filter (· ∈ stabsOf Lc rb ++ stabsOf Lt rb)).length 0 ∧
        observables ζ ρ (e.concat c) = [(0, (Φ^[n] (v0 ζ ρ)).1 (false, rb)), (1, (Φ^[n] (v0 ζ ρ)).1 (true, rb))] := by
  have hmc := gc.memCode h.c hrc rb
  have hmt := gt.memCode h.t hrt rb
  obtain ⟨E, hE, hEk, hEg⟩ := allSupport_two h hmc hmt
  have kd : ∀ d ∈ dataOf Lc ++ dataOf Lt, d ∈ nm.inds.keys := by
    intro d hd
    rcases List.mem_append.1 hd with hd | hd
    · exact hmc.known (List.mem_append_left _ hd)
    · exact hmt.known (List.mem_append_left _ hd)
  have ka : ∀ d ∈ ancOf Lc ++ ancOf Lt, d ∈ nm.inds.keys := by
    intro d hd
    rcases List.mem_append.1 hd with hd | hd
    · exact hmc.known (List.mem_append_right _ hd)
    · exact hmt.known (List.mem_append_right _ hd)
  have dataN := data_two_nodup h
  unfold mergeLogMeas
  rw [if_neg (by simp)]
  refine .bind_ok (show PyM.ofExcept (checkAnc [lc, lt] (some sel)) s = (.ok (), s) by rw [checkAnc_two h hsel]; rfl) ?_
  refine (onModel_gives (hM _ _ hi.tracks)).bind fun c3 s3 hq => ?_
  obtain ⟨h2, p3, t3, mo, f3⟩ := hq
  obtain ⟨s3, d3⟩ := s3
  obtain rfl : d3 = s.2 := h2
  refine .bind_ok (show PyM.ofExcept (allSupport ([lc, lt].zip [rb, rb]) [] []) (s3, s.2) = (.ok _, (s3, s.2)) by
    rw [show [lc, lt].zip [rb, rb] = [(lc, rb), (lt, rb)] from rfl, hE]; rfl) ?_
  obtain ⟨c1, d1, e1, p1, g1, o4, mo4, f4⟩ := hi.dataMeas hcfg hf hU hall (anc_two_nodup h) dataN (data_anc_two h) kd ka hr
    hEk (fun a qs hq q hqq => by
      rcases hEg a qs hq with ⟨k1, k2⟩ | ⟨k1, k2⟩
      · exact List.mem_append_left _ (hmc.sup a (hmc.stabsSub a k1) q (k2.mem_iff.1 hqq))
      · exact List.mem_append_right _ (hmt.sup a (hmt.stabsSub a k1) q (k2.mem_iff.1 hqq)))
    p3 t3 mo (fun st d => if rb then st.z (ind nm.inds d) else st.x (ind nm.inds d))
    (fun ρ st => ⟨(f3 ρ st).recs, (f3 ρ st).dets, (f3 ρ st).obs⟩)
    (fun st a ha qs hqs => by
      obtain ⟨b1, b2, -, -⟩ := pairValues_basis (nm := nm) h gc gt st rb
      rcases hEg a qs hqs with ⟨k1, k2⟩ | ⟨k1, k2⟩
      · rw [b1 a k1]
        exact (k2.map _).sum_eq
      · rw [b2 a k1]
        exact (k2.map _).sum_eq) hsel
  refine .bind_ok (onDets_ok (s := (s3, s.2)) (f := fun getRec => Detectors.buildFromData getRec E reset
    (stabsOf Lc rb ++ stabsOf Lt rb) (some sel)) e1) ?_
  have hcount : ∀ q ∈ dataOf Lc ++ dataOf Lt, 1 ≤ (histOf (ancOf Lc ++ ancOf Lt) r ++ (dataOf Lc ++ dataOf Lt)).count q := by
    intro q hq
    rw [List.count_append, List.count_eq_one_of_mem dataN hq]
    omega
  set Lx := (if rb then Xc else Zc) with hLx
  set Ly := (if rb then Xt else Zt) with hLy
  have hx : ∀ q ∈ Lx, q ∈ dataOf Lc ++ dataOf Lt := fun q hq => List.mem_append_left _ (hmc.logSub q hq)
  have hy : ∀ q ∈ Ly, q ∈ dataOf Lc ++ dataOf Lt := fun q hq => List.mem_append_right _ (hmt.logSub q hq)
  have hobs := allObservables_two (rb := rb) gc.log gt.log (Xc := Lx) (Xt := Ly)
    (by rw [gc.logX, gc.logZ, hLx]; cases rb <;> simp [Dict.getE, Dict.get?])
    (by rw [gt.logX, gt.logZ, hLy]; cases rb <;> simp [Dict.getE, Dict.get?]) t3
    (fun q hq => ⟨kd q (hx q hq), hcount q (hx q hq)⟩) (fun q hq => ⟨kd q (hy q hq), hcount q (hy q hq)⟩)
    (e := c3.concat c1)
  refine .of_ok (onModel_ok (s := (s3, d1)) hobs) ?_
  obtain ⟨pa, oa⟩ := append_obs (p3.concat p1).2 0 (Lx.map (lookOf s3 · 1))
  obtain ⟨pc, oc⟩ := append_obs pa 1 (Ly.map (lookOf s3 · 1))
  have o5 := hi.even.concat pc
  have hops := o5.1
  rw [oc, oa, List.append_assoc, ← List.append_assoc (ops e), ← (hi.even.concat (p3.concat p1).2).1] at hops
  refine ⟨o5.2, ?_, fun ζ ρ => ?_⟩
  · rw [measOrder_ops, hops, measured_append, mo4]
    exact List.append_nil _
  · obtain ⟨st, w1, w2, w3, w4⟩ := f4 ζ ρ
    unfold detectors observables
    rw [hops, run_append]
    simp only [List.singleton_append, run_cons, run_nil, step]
    refine ⟨w2, ?_⟩
    rw [w3]
    simp only [List.reverse_cons, List.reverse_nil, List.nil_append, List.singleton_append]
    obtain ⟨-, -, b3, b4⟩ := pairValues_basis (nm := nm) h gc gt st rb
    rw [← w1, b3, b4]
    have hp : ∀ S : List String, (∀ q ∈ S, q ∈ dataOf Lc ++ dataOf Lt) →
        parity (run ρ (FState.start ζ) (ops (e.concat (c3.concat c1)))).recs (S.map (lookOf s3 · 1)) =
          anticommutes (ind nm.inds) st S fun _ => rb := by
      intro S hS
      unfold parity anticommutes
      rw [List.map_map]
      congr 1
      exact List.map_congr_left fun d hd => w4 d (hS d hd)
    rw [hp _ hx, hp _ hy]
    rfl

/-- All merges of the experiment succeed. -/
structure MergesOk (code : String) (o o' : SetOrder) (nm : NoiseModel) (lc lt : Layout) (Lc Lt : List (String × Site × Kind))
    (dataInit : Dict String Int) (rb reset : Bool) : Prop where
  init : ∀ (s : MeasState) (hist : List String), s.Tracks nm.inds hist → ∀ c₁ s₁ c₂ s₂,
    sumGen (initIter o' nm lc (dataInit.filter fun kv => decide (kv.1 ∈ Lc.map Prod.fst)) rb) s = (.ok c₁, s₁) →
    sumGen (initIter o' nm lt (dataInit.filter fun kv => decide (kv.1 ∈ Lt.map Prod.fst)) rb) s₁ = (.ok c₂, s₂) →
    ∃ m, CircuitOps.mergeCircuits [c₁, c₂] true = .ok m
  round : ∀ (s : MeasState) (hist : List String), s.Tracks nm.inds hist →
    ∃ c s', mergeGens ([lc, lt].map fun l => cssIter code o nm l reset) s = (.ok c, s')
  meas : ∀ (s : MeasState) (hist : List String), s.Tracks nm.inds hist →
    ∃ c s', mergeGens [logMeasIter nm lc rb, logMeasIter nm lt rb] s = (.ok c, s')

theorem grid_nodes {l : Layout} {L : List (String × Site × Kind)} (hg : OnGrid l L dirs) (hr : CanRun nm l) :
    ∀ n ∈ l.graph.nodes, n.1 ∈ nm.inds.keys := by
  intro n hn
  refine hr.known _ hg.getQubits_all _ ?_
  rw [← hg.keys]
  exact List.mem_map.2 ⟨n, hn, rfl⟩

/-- The merged measurement of two layouts. -/
theorem pair_meas (h : Twins lc lt Lc Lt dirs) (gc : GridCode code lc Lc A Xc Zc) (gt : GridCode code lt Lt B Xt Zt)
    (hrc : CanRun nm lc) (hrt : CanRun nm lt) (nt : NoTicks nm) (um : UniformMeas nm) (rb : Bool)
    {s s' : MeasState} {hist : List String} {c : Circuit} (ht : s.Tracks nm.inds hist)
    (hm : mergeGens [logMeasIter nm lc rb, logMeasIter nm lt rb] s = (.ok c, s')) :
    PairsOk c ∧ s'.Tracks nm.inds (hist ++ (dataOf Lc ++ dataOf Lt)) ∧
      measOrder c = (dataOf Lc ++ dataOf Lt).map (ind nm.inds) ∧
      ∀ (ρ : Nat → ZMod 2) (st : FState Nat), MeasuresBasis (ind nm.inds) rb (dataOf Lc ++ dataOf Lt) st (run ρ st (ops c)) := by
  obtain ⟨sig, hs1, hs⟩ := um
  obtain ⟨Ds, h1, h2, h3, h4, h5⟩ := merged_meas (iter := logMeasIter nm) (ls := [lc, lt]) hrc.inj (noCommon_two h)
    (oneMeas_meas rb sig) (fun l hl => by
      simp only [List.mem_cons, List.not_mem_nil, or_false] at hl
      rcases hl with rfl | rfl
      · exact Props.measOk hrc nt hs1 hs h.c rb gc.data gc.anc
      · exact Props.measOk hrt nt hs1 hs h.t rb gt.data gt.anc) ht hm
  obtain ⟨D1, Ds, k1, k2, rfl⟩ : ∃ D1 Ds', lc.getQubits [("role", .str "data")] = .ok D1 ∧
      List.Forall₂ (fun l D => l.getQubits [("role", .str "data")] = .ok D) [lt] Ds' ∧ Ds = D1 :: Ds' := by
    cases h1 with
    | cons a b => exact ⟨_, _, a, b, rfl⟩
  obtain ⟨D2, k3, rfl⟩ : ∃ D2, lt.getQubits [("role", .str "data")] = .ok D2 ∧ Ds = [D2] := by
    cases k2 with
    | cons a b =>
      cases b
      exact ⟨_, a, rfl⟩
  rw [h.c.getQubits_data] at k1
  rw [h.t.getQubits_data] at k3
  cases k1
  cases k3
  have hfl : [dataOf Lc, dataOf Lt].flatten = dataOf Lc ++ dataOf Lt := by
    show dataOf Lc ++ (dataOf Lt ++ []) = _
    rw [List.append_nil]
  exact ⟨h2, hfl ▸ h3, hfl ▸ h4, hfl ▸ h5⟩

open Classical in
/-- The values of the detectors and the observables of an experiment with CNOT gates. -/
theorem cnot_values (h : Twins lc lt Lc Lt dirs) (gc : GridCode code lc Lc A Xc Zc)
    (gt : GridCode code lt Lt B Xt Zt) (hrc : CanRun nm lc) (hrt : CanRun nm lt) (nt : NoTicks nm) (um : UniformMeas nm)
    (hcfg : ConfigOk cfg) (hf : cfg.frame ≠ .gateIndependent) (hU : CleanInvolution U)
    (hall : ∀ q, q ∈ cfg.anc ↔ q ∈ ancOf Lc ++ ancOf Lt)
    {dataInit : Dict String Int} (hz : ∀ a ∈ ancOf Lc ++ ancOf Lt, isOne dataInit a = 0) (o o' : SetOrder)
    {Φ : Values (Bool × Bool) → Values (Bool × Bool)}
    (hg : GateG nm (ancOf Lc ++ ancOf Lt) (pairValues nm lc lt Lc Lt A B) Φ U (transCnot o' nm lc lt))
    (hΦ : ∀ w i, (Φ w).2 (cfg.label i) = (mod2 U).mulVec (fun j => w.2 (cfg.label j)) i)
    (ancDetectors : Option (List String)) (hsel : ∀ sel, ancDetectors = some sel → ∀ a ∈ sel, a ∈ ancOf Lc ++ ancOf Lt)
    (rb reset gauge : Bool) (n m : Nat) (s : Sim cfg) :
    Gives (MergesOk code o o' nm lc lt Lc Lt dataInit rb reset)
      (Props.cnotExperiment (cfg := cfg) (cssIter code o nm) o' nm lc lt m dataInit rb reset ancDetectors gauge
        (List.replicate n (lc, lt)) (lc, lt)) s fun c _ => PairsOk c ∧
      measOrder c = (histOf (ancOf Lc ++ ancOf Lt) (1 + n * m) ++ (dataOf Lc ++ dataOf Lt)).map (ind nm.inds) ∧
      ∀ ζ ρ : Nat → ZMod 2, ∃ st0 : FState Nat,
        (∀ S : List String, (∀ d ∈ S, d ∈ dataOf Lc ++ dataOf Lt) →
          anticommutes (ind nm.inds) st0 S (fun d => decide (d ∈ if rb then dataOf Lc ++ dataOf Lt else [])) =
            bits dataInit S) ∧
        detectors ζ ρ c = (cfg.anc.map fun q => if q ∈ ancDetectors.getD (ancOf Lc ++ ancOf Lt) ∧
            (gauge = true ∨ q ∈ stabsOf Lc rb ++ stabsOf Lt rb) then
            (pairValues nm lc lt Lc Lt A B st0).2 q else 0) ++ List.replicate (n * m * cfg.anc.length +
              (cfg.anc.filter (· ∈ stabsOf Lc rb ++ stabsOf Lt rb)).length) 0 ∧
        observables ζ ρ c = [(0, (Φ^[n] (pairValues nm lc lt Lc Lt A B st0)).1 (false, rb)),
          (1, (Φ^[n] (pairValues nm lc lt Lc Lt A B st0)).1 (true, rb))] := by
  have hmc := gc.memCode h.c hrc rb
  have hmt := gt.memCode h.t hrt rb
  have hcong : ∀ st st' : FState Nat, st.x = st'.x → st.z = st'.z →
      pairValues nm lc lt Lc Lt A B st = pairValues nm lc lt Lc Lt A B st' :=
    fun st st' h1 h2 => pairValues_congr h gc gt fun q _ => by rw [h1, h2]; exact ⟨rfl, rfl⟩
  have hk : ∀ d ∈ ancOf Lc ++ ancOf Lt, d ∈ nm.inds.keys := by
    intro d hd
    rcases List.mem_append.1 hd with hd | hd
    · exact hmc.known (List.mem_append_right _ hd)
    · exact hmt.known (List.mem_append_right _ hd)
  set sel := ancDetectors.getD (ancOf Lc ++ ancOf Lt) with hseld
  have hsel' : ∀ a ∈ sel, a ∈ ancOf Lc ++ ancOf Lt := by
    cases ancDetectors with
    | none => exact fun a ha => ha
    | some x => exact hsel x rfl
  set first := (if gauge then sel else o'.ord (inter (setOf sel) (stabsOf Lc rb ++ stabsOf Lt rb))) with hfirst
  have hmf : ∀ q, q ∈ first ↔ q ∈ sel ∧ (gauge = true ∨ q ∈ stabsOf Lc rb ++ stabsOf Lt rb) := by
    intro q
    rw [hfirst]
    cases gauge
    · simp only [Bool.false_eq_true, if_false, mem_first, false_or]
    · simp
  obtain ⟨q0, hq0, hq1, hq2⟩ := qubitCoords_two gc.num (grid_nodes h.c hrc) gt.num (grid_nodes h.t hrt)
  have hq4 := ops_concat (a := []) (fun i hi => by simp at hi) hq1
  have p0 : PairsOk (Circuit.concat [] q0) := .of_nil hq4.2 (by rw [hq4.1, hq2]; rfl)
  have o0 : ops (Circuit.concat [] q0) = [] := by rw [hq4.1, hq2]; rfl
  have h0 : start nm [lc, lt] s = (.ok (Circuit.concat [] q0), (MeasState.fresh nm.inds, Detectors.State.fresh cfg)) := by
    unfold start
    rw [PyM.bind_ok (show onModel (cfg := cfg) (MeasState.newCircuit nm.inds) s = (.ok (), (MeasState.fresh nm.inds, s.2))
      from rfl)]
    rw [PyM.bind_ok (show onDets (cfg := cfg) (fun _ => Detectors.newCircuit cfg) (MeasState.fresh nm.inds, s.2) =
      (.ok (), (MeasState.fresh nm.inds, Detectors.State.fresh cfg)) from rfl)]
    rw [hq0]
    rfl
  obtain ⟨d1, hd1, hd1'⟩ := DetAt.activate hcfg.1 hmc.ancN (fun a ha => (hall a).2 (List.mem_append_left _ ha))
    (DetAt.new (cfg := cfg))
  obtain ⟨d2, hd2, hd2'⟩ := DetAt.activateMore hcfg.1 hmt.ancN (fun a ha => (hall a).2 (List.mem_append_right _ ha))
    (fun a ha hc => (List.nodup_append.1 (anc_two_nodup h)).2.2 a hc a ha rfl) hd1'
  obtain ⟨c₁, s₁, c₂, s₂, e1, e2, t2, hinit⟩ := merged_init_frame h hrc hrt nt o' dataInit rb
    (MeasState.tracks_fresh nm.inds)
  unfold Props.cnotExperiment
  rw [if_neg (by omega)]
  refine .bind_ok (s' := s) (a := sel) ?_ ?_
  · cases ancDetectors with
    | some x => rfl
    | none =>
      unfold ancDefault
      rw [allAnc_two h]
      rfl
  refine .bind_ok (show PyM.ofExcept (lc.getQubits []) s = (.ok (Lc.map Prod.fst), s) by rw [h.c.getQubits_all]; rfl) ?_
  refine .bind_ok (show PyM.ofExcept (lt.getQubits []) s = (.ok (Lt.map Prod.fst), s) by rw [h.t.getQubits_all]; rfl) ?_
  refine .bind_ok h0 ?_
  refine .bind_ok (activateAndSum_ok h.c.getQubits_anc hd1 e1) ?_
  refine .bind_ok (activateAndSum_ok (s := (s₁, d1)) h.t.getQubits_anc hd2 e2) ?_
  refine Gives.bind (Q := fun m s' => s' = (s₂, d2) ∧ CircuitOps.mergeCircuits [c₁, c₂] true = .ok m) ?_ fun m' s' hq => ?_
  · refine ⟨fun a s' ha => ?_, fun hR => ?_⟩
    · cases hmm : CircuitOps.mergeCircuits [c₁, c₂] true with
      | error e => rw [hmm] at ha; cases ha
      | ok x => rw [hmm] at ha; cases ha; exact ⟨rfl, rfl⟩
    · obtain ⟨x, hx⟩ := hR.init _ [] (MeasState.tracks_fresh nm.inds) _ _ _ _ e1 e2
      exact ⟨x, (s₂, d2), by rw [hx]; rfl⟩
  obtain ⟨rfl, hmm⟩ := hq
  obtain ⟨pm, mo, fm⟩ := hinit m' hmm
  refine .bind_ok (s' := (s₂, d2)) (a := first) ?_ ?_
  · unfold firstSel
    rw [hfirst]
    cases gauge
    · simp only [Bool.false_eq_true, if_false]
      unfold firstDets
      simp only [mapExcept, hmc.qStabs, hmt.qStabs]
      show (Except.ok (o'.ord (inter (setOf sel) (stabsOf Lc rb ++ (stabsOf Lt rb ++ [])))), _) = _
      rw [List.append_nil]
    · rfl
  have hom := p0.concat pm
  have i1 : GInv nm (ancOf Lc ++ ancOf Lt) (pairValues nm lc lt Lc Lt A B) Φ U reset
      (fun ζ ρ => pairValues nm lc lt Lc Lt A B (run ρ (FState.start ζ) (ops m'))) (fun _ _ => []) 0 0 false false
      ((Circuit.concat [] q0).concat m') (s₂, d2) := by
    refine ⟨t2, hom.2, ?_, hd2'.toG hcfg.1 (fun a ha => (hall a).1 ha), fun ζ ρ => ?_⟩
    · rw [measOrder_ops, hom.1, o0, List.nil_append, ← measOrder_ops, mo]; rfl
    · obtain ⟨g1, g2, g3, g4, g5⟩ := fm ζ ρ
      simp only [hom.1, o0, List.nil_append]
      refine ⟨by rw [g1]; rfl, g3, by rw [g2]; rfl, rfl, fun q hq => ?_, fun i => ?_⟩
      · rw [if_pos trivial, g4 q hq, hz q hq]
      · rw [if_pos trivial]
  have hround : ∀ {D : (Nat → ZMod 2) → (Nat → ZMod 2) → List (ZMod 2)} {r n : Nat} {a b : Bool} {e : Circuit} {s : Sim cfg},
      GInv nm (ancOf Lc ++ ancOf Lt) (pairValues nm lc lt Lc Lt A B) Φ U reset
        (fun ζ ρ => pairValues nm lc lt Lc Lt A B (run ρ (FState.start ζ) (ops m'))) D r n a b e s → (r = 0 → a = b) →
      ∀ {sel : List String}, (∀ q ∈ sel, q ∈ ancOf Lc ++ ancOf Lt) → _ :=
    fun hi h0 sel hs => hi.mergedRound (R := MergesOk code o o' nm lc lt Lc Lt dataInit rb reset) h hcfg hf hU hk hall
      (iter := cssIter code o nm)
      (fun s hist ht => ⟨fun c s' e => pair_roundAt h gc gt hrc hrt nt um o reset ht e, fun hR => hR.round s hist ht⟩)
      hcong h0 hs
  refine (Gives.addTo (hround i1 (fun _ => rfl) fun q hq => hsel' q ((hmf q).1 hq).1)).bind fun e2 s2 i2 => ?_
  refine (i2.cnots hg hU hΦ (round := fun ls => mergeQecRounds (cssIter code o nm) ls reset (some sel)) ?_ m n
    (by omega)).bind fun e3 s3 i3 => ?_
  · intro D r n a b e s hr hi
    refine (hround hi (by omega) hsel').mono fun c s' h2 => ?_
    convert h2 using 4 with ζ ρ
    have hr0 : r ≠ 0 := by omega
    simp only [hr0, and_false, if_false]
    rw [List.map_const']
  obtain ⟨a3, b3, i3⟩ := i3
  refine (Gives.addTo (Q := fun c _ => _) ?_)
  refine (i3.mergedMeas h gc gt hrc hrt hcfg hf hU hall (iter := fun l b => logMeasIter nm l b) (rb := rb)
    (fun s hist ht => ⟨fun c s' e => pair_meas h gc gt hrc hrt nt um rb ht e, fun hR => hR.meas s hist ht⟩)
    (by omega) hsel').mono fun c s' hc => ?_
  obtain ⟨k1, k2, k3⟩ := hc
  rw [Nat.zero_add] at k2
  refine ⟨k1, k2, fun ζ ρ => ⟨run ρ (FState.start ζ) (ops m'), (fm ζ ρ).2.2.2.2, ?_, ?_⟩⟩
  · rw [(k3 ζ ρ).1]
    simp only [List.nil_append, Function.iterate_zero, id_eq, and_true, hmf, List.append_assoc,
      List.replicate_append_replicate]
  · rw [(k3 ζ ρ).2]
    simp

end SurfaceSim
