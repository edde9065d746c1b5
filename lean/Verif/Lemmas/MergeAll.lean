/-
What merged rounds and merged logical measurements do.
-/
import Verif.Lemmas.MergeRounds

namespace SurfaceSim
open Spec NoiseModel Blocks Experiments LayoutLib

/-! ### running one patch after the other -/

/-- Two patches do not share qubits. -/
def Apart (ι : String → Nat) (p p' : Patch) : Prop :=
  ∀ q ∈ p.data ++ p.anc, ∀ q' ∈ p'.data ++ p'.anc, ι q ≠ ι q'

theorem ancOutcome_congr {ι : String → Nat} {reset : Bool} {st st' : FState Nat} {sup : String → List String}
    {isX : String → String → Bool} {a : String} (ha : st'.x (ι a) = st.x (ι a))
    (hs : ∀ d ∈ sup a, st'.x (ι d) = st.x (ι d) ∧ st'.z (ι d) = st.z (ι d)) :
    ancOutcome ι reset st' sup isX a = ancOutcome ι reset st sup isX a := by
  unfold ancOutcome anticommutes
  rw [ha]
  congr 2
  refine List.map_congr_left fun d hd => ?_
  rw [(hs d hd).1, (hs d hd).2]

theorem measuresAll_run {ι : String → Nat} {reset : Bool} {ps : List Patch} {LL : List (List (Op Nat))}
    (h : List.Forall₂ (fun p L => (∀ a ∈ p.anc, ∀ d ∈ p.sup a, d ∈ p.data) ∧ ∀ (ρ : Nat → ZMod 2) (st : FState Nat),
      MeasuresStabs ι p.data p.anc p.sup p.isX reset st (run ρ st L)) ps LL)
    (hp : ps.Pairwise (Apart ι)) (ρ : Nat → ZMod 2) (st : FState Nat) :
    MeasuresAll ι ps reset st (run ρ st LL.flatten) := by
  induction h generalizing st with
  | nil => exact ⟨by simp, by simp, by simp, rfl, rfl, fun _ _ => ⟨rfl, rfl⟩⟩
  | @cons p L ps LL hL _ ih =>
    rw [List.pairwise_cons] at hp
    rw [List.flatten_cons, run_append]
    have m1 := hL.2 ρ st
    have m2 := ih hp.2 (run ρ st L)
    generalize run ρ st L = st1 at m1 m2
    generalize run ρ st1 LL.flatten = st2 at m2
    have far : ∀ p' ∈ ps, ∀ q ∈ p'.data ++ p'.anc, st1.x (ι q) = st.x (ι q) ∧ st1.z (ι q) = st.z (ι q) := by
      intro p' hp' q hq
      exact m1.others _ fun q' hq' => hp.1 p' hp' q' hq' q hq
    have near : ∀ q ∈ p.data ++ p.anc, st2.x (ι q) = st1.x (ι q) ∧ st2.z (ι q) = st1.z (ι q) := by
      intro q hq
      exact m2.others _ fun p' hp' q' hq' he => hp.1 p' hp' q hq q' hq' he.symm
    have hsup : ∀ p' ∈ ps, ∀ a ∈ p'.anc, ∀ d ∈ p'.sup a, d ∈ p'.data := by
      rename_i hF
      clear ih m1 m2 hL hp far near
      induction hF with
      | nil => simp
      | cons hR _ ih =>
        intro p' hp'
        rcases List.mem_cons.1 hp' with rfl | hp'
        · exact hR.1
        · exact ih p' hp'
    have out : ∀ p' ∈ ps, ∀ a ∈ p'.anc, ancOutcome ι reset st1 p'.sup p'.isX a =
        ancOutcome ι reset st p'.sup p'.isX a := by
      intro p' hp' a ha
      refine ancOutcome_congr (far p' hp' a (by simp [ha])).1 fun d hd => ?_
      exact far p' hp' d (by simp [hsup p' hp' a ha d hd])
    constructor
    · rw [m2.recs, m1.recs, List.flatMap_cons, List.reverse_append, List.append_assoc]
      congr 2
      refine List.flatMap_congr fun p' hp' => List.map_congr_left fun a ha => out p' hp' a ha
    · intro p' hp' a ha
      rcases List.mem_cons.1 hp' with rfl | hp'
      · rw [(near a (by simp [ha])).1]; exact m1.ancilla a ha
      · rw [m2.ancilla p' hp' a ha, out p' hp' a ha]
    · intro p' hp'
      rcases List.mem_cons.1 hp' with rfl | hp'
      · obtain ⟨r, hr⟩ := m1.kicks
        refine ⟨r, fun d hd => ?_⟩
        rw [(near d (by simp [hd])).1, (near d (by simp [hd])).2]
        exact hr d hd
      · obtain ⟨r, hr⟩ := m2.kicks p' hp'
        refine ⟨r, fun d hd => ?_⟩
        rw [← (far p' hp' d (by simp [hd])).1, ← (far p' hp' d (by simp [hd])).2]
        exact hr d hd
    · rw [m2.dets, m1.dets]
    · rw [m2.obs, m1.obs]
    · intro n hn
      have h1 := m1.others n fun q hq => hn p (by simp) q hq
      have h2 := m2.others n fun p' hp' => hn p' (by simp [hp'])
      exact ⟨h2.1.trans h1.1, h2.2.trans h1.2⟩

/-! ### classes of qubits -/

theorem findIdx_class {ι : String → Nat} {Qs : List (List String)}
    (hp : Qs.Pairwise fun Q Q' => ∀ q ∈ Q, ∀ q' ∈ Q', ι q ≠ ι q') {k : Nat} {Q : List String} (hk : Qs[k]? = some Q)
    {q : String} (hq : q ∈ Q) : Qs.findIdx (fun Q => decide (ι q ∈ Q.map ι)) = k := by
  induction Qs generalizing k with
  | nil => simp at hk
  | cons Q0 Qs ih =>
    rw [List.pairwise_cons] at hp
    cases k with
    | zero =>
      simp only [List.getElem?_cons_zero, Option.some.injEq] at hk
      subst hk
      rw [List.findIdx_cons]
      simp only [List.mem_map]
      rw [decide_eq_true ⟨q, hq, rfl⟩]; rfl
    | succ k =>
      simp only [List.getElem?_cons_succ] at hk
      rw [List.findIdx_cons]
      have : decide (ι q ∈ Q0.map ι) = false := by
        rw [decide_eq_false_iff_not, List.mem_map]
        rintro ⟨q0, h0, he⟩
        exact hp.1 Q (List.mem_of_getElem? hk) q0 h0 q hq he
      rw [this, cond_false, ih hp.2 hk]

/-- The layouts' qubits, as indices, are disjoint. -/
theorem disjoint_inds {inds : Dict String Nat} (hinj : IndsInj inds) {ls : List Layout} {Qs : List (List String)}
    (h : List.Forall₂ (fun l Q => l.getQubits [] = .ok Q ∧ ∀ q ∈ Q, q ∈ inds.keys) ls Qs) (hd : NoCommonQubit ls) :
    Qs.Pairwise fun Q Q' => ∀ q ∈ Q, ∀ q' ∈ Q', ind inds q ≠ ind inds q' := by
  induction h with
  | nil => exact .nil
  | @cons l Q ls Qs hl hls ih =>
    unfold NoCommonQubit at hd
    rw [List.pairwise_cons] at hd ⊢
    refine ⟨?_, ih hd.2⟩
    intro Q' hQ' q hq q' hq' he
    obtain ⟨k, hk⟩ := List.mem_iff_getElem?.1 hQ'
    rcases getElem?_forall₂ hls k with ⟨-, h2⟩ | ⟨l', Q'', h1, h2, h3⟩
    · rw [hk] at h2; simp at h2
    · rw [hk] at h2; cases h2
      have : q = q' := hinj q (hl.2 q hq) q' (h3.2 q' hq') he
      subst this
      exact hd.1 l' (List.mem_of_getElem? h1) Q Q' hl.1 h3.1 q hq hq'

/-- Merging generators of layouts without common qubits. -/
theorem merge_layouts {inds : Dict String Nat} (hinj : IndsInj inds) {ls : List Layout} {Qs : List (List String)}
    (h : List.Forall₂ (fun l Q => l.getQubits [] = .ok Q ∧ ∀ q ∈ Q, q ∈ inds.keys) ls Qs) (hd : NoCommonQubit ls)
    {gens : List Gen} {Lss : List (List (List (Op String)))} {ks : List StepKind}
    (hg : List.Forall₂ (fun g Ls => GenOk inds g Ls ks) gens Lss) (hone : OneMeas ks)
    (hin : List.Forall₂ (fun Q Ls => OpsIn (fun q => q ∈ Q) Ls.flatten) Qs Lss)
    {s s' : MeasState} {hist : List String} {c : Circuit} (ht : s.Tracks inds hist)
    (hm : mergeGens gens s = (.ok c, s')) :
    (EvenPairs c ∧ ∀ op ∈ ops c, ∃ Ls ∈ Lss, op ∈ Ls.flatten.map (Op.rename (ind inds))) ∧
      Shuf (ops c) (Lss.map fun Ls => Ls.flatten.map (Op.rename (ind inds))).flatten ∧
      measOrder c = (Lss.flatMap fun Ls => measured Ls.flatten).map (ind inds) ∧
      s'.Tracks inds (hist ++ Lss.flatMap fun Ls => measured Ls.flatten) := by
  have hp := disjoint_inds hinj h hd
  have := mergeGens_shuf (cls := fun n => Qs.findIdx fun Q => decide (n ∈ Q.map (ind inds))) hg hone ?_ ht hm
  · obtain ⟨h1, h2, h3, h4⟩ := this
    refine ⟨h1, by rw [← List.flatMap_def]; exact h2, by rw [measOrder_ops, h3], h4⟩
  · intro k Ls hk op ho
    rcases getElem?_forall₂ hin k with ⟨-, h2⟩ | ⟨Q, Ls', h1, h2, h3⟩
    · rw [hk] at h2; simp at h2
    · rw [hk] at h2; cases h2
      obtain ⟨a1, a2, a3⟩ := h3 op ho
      refine ⟨?_, ?_, ?_⟩
      · cases op <;> simp_all [Op.rename, Op.acts]
      · rw [Op.rename_qubits]; simpa using a2
      · rw [Op.rename_qubits]
        intro n hn
        obtain ⟨q, hq, rfl⟩ := List.mem_map.1 hn
        exact findIdx_class hp h1 (a3 q hq)

/-- Doing the same as a reordered list with other random numbers. -/
theorem Spec.Shuf.transfer {L M : List (Op Nat)} (h : Shuf L M) {P : FState Nat → FState Nat → Prop}
    (hP : ∀ (ρ : Nat → ZMod 2) (st : FState Nat), P st (run ρ st M)) (ρ : Nat → ZMod 2) (st : FState Nat) :
    P st (run ρ st L) := by
  obtain ⟨ρ', -, he⟩ := h ρ st
  rw [← he]
  exact hP ρ' st

/-! ### merged rounds -/

/-- What one layout has to provide so that its round can be merged. -/
structure RoundOk (nm : NoiseModel) (g : Gen) (ks : List StepKind) (reset : Bool) (l : Layout) (p : Patch)
    (Q : List String) (Ls : List (List (Op String))) : Prop where
  qubits : l.getQubits [] = .ok Q
  known : ∀ q ∈ Q, q ∈ nm.inds.keys
  patch : ∀ q ∈ p.data ++ p.anc, q ∈ Q
  sup : ∀ a ∈ p.anc, ∀ d ∈ p.sup a, d ∈ p.data
  gen : GenOk nm.inds g Ls ks
  inside : OpsIn (fun q => q ∈ Q) Ls.flatten
  meas : measured Ls.flatten = p.anc
  distinct : ∀ op ∈ Ls.flatten.map (Op.rename (ind nm.inds)), op.Distinct
  stabs : ∀ (ρ : Nat → ZMod 2) (st : FState Nat), MeasuresStabs (ind nm.inds) p.data p.anc p.sup p.isX reset st
    (run ρ st (Ls.flatten.map (Op.rename (ind nm.inds))))

/-- The operations of a generator measure the stabilizers if the sum of its circuits does. -/
theorem stabs_of_round {nm : NoiseModel} {l : Layout} {g : Gen} {Ls : List (List (Op String))} {ks : List StepKind}
    (hg : GenOk nm.inds g Ls ks) {isX : String → String → Bool} {reset : Bool}
    (hr : RoundMeasures nm l (sumGen g) isX reset) {data anc : List String}
    (hd : l.getQubits [("role", .str "data")] = .ok data) (ha : l.getQubits [("role", .str "anc")] = .ok anc)
    (ρ : Nat → ZMod 2) (st : FState Nat) : MeasuresStabs (ind nm.inds) data anc (fun x => l.getNeighbors [x] none) isX
      reset st (run ρ st (Ls.flatten.map (Op.rename (ind nm.inds)))) := by
  obtain ⟨data', anc', h1, h2, h3⟩ := hr
  rw [hd] at h1; cases h1
  rw [ha] at h2; cases h2
  have ht : (MeasState.fresh nm.inds).Tracks nm.inds [] := MeasState.tracks_fresh nm.inds
  obtain ⟨c, s', e, -, -, -, hm⟩ := h3 _ [] ht
  obtain ⟨-, hD⟩ := Does.sumGen hg.forall₂
  obtain ⟨c', s'', e', -, ho, -⟩ := hD _ [] ht
  rw [e] at e'
  simp only [Prod.mk.injEq, Except.ok.injEq] at e'
  rw [← ho, ← e'.1]
  exact hm ρ st

theorem merged_rounds {nm : NoiseModel} (hinj : IndsInj nm.inds) {ls : List Layout} (hd : NoCommonQubit ls)
    {iter : Layout → Bool → Gen} {ks : List StepKind} {reset : Bool} (hone : OneMeas ks)
    (h : ∀ l ∈ ls, ∃ p Q Ls, P l p ∧ RoundOk nm (iter l reset) ks reset l p Q Ls)
    {s s' : MeasState} {hist : List String} {c : Circuit} (ht : s.Tracks nm.inds hist)
    (hm : mergeGens (ls.map fun l => iter l reset) s = (.ok c, s')) :
    ∃ ps, List.Forall₂ P ls ps ∧ PairsOk c ∧ s'.Tracks nm.inds (hist ++ ps.flatMap fun p => p.anc) ∧
      measOrder c = (ps.flatMap fun p => p.anc).map (ind nm.inds) ∧
      ∀ (ρ : Nat → ZMod 2) (st : FState Nat), MeasuresAll (ind nm.inds) ps reset st (run ρ st (ops c)) := by
  have hex : ∃ (ps : List Patch) (Qs : List (List String)) (Lss : List (List (List (Op String)))),
      List.Forall₂ P ls ps ∧
      List.Forall₂ (fun l Q => l.getQubits [] = .ok Q ∧ ∀ q ∈ Q, q ∈ nm.inds.keys) ls Qs ∧
      List.Forall₂ (fun p Q => ∀ q ∈ p.data ++ p.anc, q ∈ Q) ps Qs ∧
      List.Forall₂ (fun g Ls => GenOk nm.inds g Ls ks) (ls.map fun l => iter l reset) Lss ∧
      List.Forall₂ (fun Q Ls => OpsIn (fun q => q ∈ Q) Ls.flatten) Qs Lss ∧
      (Lss.flatMap fun Ls => measured Ls.flatten) = ps.flatMap (fun p => p.anc) ∧
      List.Forall₂ (fun p L => (∀ a ∈ p.anc, ∀ d ∈ p.sup a, d ∈ p.data) ∧ ∀ (ρ : Nat → ZMod 2) (st : FState Nat),
        MeasuresStabs (ind nm.inds) p.data p.anc p.sup p.isX reset st (run ρ st L)) ps
        (Lss.map fun Ls => Ls.flatten.map (Op.rename (ind nm.inds))) ∧
      ∀ Ls ∈ Lss, ∀ op ∈ Ls.flatten.map (Op.rename (ind nm.inds)), op.Distinct := by
    clear hm hd
    induction ls with
    | nil => exact ⟨[], [], [], .nil, .nil, .nil, .nil, .nil, rfl, .nil, by simp⟩
    | cons l ls ih =>
      obtain ⟨ps, Qs, Lss, a1, a2, a3, a4, a5, a6, a7, a8⟩ := ih fun l' hl' => h l' (by simp [hl'])
      obtain ⟨p, Q, Ls, b0, b⟩ := h l (by simp)
      refine ⟨p :: ps, Q :: Qs, Ls :: Lss, .cons b0 a1, .cons ⟨b.qubits, b.known⟩ a2, .cons b.patch a3, .cons b.gen a4,
        .cons b.inside a5, ?_, .cons ⟨b.sup, b.stabs⟩ a7, ?_⟩
      · rw [List.flatMap_cons, List.flatMap_cons, a6, b.meas]
      · intro Ls' hLs'
        rcases List.mem_cons.1 hLs' with rfl | hLs'
        · exact b.distinct
        · exact a8 Ls' hLs'
  obtain ⟨ps, Qs, Lss, a1, a2, a3, a4, a5, a6, a7, a8⟩ := hex
  obtain ⟨h1, h2, h3, h4⟩ := merge_layouts hinj a2 hd a4 hone a5 ht hm
  rw [a6] at h3 h4
  have hap : ps.Pairwise (Apart (ind nm.inds)) := by
    have hQ := disjoint_inds hinj a2 hd
    clear h1 h2 h3 h4 a8 a7 a6 a5 a4 a2 a1 hm h hd
    induction a3 with
    | nil => exact .nil
    | @cons p Q ps Qs hpq hps ih =>
      rw [List.pairwise_cons] at hQ ⊢
      refine ⟨fun p' hp' q hq q' hq' => ?_, ih hQ.2⟩
      obtain ⟨k, hk⟩ := List.mem_iff_getElem?.1 hp'
      rcases getElem?_forall₂ hps k with ⟨e, -⟩ | ⟨p'', Q', e1, e2, e3⟩
      · rw [hk] at e; simp at e
      · rw [hk] at e1; cases e1
        exact hQ.1 Q' (List.mem_of_getElem? e2) q (hpq q hq) q' (e3 q' hq')
  exact ⟨ps, a1, ⟨h1.1, fun op ho => by
    obtain ⟨Ls, hLs, hop⟩ := h1.2 op ho
    exact a8 Ls hLs op hop⟩, h4, h3, fun ρ st => h2.transfer (fun ρ st => measuresAll_run a7 hap ρ st) ρ st⟩

/-! ### merged measurements -/

theorem measBasis_run {ι : String → Nat} {rot : Bool} {qss : List (List String)}
    (hnd : ((qss.flatten).map ι).Nodup) (ρ : Nat → ZMod 2) (st : FState Nat) :
    MeasuresBasis ι rot qss.flatten st (run ρ st ((qss.map fun qs =>
      ((if rot then qs.map Op.h else []) ++ qs.map Op.m).map (Op.rename ι)).flatten)) := by
  induction qss generalizing st with
  | nil => exact ⟨by simp, rfl, rfl, fun _ _ => ⟨rfl, rfl⟩⟩
  | cons qs qss ih =>
    rw [List.flatten_cons, List.map_append, List.nodup_append] at hnd
    obtain ⟨n1, n2, n3⟩ := hnd
    rw [List.map_cons, List.flatten_cons, List.flatten_cons, run_append]
    have key : MeasuresBasis ι rot qs st (run ρ st (((if rot then qs.map Op.h else []) ++ qs.map Op.m).map (Op.rename ι))) := by
      have e1 : (qs.map Op.m).map (Op.rename ι) = (qs.map ι).map Op.m := by simp [Op.rename]
      have e2 : (qs.map Op.h).map (Op.rename ι) = (qs.map ι).map Op.h := by simp [Op.rename]
      rw [List.map_append, run_append, e1]
      cases rot
      · simp only [Bool.false_eq_true, if_false, List.map_nil, run_nil]
        rw [run_m ρ _ n1]
        refine ⟨by simp [Function.comp_def], rfl, rfl, ?_⟩
        intro n hn
        have : n ∉ qs.map ι := by
          rw [List.mem_map]
          rintro ⟨q, hq, he⟩
          exact hn q hq he
        simp only [this, if_false, and_self]
      · simp only [if_true]
        rw [e2, run_h ρ _ n1, run_m ρ _ n1]
        refine ⟨?_, rfl, rfl, ?_⟩
        · simp only [if_true, List.map_map]
          congr 2
          refine List.map_congr_left fun q hq => ?_
          have : ι q ∈ qs.map ι := List.mem_map_of_mem hq
          simp only [Function.comp_apply, this, if_true]
        · intro n hn
          have : n ∉ qs.map ι := by
            rw [List.mem_map]
            rintro ⟨q, hq, he⟩
            exact hn q hq he
          simp only [this, if_false, and_self]
    have k2 := ih n2 (run ρ st (((if rot then qs.map Op.h else []) ++ qs.map Op.m).map (Op.rename ι)))
    generalize run ρ st (((if rot then qs.map Op.h else []) ++ qs.map Op.m).map (Op.rename ι)) = st1 at key k2 ⊢
    refine ⟨?_, k2.dets.trans key.dets, k2.obs.trans key.obs, ?_⟩
    · rw [k2.recs, key.recs, List.map_append, List.reverse_append, List.append_assoc]
      congr 2
      refine List.map_congr_left fun q hq => ?_
      obtain ⟨h1, h2⟩ := key.others (ι q) fun q' hq' =>
        n3 _ (List.mem_map_of_mem hq') _ (List.mem_map_of_mem hq)
      rw [h1, h2]
    · intro n hn
      obtain ⟨h1, h2⟩ := key.others n fun q hq => hn q (by simp [hq])
      obtain ⟨h3, h4⟩ := k2.others n fun q hq => hn q (List.mem_append_right _ hq)
      exact ⟨h3.trans h1, h4.trans h2⟩

end SurfaceSim
