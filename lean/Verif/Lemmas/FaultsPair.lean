/-
Merged blocks of two layouts: their operations on labels and the parities they preserve.
-/
import Verif.Lemmas.FaultsMerge

namespace SurfaceSim
open Spec NoiseModel Blocks Experiments

theorem rename_inj {ι : String → Nat} {K : String → Prop} (inj : ∀ a b, K a → K b → ι a = ι b → a = b) {o o' : Op String}
    (h : ∀ q ∈ o.qubits, K q) (h' : ∀ q ∈ o'.qubits, K q) (e : o.rename ι = o'.rename ι) : o = o' := by
  cases o <;> cases o' <;> simp only [Op.rename, reduceCtorEq, Op.x.injEq, Op.z.injEq, Op.h.injEq, Op.s.injEq, Op.sdag.injEq,
    Op.cz.injEq, Op.cx.injEq, Op.swap.injEq, Op.m.injEq, Op.mx.injEq, Op.my.injEq, Op.r.injEq, Op.rx.injEq, Op.ry.injEq,
    Op.det.injEq, Op.obs.injEq] at e ⊢ <;>
    simp only [Op.qubits, List.mem_cons, List.not_mem_nil, or_false, forall_eq_or_imp, forall_eq] at h h' <;>
    first
    | exact inj _ _ h h' e
    | exact ⟨inj _ _ h.1 h'.1 e.1, inj _ _ h.2 h'.2 e.2⟩
    | exact e

theorem map_rename_inj {ι : String → Nat} {K : String → Prop} (inj : ∀ a b, K a → K b → ι a = ι b → a = b) :
    ∀ {l l' : List (Op String)}, (∀ o ∈ l, ∀ q ∈ o.qubits, K q) → (∀ o ∈ l', ∀ q ∈ o.qubits, K q) →
      l.map (Op.rename ι) = l'.map (Op.rename ι) → l = l'
  | [], [], _, _, _ => rfl
  | [], _ :: _, _, _, e => by simp at e
  | _ :: _, [], _, _, e => by simp at e
  | o :: l, o' :: l', h, h', e => by
    simp only [List.map_cons, List.cons.injEq] at e
    rw [rename_inj inj (h o (by simp)) (h' o' (by simp)) e.1,
      map_rename_inj inj (fun x hx => h x (by simp [hx])) (fun x hx => h' x (by simp [hx])) e.2]

/-- A call does one list of operations only. -/
theorem Does.unique {inds : Dict String Nat} (hinj : IndsInj inds) {b : Call1} {L L' : List (Op String)} (h : Does inds b L)
    (h' : Does inds b L') : L = L' := by
  obtain ⟨c, s, e1, -, o1, -⟩ := h.2 _ [] (MeasState.tracks_fresh inds)
  obtain ⟨c', s', e2, -, o2, -⟩ := h'.2 _ [] (MeasState.tracks_fresh inds)
  rw [e1] at e2
  simp only [Prod.mk.injEq, Except.ok.injEq] at e2
  obtain ⟨rfl, -⟩ := e2
  exact map_rename_inj (K := (· ∈ inds.keys)) (fun a b ha hb => hinj a ha b hb) h.1 h'.1 (o1.symm.trans o2)

/-- The operations `X` are those of `M1` and `M2`, which act on different qubits, in some order that keeps the orders of
both. -/
structure Interleaved (Q1 Q2 : List String) (M1 M2 X : List (Op String)) (cls : String → Nat) : Prop where
  fst : ∀ q ∈ Q1, cls q = 0
  snd : ∀ q ∈ Q2, cls q = 1
  one : ∀ o ∈ X, OneClass cls o
  left : X.filter (fun o => opClass cls o = 0) = M1
  right : X.filter (fun o => opClass cls o = 1) = M2
  other : ∀ k, 2 ≤ k → X.filter (fun o => opClass cls o = k) = []
  acts : ∀ o ∈ X, o.acts = true

theorem Interleaved.mem {Q1 Q2 : List String} {M1 M2 X : List (Op String)} {cls : String → Nat}
    (h : Interleaved Q1 Q2 M1 M2 X cls) {o : Op String} (ho : o ∈ X) : o ∈ M1 ∨ o ∈ M2 := by
  have hm : o ∈ X.filter (fun o' => opClass cls o' = opClass cls o) := List.mem_filter.2 ⟨ho, by simp⟩
  rcases Nat.lt_or_ge (opClass cls o) 2 with h2 | h2
  · obtain h0 | h1 : opClass cls o = 0 ∨ opClass cls o = 1 := by omega
    · rw [h0, h.left] at hm; exact Or.inl hm
    · rw [h1, h.right] at hm; exact Or.inr hm
  · rw [h.other _ h2] at hm
    simp at hm

theorem Interleaved.loud {Q1 Q2 : List String} {M1 M2 X : List (Op String)} {cls : String → Nat}
    (h : Interleaved Q1 Q2 M1 M2 X cls) : Loud X := by
  intro o ho
  have := h.acts o ho
  constructor
  · rintro ks rfl; simp [Op.acts] at this
  · rintro k ks rfl; simp [Op.acts] at this

theorem rename_acts {o : Op String} {ι : String → Nat} : (o.rename ι).acts = o.acts := by
  cases o <;> rfl

/-- Merged generators of two layouts. -/
theorem merge_two {inds : Dict String Nat} (hinj : IndsInj inds) {Q1 Q2 : List String} (hk1 : ∀ q ∈ Q1, q ∈ inds.keys)
    (hk2 : ∀ q ∈ Q2, q ∈ inds.keys) (hd : ∀ q ∈ Q1, q ∉ Q2) {g1 g2 : Gen} {Ls1 Ls2 : List (List (Op String))}
    {ks : List StepKind} (h1 : GenOk inds g1 Ls1 ks) (h2 : GenOk inds g2 Ls2 ks) (hone : OneMeas ks)
    (i1 : OpsIn (fun q => q ∈ Q1) Ls1.flatten) (i2 : OpsIn (fun q => q ∈ Q2) Ls2.flatten)
    {s s' : MeasState} {hist : List String} {c : Circuit} (ht : s.Tracks inds hist)
    (hm : mergeGens [g1, g2] s = (.ok c, s')) :
    ∃ X cls, ops c = X.map (Op.rename (ind inds)) ∧ EvenPairs c ∧ (∀ o ∈ X, ∀ q ∈ o.qubits, q ∈ inds.keys) ∧
      measured X = measured Ls1.flatten ++ measured Ls2.flatten ∧
      s'.Tracks inds (hist ++ (measured Ls1.flatten ++ measured Ls2.flatten)) ∧
      Interleaved Q1 Q2 Ls1.flatten Ls2.flatten X cls := by
  have hp : [Q1, Q2].Pairwise fun Q Q' => ∀ q ∈ Q, ∀ q' ∈ Q', ind inds q ≠ ind inds q' := by
    simp only [List.pairwise_cons, List.mem_singleton, forall_eq, List.not_mem_nil, false_implies, implies_true,
      List.Pairwise.nil, and_true]
    intro q hq q' hq' he
    obtain rfl := hinj q (hk1 q hq) q' (hk2 q' hq') he
    exact hd q hq hq'
  set clsN : Nat → Nat := fun n => [Q1, Q2].findIdx fun Q => decide (n ∈ Q.map (ind inds)) with hcN
  have c1 : ∀ q ∈ Q1, clsN (ind inds q) = 0 := fun q hq => findIdx_class (k := 0) hp rfl hq
  have c2 : ∀ q ∈ Q2, clsN (ind inds q) = 1 := fun q hq => findIdx_class (k := 1) hp rfl hq
  have hcls : ∀ k Ls, [Ls1, Ls2][k]? = some Ls → ∀ op ∈ Ls.flatten, OfClass clsN k (op.rename (ind inds)) := by
    intro k Ls hk op ho
    have key : ∀ {Q : List String} {Ls : List (List (Op String))}, OpsIn (fun q => q ∈ Q) Ls.flatten → (∀ q ∈ Q, clsN (ind inds q) = k) →
        op ∈ Ls.flatten → OfClass clsN k (op.rename (ind inds)) := by
      intro Q Ls hin hc ho
      obtain ⟨a1, a2, a3⟩ := hin op ho
      refine ⟨by rw [rename_acts]; exact a1, by rw [Op.rename_qubits]; simpa using a2, ?_⟩
      rw [Op.rename_qubits]
      intro n hn
      obtain ⟨q, hq, rfl⟩ := List.mem_map.1 hn
      exact hc q (a3 q hq)
    match k, hk with
    | 0, hk => cases hk; exact key i1 c1 ho
    | 1, hk => cases hk; exact key i2 c2 ho
  obtain ⟨M, m1, m2, m3, m4, m5, m6⟩ := mergeLoop_ops (cls := clsN) (fuel := g1.length + 1) (by simp)
    (by rw [h1.length]; omega) (.cons h1 (.cons h2 .nil)) hcls ht evenPairs_nil hm
  rw [stepsMeasured_one (.cons h1 (.cons h2 .nil)) hone] at m5 m6
  have hfl : ([Ls1, Ls2].flatMap fun Ls => measured Ls.flatten) = measured Ls1.flatten ++ measured Ls2.flatten := by
    simp [List.flatMap_cons]
  rw [hfl] at m5 m6
  have hoM : ops c = M := by rw [m1]; rfl
  obtain ⟨X, x1, x2⟩ := lift_classes (Op.rename (ind inds)) (clsOp clsN) M _ m3
  have hcl : ∀ o : Op String, clsOp clsN (o.rename (ind inds)) = opClass (fun q => clsN (ind inds q)) o := by
    intro o
    unfold clsOp opClass
    rw [Op.rename_qubits, List.head?_map, Option.map_map]
    rfl
  simp only [hcl] at x2
  have hone' : ∀ o ∈ X, OneClass (fun q => clsN (ind inds q)) o := by
    intro o ho
    obtain ⟨k, -, hk⟩ := m4 (o.rename (ind inds)) (by rw [← x1]; exact List.mem_map_of_mem ho)
    have k2 := hk.2.1
    have k3 := hk.2.2
    rw [Op.rename_qubits] at k2 k3
    refine ⟨by simpa using k2, fun q hq => ?_⟩
    rw [← hcl, hk.cls]
    exact k3 _ (List.mem_map_of_mem hq)
  have hI : Interleaved Q1 Q2 Ls1.flatten Ls2.flatten X (fun q => clsN (ind inds q)) := by
    refine ⟨c1, c2, hone', x2 0, x2 1, fun k hk => ?_, fun o ho => ?_⟩
    · rw [x2 k, List.getElem?_eq_none (by simpa using hk)]
      rfl
    · obtain ⟨k, -, hk⟩ := m4 (o.rename (ind inds)) (by rw [← x1]; exact List.mem_map_of_mem ho)
      have := hk.1
      rwa [rename_acts] at this
  have hkX : ∀ o ∈ X, ∀ q ∈ o.qubits, q ∈ inds.keys := by
    intro o ho q hq
    rcases hI.mem ho with h | h
    · exact hk1 q ((i1 o h).2.2 q hq)
    · exact hk2 q ((i2 o h).2.2 q hq)
  have hkm : ∀ {l : List (Op String)}, (∀ o ∈ l, ∀ q ∈ o.qubits, q ∈ inds.keys) → ∀ q ∈ measured l, q ∈ inds.keys := by
    intro l hl q hq
    unfold measured at hq
    obtain ⟨o, ho, hq⟩ := List.mem_filterMap.1 hq
    exact hl o ho q (by cases o <;> simp_all [Op.qubits])
  refine ⟨X, _, by rw [hoM, x1], m2, hkX, ?_, m6, hI⟩
  have e : (measured X).map (ind inds) = (measured Ls1.flatten ++ measured Ls2.flatten).map (ind inds) := by
    rw [← m5, ← x1, measured_rename]
  have hk' : ∀ q ∈ measured Ls1.flatten ++ measured Ls2.flatten, q ∈ inds.keys := by
    intro q hq
    rcases List.mem_append.1 hq with hq | hq
    · exact hkm (fun o ho q hq => hk1 q ((i1 o ho).2.2 q hq)) q hq
    · exact hkm (fun o ho q hq => hk2 q ((i2 o ho).2.2 q hq)) q hq
  have inj : ∀ {l l' : List String}, (∀ q ∈ l, q ∈ inds.keys) → (∀ q ∈ l', q ∈ inds.keys) →
      l.map (ind inds) = l'.map (ind inds) → l = l' := by
    intro l
    induction l with
    | nil => intro l' _ _ he; simpa using he.symm
    | cons a l ih =>
      intro l' ha hb he
      cases l' with
      | nil => simp at he
      | cons b l' =>
        simp only [List.map_cons, List.cons.injEq] at he
        rw [hinj a (ha a (by simp)) b (hb b (by simp)) he.1,
          ih (fun q hq => ha q (by simp [hq])) (fun q hq => hb q (by simp [hq])) he.2]
  exact inj (hkm hkX) hk' e

variable {J : Type} {A : Finset String}

/-- Lines of both layouts are preserved together. -/
theorem pres_two {Q1 Q2 : List String} {M1 M2 X : List (Op String)} {cls : String → Nat}
    (h : Interleaved Q1 Q2 M1 M2 X cls) {β : String → Bool} {u1 u2 : J → String → ZMod 2}
    (s1 : ∀ j q, u1 j q ≠ 0 → q ∈ Q1) (s2 : ∀ j q, u2 j q ≠ 0 → q ∈ Q2)
    (p1 : Pres A M1 (fun j => fn β (u1 j)) (fun j => fn β (u1 j)))
    (p2 : Pres A M2 (fun j => fn β (u2 j)) (fun j => fn β (u2 j))) :
    Pres A X (fun j => fn β fun q => u1 j q + u2 j q) (fun j => fn β fun q => u1 j q + u2 j q) := by
  let W : Nat → J → Func String := fun k j => fn β (if k = 0 then u1 j else if k = 1 then u2 j else fun _ => 0)
  have hz1 : ∀ j q, cls q ≠ 0 → u1 j q = 0 := fun j q hq => by
    by_contra hn; exact hq (h.fst q (s1 j q hn))
  have hz2 : ∀ j q, cls q ≠ 1 → u2 j q = 0 := fun j q hq => by
    by_contra hn; exact hq (h.snd q (s2 j q hn))
  have hsum : ∀ j q, u1 j q + u2 j q = (if cls q = 0 then u1 j else if cls q = 1 then u2 j else fun _ => 0) q := by
    intro j q
    by_cases h0 : cls q = 0
    · rw [if_pos h0, hz2 j q (by omega), add_zero]
    · rw [if_neg h0, hz1 j q h0, zero_add]
      by_cases h1 : cls q = 1
      · rw [if_pos h1]
      · rw [if_neg h1, hz2 j q h1]
  have := pres_shuffle (A := A) (cls := cls) (V := fun j => fn β fun q => u1 j q + u2 j q) (W := W) (W' := W) h.one
    (fun j => rfl) (fun k j => rfl) (fun k j q hq => by
      subst hq
      simp only [W, fn, hsum]
      exact ⟨trivial, trivial⟩) (fun k => by
      by_cases h0 : k = 0
      · subst h0; rw [h.left]; simpa [W] using p1
      · by_cases h1 : k = 1
        · subst h1; rw [h.right]; simpa [W] using p2
        · rw [h.other k (by omega)]
          refine Pres.nil fun q _ i j hi => ?_
          exfalso
          apply hi
          simp only [W, if_neg h0, if_neg h1]
          exact blind_fn.2 rfl)
  convert this using 2 with j
  unfold fn
  congr 1 <;> funext q <;> simp only [W, fn, hsum]

end SurfaceSim
