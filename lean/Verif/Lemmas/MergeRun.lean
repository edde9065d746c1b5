/-
Merging the generators of several layouts: the merged circuit does what the circuits of the layouts do, one after
the other.
-/
import Verif.Lemmas.Shuffle
import Verif.Lemmas.MergeMeas
import Verif.Props.CircuitOps

namespace SurfaceSim
open Spec NoiseModel Blocks Experiments CircuitOps

/-- The circuits returned by `b` have no TICK. -/
def NoTick (b : Call1) : Prop := ∀ s c s', b s = (.ok c, s') → ∀ i ∈ c, i.gate ≠ .TICK

/-- What a step of the generators is. -/
inductive StepKind where
  | tick
  | quiet
  | meas (sig : List Gate)

/-- The block `b` with operations `L` is of the given kind. -/
def Item (inds : Dict String Nat) (b : Call1) (L : List (Op String)) : StepKind → Prop
  | .tick => b = Blocks.tick ∧ L = []
  | .quiet => Does inds b L ∧ NoTick b ∧ measured L = []
  | .meas sig => Does inds b L ∧ NoTick b ∧ (sig.filter Gate.isMeas).length ≤ 1 ∧
      ∀ s c s', b s = (.ok c, s') → c.map Instr.gate = sig

theorem Item.does {inds : Dict String Nat} {b : Call1} {L : List (Op String)} {k : StepKind} (h : Item inds b L k) :
    Does inds b L := by
  cases k with
  | tick => obtain ⟨rfl, rfl⟩ := h; exact Does.tick inds
  | quiet => exact h.1
  | meas sig => exact h.1

/-- The blocks of a generator are of the given kinds. -/
inductive GenOk (inds : Dict String Nat) : Gen → List (List (Op String)) → List StepKind → Prop
  | nil : GenOk inds [] [] []
  | cons {b : Call1} {g : Gen} {L : List (Op String)} {Ls : List (List (Op String))} {k : StepKind}
      {ks : List StepKind} : Item inds b L k → GenOk inds g Ls ks → GenOk inds (b :: g) (L :: Ls) (k :: ks)

theorem GenOk.append {inds : Dict String Nat} {g g' : Gen} {Ls Ls' : List (List (Op String))} {ks ks' : List StepKind}
    (h : GenOk inds g Ls ks) (h' : GenOk inds g' Ls' ks') : GenOk inds (g ++ g') (Ls ++ Ls') (ks ++ ks') := by
  induction h with
  | nil => exact h'
  | cons hi _ ih => exact .cons hi ih

theorem GenOk.length {inds : Dict String Nat} {g : Gen} {Ls : List (List (Op String))} {ks : List StepKind}
    (h : GenOk inds g Ls ks) : g.length = ks.length := by
  induction h with
  | nil => rfl
  | cons _ _ ih => simp [ih]

theorem GenOk.forall₂ {inds : Dict String Nat} {g : Gen} {Ls : List (List (Op String))} {ks : List StepKind}
    (h : GenOk inds g Ls ks) : List.Forall₂ (Does inds) g Ls := by
  induction h with
  | nil => exact .nil
  | cons hi _ ih => exact .cons hi.does ih

/-! ### one step -/

theorem mem_foldl_append {L : List Instr} {c : Circuit} {i : Instr} (h : i ∈ L.foldl Circuit.append c) :
    (∃ j ∈ c, j.gate = i.gate) ∨ ∃ j ∈ L, j.gate = i.gate := by
  induction L generalizing c with
  | nil => exact .inl ⟨i, h, rfl⟩
  | cons a L ih =>
    rcases ih h with ⟨j, hj, he⟩ | ⟨j, hj, he⟩
    · unfold Circuit.append at hj
      split at hj
      · simp only [List.mem_singleton] at hj
        subst hj
        exact .inr ⟨j, by simp, he⟩
      · rename_i l hl
        split at hj
        · rename_i hf
          rcases List.mem_append.1 hj with hj | hj
          · exact .inl ⟨j, List.dropLast_subset _ hj, he⟩
          · simp only [List.mem_singleton] at hj
            subst hj
            exact .inl ⟨l, List.mem_of_getLast? hl, he⟩
        · rcases List.mem_append.1 hj with hj | hj
          · exact .inl ⟨j, hj, he⟩
          · simp only [List.mem_singleton] at hj
            subst hj
            exact .inr ⟨j, by simp, he⟩
    · exact .inr ⟨j, by simp [hj], he⟩

theorem ops_foldl_append (L : List Instr) (c : Circuit) (hc : EvenPairs c) (hL : EvenPairs L) :
    ops (L.foldl Circuit.append c) = ops c ++ L.flatMap instrOps ∧ EvenPairs (L.foldl Circuit.append c) := by
  induction L generalizing c with
  | nil => exact ⟨by simp, hc⟩
  | cons a L ih =>
    have ha := hL a (by simp)
    obtain ⟨h1, h2⟩ := ih (Circuit.append c a) (elems_circuit_append c a hc ha).2 fun i hi => hL i (by simp [hi])
    exact ⟨by rw [List.foldl_cons, h1, ops_append_even c a hc ha]; simp, h2⟩

/-- The blocks of one step: all of them are a TICK, or none contains one. -/
inductive StepOk (cs : List Circuit) : Prop
  | tick : (∀ c ∈ cs, c = NoiseModel.tick) → StepOk cs
  | plain : (∀ c ∈ cs, ∀ i ∈ c, i.gate ≠ .TICK) → StepOk cs

theorem mergeStep_ops {circuit circuit' : Circuit} {cs : List Circuit} (h : mergeStep circuit cs = .ok circuit')
    (hs : StepOk cs) (hp : ∀ c ∈ cs, EvenPairs c) (hc : EvenPairs circuit) :
    ∃ M, ops circuit' = ops circuit ++ M ∧ EvenPairs circuit' ∧ M.Perm (cs.flatMap ops) ∧
      (∀ c ∈ cs, (ops c).Sublist M) ∧
      ∀ sig : List Gate, (sig.filter Gate.isMeas).length ≤ 1 →
        (∀ b ∈ cs, (∃ i ∈ b, i.gate.isMeas = true) → b.map Instr.gate = sig) → measured M = cs.flatMap measOrder := by
  unfold mergeStep at h
  cases hm : mergeTickBlocks cs with
  | error e => rw [hm] at h; simp at h
  | ok m =>
    rw [hm] at h
    have hne : cs ≠ [] := by rintro rfl; simp [mergeTickBlocks] at hm
    have hlen : ∀ b ∈ cs, ∀ b' ∈ cs, b.length = b'.length := by
      by_contra hcon
      have : mergeTickBlocks cs = .error .valueError := by
        rw [Props.C19_raises_iff]
        right
        simp only [not_forall] at hcon
        obtain ⟨b, hb, b', hb', hne⟩ := hcon
        exact ⟨b, hb, b', hb', hne⟩
      rw [this] at hm; simp at hm
    obtain ⟨L, e1, e2, e3⟩ := Props.C19_merge_tick_blocks cs hne hlen
    rw [e1] at hm
    simp only [Except.ok.injEq] at hm
    have hLp : EvenPairs L := by
      intro i hi
      obtain ⟨b, hb, hib⟩ := List.mem_flatten.1 (e2.mem_iff.1 hi)
      exact hp b hb i hib
    obtain ⟨k1, k2⟩ := ops_foldl_append L [] evenPairs_nil hLp
    rw [hm] at k1 k2
    have k1' : ops m = L.flatMap instrOps := by rw [k1]; rfl
    have hperm : (ops m).Perm (cs.flatMap ops) := by
      rw [k1']
      refine (e2.flatMap_right instrOps).trans ?_
      rw [List.flatten_eq_flatMap, List.flatMap_assoc]
      exact List.Perm.refl _
    have hsub : ∀ c ∈ cs, (ops c).Sublist (ops m) := by
      intro c hcc
      rw [k1']
      exact (e3 c hcc).flatMap _ 
    have hmeas : ∀ sig : List Gate, (sig.filter Gate.isMeas).length ≤ 1 →
        (∀ b ∈ cs, (∃ i ∈ b, i.gate.isMeas = true) → b.map Instr.gate = sig) →
          measured (ops m) = cs.flatMap measOrder := by
      intro sig h1 h2
      rw [← measOrder_ops]
      exact Props.C20_measurement_order_partial cs sig m h1 h2 (by rw [e1, hm])
    cases m with
    | nil =>
      simp only [Except.ok.injEq] at h
      subst h
      exact ⟨ops [], by simp [ops], hc, hperm, hsub, hmeas⟩
    | cons i m =>
      simp only at h
      split at h
      · rename_i ht
        simp only [Except.ok.injEq] at h
        subst h
        have hall : ∀ c ∈ cs, c = NoiseModel.tick := by
          cases hs with
          | tick hh => exact hh
          | plain hh =>
            exfalso
            rcases mem_foldl_append (L := L) (c := []) (i := i) (by rw [hm]; simp) with ⟨j, hj, -⟩ | ⟨j, hj, he⟩
            · simp at hj
            · obtain ⟨b, hb, hjb⟩ := List.mem_flatten.1 (e2.mem_iff.1 hj)
              exact hh b hb j hjb (he.trans ht)
        have hnil : cs.flatMap ops = [] := by
          rw [List.flatMap_eq_nil_iff]
          intro c hcc
          rw [hall c hcc]; rfl
        have hnil' : ops (i :: m) = [] := by rw [hnil] at hperm; exact hperm.eq_nil
        refine ⟨ops (i :: m), ?_, ?_, hperm, hsub, hmeas⟩
        · rw [ops_append_even circuit i hc (by rw [ht]; simp [Gate.isTwoQubit]), hnil']
          simp [instrOps, ht]
        · exact (elems_circuit_append circuit i hc (by rw [ht]; simp [Gate.isTwoQubit])).2
      · simp only [Except.ok.injEq] at h
        subst h
        obtain ⟨k3, k4⟩ := ops_concat hc k2
        exact ⟨ops (i :: m), k3, k4, hperm, hsub, hmeas⟩

/-! ### all blocks of one step -/

theorem nextAll_ok {inds : Dict String Nat} {k : StepKind} {ks : List StepKind} {gens : List Gen}
    {Lss : List (List (List (Op String)))} (h : List.Forall₂ (fun g Ls => GenOk inds g Ls (k :: ks)) gens Lss)
    (s : MeasState) (hist : List String) (ht : s.Tracks inds hist) :
    ∃ cs gens' s', nextAll gens s = (.ok (some (cs, gens')), s') ∧
      List.Forall₂ (fun g Ls => GenOk inds g Ls ks) gens' (Lss.map List.tail) ∧
      List.Forall₂ (fun c Ls => EvenPairs c ∧ ops c = (Ls.headD []).map (Op.rename (ind inds))) cs Lss ∧
      s'.Tracks inds (hist ++ Lss.flatMap fun Ls => measured (Ls.headD [])) ∧
      (match k with
        | .tick => (∀ c ∈ cs, c = NoiseModel.tick) ∧ ∀ Ls ∈ Lss, measured (Ls.headD []) = []
        | .quiet => (∀ c ∈ cs, ∀ i ∈ c, i.gate ≠ .TICK) ∧ ∀ Ls ∈ Lss, measured (Ls.headD []) = []
        | .meas sig => (∀ c ∈ cs, ∀ i ∈ c, i.gate ≠ .TICK) ∧
            (Lss ≠ [] → (sig.filter Gate.isMeas).length ≤ 1) ∧ ∀ c ∈ cs, c.map Instr.gate = sig) := by
  induction h generalizing s hist with
  | nil =>
    refine ⟨[], [], s, rfl, .nil, .nil, by simpa using ht, ?_⟩
    cases k <;> simp
  | @cons g Ls gens Lss hg _ ih =>
    cases hg with
    | @cons b g L Ls _ _ hi hg =>
      obtain ⟨c, s1, e1, p1, o1, t1⟩ := hi.does.2 s hist ht
      obtain ⟨cs, gens', s2, e2, f2, r2, t2, kk⟩ := ih s1 _ t1
      refine ⟨c :: cs, g :: gens', s2, ?_, .cons hg f2, .cons ⟨p1, o1⟩ r2, ?_, ?_⟩
      · simp only [nextAll]
        rw [PyM.bind_ok e1, PyM.bind_ok e2]
        rfl
      · simp only [List.flatMap_cons, List.headD_cons, ← List.append_assoc]
        exact t2
      · cases k with
        | tick =>
          obtain ⟨rfl, rfl⟩ := hi
          have : c = NoiseModel.tick := by
            have : (Blocks.tick s) = (.ok NoiseModel.tick, s) := rfl
            rw [this] at e1
            simp only [Prod.mk.injEq, Except.ok.injEq] at e1
            exact e1.1.symm
          simp only at kk ⊢
          simp only [List.mem_cons, forall_eq_or_imp, List.headD_cons]
          exact ⟨⟨this, kk.1⟩, rfl, kk.2⟩
        | quiet =>
          simp only at kk ⊢
          simp only [List.mem_cons, forall_eq_or_imp, List.headD_cons]
          exact ⟨⟨hi.2.1 _ _ _ e1, kk.1⟩, hi.2.2, kk.2⟩
        | meas sig =>
          simp only at kk ⊢
          simp only [List.mem_cons, forall_eq_or_imp]
          exact ⟨⟨hi.2.1 _ _ _ e1, kk.1⟩, fun _ => hi.2.2.1, hi.2.2.2 _ _ _ e1, kk.2.2⟩

/-! ### classes -/

/-- The class of an operation: the one of its first qubit. -/
def clsOp (cls : Nat → Nat) (op : Op Nat) : Nat := (op.qubits.head?.map cls).getD 0

/-- All qubits of the operation are of class `k`. -/
def OfClass (cls : Nat → Nat) (k : Nat) (op : Op Nat) : Prop :=
  op.acts = true ∧ op.qubits ≠ [] ∧ ∀ q ∈ op.qubits, cls q = k

theorem OfClass.cls {cls : Nat → Nat} {k : Nat} {op : Op Nat} (h : OfClass cls k op) : clsOp cls op = k := by
  unfold clsOp
  cases hq : op.qubits with
  | nil => exact absurd hq h.2.1
  | cons q l => simp [h.2.2 q (by rw [hq]; simp)]

theorem filter_class {cls : Nat → Nat} (LL : List (List (Op Nat))) (k0 : Nat)
    (h : ∀ k L, LL[k]? = some L → ∀ op ∈ L, OfClass cls (k0 + k) op) (k : Nat) :
    LL.flatten.filter (fun op => clsOp cls op = k0 + k) = (LL[k]?).getD [] := by
  induction LL generalizing k0 k with
  | nil => simp
  | cons L LL ih =>
    rw [List.flatten_cons, List.filter_append]
    have h0 : ∀ op ∈ L, clsOp cls op = k0 := fun op ho => (h 0 L (by simp) op ho).cls
    have ih' : ∀ k, LL.flatten.filter (fun op => clsOp cls op = k0 + 1 + k) = (LL[k]?).getD [] := fun k => ih (k0 + 1)
      (fun k' L' hL' op ho => by
        have := h (k' + 1) L' (by simpa using hL') op ho
        rwa [show k0 + (k' + 1) = k0 + 1 + k' by omega] at this) k
    cases k with
    | zero =>
      have e1 : L.filter (fun op => clsOp cls op = k0 + 0) = L := by
        rw [List.filter_eq_self]; intro op ho; simp [h0 op ho]
      have e2 : LL.flatten.filter (fun op => clsOp cls op = k0 + 0) = [] := by
        rw [List.filter_eq_nil_iff]
        intro op ho
        obtain ⟨L', hL', ho'⟩ := List.mem_flatten.1 ho
        obtain ⟨j, hj⟩ := List.mem_iff_getElem?.1 hL'
        have := (h (j + 1) L' (by simpa using hj) op ho').cls
        simp [this]
      rw [e1, e2]; simp
    | succ k =>
      have e1 : L.filter (fun op => clsOp cls op = k0 + (k + 1)) = [] := by
        rw [List.filter_eq_nil_iff]; intro op ho; simp [h0 op ho]
      rw [e1, List.nil_append, show k0 + (k + 1) = k0 + 1 + k by omega, ih' k]
      simp

/-- A list that contains the lists `LL` as sublists and nothing else has them as its classes. -/
theorem filter_of_perm {cls : Nat → Nat} {LL : List (List (Op Nat))} {M : List (Op Nat)}
    (h : ∀ k L, LL[k]? = some L → ∀ op ∈ L, OfClass cls k op) (hp : M.Perm LL.flatten)
    (hs : ∀ L ∈ LL, L.Sublist M) (k : Nat) : M.filter (fun op => clsOp cls op = k) = (LL[k]?).getD [] := by
  have hf := filter_class LL 0 (by simpa using h) k
  simp only [Nat.zero_add] at hf
  have hp' := hp.filter (fun op => clsOp cls op = k)
  rw [hf] at hp'
  cases hk : LL[k]? with
  | none =>
    rw [hk] at hp'
    simpa using hp'.eq_nil
  | some L =>
    rw [hk] at hp'
    simp only [Option.getD_some] at hp' ⊢
    have hsub := (hs L (List.mem_of_getElem? hk)).filter (fun op => clsOp cls op = k)
    have he : L.filter (fun op => clsOp cls op = k) = L := by
      rw [List.filter_eq_self]; intro op ho; simp [(h k L hk op ho).cls]
    rw [he] at hsub
    exact (hsub.eq_of_length hp'.length_eq.symm).symm

/-! ### all steps -/

/-- The labels measured, step after step. -/
def stepsMeasured : List StepKind → List (List (List (Op String))) → List String
  | [], _ => []
  | _ :: ks, Lss => (Lss.flatMap fun Ls => measured (Ls.headD [])) ++ stepsMeasured ks (Lss.map List.tail)

theorem getElem?_forall₂ {α β : Type} {R : α → β → Prop} {l : List α} {m : List β} (h : List.Forall₂ R l m) (k : Nat) :
    (l[k]? = none ∧ m[k]? = none) ∨ ∃ a b, l[k]? = some a ∧ m[k]? = some b ∧ R a b := by
  induction h generalizing k with
  | nil => left; simp
  | cons hR _ ih =>
    cases k with
    | zero => right; exact ⟨_, _, by simp, by simp, hR⟩
    | succ k => simpa using ih k

theorem forall₂_nil {inds : Dict String Nat} {gens : List Gen} {Lss : List (List (List (Op String)))}
    (h : List.Forall₂ (fun g Ls => GenOk inds g Ls []) gens Lss) : ∀ Ls ∈ Lss, Ls = [] := by
  induction h with
  | nil => simp
  | cons hg _ ih =>
    cases hg
    simpa using ih

theorem mergeLoop_ops {inds : Dict String Nat} {cls : Nat → Nat} {ks : List StepKind} :
    ∀ {fuel : Nat} {gens : List Gen} {Lss : List (List (List (Op String)))} {circuit c : Circuit} {s s' : MeasState}
      {hist : List String}, gens ≠ [] → ks.length < fuel →
      List.Forall₂ (fun g Ls => GenOk inds g Ls ks) gens Lss →
      (∀ k Ls, Lss[k]? = some Ls → ∀ op ∈ Ls.flatten, OfClass cls k (op.rename (ind inds))) →
      s.Tracks inds hist → EvenPairs circuit → mergeLoop fuel gens circuit s = (.ok c, s') →
      ∃ M, ops c = ops circuit ++ M ∧ EvenPairs c ∧
        (∀ k : Nat, M.filter (fun op => clsOp cls op = k) = (((Lss[k]?).getD []).flatten).map (Op.rename (ind inds))) ∧
        (∀ op ∈ M, ∃ k, k < Lss.length ∧ OfClass cls k op) ∧
        measured M = (stepsMeasured ks Lss).map (ind inds) ∧ s'.Tracks inds (hist ++ stepsMeasured ks Lss) := by
  induction ks with
  | nil =>
    intro fuel gens Lss circuit c s s' hist hne hf h hcls ht hc hm
    cases fuel with
    | zero => omega
    | succ fuel =>
      cases h with
      | nil => exact absurd rfl hne
      | @cons g Ls gens Lss hg hgs =>
        cases hg
        have : mergeLoop (fuel + 1) ([] :: gens) circuit s = (.ok circuit, s) := rfl
        rw [this] at hm
        simp only [Prod.mk.injEq, Except.ok.injEq] at hm
        obtain ⟨rfl, rfl⟩ := hm
        refine ⟨[], by simp, hc, ?_, by simp, rfl, by simpa [stepsMeasured] using ht⟩
        have hall : ∀ k : Nat, (((([] : List (List (Op String))) :: Lss)[k]?).getD []) = [] := by
          have : ∀ Ls ∈ ([] : List (List (Op String))) :: Lss, Ls = [] := by
            intro Ls hL
            rcases List.mem_cons.1 hL with rfl | hL
            · rfl
            · exact forall₂_nil hgs Ls hL
          intro k
          cases hk : (([] : List (List (Op String))) :: Lss)[k]? with
          | none => rfl
          | some Ls => simpa using this Ls (List.mem_of_getElem? hk)
        intro k
        rw [hall k]; rfl
  | cons k0 ks ih =>
    intro fuel gens Lss circuit c s s' hist hne hf h hcls ht hc hm
    cases fuel with
    | zero => omega
    | succ fuel =>
      obtain ⟨cs, gens', s1, e1, f1, r1, t1, kk⟩ := nextAll_ok h s hist ht
      simp only [mergeLoop] at hm
      rw [PyM.bind_ok e1] at hm
      simp only at hm
      obtain ⟨circuit1, s2, e2, hm2⟩ := PyM.bind_eq_ok hm
      clear hm
      have e2' : mergeStep circuit cs = .ok circuit1 ∧ s2 = s1 := by
        unfold PyM.ofExcept at e2
        cases hms : mergeStep circuit cs with
        | error e => rw [hms] at e2; simp [PyM.raise] at e2
        | ok x => rw [hms] at e2; simp [pure] at e2; exact ⟨by rw [e2.1], e2.2.symm⟩
      obtain ⟨e2', rfl⟩ := e2'
      have hso : StepOk cs := by
        cases k0 with
        | tick => exact .tick kk.1
        | quiet => exact .plain kk.1
        | meas sig => exact .plain kk.1
      have hpe : ∀ c ∈ cs, EvenPairs c := by
        intro c hcc
        obtain ⟨k, hk⟩ := List.mem_iff_getElem?.1 hcc
        rcases getElem?_forall₂ r1 k with ⟨h1, -⟩ | ⟨a, b, h1, -, h3, -⟩
        · rw [hk] at h1; simp at h1
        · rw [hk] at h1; cases h1; exact h3
      obtain ⟨M1, g1, g2, g3, g4, g5⟩ := mergeStep_ops e2' hso hpe hc
      have hLL : ∀ k : Nat, ((cs.map ops)[k]?).getD [] =
          (((Lss[k]?).getD []).headD []).map (Op.rename (ind inds)) := by
        intro k
        rw [List.getElem?_map]
        rcases getElem?_forall₂ r1 k with ⟨h1, h2⟩ | ⟨a, b, h1, h2, -, h4⟩
        · rw [h1, h2]; rfl
        · rw [h1, h2]; simpa using h4
      have hcl1 : ∀ k L, (cs.map ops)[k]? = some L → ∀ op ∈ L, OfClass cls k op := by
        intro k L hL op ho
        have h1 := hLL k
        rw [hL, Option.getD_some] at h1
        rw [h1] at ho
        obtain ⟨op', ho', rfl⟩ := List.mem_map.1 ho
        cases hk : Lss[k]? with
        | none => rw [hk] at ho'; simp at ho'
        | some Ls =>
          rw [hk, Option.getD_some] at ho'
          refine hcls k Ls hk op' ?_
          cases Ls with
          | nil => simp at ho'
          | cons A Ls => simp only [List.headD_cons] at ho'; simp [ho']
      have hfl : (cs.map ops).flatten = cs.flatMap ops := List.flatMap_def.symm
      have hM1 := filter_of_perm hcl1 (M := M1) (by rw [hfl]; exact g3) (by
        intro L hL
        obtain ⟨c, hcc, rfl⟩ := List.mem_map.1 hL
        exact g4 c hcc)
      have hms1 : measured M1 = (Lss.flatMap fun Ls => measured (Ls.headD [])).map (ind inds) := by
        have hmo : cs.flatMap measOrder = (Lss.flatMap fun Ls => measured (Ls.headD [])).map (ind inds) := by
          clear g5 g4 g3 hM1 hfl hLL hcl1 hpe hso kk t1 f1 e1 e2 e2' hm2 hcls h
          induction r1 with
          | nil => rfl
          | cons hR _ ih' =>
            rw [List.flatMap_cons, List.flatMap_cons, List.map_append, ih', measOrder_ops, hR.2, measured_rename]
        have hquiet : (∀ Ls ∈ Lss, measured (Ls.headD []) = []) →
            measured M1 = (Lss.flatMap fun Ls => measured (Ls.headD [])).map (ind inds) := by
          intro hq
          have hnil : (Lss.flatMap fun Ls => measured (Ls.headD [])) = [] := List.flatMap_eq_nil_iff.2 hq
          rw [hnil] at hmo ⊢
          have hp : (measured M1).Perm (measured (cs.flatMap ops)) := g3.filterMap _
          have : measured (cs.flatMap ops) = cs.flatMap measOrder := by
            unfold measured
            rw [List.filterMap_flatMap]
            exact List.flatMap_congr fun c _ => (measOrder_ops c).symm
          rw [this, hmo] at hp
          exact hp.eq_nil
        cases k0 with
        | tick => exact hquiet kk.2
        | quiet => exact hquiet kk.2
        | meas sig =>
          rw [← hmo]
          refine g5 sig (kk.2.1 ?_) fun b hb _ => kk.2.2 b hb
          rintro rfl
          cases h
          exact hne rfl
      have hne' : gens' ≠ [] := by
        rintro rfl
        have := f1.length_eq
        have h2 := h.length_eq
        simp only [List.length_nil, List.length_map] at this
        rw [← this] at h2
        exact hne (List.length_eq_zero_iff.1 h2)
      obtain ⟨M2, i1, i2, i3, i4, i5, i6⟩ := ih hne' (by simpa using hf) f1 (by
        intro k Ls hk op ho
        rw [List.getElem?_map] at hk
        cases hk' : Lss[k]? with
        | none => rw [hk'] at hk; simp at hk
        | some Ls' =>
          rw [hk', Option.map_some, Option.some.injEq] at hk
          refine hcls k Ls' hk' op ?_
          subst hk
          cases Ls' with
          | nil => simp at ho
          | cons A Ls' => simp only [List.tail_cons] at ho; rw [List.flatten_cons]; exact List.mem_append_right _ ho)
        t1 g2 hm2
      refine ⟨M1 ++ M2, by rw [i1, g1, List.append_assoc], i2, ?_, ?_, ?_, ?_⟩
      · intro k
        rw [List.filter_append, hM1 k, hLL k, i3 k, List.getElem?_map, ← List.map_append]
        congr 1
        cases Lss[k]? with
        | none => rfl
        | some Ls => cases Ls <;> simp
      · intro op ho
        rcases List.mem_append.1 ho with ho | ho
        · have := g3.mem_iff.1 ho
          rw [← hfl] at this
          obtain ⟨L, hL, ho'⟩ := List.mem_flatten.1 this
          obtain ⟨k, hk⟩ := List.mem_iff_getElem?.1 hL
          refine ⟨k, ?_, hcl1 k L hk op ho'⟩
          have := (List.getElem?_eq_some_iff.1 hk).1
          rw [List.length_map, r1.length_eq] at this
          exact this
        · obtain ⟨k, h1, h2⟩ := i4 op ho
          exact ⟨k, by simpa using h1, h2⟩
      · rw [measured_append, hms1, i5, stepsMeasured, List.map_append]
      · rw [stepsMeasured, ← List.append_assoc]; exact i6

theorem Item.measured_nil {inds : Dict String Nat} {b : Call1} {L : List (Op String)} {k : StepKind}
    (h : Item inds b L k) (hk : ∀ g, k ≠ .meas g) : measured L = [] := by
  cases k with
  | tick => rw [h.2]; rfl
  | quiet => exact h.2.2
  | meas sig => exact absurd rfl (hk sig)

/-- At most one of the steps measures. -/
def OneMeas (ks : List StepKind) : Prop :=
  ∃ pre post sig, ks = pre ++ .meas sig :: post ∧ (∀ k ∈ pre, ∀ g, k ≠ .meas g) ∧ ∀ k ∈ post, ∀ g, k ≠ .meas g

theorem GenOk.measured_nil {inds : Dict String Nat} {g : Gen} {Ls : List (List (Op String))} {ks : List StepKind}
    (h : GenOk inds g Ls ks) (hk : ∀ k ∈ ks, ∀ g, k ≠ .meas g) : measured Ls.flatten = [] := by
  induction h with
  | nil => rfl
  | @cons b g L Ls k ks hi _ ih =>
    rw [List.flatten_cons, measured_append, ih fun k' hk' => hk k' (by simp [hk'])]
    cases k with
    | tick => rw [hi.2]; rfl
    | quiet => rw [hi.2.2]; rfl
    | meas sig => exact absurd rfl (hk (.meas sig) (by simp) sig)

theorem flatMap_nil_of_forall₂ {α β γ : Type} {R : α → β → Prop} {l : List α} {m : List β} (h : List.Forall₂ R l m)
    (f : β → List γ) (hf : ∀ a b, R a b → f b = []) : m.flatMap f = [] := by
  induction h with
  | nil => rfl
  | cons hR _ ih => rw [List.flatMap_cons, ih, hf _ _ hR]; rfl

theorem forall₂_tail {inds : Dict String Nat} {gens : List Gen} {Lss : List (List (List (Op String)))} {k : StepKind}
    {ks : List StepKind} (h : List.Forall₂ (fun g Ls => GenOk inds g Ls (k :: ks)) gens Lss) :
    List.Forall₂ (fun g Ls => GenOk inds g Ls ks) (gens.map List.tail) (Lss.map List.tail) := by
  induction h with
  | nil => exact .nil
  | cons hR _ ih => cases hR with | cons _ hg => exact .cons hg ih

theorem stepsMeasured_nil {inds : Dict String Nat} {ks : List StepKind} {gens : List Gen}
    {Lss : List (List (List (Op String)))} (h : List.Forall₂ (fun g Ls => GenOk inds g Ls ks) gens Lss)
    (hk : ∀ k ∈ ks, ∀ g, k ≠ .meas g) : stepsMeasured ks Lss = [] := by
  induction ks generalizing gens Lss with
  | nil => rfl
  | cons k ks ih =>
    rw [stepsMeasured, ih (forall₂_tail h) fun k' hk' => hk k' (by simp [hk']), List.append_nil]
    refine flatMap_nil_of_forall₂ h _ fun g Ls hg => ?_
    have := hg.measured_nil hk
    cases hg with
    | cons _ _ =>
      rw [List.flatten_cons, measured_append, List.append_eq_nil_iff] at this
      exact this.1

theorem stepsMeasured_one {inds : Dict String Nat} {ks : List StepKind} {gens : List Gen}
    {Lss : List (List (List (Op String)))} (h : List.Forall₂ (fun g Ls => GenOk inds g Ls ks) gens Lss)
    (hk : OneMeas ks) : stepsMeasured ks Lss = Lss.flatMap fun Ls => measured Ls.flatten := by
  obtain ⟨pre, post, sig, rfl, h1, h2⟩ := hk
  induction pre generalizing gens Lss with
  | nil =>
    rw [List.nil_append] at h ⊢
    rw [stepsMeasured, stepsMeasured_nil (forall₂_tail h) h2, List.append_nil]
    clear h1
    induction h with
    | nil => rfl
    | cons hg _ ih =>
      rw [List.flatMap_cons, List.flatMap_cons, ih]
      congr 1
      cases hg with
      | cons _ hg => rw [List.flatten_cons, measured_append, hg.measured_nil h2, List.append_nil]; rfl
  | cons k pre ih =>
    rw [List.cons_append, stepsMeasured, ih (forall₂_tail h) fun k' hk' => h1 k' (by simp [hk'])]
    have hnil : (Lss.flatMap fun Ls => measured (Ls.headD [])) = [] := by
      refine flatMap_nil_of_forall₂ h _ fun g Ls hg => ?_
      cases hg with
      | cons hi _ =>
        simp only [List.headD_cons]
        cases k with
        | tick => rw [hi.2]; rfl
        | quiet => exact hi.2.2
        | meas sig => exact absurd rfl (h1 (.meas sig) (by simp) sig)
    rw [hnil, List.nil_append, List.flatMap_map]
    clear hnil ih
    induction h with
    | nil => rfl
    | cons hg _ ih =>
      rw [List.flatMap_cons, List.flatMap_cons, ih]
      congr 1
      cases hg with
      | cons hi _ =>
        rw [List.tail_cons, List.flatten_cons, measured_append]
        rw [hi.measured_nil (h1 k (by simp)), List.nil_append]

theorem flatMap_range_getD {α β : Type} (L : List α) (f : α → List β) (d : α) :
    ((List.range L.length).flatMap fun k => f ((L[k]?).getD d)) = L.flatMap f := by
  induction L with
  | nil => rfl
  | cons a L ih =>
    rw [List.length_cons, List.range_succ_eq_map, List.flatMap_cons, List.flatMap_map, List.flatMap_cons, ← ih]
    simp

theorem sorted_classes {cls : Nat → Nat} (LL : List (List Nat)) (k0 : Nat)
    (h : ∀ k L, LL[k]? = some L → ∀ q ∈ L, cls q = k0 + k) : LL.flatten.Pairwise fun q q' => cls q ≤ cls q' := by
  induction LL generalizing k0 with
  | nil => simp
  | cons L LL ih =>
    rw [List.flatten_cons, List.pairwise_append]
    refine ⟨?_, ih (k0 + 1) fun k L' hL' q hq => ?_, ?_⟩
    · refine List.pairwise_iff_forall_sublist.2 fun {a b} hab => ?_
      have ha := h 0 L (by simp) a (hab.subset (by simp))
      have hb := h 0 L (by simp) b (hab.subset (by simp))
      omega
    · have := h (k + 1) L' (by simpa using hL') q hq
      omega
    · intro a ha b hb
      obtain ⟨L', hL', hb'⟩ := List.mem_flatten.1 hb
      obtain ⟨j, hj⟩ := List.mem_iff_getElem?.1 hL'
      have h1 := h 0 L (by simp) a ha
      have h2 := h (j + 1) L' (by simpa using hj) b hb'
      omega

theorem mem_of_opMeas {Q : Type} {op : Op Q} {q : Q} (h : opMeas op = some q) : q ∈ op.qubits := by
  cases op <;> simp at h <;> simp [Op.qubits, h]

/-- The merged circuit does what the circuits of the layouts do one after the other, and measures in that order. -/
theorem mergeGens_shuf {inds : Dict String Nat} {cls : Nat → Nat} {ks : List StepKind} {gens : List Gen}
    {Lss : List (List (List (Op String)))} {c : Circuit} {s s' : MeasState} {hist : List String}
    (h : List.Forall₂ (fun g Ls => GenOk inds g Ls ks) gens Lss) (hone : OneMeas ks)
    (hcls : ∀ k Ls, Lss[k]? = some Ls → ∀ op ∈ Ls.flatten, OfClass cls k (op.rename (ind inds)))
    (ht : s.Tracks inds hist) (hm : mergeGens gens s = (.ok c, s')) :
    (EvenPairs c ∧ ∀ op ∈ ops c, ∃ Ls ∈ Lss, op ∈ Ls.flatten.map (Op.rename (ind inds))) ∧
      Shuf (ops c) (Lss.flatMap fun Ls => Ls.flatten.map (Op.rename (ind inds))) ∧
      measured (ops c) = (Lss.flatMap fun Ls => measured Ls.flatten).map (ind inds) ∧
      s'.Tracks inds (hist ++ Lss.flatMap fun Ls => measured Ls.flatten) := by
  cases gens with
  | nil =>
    cases h
    have : mergeGens [] s = (.ok [], s) := rfl
    rw [this] at hm
    simp only [Prod.mk.injEq, Except.ok.injEq] at hm
    obtain ⟨rfl, rfl⟩ := hm
    exact ⟨⟨evenPairs_nil, by simp [ops]⟩, Shuf.refl _, rfl, by simpa using ht⟩
  | cons g gens =>
    have hlen : g.length = ks.length := by
      cases h with
      | cons hg _ =>
        exact hg.length
    obtain ⟨M, h1, h2, h3, h4, h5, h6⟩ := mergeLoop_ops (by simp) (by omega) h hcls ht evenPairs_nil hm
    have h1' : ops c = M := by rw [h1]; rfl
    rw [stepsMeasured_one h hone] at h5 h6
    refine ⟨⟨h2, fun op ho => ?_⟩, ?_, by rw [h1', h5], h6⟩
    · rw [h1'] at ho
      obtain ⟨k, k1, k2⟩ := h4 op ho
      have : op ∈ M.filter (fun op => clsOp cls op = k) := List.mem_filter.2 ⟨ho, decide_eq_true k2.cls⟩
      rw [h3 k, List.getElem?_eq_getElem k1, Option.getD_some] at this
      exact ⟨_, List.getElem_mem k1, this⟩
    rw [h1']
    have hsort := Shuf.sort (clsOp cls) Lss.length M
      (fun a ha => by obtain ⟨k, k1, k2⟩ := h4 a ha; rw [k2.cls]; exact k1)
      (fun a ha b hb hne q hq hq' => by
        obtain ⟨k, -, k2⟩ := h4 a ha
        obtain ⟨k', -, k2'⟩ := h4 b hb
        rw [k2.cls, k2'.cls] at hne
        exact hne ((k2.2.2 q hq).symm.trans (k2'.2.2 q hq')))
      (fun a ha => by obtain ⟨k, -, k2⟩ := h4 a ha; exact k2.1) ?_
    · refine hsort.trans ?_
      have : ((List.range Lss.length).flatMap fun k => M.filter fun a => clsOp cls a = k) =
          Lss.flatMap fun Ls => Ls.flatten.map (Op.rename (ind inds)) := by
        rw [List.flatMap_congr fun k _ => h3 k]
        exact flatMap_range_getD Lss (fun Ls => Ls.flatten.map (Op.rename (ind inds))) []
      rw [this]
      exact Shuf.refl _
    · have hp : (measured M).Pairwise fun q q' => cls q ≤ cls q' := by
        rw [h5, List.map_flatMap, List.flatMap_def]
        refine sorted_classes _ 0 fun k L hL q hq => ?_
        rw [List.getElem?_map] at hL
        cases hk : Lss[k]? with
        | none => rw [hk] at hL; simp at hL
        | some Ls =>
          rw [hk, Option.map_some, Option.some.injEq] at hL
          subst hL
          rw [← measured_rename] at hq
          unfold measured at hq
          obtain ⟨op, ho, hoq⟩ := List.mem_filterMap.1 hq
          obtain ⟨op', ho', rfl⟩ := List.mem_map.1 ho
          rw [Nat.zero_add]
          exact (hcls k Ls hk op' ho').2.2 q (mem_of_opMeas hoq)
      unfold measured at hp
      rw [List.pairwise_filterMap] at hp
      refine hp.imp_of_mem fun {a b} ha hb hab m1 m2 => ?_
      obtain ⟨k, -, k2⟩ := h4 a ha
      obtain ⟨k', -, k2'⟩ := h4 b hb
      obtain ⟨q, hq⟩ := Option.ne_none_iff_exists'.1 m1
      obtain ⟨q', hq'⟩ := Option.ne_none_iff_exists'.1 m2
      have := hab q hq q' hq'
      rw [k2.cls, k2'.cls, ← k2.2.2 q (mem_of_opMeas hq), ← k2'.2.2 q' (mem_of_opMeas hq')]
      exact this

end SurfaceSim
