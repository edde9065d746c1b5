/-
Two-qubit channels follow their gates in all blocks.
-/
import Verif.Lemmas.NoiseFaults

namespace SurfaceSim
open Spec NoiseModel Blocks Experiments LayoutLib

/-! ### circuits -/

/-- The pairs with a two-qubit gate since the last TICK. -/
def coupled : List (Nat × Nat) → Circuit → List (Nat × Nat)
  | S, [] => S
  | S, i :: c =>
    if i.gate = .TICK then coupled [] c
    else if i.gate ∈ [.CZ, .CX, .SWAP] then coupled (pairs i.qubits ++ S) c
    else coupled S c

theorem follows_cons (S : List (Nat × Nat)) (i : Instr) (c : Circuit) : Follows S (i :: c) = (
    if i.gate = .TICK then Follows [] c
    else if i.gate ∈ [.DEPOLARIZE2, .PAULI_CHANNEL_2] then (∀ p ∈ pairs i.qubits, p ∈ S) ∧ Follows S c
    else if i.gate ∈ [.CZ, .CX, .SWAP] then Follows (pairs i.qubits ++ S) c
    else i.gate ∉ [.MX, .MY] ∧ Follows S c) := rfl

theorem coupled_cons (S : List (Nat × Nat)) (i : Instr) (c : Circuit) : coupled S (i :: c) =
    if i.gate = .TICK then coupled [] c
    else if i.gate ∈ [.CZ, .CX, .SWAP] then coupled (pairs i.qubits ++ S) c
    else coupled S c := rfl

theorem follows_mono {S T : List (Nat × Nat)} {c : Circuit} (h : Follows S c) (hs : ∀ p ∈ S, p ∈ T) : Follows T c := by
  induction c generalizing S T with
  | nil => trivial
  | cons i c ih =>
    unfold Follows at h ⊢
    split
    · rename_i ht; rw [if_pos ht] at h; exact h
    · rename_i ht
      rw [if_neg ht] at h
      split
      · rename_i h2; rw [if_pos h2] at h; exact ⟨fun p hp => hs p (h.1 p hp), ih h.2 hs⟩
      · rename_i h2
        rw [if_neg h2] at h
        split
        · rename_i h3
          rw [if_pos h3] at h
          refine ih h fun p hp => ?_
          rcases List.mem_append.1 hp with hp | hp
          · exact List.mem_append_left _ hp
          · exact List.mem_append_right _ (hs p hp)
        · rename_i h3
          rw [if_neg h3] at h
          exact ⟨h.1, ih h.2 hs⟩

theorem follows_append {S : List (Nat × Nat)} {a b : Circuit} : Follows S (a ++ b) ↔ Follows S a ∧ Follows (coupled S a) b := by
  induction a generalizing S with
  | nil => simp [Follows, coupled]
  | cons i a ih =>
    rw [List.cons_append, follows_cons, follows_cons, coupled_cons]
    by_cases ht : i.gate = .TICK
    · simp only [ht, if_true]; exact ih
    · simp only [if_neg ht]
      by_cases h2 : i.gate ∈ [Gate.DEPOLARIZE2, .PAULI_CHANNEL_2]
      · have h3 : i.gate ∉ [Gate.CZ, .CX, .SWAP] := by
          revert h2; cases i.gate <;> decide
        simp only [if_pos h2, if_neg h3, ih, and_assoc]
      · simp only [if_neg h2]
        by_cases h3 : i.gate ∈ [Gate.CZ, .CX, .SWAP]
        · simp only [if_pos h3]; exact ih
        · simp only [if_neg h3, ih, and_assoc]

/-- Two instructions in one. -/
theorem follows_fuse {S : List (Nat × Nat)} {g : Gate} {a b : List Target} {args : List Arg} (hg : g.notFusable = false)
    (ha : g.isTwoQubit = true → (Instr.mk g a args).qubits.length % 2 = 0)
    (hb : g.isTwoQubit = true → (Instr.mk g b args).qubits.length % 2 = 0) :
    Follows S [⟨g, a ++ b, args⟩] ↔ Follows S [⟨g, a, args⟩, ⟨g, b, args⟩] := by
  have ht : g ≠ .TICK := by rintro rfl; simp [Gate.notFusable] at hg
  simp only [follows_cons, if_neg ht]
  by_cases h2 : g ∈ [Gate.DEPOLARIZE2, .PAULI_CHANNEL_2]
  · have h22 : g.isTwoQubit = true := by revert h2; cases g <;> decide
    simp only [if_pos h2]
    rw [Instr.qubits_mk_append, pairs_append _ _ (ha h22) (hb h22)]
    simp only [List.mem_append, Follows, and_true]
    exact ⟨fun h => ⟨fun p hp => h p (.inl hp), fun p hp => h p (.inr hp)⟩, fun h p hp => hp.elim (h.1 p) (h.2 p)⟩
  · simp only [if_neg h2]
    by_cases h3 : g ∈ [Gate.CZ, .CX, .SWAP]
    · simp only [if_pos h3, Follows]
    · simp only [if_neg h3, Follows, and_true, and_self]

theorem follows_circuit_append {S : List (Nat × Nat)} {c : Circuit} {i : Instr} (hc : EvenPairs c)
    (hi : i.gate.isTwoQubit = true → i.qubits.length % 2 = 0) :
    Follows S (Circuit.append c i) ↔ Follows S (c ++ [i]) := by
  unfold Circuit.append
  cases h : c.getLast? with
  | none =>
    have : c = [] := by simpa using h
    subst this
    simp
  | some l =>
    simp only
    have hce : c = c.dropLast ++ [l] := (List.dropLast_append_getLast? l h).symm
    split
    · rename_i hf
      obtain ⟨h1, h2, h3⟩ := hf
      have hl := hc l (by rw [hce]; simp)
      obtain ⟨g, t, a⟩ := l
      obtain ⟨g', t', a'⟩ := i
      simp only at h1 h2 h3 hi hl
      subst h1 h2
      conv_rhs => rw [hce]
      rw [List.append_assoc, follows_append, follows_append]
      rw [show [Instr.mk g t a] ++ [Instr.mk g t' a] = [⟨g, t, a⟩, ⟨g, t', a⟩] from rfl, follows_fuse h3 hl hi]
    · exact Iff.rfl

/-- Circuits whose channels follow their gates. -/
def Local (c : Circuit) : Prop := EvenPairs c ∧ Follows [] c

theorem local_concat {a b : Circuit} (ha : Local a) (hb : Local b) : Local (a.concat b) := by
  refine ⟨(ops_concat ha.1 hb.1).2, ?_⟩
  cases b with
  | nil => exact ha.2
  | cons i r =>
    show Follows [] (Circuit.append a i ++ r)
    have hi := hb.1 i (by simp)
    have h2 : Follows [] (a ++ ([i] ++ r)) := follows_append.2 ⟨ha.2, follows_mono hb.2 (by simp)⟩
    rw [← List.append_assoc, follows_append] at h2
    -- only the instructions matter
    have h3 : Follows [] (Circuit.append a i) := (follows_circuit_append ha.1 hi).2 h2.1
    rw [follows_append]
    refine ⟨h3, follows_mono h2.2 ?_⟩
    clear h2 h3
    unfold Circuit.append
    cases h : a.getLast? with
    | none =>
      have : a = [] := by simpa using h
      subst this
      simp
    | some l =>
      simp only
      have hce : a = a.dropLast ++ [l] := (List.dropLast_append_getLast? l h).symm
      split
      · rename_i hf
        obtain ⟨h1, h2, h3⟩ := hf
        have hl := ha.1 l (by rw [hce]; simp)
        obtain ⟨g, t, x⟩ := l
        obtain ⟨g', t', x'⟩ := i
        simp only at h1 h2 h3 hi hl
        subst h1 h2
        have happ : ∀ (S : List (Nat × Nat)) (u v : Circuit), coupled S (u ++ v) = coupled (coupled S u) v := by
          intro S u
          induction u generalizing S with
          | nil => intro v; rfl
          | cons j u ih =>
            intro v
            rw [List.cons_append]
            simp only [coupled]
            split
            · exact ih _ _
            · split <;> exact ih _ _
        have e1 : coupled [] (a ++ [⟨g, t', x⟩]) = coupled (coupled [] a.dropLast) [⟨g, t, x⟩, ⟨g, t', x⟩] := by
          conv_lhs => rw [hce]
          rw [List.append_assoc, happ]
          rfl
        rw [e1, happ]
        generalize coupled [] a.dropLast = S
        have ht : g ≠ .TICK := by rintro rfl; simp [Gate.notFusable] at h3
        by_cases h4 : g ∈ [Gate.CZ, .CX, .SWAP]
        · have h22 : g.isTwoQubit = true := by revert h4; cases g <;> decide
          simp only [coupled, if_neg ht, if_pos h4]
          rw [Instr.qubits_mk_append, pairs_append _ _ (hl h22) (hi h22)]
          intro p hp
          simp only [List.mem_append] at hp ⊢
          tauto
        · simp only [coupled, if_neg ht, if_neg h4]
          exact fun p hp => hp
      · exact fun p hp => hp

/-- Instructions that are no two-qubit channels. -/
theorem follows_of {S : List (Nat × Nat)} {c : Circuit} (h : ∀ i ∈ c, i.gate ∉ [Gate.DEPOLARIZE2, .PAULI_CHANNEL_2, .MX, .MY]) :
    Follows S c := by
  induction c generalizing S with
  | nil => trivial
  | cons i c ih =>
    have hi := h i (by simp)
    have hc : ∀ S, Follows S c := fun S => ih fun j hj => h j (by simp [hj])
    have h2 : i.gate ∉ [Gate.DEPOLARIZE2, .PAULI_CHANNEL_2] := by revert hi; cases i.gate <;> decide
    have h3 : i.gate ∉ [Gate.MX, .MY] := by revert hi; cases i.gate <;> decide
    unfold Follows
    rw [if_neg h2]
    split
    · exact hc _
    · split
      · exact hc _
      · exact ⟨h3, hc _⟩

theorem local_marks {c : Circuit} (h : ∀ i ∈ c, i.gate ∈ [Gate.TICK, .QUBIT_COORDS, .DETECTOR, .OBSERVABLE_INCLUDE]) : Local c := by
  constructor
  · intro i hi ht
    have h1 := h i hi
    have : ∀ g ∈ [Gate.TICK, .QUBIT_COORDS, .DETECTOR, .OBSERVABLE_INCLUDE], g.isTwoQubit = false := by decide
    rw [this _ h1] at ht
    cases ht
  · refine follows_of fun i hi => ?_
    have := h i hi
    revert this
    cases i.gate <;> decide

/-! ### blocks -/

/-- Whatever the block returns is local. -/
def IsLocal {σ : Type} (b : PyM σ Circuit) : Prop := ∀ s c s', b s = (.ok c, s') → Local c

theorem isLocal_raise {σ : Type} (e : Err) : IsLocal (PyM.raise e : PyM σ Circuit) := by
  intro s c s' h; simp [PyM.raise] at h

theorem isLocal_pure {σ : Type} {c : Circuit} (hc : Local c) : IsLocal (pure c : PyM σ Circuit) := by
  intro s c' s' h
  simp only [pure, PyM.pure, Prod.mk.injEq, Except.ok.injEq] at h
  rw [← h.1]; exact hc

theorem isLocal_bind {σ α : Type} {m : PyM σ α} {f : α → PyM σ Circuit} (hf : ∀ a, IsLocal (f a)) : IsLocal (m >>= f) := by
  intro s c s' h
  obtain ⟨a, s1, -, h⟩ := PyM.bind_eq_ok h
  exact hf a _ _ _ h

theorem isLocal_then {σ : Type} {m : PyM σ Circuit} {f : Circuit → PyM σ Circuit} (hm : IsLocal m)
    (hf : ∀ a, Local a → IsLocal (f a)) : IsLocal (m >>= f) := by
  intro s c s' h
  obtain ⟨a, s1, h1, h⟩ := PyM.bind_eq_ok h
  exact hf a (hm _ _ _ h1) _ _ _ h

theorem isLocal_ite {σ : Type} {p : Prop} [Decidable p] {a b : PyM σ Circuit} (ha : IsLocal a) (hb : IsLocal b) :
    IsLocal (if p then a else b) := by
  split
  · exact ha
  · exact hb

theorem local_nil : Local [] := local_marks (by simp)

theorem isLocal_plus {a b : Call1} (ha : IsLocal a) (hb : IsLocal b) : IsLocal (plus a b) :=
  isLocal_then ha fun _ h1 => isLocal_then hb fun _ h2 => isLocal_pure (local_concat h1 h2)

theorem isLocal_tick : IsLocal Blocks.tick := isLocal_pure (local_marks (by simp [NoiseModel.tick]))

theorem isLocal_sumFrom {g : Gen} (h : ∀ b ∈ g, IsLocal b) {acc : Circuit} (ha : Local acc) : IsLocal (sumFrom acc g) := by
  induction g generalizing acc with
  | nil => exact isLocal_pure ha
  | cons b g ih =>
    exact isLocal_then (h b (by simp)) fun c hc => ih (fun b hb => h b (by simp [hb])) (local_concat ha hc)

theorem isLocal_sumGen {g : Gen} (h : ∀ b ∈ g, IsLocal b) : IsLocal (sumGen g) := isLocal_sumFrom h local_nil

theorem isLocal_onModel {cfg : Detectors.Config} {b : Call1} (h : IsLocal b) : IsLocal (onModel (cfg := cfg) b) := by
  intro s c s' he
  unfold onModel at he
  cases hb : b s.1 with
  | mk r s1 =>
    rw [hb] at he
    simp only [Prod.mk.injEq] at he
    exact h s.1 c s1 (by rw [hb, he.1])

theorem mem_withE {α : Type} {e : Except Err α} {f : α → Gen} (h : ∀ a, ∀ b ∈ f a, IsLocal b) : ∀ b ∈ withE e f, IsLocal b := by
  unfold withE
  split
  · intro b hb
    rw [List.mem_singleton] at hb
    subst hb
    exact isLocal_raise _
  · exact h _

/-- The generators consist of local blocks. -/
def GenLocal (g : Gen) : Prop := ∀ b ∈ g, IsLocal b

theorem genLocal_append {a b : Gen} (ha : GenLocal a) (hb : GenLocal b) : GenLocal (a ++ b) := by
  intro x hx
  rcases List.mem_append.1 hx with h | h
  · exact ha x h
  · exact hb x h

theorem genLocal_nil : GenLocal [] := by simp [GenLocal]

theorem genLocal_cons {b : Call1} {g : Gen} (hb : IsLocal b) (hg : GenLocal g) : GenLocal (b :: g) := by
  intro x hx
  rcases List.mem_cons.1 hx with rfl | h
  · exact hb
  · exact hg x h

theorem genLocal_flatMap {α : Type} {l : List α} {f : α → Gen} (h : ∀ a ∈ l, GenLocal (f a)) : GenLocal (l.flatMap f) := by
  intro x hx
  obtain ⟨a, ha, hx⟩ := List.mem_flatMap.1 hx
  exact h a ha x hx

theorem genLocal_if {p : Prop} [Decidable p] {a b : Gen} (ha : GenLocal a) (hb : GenLocal b) : GenLocal (if p then a else b) := by
  split
  · exact ha
  · exact hb

/-- Methods that give local circuits. -/
structure LocalModel (nm : NoiseModel) : Prop where
  all : ∀ f ∈ [nm.xGate, nm.zGate, nm.hadamard, nm.sGate, nm.sDagGate, nm.cphase, nm.cnot, nm.swap,
    nm.measure, nm.reset, nm.idle, nm.incomingNoise], ∀ qs, IsLocal (f qs)

theorem localModel_of {nm : NoiseModel} (hf : Faithful nm) (hl : LocalNoise nm) : LocalModel nm where
  all f hm qs s c s' h := ⟨hf.paired f hm qs s c s' h, hl f hm qs s c s' h⟩

section
variable {nm : NoiseModel} (hn : LocalModel nm)
include hn

theorem LocalModel.x (qs : List String) : IsLocal (nm.xGate qs) := hn.all _ (by simp) qs
theorem LocalModel.h (qs : List String) : IsLocal (nm.hadamard qs) := hn.all _ (by simp) qs
theorem LocalModel.cz (qs : List String) : IsLocal (nm.cphase qs) := hn.all _ (by simp) qs
theorem LocalModel.m (qs : List String) : IsLocal (nm.measure qs) := hn.all _ (by simp) qs
theorem LocalModel.r (qs : List String) : IsLocal (nm.reset qs) := hn.all _ (by simp) qs
theorem LocalModel.i (qs : List String) : IsLocal (nm.idle qs) := hn.all _ (by simp) qs
theorem LocalModel.inc (qs : List String) : IsLocal (nm.incomingNoise qs) := hn.all _ (by simp) qs

theorem LocalModel.rotLayer (o : SetOrder) (qs rot : List String) : IsLocal (Blocks.rotLayer o nm qs rot) :=
  isLocal_plus (hn.h _) (hn.i _)

theorem LocalModel.czLoop (l : Layout) (k : Nat) (sts : List String) {c : Circuit} (acc : List String) (hc : Local c)
    {s s' : MeasState} {r : Circuit × List String} (h : Blocks.czLoop nm l k sts c acc s = (.ok r, s')) : Local r.1 := by
  induction sts generalizing c acc s with
  | nil =>
    simp only [Blocks.czLoop, pure, PyM.pure, Prod.mk.injEq, Except.ok.injEq] at h
    rw [← h.1]; exact hc
  | cons st sts ih =>
    unfold Blocks.czLoop at h
    obtain ⟨_, s1, -, h⟩ := PyM.bind_eq_ok h
    obtain ⟨_, s2, -, h⟩ := PyM.bind_eq_ok h
    obtain ⟨cz, s3, h3, h⟩ := PyM.bind_eq_ok h
    exact ih _ (local_concat hc (hn.cz _ _ _ _ h3)) h

theorem LocalModel.czLayer (o : SetOrder) (l : Layout) (qs : List String) (k : Nat) : IsLocal (Blocks.czLayer o nm l qs k) := by
  intro s c s' h
  unfold Blocks.czLayer at h
  obtain ⟨r, s1, h1, h⟩ := PyM.bind_eq_ok h
  have hr := hn.czLoop l k _ _ local_nil h1
  exact isLocal_then (hn.i _) (fun _ h2 => isLocal_pure (local_concat hr h2)) _ _ _ h

theorem LocalModel.cssRot (o : SetOrder) (l : Layout) (qs anc x : List String) : IsLocal (Blocks.cssRot o nm l qs anc x) :=
  isLocal_bind fun _ => hn.rotLayer _ _ _

theorem LocalModel.roundHead (data anc : List String) (reset : Bool) : GenLocal (Blocks.roundHead nm data anc reset) := by
  unfold Blocks.roundHead
  refine genLocal_append (genLocal_cons (hn.inc _) (genLocal_cons isLocal_tick genLocal_nil)) (genLocal_if ?_ genLocal_nil)
  exact genLocal_cons (isLocal_plus (hn.r _) (hn.i _)) (genLocal_cons isLocal_tick genLocal_nil)

theorem LocalModel.cssIter (code : String) (o : SetOrder) (l : Layout) (reset : Bool) :
    GenLocal (Blocks.cssIter code o nm l reset) := by
  unfold Blocks.cssIter
  refine genLocal_if (genLocal_cons (isLocal_raise _) genLocal_nil) ?_
  refine mem_withE fun data => mem_withE fun anc => mem_withE fun x => genLocal_append (hn.roundHead _ _ _) ?_
  have t := isLocal_tick
  have hh : ∀ a b, IsLocal (plus (nm.hadamard a) (nm.idle b)) := fun a b => isLocal_plus (hn.h _) (hn.i _)
  exact genLocal_cons (hn.cssRot _ _ _ _ _) <| genLocal_cons t <| genLocal_cons (hn.czLayer _ _ _ _) <| genLocal_cons t <|
    genLocal_cons (hh _ _) <| genLocal_cons t <| genLocal_cons (hn.czLayer _ _ _ _) <| genLocal_cons t <|
    genLocal_cons (hn.czLayer _ _ _ _) <| genLocal_cons t <| genLocal_cons (hh _ _) <| genLocal_cons t <|
    genLocal_cons (hn.czLayer _ _ _ _) <| genLocal_cons t <| genLocal_cons (hn.cssRot _ _ _ _ _) <| genLocal_cons t <|
    genLocal_cons (isLocal_plus (hn.m _) (hn.i _)) <| genLocal_cons t genLocal_nil

theorem LocalModel.pipeIter (o : SetOrder) (l : Layout) (reset : Bool)
    (rotOf : List String → String → List String → List String) : GenLocal (Blocks.pipeIter o nm l reset rotOf) := by
  have t := isLocal_tick
  unfold Blocks.pipeIter
  refine genLocal_if (genLocal_cons (isLocal_raise _) genLocal_nil) ?_
  refine mem_withE fun data => mem_withE fun anc => genLocal_append (genLocal_append (hn.roundHead _ _ _) ?_) ?_
  · refine genLocal_flatMap fun sti _ => ?_
    unfold Blocks.pipeBody
    refine mem_withE fun stabs => genLocal_append (genLocal_if (genLocal_cons (hn.rotLayer _ _ _) (genLocal_cons t genLocal_nil))
      genLocal_nil) (mem_withE fun dirs => genLocal_append (genLocal_flatMap fun dir _ => ?_) ?_)
    · exact genLocal_cons (isLocal_plus (hn.cz _) (hn.i _)) (genLocal_cons t genLocal_nil)
    · exact genLocal_cons (isLocal_ite (hn.h _) (hn.rotLayer _ _ _)) (genLocal_cons t genLocal_nil)
  · exact genLocal_cons (isLocal_plus (hn.m _) (hn.i _)) (genLocal_cons t genLocal_nil)

theorem LocalModel.initHead (o : SetOrder) (qs : List String) (dataInit : Dict String Int) :
    GenLocal (Blocks.initHead o nm qs dataInit) := by
  have t := isLocal_tick
  exact genLocal_cons (hn.r _) <| genLocal_cons t <| genLocal_cons (isLocal_plus (isLocal_ite (isLocal_pure local_nil) (hn.x _))
    (hn.i _)) <| genLocal_cons t genLocal_nil

theorem LocalModel.initIter (o : SetOrder) (l : Layout) (dataInit : Dict String Int) (rot : Bool) :
    GenLocal (Blocks.initIter o nm l dataInit rot) := by
  unfold Blocks.initIter
  exact mem_withE fun anc => mem_withE fun data => genLocal_append (hn.initHead _ _ _) <|
    genLocal_if (genLocal_cons (isLocal_plus (hn.h _) (hn.i _)) (genLocal_cons isLocal_tick genLocal_nil)) genLocal_nil

theorem LocalModel.initXzzxIter (o : SetOrder) (l : Layout) (dataInit : Dict String Int) (rot : Bool) :
    GenLocal (Blocks.initXzzxIter o nm l dataInit rot) := by
  unfold Blocks.initXzzxIter
  refine genLocal_if (genLocal_cons (isLocal_raise _) genLocal_nil) ?_
  exact mem_withE fun anc => mem_withE fun data => genLocal_append (hn.initHead _ _ _) <| mem_withE fun stabs =>
    genLocal_cons (isLocal_plus (hn.h _) (hn.i _)) (genLocal_cons isLocal_tick genLocal_nil)

theorem LocalModel.logMeasIter (l : Layout) (rot : Bool) : GenLocal (Blocks.logMeasIter nm l rot) := by
  have t := isLocal_tick
  unfold Blocks.logMeasIter
  refine mem_withE fun anc => mem_withE fun data => genLocal_append (genLocal_append ?_ (genLocal_if ?_ genLocal_nil)) ?_
  · exact genLocal_cons (hn.inc _) (genLocal_cons t genLocal_nil)
  · exact genLocal_cons (isLocal_plus (hn.h _) (hn.i _)) (genLocal_cons t genLocal_nil)
  · exact genLocal_cons (isLocal_plus (hn.m _) (hn.i _)) (genLocal_cons t genLocal_nil)

theorem LocalModel.logMeasXzzxIter (o : SetOrder) (l : Layout) (rot : Bool) :
    GenLocal (Blocks.logMeasXzzxIter o nm l rot) := by
  have t := isLocal_tick
  unfold Blocks.logMeasXzzxIter
  exact mem_withE fun anc => mem_withE fun data => mem_withE fun stabs => genLocal_cons (hn.inc _) <| genLocal_cons t <|
    genLocal_cons (isLocal_plus (hn.h _) (hn.i _)) <| genLocal_cons t <|
    genLocal_cons (isLocal_plus (hn.m _) (hn.i _)) <| genLocal_cons t genLocal_nil

end
end SurfaceSim
