/-
Qubits used by the blocks between TICKs.
-/
import Verif.Lemmas.UsageModels

namespace SurfaceSim
open Spec NoiseModel Blocks

variable {p : Gate → Bool}

/-- The used qubits of the TICK blocks. -/
def ublocks (p : Gate → Bool) (c : Circuit) : List (List Nat) := (tickBlocks c).map (used p)

/-- Joins the last block of `a` with the first one of `b`. -/
def glue {α : Type} : List (List α) → List (List α) → List (List α)
  | [], b => b
  | [u], [] => [u]
  | [u], v :: b => (u ++ v) :: b
  | u :: u' :: a, b => u :: glue (u' :: a) b

theorem tickBlocks_ne (c : Circuit) : tickBlocks c ≠ [] := by
  cases c with
  | nil => simp [tickBlocks]
  | cons i c =>
    unfold tickBlocks
    split
    · simp
    · split <;> simp

theorem ublocks_ne (c : Circuit) : ublocks p c ≠ [] := by
  simpa [ublocks] using tickBlocks_ne c

theorem ublocks_cons (i : Instr) (c : Circuit) :
    ublocks p (i :: c) = if i.gate = .TICK then [] :: ublocks p c else glue [used p [i]] (ublocks p c) := by
  unfold ublocks
  rw [tickBlocks]
  split
  · rfl
  · cases h : tickBlocks c with
    | nil => exact absurd h (tickBlocks_ne c)
    | cons b bs => simp [glue, used]

theorem glue_cons {α : Type} (u : List α) (a b : List (List α)) (ha : a ≠ []) : glue (u :: a) b = u :: glue a b := by
  cases a with
  | nil => exact absurd rfl ha
  | cons v a => rfl

theorem glue_assoc {α : Type} (u : List α) (a b : List (List α)) (ha : a ≠ []) (hb : b ≠ []) :
    glue [u] (glue a b) = glue (glue [u] a) b := by
  cases a with
  | nil => exact absurd rfl ha
  | cons v a =>
    cases a with
    | nil =>
      cases b with
      | nil => exact absurd rfl hb
      | cons w b => simp [glue]
    | cons v' a => simp [glue]

theorem ublocks_append (a b : Circuit) : ublocks p (a ++ b) = glue (ublocks p a) (ublocks p b) := by
  induction a with
  | nil =>
    show ublocks p b = glue [[]] (ublocks p b)
    cases h : ublocks p b with
    | nil => exact absurd h (ublocks_ne b)
    | cons v bs => simp [glue]
  | cons i a ih =>
    rw [List.cons_append, ublocks_cons, ublocks_cons, ih]
    split
    · rw [glue_cons _ _ _ (ublocks_ne a)]
    · rw [glue_assoc _ _ _ (ublocks_ne a) (ublocks_ne b)]

theorem ublocks_single (i : Instr) (h : i.gate ≠ .TICK) : ublocks p [i] = [used p [i]] := by
  rw [ublocks_cons, if_neg h]
  simp [ublocks, tickBlocks, used, glue]

theorem ublocks_circuit_append (c : Circuit) (i : Instr) :
    ublocks p (Circuit.append c i) = glue (ublocks p c) (ublocks p [i]) := by
  rw [← ublocks_append]
  unfold Circuit.append
  split
  · rename_i h
    rw [List.getLast?_eq_none_iff] at h
    subst h; rfl
  · rename_i l h
    split
    · rename_i hf
      have hc : c = c.dropLast ++ [l] := by
        have := List.dropLast_append_getLast? l h
        exact this.symm
      conv => rhs; rw [hc]
      rw [List.append_assoc, ublocks_append, ublocks_append]
      congr 1
      have hg : l.gate ≠ .TICK := by
        intro e
        have := hf.2.2
        rw [← hf.1, e] at this
        simp [Gate.notFusable] at this
      have hg' : i.gate ≠ .TICK := by rw [← hf.1]; exact hg
      rw [ublocks_append, ublocks_single _ hg, ublocks_single _ hg', ublocks_single _ (by exact hg)]
      simp only [glue, used, List.flatMap_cons, List.flatMap_nil, List.append_nil, List.cons.injEq, and_true]
      rw [← hf.1]
      split
      · simp [Instr.qubits, List.filterMap_append]
      · rfl
    · rfl

theorem ublocks_concat (a b : Circuit) : ublocks p (Circuit.concat a b) = glue (ublocks p a) (ublocks p b) := by
  cases b with
  | nil =>
    rw [← ublocks_append]
    simp [Circuit.concat]
  | cons i r =>
    show ublocks p (Circuit.append a i ++ r) = _
    rw [ublocks_append, ublocks_circuit_append, ← ublocks_append, ← ublocks_append, ← ublocks_append]
    simp

/-- What one item of a generator does: a TICK or using qubits. -/
inductive Use where
  | tick
  | qs (l : List String)

/-- The blocks of a list of uses. -/
def useBlocks : List Use → List (List String)
  | [] => [[]]
  | .tick :: us => [] :: useBlocks us
  | .qs l :: us => glue [l] (useBlocks us)

/-- The item does what `u` says. -/
def DoesUse (p : Gate → Bool) (inds : Dict String Nat) (b : Call1) : Use → Prop
  | .tick => ∀ s c s', b s = (.ok c, s') → c = NoiseModel.tick
  | .qs l => ∀ s c s', b s = (.ok c, s') → (∀ i ∈ c, i.gate ≠ .TICK) ∧ used p c = l.map (ind inds)

theorem ublocks_noTick {c : Circuit} (h : ∀ i ∈ c, i.gate ≠ .TICK) : ublocks p c = [used p c] := by
  induction c with
  | nil => simp [ublocks, tickBlocks, used]
  | cons i c ih =>
    rw [ublocks_cons, if_neg (h i (by simp)), ih fun j hj => h j (by simp [hj])]
    simp [glue, used]

theorem useBlocks_ne (us : List Use) : useBlocks us ≠ [] := by
  induction us with
  | nil => simp [useBlocks]
  | cons u us ih =>
    cases u with
    | tick => simp [useBlocks]
    | qs l =>
      simp only [useBlocks]
      cases h : useBlocks us with
      | nil => exact absurd h ih
      | cons _ _ => simp [glue]

theorem glue_map {α β : Type} (f : α → β) (a b : List (List α)) :
    (glue a b).map (List.map f) = glue (a.map (List.map f)) (b.map (List.map f)) := by
  induction a with
  | nil => rfl
  | cons u a ih =>
    cases a with
    | nil => cases b <;> simp [glue]
    | cons v a => simp only [glue, List.map_cons, ih]

theorem glue_assoc' {α : Type} (a b c : List (List α)) (ha : a ≠ []) (hb : b ≠ []) (hc : c ≠ []) :
    glue (glue a b) c = glue a (glue b c) := by
  induction a with
  | nil => exact absurd rfl ha
  | cons u a ih =>
    cases a with
    | nil => rw [glue_assoc u b c hb hc]
    | cons v a =>
      rw [glue_cons u (v :: a) b (by simp), glue_cons, ih (by simp), ← glue_cons u (v :: a) (glue b c) (by simp)]
      cases a <;> cases b <;> simp [glue] at hb ⊢

theorem sumFrom_uses {inds : Dict String Nat} {g : Gen} {us : List Use} (h : List.Forall₂ (DoesUse p inds) g us)
    {acc c : Circuit} {s s' : MeasState} (hs : sumFrom acc g s = (.ok c, s')) :
    ublocks p c = glue (ublocks p acc) ((useBlocks us).map (List.map (ind inds))) := by
  induction h generalizing acc s with
  | nil =>
    simp only [sumFrom, pure, PyM.pure, Prod.mk.injEq, Except.ok.injEq] at hs
    rw [← hs.1]
    have := ublocks_append (p := p) acc []
    rw [List.append_nil] at this
    exact this
  | @cons b u g us hb _ ih =>
    unfold sumFrom at hs
    obtain ⟨c1, s1, h1, h2⟩ := PyM.bind_eq_ok hs
    have hne : (useBlocks us).map (List.map (ind inds)) ≠ [] := by simpa using useBlocks_ne us
    rw [ih h2, ublocks_concat, glue_assoc' _ _ _ (ublocks_ne _) (ublocks_ne _) hne]
    congr 1
    cases u with
    | tick =>
      rw [hb _ _ _ h1]
      show glue [[], []] _ = _
      simp only [useBlocks, List.map_cons, List.map_nil]
      cases h : (useBlocks us).map (List.map (ind inds)) with
      | nil => exact absurd h hne
      | cons v vs => simp [glue]
    | qs l =>
      obtain ⟨hn, hu⟩ := hb _ _ _ h1
      rw [ublocks_noTick hn, hu]
      simp only [useBlocks, glue_map, List.map_cons, List.map_nil]

end SurfaceSim
