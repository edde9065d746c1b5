/-
The blocks of transversal gates, given the tables stored in the layouts.
-/
import Verif.Spec.TransGates
import Verif.Lemmas.Placed
import Verif.Lemmas.LogicalGates
import Mathlib.Data.String.Basic

namespace SurfaceSim
open Spec NoiseModel Blocks LayoutLib LogGates

/-! ### sums and layers -/

theorem sumIf_unique {α : Type} {l : List α} (hl : l.Nodup) {p : α → Prop} [DecidablePred p] {f : α → ZMod 2} {a : α}
    (ha : a ∈ l) (hp : p a) (hu : ∀ b ∈ l, p b → b = a) : sumIf l p f = f a := by
  induction l with
  | nil => simp at ha
  | cons b l ih =>
    simp only [List.nodup_cons] at hl
    have hcons : sumIf (b :: l) p f = (if p b then f b else 0) + sumIf l p f := by simp [sumIf]
    rw [hcons]
    by_cases hb : p b
    · have hba := hu b (by simp) hb
      subst hba
      rw [if_pos hb, sumIf_zero, add_zero]
      intro e he hpe
      have := hu e (by simp [he]) hpe
      subst this
      exact absurd he hl.1
    · rw [if_neg hb, zero_add]
      rcases List.mem_cons.1 ha with rfl | ha
      · exact absurd hp hb
      · exact ih hl.2 ha fun b hb => hu b (by simp [hb])

theorem sumIf_none {α : Type} {l : List α} {p : α → Prop} [DecidablePred p] {f : α → ZMod 2}
    (hu : ∀ b ∈ l, ¬ p b) : sumIf l p f = 0 :=
  sumIf_zero _ _ _ fun e he hp => absurd hp (hu e he)

/-- The other qubit of the pair with `q`, or `q`. -/
def other (E : List (String × String)) (q : String) : String :=
  match E.find? fun e => decide (e.1 = q ∨ e.2 = q) with
  | none => q
  | some e => if e.1 = q then e.2 else e.1

/-- A layer of SWAP gates. -/
theorem run_swap (ρ : Nat → ZMod 2) (E : List (String × String)) (hE : ∀ e ∈ E, e.1 ≠ e.2)
    (hd : E.Pairwise fun e f => e.1 ≠ f.1 ∧ e.1 ≠ f.2 ∧ e.2 ≠ f.1 ∧ e.2 ≠ f.2) (st : FState String) :
    run ρ st (E.map fun e => Op.swap e.1 e.2) = { st with
      x := fun q => st.x (other E q), z := fun q => st.z (other E q) } := by
  induction E generalizing st with
  | nil => rfl
  | cons e E ih =>
    obtain ⟨a, b⟩ := e
    have hab : a ≠ b := hE (a, b) (by simp)
    rw [List.pairwise_cons] at hd
    rw [List.map_cons, run_cons, ih (fun e he => hE e (by simp [he])) hd.2]
    have key : ∀ (f : String → ZMod 2) (q : String),
        Function.update (Function.update f a (f b)) b (f a) (other E q) = f (other ((a, b) :: E) q) := by
      intro f q
      have hnot : ∀ q, (q = a ∨ q = b) → E.find? (fun e => decide (e.1 = q ∨ e.2 = q)) = none := by
        intro q hq
        rw [List.find?_eq_none]
        intro e he
        obtain ⟨h1, h2, h3, h4⟩ := hd.1 e he
        simp only [decide_eq_true_eq, not_or]
        rcases hq with rfl | rfl
        · exact ⟨h1.symm, h2.symm⟩
        · exact ⟨h3.symm, h4.symm⟩
      by_cases hqa : q = a
      · subst hqa
        simp only [other, hnot q (Or.inl rfl), List.find?_cons, true_or, decide_true, if_true]
        rw [Function.update_of_ne hab, Function.update_self]
      · by_cases hqb : q = b
        · subst hqb
          simp only [other, hnot q (Or.inr rfl), List.find?_cons, or_true, decide_true, if_neg hab]
          rw [Function.update_self]
        · have h1 : other ((a, b) :: E) q = other E q := by
            unfold other
            rw [List.find?_cons]
            simp [Ne.symm hqa, Ne.symm hqb]
          rw [h1]
          have h2 : other E q ≠ a ∧ other E q ≠ b := by
            unfold other
            cases hf : E.find? (fun e => decide (e.1 = q ∨ e.2 = q)) with
            | none => exact ⟨hqa, hqb⟩
            | some e =>
              obtain ⟨k1, k2, k3, k4⟩ := hd.1 e (List.mem_of_find?_eq_some hf)
              simp only
              split
              · exact ⟨k2.symm, k4.symm⟩
              · exact ⟨k1.symm, k3.symm⟩
          rw [Function.update_of_ne h2.2, Function.update_of_ne h2.1]
    simp only [step]
    congr 1
    · funext q; exact key st.x q
    · funext q; exact key st.z q

/-! ### stored tables -/

/-- The table of a gate on one layout: partners and local gates of the data qubits. -/
structure SymTable (l : Layout) (data : List String) (label key : String) (P : String → Option String)
    (G : String → String) : Prop where
  attrs : ∀ d ∈ data, l.param label d = .ok (.gate [(key, atomOf (P d)), ("local", .str (G d))])
  sym : ∀ d ∈ data, ∀ e, P d = some e → e ∈ data ∧ e ≠ d ∧ P e = some d

theorem mem_add {α : Type} [DecidableEq α] {s : List α} {x y : α} : y ∈ add s x ↔ y ∈ s ∨ y = x := by
  unfold add
  split
  · rename_i h
    constructor
    · exact Or.inl
    · rintro (h' | rfl)
      · exact h'
      · exact h
  · simp

theorem add_nodup {α : Type} [DecidableEq α] {s : List α} {x : α} (h : s.Nodup) : (add s x).Nodup := by
  unfold add
  split
  · exact h
  · rename_i hx
    rw [List.nodup_append]
    refine ⟨h, by simp, ?_⟩
    rintro a ha b hb rfl
    simp at hb
    exact hx (hb ▸ ha)

theorem transLoop_ok {l : Layout} {label key g1 g2 : String} (hkey : key ≠ "local") {P : String → Option String}
    {G : String → String} (ds : List String)
    (ha : ∀ d ∈ ds, l.param label d = .ok (.gate [(key, atomOf (P d)), ("local", .str (G d))]))
    (ps : List (String × String)) (a b : List String) (hps : ps.Nodup) (haN : a.Nodup) (hbN : b.Nodup) :
    ∃ ps' a' b', transLoop l label key g1 g2 ds ps a b = .ok (ps', a', b') ∧ ps'.Nodup ∧ a'.Nodup ∧ b'.Nodup ∧
      (∀ p, p ∈ ps' ↔ p ∈ ps ∨ ∃ d ∈ ds, ∃ e, P d = some e ∧ p = sortedPair d e) ∧
      (∀ d, d ∈ a' ↔ d ∈ a ∨ (d ∈ ds ∧ G d = g1)) ∧
      (∀ d, d ∈ b' ↔ d ∈ b ∨ (d ∈ ds ∧ G d ≠ g1 ∧ G d = g2)) := by
  induction ds generalizing ps a b with
  | nil => exact ⟨ps, a, b, rfl, hps, haN, hbN, by simp, by simp, by simp⟩
  | cons d ds ih =>
    have hd := ha d (by simp)
    have hds := fun d' h => ha d' (List.mem_cons_of_mem _ h)
    unfold transLoop gateAttrs
    simp only [hd]
    have hp : partner [(key, atomOf (P d)), ("local", Atom.str (G d))] key = .ok (P d) := by
      unfold partner Dict.getE Dict.get?
      cases P d <;> simp [atomOf]
    have hg : Dict.getE [(key, atomOf (P d)), ("local", Atom.str (G d))] "local" = .ok (Atom.str (G d)) := by
      unfold Dict.getE Dict.get?
      simp [hkey, Dict.get?]
    simp only [hp, hg, Atom.str.injEq]
    set ps1 := (match P d with
      | none => ps
      | some q => add ps (sortedPair d q)) with hps1
    have hps1N : ps1.Nodup := by
      rw [hps1]
      cases P d with
      | none => exact hps
      | some q => exact add_nodup hps
    have hps1m : ∀ p, p ∈ ps1 ↔ p ∈ ps ∨ ∃ e, P d = some e ∧ p = sortedPair d e := by
      intro p
      rw [hps1]
      cases P d with
      | none => simp
      | some q =>
        rw [mem_add]
        simp
    have fin : ∀ ps' : List (String × String), (∀ p, p ∈ ps' ↔ p ∈ ps1 ∨ ∃ d ∈ ds, ∃ e, P d = some e ∧ p = sortedPair d e) →
        ∀ p, p ∈ ps' ↔ p ∈ ps ∨ ∃ d' ∈ d :: ds, ∃ e, P d' = some e ∧ p = sortedPair d' e := by
      intro ps' h p
      rw [h, hps1m]
      simp only [List.mem_cons, exists_eq_or_imp, or_assoc]
    by_cases h1 : G d = g1
    · simp only [if_pos h1]
      obtain ⟨ps', a', b', e, k1, k2, k3, k4, k5, k6⟩ := ih hds ps1 (add a d) b hps1N (add_nodup haN) hbN
      refine ⟨ps', a', b', e, k1, k2, k3, fin _ k4, fun d' => ?_, fun d' => ?_⟩
      · rw [k5, mem_add]
        constructor
        · rintro ((h | rfl) | h)
          · exact Or.inl h
          · exact Or.inr ⟨by simp, h1⟩
          · exact Or.inr ⟨by simp [h.1], h.2⟩
        · rintro (h | ⟨h, h'⟩)
          · exact Or.inl (Or.inl h)
          · rcases List.mem_cons.1 h with rfl | h
            · exact Or.inl (Or.inr rfl)
            · exact Or.inr ⟨h, h'⟩
      · rw [k6]
        constructor
        · rintro (h | h)
          · exact Or.inl h
          · exact Or.inr ⟨by simp [h.1], h.2⟩
        · rintro (h | ⟨h, h'⟩)
          · exact Or.inl h
          · rcases List.mem_cons.1 h with rfl | h
            · exact absurd h1 h'.1
            · exact Or.inr ⟨h, h'⟩
    · simp only [if_neg h1]
      have fa : ∀ a' : List String, (∀ d', d' ∈ a' ↔ d' ∈ a ∨ (d' ∈ ds ∧ G d' = g1)) →
          ∀ d', d' ∈ a' ↔ d' ∈ a ∨ (d' ∈ d :: ds ∧ G d' = g1) := by
        intro a' h d'
        rw [h]
        constructor
        · rintro (h | h)
          · exact Or.inl h
          · exact Or.inr ⟨by simp [h.1], h.2⟩
        · rintro (h | ⟨h, h'⟩)
          · exact Or.inl h
          · rcases List.mem_cons.1 h with rfl | h
            · exact absurd h' h1
            · exact Or.inr ⟨h, h'⟩
      by_cases h2 : G d = g2
      · simp only [if_pos h2]
        obtain ⟨ps', a', b', e, k1, k2, k3, k4, k5, k6⟩ := ih hds ps1 a (add b d) hps1N haN (add_nodup hbN)
        refine ⟨ps', a', b', e, k1, k2, k3, fin _ k4, fa _ k5, fun d' => ?_⟩
        rw [k6, mem_add]
        constructor
        · rintro ((h | rfl) | h)
          · exact Or.inl h
          · exact Or.inr ⟨by simp, h1, h2⟩
          · exact Or.inr ⟨by simp [h.1], h.2⟩
        · rintro (h | ⟨h, h'⟩)
          · exact Or.inl (Or.inl h)
          · rcases List.mem_cons.1 h with rfl | h
            · exact Or.inl (Or.inr rfl)
            · exact Or.inr ⟨h, h'⟩
      · simp only [if_neg h2]
        obtain ⟨ps', a', b', e, k1, k2, k3, k4, k5, k6⟩ := ih hds ps1 a b hps1N haN hbN
        refine ⟨ps', a', b', e, k1, k2, k3, fin _ k4, fa _ k5, fun d' => ?_⟩
        rw [k6]
        constructor
        · rintro (h | h)
          · exact Or.inl h
          · exact Or.inr ⟨by simp [h.1], h.2⟩
        · rintro (h | ⟨h, h'⟩)
          · exact Or.inl h
          · rcases List.mem_cons.1 h with rfl | h
            · exact absurd h'.2 h2
            · exact Or.inr ⟨h, h'⟩

/-- The pairs of a symmetric table, each once. -/
theorem SymTable.mem_pairs {l : Layout} {data : List String} {label key : String} {P : String → Option String}
    {G : String → String} (h : SymTable l data label key P G) (p : String × String) :
    (∃ d ∈ data, ∃ e, P d = some e ∧ p = sortedPair d e) ↔ p.1 ∈ data ∧ P p.1 = some p.2 ∧ p.1 < p.2 := by
  constructor
  · rintro ⟨d, hd, e, he, rfl⟩
    obtain ⟨h1, h2, h3⟩ := h.sym d hd e he
    unfold sortedPair
    split
    · exact ⟨h1, h3, ‹_›⟩
    · exact ⟨hd, he, lt_of_le_of_ne (not_lt.1 ‹_›) h2.symm⟩
  · rintro ⟨h1, h2, h3⟩
    exact ⟨p.1, h1, p.2, h2, by unfold sortedPair; rw [if_neg (not_lt_of_gt h3)]⟩

section
variable {ps : List (String × String)} {data : List String} {P : String → Option String}

/-- The CZ gates of a symmetric matching. -/
theorem sum_partner (hN : ps.Nodup) (hm : ∀ p, p ∈ ps ↔ p.1 ∈ data ∧ P p.1 = some p.2 ∧ p.1 < p.2)
    (hs : ∀ d ∈ data, ∀ e, P d = some e → e ∈ data ∧ e ≠ d ∧ P e = some d) (f : String → ZMod 2) {q : String}
    (hq : q ∈ data) :
    sumIf ps (fun e => e.1 = q) (fun e => f e.2) + sumIf ps (fun e => e.2 = q) (fun e => f e.1) =
      match P q with
      | some e => f e
      | none => 0 := by
  cases hP : P q with
  | none =>
    rw [sumIf_none, sumIf_none, add_zero]
    · rintro ⟨a, b⟩ hb rfl
      obtain ⟨h1, h2, -⟩ := (hm _).1 hb
      have := (hs _ h1 _ h2).2.2
      simp only at this
      rw [hP] at this; simp at this
    · rintro ⟨a, b⟩ hb rfl
      obtain ⟨h1, h2, -⟩ := (hm _).1 hb
      simp only at h2
      rw [hP] at h2; simp at h2
  | some e =>
    obtain ⟨h1, h2, h3⟩ := hs q hq e hP
    have hu1 : ∀ b ∈ ps, b.1 = q → b = (q, e) := by
      rintro ⟨a, b⟩ hb rfl
      have := ((hm _).1 hb).2.1
      simp only at this
      rw [hP] at this
      simp only [Option.some.injEq] at this
      rw [this]
    have hu2 : ∀ b ∈ ps, b.2 = q → b = (e, q) := by
      rintro ⟨a, b⟩ hb rfl
      obtain ⟨k1, k2, -⟩ := (hm _).1 hb
      have := (hs _ k1 _ k2).2.2
      simp only at this
      rw [hP] at this
      simp only [Option.some.injEq] at this
      rw [this]
    rcases lt_or_gt_of_ne h2 with hlt | hlt
    · rw [sumIf_none (p := fun b : String × String => b.1 = q), sumIf_unique hN (p := fun b : String × String => b.2 = q) (a := (e, q)) _ rfl hu2, zero_add]
      · exact (hm _).2 ⟨h1, h3, hlt⟩
      · intro b hb hbq
        have := hu1 b hb hbq
        subst this
        exact lt_asymm ((hm _).1 hb).2.2 hlt
    · rw [sumIf_unique hN (p := fun b : String × String => b.1 = q) (a := (q, e)) _ rfl hu1, sumIf_none, add_zero]
      · intro b hb hbq
        have := hu2 b hb hbq
        subst this
        exact lt_asymm ((hm _).1 hb).2.2 hlt
      · exact (hm _).2 ⟨hq, hP, hlt⟩

/-- The SWAP gates of a symmetric matching. -/
theorem other_partner (hm : ∀ p, p ∈ ps ↔ p.1 ∈ data ∧ P p.1 = some p.2 ∧ p.1 < p.2)
    (hs : ∀ d ∈ data, ∀ e, P d = some e → e ∈ data ∧ e ≠ d ∧ P e = some d) {q : String} :
    other ps q = if q ∈ data then (P q).getD q else q := by
  have hmem : ∀ b ∈ ps, (b.1 = q ∨ b.2 = q) → q ∈ data ∧ P q = some (if b.1 = q then b.2 else b.1) := by
    rintro ⟨a, b⟩ hb (rfl | rfl)
    · obtain ⟨k1, k2, k3⟩ := (hm _).1 hb
      exact ⟨k1, by simpa using k2⟩
    · obtain ⟨k1, k2, k3⟩ := (hm _).1 hb
      obtain ⟨k4, k5, k6⟩ := hs _ k1 _ k2
      refine ⟨k4, ?_⟩
      simp only at k3
      rw [if_neg (ne_of_lt k3)]
      exact k6
  unfold other
  cases hf : ps.find? (fun e => decide (e.1 = q ∨ e.2 = q)) with
  | some b =>
    have h1 := List.find?_some hf
    simp only [decide_eq_true_eq] at h1
    obtain ⟨h2, h3⟩ := hmem b (List.mem_of_find?_eq_some hf) h1
    simp [h2, h3]
  | none =>
    rw [List.find?_eq_none] at hf
    simp only
    split
    · rename_i hq
      cases hP : P q with
      | none => rfl
      | some e =>
        obtain ⟨h1, h2, h3⟩ := hs q hq e hP
        exfalso
        rcases lt_or_gt_of_ne h2 with hlt | hlt
        · exact hf (e, q) ((hm _).2 ⟨h1, h3, hlt⟩) (by simp)
        · exact hf (q, e) ((hm _).2 ⟨hq, hP, hlt⟩) (by simp)
    · rfl

theorem pairs_disjoint (hN : ps.Nodup) (hm : ∀ p, p ∈ ps ↔ p.1 ∈ data ∧ P p.1 = some p.2 ∧ p.1 < p.2)
    (hs : ∀ d ∈ data, ∀ e, P d = some e → e ∈ data ∧ e ≠ d ∧ P e = some d) :
    ps.Pairwise fun e f => e.1 ≠ f.1 ∧ e.1 ≠ f.2 ∧ e.2 ≠ f.1 ∧ e.2 ≠ f.2 := by
  refine List.Pairwise.imp_of_mem ?_ hN
  rintro ⟨a, b⟩ ⟨c, d⟩ h1 h2 hne
  obtain ⟨k1, k2, k3⟩ := (hm _).1 h1
  obtain ⟨m1, m2, m3⟩ := (hm _).1 h2
  obtain ⟨k4, k5, k6⟩ := hs _ k1 _ k2
  obtain ⟨m4, m5, m6⟩ := hs _ m1 _ m2
  simp only at k1 k2 k3 k4 k5 k6 m1 m2 m3 m4 m5 m6 ⊢
  refine ⟨?_, ?_, ?_, ?_⟩ <;> rintro rfl
  · rw [k2] at m2; simp at m2; exact hne (by rw [m2])
  · rw [k2] at m6; simp at m6; subst m6; exact lt_asymm k3 m3
  · rw [k6] at m2; simp at m2; subst m2; exact lt_asymm k3 m3
  · rw [k6] at m6; simp at m6; exact hne (by rw [m6])

end

/-! ### effect of a block on frames -/

/-- The block changes frames by the functions `X` and `Z` and does not measure. -/
def Acts (nm : NoiseModel) (b : Call1) (X Z : (String → ZMod 2) → (String → ZMod 2) → String → ZMod 2) : Prop :=
  ∀ (s : MeasState) (hist : List String), s.Tracks nm.inds hist →
    ∃ c s', b s = (.ok c, s') ∧ s'.Tracks nm.inds hist ∧ EvenPairs c ∧ ∀ (ρ : Nat → ZMod 2) (st : FState Nat),
      (run ρ st (ops c)).recs = st.recs ∧ (run ρ st (ops c)).dets = st.dets ∧ (run ρ st (ops c)).obs = st.obs ∧
      ∀ q ∈ nm.inds.keys,
        (run ρ st (ops c)).x (ind nm.inds q) = X (fun p => st.x (ind nm.inds p)) (fun p => st.z (ind nm.inds p)) q ∧
        (run ρ st (ops c)).z (ind nm.inds q) = Z (fun p => st.x (ind nm.inds p)) (fun p => st.z (ind nm.inds p)) q

theorem acts_of_does {nm : NoiseModel} (hinj : IndsInj nm.inds) {b : Call1} {L : List (Op String)}
    {X Z : (String → ZMod 2) → (String → ZMod 2) → String → ZMod 2} (hb : Does nm.inds b L)
    (hL : ∀ ρ st, run ρ st L = { st with x := X st.x st.z, z := Z st.x st.z }) : Acts nm b X Z := by
  intro s hist hs
  obtain ⟨c, s', e, he, ho, hs'⟩ := hb.2 s hist hs
  have hm : measured L = [] := measured_eq_nil (ρ := fun _ => 0) (st := FState.init String) (by rw [hL])
  rw [hm, List.append_nil] at hs'
  refine ⟨c, s', e, hs', he, fun ρ st => ?_⟩
  have hag := run_renamed hinj hb.1 ρ st
  rw [← ho, hL] at hag
  exact ⟨hag.recs, hag.dets, hag.obs, fun q hq => ⟨hag.x q hq, hag.z q hq⟩⟩

section
variable {l : Layout} {L : List (String × Site × Kind)} {dirs : List (Site × String)} {nm : NoiseModel}
  {P : String → Option String} {G : String → String} {lab : String}

/-- The operations of `log_trans_s`. -/
theorem does_transS (hg : OnGrid l L dirs) (hr : CanRun nm l) (o : SetOrder)
    (hcode : l.code = "rotated_surface_code" ∨ l.code = "unrotated_surface_code") (hlab : firstLogical l = .ok lab)
    (ht : SymTable l (dataOf L) ("trans-s_" ++ lab) "cz" P G) :
    ∃ (ps : List (String × String)) (sa sb : List String), ps.Nodup ∧ sa.Nodup ∧ sb.Nodup ∧
      (∀ p, p ∈ ps ↔ p.1 ∈ dataOf L ∧ P p.1 = some p.2 ∧ p.1 < p.2) ∧ (∀ d, d ∈ sa ↔ d ∈ dataOf L ∧ G d = "S") ∧
      (∀ d, d ∈ sb ↔ d ∈ dataOf L ∧ G d ≠ "S" ∧ G d = "S_DAG") ∧
      Does nm.inds (sumGen (transSIter o nm l)) (sa.map Op.s ++ sb.map Op.sdag ++ ps.map fun p => Op.cz p.1 p.2) := by
  have hk := grid_known hr hg
  have hkd : ∀ q ∈ dataOf L, q ∈ nm.inds.keys := fun q h => hk q (List.mem_append_left _ h)
  have hall : ∀ q ∈ L.map Prod.fst, q ∈ nm.inds.keys := hr.known _ hg.getQubits_all
  obtain ⟨ps, sa, sb, e, k1, k2, k3, k4, k5, k6⟩ := transLoop_ok (l := l) (label := "trans-s_" ++ lab) (g1 := "S")
    (g2 := "S_DAG") (show "cz" ≠ "local" by decide) (dataOf L) ht.attrs [] [] [] (by simp) (by simp) (by simp)
  simp only [List.not_mem_nil, false_or] at k4 k5 k6
  have k4' : ∀ p, p ∈ ps ↔ p.1 ∈ dataOf L ∧ P p.1 = some p.2 ∧ p.1 < p.2 := fun p => (k4 p).trans (ht.mem_pairs p)
  have hps : ∀ p ∈ o.ord ps, p.1 ∈ nm.inds.keys ∧ p.2 ∈ nm.inds.keys ∧ ind nm.inds p.1 ≠ ind nm.inds p.2 := by
    intro p hp
    rw [mem_ord, k4'] at hp
    have h2 := ht.sym _ hp.1 _ hp.2.1
    exact ⟨hkd _ hp.1, hkd _ h2.1, fun h => h2.2.1 (hr.inj _ (hkd _ hp.1) _ (hkd _ h2.1) h).symm⟩
  have hb : Does nm.inds (sumGen (transSIter o nm l)) ((o.ord sa).map Op.s ++ (o.ord sb).map Op.sdag ++
      (o.ord ps).map fun p => Op.cz p.1 p.2) := by
    unfold transSIter dataQubits
    rw [if_neg (by rintro ⟨h1, h2⟩; rcases hcode with h | h <;> contradiction), hg.getQubits_data, hg.getQubits_all, hlab]
    simp only [withE]
    rw [show dataOf L = labelsOf L _ from rfl] at e
    simp only [e]
    have d1 := does_incoming hr.faithful _ hkd
    have d2 := ((does_s hr.faithful (o.ord sa) fun q h => hkd q ((k5 q).1 ((mem_ord o).1 h)).1).bind_concat
      (does_sdag hr.faithful (o.ord sb) fun q h => hkd q ((k6 q).1 ((mem_ord o).1 h)).1)).bind_concat
      (does_idle hr.faithful (o.ord (diff (diff (setOf (L.map Prod.fst)) sa) sb)) fun q h => by
        rw [mem_ord, mem_diff, mem_diff, mem_setOf] at h
        exact hall q h.1.1)
    have d3 := (does_cz hr.faithful _ hps).bind_concat
      (does_idle hr.faithful (o.ord (diff (setOf (L.map Prod.fst)) (setOf (chain (o.ord ps))))) fun q h => by
        rw [mem_ord, mem_diff, mem_setOf] at h
        exact hall q h.1)
    exact (Does.sumGen (Ls := [[], [], (o.ord sa).map Op.s ++ (o.ord sb).map Op.sdag ++ [], [],
      ((o.ord ps).map fun p => Op.cz p.1 p.2) ++ [], []])
      (.cons d1 (.cons (Does.tick _) (.cons d2 (.cons (Does.tick _) (.cons d3 (.cons (Does.tick _) .nil))))))).congr
      (by simp)
  exact ⟨o.ord ps, o.ord sa, o.ord sb, (ord_nodup o).2 k1, (ord_nodup o).2 k2, (ord_nodup o).2 k3,
    fun p => (mem_ord o).trans (k4' p), fun d => (mem_ord o).trans (k5 d), fun d => (mem_ord o).trans (k6 d), hb⟩

/-- Effect of the operations of `log_trans_s`. -/
theorem run_transS {ps : List (String × String)} {sa sb : List String}
    (hs : ∀ d ∈ dataOf L, ∀ e, P d = some e → e ∈ dataOf L ∧ e ≠ d ∧ P e = some d) (k1 : ps.Nodup) (k2 : sa.Nodup)
    (k3 : sb.Nodup) (k4' : ∀ p, p ∈ ps ↔ p.1 ∈ dataOf L ∧ P p.1 = some p.2 ∧ p.1 < p.2)
    (k5 : ∀ d, d ∈ sa ↔ d ∈ dataOf L ∧ G d = "S") (k6 : ∀ d, d ∈ sb ↔ d ∈ dataOf L ∧ G d ≠ "S" ∧ G d = "S_DAG")
    (ρ : Nat → ZMod 2) (st : FState String) :
    run ρ st (sa.map Op.s ++ sb.map Op.sdag ++ ps.map fun p => Op.cz p.1 p.2) = { st with z := (fun q => st.z q +
      (if q ∈ dataOf L then (if G q = "S" ∨ G q = "S_DAG" then st.x q else 0) + (match P q with
        | some e => st.x e
        | none => 0) else 0)) } := by
  rw [run_append, run_append, run_s _ _ k2, run_sdag _ _ k3, run_cz]
  · dsimp only
    congr 1
    funext q
    rw [add_assoc]
    by_cases hq : q ∈ dataOf L
    · rw [sum_partner (P := P) k1 k4' hs st.x hq, if_pos hq,
        ← add_assoc]
      congr 1
      have hsa : q ∈ sa ↔ G q = "S" := (k5 q).trans (and_iff_right hq)
      have hsb : q ∈ sb ↔ G q ≠ "S" ∧ G q = "S_DAG" := (k6 q).trans (and_iff_right hq)
      by_cases h1 : G q = "S"
      · simp [hsa, hsb, h1]
      · by_cases h2 : G q = "S_DAG" <;> simp [hsa, hsb, h2]
        · simp [h1]
    · have hsa : q ∉ sa := fun h => hq ((k5 q).1 h).1
      have hsb : q ∉ sb := fun h => hq ((k6 q).1 h).1
      rw [if_neg hsa, if_neg hsb, if_neg hq, sumIf_none, sumIf_none]
      · rfl
      · rintro b hb rfl
        rw [k4'] at hb
        exact hq (hs _ hb.1 _ hb.2.1).1
      · rintro b hb rfl
        rw [k4'] at hb
        exact hq hb.1
  · intro p hp
    rw [k4'] at hp
    exact (hs _ hp.1 _ hp.2.1).2.1.symm

/-- Effect of `log_trans_s`. -/
theorem acts_transS (hg : OnGrid l L dirs) (hr : CanRun nm l) (o : SetOrder)
    (hcode : l.code = "rotated_surface_code" ∨ l.code = "unrotated_surface_code") (hlab : firstLogical l = .ok lab)
    (ht : SymTable l (dataOf L) ("trans-s_" ++ lab) "cz" P G) :
    Acts nm (sumGen (transSIter o nm l)) (fun x _ => x) fun x z q => z q +
      (if q ∈ dataOf L then (if G q = "S" ∨ G q = "S_DAG" then x q else 0) + (match P q with
        | some e => x e
        | none => 0) else 0) := by
  obtain ⟨ps, sa, sb, k1, k2, k3, k4', k5, k6, hb⟩ := does_transS hg hr o hcode hlab ht
  exact acts_of_does hr.inj hb fun ρ st => run_transS ht.sym k1 k2 k3 k4' k5 k6 ρ st

/-- The operations of `log_trans_h`. -/
theorem does_transH (hg : OnGrid l L dirs) (hr : CanRun nm l) (o : SetOrder) (hcode : l.code = "unrotated_surface_code")
    (hlab : firstLogical l = .ok lab) (ht : SymTable l (dataOf L) ("trans-h_" ++ lab) "swap" P fun _ => "H") :
    ∃ (ps : List (String × String)) (sa : List String), ps.Nodup ∧ sa.Nodup ∧
      (∀ p, p ∈ ps ↔ p.1 ∈ dataOf L ∧ P p.1 = some p.2 ∧ p.1 < p.2) ∧ (∀ d, d ∈ sa ↔ d ∈ dataOf L) ∧
      Does nm.inds (sumGen (transHIter o nm l)) (sa.map Op.h ++ ps.map fun p => Op.swap p.1 p.2) := by
  have hk := grid_known hr hg
  have hkd : ∀ q ∈ dataOf L, q ∈ nm.inds.keys := fun q h => hk q (List.mem_append_left _ h)
  have hall : ∀ q ∈ L.map Prod.fst, q ∈ nm.inds.keys := hr.known _ hg.getQubits_all
  obtain ⟨ps, sa, sb, e, k1, k2, k3, k4, k5, k6⟩ := transLoop_ok (l := l) (label := "trans-h_" ++ lab) (g1 := "H")
    (g2 := "H") (show "swap" ≠ "local" by decide) (dataOf L) ht.attrs [] [] [] (by simp) (by simp) (by simp)
  simp only [List.not_mem_nil, false_or, and_true] at k4 k5 k6
  have k4' : ∀ p, p ∈ ps ↔ p.1 ∈ dataOf L ∧ P p.1 = some p.2 ∧ p.1 < p.2 := fun p => (k4 p).trans (ht.mem_pairs p)
  have hps : ∀ p ∈ o.ord ps, p.1 ∈ nm.inds.keys ∧ p.2 ∈ nm.inds.keys ∧ ind nm.inds p.1 ≠ ind nm.inds p.2 := by
    intro p hp
    rw [mem_ord, k4'] at hp
    have h2 := ht.sym _ hp.1 _ hp.2.1
    exact ⟨hkd _ hp.1, hkd _ h2.1, fun h => h2.2.1 (hr.inj _ (hkd _ hp.1) _ (hkd _ h2.1) h).symm⟩
  have hb : Does nm.inds (sumGen (transHIter o nm l)) ((o.ord sa).map Op.h ++
      (o.ord ps).map fun p => Op.swap p.1 p.2) := by
    unfold transHIter dataQubits
    rw [if_neg (by simp [hcode]), hg.getQubits_data, hg.getQubits_all, hlab]
    simp only [withE]
    rw [show dataOf L = labelsOf L _ from rfl] at e
    simp only [e]
    have d1 := does_incoming hr.faithful _ hkd
    have d2 := (does_h hr.faithful (o.ord sa) fun q h => hkd q ((k5 q).1 ((mem_ord o).1 h))).bind_concat
      (does_idle hr.faithful (o.ord (diff (setOf (L.map Prod.fst)) sa)) fun q h => by
        rw [mem_ord, mem_diff, mem_setOf] at h
        exact hall q h.1)
    have d3 := (does_swap hr.faithful _ hps).bind_concat
      (does_idle hr.faithful (o.ord (diff (setOf (L.map Prod.fst)) (setOf (chain (o.ord ps))))) fun q h => by
        rw [mem_ord, mem_diff, mem_setOf] at h
        exact hall q h.1)
    exact (Does.sumGen (Ls := [[], [], (o.ord sa).map Op.h ++ [], [],
      ((o.ord ps).map fun p => Op.swap p.1 p.2) ++ [], []])
      (.cons d1 (.cons (Does.tick _) (.cons d2 (.cons (Does.tick _) (.cons d3 (.cons (Does.tick _) .nil))))))).congr
      (by simp)
  exact ⟨o.ord ps, o.ord sa, (ord_nodup o).2 k1, (ord_nodup o).2 k2,
    fun p => (mem_ord o).trans (k4' p), fun d => (mem_ord o).trans (k5 d), hb⟩

/-- Effect of the operations of `log_trans_h`. -/
theorem run_transH {ps : List (String × String)} {sa : List String}
    (hs : ∀ d ∈ dataOf L, ∀ e, P d = some e → e ∈ dataOf L ∧ e ≠ d ∧ P e = some d) (k1 : ps.Nodup) (k2 : sa.Nodup)
    (k4' : ∀ p, p ∈ ps ↔ p.1 ∈ dataOf L ∧ P p.1 = some p.2 ∧ p.1 < p.2) (k5 : ∀ d, d ∈ sa ↔ d ∈ dataOf L)
    (ρ : Nat → ZMod 2) (st : FState String) :
    run ρ st (sa.map Op.h ++ ps.map fun p => Op.swap p.1 p.2) =
      { st with x := fun q => if q ∈ dataOf L then st.z ((P q).getD q) else st.x q,
                z := fun q => if q ∈ dataOf L then st.x ((P q).getD q) else st.z q } := by
  have hd : ∀ q, q ∈ dataOf L → (P q).getD q ∈ dataOf L := by
    intro q hq
    cases hP : P q with
    | none => exact hq
    | some e => exact (hs q hq e hP).1
  rw [run_append, run_h _ _ k2, run_swap]
  · congr 1
    · funext q
      rw [other_partner k4' hs]
      by_cases hq : q ∈ dataOf L
      · rw [if_pos hq, if_pos hq]; exact if_pos ((k5 _).2 (hd q hq))
      · rw [if_neg hq, if_neg hq]; exact if_neg fun h => hq ((k5 q).1 h)
    · funext q
      rw [other_partner k4' hs]
      by_cases hq : q ∈ dataOf L
      · rw [if_pos hq, if_pos hq]; exact if_pos ((k5 _).2 (hd q hq))
      · rw [if_neg hq, if_neg hq]; exact if_neg fun h => hq ((k5 q).1 h)
  · intro p hp
    rw [k4'] at hp
    exact (hs _ hp.1 _ hp.2.1).2.1.symm
  · exact pairs_disjoint k1 k4' hs

/-- Effect of `log_trans_h`. -/
theorem acts_transH (hg : OnGrid l L dirs) (hr : CanRun nm l) (o : SetOrder) (hcode : l.code = "unrotated_surface_code")
    (hlab : firstLogical l = .ok lab) (ht : SymTable l (dataOf L) ("trans-h_" ++ lab) "swap" P fun _ => "H") :
    Acts nm (sumGen (transHIter o nm l)) (fun x z q => if q ∈ dataOf L then z ((P q).getD q) else x q)
      fun x z q => if q ∈ dataOf L then x ((P q).getD q) else z q := by
  obtain ⟨ps, sa, k1, k2, k4', k5, hb⟩ := does_transH hg hr o hcode hlab ht
  exact acts_of_does hr.inj hb fun ρ st => run_transH ht.sym k1 k2 k4' k5 ρ st

end

end SurfaceSim
