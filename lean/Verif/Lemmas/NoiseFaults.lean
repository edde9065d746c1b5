/-
Errors of the noise channels are faults.
-/
import Verif.Spec.NoiseFaults
import Verif.Lemmas.Faults
import Verif.Lemmas.FaultsMemory
import Verif.Lemmas.UsageExp

namespace SurfaceSim
open Spec NoiseModel Blocks Experiments LayoutLib

/-! ### faults -/

theorem Spec.Faulty.pass {Q : Type} {B L : List (Op Q)} {k : Nat} (A : List (Op Q)) {P : Q → Q → Prop}
    (h : Faulty (A.foldl justCoupled P) B L k) : Faulty P (A ++ B) (A ++ L) k := by
  induction A generalizing P with
  | nil => exact h
  | cons o A ih => exact .op o (ih h)

theorem Spec.Faulty.errors1 {B L E : List (Op Nat)} {j k : Nat} {qs : List Nat} {P : Nat → Nat → Prop}
    (h : Faulty P B L k) (he : Errors1 qs E j) : Faulty P B (E ++ L) (j + k) := by
  induction he with
  | none => simpa using h
  | skip q _ ih => exact ih
  | hit q bx bz _ ih =>
    rw [List.append_assoc, Nat.add_right_comm]
    exact .one q bx bz ih

theorem Spec.Faulty.errors2 {B L E : List (Op Nat)} {j k : Nat} {ps : List (Nat × Nat)} {P : Nat → Nat → Prop}
    (h : Faulty P B L k) (hP : ∀ p ∈ ps, P p.1 p.2) (he : Errors2 ps E j) : Faulty P B (E ++ L) (j + k) := by
  induction he with
  | none => simpa using h
  | skip q _ ih => exact ih fun p hp => hP p (by simp [hp])
  | hit p ax az bx bz _ ih =>
    rw [List.append_assoc, Nat.add_right_comm]
    exact .two p.1 p.2 ax az bx bz (hP p (by simp)) (ih fun p hp => hP p (by simp [hp]))

theorem Spec.Faulty.readout {B L E : List (Op Nat)} {j k : Nat} {qs : List Nat} {P : Nat → Nat → Prop}
    (he : Readout .m .x qs E j) (h : Faulty ((qs.map Op.m).foldl justCoupled P) B L k) :
    Faulty P (qs.map Op.m ++ B) (E ++ L) (j + k) := by
  induction he generalizing P with
  | none => simpa using h
  | right q _ ih => exact .op _ (ih h)
  | wrong q _ ih =>
    rw [List.append_assoc, Nat.add_right_comm]
    exact .outcome q (ih h)

/-! ### which pairs have just interacted -/

theorem touches_qubits {i : Instr} {o : Op Nat} (ho : o ∈ instrOps i) {q : Nat} (h : o.Touches q) :
    acts i.gate = true ∧ q ∈ i.qubits := by
  have hp : ∀ {a b : Nat}, (a, b) ∈ pairs i.qubits → a ∈ i.qubits ∧ b ∈ i.qubits := by
    intro a b hab
    unfold pairs at hab
    cases hu : pairUp i.qubits with
    | none => rw [hu] at hab; simp at hab
    | some ps =>
      rw [hu] at hab
      have := (pairUp_both hu).1
      rw [← this]
      simp only [Option.getD_some] at hab
      exact ⟨List.mem_flatMap.2 ⟨_, hab, by simp⟩, List.mem_flatMap.2 ⟨_, hab, by simp⟩⟩
  unfold instrOps at ho
  split at ho <;> rename_i hg <;> (try (simp only [List.not_mem_nil] at ho)) <;>
    (try (simp only [List.mem_singleton] at ho; subst ho; exact absurd h (by simp [Op.Touches]))) <;>
    (try (obtain ⟨q', hq', rfl⟩ := List.mem_map.1 ho
          rw [hg]
          refine ⟨by decide, ?_⟩
          first
          | (simp only [Op.Touches] at h; subst h; exact hq')
          | (obtain ⟨a, b⟩ := q'
             simp only [Op.Touches] at h
             rcases h with rfl | rfl
             · exact (hp hq').1
             · exact (hp hq').2)))

theorem foldl_coupled {Q : Type} {A : List (Op Q)} {P : Q → Q → Prop} {a b : Q} (h : P a b)
    (ha : ∀ o ∈ A, ¬ o.Touches a ∧ ¬ o.Touches b) : A.foldl justCoupled P a b := by
  induction A generalizing P with
  | nil => exact h
  | cons o A ih =>
    exact ih (.inr (.inr (.inr ⟨h, ha o (by simp)⟩))) fun o ho => ha o (by simp [ho])

theorem foldl_pairs {g : Nat → Nat → Op Nat} (hg : ∀ a b P, justCoupled P (g a b) a b)
    (ht : ∀ a b q, (g a b).Touches q ↔ q = a ∨ q = b) {ps : List (Nat × Nat)} (hn : (ps.flatMap fun p => [p.1, p.2]).Nodup)
    {P : Nat → Nat → Prop} : ∀ p ∈ ps, (ps.map fun p => g p.1 p.2).foldl justCoupled P p.1 p.2 := by
  induction ps generalizing P with
  | nil => simp
  | cons p ps ih =>
    intro p' hp'
    rw [List.flatMap_cons, List.nodup_append] at hn
    obtain ⟨-, h2, h3⟩ := hn
    rcases List.mem_cons.1 hp' with rfl | hp'
    · rw [List.map_cons, List.foldl_cons]
      refine foldl_coupled (hg _ _ _) ?_
      intro o ho
      obtain ⟨r, hr, rfl⟩ := List.mem_map.1 ho
      have key : ∀ q ∈ [p'.1, p'.2], q ≠ r.1 ∧ q ≠ r.2 := by
        intro q hq
        exact ⟨h3 q hq r.1 (List.mem_flatMap.2 ⟨r, hr, by simp⟩), h3 q hq r.2 (List.mem_flatMap.2 ⟨r, hr, by simp⟩)⟩
      rw [ht, ht]
      have k1 := key p'.1 (by simp)
      have k2 := key p'.2 (by simp)
      exact ⟨fun h => h.elim k1.1 k1.2, fun h => h.elim k2.1 k2.2⟩
    · exact ih h2 p' hp'

/-! ### realizations -/

/-- The first step of a circuit. -/
def firstBlock (c : Circuit) : Circuit := (tickBlocks c).headD []

theorem tickBlocks_eq (c : Circuit) : tickBlocks c = firstBlock c :: (tickBlocks c).tail := by
  unfold firstBlock
  cases h : tickBlocks c with
  | nil => exact absurd h (tickBlocks_ne c)
  | cons b bs => rfl

theorem realizes_faulty {c : Circuit} {L : List (Op Nat)} {k : Nat} (h : Realizes c L k) :
    ∀ (S : List (Nat × Nat)) (P : Nat → Nat → Prop), (∀ p ∈ S, P p.1 p.2) →
      (∀ p ∈ S, p.1 ∉ used acts (firstBlock c) ∧ p.2 ∉ used acts (firstBlock c)) →
      (∀ b ∈ tickBlocks c, (used acts b).Nodup) → Follows S c → Faulty P (ops c) L k := by
  induction h with
  | done => intro S P _ _ _ _; exact .done P
  | @instr c E L j k i hi h ih =>
    intro S P hP hS hn hf
    have ho : ops (i :: c) = instrOps i ++ ops c := by simp [ops]
    rw [ho]
    by_cases ht : i.gate = .TICK
    · have hb : tickBlocks (i :: c) = [] :: tickBlocks c := by simp [tickBlocks, ht]
      unfold Follows at hf
      rw [if_pos ht] at hf
      have he : instrOps i = [] := by simp [instrOps, ht]
      simp only [Behaves, ht] at hi
      obtain ⟨h1, h2⟩ := hi
      rw [h1, h2, he, Nat.zero_add]
      exact ih [] P (by simp) (by simp) (fun b hb' => hn b (by rw [hb]; simp [hb'])) hf
    · have hb : tickBlocks (i :: c) = (i :: firstBlock c) :: (tickBlocks c).tail := by
        simp only [tickBlocks, if_neg ht]
        rw [tickBlocks_eq c]
        rfl
      have hfb : firstBlock (i :: c) = i :: firstBlock c := by unfold firstBlock; rw [hb]; rfl
      have hu : used acts (i :: firstBlock c) = (if acts i.gate then i.qubits else []) ++ used acts (firstBlock c) := by
        simp [used]
      rw [hfb, hu] at hS
      have hn1 := hn _ (by rw [hb]; exact List.mem_cons_self)
      rw [hu] at hn1
      have hn' : ∀ b ∈ tickBlocks c, (used acts b).Nodup := by
        intro b hb'
        rw [tickBlocks_eq c] at hb'
        rcases List.mem_cons.1 hb' with rfl | hb'
        · exact (List.nodup_append.1 hn1).2.1
        · exact hn b (by rw [hb]; simp [hb'])
      have hS' : ∀ p ∈ S, p.1 ∉ used acts (firstBlock c) ∧ p.2 ∉ used acts (firstBlock c) := fun p hp =>
        ⟨fun h => (hS p hp).1 (List.mem_append_right _ h), fun h => (hS p hp).2 (List.mem_append_right _ h)⟩
      -- the pairs of before are not touched
      have hkeep : ∀ p ∈ S, (instrOps i).foldl justCoupled P p.1 p.2 := by
        intro p hp
        refine foldl_coupled (hP p hp) fun o ho => ⟨fun h => ?_, fun h => ?_⟩ <;>
          obtain ⟨t1, t2⟩ := touches_qubits ho h
        · exact (hS p hp).1 (List.mem_append_left _ (by rw [t1]; exact t2))
        · exact (hS p hp).2 (List.mem_append_left _ (by rw [t1]; exact t2))
      have htwo : ∀ {g : Nat → Nat → Op Nat}, (∀ a b P, justCoupled P (g a b) a b) →
          (∀ a b q, (g a b).Touches q ↔ q = a ∨ q = b) → acts i.gate = true →
          instrOps i = ((pairs i.qubits).map fun p => g p.1 p.2) → Follows (pairs i.qubits ++ S) c →
          Faulty P (instrOps i ++ ops c) (instrOps i ++ L) k := by
        intro g hg hgt ha he hf
        rw [ha, if_pos rfl] at hn1
        have hflat : ∀ {q : Nat}, q ∈ ((pairs i.qubits).flatMap fun p => [p.1, p.2]) → q ∈ i.qubits := by
          intro q hq
          unfold pairs at hq
          cases hu : pairUp i.qubits with
          | none => rw [hu] at hq; simp at hq
          | some ps => rw [hu] at hq; rw [← (pairUp_both hu).1]; exact hq
        have hnd : ((pairs i.qubits).flatMap fun p => [p.1, p.2]).Nodup := by
          unfold pairs
          cases hu : pairUp i.qubits with
          | none => simp
          | some ps => rw [Option.getD_some, (pairUp_both hu).1]; exact (List.nodup_append.1 hn1).1
        refine Spec.Faulty.pass _ (ih _ _ ?_ ?_ hn' hf)
        · intro p hp
          rcases List.mem_append.1 hp with hp | hp
          · rw [he]; exact foldl_pairs hg hgt hnd p hp
          · exact hkeep p hp
        · intro p hp
          rcases List.mem_append.1 hp with hp | hp
          · have hd := (List.nodup_append.1 hn1).2.2
            have d1 := hflat (List.mem_flatMap.2 ⟨p, hp, by simp⟩ : p.1 ∈ _)
            have d2 := hflat (List.mem_flatMap.2 ⟨p, hp, by simp⟩ : p.2 ∈ _)
            exact ⟨fun h => hd _ d1 _ h rfl, fun h => hd _ d2 _ h rfl⟩
          · exact hS' p hp
      have hone : instrOps i = [] → Errors1 i.qubits E j → Follows S c → Faulty P (instrOps i ++ ops c) (E ++ L) (j + k) := by
        intro he hi hf
        rw [he]
        exact (ih S P hP hS' hn' hf).errors1 hi
      have hoth : E = instrOps i ∧ j = 0 → Follows S c → Faulty P (instrOps i ++ ops c) (E ++ L) (j + k) := by
        rintro ⟨rfl, rfl⟩ hf
        rw [Nat.zero_add]
        exact Spec.Faulty.pass _ (ih S _ hkeep hS' hn' hf)
      unfold Follows at hf
      rw [if_neg ht] at hf
      unfold Behaves at hi
      cases hg : i.gate <;> rw [hg] at hf hi <;> simp at hf hi
      case CZ =>
        obtain ⟨rfl, rfl⟩ := hi
        rw [Nat.zero_add]
        exact htwo (g := .cz) (fun a b P => .inl rfl) (fun _ _ _ => Iff.rfl) (by rw [hg]; decide) (by simp [instrOps, hg]) hf
      case CX =>
        obtain ⟨rfl, rfl⟩ := hi
        rw [Nat.zero_add]
        exact htwo (g := .cx) (fun a b P => .inr (.inl rfl)) (fun _ _ _ => Iff.rfl) (by rw [hg]; decide)
          (by simp [instrOps, hg]) hf
      case SWAP =>
        obtain ⟨rfl, rfl⟩ := hi
        rw [Nat.zero_add]
        exact htwo (g := .swap) (fun a b P => .inr (.inr (.inl rfl))) (fun _ _ _ => Iff.rfl) (by rw [hg]; decide)
          (by simp [instrOps, hg]) hf
      case TICK => exact absurd hg ht
      case DEPOLARIZE2 =>
        have he : instrOps i = [] := by simp [instrOps, hg]
        rw [he]
        exact (ih S P hP hS' hn' hf.2).errors2 (fun p hp => hP p (hf.1 p.1 p.2 hp)) hi
      case PAULI_CHANNEL_2 =>
        have he : instrOps i = [] := by simp [instrOps, hg]
        rw [he]
        exact (ih S P hP hS' hn' hf.2).errors2 (fun p hp => hP p (hf.1 p.1 p.2 hp)) hi
      case M =>
        have he : instrOps i = i.qubits.map .m := by simp [instrOps, hg]
        rw [he] at hkeep ⊢
        exact Spec.Faulty.readout hi (ih S _ hkeep hS' hn' hf)
      case DEPOLARIZE1 => exact hone (by simp [instrOps, hg]) hi hf
      case X_ERROR => exact hone (by simp [instrOps, hg]) hi hf
      case Z_ERROR => exact hone (by simp [instrOps, hg]) hi hf
      case PAULI_CHANNEL_1 => exact hone (by simp [instrOps, hg]) hi hf
      all_goals exact hoth hi hf

theorem protects_of_detects {c : Circuit} {d : Nat} (hn : ∀ b ∈ tickBlocks c, (used acts b).Nodup) (hf : Follows [] c)
    (hd : Detects d c) : Protects d c := fun L k hr hk ζ ρ h =>
  hd L k (realizes_faulty hr [] _ (by simp) (by simp) hn hf) hk ζ ρ h

/-! ### wrong outcomes are errors -/

theorem Misread.split {A B L : List (Op Nat)} {k : Nat} (h : Misread (A ++ B) L k) :
    ∃ L1 L2 k1 k2, L = L1 ++ L2 ∧ k = k1 + k2 ∧ Misread A L1 k1 ∧ Misread B L2 k2 := by
  induction A generalizing L k with
  | nil => exact ⟨[], L, 0, k, rfl, (Nat.zero_add k).symm, .nil, h⟩
  | cons o A ih =>
    cases h with
    | keep _ h =>
      obtain ⟨L1, L2, k1, k2, rfl, rfl, h1, h2⟩ := ih h
      exact ⟨_, L2, k1, k2, rfl, rfl, .keep _ h1, h2⟩
    | wrong q h =>
      obtain ⟨L1, L2, k1, k2, rfl, rfl, h1, h2⟩ := ih h
      exact ⟨_, L2, k1 + 1, k2, rfl, by omega, .wrong _ h1, h2⟩

theorem Misread.readout {qs : List Nat} {L : List (Op Nat)} {k : Nat} (h : Misread (qs.map Op.m) L k) :
    Readout .m .x qs L k := by
  induction qs generalizing L k with
  | nil => cases h; exact .none
  | cons q qs ih =>
    cases h with
    | keep _ h => exact .right q (ih h)
    | wrong _ h => exact .wrong q (ih h)

theorem Misread.other {A L : List (Op Nat)} {k : Nat} (hA : ∀ q, Op.m q ∉ A) (h : Misread A L k) : L = A ∧ k = 0 := by
  induction h with
  | nil => exact ⟨rfl, rfl⟩
  | keep o h ih =>
    obtain ⟨rfl, rfl⟩ := ih fun q hq => hA q (by simp [hq])
    exact ⟨rfl, rfl⟩
  | wrong q h ih => exact (hA q (by simp)).elim

theorem readout_right (m flip : Nat → Op Nat) (qs : List Nat) : Readout m flip qs (qs.map m) 0 := by
  induction qs with
  | nil => exact .none
  | cons q qs ih => exact .right q ih

theorem errors1_none (qs : List Nat) : Errors1 qs [] 0 := by
  induction qs with
  | nil => exact .none
  | cons q qs ih => exact .skip q ih

theorem errors2_none (ps : List (Nat × Nat)) : Errors2 ps [] 0 := by
  induction ps with
  | nil => exact .none
  | cons q qs ih => exact .skip q ih

theorem Misread.behaves {i : Instr} {L : List (Op Nat)} {k : Nat} (h : Misread (instrOps i) L k) : Behaves i L k := by
  obtain ⟨g, ts, args⟩ := i
  unfold instrOps at h
  unfold Behaves
  cases g
  case M => exact h.readout
  case DEPOLARIZE1 => obtain ⟨rfl, rfl⟩ := h.other (by simp); exact errors1_none _
  case X_ERROR => obtain ⟨rfl, rfl⟩ := h.other (by simp); exact errors1_none _
  case Z_ERROR => obtain ⟨rfl, rfl⟩ := h.other (by simp); exact errors1_none _
  case PAULI_CHANNEL_1 => obtain ⟨rfl, rfl⟩ := h.other (by simp); exact errors1_none _
  case DEPOLARIZE2 => obtain ⟨rfl, rfl⟩ := h.other (by simp); exact errors2_none _
  case PAULI_CHANNEL_2 => obtain ⟨rfl, rfl⟩ := h.other (by simp); exact errors2_none _
  case MX => obtain ⟨rfl, rfl⟩ := h.other (by simp); exact readout_right _ _ _
  case MY => obtain ⟨rfl, rfl⟩ := h.other (by simp); exact readout_right _ _ _
  all_goals exact h.other (by simp [instrOps])

theorem Misread.realizes {c : Circuit} {L : List (Op Nat)} {k : Nat} (h : Misread (ops c) L k) : Realizes c L k := by
  induction c generalizing L k with
  | nil => cases h; exact .done
  | cons i c ih =>
    obtain ⟨L1, L2, k1, k2, rfl, rfl, h1, h2⟩ := Misread.split (A := instrOps i) (B := ops c) h
    exact .instr i h1.behaves (ih h2)

theorem Unseen.not_protects {m : Nat} {c : Circuit} (h : Unseen m c) : ¬ Protects (m + 1) c := by
  obtain ⟨L, h1, ζ, ρ, h2, h3⟩ := h
  exact fun hd => h3 (hd L m h1.realizes (Nat.lt_succ_self _) ζ ρ h2)

theorem Spec.Timeline.nodup {ex : Bool} {qs : List Nat} {steps : List Bool} {c : Circuit} (h : Timeline acts ex qs steps c)
    (hq : qs.Nodup) : ∀ b ∈ tickBlocks c, (used acts b).Nodup := by
  unfold Timeline at h
  have : ∀ (s : List Bool) (u : List (List Nat)), List.Forall₂ (fun b u => if b then (if ex then u.Perm qs else u.Subperm qs)
      else u = []) s u → ∀ v ∈ u, v.Nodup := by
    intro s u hu
    induction hu with
    | nil => simp
    | @cons b v s u h1 _ ih =>
      intro w hw
      rcases List.mem_cons.1 hw with rfl | hw
      · cases b with
        | false => simp only [Bool.false_eq_true, if_false] at h1; rw [h1]; exact List.nodup_nil
        | true =>
          cases ex with
          | true => simp only [if_true] at h1; exact h1.symm.nodup hq
          | false =>
            simp only [if_true, Bool.false_eq_true, if_false] at h1
            obtain ⟨l, hl, hs⟩ := h1
            exact hl.nodup (hs.nodup hq)
      · exact ih w hw
  intro b hb
  exact this _ _ h _ (List.mem_map_of_mem hb)

end SurfaceSim
