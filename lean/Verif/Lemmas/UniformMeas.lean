/-
Models whose measurement steps always have the same instructions.
-/
import Verif.Lemmas.MergeRounds

namespace SurfaceSim
open Spec NoiseModel Blocks

/-- The names of the instructions. -/
abbrev gates (c : Circuit) : List Gate := c.map Instr.gate

theorem mkInstr_ok {g : Gate} {ts : List Target} {args : List Arg} {i : Instr} (h : mkInstr g ts args = .ok i) :
    i = ⟨g, ts, args⟩ := by
  unfold mkInstr at h
  split at h
  · simp at h
  · split at h
    · split at h
      · simp at h
      · split at h
        · simp at h
        · simp at h; rw [← h]
    · simp at h; rw [← h]

/-- The circuit ends with an instruction with this name and these arguments. -/
def EndsWith (c : Circuit) (g : Gate) (args : List Arg) : Prop := ∃ l, c.getLast? = some l ∧ l.gate = g ∧ l.args = args

theorem appendOp_same {c c' : Circuit} {g : Gate} {is : List Nat} {args : List Arg} (hf : g.notFusable = false)
    (hl : EndsWith c g args) (h : appendOp c g is args = .ok c') : gates c' = gates c ∧ EndsWith c' g args := by
  unfold appendOp at h
  split at h
  · simp at h
  · rename_i i hi
    have := mkInstr_ok hi
    subst this
    cases h
    obtain ⟨l, h1, h2, h3⟩ := hl
    unfold Circuit.append
    rw [h1]
    simp only [h2, h3, hf, and_self, if_true]
    have hne : c ≠ [] := by rintro rfl; simp at h1
    have hc : c = c.dropLast ++ [l] := by
      have := List.dropLast_append_getLast hne
      rw [List.getLast?_eq_some_getLast hne] at h1
      simp at h1
      rw [h1] at this; exact this.symm
    constructor
    · conv_rhs => rw [hc]
      simp [h2]
    · exact ⟨_, List.getLast?_concat, rfl, rfl⟩

theorem appendOp_new {c c' : Circuit} {g : Gate} {is : List Nat} {args : List Arg}
    (hl : ∀ l, c.getLast? = some l → l.gate ≠ g) (h : appendOp c g is args = .ok c') :
    gates c' = gates c ++ [g] ∧ EndsWith c' g args := by
  unfold appendOp at h
  split at h
  · simp at h
  · rename_i i hi
    have := mkInstr_ok hi
    subst this
    cases h
    unfold Circuit.append
    split
    · rename_i h0
      rw [List.getLast?_eq_none_iff] at h0
      subst h0
      exact ⟨rfl, _, rfl, rfl, rfl⟩
    · rename_i l h0
      rw [if_neg (fun hh => hl l h0 hh.1)]
      exact ⟨by simp, _, by rw [List.getLast?_concat], rfl, rfl⟩

theorem noiseLoop_same {g : Gate} {rule : ArgRule} {args : List Arg} (hf : g.notFusable = false)
    {L : List (List String × List Nat)} (hr : ∀ e ∈ L, ∀ a, rule e.1 = .ok a → a = args) {c c' : Circuit}
    (hl : EndsWith c g args) (h : noiseLoop g rule c L = .ok c') : gates c' = gates c ∧ EndsWith c' g args := by
  induction L generalizing c with
  | nil => simp [noiseLoop] at h; subst h; exact ⟨rfl, hl⟩
  | cons e L ih =>
    obtain ⟨qs, is⟩ := e
    unfold noiseLoop at h
    split at h
    · simp at h
    · rename_i a ha
      have := hr (qs, is) (by simp) a ha
      subst this
      split at h
      · simp at h
      · rename_i c1 h1
        obtain ⟨e1, e2⟩ := appendOp_same hf hl h1
        obtain ⟨e3, e4⟩ := ih (fun e he => hr e (by simp [he])) e2 h
        exact ⟨e3.trans e1, e4⟩

theorem noiseLoop_new {g : Gate} {rule : ArgRule} {args : List Arg} (hf : g.notFusable = false)
    {L : List (List String × List Nat)} (hL : L ≠ []) (hr : ∀ e ∈ L, ∀ a, rule e.1 = .ok a → a = args)
    {c c' : Circuit} (hl : ∀ l, c.getLast? = some l → l.gate ≠ g) (h : noiseLoop g rule c L = .ok c') :
    gates c' = gates c ++ [g] ∧ EndsWith c' g args := by
  cases L with
  | nil => exact absurd rfl hL
  | cons e L =>
    obtain ⟨qs, is⟩ := e
    unfold noiseLoop at h
    split at h
    · simp at h
    · rename_i a ha
      have := hr (qs, is) (by simp) a ha
      subst this
      split at h
      · simp at h
      · rename_i c1 h1
        obtain ⟨e1, e2⟩ := appendOp_new hl h1
        obtain ⟨e3, e4⟩ := noiseLoop_same hf (fun e he => hr e (by simp [he])) e2 h
        exact ⟨e3.trans e1, e4⟩

theorem gates_concat_new {a b : Circuit} (h : ∀ l, a.getLast? = some l → ∀ i, b.head? = some i → l.gate ≠ i.gate) :
    gates (a.concat b) = gates a ++ gates b := by
  cases b with
  | nil => simp [Circuit.concat, gates]
  | cons i r =>
    simp only [Circuit.concat, Circuit.append]
    split
    · rename_i h0
      rw [List.getLast?_eq_none_iff] at h0
      subst h0
      simp [gates]
    · rename_i l h0
      rw [if_neg (fun hh => h l h0 i rfl hh.1)]
      simp [gates]

theorem head_of_gates {c : Circuit} {g : Gate} {gs : List Gate} (h : gates c = g :: gs) {i : Instr}
    (hi : c.head? = some i) : i.gate = g := by
  cases c with
  | nil => simp at hi
  | cons j c =>
    simp only [List.head?_cons, Option.some.injEq] at hi
    subst hi
    simp [gates] at h
    exact h.1

theorem plus_gates {a b : Call1} {A B : List Gate} {s s' : MeasState} {c : Circuit} {g g' : Gate} {args : List Arg}
    (hg : g ≠ g') (ha : ∀ s c s', a s = (.ok c, s') → gates c = A ∧ EndsWith c g args)
    (hb : ∀ s c s', b s = (.ok c, s') → gates c = g' :: B) (h : plus a b s = (.ok c, s')) :
    gates c = A ++ g' :: B := by
  unfold plus at h
  obtain ⟨x, s1, h1, h⟩ := PyM.bind_eq_ok h
  obtain ⟨y, s2, h2, h⟩ := PyM.bind_eq_ok h
  simp only [pure, PyM.pure, Prod.mk.injEq, Except.ok.injEq] at h
  obtain ⟨e1, l, e2, e3, -⟩ := ha _ _ _ h1
  have e4 := hb _ _ _ h2
  rw [← h.1, gates_concat_new, e1, e4]
  intro l' hl' i hi
  rw [e2] at hl'; cases hl'
  rw [e3, head_of_gates e4 hi]; exact hg

theorem plainMeasLoop_same {inds : Dict String Nat} {g : Gate} (hf : g.notFusable = false) {qs : List String}
    {c c' : Circuit} {s s' : MeasState} (hl : EndsWith c g []) (h : plainMeasLoop inds g c qs s = (.ok c', s')) :
    gates c' = gates c ∧ EndsWith c' g [] := by
  induction qs generalizing c s with
  | nil => simp [plainMeasLoop, pure, PyM.pure] at h; rw [← h.1]; exact ⟨rfl, hl⟩
  | cons q qs ih =>
    unfold plainMeasLoop at h
    obtain ⟨_, s1, -, h⟩ := PyM.bind_eq_ok h
    obtain ⟨is, s2, -, h⟩ := PyM.bind_eq_ok h
    obtain ⟨c1, s3, h1, h⟩ := PyM.bind_eq_ok h
    simp only [PyM.ofExcept, Prod.mk.injEq] at h1
    obtain ⟨e1, e2⟩ := appendOp_same hf hl h1.1
    obtain ⟨e3, e4⟩ := ih e2 h
    exact ⟨e3.trans e1, e4⟩

theorem plainMeas_gates {inds : Dict String Nat} {g : Gate} (hf : g.notFusable = false) {qs : List String}
    (hq : qs ≠ []) (s : MeasState) (c : Circuit) (s' : MeasState) (h : plainMeasLoop inds g [] qs s = (.ok c, s')) :
    gates c = [g] ∧ EndsWith c g [] := by
  cases qs with
  | nil => exact absurd rfl hq
  | cons q qs =>
    unfold plainMeasLoop at h
    obtain ⟨_, s1, -, h⟩ := PyM.bind_eq_ok h
    obtain ⟨is, s2, -, h⟩ := PyM.bind_eq_ok h
    obtain ⟨c1, s3, h1, h⟩ := PyM.bind_eq_ok h
    simp only [PyM.ofExcept, Prod.mk.injEq] at h1
    obtain ⟨e1, e2⟩ := appendOp_new (by simp) h1.1
    obtain ⟨e3, e4⟩ := plainMeasLoop_same hf e2 h
    exact ⟨by rw [e3, e1]; rfl, e4⟩

theorem plainOp_gates {inds : Dict String Nat} {g : Gate} {qs : List String} {c : Circuit}
    (h : plainOp inds g qs = .ok c) : gates c = [g] := by
  unfold plainOp at h
  split at h
  · simp at h
  · exact (appendOp_new (by simp) h).1

/-- Measurements of the noiseless model are `M` followed by `I`. -/
theorem uniformMeas_noiseless (inds : Dict String Nat) : UniformMeas (noiseless inds) := by
  refine ⟨[.M] ++ [.I], by decide, fun qs rs hq hr s c s' h => ?_⟩
  refine plus_gates (g := .M) (by decide) (plainMeas_gates rfl hq) (fun s c s' h => ?_) h
  simp only [noiseless, lift, PyM.ofExcept, Prod.mk.injEq] at h
  exact plainOp_gates h.1

/-- The parameter has the same value for all qubits. -/
def SameForAll (st : Setup) (p : String) : Prop := ∀ q q' : String, st.param p [q] = st.param p [q']

theorem plainArgs_same {st : Setup} {p : String} (h : SameForAll st p) (q q' : String) :
    plainArgs st p [q] = plainArgs st p [q'] := by
  unfold plainArgs numParam
  rw [h q q']

theorem singles_ne {qs : List String} {is : List Nat} (hq : qs ≠ []) (hl : is.length = qs.length) :
    singles qs is ≠ [] := by
  unfold singles
  cases qs with
  | nil => exact absurd rfl hq
  | cons q qs =>
    cases is with
    | nil => simp at hl
    | cons i is => simp

theorem mem_singles {qs : List String} {is : List Nat} {e : List String × List Nat} (h : e ∈ singles qs is) :
    ∃ q i, e = ([q], [i]) := by
  unfold singles at h
  obtain ⟨p, -, rfl⟩ := List.mem_map.1 h
  exact ⟨_, _, rfl⟩

theorem getInds_length {inds : Dict String Nat} {qs : List String} {is : List Nat} (h : getInds inds qs = .ok is) :
    is.length = qs.length := by
  unfold getInds at h
  induction qs generalizing is with
  | nil => simp [mapExcept] at h; rw [h]; rfl
  | cons q qs ih =>
    simp only [mapExcept] at h
    split at h
    · simp at h
    · split at h
      · simp at h
      · rename_i h2
        simp at h
        rw [← h, List.length_cons, ih h2, List.length_cons]

theorem noise_args {st : Setup} {p : String} (hs : SameForAll st p) {g : Gate} {qs : List String} {is : List Nat} {c c' : Circuit}
    (hq : qs ≠ []) (hi : is.length = qs.length) (hf : g.notFusable = false)
    (hl : ∀ l, c.getLast? = some l → l.gate ≠ g)
    (h : noiseLoop g (plainArgs st p) c (singles qs is) = .ok c') : gates c' = gates c ++ [g] ∧ ∃ args, EndsWith c' g args := by
  cases he : plainArgs st p [""] with
  | error e =>
    cases qs with
    | nil => exact absurd rfl hq
    | cons q qs =>
      cases is with
      | nil => simp at hi
      | cons i is =>
        simp only [singles, List.zip_cons_cons, List.map_cons, noiseLoop] at h
        rw [plainArgs_same hs q "", he] at h
        simp at h
  | ok args =>
    have := noiseLoop_new hf (singles_ne hq hi) (args := args) (fun e hem a ha => by
      obtain ⟨q, i, rfl⟩ := mem_singles hem
      simp only at ha
      rw [plainArgs_same hs q "", he] at ha
      simpa using ha.symm) hl h
    exact ⟨this.1, args, this.2⟩

theorem measLoop_same {st : Setup} (h1 : SameForAll st "assign_error_flag") (h2 : SameForAll st "assign_error_prob")
    {inds : Dict String Nat} {g : Gate} (hf : g.notFusable = false) :
    ∃ args, ∀ (qs : List (String × Nat)) (c c' : Circuit) (s s' : MeasState),
      measLoop st inds g c qs s = (.ok c', s') → (EndsWith c g args → gates c' = gates c ∧ EndsWith c' g args) ∧
        (qs ≠ [] → (∀ l, c.getLast? = some l → l.gate ≠ g) → gates c' = gates c ++ [g] ∧ EndsWith c' g args) := by
  refine ⟨match st.param "assign_error_flag" [""] with
    | .error _ => []
    | .ok fl => if fl.truthy then (match plainArgs st "assign_error_prob" [""] with | .ok a => a | .error _ => []) else [],
    ?_⟩
  generalize hargs : (match st.param "assign_error_flag" [""] with
    | .error _ => []
    | .ok fl => if fl.truthy then (match plainArgs st "assign_error_prob" [""] with | .ok a => a | .error _ => []) else []) = args
  have step : ∀ (q : String) (i : Nat) (qs : List (String × Nat)) (c c' : Circuit) (s s' : MeasState),
      measLoop st inds g c ((q, i) :: qs) s = (.ok c', s') → ∃ c1 s1, appendOp c g [i] args = .ok c1 ∧
        measLoop st inds g c1 qs s1 = (.ok c', s') := by
    intro q i qs c c' s s' h
    unfold measLoop at h
    obtain ⟨_, s1, -, h⟩ := PyM.bind_eq_ok h
    obtain ⟨fl, s2, h3, h⟩ := PyM.bind_eq_ok h
    simp only [PyM.ofExcept, Prod.mk.injEq] at h3
    rw [h1 q ""] at h3
    rw [h3.1] at hargs
    simp only at h hargs
    split at h
    · rename_i ht
      obtain ⟨a, s3, h4, h⟩ := PyM.bind_eq_ok h
      obtain ⟨c1, s4, h5, h⟩ := PyM.bind_eq_ok h
      simp only [PyM.ofExcept, Prod.mk.injEq] at h4 h5
      rw [if_pos ht, ← plainArgs_same h2 q "", h4.1] at hargs
      simp only at hargs
      subst hargs
      exact ⟨c1, s4, h5.1, h⟩
    · rename_i ht
      obtain ⟨a, s3, h4, h⟩ := PyM.bind_eq_ok h
      obtain ⟨c1, s4, h5, h⟩ := PyM.bind_eq_ok h
      simp only [PyM.ofExcept, pure, PyM.pure, Prod.mk.injEq, Except.ok.injEq] at h4 h5
      rw [if_neg ht] at hargs
      subst hargs
      rw [← h4.1] at h5
      exact ⟨c1, s4, h5.1, h⟩
  intro qs
  induction qs with
  | nil =>
    intro c c' s s' h
    simp only [measLoop, pure, PyM.pure, Prod.mk.injEq, Except.ok.injEq] at h
    refine ⟨fun hl => ?_, fun hn => absurd rfl hn⟩
    rw [← h.1]; exact ⟨rfl, hl⟩
  | cons q qs ih =>
    intro c c' s s' h
    obtain ⟨c1, s1, e1, e2⟩ := step q.1 q.2 qs c c' s s' h
    refine ⟨fun hl => ?_, fun _ hl => ?_⟩
    · obtain ⟨a1, a2⟩ := appendOp_same hf hl e1
      obtain ⟨b1, b2⟩ := (ih _ _ _ _ e2).1 a2
      exact ⟨b1.trans a1, b2⟩
    · obtain ⟨a1, a2⟩ := appendOp_new hl e1
      obtain ⟨b1, b2⟩ := (ih _ _ _ _ e2).1 a2
      exact ⟨b1.trans a1, b2⟩

theorem measOp_gates {st : Setup} (h0 : SameForAll st "meas_error_prob") (h1 : SameForAll st "assign_error_flag")
    (h2 : SameForAll st "assign_error_prob") {inds : Dict String Nat} :
    ∃ args, ∀ (qs : List String), qs ≠ [] → ∀ s c s', measOp st inds .M .X_ERROR qs s = (.ok c, s') →
      gates c = [.X_ERROR, .M] ∧ EndsWith c .M args := by
  obtain ⟨args, ha⟩ := measLoop_same h1 h2 (inds := inds) (g := .M) rfl
  refine ⟨args, fun qs hq s c s' h => ?_⟩
  unfold measOp at h
  obtain ⟨is, s1, e1, h⟩ := PyM.bind_eq_ok h
  obtain ⟨c1, s2, e2, h⟩ := PyM.bind_eq_ok h
  simp only [PyM.ofExcept, Prod.mk.injEq] at e1 e2
  have hlen := getInds_length e1.1
  obtain ⟨k1, args', l, k2, k3, -⟩ := noise_args h0 hq hlen rfl (by simp) e2.1
  have hne : qs.zip is ≠ [] := by
    cases qs with
    | nil => exact absurd rfl hq
    | cons q qs =>
      cases is with
      | nil => simp at hlen
      | cons i is => simp
  obtain ⟨k4, k5⟩ := (ha _ _ _ _ _ h).2 hne (fun l' hl' => by rw [k2] at hl'; cases hl'; rw [k3]; decide)
  exact ⟨by rw [k4, k1]; rfl, k5⟩

/-- With the same measurement and idling parameters for all qubits, measurements of the circuit-level model are
`X_ERROR`, `M`, `DEPOLARIZE1`. -/
theorem uniformMeas_circuitNoise (st : Setup) (inds : Dict String Nat) (h0 : SameForAll st "meas_error_prob")
    (h1 : SameForAll st "assign_error_flag") (h2 : SameForAll st "assign_error_prob")
    (h3 : SameForAll st "idle_error_prob") : UniformMeas (circuitNoise st inds) := by
  obtain ⟨args, ha⟩ := measOp_gates h0 h1 h2 (inds := inds)
  refine ⟨[.X_ERROR, .M] ++ [.DEPOLARIZE1], by decide, fun qs rs hq hr s c s' h => ?_⟩
  refine plus_gates (g := .M) (by decide) (ha qs hq) (fun s c s' h => ?_) h
  simp only [circuitNoise, lift, PyM.ofExcept, Prod.mk.injEq] at h
  have h := h.1
  unfold noiseOnly at h
  split at h
  · simp at h
  · rename_i is hi
    exact (noise_args h3 hr (getInds_length hi) rfl (by simp) h).1

/-- Same for the phenomenological model: `X_ERROR`, `M`, `I`. -/
theorem uniformMeas_phenomenological (st : Setup) (inds : Dict String Nat) (h0 : SameForAll st "meas_error_prob")
    (h1 : SameForAll st "assign_error_flag") (h2 : SameForAll st "assign_error_prob") :
    UniformMeas (phenomenological st inds) := by
  obtain ⟨args, ha⟩ := measOp_gates h0 h1 h2 (inds := inds)
  refine ⟨[.X_ERROR, .M] ++ [.I], by decide, fun qs rs hq hr s c s' h => ?_⟩
  refine plus_gates (g := .M) (by decide) (ha qs hq) (fun s c s' h => ?_) h
  simp only [phenomenological, incoming, noiseless, lift, PyM.ofExcept, Prod.mk.injEq] at h
  exact plainOp_gates h.1

end SurfaceSim
