/-
Qubits used by the circuit blocks.
-/
import Verif.Lemmas.Usage
import Verif.Lemmas.MergeTail
import Verif.Lemmas.PipeRounds
import Verif.Lemmas.UnrotRounds

namespace SurfaceSim
open Spec NoiseModel Blocks LayoutLib

variable {p : Gate → Bool}

/-- The idling qubits that count. -/
def idl (ex : Bool) (l : List String) : List String := if ex then l else []

/-- Every qubit once, or at most once. -/
def Once {α : Type} (ex : Bool) (qs u : List α) : Prop := if ex then u.Perm qs else u.Subperm qs

theorem Once.map {α β : Type} {ex : Bool} {qs u : List α} (h : Once ex qs u) (f : α → β) :
    Once ex (qs.map f) (u.map f) := by
  cases ex
  · obtain ⟨l, hp, hs⟩ : List.Subperm u qs := h
    exact ⟨l.map f, hp.map f, hs.map f⟩
  · exact List.Perm.map f (l₁ := u) (l₂ := qs) h

theorem once_of {ex : Bool} {qs S T : List String} (hn : (S ++ T).Nodup) (hq : qs.Nodup)
    (hm : ∀ q, q ∈ S ++ T ↔ q ∈ qs) : Once ex qs (S ++ idl ex T) := by
  have hp : (S ++ T).Perm qs := (List.perm_ext_iff_of_nodup hn hq).2 hm
  cases ex
  · show List.Subperm (S ++ []) qs
    rw [List.append_nil]
    exact (List.sublist_append_left S T).subperm.trans hp.subperm
  · exact hp

theorem once_full {ex : Bool} {qs S : List String} (hn : S.Nodup) (hq : qs.Nodup) (hm : ∀ q, q ∈ S ↔ q ∈ qs) :
    Once ex qs S := by
  have := once_of (ex := ex) (S := S) (T := []) (qs := qs) (by simpa) hq (by simpa)
  cases ex <;> simpa [idl] using this

/-- Some qubits and all the other ones. -/
theorem once_rest {ex : Bool} {qs all S R : List String} (o : SetOrder) (hS : S.Nodup) (hq : qs.Nodup) (ha : all.Nodup)
    (hall : ∀ q, q ∈ all ↔ q ∈ qs) (hsub : ∀ q ∈ S, q ∈ qs) (hR : ∀ q, q ∈ R ↔ q ∈ S) :
    Once ex qs (S ++ idl ex (o.ord (diff all R))) := by
  refine once_of ?_ hq ?_
  · rw [List.nodup_append]
    refine ⟨hS, (ord_nodup o).2 (ha.filter _), ?_⟩
    rintro a h1 b h2 rfl
    rw [mem_ord, mem_diff, hR] at h2
    exact h2.2 h1
  · intro q
    rw [List.mem_append, mem_ord, mem_diff, hR, hall]
    constructor
    · rintro (h | h)
      · exact hsub q h
      · exact h.1
    · intro h
      by_cases hs : q ∈ S
      · exact .inl hs
      · exact .inr ⟨h, hs⟩

section
variable {nm : NoiseModel} {ex : Bool}

theorem DoesUse.plus {inds : Dict String Nat} {a b : Call1} {l m : List String} (ha : DoesUse p inds a (.qs l))
    (hb : DoesUse p inds b (.qs m)) : DoesUse p inds (plus a b) (.qs (l ++ m)) := by
  intro s c s' h
  unfold Blocks.plus at h
  obtain ⟨x, s1, h1, h⟩ := PyM.bind_eq_ok h
  obtain ⟨y, s2, h2, h⟩ := PyM.bind_eq_ok h
  simp only [pure, PyM.pure, Prod.mk.injEq, Except.ok.injEq] at h
  rw [← h.1]
  obtain ⟨a1, a2⟩ := ha _ _ _ h1
  obtain ⟨b1, b2⟩ := hb _ _ _ h2
  exact ⟨NoTick.concat a1 b1, by rw [used_concat, a2, b2, List.map_append]⟩

theorem DoesUse.isTick (inds : Dict String Nat) : DoesUse p inds Blocks.tick .tick := by
  intro s c s' h
  simp only [Blocks.tick, pure, PyM.pure, Prod.mk.injEq, Except.ok.injEq] at h
  exact h.1.symm

section
variable (hu : Uses p ex nm)
include hu

theorem Spec.Uses.x (qs : List String) : DoesUse p nm.inds (nm.xGate qs) (.qs qs) := hu.gates _ (by simp) qs
theorem Spec.Uses.z (qs : List String) : DoesUse p nm.inds (nm.zGate qs) (.qs qs) := hu.gates _ (by simp) qs
theorem Spec.Uses.h (qs : List String) : DoesUse p nm.inds (nm.hadamard qs) (.qs qs) := hu.gates _ (by simp) qs
theorem Spec.Uses.s (qs : List String) : DoesUse p nm.inds (nm.sGate qs) (.qs qs) := hu.gates _ (by simp) qs
theorem Spec.Uses.sdag (qs : List String) : DoesUse p nm.inds (nm.sDagGate qs) (.qs qs) := hu.gates _ (by simp) qs
theorem Spec.Uses.cz (qs : List String) : DoesUse p nm.inds (nm.cphase qs) (.qs qs) := hu.gates _ (by simp) qs
theorem Spec.Uses.cx (qs : List String) : DoesUse p nm.inds (nm.cnot qs) (.qs qs) := hu.gates _ (by simp) qs
theorem Spec.Uses.sw (qs : List String) : DoesUse p nm.inds (nm.swap qs) (.qs qs) := hu.gates _ (by simp) qs
theorem Spec.Uses.m (qs : List String) : DoesUse p nm.inds (nm.measure qs) (.qs qs) := hu.gates _ (by simp) qs
theorem Spec.Uses.r (qs : List String) : DoesUse p nm.inds (nm.reset qs) (.qs qs) := hu.gates _ (by simp) qs

theorem Spec.Uses.i (qs : List String) : DoesUse p nm.inds (nm.idle qs) (.qs (idl ex qs)) := by
  intro s c s' h
  obtain ⟨h1, h2⟩ := hu.idle qs s c s' h
  refine ⟨h1, h2.trans ?_⟩
  cases ex <;> simp [idl]

theorem Spec.Uses.inc (qs : List String) : DoesUse p nm.inds (nm.incomingNoise qs) (.qs []) := hu.incoming qs

theorem Spec.Uses.rotLayer (o : SetOrder) (qubits rot : List String) :
    DoesUse p nm.inds (rotLayer o nm qubits rot) (.qs (o.ord rot ++ idl ex (o.ord (diff qubits rot)))) :=
  (hu.h _).plus (hu.i _)

theorem Spec.Uses.czLoop (l : Layout) (k : Nat) (sts : List String) (sf : String → List String)
    (df : String → String) (hs : ∀ st ∈ sts, stabQubits l st = .ok (sf st)) (hd : ∀ st ∈ sts, orderDir l st k = .ok (df st))
    (c : Circuit) (acc : List String) (hc : ∀ i ∈ c, i.gate ≠ .TICK) {s s' : MeasState} {r : Circuit × List String}
    (h : czLoop nm l k sts c acc s = (.ok r, s')) : (∀ i ∈ r.1, i.gate ≠ .TICK) ∧
      used p r.1 = used p c ++ (sts.flatMap fun st => chain (l.getNeighborPairs (sf st) (some (df st)))).map (ind nm.inds) ∧
      r.2 = sts.foldl (fun acc st => union acc (chain (l.getNeighborPairs (sf st) (some (df st))))) acc := by
  induction sts generalizing c acc s with
  | nil =>
    simp only [Blocks.czLoop, pure, PyM.pure, Prod.mk.injEq, Except.ok.injEq] at h
    rw [← h.1]; exact ⟨hc, by simp, rfl⟩
  | cons st sts ih =>
    unfold Blocks.czLoop at h
    rw [hs st (by simp), hd st (by simp), PyM.bind_ok (PyM.ofExcept_apply _ _), PyM.bind_ok (PyM.ofExcept_apply _ _)] at h
    obtain ⟨cz, s3, h3, h⟩ := PyM.bind_eq_ok h
    obtain ⟨z1, z2⟩ := hu.cz _ _ _ _ h3
    obtain ⟨r1, r2, r3⟩ := ih (fun x hx => hs x (by simp [hx])) (fun x hx => hd x (by simp [hx])) _ _
      (NoTick.concat hc z1) h
    refine ⟨r1, ?_, r3⟩
    rw [r2, used_concat, z2]
    simp

theorem Spec.Uses.czLayer (o : SetOrder) (l : Layout) (qubits : List String) (k : Nat) (sf : String → List String)
    (df : String → String) (hs : ∀ st ∈ l.interactionOrder.keys, stabQubits l st = .ok (sf st))
    (hd : ∀ st ∈ l.interactionOrder.keys, orderDir l st k = .ok (df st)) :
    DoesUse p nm.inds (czLayer o nm l qubits k) (.qs ((l.interactionOrder.keys.flatMap fun st =>
      chain (l.getNeighborPairs (sf st) (some (df st)))) ++ idl ex (o.ord (diff qubits
        (l.interactionOrder.keys.foldl (fun acc st => union acc (chain (l.getNeighborPairs (sf st) (some (df st))))) []))))) := by
  intro s c s' h
  unfold Blocks.czLayer at h
  obtain ⟨r, s1, h1, h⟩ := PyM.bind_eq_ok h
  obtain ⟨i, s2, h2, h⟩ := PyM.bind_eq_ok h
  simp only [pure, PyM.pure, Prod.mk.injEq, Except.ok.injEq] at h
  rw [← h.1]
  obtain ⟨r1, r2, r3⟩ := hu.czLoop l k _ sf df hs hd [] [] (by simp) h1
  obtain ⟨i1, i2⟩ := hu.i _ _ _ _ h2
  exact ⟨NoTick.concat r1 i1, by rw [used_concat, r2, i2, r3]; simp [used]⟩

end

/-- The circuit of a generator. -/
theorem eachOnce_of {g : Gen} {us : List Use} {inds : Dict String Nat} (h : List.Forall₂ (DoesUse p inds) g us)
    {qs : List String} {pre post : Bool} {bs : List (List String)}
    (hb : useBlocks us = (if pre then [[]] else []) ++ bs ++ (if post then [[]] else []))
    (ho : ∀ u ∈ bs, Once ex qs u) {s s' : MeasState} {c : Circuit} (hs : sumGen g s = (.ok c, s')) :
    EachOnce p ex (qs.map (ind inds)) pre bs.length post c := by
  have := sumFrom_uses h hs
  refine ⟨bs.map (List.map (ind inds)), ?_, by simp, ?_⟩
  · have he : (tickBlocks c).map (used p) = glue [[]] ((useBlocks us).map (List.map (ind inds))) := this
    have hne := useBlocks_ne us
    rw [hb] at hne
    rw [he, hb]
    cases pre <;> cases post <;> cases bs <;> simp [glue] at hne ⊢
  · intro u hu
    obtain ⟨v, hv, rfl⟩ := List.mem_map.1 hu
    exact (ho v hv).map _

/-- The generator consists of `n` steps that use every qubit once, each followed by a TICK, with the exception of the
last one if not `post`. -/
def Steps (p : Gate → Bool) (ex post : Bool) (inds : Dict String Nat) (qs : List String) (g : Gen) (n : Nat) : Prop :=
  ∃ us bs, List.Forall₂ (DoesUse p inds) g us ∧ useBlocks us = bs ++ (if post then [[]] else []) ∧ bs.length = n ∧ ∀ u ∈ bs, Once ex qs u

section
variable {inds : Dict String Nat} {qs : List String} {post : Bool}

theorem Steps.nil : Steps p ex true inds qs [] 0 := ⟨[], [], .nil, rfl, rfl, by simp⟩

theorem Steps.last {b b' : Call1} {u u' : List String} (hb : DoesUse p inds b (.qs u)) (hb' : DoesUse p inds b' (.qs u'))
    (ho : Once ex qs (u ++ u')) : Steps p ex false inds qs [b, b'] 1 :=
  ⟨[.qs u, .qs u'], [u ++ u'], .cons hb (.cons hb' .nil), by simp [useBlocks, glue], rfl, by simpa using ho⟩

theorem Steps.cons {g : Gen} {n : Nat} (h : Steps p ex post inds qs g n) {b : Call1} {u : List String}
    (hb : DoesUse p inds b (.qs u)) (ho : Once ex qs u) : Steps p ex post inds qs (b :: Blocks.tick :: g) (n + 1) := by
  obtain ⟨us, bs, h1, h2, h3, h4⟩ := h
  refine ⟨.qs u :: .tick :: us, u :: bs, .cons hb (.cons (DoesUse.isTick inds) h1), ?_, by simp [h3], ?_⟩
  · simp [useBlocks, glue, h2]
  · intro v hv
    rcases List.mem_cons.1 hv with rfl | hv
    · exact ho
    · exact h4 v hv

theorem Steps.cons2 {g : Gen} {n : Nat} (h : Steps p ex post inds qs g n) {b b' : Call1} {u u' : List String}
    (hb : DoesUse p inds b (.qs u)) (hb' : DoesUse p inds b' (.qs u')) (ho : Once ex qs (u ++ u')) :
    Steps p ex post inds qs (b :: b' :: Blocks.tick :: g) (n + 1) := by
  obtain ⟨us, bs, h1, h2, h3, h4⟩ := h
  refine ⟨.qs u :: .qs u' :: .tick :: us, (u ++ u') :: bs, .cons hb (.cons hb' (.cons (DoesUse.isTick inds) h1)), ?_,
    by simp [h3], ?_⟩
  · simp [useBlocks, glue, h2]
  · intro v hv
    rcases List.mem_cons.1 hv with rfl | hv
    · exact ho
    · exact h4 v hv

theorem Steps.eachOnce {g : Gen} {n : Nat} (h : Steps p ex post inds qs g n) {b : Call1} (hb : DoesUse p inds b (.qs []))
    {s s' : MeasState} {c : Circuit} (hs : sumGen (b :: Blocks.tick :: g) s = (.ok c, s')) :
    EachOnce p ex (qs.map (ind inds)) true n post c := by
  obtain ⟨us, bs, h1, h2, rfl, h4⟩ := h
  exact eachOnce_of (.cons hb (.cons (DoesUse.isTick inds) h1)) (by simp [useBlocks, glue, h2]) h4 hs

/-- The generator consists of `n` items that use every qubit once, each followed by a TICK. -/
inductive Alt (p : Gate → Bool) (ex : Bool) (inds : Dict String Nat) (qs : List String) : Gen → Nat → Prop
  | nil : Alt p ex inds qs [] 0
  | cons {g : Gen} {n : Nat} {b : Call1} {u : List String} (h : Alt p ex inds qs g n) (hb : DoesUse p inds b (.qs u))
      (ho : Once ex qs u) : Alt p ex inds qs (b :: Blocks.tick :: g) (n + 1)

theorem Alt.steps {g : Gen} {n : Nat} (h : Alt p ex inds qs g n) : Steps p ex true inds qs g n := by
  induction h with
  | nil => exact .nil
  | cons _ hb ho ih => exact ih.cons hb ho

/-- An item that uses no qubit and `n` items that use each qubit of the layout once, all followed by a TICK. -/
def AltOf (p : Gate → Bool) (ex : Bool) (inds : Dict String Nat) (l : Layout) (n : Nat) (g : Gen) : Prop :=
  ∃ Q b g', l.getQubits [] = .ok Q ∧ Q.Nodup ∧ g = b :: Blocks.tick :: g' ∧ DoesUse p inds b (.qs []) ∧
    Alt p ex inds Q g' n

theorem AltOf.once {l : Layout} {n : Nat} {g : Gen} (h : AltOf p ex inds l n g) :
    OncePerTick p ex inds l true n true (sumGen g) := by
  obtain ⟨Q, b, g', h1, h2, rfl, h3, h4⟩ := h
  exact ⟨Q, h1, h2, fun s c s' hs => h4.steps.eachOnce h3 hs⟩

theorem Steps.eachOnce' {g : Gen} {n : Nat} (h : Steps p ex post inds qs g n)
    {s s' : MeasState} {c : Circuit} (hs : sumGen g s = (.ok c, s')) :
    EachOnce p ex (qs.map (ind inds)) false n post c := by
  obtain ⟨us, bs, h1, h2, rfl, h4⟩ := h
  exact eachOnce_of h1 (by simp [h2]) h4 hs

end

/-- Annotations do not count. -/
def Marks (p : Gate → Bool) : Prop := ∀ g ∈ [Gate.TICK, .QUBIT_COORDS, .DETECTOR, .OBSERVABLE_INCLUDE], p g = false

theorem used_onlyDeclares (hm : Marks p) {d : Circuit} (h : OnlyDeclares d) : used p d = [] := by
  unfold used
  rw [List.flatMap_eq_nil_iff]
  intro i hi
  rcases h i hi with e | e <;> rw [e, hm _ (by simp)] <;> rfl

theorem glue_nil {α : Type} (a : List (List α)) (ha : a ≠ []) : glue a [[]] = a := by
  induction a with
  | nil => exact absurd rfl ha
  | cons u a ih =>
    cases a with
    | nil => simp [glue]
    | cons v a => rw [glue_cons _ _ _ (by simp), ih (by simp)]

theorem ublocks_declares (hm : Marks p) {d : Circuit} (h : OnlyDeclares d) : ublocks p d = [[]] := by
  rw [ublocks_noTick, used_onlyDeclares hm h]
  intro i hi
  rcases h i hi with e | e <;> rw [e] <;> decide

/-- Detectors and observables do not count. -/
theorem Spec.EachOnce.declare (hm : Marks p) {qs : List Nat} {pre post : Bool} {n : Nat} {c d : Circuit} (h : EachOnce p ex qs pre n post c)
    (hd : OnlyDeclares d) : EachOnce p ex qs pre n post (c.concat d) := by
  have : ublocks p (c.concat d) = ublocks p c := by
    rw [ublocks_concat, ublocks_declares hm hd, glue_nil _ (ublocks_ne c)]
  unfold EachOnce at h ⊢
  show ∃ bs, ublocks p (c.concat d) = _ ∧ _
  rw [this]
  exact h

theorem Spec.EachOnce.declare1 (hm : Marks p) {qs : List Nat} {pre post : Bool} {n : Nat} {c : Circuit} (h : EachOnce p ex qs pre n post c)
    {i : Instr} (hd : i.gate = .OBSERVABLE_INCLUDE) : EachOnce p ex qs pre n post (c.append i) := by
  have := h.declare hm (d := [i]) (by intro j hj; simp at hj; subst hj; exact .inr hd)
  have e : c.concat [i] = c.append i ++ [] := rfl
  rwa [e, List.append_nil] at this

/-! ### layouts on a grid -/

variable {l : Layout} {L : List (String × Site × Kind)} {dirs : List (Site × String)}

/-- Pairs of an ancilla and the data qubit at one shift for each kind, no qubit twice. -/
theorem chain_nodup (hg : OnGrid l L dirs) {E : List (String × String)} (hE : E.Nodup) {sh : Kind → Site}
    (hm : ∀ a d, (a, d) ∈ E → ∃ s k, (a, s, k) ∈ L ∧ k ≠ .data ∧ (d, s + sh k, Kind.data) ∈ L)
    (hi : ∀ a s k a' s' k', (a, s, k) ∈ L → (a', s', k') ∈ L → k ≠ .data → k' ≠ .data → s + sh k = s' + sh k' → s = s') :
    (chain E).Nodup := by
  unfold chain
  rw [List.nodup_flatMap]
  constructor
  · rintro ⟨a, d⟩ h
    obtain ⟨s, k, h1, h2, h3⟩ := hm a d h
    simp only [List.nodup_cons, List.mem_singleton, List.not_mem_nil, not_false_eq_true, List.nodup_nil, and_true]
    rintro rfl
    exact h2 (hg.unique h1 h3).2
  · refine List.Nodup.pairwise_of_forall_ne hE ?_
    rintro ⟨a, d⟩ h ⟨a', d'⟩ h' hne q hq hq'
    obtain ⟨s, k, h1, h2, h3⟩ := hm a d h
    obtain ⟨s', k', h1', h2', h3'⟩ := hm a' d' h'
    have key : s = s' → False := by
      rintro rfl
      obtain ⟨rfl, rfl⟩ := hg.unique' h1 h1'
      exact hne (by rw [(hg.unique' h3 h3').1])
    simp only [List.mem_cons, List.not_mem_nil, or_false] at hq hq'
    rcases hq with rfl | rfl <;> rcases hq' with rfl | rfl
    · exact key (hg.unique h1 h1').1
    · exact h2 (hg.unique h1 h3').2
    · exact h2' (hg.unique h1' h3).2
    · exact key (hi _ _ _ _ _ _ h1 h1' h2 h2' (hg.unique h3 h3').1)

theorem chain_append (E F : List (String × String)) : chain (E ++ F) = chain E ++ chain F := by simp [chain]

theorem pairs_known (hg : OnGrid l L dirs) {qs : List String} {dir q : String}
    (h : q ∈ chain (l.getNeighborPairs qs (some dir))) : q ∈ L.map Prod.fst := by
  rw [mem_chain] at h
  obtain ⟨p, hp, e⟩ := h
  obtain ⟨-, s, k, s', k', σ, h1, h2, -⟩ := hg.mem_pairs.1 (show (p.1, p.2) ∈ _ from hp)
  rcases e with rfl | rfl
  · exact List.mem_map.2 ⟨_, h1, rfl⟩
  · exact List.mem_map.2 ⟨_, h2, rfl⟩

theorem mem_labels {q : String} : q ∈ L.map Prod.fst ↔ ∃ s k, (q, s, k) ∈ L := by
  constructor
  · intro h
    obtain ⟨⟨q, s, k⟩, h', rfl⟩ := List.mem_map.1 h
    exact ⟨s, k, h'⟩
  · rintro ⟨s, k, h⟩; exact List.mem_map.2 ⟨_, h, rfl⟩

theorem mem_allOf' {q : String} : q ∈ allOf L ↔ q ∈ L.map Prod.fst := by rw [mem_allOf, mem_labels]

section
variable (hg : OnGrid l L dirs)
include hg

theorem data_anc_nodup : (dataOf L ++ ancOf L).Nodup := by
  rw [List.nodup_append]
  refine ⟨(at_data hg).nodup, (at_anc hg).nodup, ?_⟩
  rintro a h1 b h2 rfl
  obtain ⟨s, h1⟩ := mem_dataOf.1 h1
  obtain ⟨s', k, h2, h3⟩ := mem_ancOf.1 h2
  exact h3 (hg.unique h1 h2).2.symm

theorem once_data_anc : Once ex (L.map Prod.fst) (dataOf L ++ idl ex (ancOf L)) :=
  once_of (data_anc_nodup hg) hg.labels fun q => by rw [mem_data_or_anc, mem_labels]

theorem once_anc_data : Once ex (L.map Prod.fst) (ancOf L ++ idl ex (dataOf L)) :=
  once_of (List.nodup_append_comm.1 (data_anc_nodup hg)) hg.labels fun q => by
    rw [List.mem_append, Or.comm, ← List.mem_append, mem_data_or_anc, mem_labels]

theorem once_some (o : SetOrder) {S R : List String} (hS : S.Nodup) (hk : ∀ q ∈ S, ∃ s k, (q, s, k) ∈ L)
    (hR : ∀ q, q ∈ R ↔ q ∈ S) : Once ex (L.map Prod.fst) (S ++ idl ex (o.ord (diff (allOf L) R))) :=
  once_rest o hS hg.labels allOf_nodup (fun q => mem_allOf') (fun q h => mem_labels.2 (hk q h)) hR

theorem once_rot (o : SetOrder) {rot : List String} (hS : rot.Nodup) (hk : ∀ q ∈ rot, ∃ s k, (q, s, k) ∈ L) :
    Once ex (L.map Prod.fst) (o.ord rot ++ idl ex (o.ord (diff (allOf L) rot))) :=
  once_some hg o ((ord_nodup o).2 hS) (fun q h => hk q ((mem_ord o).1 h)) fun q => (mem_ord o).symm

theorem cssRotSet_nodup (d0 d3 : String) : (cssRotSet l L d0 d3).Nodup :=
  union_nodup _ (union_nodup _ (setOf_nodup _))

/-- The gates of an ancilla of kind `x` at `ξ` and of kind `z` at `ζ`. -/
theorem czPairs_nodup {ξ ζ : Site} {dx dz : String} (hx : (ξ, dx) ∈ dirs) (hz : (ζ, dz) ∈ dirs)
    (hi : ∀ a s a' s', (a, s, Kind.x) ∈ L → (a', s', Kind.z) ∈ L → s + ξ ≠ s' + ζ) :
    (chain (czPairs l L dx dz)).Nodup := by
  have hL := layer_cz hg hx hz
  refine chain_nodup hg hL.nodup (sh := fun k => if k = .x then ξ else ζ) ?_ ?_
  · intro a d h
    obtain ⟨s, k, σ, h1, h2, h3, h4⟩ := (hL.mem a d).1 h
    refine ⟨s, k, h1, h2, ?_⟩
    cases k <;> simp [czSh] at h2 h3 ⊢ <;> rw [h3] at h4 <;> exact h4
  · intro a s k a' s' k' h1 h2 hk hk' he
    cases k <;> cases k' <;> simp at hk hk' he
    · exact he
    · exact absurd he (hi _ _ _ _ h1 h2)
    · exact absurd he.symm (hi _ _ _ _ h2 h1)
    · exact he

theorem once_cz (o : SetOrder) {ξ ζ : Site} {dx dz : String} (hx : (ξ, dx) ∈ dirs) (hz : (ζ, dz) ∈ dirs)
    (hi : ∀ a s a' s', (a, s, Kind.x) ∈ L → (a', s', Kind.z) ∈ L → s + ξ ≠ s' + ζ) {R : List String}
    (hR : ∀ q, q ∈ R ↔ q ∈ chain (czPairs l L dx dz)) :
    Once ex (L.map Prod.fst) (chain (czPairs l L dx dz) ++ idl ex (o.ord (diff (allOf L) R))) := by
  refine once_some hg o (czPairs_nodup hg hx hz hi) ?_ hR
  intro q h
  unfold czPairs at h
  rw [chain_append, List.mem_append] at h
  rcases h with h | h <;> exact mem_labels.1 (pairs_known hg h)

/-- The gates of ancillas of one kind in one direction. -/
theorem pairs_nodup {p : Kind → Bool} (hp : p .data = false) {σ : Site} {dir : String} (hd : (σ, dir) ∈ dirs) :
    (chain (l.getNeighborPairs (labelsOf L p) (some dir))).Nodup := by
  have hL := Layer.ofDir hg hp hd
  refine chain_nodup hg hL.nodup (sh := fun _ => σ) ?_ ?_
  · intro a d h
    obtain ⟨s, k, σ', h1, h2, h3, h4⟩ := (hL.mem a d).1 h
    refine ⟨s, k, h1, h2, ?_⟩
    split at h3
    · simp at h3; rw [h3] at h4; exact h4
    · simp at h3
  · intro a s k a' s' k' h1 h2 hk hk' he
    simpa using he

theorem once_pairs (o : SetOrder) {p : Kind → Bool} (hp : p .data = false) {σ : Site} {dir : String}
    (hd : (σ, dir) ∈ dirs) : Once ex (L.map Prod.fst) (chain (l.getNeighborPairs (labelsOf L p) (some dir)) ++
      idl ex (o.ord (diff (allOf L) (setOf (chain (l.getNeighborPairs (labelsOf L p) (some dir))))))) :=
  once_some hg o (pairs_nodup hg hp hd) (fun _ h => mem_labels.1 (pairs_known hg h)) fun _ => mem_setOf

end

/-! ### rounds -/

section
variable (hu : Uses p ex nm) (hg : OnGrid l L dirs) (o : SetOrder)
include hu hg

theorem use_czLayer {x0 x1 x2 x3 z0 z1 z2 z3 : String} (ho : l.interactionOrder = order4 x0 x1 x2 x3 z0 z1 z2 z3)
    (k : Nat) (hk : k < 4) : ∃ R, (∀ q, q ∈ R ↔ q ∈ chain (czPairs l L ([x0, x1, x2, x3][k]'hk) ([z0, z1, z2, z3][k]'hk))) ∧
    DoesUse p nm.inds (czLayer o nm l (allOf L) k)
      (.qs (chain (czPairs l L ([x0, x1, x2, x3][k]'hk) ([z0, z1, z2, z3][k]'hk)) ++ idl ex (o.ord (diff (allOf L) R)))) := by
  have hkeys : l.interactionOrder.keys = ["x_type", "z_type"] := by rw [ho]; rfl
  have hi : ∀ (ys : List String) (h4 : ys.length = 4), pyIndex ys (k : Int) = .ok (ys[k]'(by omega)) := by
    intro ys h4
    unfold pyIndex
    have h1 : ¬ ((k : Int) < 0) := by omega
    simp only [h1, if_false, Int.toNat_natCast]
    rw [List.getElem?_eq_getElem (by omega)]
  have := hu.czLayer o l (allOf L) k (fun st => if st = "x_type" then xOf L else zOf L)
    (fun st => if st = "x_type" then [x0, x1, x2, x3][k]'hk else [z0, z1, z2, z3][k]'hk) ?_ ?_
  · rw [hkeys] at this
    simp only [List.flatMap_cons, List.flatMap_nil, List.append_nil, if_true, String.reduceEq, if_false, List.foldl_cons,
      List.foldl_nil] at this
    rw [czPairs, chain_append]
    refine ⟨union (union [] (chain (l.getNeighborPairs (xOf L) (some ([x0, x1, x2, x3][k]'hk)))))
      (chain (l.getNeighborPairs (zOf L) (some ([z0, z1, z2, z3][k]'hk)))), ?_, this⟩
    intro q
    rw [mem_union, mem_union, List.mem_append]
    simp
  · rw [hkeys]
    intro st hst
    simp only [List.mem_cons, List.not_mem_nil, or_false] at hst
    rcases hst with rfl | rfl
    · rw [if_pos rfl]; exact hg.getQubits_x
    · rw [if_neg (by decide)]; exact hg.getQubits_z
  · rw [hkeys]
    intro st hst
    simp only [List.mem_cons, List.not_mem_nil, or_false] at hst
    rcases hst with rfl | rfl
    · unfold orderDir
      rw [ho]
      simp [order4, Dict.getE, hi]
    · unfold orderDir
      rw [ho]
      simp [order4, Dict.getE, hi]

omit hg in
theorem use_cssRot {x0 x1 x2 x3 z0 z1 z2 z3 : String} (ho : l.interactionOrder = order4 x0 x1 x2 x3 z0 z1 z2 z3) :
    DoesUse p nm.inds (cssRot o nm l (allOf L) (ancOf L) (xOf L))
      (.qs (o.ord (cssRotSet l L x0 x3) ++ idl ex (o.ord (diff (allOf L) (cssRotSet l L x0 x3))))) := by
  have hr : rotSet l (ancOf L) (xOf L) = .ok (cssRotSet l L x0 x3) := by
    simp [rotSet, orderDir, ho, order4, Dict.getE, pyIndex, cssRotSet]
  intro s c s' h
  unfold cssRot at h
  rw [hr, PyM.bind_ok (PyM.ofExcept_apply _ _)] at h
  exact hu.rotLayer o _ _ _ _ _ h

/-- The start of a round: incoming noise and possibly resets. -/
theorem altOf_head (reset : Bool) {g : Gen} {n : Nat} (h : Alt p ex nm.inds (L.map Prod.fst) g n) :
    AltOf p ex nm.inds l (n + if reset then 1 else 0) (roundHead nm (dataOf L) (ancOf L) reset ++ g) := by
  cases reset
  · exact ⟨_, _, _, hg.getQubits_all, hg.labels, rfl, hu.inc _, h⟩
  · exact ⟨_, _, _, hg.getQubits_all, hg.labels, rfl, hu.inc _, h.cons ((hu.r _).plus (hu.i _)) (once_anc_data hg)⟩

theorem alt_css {x0 x1 x2 x3 z0 z1 z2 z3 : String} {ξ0 ξ1 ξ2 ξ3 ζ0 ζ1 ζ2 ζ3 : Site}
    (ho : l.interactionOrder = order4 x0 x1 x2 x3 z0 z1 z2 z3)
    (hx : (ξ0, x0) ∈ dirs ∧ (ξ1, x1) ∈ dirs ∧ (ξ2, x2) ∈ dirs ∧ (ξ3, x3) ∈ dirs)
    (hz : (ζ0, z0) ∈ dirs ∧ (ζ1, z1) ∈ dirs ∧ (ζ2, z2) ∈ dirs ∧ (ζ3, z3) ∈ dirs)
    (hi : ∀ a s a' s', (a, s, Kind.x) ∈ L → (a', s', Kind.z) ∈ L →
      s + ξ0 ≠ s' + ζ0 ∧ s + ξ1 ≠ s' + ζ1 ∧ s + ξ2 ≠ s' + ζ2 ∧ s + ξ3 ≠ s' + ζ3) (reset : Bool) :
    AltOf p ex nm.inds l (9 + if reset then 1 else 0) (cssIter l.code o nm l reset) := by
  have hd : dataQubits l = .ok (dataOf L) := hg.getQubits_data
  have ha : ancQubits l = .ok (ancOf L) := hg.getQubits_anc
  have hx' : stabQubits l "x_type" = .ok (xOf L) := hg.getQubits_x
  generalize hm : (9 + if reset then 1 else 0) = m
  unfold cssIter
  rw [if_neg (by simp), hd, ha, hx']
  simp only [withE]
  have hR := use_cssRot (L := L) hu o ho
  obtain ⟨R0, r0, h0⟩ := use_czLayer hu hg o ho 0 (by decide)
  obtain ⟨R1, r1, h1⟩ := use_czLayer hu hg o ho 1 (by decide)
  obtain ⟨R2, r2, h2⟩ := use_czLayer hu hg o ho 2 (by decide)
  obtain ⟨R3, r3, h3⟩ := use_czLayer hu hg o ho 3 (by decide)
  have hH := (hu.h (dataOf L)).plus (hu.i (ancOf L))
  have hM := (hu.m (ancOf L)).plus (hu.i (dataOf L))
  have oR : Once ex (L.map Prod.fst) _ := once_rot hg o (cssRotSet_nodup hg x0 x3) fun q h => cssRotSet_known hg h
  have o0 : Once ex (L.map Prod.fst) _ := once_cz hg o hx.1 hz.1 (fun a s a' s' e e' => (hi a s a' s' e e').1) r0
  have o1 : Once ex (L.map Prod.fst) _ := once_cz hg o hx.2.1 hz.2.1 (fun a s a' s' e e' => (hi a s a' s' e e').2.1) r1
  have o2 : Once ex (L.map Prod.fst) _ := once_cz hg o hx.2.2.1 hz.2.2.1 (fun a s a' s' e e' => (hi a s a' s' e e').2.2.1) r2
  have o3 : Once ex (L.map Prod.fst) _ := once_cz hg o hx.2.2.2 hz.2.2.2 (fun a s a' s' e e' => (hi a s a' s' e e').2.2.2) r3
  have oD := once_data_anc (ex := ex) hg
  have oA := once_anc_data (ex := ex) hg
  subst hm
  exact altOf_head hu hg reset
    (((((((((Alt.nil.cons hM oA).cons hR oR).cons h3 o3).cons hH oD).cons h2 o2).cons h1 o1).cons hH oD).cons h0 o0).cons hR oR)

end

/-! ### API -/

theorem once_qecRound (hm : Marks p) {cfg : Detectors.Config} {l : Layout} {g : Gen} {inds : Dict String Nat} {pre post : Bool} {n : Nat}
    (h : OncePerTick p ex inds l pre n post (sumGen g)) (reset : Bool) (sel : Option (List String)) :
    OncePerTick p ex inds l pre n post (qecRound (cfg := cfg) g l reset sel) := by
  obtain ⟨qs, h1, h2, h3⟩ := h
  refine ⟨qs, h1, h2, ?_⟩
  intro s c s' hr
  unfold qecRound at hr
  obtain ⟨c0, s1, e1, hr⟩ := PyM.bind_eq_ok hr
  obtain ⟨sel', s2, e2, hr⟩ := PyM.bind_eq_ok hr
  obtain ⟨d, s3, e3, hr⟩ := PyM.bind_eq_ok hr
  simp only [pure, PyM.pure, Prod.mk.injEq, Except.ok.injEq] at hr
  rw [← hr.1]
  unfold onModel at e1
  simp only [Prod.mk.injEq] at e1
  unfold onDets at e3
  simp only [Prod.mk.injEq] at e3
  exact (h3 _ _ _ (Prod.ext e1.1 rfl)).declare hm fun i hi => .inl (buildFromAnc_gates (Prod.ext e3.1 rfl) i hi)

end

end SurfaceSim
