/-
Two-qubit channels follow their gates in experiments with transversal CNOT gates.
-/
import Verif.Lemmas.NoiseLocalMerge
import Verif.Lemmas.MergeInit
import Verif.Lemmas.UsageExp

namespace SurfaceSim
open Spec NoiseModel Blocks Experiments LayoutLib CircuitOps

variable {cfg : Detectors.Config} {nm : NoiseModel}

/-! ### circuits without two-qubit operations -/

/-- The targets come in pairs, there are no measurements in other bases, and two-qubit channels have no targets. -/
def BareI (i : Instr) : Prop :=
  (i.gate.isTwoQubit = true → i.qubits.length % 2 = 0) ∧ i.gate ∉ [Gate.MX, .MY] ∧
    (i.gate ∈ [Gate.DEPOLARIZE2, .PAULI_CHANNEL_2] → pairs i.qubits = [])

def Bare (c : Circuit) : Prop := ∀ i ∈ c, BareI i

theorem Bare.follows {c : Circuit} (h : Bare c) (S : List (Nat × Nat)) : Follows S c := by
  induction c generalizing S with
  | nil => trivial
  | cons i c ih =>
    have hc := ih fun j hj => h j (by simp [hj])
    obtain ⟨-, h2, h3⟩ := h i (by simp)
    rw [follows_cons]
    split
    · exact hc _
    · split
      · rename_i hg
        exact ⟨by simp [h3 hg], hc _⟩
      · split
        · exact hc _
        · exact ⟨h2, hc _⟩

theorem Bare.local {c : Circuit} (h : Bare c) : Local c := ⟨fun i hi => (h i hi).1, h.follows _⟩

/-- No two-qubit operation. -/
theorem Spec.Local.bare {c : Circuit} (h : Local c)
    (hc : ∀ i ∈ c, i.gate ∈ [Gate.CZ, .CX, .SWAP] → pairs i.qubits = []) : Bare c := by
  obtain ⟨h1, h2⟩ := h
  induction c with
  | nil => simp [Bare]
  | cons i c ih =>
    have hi : BareI i ∧ Follows [] c := by
      rw [follows_cons] at h2
      split at h2
      · rename_i hg
        exact ⟨⟨h1 i (by simp), by rw [hg]; decide, fun h => absurd (hg ▸ h) (by decide)⟩, h2⟩
      · split at h2
        · rename_i hg
          refine ⟨⟨h1 i (by simp), by revert hg; cases i.gate <;> decide, fun _ => ?_⟩, h2.2⟩
          exact List.eq_nil_iff_forall_not_mem.2 fun p hp => by simpa using h2.1 p hp
        · rename_i hg'
          split at h2
          · rename_i hg
            rw [hc i (by simp) hg] at h2
            exact ⟨⟨h1 i (by simp), by revert hg; cases i.gate <;> decide, fun h => absurd h hg'⟩, h2⟩
          · exact ⟨⟨h1 i (by simp), h2.1, fun h => absurd h hg'⟩, h2.2⟩
    have := ih (fun j hj => hc j (by simp [hj])) (fun j hj => h1 j (by simp [hj])) hi.2
    intro j hj
    rcases List.mem_cons.1 hj with rfl | hj
    · exact hi.1
    · exact this j hj

theorem bare_append {c : Circuit} {i : Instr} (hc : Bare c) (hi : BareI i) : Bare (Circuit.append c i) := by
  unfold Circuit.append
  cases h : c.getLast? with
  | none => intro j hj; rw [List.mem_singleton.1 hj]; exact hi
  | some l =>
    simp only
    have hce : c = c.dropLast ++ [l] := (List.dropLast_append_getLast? l h).symm
    have hl := hc l (by rw [hce]; simp)
    split
    · rename_i hf
      obtain ⟨h1, h2, h3⟩ := hf
      intro j hj
      rcases List.mem_append.1 hj with hj | hj
      · exact hc j (List.mem_of_mem_dropLast hj)
      · rw [List.mem_singleton.1 hj]
        obtain ⟨g, t, a⟩ := l
        obtain ⟨g', t', a'⟩ := i
        simp only at h1 h2 h3
        subst h1 h2
        show BareI ⟨g, t ++ t', a⟩
        refine ⟨fun hg => ?_, hl.2.1, fun hg => ?_⟩
        · have k1 := hl.1 hg
          have k2 := hi.1 hg
          rw [Instr.qubits_mk_append, List.length_append]
          omega
        · have h22 : g.isTwoQubit = true := by
            have hg : g ∈ [Gate.DEPOLARIZE2, .PAULI_CHANNEL_2] := hg
            revert hg; clear * -; cases g <;> decide
          rw [Instr.qubits_mk_append, pairs_append _ _ (hl.1 h22) (hi.1 h22), hl.2.2 hg, hi.2.2 hg]
          rfl
    · intro j hj
      rcases List.mem_append.1 hj with hj | hj
      · exact hc j hj
      · rw [List.mem_singleton.1 hj]; exact hi

theorem bare_concat {a b : Circuit} (ha : Bare a) (hb : Bare b) : Bare (a.concat b) := by
  cases b with
  | nil => exact ha
  | cons i r =>
    intro j hj
    rcases List.mem_append.1 hj with hj | hj
    · exact bare_append ha (hb i (by simp)) j hj
    · exact hb j (by simp [hj])

theorem bare_foldl {L : List Instr} {acc : Circuit} (ha : Bare acc) (hL : Bare L) : Bare (L.foldl Circuit.append acc) := by
  induction L generalizing acc with
  | nil => exact ha
  | cons i L ih => exact ih (bare_append ha (hL i (by simp))) fun j hj => hL j (by simp [hj])

theorem bare_nil : Bare [] := by simp [Bare]

theorem bare_tick : Bare NoiseModel.tick := by
  intro i hi
  rw [NoiseModel.tick, List.mem_singleton] at hi
  subst hi
  exact ⟨by decide, by decide, by decide⟩

/-- Instructions between TICKs are instructions of the circuit, and conversely apart from the TICKs. -/
theorem mem_tickBlocks_mem {c b : Circuit} (hb : b ∈ tickBlocks c) {i : Instr} (hi : i ∈ b) : i ∈ c := by
  induction c generalizing b with
  | nil => simp [tickBlocks] at hb; subst hb; simp at hi
  | cons j c ih =>
    unfold tickBlocks at hb
    split at hb
    · rcases List.mem_cons.1 hb with rfl | hb
      · simp at hi
      · exact List.mem_cons_of_mem _ (ih hb hi)
    · split at hb
      · rename_i b0 bs e
        rcases List.mem_cons.1 hb with rfl | hb
        · rcases List.mem_cons.1 hi with rfl | hi
          · simp
          · exact List.mem_cons_of_mem _ (ih (by rw [e]; simp) hi)
        · exact List.mem_cons_of_mem _ (ih (by rw [e]; simp [hb]) hi)
      · rename_i e
        rw [List.mem_singleton] at hb
        subst hb
        rw [List.mem_singleton] at hi
        subst hi
        simp

theorem mem_of_tickBlocks {c : Circuit} {i : Instr} (hi : i ∈ c) (ht : i.gate ≠ .TICK) : ∃ b ∈ tickBlocks c, i ∈ b := by
  induction c with
  | nil => simp at hi
  | cons j c ih =>
    unfold tickBlocks
    rcases List.mem_cons.1 hi with rfl | hi
    · rw [if_neg ht]
      split
      · exact ⟨_, List.mem_cons_self, by simp⟩
      · exact ⟨_, List.mem_cons_self, by simp⟩
    · obtain ⟨b, hb, hib⟩ := ih hi
      split
      · exact ⟨b, by simp [hb], hib⟩
      · split
        · rename_i b0 bs e
          rw [e] at hb
          rcases List.mem_cons.1 hb with rfl | hb
          · exact ⟨_, List.mem_cons_self, by simp [hib]⟩
          · exact ⟨b, by simp [hb], hib⟩
        · rename_i e
          rw [e] at hb
          simp at hb

theorem bare_merge {cs : List Circuit} (h : ∀ c ∈ cs, Bare c) {chk : Bool} {c : Circuit}
    (hc : CircuitOps.mergeCircuits cs chk = .ok c) : Bare c := by
  have hr : CircuitOps.mergeCircuits cs chk ≠ .error .valueError := by rw [hc]; simp
  rw [Ne, Props.C21_raises_iff] at hr
  simp only [not_or, not_exists, not_and, not_not] at hr
  obtain ⟨r1, r2, r3⟩ := hr
  obtain ⟨c0, cs', rfl⟩ := List.exists_cons_of_ne_nil r1
  obtain ⟨c', e1, e2, e3⟩ := Props.C21_merge_circuits (c0 :: cs') chk c0.numTicks r1 (fun c hc => r2 c hc c0 (by simp)) r3
  rw [hc, Except.ok.injEq] at e1
  subst e1
  intro i hi
  by_cases ht : i.gate = .TICK
  · exact ⟨fun h => absurd (ht ▸ h) (by decide), by rw [ht]; decide, fun h => absurd (ht ▸ h) (by decide)⟩
  · obtain ⟨b, hb, hib⟩ := mem_of_tickBlocks hi ht
    obtain ⟨k, hk, e⟩ := List.mem_iff_getElem.1 hb
    have hk' : k ≤ c0.numTicks := by
      rw [tickBlocks_length, e2] at hk
      omega
    obtain ⟨L, l1, l2, -⟩ := e3 k hk'
    rw [List.getElem?_eq_getElem hk, e, Option.some.injEq] at l1
    subst l1
    refine bare_foldl bare_nil (fun j hj => ?_) i hib
    obtain ⟨c1, hc1, hj⟩ := List.mem_flatMap.1 (l2.mem_iff.1 hj)
    cases h2 : (tickBlocks c1)[k]? with
    | none => rw [h2] at hj; simp at hj
    | some u =>
      rw [h2] at hj
      exact h c1 hc1 j (mem_tickBlocks_mem (List.mem_of_getElem? h2) hj)

/-! ### initialization -/

/-- Whatever the block returns is bare. -/
def IsBare (b : Call1) : Prop := ∀ s c s', b s = (.ok c, s') → Bare c

theorem isBare_plus {a b : Call1} (ha : IsBare a) (hb : IsBare b) : IsBare (plus a b) := by
  intro s c s' h
  unfold plus at h
  obtain ⟨c1, s1, h1, h⟩ := PyM.bind_eq_ok h
  obtain ⟨c2, s2, h2, h⟩ := PyM.bind_eq_ok h
  simp only [pure, PyM.pure, Prod.mk.injEq, Except.ok.injEq] at h
  rw [← h.1]
  exact bare_concat (ha _ _ _ h1) (hb _ _ _ h2)

theorem isBare_tick : IsBare Blocks.tick := by
  intro s c s' h
  simp only [Blocks.tick, pure, PyM.pure, Prod.mk.injEq, Except.ok.injEq] at h
  rw [← h.1]
  exact bare_tick

theorem isBare_sumFrom {g : Gen} (h : ∀ b ∈ g, IsBare b) {acc : Circuit} (ha : Bare acc) : IsBare (sumFrom acc g) := by
  induction g generalizing acc with
  | nil =>
    intro s c s' he
    simp only [sumFrom, pure, PyM.pure, Prod.mk.injEq, Except.ok.injEq] at he
    rw [← he.1]; exact ha
  | cons b g ih =>
    intro s c s' he
    unfold sumFrom at he
    obtain ⟨c1, s1, h1, he⟩ := PyM.bind_eq_ok he
    exact ih (fun b hb => h b (by simp [hb])) (bare_concat ha (h b (by simp) _ _ _ h1)) _ _ _ he

/-- A method that is a one-qubit operation. -/
theorem isBare_of_ops {b : Call1} (hl : IsLocal b)
    (h : ∀ s, ∃ c, b s = (.ok c, s) ∧ ∀ op ∈ ops c, ∃ q, op = .r q ∨ op = .x q ∨ op = .h q) : IsBare b := by
  intro s c s' he
  obtain ⟨c', h1, h2⟩ := h s
  rw [he, Prod.mk.injEq, Except.ok.injEq] at h1
  obtain ⟨rfl, -⟩ := h1
  refine Spec.Local.bare (hl _ _ _ he) fun i hi hg => ?_
  by_contra hn
  obtain ⟨p, hp⟩ := List.exists_mem_of_ne_nil _ hn
  have : ∃ op ∈ instrOps i, op = .cz p.1 p.2 ∨ op = .cx p.1 p.2 ∨ op = .swap p.1 p.2 := by
    simp only [List.mem_cons, List.not_mem_nil, or_false] at hg
    rcases hg with hg | hg | hg
    · exact ⟨.cz p.1 p.2, by simp only [instrOps, hg]; exact List.mem_map.2 ⟨p, hp, rfl⟩, by simp⟩
    · exact ⟨.cx p.1 p.2, by simp only [instrOps, hg]; exact List.mem_map.2 ⟨p, hp, rfl⟩, by simp⟩
    · exact ⟨.swap p.1 p.2, by simp only [instrOps, hg]; exact List.mem_map.2 ⟨p, hp, rfl⟩, by simp⟩
  obtain ⟨op, ho, he⟩ := this
  obtain ⟨q, hq⟩ := h2 op (List.mem_flatMap.2 ⟨i, hi, ho⟩)
  rcases he with rfl | rfl | rfl <;> simp at hq

theorem isBare_initIter {l : Layout} {L : List (String × Site × Kind)} {dirs : List (Site × String)} (hr : CanRun nm l)
    (hn : LocalModel nm) (hg : OnGrid l L dirs) (o : SetOrder) {d : Dict String Int}
    (hd : ∀ q, isOne d q = 1 → q ∈ nm.inds.keys) (rot : Bool) : ∀ b ∈ Blocks.initIter o nm l d rot, IsBare b := by
  have hk := grid_known hr hg
  have hf := hr.faithful
  have one : ∀ {f : List String → Call1} {op : Nat → Op Nat}, (∀ qs, IsLocal (f qs)) → Implements1 nm.inds f op →
      (∀ q, ∃ q', op q = .r q' ∨ op q = .x q' ∨ op q = .h q') → ∀ qs, (∀ q ∈ qs, q ∈ nm.inds.keys) → IsBare (f qs) := by
    intro f op h1 h2 h3 qs h4
    refine isBare_of_ops (h1 qs) fun s => ?_
    obtain ⟨c, k1, k2⟩ := h2 qs h4 s
    refine ⟨c, k1, fun op' ho => ?_⟩
    rw [k2] at ho
    obtain ⟨q, -, rfl⟩ := List.mem_map.1 ho
    exact h3 _
  have hi : ∀ qs, (∀ q ∈ qs, q ∈ nm.inds.keys) → IsBare (nm.idle qs) := by
    intro qs h4
    refine isBare_of_ops (hn.i qs) fun s => ?_
    obtain ⟨c, k1, k2⟩ := hf.idle qs h4 s
    exact ⟨c, k1, by simp [k2]⟩
  have kA : ∀ q ∈ setOf (dataOf L ++ ancOf L), q ∈ nm.inds.keys := fun q hq => hk q (mem_setOf.1 hq)
  unfold Blocks.initIter ancQubits dataQubits
  rw [hg.getQubits_anc, hg.getQubits_data]
  simp only [withE]
  intro b hb
  rcases List.mem_append.1 hb with hb | hb
  · unfold Blocks.initHead at hb
    simp only [List.mem_cons, List.not_mem_nil, or_false] at hb
    rcases hb with rfl | rfl | rfl | rfl
    · exact one hn.r hf.reset (fun q => ⟨q, by simp⟩) _ fun q hq => kA q ((mem_ord o).1 hq)
    · exact isBare_tick
    · refine isBare_plus ?_ (hi _ fun q hq => kA q (mem_diff.1 ((mem_ord o).1 hq)).1)
      split
      · intro s c s' h
        simp only [pure, PyM.pure, Prod.mk.injEq, Except.ok.injEq] at h
        rw [← h.1]; exact bare_nil
      · exact one hn.x hf.xGate (fun q => ⟨q, by simp⟩) _ fun q hq => hd q (mem_excited.1 ((mem_ord o).1 hq))
    · exact isBare_tick
  · split at hb
    · simp only [List.mem_cons, List.not_mem_nil, or_false] at hb
      rcases hb with rfl | rfl
      · exact isBare_plus (one hn.h hf.hadamard (fun q => ⟨q, by simp⟩) _ fun q hq => hk q (List.mem_append_left _ hq))
          (hi _ fun q hq => hk q (List.mem_append_right _ hq))
      · exact isBare_tick
    · simp at hb

/-! ### the gate -/

theorem LocalModel.transCnot (hn : LocalModel nm) (o : SetOrder) (lc lt : Layout) :
    IsLocal (transCnot (cfg := cfg) o nm lc lt) := by
  unfold Blocks.transCnot
  refine isLocal_bind fun _ => isLocal_bind fun _ => isLocal_bind fun _ => isLocal_bind fun _ =>
    isLocal_onModel (isLocal_sumGen ?_)
  unfold Blocks.transCnotIter
  refine genLocal_if (genLocal_cons (isLocal_raise _) genLocal_nil) <| genLocal_if (genLocal_cons (isLocal_raise _) genLocal_nil) ?_
  exact mem_withE fun _ => mem_withE fun _ => mem_withE fun _ => mem_withE fun _ => mem_withE fun _ => mem_withE fun _ =>
    genLocal_cons (isLocal_plus (hn.inc _) (hn.inc _)) <| genLocal_cons isLocal_tick <|
    genLocal_cons (isLocal_plus (hn.all _ (by simp) _) (hn.i _)) <| genLocal_cons isLocal_tick genLocal_nil

/-! ### experiments -/

theorem local_gateAndRounds {gate round : PyM (Sim cfg) Circuit} {k : Nat} {e : Circuit} (he : Local e) (hg : IsLocal gate)
    (hr : IsLocal round) : IsLocal (gateAndRounds gate k round e) :=
  isLocal_then (isLocal_addTo he hg) fun _ h => isLocal_addAll h (fun _ => hr) _

theorem local_cnotLoop {o : SetOrder} {round : List Layout → PyM (Sim cfg) Circuit} {rounds k n : Nat} {ct : Layout × Layout}
    {alt : Bool} {C : Layout × Layout → Prop} (hC : C ct) (hs : alt = true → ∀ ct, C ct → C (ct.2, ct.1))
    {e : Circuit} (he : Local e) (hn : LocalModel nm) (hr : ∀ ct, C ct → IsLocal (round [ct.1, ct.2])) {s s' : Sim cfg}
    {r : Circuit × (Layout × Layout)} (h : Experiments.cnotLoop o nm round alt rounds k n ct e s = (.ok r, s')) :
    Local r.1 ∧ C r.2 := by
  induction n generalizing k e s ct with
  | zero =>
    simp only [Experiments.cnotLoop, pure, PyM.pure, Prod.mk.injEq, Except.ok.injEq] at h
    rw [← h.1]
    exact ⟨he, hC⟩
  | succ n ih =>
    unfold Experiments.cnotLoop at h
    have hC' : C (if alt = true ∧ k % 2 = 1 then (ct.2, ct.1) else ct) := by
      split
      · rename_i h
        exact hs h.1 ct hC
      · exact hC
    obtain ⟨e1, s1, h1, h⟩ := PyM.bind_eq_ok h
    exact ih hC' (local_gateAndRounds he (hn.transCnot _ _ _) (hr _ hC') _ _ _ h1) h

theorem local_repeatedCnot (hn : LocalModel nm) {iter : Layout → Bool → Gen} {o : SetOrder} {lc lt : Layout} {G R : Int}
    {dataInit : Dict String Int} {rot reset : Bool} {sel : Option (List String)} {gauge : Bool}
    {qc qt : List String} (hqc : lc.getQubits [] = .ok qc) (hqt : lt.getQubits [] = .ok qt)
    (hic : ∀ b ∈ Blocks.initIter o nm lc (dataInit.filter fun kv => kv.1 ∈ qc) rot, IsBare b)
    (hit : ∀ b ∈ Blocks.initIter o nm lt (dataInit.filter fun kv => kv.1 ∈ qt) rot, IsBare b)
    {C : Layout × Layout → Prop} {orient : String} (hC : C (lc, lt)) (hs : orient = "alternating" → ∀ ct, C ct → C (ct.2, ct.1))
    (hr : ∀ ct, C ct → ∀ sel, IsLocal (mergeQecRounds (cfg := cfg) iter [ct.1, ct.2] reset sel))
    (hf : ∀ ct, C ct → ∀ sel,
      IsLocal (mergeLogMeas (cfg := cfg) (fun l b => logMeasIter nm l b) [ct.1, ct.2] [rot, rot] reset sel)) :
    IsLocal (repeatedCnot (cfg := cfg) iter o nm lc lt G R dataInit orient rot reset sel gauge) := by
  intro s c s' h
  unfold repeatedCnot at h
  split at h
  · simp [PyM.raise] at h
  · split at h
    · simp [PyM.raise] at h
    · obtain ⟨sel', s1, -, h⟩ := PyM.bind_eq_ok h
      split at h
      · simp [PyM.raise] at h
      rw [hqc, hqt, PyM.bind_ok (PyM.ofExcept_apply _ _), PyM.bind_ok (PyM.ofExcept_apply _ _)] at h
      obtain ⟨e1, s2, h1, h⟩ := PyM.bind_eq_ok h
      obtain ⟨ic, s3, h2, h⟩ := PyM.bind_eq_ok h
      obtain ⟨it, s4, h3, h⟩ := PyM.bind_eq_ok h
      obtain ⟨mc, s5, h4, h⟩ := PyM.bind_eq_ok h
      simp only [PyM.ofExcept, Prod.mk.injEq] at h4
      obtain ⟨first, s6, -, h⟩ := PyM.bind_eq_ok h
      obtain ⟨e2, s7, h5, h⟩ := PyM.bind_eq_ok h
      obtain ⟨r, s8, h6, h⟩ := PyM.bind_eq_ok h
      have key : ∀ {l : Layout} {g : Gen} {s s' : Sim cfg} {c : Circuit}, (∀ b ∈ g, IsBare b) →
          activateAndSum (cfg := cfg) l g s = (.ok c, s') → Bare c := by
        intro l g s s' c hb h
        unfold activateAndSum at h
        obtain ⟨_, _, -, h⟩ := PyM.bind_eq_ok h
        obtain ⟨_, s2, -, h⟩ := PyM.bind_eq_ok h
        unfold onModel at h
        simp only [Prod.mk.injEq] at h
        exact isBare_sumFrom hb bare_nil _ _ _ (Prod.ext h.1 rfl)
      have hm : Bare mc := by
        refine bare_merge (fun c hc => ?_) h4.1
        simp only [List.mem_cons, List.not_mem_nil, or_false] at hc
        rcases hc with rfl | rfl
        · exact key hic h2
        · exact key hit h3
      have l1 := isLocal_addTo (local_concat (local_start h1) hm.local) (hr _ hC _) _ _ _ h5
      obtain ⟨k1, k2⟩ := local_cnotLoop hC (fun h => hs (by simpa using h)) l1 hn (fun ct hct => hr ct hct _) h6
      exact isLocal_addTo k1 (hf _ k2 _) _ _ _ h

end SurfaceSim
