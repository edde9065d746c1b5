/-
Whole memory experiments and the library noise models: channels follow their gates.
-/
import Verif.Lemmas.NoiseLocal
import Verif.Lemmas.UsageModels
import Verif.Props.NoiseModels

namespace SurfaceSim
open Spec NoiseModel Blocks Experiments

variable {cfg : Detectors.Config} {nm : NoiseModel} {l : Layout}

/-! ### experiments -/

theorem isLocal_activateAndSum {g : Gen} (h : GenLocal g) : IsLocal (activateAndSum (cfg := cfg) l g) :=
  isLocal_bind fun _ => isLocal_bind fun _ => isLocal_onModel (isLocal_sumGen h)

theorem isLocal_qecRound {g : Gen} (h : GenLocal g) (reset : Bool) (sel : Option (List String)) :
    IsLocal (qecRound (cfg := cfg) g l reset sel) := by
  intro s c s' hr
  unfold qecRound at hr
  obtain ⟨c0, s1, e1, hr⟩ := PyM.bind_eq_ok hr
  obtain ⟨sel', s2, e2, hr⟩ := PyM.bind_eq_ok hr
  obtain ⟨d, s3, e3, hr⟩ := PyM.bind_eq_ok hr
  simp only [pure, PyM.pure, Prod.mk.injEq, Except.ok.injEq] at hr
  rw [← hr.1]
  unfold onDets at e3
  simp only [Prod.mk.injEq] at e3
  refine local_concat (isLocal_onModel (isLocal_sumGen h) _ _ _ e1) (local_marks fun i hi => ?_)
  rw [buildFromAnc_gates (Prod.ext e3.1 rfl) i hi]
  decide

theorem local_finishMeas {rot reset : Bool} {sel : List String} {c c' : Circuit} {s s' : Sim cfg} (hc : Local c)
    (h : finishMeas l rot reset sel c s = (.ok c', s')) : Local c' := by
  unfold finishMeas at h
  obtain ⟨stabs, s1, -, h⟩ := PyM.bind_eq_ok h
  obtain ⟨supp, s2, -, h⟩ := PyM.bind_eq_ok h
  obtain ⟨dets, s3, h3, h⟩ := PyM.bind_eq_ok h
  obtain ⟨log, s4, -, h⟩ := PyM.bind_eq_ok h
  obtain ⟨obs, s5, h5, h⟩ := PyM.bind_eq_ok h
  obtain ⟨anc, s6, -, h⟩ := PyM.bind_eq_ok h
  obtain ⟨_, s7, -, h⟩ := PyM.bind_eq_ok h
  simp only [pure, PyM.pure, Prod.mk.injEq, Except.ok.injEq] at h
  unfold onDets at h3
  simp only [Prod.mk.injEq] at h3
  unfold onModel at h5
  simp only [Prod.mk.injEq] at h5
  have g5 := (observable_gate (Prod.ext h5.1 rfl)).2
  have e : (c.concat dets).append obs = (c.concat dets).concat [obs] := by simp [Circuit.concat]
  rw [← h.1, e]
  refine local_concat (local_concat hc (local_marks fun i hi => ?_)) (local_marks fun i hi => ?_)
  · rw [buildFromData_gates (Prod.ext h3.1 rfl) i hi]; decide
  · rw [List.mem_singleton] at hi
    rw [hi, g5]; decide

theorem isLocal_logMeas (hn : LocalModel nm) (rot reset : Bool) (sel : Option (List String)) :
    IsLocal (logMeas (cfg := cfg) nm l rot reset sel) :=
  isLocal_bind fun _ => isLocal_then (isLocal_onModel (isLocal_sumGen (hn.logMeasIter _ _))) fun _ hc _ _ _ h =>
    local_finishMeas hc h

theorem isLocal_logMeasXzzx (hn : LocalModel nm) (o : SetOrder) (rot reset : Bool) (sel : Option (List String)) :
    IsLocal (logMeasXzzx (cfg := cfg) o nm l rot reset sel) :=
  isLocal_ite (isLocal_raise _) <| isLocal_bind fun _ =>
    isLocal_then (isLocal_onModel (isLocal_sumGen (hn.logMeasXzzxIter _ _ _))) fun _ hc _ _ _ h => local_finishMeas hc h

/-- All blocks of a family are local. -/
structure FamilyLocal (fam : Family cfg) (l : Layout) : Prop where
  init : ∀ d rot, IsLocal (fam.init l d rot)
  round : ∀ reset sel, IsLocal (fam.round l reset sel)
  meas : ∀ rot reset sel, IsLocal (fam.meas l rot reset sel)

theorem LocalModel.rotCss (hn : LocalModel nm) (o : SetOrder) (l : Layout) : FamilyLocal (rotCss cfg o nm) l where
  init _ _ := isLocal_activateAndSum (hn.initIter _ _ _ _)
  round _ _ := isLocal_qecRound (hn.cssIter _ _ _ _) _ _
  meas _ _ _ := isLocal_logMeas hn _ _ _

theorem LocalModel.unrotCss (hn : LocalModel nm) (o : SetOrder) (l : Layout) : FamilyLocal (unrotCss cfg o nm) l where
  init _ _ := isLocal_activateAndSum (hn.initIter _ _ _ _)
  round _ _ := isLocal_qecRound (hn.cssIter _ _ _ _) _ _
  meas _ _ _ := isLocal_logMeas hn _ _ _

theorem LocalModel.rotCssPipelined (hn : LocalModel nm) (o : SetOrder) (l : Layout) :
    FamilyLocal (rotCssPipelined cfg o nm) l where
  init _ _ := isLocal_activateAndSum (hn.initIter _ _ _ _)
  round _ _ := isLocal_qecRound (hn.pipeIter _ _ _ _) _ _
  meas _ _ _ := isLocal_logMeas hn _ _ _

theorem LocalModel.xzzxPipelined (hn : LocalModel nm) (o : SetOrder) (l : Layout) :
    FamilyLocal (xzzxPipelined cfg o nm) l where
  init _ _ := isLocal_activateAndSum (hn.initXzzxIter _ _ _ _)
  round _ _ := isLocal_qecRound (hn.pipeIter _ _ _ _) _ _
  meas _ _ _ := isLocal_logMeasXzzx hn _ _ _ _

theorem local_start {ls : List Layout} {s s' : Sim cfg} {e : Circuit} (h : start nm ls s = (.ok e, s')) : Local e := by
  unfold start at h
  obtain ⟨_, s1, -, h⟩ := PyM.bind_eq_ok h
  obtain ⟨_, s2, -, h⟩ := PyM.bind_eq_ok h
  obtain ⟨c, s3, h1, h⟩ := PyM.bind_eq_ok h
  simp only [pure, PyM.pure, Prod.mk.injEq, Except.ok.injEq, PyM.ofExcept] at h h1
  rw [← h.1]
  refine local_concat local_nil (local_marks fun i hi => ?_)
  rw [blockCoords_gates h1.1 i hi]
  decide

theorem isLocal_addTo {e : Circuit} (he : Local e) {b : PyM (Sim cfg) Circuit} (hb : IsLocal b) : IsLocal (addTo e b) :=
  isLocal_then hb fun _ hc => isLocal_pure (local_concat he hc)

theorem isLocal_addAll {α : Type} {e : Circuit} (he : Local e) {f : α → PyM (Sim cfg) Circuit} (hf : ∀ x, IsLocal (f x))
    (xs : List α) : IsLocal (addAll e xs f) := by
  induction xs generalizing e with
  | nil => exact isLocal_pure he
  | cons x xs ih => exact isLocal_then (isLocal_addTo he (hf x)) fun _ hc => ih hc

theorem FamilyLocal.memory {fam : Family cfg} (hf : FamilyLocal fam l) (o : SetOrder) (nm : NoiseModel) (R : Int)
    (dataInit : Dict String Int) (rot reset : Bool) (sel : Option (List String)) (gauge : Bool) :
    IsLocal (memory fam o nm l R dataInit rot reset sel gauge) := by
  refine isLocal_ite (isLocal_raise _) <| isLocal_bind fun _ => isLocal_then (fun _ _ _ h => local_start h) fun _ h1 =>
    isLocal_then (isLocal_addTo h1 (hf.init _ _)) fun _ h2 => isLocal_then (isLocal_addAll h2 (fun r => ?_) _) fun _ h3 =>
    isLocal_addTo h3 (hf.meas _ _ _)
  exact isLocal_ite (isLocal_bind fun _ => hf.round _ _) (hf.round _ _)

/-! ### the Google module -/

theorem LocalModel.googleCz (hn : LocalModel nm) (o : SetOrder) (qubits : List String) (ps : List (String × String)) :
    GenLocal (Blocks.googleCz o nm qubits ps) :=
  genLocal_cons (hn.cz _) <| genLocal_cons (hn.i _) <| genLocal_cons isLocal_tick genLocal_nil

theorem LocalModel.googleCoherent (hn : LocalModel nm) (o : SetOrder) (l : Layout) : GenLocal (Blocks.googleCoherent o nm l) := by
  have t := isLocal_tick
  have hx : ∀ a b, GenLocal [nm.hadamard a, nm.xGate b, Blocks.tick] := fun a b =>
    genLocal_cons (hn.h _) <| genLocal_cons (hn.x _) <| genLocal_cons t genLocal_nil
  unfold Blocks.googleCoherent
  refine mem_withE fun data => mem_withE fun x => mem_withE fun z => ?_
  refine genLocal_append (genLocal_append (genLocal_append (genLocal_append (genLocal_append (genLocal_append (genLocal_append ?_
    (hn.googleCz _ _ _)) (hx _ _)) (hn.googleCz _ _ _)) (genLocal_cons (hn.x _) (genLocal_cons t genLocal_nil)))
    (hn.googleCz _ _ _)) (hx _ _)) (hn.googleCz _ _ _)
  exact genLocal_cons (hn.inc _) <| genLocal_cons t <| hx _ _

theorem LocalModel.googleIter (hn : LocalModel nm) (o : SetOrder) (l : Layout) : GenLocal (Blocks.googleIter o nm l) := by
  have t := isLocal_tick
  unfold Blocks.googleIter
  refine mem_withE fun data => mem_withE fun anc => genLocal_append (hn.googleCoherent _ _) ?_
  exact genLocal_cons (hn.h _) <| genLocal_cons (hn.x _) <| genLocal_cons t <| genLocal_cons (hn.m _) <| genLocal_cons (hn.i _) <|
    genLocal_cons t <| genLocal_cons (hn.r _) <| genLocal_cons (hn.i _) <| genLocal_cons t genLocal_nil

theorem LocalModel.googleFinalIter (hn : LocalModel nm) (o : SetOrder) (l : Layout) (rot : Bool) :
    GenLocal (Blocks.googleFinalIter o nm l rot) := by
  unfold Blocks.googleFinalIter
  refine mem_withE fun anc => mem_withE fun data => genLocal_append (hn.googleCoherent _ _) (mem_withE fun stabs => ?_)
  exact genLocal_cons (hn.h _) <| genLocal_cons (hn.i _) <| genLocal_cons isLocal_tick <| genLocal_cons (hn.m _) <|
    genLocal_cons (hn.m _) genLocal_nil

theorem isLocal_fromAnc {b : PyM (Sim cfg) Circuit} (hb : IsLocal b) {reset : Bool} {sel : Option (List String)}
    {f : Circuit → PyM (Sim cfg) Circuit} (hf : ∀ c, Local c → IsLocal (f c)) :
    IsLocal (b >>= fun c => onDets (fun getRec => Detectors.buildFromAnc getRec reset sel) >>= fun d => f (c.concat d)) := by
  refine isLocal_then hb fun c hc s c' s' h => ?_
  obtain ⟨d, s3, e3, h⟩ := PyM.bind_eq_ok h
  unfold onDets at e3
  simp only [Prod.mk.injEq] at e3
  refine hf _ (local_concat hc (local_marks fun i hi => ?_)) _ _ _ h
  rw [buildFromAnc_gates (Prod.ext e3.1 rfl) i hi]
  decide

theorem isLocal_googleRound (hn : LocalModel nm) (o : SetOrder) (sel : Option (List String)) :
    IsLocal (googleRound (cfg := cfg) o nm l sel) :=
  isLocal_ite (isLocal_raise _) <| isLocal_fromAnc (isLocal_onModel (isLocal_sumGen (hn.googleIter _ _))) fun _ hc => isLocal_pure hc

theorem isLocal_googleFinal (hn : LocalModel nm) (o : SetOrder) (sel : Option (List String)) (rot : Bool) :
    IsLocal (googleFinal (cfg := cfg) o nm l sel rot) :=
  isLocal_ite (isLocal_raise _) <| isLocal_bind fun _ =>
    isLocal_fromAnc (isLocal_onModel (isLocal_sumGen (hn.googleFinalIter _ _ _))) fun _ hc _ _ _ h => local_finishMeas hc h

theorem isLocal_googleMemory (hn : LocalModel nm) (o : SetOrder) (R : Int) (dataInit : Dict String Int) (rot : Bool)
    (sel : Option (List String)) (gauge : Bool) : IsLocal (googleMemory (cfg := cfg) o nm l R dataInit rot sel gauge) := by
  refine isLocal_ite (isLocal_raise _) <| isLocal_bind fun _ => isLocal_then (fun _ _ _ h => local_start h) fun _ h1 =>
    isLocal_then (isLocal_addTo h1 (isLocal_activateAndSum (hn.initXzzxIter _ _ _ _))) fun _ h2 => isLocal_ite
      (isLocal_bind fun _ => isLocal_addTo h2 (isLocal_googleFinal hn _ _ _))
      (isLocal_then (isLocal_addAll h2 (fun r => ?_) _) fun _ h3 => isLocal_addTo h3 (isLocal_googleFinal hn _ _ _))
  exact isLocal_ite (isLocal_bind fun _ => isLocal_googleRound hn _ _) (isLocal_googleRound hn _ _)

/-! ### the noise models of the library -/

/-- Gates that appear nowhere. -/
def Avoids (c : Circuit) : Prop := ∀ i ∈ c, i.gate ∉ [Gate.DEPOLARIZE2, .PAULI_CHANNEL_2, .MX, .MY]

theorem avoids_append {c c' : Circuit} {g : Gate} {ts : List Nat} {args : List Arg}
    (hg : g ∉ [Gate.DEPOLARIZE2, .PAULI_CHANNEL_2, .MX, .MY]) (hc : Avoids c) (h : appendOp c g ts args = .ok c') : Avoids c' := by
  unfold appendOp at h
  split at h
  · simp at h
  · rename_i j hj
    simp only [Except.ok.injEq] at h
    subst h
    intro k hk
    have := mkInstr_ok hj
    rcases mem_foldl_append (L := [j]) (c := c) (i := k) hk with ⟨x, hx, he⟩ | ⟨x, hx, he⟩
    · rw [← he]; exact hc x hx
    · rw [List.mem_singleton] at hx
      rw [← he, hx, this]
      exact hg

theorem avoids_noiseLoop {noise : Gate} (hg : noise ∉ [Gate.DEPOLARIZE2, .PAULI_CHANNEL_2, .MX, .MY]) {rule : ArgRule}
    {gs : List (List String × List Nat)} {c c' : Circuit} (hc : Avoids c) (h : noiseLoop noise rule c gs = .ok c') : Avoids c' := by
  induction gs generalizing c with
  | nil => simp only [noiseLoop, Except.ok.injEq] at h; rw [← h]; exact hc
  | cons g gs ih =>
    obtain ⟨qs, is⟩ := g
    unfold noiseLoop at h
    split at h
    · simp at h
    · split at h
      · simp at h
      · rename_i h1
        exact ih (avoids_append hg hc h1) h

theorem avoids_nil : Avoids [] := by simp [Avoids]

variable {inds : Dict String Nat} {st : Setup}

/-- What is shown of the methods. -/
def MethodFollows (f : List String → PyM MeasState Circuit) : Prop := ∀ qs s c s', f qs s = (.ok c, s') → Follows [] c

theorem follows_lift {f : List String → Except Err Circuit} (h : ∀ qs c, f qs = .ok c → Follows [] c) : MethodFollows (lift f) := by
  intro qs s c s' he
  simp only [lift, PyM.ofExcept, Prod.mk.injEq] at he
  exact h qs c he.1

theorem follows_sqOp {g noise : Gate} (hg : g ∉ [Gate.DEPOLARIZE2, .PAULI_CHANNEL_2, .MX, .MY])
    (hn : noise ∉ [Gate.DEPOLARIZE2, .PAULI_CHANNEL_2, .MX, .MY]) (rule : ArgRule) : MethodFollows (lift (sqOp inds g noise rule)) := by
  refine follows_lift fun qs c h => follows_of ?_
  unfold sqOp at h
  split at h
  · simp at h
  · split at h
    · simp at h
    · rename_i h1
      exact avoids_noiseLoop hn (avoids_append hg avoids_nil h1) h

theorem follows_plainOp {g : Gate} (hg : g ∉ [Gate.DEPOLARIZE2, .PAULI_CHANNEL_2, .MX, .MY]) :
    MethodFollows (lift (plainOp inds g)) := by
  refine follows_lift fun qs c h => follows_of ?_
  unfold plainOp at h
  split at h
  · simp at h
  · exact avoids_append hg avoids_nil h

theorem follows_noiseOnly {noise : Gate} (hn : noise ∉ [Gate.DEPOLARIZE2, .PAULI_CHANNEL_2, .MX, .MY]) (rule : ArgRule) :
    MethodFollows (lift (noiseOnly inds noise rule)) := by
  refine follows_lift fun qs c h => follows_of ?_
  unfold noiseOnly at h
  split at h
  · simp at h
  · exact avoids_noiseLoop hn avoids_nil h

theorem follows_incomingNoiseOp : MethodFollows (lift (incomingNoiseOp st inds)) := by
  refine follows_lift fun qs c h => follows_of ?_
  unfold incomingNoiseOp at h
  split at h
  · simp at h
  · split at h
    · simp at h
    · rename_i h1
      exact avoids_noiseLoop (by decide) (avoids_noiseLoop (by decide) avoids_nil h1) h

theorem follows_noIncoming : MethodFollows noIncoming := by
  intro qs s c s' h
  simp only [noIncoming, pure, PyM.pure, Prod.mk.injEq, Except.ok.injEq] at h
  rw [← h.1]
  trivial

theorem avoids_measLoop {c c' : Circuit} {ps : List (String × Nat)} {s s' : MeasState} (hc : Avoids c)
    (h : measLoop st inds .M c ps s = (.ok c', s')) : Avoids c' := by
  induction ps generalizing c s with
  | nil =>
    simp only [measLoop, pure, PyM.pure, Prod.mk.injEq, Except.ok.injEq] at h
    rw [← h.1]; exact hc
  | cons p ps ih =>
    obtain ⟨q, i⟩ := p
    unfold measLoop at h
    obtain ⟨_, s1, -, h⟩ := PyM.bind_eq_ok h
    obtain ⟨flag, s2, -, h⟩ := PyM.bind_eq_ok h
    have key : ∀ (args : List Arg) (s2 : MeasState),
        (PyM.ofExcept (appendOp c .M [i] args) >>= fun c' => measLoop st inds .M c' ps) s2 = (.ok c', s') → Avoids c' := by
      intro args s2 h
      obtain ⟨c1, s4, h4, h⟩ := PyM.bind_eq_ok h
      simp only [PyM.ofExcept, Prod.mk.injEq] at h4
      exact ih (avoids_append (by decide) hc h4.1) h
    simp only at h
    split at h
    · obtain ⟨args, s3, -, h⟩ := PyM.bind_eq_ok h
      exact key _ _ h
    · obtain ⟨args, s3, -, h⟩ := PyM.bind_eq_ok h
      exact key _ _ h

theorem follows_measOp : MethodFollows (measOp st inds .M .X_ERROR) := by
  intro qs s c s' h
  unfold measOp at h
  obtain ⟨is, s1, -, h⟩ := PyM.bind_eq_ok h
  obtain ⟨c1, s2, h2, h⟩ := PyM.bind_eq_ok h
  simp only [PyM.ofExcept, Prod.mk.injEq] at h2
  exact follows_of (avoids_measLoop (avoids_noiseLoop (by decide) avoids_nil h2.1) h)

theorem follows_plainMeas : MethodFollows (plainMeasLoop inds .M []) := by
  have key : ∀ (qs : List String) (c c' : Circuit) (s s' : MeasState), Avoids c →
      plainMeasLoop inds .M c qs s = (.ok c', s') → Avoids c' := by
    intro qs
    induction qs with
    | nil =>
      intro c c' s s' hc h
      simp only [plainMeasLoop, pure, PyM.pure, Prod.mk.injEq, Except.ok.injEq] at h
      rw [← h.1]; exact hc
    | cons q qs ih =>
      intro c c' s s' hc h
      unfold plainMeasLoop at h
      obtain ⟨_, s1, -, h⟩ := PyM.bind_eq_ok h
      obtain ⟨is, s2, -, h⟩ := PyM.bind_eq_ok h
      obtain ⟨c1, s4, h4, h⟩ := PyM.bind_eq_ok h
      simp only [PyM.ofExcept, Prod.mk.injEq] at h4
      exact ih _ _ _ _ (avoids_append (by decide) hc h4.1) h
  exact fun qs s c s' h => follows_of (key _ _ _ _ _ avoids_nil h)

/-- A two-qubit gate and channels on its pairs. -/
def GateThenNoise (noise : Gate) (gi : Instr) (c : Circuit) : Prop :=
  ∃ r, c = gi :: r ∧ ∀ i ∈ r, i.gate = noise ∧ i.qubits.length % 2 = 0 ∧ ∀ p ∈ pairs i.qubits, p ∈ pairs gi.qubits

theorem GateThenNoise.follows {noise : Gate} {gi : Instr} {c : Circuit} (h : GateThenNoise noise gi c)
    (hg : gi.gate ∈ [Gate.CZ, .CX, .SWAP]) (hn : noise ∈ [Gate.DEPOLARIZE2, .PAULI_CHANNEL_2]) : Follows [] c := by
  obtain ⟨r, rfl, hr⟩ := h
  have h1 : gi.gate ≠ .TICK := by intro e; rw [e] at hg; revert hg; decide
  have h2 : gi.gate ∉ [Gate.DEPOLARIZE2, .PAULI_CHANNEL_2] := by revert hg; cases gi.gate <;> decide
  rw [follows_cons, if_neg h1, if_neg h2, if_pos hg, List.append_nil]
  clear h1 h2 hg
  have h3 : noise ≠ .TICK := by intro e; rw [e] at hn; revert hn; decide
  induction r with
  | nil => trivial
  | cons i r ih =>
    obtain ⟨k1, -, k3⟩ := hr i (by simp)
    rw [follows_cons, k1, if_neg h3, if_pos hn]
    exact ⟨k3, ih fun j hj => hr j (by simp [hj])⟩

theorem GateThenNoise.append {noise : Gate} {gi : Instr} {c : Circuit} (h : GateThenNoise noise gi c) (hg : gi.gate ≠ noise)
    {i : Instr} (hi : i.gate = noise) (h2 : i.qubits.length % 2 = 0) (hp : ∀ p ∈ pairs i.qubits, p ∈ pairs gi.qubits) :
    GateThenNoise noise gi (Circuit.append c i) := by
  obtain ⟨r, rfl, hr⟩ := h
  rcases List.eq_nil_or_concat r with rfl | ⟨r', x, rfl⟩
  · refine ⟨[i], ?_, by intro j hj; rw [List.mem_singleton] at hj; rw [hj]; exact ⟨hi, h2, hp⟩⟩
    have : ¬ gi.gate = i.gate := by rw [hi]; exact hg
    simp [Circuit.append, this]
  · rw [List.concat_eq_append] at hr ⊢
    obtain ⟨e1, e2, e3⟩ := hr x (by simp)
    have hl : (gi :: (r' ++ [x])).getLast? = some x := by
      rw [show gi :: (r' ++ [x]) = (gi :: r') ++ [x] from rfl, List.getLast?_concat]
    unfold Circuit.append
    rw [hl]
    simp only
    split
    · refine ⟨r' ++ [⟨x.gate, x.targets ++ i.targets, x.args⟩], ?_, ?_⟩
      rotate_left
      · intro j hj
        rcases List.mem_append.1 hj with hj | hj
        · exact hr j (by simp [hj])
        · rw [List.mem_singleton] at hj
          rw [hj]
          refine ⟨e1, ?_, ?_⟩
          · rw [Instr.qubits_mk_append]
            have a1 : (Instr.mk x.gate x.targets x.args).qubits = x.qubits := rfl
            have a2 : (Instr.mk x.gate i.targets x.args).qubits = i.qubits := rfl
            rw [a1, a2, List.length_append]
            omega
          · rw [Instr.qubits_mk_append]
            have a1 : (Instr.mk x.gate x.targets x.args).qubits = x.qubits := rfl
            have a2 : (Instr.mk x.gate i.targets x.args).qubits = i.qubits := rfl
            rw [a1, a2, pairs_append _ _ e2 h2]
            intro p hp'
            rcases List.mem_append.1 hp' with hp' | hp'
            · exact e3 p hp'
            · exact hp p hp'
      · rw [show gi :: (r' ++ [x]) = (gi :: r') ++ [x] from rfl, List.dropLast_concat]
        rfl
    · refine ⟨r' ++ [x] ++ [i], by simp, ?_⟩
      intro j hj
      rcases List.mem_append.1 hj with hj | hj
      · exact hr j hj
      · rw [List.mem_singleton] at hj
        rw [hj]
        exact ⟨hi, h2, hp⟩

theorem qubits_map_qubit (g : Gate) (ts : List Nat) (args : List Arg) : (Instr.mk g (ts.map Target.qubit) args).qubits = ts := by
  simp [Instr.qubits, List.filterMap_map, Function.comp_def]

theorem gateThenNoise_loop {noise : Gate} {gi : Instr} (hg : gi.gate ≠ noise) {rule : ArgRule}
    {gs : List (List String × List Nat)} (hgs : ∀ x ∈ gs, ∃ a b, x.2 = [a, b] ∧ (a, b) ∈ pairs gi.qubits) {c c' : Circuit}
    (hc : GateThenNoise noise gi c) (h : noiseLoop noise rule c gs = .ok c') : GateThenNoise noise gi c' := by
  induction gs generalizing c with
  | nil => simp only [noiseLoop, Except.ok.injEq] at h; rw [← h]; exact hc
  | cons g gs ih =>
    obtain ⟨qs, is⟩ := g
    unfold noiseLoop at h
    split at h
    · simp at h
    · rename_i args _
      split at h
      · simp at h
      · rename_i c1 h1
        refine ih (fun x hx => hgs x (by simp [hx])) ?_ h
        unfold appendOp at h1
        split at h1
        · simp at h1
        · rename_i j hj
          simp only [Except.ok.injEq] at h1
          rw [← h1]
          have hj := mkInstr_ok hj
          obtain ⟨a, b, e, hab⟩ := hgs (qs, is) (by simp)
          simp only at e
          subst e
          have hq : j.qubits = [a, b] := by rw [hj]; exact qubits_map_qubit _ _ _
          refine hc.append hg (by rw [hj]) (by rw [hq]; simp) ?_
          rw [hq]
          intro p hp
          simp [pairs, pairUp] at hp
          rw [hp]
          exact hab

theorem follows_tqOp {g noise : Gate} (hg : g ∈ [Gate.CZ, .CX, .SWAP]) (hn : noise ∈ [Gate.DEPOLARIZE2, .PAULI_CHANNEL_2])
    (rule : ArgRule) : MethodFollows (lift (tqOp inds g noise rule)) := by
  refine follows_lift fun qs c h => ?_
  unfold tqOp at h
  split at h
  · simp at h
  · split at h
    · simp at h
    · rename_i is _
      split at h
      · simp at h
      · rename_i c1 h1
        split at h
        · simp at h
        · rename_i gs h2
          unfold appendOp at h1
          split at h1
          · simp at h1
          · rename_i gi hgi
            simp only [Except.ok.injEq] at h1
            have hgi := mkInstr_ok hgi
            have hq : gi.qubits = is := by rw [hgi]; exact qubits_map_qubit _ _ _
            have hgg : gi.gate = g := by rw [hgi]
            have hne : gi.gate ≠ noise := by
              rw [hgg]
              intro e
              rw [e] at hg
              revert hg hn
              cases noise <;> decide
            have hc1 : c1 = [gi] := by rw [← h1]; rfl
            refine GateThenNoise.follows (gi := gi) (noise := noise) (gateThenNoise_loop hne ?_ ⟨[], hc1, by simp⟩ h)
              (by rw [hgg]; exact hg) hn
            unfold pairGroups at h2
            split at h2
            · rename_i ps js e1 e2
              simp only [Except.ok.injEq] at h2
              subst h2
              intro x hx
              obtain ⟨y, hy, rfl⟩ := List.mem_map.1 hx
              refine ⟨y.2.1, y.2.2, rfl, ?_⟩
              rw [hq]
              unfold pairs
              rw [e2]
              exact (List.of_mem_zip hy).2
            · simp at h2

theorem localNoise_of (h : MethodFollows nm.xGate ∧ MethodFollows nm.zGate ∧ MethodFollows nm.hadamard ∧ MethodFollows nm.sGate ∧
    MethodFollows nm.sDagGate ∧ MethodFollows nm.cphase ∧ MethodFollows nm.cnot ∧ MethodFollows nm.swap ∧
    MethodFollows nm.measure ∧ MethodFollows nm.reset ∧ MethodFollows nm.idle ∧ MethodFollows nm.incomingNoise) : LocalNoise nm := by
  obtain ⟨h1, h2, h3, h4, h5, h6, h7, h8, h9, h10, h11, h12⟩ := h
  intro f hf
  simp only [List.mem_cons, List.not_mem_nil, or_false] at hf
  rcases hf with rfl | rfl | rfl | rfl | rfl | rfl | rfl | rfl | rfl | rfl | rfl | rfl <;> assumption

theorem local_circuitNoise (st : Setup) (inds : Dict String Nat) : LocalNoise (circuitNoise st inds) :=
  localNoise_of ⟨follows_sqOp (by decide) (by decide) _, follows_sqOp (by decide) (by decide) _,
    follows_sqOp (by decide) (by decide) _, follows_sqOp (by decide) (by decide) _, follows_sqOp (by decide) (by decide) _,
    follows_tqOp (by decide) (by decide) _, follows_tqOp (by decide) (by decide) _, follows_tqOp (by decide) (by decide) _,
    follows_measOp, follows_sqOp (by decide) (by decide) _, follows_noiseOnly (by decide) _, follows_noIncoming⟩

theorem local_biasedNoise (st : Setup) (inds : Dict String Nat) : LocalNoise (biasedNoise st inds) :=
  localNoise_of ⟨follows_sqOp (by decide) (by decide) _, follows_sqOp (by decide) (by decide) _,
    follows_sqOp (by decide) (by decide) _, follows_sqOp (by decide) (by decide) _, follows_sqOp (by decide) (by decide) _,
    follows_tqOp (by decide) (by decide) _, follows_tqOp (by decide) (by decide) _, follows_tqOp (by decide) (by decide) _,
    follows_measOp, follows_sqOp (by decide) (by decide) _, follows_noiseOnly (by decide) _, follows_noIncoming⟩

theorem local_incoming (st : Setup) (inds : Dict String Nat) : LocalNoise (incoming st inds) :=
  localNoise_of ⟨follows_plainOp (by decide), follows_plainOp (by decide), follows_plainOp (by decide), follows_plainOp (by decide),
    follows_plainOp (by decide), follows_plainOp (by decide), follows_plainOp (by decide), follows_plainOp (by decide),
    follows_plainMeas, follows_plainOp (by decide), follows_plainOp (by decide), follows_incomingNoiseOp⟩

theorem local_noiseless (inds : Dict String Nat) : LocalNoise (noiseless inds) :=
  localNoise_of ⟨follows_plainOp (by decide), follows_plainOp (by decide), follows_plainOp (by decide), follows_plainOp (by decide),
    follows_plainOp (by decide), follows_plainOp (by decide), follows_plainOp (by decide), follows_plainOp (by decide),
    follows_plainMeas, follows_plainOp (by decide), follows_plainOp (by decide), follows_noIncoming⟩

theorem local_phenomenological (st : Setup) (inds : Dict String Nat) : LocalNoise (phenomenological st inds) :=
  localNoise_of ⟨follows_plainOp (by decide), follows_plainOp (by decide), follows_plainOp (by decide), follows_plainOp (by decide),
    follows_plainOp (by decide), follows_plainOp (by decide), follows_plainOp (by decide), follows_plainOp (by decide),
    follows_measOp, follows_plainOp (by decide), follows_plainOp (by decide), follows_incomingNoiseOp⟩

end SurfaceSim
