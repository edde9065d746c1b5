/-
Memory experiments: the values of detectors and observables.
-/
import Verif.Model.Experiments
import Verif.Lemmas.DetMemory
import Verif.Lemmas.Outs
import Verif.Lemmas.Commute

namespace SurfaceSim
open Spec NoiseModel Blocks Experiments

/-! ### outcomes of an ancilla -/

/-- Outcomes of an ancilla with syndrome `σ` that changes by `ε` every round. -/
def outSeq (reset clear : Bool) (κ ε x0 σ : ZMod 2) : Nat → ZMod 2
  | 0 => κ + (if reset then 0 else x0) + σ
  | k + 1 => κ + (if reset || clear then 0 else outSeq reset clear κ ε x0 σ k) + σ + (k + 1) * ε

theorem outSeq_pair (reset clear : Bool) (κ ε x0 σ : ZMod 2) (h : (reset || clear) = true) (k : Nat) :
    outSeq reset clear κ ε x0 σ (k + 1) + outSeq reset clear κ ε x0 σ k =
      ε + if k = 0 then (if reset then 0 else x0) else 0 := by
  cases k with
  | zero =>
    simp only [outSeq, h, if_true]
    generalize (if reset then (0 : ZMod 2) else x0) = y
    norm_num
    revert κ ε σ y; decide
  | succ k =>
    simp only [outSeq, h, if_true]
    push_cast
    generalize (k : ZMod 2) = t
    norm_num
    clear x0 h
    revert κ ε σ t; decide

theorem outSeq_one (κ ε x0 σ : ZMod 2) : outSeq false false κ ε x0 σ 1 = ε + x0 := by
  simp [outSeq]
  revert κ ε x0 σ; decide

theorem outSeq_two (κ ε x0 σ : ZMod 2) (k : Nat) :
    outSeq false false κ ε x0 σ (k + 2) + outSeq false false κ ε x0 σ k = ε := by
  simp only [outSeq]
  generalize outSeq false false κ ε x0 σ k = y
  push_cast
  generalize (k : ZMod 2) = t
  simp
  clear x0
  revert κ ε σ t y; decide

theorem outSeq_final_pair (reset clear : Bool) (κ ε x0 σ : ZMod 2) (h : (reset || clear) = true) (k : Nat) :
    (σ + (k + 1) * ε) + outSeq reset clear κ ε x0 σ k = κ + ε + if k = 0 then (if reset then 0 else x0) else 0 := by
  cases k with
  | zero =>
    simp only [outSeq]
    generalize (if reset then (0 : ZMod 2) else x0) = y
    norm_num
    revert κ ε σ y; decide
  | succ k =>
    simp only [outSeq, h, if_true]
    push_cast
    generalize (k : ZMod 2) = t
    norm_num
    clear x0 h
    revert κ ε σ t; decide

theorem outSeq_final_one (κ ε x0 σ : ZMod 2) :
    (σ + (0 + 1) * ε) + outSeq false false κ ε x0 σ 0 = κ + ε + x0 := by
  simp [outSeq]
  revert κ ε x0 σ; decide

theorem outSeq_final_two (κ ε x0 σ : ZMod 2) (k : Nat) :
    (σ + ((k + 1 : Nat) + 1) * ε) + outSeq false false κ ε x0 σ (k + 1) + outSeq false false κ ε x0 σ k = κ + ε := by
  simp only [outSeq]
  generalize outSeq false false κ ε x0 σ k = y
  push_cast
  generalize (k : ZMod 2) = t
  simp
  clear x0
  revert κ ε σ t y; decide

/-! ### what the blocks do -/

/-- What a memory experiment uses about layout and noise model: qubits, stabilizers of the type of the basis, logical
operator; they act as X on the data qubits in `R` and as Z on the other ones. -/
structure MemCode (nm : NoiseModel) (l : Layout) (rb : Bool) (data anc stabs log : List String)
    (isX : String → String → Bool) (R : List String) : Prop where
  reach : Reachable l
  can : CanRun nm l
  qData : l.getQubits [("role", .str "data")] = .ok data
  qAnc : l.getQubits [("role", .str "anc")] = .ok anc
  qStabs : stabQubits l (stabType rb) = .ok stabs
  all : ∃ qs, l.getQubits [] = .ok qs ∧ qs.Nodup ∧ ∀ q, q ∈ qs ↔ q ∈ data ++ anc
  nodup : (data ++ anc).Nodup
  sup : ∀ a ∈ anc, ∀ d ∈ l.getNeighbors [a] none, d ∈ data
  supN : ∀ a, (l.getNeighbors [a] none).Nodup
  stabsSub : ∀ a ∈ stabs, a ∈ anc
  qLog : logicalSupport l rb = .ok log
  logSub : ∀ d ∈ log, d ∈ data
  rot : ∀ d ∈ R, d ∈ data
  type : ∀ a ∈ stabs, ∀ d ∈ l.getNeighbors [a] none, isX a d = decide (d ∈ R)
  coords : ∃ c, Blocks.qubitCoords nm [l] = .ok c ∧ EvenPairs c ∧ ops c = []

namespace MemCode
variable {nm : NoiseModel} {l : Layout} {rb : Bool} {data anc stabs log : List String} {isX : String → String → Bool}
  {R : List String}

theorem known (h : MemCode nm l rb data anc stabs log isX R) {q : String} (hq : q ∈ data ++ anc) : q ∈ nm.inds.keys := by
  obtain ⟨qs, h1, -, h2⟩ := h.all
  exact h.can.known qs h1 q ((h2 q).2 hq)

theorem disj (h : MemCode nm l rb data anc stabs log isX R) {q : String} (hd : q ∈ data) (ha : q ∈ anc) : False :=
  (List.nodup_append.1 h.nodup).2.2 q hd q ha rfl

theorem dataN (h : MemCode nm l rb data anc stabs log isX R) : data.Nodup := (List.nodup_append.1 h.nodup).1

theorem ancN (h : MemCode nm l rb data anc stabs log isX R) : anc.Nodup := (List.nodup_append.1 h.nodup).2.1

end MemCode

/-- Effect of a round on the quantities a memory experiment depends on. -/
def RoundEff (nm : NoiseModel) (l : Layout) (anc log : List String) (isX : String → String → Bool) (R : List String)
    (reset clear : Bool) (κ ε : String → ZMod 2) (εL : ZMod 2) (b : Call1) : Prop :=
  ∀ (s : MeasState) (hist : List String), s.Tracks nm.inds hist →
    ∃ c s', b s = (.ok c, s') ∧ PairsOk c ∧ s'.Tracks nm.inds (hist ++ anc) ∧
      measOrder c = anc.map (ind nm.inds) ∧ ∀ (ρ : Nat → ZMod 2) (st : FState Nat),
        let ι := ind nm.inds
        let st' := run ρ st (ops c)
        let out a := κ a + (if reset then 0 else st.x (ι a)) + anticommutes ι st (l.getNeighbors [a] none) (isX a)
        st'.recs = (anc.map out).reverse ++ st.recs ∧
        (∀ a ∈ anc, st'.x (ι a) = if clear then 0 else out a) ∧
        (∀ a ∈ anc, anticommutes ι st' (l.getNeighbors [a] none) (isX a) =
          anticommutes ι st (l.getNeighbors [a] none) (isX a) + ε a) ∧
        anticommutes ι st' log (fun d => decide (d ∈ R)) = anticommutes ι st log (fun d => decide (d ∈ R)) + εL ∧
        st'.dets = st.dets ∧ st'.obs = st.obs

/-- Effect of an initialization. -/
def InitEff (nm : NoiseModel) (data anc R : List String) (dataInit : Dict String Int) (b : Call1) : Prop :=
  ∃ A E H : List String, A.Nodup ∧ (∀ q, q ∈ A ↔ q ∈ data ++ anc) ∧ E.Nodup ∧ (∀ q, q ∈ E ↔ isOne dataInit q = 1) ∧
    H.Nodup ∧ (∀ q, q ∈ H ↔ q ∈ R) ∧ Does nm.inds b (A.map Op.r ++ E.map Op.x ++ H.map Op.h)

/-- Effect of a measurement of the data qubits. -/
def MeasEff (nm : NoiseModel) (data R : List String) (b : Call1) : Prop :=
  ∃ H : List String, H.Nodup ∧ (∀ q, q ∈ H ↔ q ∈ R) ∧ Does nm.inds b (H.map Op.h ++ data.map Op.m)

variable {nm : NoiseModel} {l : Layout} {rb : Bool} {data anc stabs log : List String} {isX : String → String → Bool}
  {R : List String}

theorem isOne_cases (dataInit : Dict String Int) (q : String) : isOne dataInit q = 0 ∨ isOne dataInit q = 1 := by
  unfold isOne; split <;> simp

theorem run_renamed {inds : Dict String Nat} (hinj : IndsInj inds) {L : List (Op String)}
    (hL : ∀ op ∈ L, ∀ q ∈ op.qubits, q ∈ inds.keys) (ρ : Nat → ZMod 2) (st : FState Nat) :
    Agree (ind inds) (· ∈ inds.keys) (run ρ (pullback (ind inds) st) L) (run ρ st (L.map (Op.rename (ind inds)))) :=
  (agree_pullback (ind inds) (· ∈ inds.keys) st).run (fun a b ha hb => hinj a ha b hb) ρ L hL

/-- The state after resets, bit flips and Hadamards. -/
theorem init_frame {inds : Dict String Nat} (hinj : IndsInj inds) {data anc R A E H : List String}
    (known : ∀ q ∈ data ++ anc, q ∈ inds.keys) (disj : ∀ q ∈ data, q ∉ anc) (rot : ∀ d ∈ R, d ∈ data)
    {dataInit : Dict String Int} (hA : A.Nodup) (hA' : ∀ q, q ∈ A ↔ q ∈ data ++ anc) (hE : E.Nodup)
    (hE' : ∀ q, q ∈ E ↔ isOne dataInit q = 1) (hH : H.Nodup) (hH' : ∀ q, q ∈ H ↔ q ∈ R)
    (hk : ∀ op ∈ A.map Op.r ++ E.map Op.x ++ H.map Op.h, ∀ q ∈ op.qubits, q ∈ inds.keys) {c : Circuit} (he : EvenPairs c)
    (ho : ops c = (A.map Op.r ++ E.map Op.x ++ H.map Op.h).map (Op.rename (ind inds))) :
    PairsOk c ∧ measOrder c = [] ∧ ∀ ζ ρ : Nat → ZMod 2,
      let st := run ρ (FState.start ζ) (ops c)
      st.recs = [] ∧ st.dets = [] ∧ st.obs = [] ∧ (∀ a ∈ anc, st.x (ind inds a) = isOne dataInit a) ∧
      ∀ S : List String, (∀ d ∈ S, d ∈ data) →
        anticommutes (ind inds) st S (fun d => decide (d ∈ R)) = bits dataInit S := by
  have hmeas : measured (A.map Op.r ++ E.map Op.x ++ H.map Op.h) = [] := by
    simp only [measured_append]
    rw [measured_map_none _ _ (by simp), measured_map_none _ _ (by simp), measured_map_none _ _ (by simp)]
    rfl
  have hp : PairsOk c := pairsOk_of_ops hinj he ho hk (by
    intro op h
    simp only [List.mem_append, List.mem_map] at h
    rcases h with (⟨_, -, rfl⟩ | ⟨_, -, rfl⟩) | ⟨_, -, rfl⟩ <;> trivial)
  refine ⟨hp, by rw [measOrder_ops, ho, measured_rename, hmeas]; rfl, fun ζ ρ => ?_⟩
  have hag := run_renamed hinj hk ρ (FState.start ζ)
  rw [← ho] at hag
  have hst : run ρ (pullback (ind inds) (FState.start ζ)) (A.map Op.r ++ E.map Op.x ++ H.map Op.h) =
      { x := fun q => if q ∈ H then (if q ∈ A then ρ (0 + A.idxOf q) else ζ (ind inds q)) else isOne dataInit q
        z := fun q => if q ∈ H then isOne dataInit q else (if q ∈ A then ρ (0 + A.idxOf q) else ζ (ind inds q))
        recs := [], dets := [], obs := [], rnd := 0 + A.length } := by
    have hone : ∀ q, (if q ∈ E then (0 : ZMod 2) + 1 else 0) = isOne dataInit q := by
      intro q
      rcases isOne_cases dataInit q with h0 | h1
      · rw [if_neg, h0]
        intro h; rw [hE', h0] at h; simp at h
      · rw [if_pos ((hE' q).2 h1), h1]; simp
    rw [run_append, run_append, run_r _ _ hA, run_x _ _ hE, run_h _ _ hH]
    simp only [pullback, FState.start, FState.init, ite_self]
    congr 1
    · funext q; simp only [hone]
    · funext q; simp only [hone]
  rw [hst] at hag
  refine ⟨hag.recs, hag.dets, hag.obs, fun a ha => ?_, fun S hS => ?_⟩
  · rw [hag.x a (known a (List.mem_append_right _ ha))]
    have : a ∉ H := fun h => disj a (rot a ((hH' a).1 h)) ha
    simp [this]
  · unfold anticommutes bits
    congr 1
    refine List.map_congr_left fun d hd => ?_
    have hk := known d (List.mem_append_left _ (hS d hd))
    rw [hag.x d hk, hag.z d hk]
    by_cases h : d ∈ R
    · simp [h, (hH' d).2 h]
    · have : d ∉ H := fun h' => h ((hH' d).1 h')
      simp [h, this]

/-- The state after an initialization. -/
theorem InitEff.frame (hm : MemCode nm l rb data anc stabs log isX R) {dataInit : Dict String Int} {b : Call1}
    (hb : InitEff nm data anc R dataInit b) {s : MeasState} {hist : List String} (hs : s.Tracks nm.inds hist) :
    ∃ c s', b s = (.ok c, s') ∧ PairsOk c ∧ s'.Tracks nm.inds hist ∧ measOrder c = [] ∧ ∀ ζ ρ : Nat → ZMod 2,
      let st := run ρ (FState.start ζ) (ops c)
      st.recs = [] ∧ st.dets = [] ∧ st.obs = [] ∧ (∀ a ∈ anc, st.x (ind nm.inds a) = isOne dataInit a) ∧
      ∀ S : List String, (∀ d ∈ S, d ∈ data) →
        anticommutes (ind nm.inds) st S (fun d => decide (d ∈ R)) = bits dataInit S := by
  obtain ⟨A, E, H, hA, hA', hE, hE', hH, hH', hd⟩ := hb
  obtain ⟨c, s', e, he, ho, ht⟩ := hd.2 s hist hs
  have hmeas : measured (A.map Op.r ++ E.map Op.x ++ H.map Op.h) = [] := by
    simp only [measured_append]
    rw [measured_map_none _ _ (by simp), measured_map_none _ _ (by simp), measured_map_none _ _ (by simp)]
    rfl
  rw [hmeas, List.append_nil] at ht
  obtain ⟨h1, h2, h3⟩ := init_frame hm.can.inj (fun q hq => hm.known hq) (fun q hq => hm.disj hq) hm.rot hA hA' hE hE' hH hH'
    hd.1 he ho
  exact ⟨c, s', e, h1, ht, h2, h3⟩

/-- The outcomes of a measurement of the data qubits. -/
theorem MeasEff.frame (hm : MemCode nm l rb data anc stabs log isX R) {b : Call1} (hb : MeasEff nm data R b)
    {s : MeasState} {hist : List String} (hs : s.Tracks nm.inds hist) :
    ∃ c s', b s = (.ok c, s') ∧ PairsOk c ∧ s'.Tracks nm.inds (hist ++ data) ∧
      measOrder c = data.map (ind nm.inds) ∧ ∀ (ρ : Nat → ZMod 2) (st : FState Nat),
      let st' := run ρ st (ops c)
      st'.recs = (data.map fun d => if decide (d ∈ R) then st.z (ind nm.inds d) else st.x (ind nm.inds d)).reverse ++ st.recs ∧
      st'.dets = st.dets ∧ st'.obs = st.obs := by
  obtain ⟨H, hH, hH', hd⟩ := hb
  obtain ⟨c, s', e, he, ho, ht⟩ := hd.2 s hist hs
  have hmeas : measured (H.map Op.h ++ data.map Op.m) = data := by
    rw [measured_append, measured_map_none _ _ (by simp), measured_m]; rfl
  rw [hmeas] at ht
  have hp : PairsOk c := pairsOk_of_ops hm.can.inj he ho hd.1 (by
    intro op h
    simp only [List.mem_append, List.mem_map] at h
    rcases h with ⟨_, -, rfl⟩ | ⟨_, -, rfl⟩ <;> trivial)
  refine ⟨c, s', e, hp, ht, by rw [measOrder_ops, ho, measured_rename, hmeas], fun ρ st => ?_⟩
  have hag := run_renamed hm.can.inj hd.1 ρ st
  rw [← ho, run_append, run_h _ _ hH, run_m _ _ hm.dataN] at hag
  refine ⟨?_, hag.dets, hag.obs⟩
  rw [hag.recs]
  simp only [pullback]
  congr 2
  refine List.map_congr_left fun d _ => ?_
  by_cases h : d ∈ R
  · simp [h, (hH' d).2 h]
  · have : d ∉ H := fun h' => h ((hH' d).1 h')
    simp [h, this]

/-! ### lookups -/

/-- Target of the `k`-th last outcome. -/
def lookOf (s : MeasState) (q : String) (k : Nat) : Int :=
  match s.measTarget q (-(k : Int)) with
  | .ok j => j
  | .error _ => 0

theorem lookOf_spec {inds : Dict String Nat} {s : MeasState} {hist : List String} (ht : s.Tracks inds hist)
    {q : String} (hq : q ∈ inds.keys) {k : Nat} (h1 : 1 ≤ k) (h2 : k ≤ hist.count q) :
    s.measTarget q (-(k : Int)) = .ok (lookOf s q k) ∧
    ∀ recs : List (ZMod 2), recs.length = hist.length → lookback recs (lookOf s q k) = (outs hist recs q).getD (k - 1) 0 := by
  have h0 := measTarget_outs ht hq (recs := List.replicate hist.length 0) (by simp) h1 h2
  obtain ⟨j, e, -⟩ := h0
  have hj : lookOf s q k = j := by unfold lookOf; rw [e]
  refine ⟨by rw [hj, e], fun recs hl => ?_⟩
  obtain ⟨j', e', h'⟩ := measTarget_outs ht hq hl h1 h2
  rw [e] at e'
  cases e'
  rw [hj]; exact h'

/-! ### the experiment -/

variable {cfg : Detectors.Config}

/-- Selected values of the round `r`. -/
def roundVal (κ ε : String → ZMod 2) (reset : Bool) (sup : String → List String) (dataInit : Dict String Int) (r : Nat)
    (a : String) : ZMod 2 :=
  let left := if reset then 0 else isOne dataInit a
  if r = 0 then κ a + left + bits dataInit (sup a) else if r = 1 then ε a + left else ε a

/-- The record after `r` rounds. -/
def histOf (anc : List String) (r : Nat) : List String := (List.replicate r anc).flatten

theorem histOf_succ (anc : List String) (r : Nat) : histOf anc (r + 1) = histOf anc r ++ anc := by
  unfold histOf
  rw [List.replicate_succ', List.flatten_append]
  simp

theorem count_histOf {anc : List String} (hn : anc.Nodup) {a : String} (ha : a ∈ anc) (r : Nat) :
    (histOf anc r).count a = r := by
  induction r with
  | zero => rfl
  | succ r ih => rw [histOf_succ, List.count_append, ih, List.count_eq_one_of_mem hn ha]

/-- The state of a memory experiment after `r` rounds; `D` are the values of the detectors so far, which may depend on the
randomness. -/
structure MemInv (nm : NoiseModel) (l : Layout) (anc stabs log : List String) (isX : String → String → Bool)
    (R : List String) (reset clear : Bool) (κ ε : String → ZMod 2) (εL : ZMod 2) (dataInit : Dict String Int)
    (D : (Nat → ZMod 2) → (Nat → ZMod 2) → List (ZMod 2)) (r : Nat) (e : Circuit) (s : Sim cfg) : Prop where
  tracks : s.1.Tracks nm.inds (histOf anc r)
  even : PairsOk e
  order : measOrder e = (histOf anc r).map (ind nm.inds)
  det : DetAt anc r s.2
  frame : ∀ ζ ρ : Nat → ZMod 2,
    let st := run ρ (FState.start ζ) (ops e)
    st.recs.length = (histOf anc r).length ∧ st.obs = [] ∧ st.dets = (D ζ ρ).reverse ∧
    anticommutes (ind nm.inds) st log (fun d => decide (d ∈ R)) = bits dataInit log + r * εL ∧
    ∃ σ : String → ZMod 2, (∀ a ∈ stabs, σ a = bits dataInit (l.getNeighbors [a] none)) ∧ ∀ a ∈ anc,
      anticommutes (ind nm.inds) st (l.getNeighbors [a] none) (isX a) = σ a + r * ε a ∧
      outs (histOf anc r) st.recs a =
        ((List.range r).map (outSeq reset clear (κ a) (ε a) (isOne dataInit a) (σ a))).reverse ∧
      st.x (ind nm.inds a) = if r = 0 then isOne dataInit a else if clear then 0 else
        outSeq reset clear (κ a) (ε a) (isOne dataInit a) (σ a) (r - 1)

theorem outs_nil (hist : List String) (a : String) : outs hist [] a = [] := by
  unfold outs
  cases hist.reverse <;> rfl

theorem memInv_init (hm : MemCode nm l rb data anc stabs log isX R) (hcfg : ConfigOk cfg) (hsub : ∀ a ∈ anc, a ∈ cfg.anc)
    {dataInit : Dict String Int} {g : Gen} (hb : InitEff nm data anc R dataInit (sumGen g))
    (reset clear : Bool) (κ ε : String → ZMod 2) (εL : ZMod 2)
    {e0 : Circuit} (he0 : PairsOk e0) (ho0 : ops e0 = []) {s : Sim cfg} (hs : s.1.Tracks nm.inds []) (hd : DetAt [] 0 s.2) :
    ∃ c s', activateAndSum l g s = (.ok c, s') ∧
      MemInv nm l anc stabs log isX R reset clear κ ε εL dataInit (fun _ _ => []) 0 (e0.concat c) s' := by
  obtain ⟨d', hd1, hd2⟩ := DetAt.activate hcfg.1 hm.ancN hsub hd
  obtain ⟨c, s1, e1, p1, t1, mo, f1⟩ := InitEff.frame hm hb hs
  have ho := he0.concat p1
  refine ⟨c, (s1, d'), ?_, t1, ho.2, by rw [measOrder_ops, ho.1, ho0, List.nil_append, ← measOrder_ops, mo]; rfl, hd2, fun ζ ρ => ?_⟩
  · unfold activateAndSum
    have h1 : PyM.ofExcept (ancQubits l) s = (.ok anc, s) := by
      unfold ancQubits; rw [hm.qAnc]; rfl
    rw [PyM.bind_ok h1]
    have h2 : onDets (cfg := cfg) (fun _ => Detectors.activate anc) s = (.ok (), (s.1, d')) := by
      show ((Detectors.activate anc s.2).1, s.1, (Detectors.activate anc s.2).2) = _
      rw [hd1]
    rw [PyM.bind_ok h2]
    unfold onModel
    simp only [e1]
  · obtain ⟨g1, g2, g3, g4, g5⟩ := f1 ζ ρ
    rw [ho.1, ho0, List.nil_append]
    refine ⟨by rw [g1]; rfl, g3, by rw [g2]; rfl, by rw [g5 log hm.logSub]; simp, ?_⟩
    refine ⟨fun a => anticommutes (ind nm.inds) (run ρ (FState.start ζ) (ops c)) (l.getNeighbors [a] none) (isX a), ?_, ?_⟩
    · intro a ha
      rw [← g5 _ (hm.sup a (hm.stabsSub a ha))]
      show (List.map _ _).sum = (List.map _ _).sum
      congr 1
      refine List.map_congr_left fun d hd => ?_
      rw [hm.type a ha d hd]
    · intro a ha
      refine ⟨by simp, by rw [g1]; exact outs_nil _ _, by simpa using g4 a ha⟩

open Classical in
/-- One round.  Detectors of the other type have in the first round a value `G` that depends on the randomness. -/
theorem memInv_round_any (hm : MemCode nm l rb data anc stabs log isX R) (hcfg : ConfigOk cfg) (hsub : ∀ a ∈ anc, a ∈ cfg.anc)
    {dataInit : Dict String Int} {b : Call1} {reset clear : Bool} {κ ε : String → ZMod 2} {εL : ZMod 2}
    (hb : RoundEff nm l anc log isX R reset clear κ ε εL b) {D : (Nat → ZMod 2) → (Nat → ZMod 2) → List (ZMod 2)} {r : Nat}
    {e : Circuit} {s : Sim cfg}
    (h : MemInv nm l anc stabs log isX R reset clear κ ε εL dataInit D r e s) (sel : List String)
    (hsel : ∀ a ∈ sel, a ∈ cfg.anc) :
    ∃ c s1 c' d', ∃ G : (Nat → ZMod 2) → (Nat → ZMod 2) → String → ZMod 2, b s.1 = (.ok c, s1) ∧
      Detectors.buildFromAnc s1.measTarget (reset || clear) (some sel) s.2 = (.ok c', d') ∧
      MemInv nm l anc stabs log isX R reset clear κ ε εL dataInit
        (fun ζ ρ => D ζ ρ ++ cfg.anc.map fun a => if a ∈ sel ∧ a ∈ anc then
          (if r = 0 ∧ a ∉ stabs then G ζ ρ a else
            roundVal κ ε reset (fun a => l.getNeighbors [a] none) dataInit r a) else 0) (r + 1)
        (e.concat (c.concat c')) (s1, d') := by
  obtain ⟨c, s1, e1, p1, t1, mo, f1⟩ := hb _ _ h.tracks
  have hcount : ∀ a ∈ anc, (histOf anc r ++ anc).count a = r + 1 := by
    intro a ha; rw [← histOf_succ, count_histOf hm.ancN ha]
  have hfind : ∀ a ∈ anc, Props.FindsAt s1.measTarget (lookOf s1) a (min 3 (r + 1)) := by
    intro a ha k hk1 hk2
    exact (lookOf_spec t1 (hm.known (List.mem_append_right _ ha)) hk1 (by rw [hcount a ha]; omega)).1
  obtain ⟨c', d', e2, p2, hd, f2⟩ := DetAt.round hcfg h.det s1.measTarget (lookOf s1) (reset || clear) sel hsel hfind
  have o1 := p1.concat p2
  have o2 := h.even.concat o1.2
  have hσ : ∀ ζ ρ : Nat → ZMod 2, ∃ g : String → ZMod 2, ∃ σ : String → ZMod 2, (∀ a ∈ anc,
      anticommutes (ind nm.inds) (run ρ (FState.start ζ) (ops e)) (l.getNeighbors [a] none) (isX a) = σ a + r * ε a) ∧
      ∀ a, g a = κ a + (if reset then 0 else isOne dataInit a) + σ a := by
    intro ζ ρ
    obtain ⟨g1, g2, g3, g4, σ, g5, g6⟩ := h.frame ζ ρ
    exact ⟨_, σ, fun a ha => (g6 a ha).1, fun a => rfl⟩
  choose G hG using hσ
  refine ⟨c, s1, c', d', G, e1, e2, by rw [histOf_succ]; exact t1, o2.2, ?_, hd, fun ζ ρ => ?_⟩
  · rw [measOrder_ops, o2.1, o1.1, measured_append, measured_append, ← measOrder_ops, ← measOrder_ops, h.order, mo,
      measured_eq_nil (ρ := 0) (st := FState.init Nat) (by rw [f2]), List.append_nil, histOf_succ, List.map_append]
  obtain ⟨g1, g2, g3, g4, σ, g5, g6⟩ := h.frame ζ ρ
  obtain ⟨σ', q1, q2⟩ := hG ζ ρ
  rw [o2.1, o1.1, run_append, run_append, f2]
  obtain ⟨k1, k2, k3, k4, k5, k6⟩ := f1 ρ (run ρ (FState.start ζ) (ops e))
  have hlen : (run ρ (run ρ (FState.start ζ) (ops e)) (ops c)).recs.length = (histOf anc r ++ anc).length := by
    rw [k1]; simp [g1]; omega
  have hout : ∀ a ∈ anc, κ a + (if reset then 0 else (run ρ (FState.start ζ) (ops e)).x (ind nm.inds a)) +
      anticommutes (ind nm.inds) (run ρ (FState.start ζ) (ops e)) (l.getNeighbors [a] none) (isX a) =
      outSeq reset clear (κ a) (ε a) (isOne dataInit a) (σ a) r := by
    intro a ha
    obtain ⟨m1, m2, m3⟩ := g6 a ha
    rw [m1, m3]
    cases r with
    | zero => simp [outSeq]
    | succ r =>
      simp only [outSeq, Nat.succ_ne_zero, if_false, Nat.add_sub_cancel]
      cases reset <;> cases clear <;> simp [add_assoc]
  have houts : ∀ a ∈ anc, outs (histOf anc r ++ anc) (run ρ (run ρ (FState.start ζ) (ops e)) (ops c)).recs a =
      ((List.range (r + 1)).map (outSeq reset clear (κ a) (ε a) (isOne dataInit a) (σ a))).reverse := by
    intro a ha
    rw [k1, outs_append hm.ancN, if_pos ha, (g6 a ha).2.1, hout a ha, List.range_succ, List.map_append, List.reverse_append]
    rfl
  have hlook : ∀ a ∈ anc, ∀ k, 1 ≤ k → k ≤ r + 1 →
      lookback (run ρ (run ρ (FState.start ζ) (ops e)) (ops c)).recs (lookOf s1 a k) =
        outSeq reset clear (κ a) (ε a) (isOne dataInit a) (σ a) (r + 1 - k) := by
    intro a ha k hk1 hk2
    rw [(lookOf_spec t1 (hm.known (List.mem_append_right _ ha)) hk1 (by rw [hcount a ha]; omega)).2 _ hlen, houts a ha,
      List.getD_eq_getElem?_getD, List.getElem?_reverse (by simp; omega)]
    simp only [List.length_map, List.length_range, List.getElem?_map]
    rw [List.getElem?_range (by omega)]
    simp only [Option.map_some, Option.getD_some]
    congr 1; omega
  refine ⟨by rw [histOf_succ]; exact hlen, by rw [k6]; exact g2, ?_, ?_, σ, g5, ?_⟩
  · rw [List.reverse_append, ← g3, ← k5]
    show List.reverse _ ++ _ = List.reverse _ ++ _
    congr 2
    refine List.map_congr_left fun a _ => ?_
    by_cases hs : a ∈ sel ∧ a ∈ anc
    · rw [if_pos hs, if_pos hs]
      have L := hlook a hs.2
      unfold roundVal parity
      rw [List.map_cons, List.sum_cons, L 1 (by omega) (by omega)]
      rcases Nat.eq_zero_or_pos r with rfl | hr
      · by_cases h0 : a ∈ stabs
        · have : σ a = bits dataInit (l.getNeighbors [a] none) := g5 a h0
          simp [outSeq, this, h0]
        · have q3 : σ' a = σ a := by
            have h1 := q1 a hs.2
            rw [(g6 a hs.2).1] at h1
            exact (add_right_cancel h1).symm
          simp [outSeq, h0, q2, q3]
      · obtain ⟨k, rfl⟩ : ∃ k, r = k + 1 := ⟨r - 1, by omega⟩
        simp only [Nat.add_sub_cancel, Nat.succ_ne_zero, false_and, if_false]
        cases hrc : (reset || clear) with
        | true =>
          have := outSeq_pair reset clear (κ a) (ε a) (isOne dataInit a) (σ a) hrc k
          simp only [if_true, show 1 ≤ k + 1 by omega, List.map_cons, List.map_nil, List.sum_cons, List.sum_nil,
            add_zero, L 2 (by omega) (by omega)]
          rw [show k + 1 + 1 - 2 = k by omega, this]
          cases k <;> simp
        | false =>
          obtain ⟨rfl, rfl⟩ : reset = false ∧ clear = false := by simpa using hrc
          simp only [Bool.false_eq_true, if_false]
          cases k with
          | zero => simp [outSeq_one]
          | succ k =>
            simp only [show 2 ≤ k + 1 + 1 by omega, if_true, List.map_cons, List.map_nil, List.sum_cons, List.sum_nil,
              add_zero, L 3 (by omega) (by omega)]
            rw [show k + 1 + 1 + 1 - 3 = k by omega, outSeq_two]
            simp
    · rw [if_neg hs, if_neg hs]
  · have : anticommutes (ind nm.inds) (run ρ (run ρ (FState.start ζ) (ops e)) (ops c)) log (fun d => decide (d ∈ R)) =
      bits dataInit log + ((r + 1 : Nat) : ZMod 2) * εL := by
      rw [k4, g4]; push_cast; ring
    exact this
  · intro a ha
    obtain ⟨m1, m2, m3⟩ := g6 a ha
    refine ⟨?_, by rw [histOf_succ]; exact houts a ha, ?_⟩
    · have : anticommutes (ind nm.inds) (run ρ (run ρ (FState.start ζ) (ops e)) (ops c)) (l.getNeighbors [a] none) (isX a) =
        σ a + ((r + 1 : Nat) : ZMod 2) * ε a := by
        rw [k3 a ha, m1]; push_cast; ring
      exact this
    · have : (run ρ (run ρ (FState.start ζ) (ops e)) (ops c)).x (ind nm.inds a) = if clear then 0 else
        outSeq reset clear (κ a) (ε a) (isOne dataInit a) (σ a) r := by
        rw [k2 a ha]; simp only [hout a ha]
      simpa using this

open Classical in
/-- One round without random detectors. -/
theorem memInv_round (hm : MemCode nm l rb data anc stabs log isX R) (hcfg : ConfigOk cfg) (hsub : ∀ a ∈ anc, a ∈ cfg.anc)
    {dataInit : Dict String Int} {b : Call1} {reset clear : Bool} {κ ε : String → ZMod 2} {εL : ZMod 2}
    (hb : RoundEff nm l anc log isX R reset clear κ ε εL b) {D : List (ZMod 2)} {r : Nat} {e : Circuit} {s : Sim cfg}
    (h : MemInv nm l anc stabs log isX R reset clear κ ε εL dataInit (fun _ _ => D) r e s) (sel : List String)
    (hsel : ∀ a ∈ sel, a ∈ cfg.anc) (h0 : r = 0 → ∀ a ∈ sel, a ∈ stabs) :
    ∃ c s1 c' d', b s.1 = (.ok c, s1) ∧
      Detectors.buildFromAnc s1.measTarget (reset || clear) (some sel) s.2 = (.ok c', d') ∧
      MemInv nm l anc stabs log isX R reset clear κ ε εL dataInit
        (fun _ _ => D ++ cfg.anc.map fun a => if a ∈ sel ∧ a ∈ anc then
          roundVal κ ε reset (fun a => l.getNeighbors [a] none) dataInit r a else 0) (r + 1)
        (e.concat (c.concat c')) (s1, d') := by
  obtain ⟨c, s1, c', d', G, h1, h2, h3⟩ := memInv_round_any hm hcfg hsub hb h sel hsel
  refine ⟨c, s1, c', d', h1, h2, ?_⟩
  have : (fun ζ ρ => D ++ cfg.anc.map fun a => if a ∈ sel ∧ a ∈ anc then
        (if r = 0 ∧ a ∉ stabs then G ζ ρ a else
            roundVal κ ε reset (fun a => l.getNeighbors [a] none) dataInit r a) else 0) =
      fun _ _ => D ++ cfg.anc.map fun a => if a ∈ sel ∧ a ∈ anc then
          roundVal κ ε reset (fun a => l.getNeighbors [a] none) dataInit r a else 0 := by
    funext ζ ρ
    congr 1
    refine List.map_congr_left fun a _ => ?_
    by_cases hs : a ∈ sel ∧ a ∈ anc
    · rw [if_pos hs, if_pos hs, if_neg (fun h => h.2 (h0 h.1 a hs.1))]
    · rw [if_neg hs, if_neg hs]
  rw [← this]
  exact h3

end SurfaceSim
