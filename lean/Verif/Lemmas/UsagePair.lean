/-
Time steps and two-qubit channels of experiments on two codes.
-/
import Verif.Lemmas.NoiseLocalCnot
import Verif.Spec.PairProgram

namespace SurfaceSim
open Spec NoiseModel Blocks LayoutLib Experiments

variable {p : Gate → Bool} {ex : Bool} {cfg : Detectors.Config} {qs : List Nat} {nm : NoiseModel}

/-- Also for more qubits, of which some are not used. -/
theorem Spec.EachOnce.loose {qs' : List Nat} {pre post : Bool} {n : Nat} {c : Circuit} (h : EachOnce p ex qs pre n post c)
    (hs : qs.Subperm qs') : EachOnce p false qs' pre n post c := by
  obtain ⟨bs, h1, h2, h3⟩ := h
  refine ⟨bs, h1, h2, fun u hu => ?_⟩
  have := h3 u hu
  rw [if_neg (by decide)]
  split at this
  · exact this.subperm.trans hs
  · exact this.trans hs

/-- Also if idling need not be explicit. -/
theorem Spec.EachOnce.relax {f : Bool} {qs' : List Nat} {pre post : Bool} {n : Nat} {c : Circuit}
    (h : EachOnce p ex qs pre n post c) (hf : f = true → ex = true) (hs : qs.Perm qs') : EachOnce p f qs' pre n post c := by
  cases f
  · exact h.loose hs.subperm
  · rw [hf rfl] at h
    exact h.perm hs

/-- The steps of calls of different lengths. -/
theorem Cyc.addEach {α : Type} {P : List Bool} {e c : Circuit} (he : Cyc p ex qs P e) {f : α → PyM (Sim cfg) Circuit} {n : α → Nat}
    {l : List α} (hb : ∀ x ∈ l, Adds p ex qs (n x) (f x)) {s s' : Sim cfg} (h : Experiments.addAll e l f s = (.ok c, s')) :
    Cyc p ex qs (P ++ l.flatMap fun x => cycle (n x)) c := by
  induction l generalizing P e s with
  | nil =>
    simp only [Experiments.addAll, pure, PyM.pure, Prod.mk.injEq, Except.ok.injEq] at h
    rw [← h.1]
    simpa using he
  | cons x l ih =>
    unfold Experiments.addAll at h
    obtain ⟨e1, s1, h1, h⟩ := PyM.bind_eq_ok h
    have := ih (he.addTo (hb x (by simp)) h1) (fun y hy => hb y (by simp [hy])) h
    simpa [List.append_assoc] using this

theorem time_pair (hm : Marks p) {iter : Layout → Bool → Gen} {o : SetOrder} {mo : NoiseModel} {lc lt : Layout}
    {ni nr nf : Nat} {dataInit : Dict String Int} {rot reset : Bool} {sel : Option (List String)} {gauge final : Bool}
    {Qc Qt : List Nat} {qc qt : List String} (hqc : lc.getQubits [] = .ok qc) (hqt : lt.getQubits [] = .ok qt)
    (hic : ∀ s c s', initQubits (cfg := cfg) o mo lc (dataInit.filter fun kv => kv.1 ∈ qc) rot s = (.ok c, s') →
      EachOnce p ex Qc false ni true c)
    (hit : ∀ s c s', initQubits (cfg := cfg) o mo lt (dataInit.filter fun kv => kv.1 ∈ qt) rot s = (.ok c, s') →
      EachOnce p ex Qt false ni true c)
    (hr : ∀ sel, Adds (cfg := cfg) p ex (Qc ++ Qt) nr (mergeQecRounds iter [lc, lt] reset sel))
    (hf : ∀ sel, Adds (cfg := cfg) p ex (Qc ++ Qt) nf
      (mergeLogMeas (fun l b => logMeasIter mo l b) (inOrder lc lt final) [rot, rot] reset sel))
    {body : List String → Circuit → PyM (Sim cfg) Circuit} {PB : List Bool}
    (hbody : ∀ sel P e s e' s', Cyc p ex (Qc ++ Qt) P e → body sel e s = (.ok e', s') → Cyc p ex (Qc ++ Qt) (P ++ PB) e')
    {s s' : Sim cfg} {c : Circuit}
    (h : pairExperiment iter o mo lc lt dataInit rot reset sel gauge body final s = (.ok c, s')) :
    Timeline p ex (Qc ++ Qt) (cycle ni ++ cycle nr ++ PB ++ cycle nf) c := by
  unfold pairExperiment at h
  obtain ⟨sel', s1, -, h⟩ := PyM.bind_eq_ok h
  rw [hqc, hqt, PyM.bind_ok (PyM.ofExcept_apply _ _), PyM.bind_ok (PyM.ofExcept_apply _ _)] at h
  obtain ⟨e1, s2, h1, h⟩ := PyM.bind_eq_ok h
  obtain ⟨ic, s3, h2, h⟩ := PyM.bind_eq_ok h
  obtain ⟨it, s4, h3, h⟩ := PyM.bind_eq_ok h
  obtain ⟨mc, s5, h4, h⟩ := PyM.bind_eq_ok h
  simp only [PyM.ofExcept, Prod.mk.injEq] at h4
  obtain ⟨first, s6, -, h⟩ := PyM.bind_eq_ok h
  obtain ⟨e2, s7, h5, h⟩ := PyM.bind_eq_ok h
  obtain ⟨e3, s8, h6, h⟩ := PyM.bind_eq_ok h
  have ht : Timeline p ex (Qc ++ Qt) (cycle ni) mc := by
    have hc := timeline_of_eachOnce (hic _ _ _ h2)
    have ht := timeline_of_eachOnce (hit _ _ _ h3)
    have := timeline_merge (Qs := [Qc, Qt]) (P := cycle ni)
      (.cons (by simpa [cycle] using hc) (.cons (by simpa [cycle] using ht) .nil)) h4.1
    simpa using this
  have h0 := (cyc_init hm h1 ht).addTo (hr _) h5
  obtain ⟨_, -, this⟩ := (hbody _ _ _ _ _ _ h0 h6).addTo (hf _) h
  exact this

/-! ### two-qubit channels -/

theorem LocalModel.logX (hn : LocalModel nm) (o : SetOrder) (l : Layout) : IsLocal (Blocks.logX o nm l) := by
  refine isLocal_sumGen ?_
  unfold Blocks.logXIter
  exact mem_withE fun _ => mem_withE fun _ => mem_withE fun _ =>
    genLocal_cons (hn.inc _) <| genLocal_cons isLocal_tick <|
    genLocal_cons (isLocal_plus (hn.x _) (hn.i _)) <| genLocal_cons isLocal_tick genLocal_nil

theorem LocalModel.logZ (hn : LocalModel nm) (o : SetOrder) (l : Layout) : IsLocal (Blocks.logZ o nm l) := by
  refine isLocal_sumGen ?_
  unfold Blocks.logZIter
  exact mem_withE fun _ => mem_withE fun _ => mem_withE fun _ =>
    genLocal_cons (hn.inc _) <| genLocal_cons isLocal_tick <|
    genLocal_cons (isLocal_plus (hn.all _ (by simp) _) (hn.i _)) <| genLocal_cons isLocal_tick genLocal_nil

theorem local_pair {iter : Layout → Bool → Gen} {o : SetOrder} {lc lt : Layout}
    {dataInit : Dict String Int} {rot reset : Bool} {sel : Option (List String)} {gauge final : Bool}
    {qc qt : List String} (hqc : lc.getQubits [] = .ok qc) (hqt : lt.getQubits [] = .ok qt)
    (hic : ∀ b ∈ Blocks.initIter o nm lc (dataInit.filter fun kv => kv.1 ∈ qc) rot, IsBare b)
    (hit : ∀ b ∈ Blocks.initIter o nm lt (dataInit.filter fun kv => kv.1 ∈ qt) rot, IsBare b)
    (hr : ∀ sel, IsLocal (mergeQecRounds (cfg := cfg) iter [lc, lt] reset sel))
    (hf : ∀ sel, IsLocal (mergeLogMeas (cfg := cfg) (fun l b => logMeasIter nm l b) (inOrder lc lt final) [rot, rot] reset sel))
    {body : List String → Circuit → PyM (Sim cfg) Circuit} (hbody : ∀ sel e, Local e → IsLocal (body sel e)) :
    IsLocal (pairExperiment (cfg := cfg) iter o nm lc lt dataInit rot reset sel gauge body final) := by
  intro s c s' h
  unfold pairExperiment at h
  obtain ⟨sel', s1, -, h⟩ := PyM.bind_eq_ok h
  rw [hqc, hqt, PyM.bind_ok (PyM.ofExcept_apply _ _), PyM.bind_ok (PyM.ofExcept_apply _ _)] at h
  obtain ⟨e1, s2, h1, h⟩ := PyM.bind_eq_ok h
  obtain ⟨ic, s3, h2, h⟩ := PyM.bind_eq_ok h
  obtain ⟨it, s4, h3, h⟩ := PyM.bind_eq_ok h
  obtain ⟨mc, s5, h4, h⟩ := PyM.bind_eq_ok h
  simp only [PyM.ofExcept, Prod.mk.injEq] at h4
  obtain ⟨first, s6, -, h⟩ := PyM.bind_eq_ok h
  obtain ⟨e2, s7, h5, h⟩ := PyM.bind_eq_ok h
  obtain ⟨e3, s8, h6, h⟩ := PyM.bind_eq_ok h
  have key : ∀ {l : Layout} {g : Gen} {s s' : Sim cfg} {c : Circuit}, (∀ b ∈ g, IsBare b) →
      activateAndSum (cfg := cfg) l g s = (.ok c, s') → Bare c := by
    intro l g s s' c hb h
    unfold activateAndSum at h
    obtain ⟨_, _, -, h⟩ := PyM.bind_eq_ok h
    obtain ⟨_, s2, -, h⟩ := PyM.bind_eq_ok h
    unfold onModel at h
    simp only [Prod.mk.injEq] at h
    exact isBare_sumFrom hb bare_nil _ _ _ (Prod.ext h.1 rfl)
  have hm : Bare mc := by
    refine bare_merge (fun c hc => ?_) h4.1
    simp only [List.mem_cons, List.not_mem_nil, or_false] at hc
    rcases hc with rfl | rfl
    · exact key hic h2
    · exact key hit h3
  have l1 := isLocal_addTo (local_concat (local_start h1) hm.local) (hr _) _ _ _ h5
  exact isLocal_addTo (hbody _ _ l1 _ _ _ h6) (hf _) _ _ _ h

end SurfaceSim
