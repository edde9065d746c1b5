/-
The parts of merged blocks after the merged circuit: detectors and observables only.
-/
import Verif.Lemmas.MergeAll
import Verif.Lemmas.MergeMeas

namespace SurfaceSim
open Spec NoiseModel Blocks Experiments

/-- Only DETECTOR and OBSERVABLE_INCLUDE instructions. -/
def OnlyDeclares (c : Circuit) : Prop := ∀ i ∈ c, i.gate = .DETECTOR ∨ i.gate = .OBSERVABLE_INCLUDE

theorem emit_gates {cfg : Detectors.Config} {getRec : String → Int → Except Err Int} {sel : List String} {time : Rat}
    {dets : List (Fin cfg.n × List Detectors.MeasTerm)} {c : Circuit} (h : Detectors.emit getRec sel time dets = .ok c) :
    ∀ i ∈ c, i.gate = .DETECTOR := by
  induction dets generalizing c with
  | nil => simp [Detectors.emit] at h; subst h; simp
  | cons d dets ih =>
    obtain ⟨i, targets⟩ := d
    unfold Detectors.emit at h
    simp only at h
    split at h
    · simp at h
    · split at h
      · simp at h
      · split at h
        · simp at h
        · rename_i instr hi
          split at h
          · simp at h
          · rename_i c' hc'
            cases h
            intro j hj
            rcases List.mem_cons.1 hj with rfl | hj
            · simp only [mkInstr, Gate.argsOk, Gate.isTwoQubit] at hi
              simp at hi
              rw [← hi]
            · exact ih hc' j hj

theorem buildFromAnc_gates {cfg : Detectors.Config} {getRec : String → Int → Except Err Int} {reset : Bool}
    {ancs : Option (List String)} {s s' : Detectors.State cfg} {c : Circuit}
    (h : Detectors.buildFromAnc getRec reset ancs s = (.ok c, s')) : ∀ i ∈ c, i.gate = .DETECTOR := by
  unfold Detectors.buildFromAnc at h
  split at h
  · simp at h
  · simp only at h
    split at h
    · simp at h
    · split at h
      · simp at h
      · rename_i hc
        simp at h
        rw [← h.1]
        exact emit_gates hc

theorem buildFromData_gates {cfg : Detectors.Config} {getRec : String → Int → Except Err Int}
    {support : Dict String (List String)} {reset : Bool} {rec' : List String} {ancs : Option (List String)}
    {s s' : Detectors.State cfg} {c : Circuit}
    (h : Detectors.buildFromData getRec support reset rec' ancs s = (.ok c, s')) : ∀ i ∈ c, i.gate = .DETECTOR := by
  unfold Detectors.buildFromData at h
  split at h
  · simp at h
  · split at h
    · simp at h
    · simp only at h
      split at h
      · simp at h
      · split at h
        · simp at h
        · split at h
          · simp at h
          · rename_i hc
            simp at h
            rw [← h.1]
            exact emit_gates hc

theorem OnlyDeclares.even {c : Circuit} (h : OnlyDeclares c) : EvenPairs c := by
  intro i hi h2
  rcases h i hi with e | e <;> rw [e] at h2 <;> simp [Gate.isTwoQubit] at h2

theorem observable_gate {k : Nat} {qs : List String} {s s' : MeasState} {i : Instr}
    (h : observable k qs s = (.ok i, s')) : s' = s ∧ i.gate = .OBSERVABLE_INCLUDE := by
  refine ⟨(observable_ok h).1, ?_⟩
  unfold observable at h
  obtain ⟨s0, s1, h1, h2⟩ := PyM.bind_eq_ok h
  obtain ⟨recs, s1, h3, h4⟩ := PyM.bind_eq_ok h2
  simp only [PyM.ofExcept, Prod.mk.injEq] at h4
  have h4 := h4.1
  simp [mkInstr, Gate.argsOk, Gate.isTwoQubit] at h4
  rw [← h4]

theorem layoutObservables_tail {ops' : Dict String (List String)} {k n : Nat} {labs : List (String × Nat)}
    {circuit c : Circuit} {s s' : MeasState} (h : layoutObservables k n ops' labs circuit s = (.ok c, s'))
    (he : EvenPairs circuit) : s' = s ∧ ∃ T, OnlyDeclares T ∧ ops c = ops circuit ++ ops T ∧ EvenPairs c := by
  induction labs generalizing circuit s with
  | nil =>
    simp only [layoutObservables, pure, PyM.pure, Prod.mk.injEq, Except.ok.injEq] at h
    obtain ⟨rfl, rfl⟩ := h
    exact ⟨rfl, [], by simp [OnlyDeclares], by simp, he⟩
  | cons q labs ih =>
    obtain ⟨lab, i⟩ := q
    unfold layoutObservables at h
    obtain ⟨qs, s1, h1, h2⟩ := PyM.bind_eq_ok h
    obtain ⟨obs, s2, h3, h4⟩ := PyM.bind_eq_ok h2
    simp only [PyM.ofExcept, Prod.mk.injEq] at h1
    obtain ⟨h1, rfl⟩ := h1
    obtain ⟨rfl, g⟩ := observable_gate h3
    have hp : obs.gate.isTwoQubit = true → obs.qubits.length % 2 = 0 := by
      rw [g]; intro h; simp [Gate.isTwoQubit] at h
    obtain ⟨e1, e2⟩ := ops_foldl_append [obs] circuit he (by intro i hi; simp at hi; subst hi; exact hp)
    simp only [List.foldl_cons, List.foldl_nil, List.flatMap_cons, List.flatMap_nil, List.append_nil] at e1 e2
    obtain ⟨rfl, T, t1, t2, t3⟩ := ih h4 e2
    refine ⟨rfl, obs :: T, ?_, ?_, t3⟩
    · intro i hi
      rcases List.mem_cons.1 hi with rfl | hi
      · exact Or.inr g
      · exact t1 i hi
    · rw [t2, e1, List.append_assoc]; simp [ops]

theorem allObservables_tail {es : List ((Layout × Bool) × Nat)} {circuit c : Circuit}
    {s s' : MeasState} (h : allObservables es circuit s = (.ok c, s')) (he : EvenPairs circuit) :
    s' = s ∧ ∃ T, OnlyDeclares T ∧ ops c = ops circuit ++ ops T ∧ EvenPairs c := by
  induction es generalizing circuit s with
  | nil =>
    simp only [allObservables, pure, PyM.pure, Prod.mk.injEq, Except.ok.injEq] at h
    obtain ⟨rfl, rfl⟩ := h
    exact ⟨rfl, [], by simp [OnlyDeclares], by simp, he⟩
  | cons e es ih =>
    obtain ⟨⟨l, r⟩, k⟩ := e
    unfold allObservables at h
    obtain ⟨c1, s1, h1, h2⟩ := PyM.bind_eq_ok h
    obtain ⟨rfl, T1, h3, h4, h4'⟩ := layoutObservables_tail h1 he
    obtain ⟨rfl, T2, h5, h6, h6'⟩ := ih h2 h4'
    refine ⟨rfl, T1 ++ T2, ?_, by rw [h6, h4, ops_append, List.append_assoc], h6'⟩
    intro i hi
    rcases List.mem_append.1 hi with hi | hi
    · exact h3 i hi
    · exact h5 i hi

/-- The parts of `merge_qec_rounds`. -/
theorem mergeQecRounds_parts {cfg : Detectors.Config} {iter : Layout → Bool → Gen} {ls : List Layout} {reset : Bool}
    {sel : Option (List String)} {s s' : Sim cfg} {c : Circuit}
    (h : mergeQecRounds iter ls reset sel s = (.ok c, s')) :
    ∃ c0 D, c = Circuit.concat c0 D ∧ mergeGens (ls.map fun l => iter l reset) s.1 = (.ok c0, s'.1) ∧
      Detectors.buildFromAnc s'.1.measTarget reset sel s.2 = (.ok D, s'.2) := by
  unfold mergeQecRounds at h
  obtain ⟨_, s1, h0, h⟩ := PyM.bind_eq_ok h
  obtain ⟨c0, s2, h1, h⟩ := PyM.bind_eq_ok h
  obtain ⟨D, s3, h2, h⟩ := PyM.bind_eq_ok h
  simp only [pure, PyM.pure, Prod.mk.injEq, Except.ok.injEq] at h
  obtain ⟨rfl, rfl⟩ := h
  simp only [PyM.ofExcept, Prod.mk.injEq] at h0
  obtain ⟨-, rfl⟩ := h0
  unfold onModel at h1
  cases hm : mergeGens (ls.map fun l => iter l reset) s.1 with
  | mk r st =>
    rw [hm] at h1
    simp only [Prod.mk.injEq] at h1
    obtain ⟨rfl, rfl⟩ := h1
    unfold onDets at h2
    simp only at h2
    cases hd : Detectors.buildFromAnc st.measTarget reset sel s.2 with
    | mk r' d =>
      rw [hd] at h2
      simp only [Prod.mk.injEq] at h2
      obtain ⟨rfl, rfl⟩ := h2
      exact ⟨c0, D, rfl, rfl, hd⟩

/-- The parts of `merge_log_meas`. -/
theorem mergeLogMeas_parts {cfg : Detectors.Config} {iter : Layout → Bool → Gen} {ls : List Layout}
    {rots : List Bool} {reset : Bool} {sel : Option (List String)} {s s' : Sim cfg} {c : Circuit}
    (h : mergeLogMeas iter ls rots reset sel s = (.ok c, s')) :
    rots.length = ls.length ∧ ∃ c0, mergeGens ((ls.zip rots).map fun lr => iter lr.1 lr.2) s.1 = (.ok c0, s'.1) ∧
      (EvenPairs c0 → ∃ T, OnlyDeclares T ∧ ops c = ops c0 ++ ops T) := by
  unfold mergeLogMeas at h
  split at h
  · simp [PyM.raise] at h
  · rename_i hlen
    refine ⟨by simpa using hlen, ?_⟩
    obtain ⟨_, s1, h0, h⟩ := PyM.bind_eq_ok h
    obtain ⟨c1, s2, h1, h⟩ := PyM.bind_eq_ok h
    obtain ⟨ss, s3, h1', h⟩ := PyM.bind_eq_ok h
    obtain ⟨dets, s4, h2, h⟩ := PyM.bind_eq_ok h
    simp only [PyM.ofExcept, Prod.mk.injEq] at h0 h1'
    obtain ⟨-, rfl⟩ := h0
    obtain ⟨-, rfl⟩ := h1'
    unfold onModel at h1
    cases hm : mergeGens ((ls.zip rots).map fun lr => iter lr.1 lr.2) s.1 with
    | mk r st =>
      rw [hm] at h1
      simp only [Prod.mk.injEq] at h1
      obtain ⟨rfl, rfl⟩ := h1
      unfold onDets at h2
      simp only at h2
      cases hd : Detectors.buildFromData st.measTarget ss.2 reset ss.1 sel s.2 with
      | mk r d =>
        rw [hd] at h2
        simp only [Prod.mk.injEq] at h2
        obtain ⟨rfl, rfl⟩ := h2
        have hD : OnlyDeclares dets := fun i hi => Or.inl (buildFromData_gates hd i hi)
        unfold onModel at h
        simp only at h
        cases ha : allObservables (ls.zip rots).zipIdx (c1.concat dets) st with
        | mk r st' =>
          rw [ha] at h
          simp only [Prod.mk.injEq] at h
          obtain ⟨rfl, rfl⟩ := h
          simp only
          refine ⟨c1, ?_, ?_⟩
          · by_cases he : st' = st
            · rw [he]
            · exact absurd (allObservables_ok ha).1 he
          · intro he
            obtain ⟨o1, o2⟩ := ops_concat he hD.even
            obtain ⟨-, T, t1, t2, -⟩ := allObservables_tail ha o2
            refine ⟨dets ++ T, ?_, by rw [t2, o1, ops_append, List.append_assoc]⟩
            intro i hi
            rcases List.mem_append.1 hi with hi | hi
            · exact hD i hi
            · exact t1 i hi

theorem known_all {inds : Dict String Nat} {ls : List Layout} {Qs : List (List String)}
    (h : List.Forall₂ (fun l Q => l.getQubits [] = .ok Q ∧ ∀ q ∈ Q, q ∈ inds.keys) ls Qs) :
    ∀ Q ∈ Qs, ∀ q ∈ Q, q ∈ inds.keys := by
  induction h with
  | nil => simp
  | cons h _ ih =>
    intro Q hQ
    rcases List.mem_cons.1 hQ with rfl | hQ
    · exact h.2
    · exact ih Q hQ

theorem nodup_datas {inds : Dict String Nat} (hinj : IndsInj inds) {Ds Qs : List (List String)}
    (h : List.Forall₂ (fun D Q => ∀ q ∈ D, q ∈ Q) Ds Qs) (hk : ∀ Q ∈ Qs, ∀ q ∈ Q, q ∈ inds.keys)
    (hp : Qs.Pairwise fun Q Q' => ∀ q ∈ Q, ∀ q' ∈ Q', ind inds q ≠ ind inds q') (hn : ∀ D ∈ Ds, D.Nodup) :
    (Ds.flatten.map (ind inds)).Nodup := by
  induction h with
  | nil => simp
  | @cons D Q Ds Qs h1 h2 ih =>
    rw [List.pairwise_cons] at hp
    rw [List.flatten_cons, List.map_append, List.nodup_append]
    refine ⟨?_, ih (fun Q' hQ' => hk Q' (by simp [hQ'])) hp.2 (fun D' hD' => hn D' (by simp [hD'])), ?_⟩
    · refine (hn D (by simp)).map_on fun a ha b hb e => ?_
      exact hinj a (hk Q (by simp) a (h1 a ha)) b (hk Q (by simp) b (h1 b hb)) e
    · intro a ha b hb
      obtain ⟨q, hq, rfl⟩ := List.mem_map.1 ha
      obtain ⟨q', hq', rfl⟩ := List.mem_map.1 hb
      obtain ⟨D', hD', hq'⟩ := List.mem_flatten.1 hq'
      obtain ⟨k, hk'⟩ := List.mem_iff_getElem?.1 hD'
      rcases getElem?_forall₂ h2 k with ⟨e, -⟩ | ⟨D'', Q', e1, e2, e3⟩
      · rw [hk'] at e; simp at e
      · rw [hk'] at e1; cases e1
        exact hp.1 Q' (List.mem_of_getElem? e2) q (h1 q hq) q' (e3 q' hq')

/-- Qubits that are measured layout after layout. -/
theorem merged_meas {nm : NoiseModel} (hinj : IndsInj nm.inds) {ls : List Layout} (hd : NoCommonQubit ls)
    {iter : Layout → Bool → Gen} {ks : List StepKind} {rot : Bool} (hone : OneMeas ks)
    (h : ∀ l ∈ ls, ∃ D Q Ls, l.getQubits [("role", .str "data")] = .ok D ∧ D.Nodup ∧ (l.getQubits [] = .ok Q ∧
      ∀ q ∈ Q, q ∈ nm.inds.keys) ∧ (∀ q ∈ D, q ∈ Q) ∧ GenOk nm.inds (iter l rot) Ls ks ∧
      Ls.flatten = (if rot then D.map Op.h else []) ++ D.map Op.m)
    {s s' : MeasState} {hist : List String} {c : Circuit} (ht : s.Tracks nm.inds hist)
    (hm : mergeGens (ls.map fun l => iter l rot) s = (.ok c, s')) :
    ∃ Ds, List.Forall₂ (fun l D => l.getQubits [("role", .str "data")] = .ok D) ls Ds ∧ PairsOk c ∧
      s'.Tracks nm.inds (hist ++ Ds.flatten) ∧ measOrder c = Ds.flatten.map (ind nm.inds) ∧
      ∀ (ρ : Nat → ZMod 2) (st : FState Nat), MeasuresBasis (ind nm.inds) rot Ds.flatten st (run ρ st (ops c)) := by
  have hex : ∃ (Ds : List (List String)) (Qs : List (List String)) (Lss : List (List (List (Op String)))),
      List.Forall₂ (fun l D => l.getQubits [("role", .str "data")] = .ok D) ls Ds ∧ (∀ D ∈ Ds, D.Nodup) ∧
      List.Forall₂ (fun l Q => l.getQubits [] = .ok Q ∧ ∀ q ∈ Q, q ∈ nm.inds.keys) ls Qs ∧
      List.Forall₂ (fun D Q => ∀ q ∈ D, q ∈ Q) Ds Qs ∧
      List.Forall₂ (fun g Ls => GenOk nm.inds g Ls ks) (ls.map fun l => iter l rot) Lss ∧
      Lss.map List.flatten = Ds.map (fun D => (if rot then D.map Op.h else []) ++ D.map Op.m) := by
    clear hm hd
    induction ls with
    | nil => exact ⟨[], [], [], .nil, by simp, .nil, .nil, .nil, rfl⟩
    | cons l ls ih =>
      obtain ⟨ps, Qs, Lss, a1, a2, a3, a4, a5, a6⟩ := ih fun l' hl' => h l' (by simp [hl'])
      obtain ⟨p, Q, Ls, b0, b1, b2, b3, b4, b5⟩ := h l (by simp)
      refine ⟨p :: ps, Q :: Qs, Ls :: Lss, .cons b0 a1, ?_, .cons b2 a3, .cons b3 a4, .cons b4 a5, ?_⟩
      · intro D hD
        rcases List.mem_cons.1 hD with rfl | hD
        · exact b1
        · exact a2 D hD
      · rw [List.map_cons, List.map_cons, a6, b5]
  obtain ⟨Ds, Qs, Lss, a1, a2, a3, a4, a5, a6⟩ := hex
  have hin : List.Forall₂ (fun Q Ls => OpsIn (fun q => q ∈ Q) Ls.flatten) Qs Lss := by
    clear a5 a1 a2 a3 hm
    induction a4 generalizing Lss with
    | nil =>
      cases Lss with
      | nil => exact .nil
      | cons _ _ => simp at a6
    | @cons D Q Ds Qs h1 h2 ih =>
      cases Lss with
      | nil => simp at a6
      | cons Ls Lss =>
        simp only [List.map_cons, List.cons.injEq] at a6
        refine .cons ?_ (ih _ a6.2)
        rw [a6.1]
        refine OpsIn.append ?_ (OpsIn.m h1)
        cases rot
        · simp only [Bool.false_eq_true, if_false]; exact OpsIn.nil _
        · exact OpsIn.h h1
  obtain ⟨h1, h2, h3, h4⟩ := merge_layouts hinj a3 hd a5 hone hin ht hm
  have e1 : (Lss.flatMap fun Ls => measured Ls.flatten) = Ds.flatten := by
    have : (Lss.flatMap fun Ls => measured Ls.flatten) = (Lss.map List.flatten).flatMap measured := by
      rw [List.flatMap_map]
    rw [this, a6, List.flatMap_map, List.flatten_eq_flatMap]
    congr 1
    funext D
    simp only [id]
    have hh : measured (D.map Op.h) = [] := measured_map_none D Op.h fun _ => rfl
    have hmd : measured (D.map Op.m) = D := by simp [measured, List.filterMap_map, Function.comp_def, opMeas]
    cases rot <;> simp [measured_append, hh, hmd]
  have e2 : (Lss.map fun Ls => Ls.flatten.map (Op.rename (ind nm.inds))) = Ds.map (fun D =>
      ((if rot then D.map Op.h else []) ++ D.map Op.m).map (Op.rename (ind nm.inds))) := by
    have : (Lss.map fun Ls => Ls.flatten.map (Op.rename (ind nm.inds))) =
        (Lss.map List.flatten).map (List.map (Op.rename (ind nm.inds))) := by rw [List.map_map]; rfl
    rw [this, a6, List.map_map]; rfl
  rw [e1] at h3 h4
  rw [e2] at h2
  have hnd := nodup_datas hinj a4 (known_all a3) (disjoint_inds hinj a3 hd) a2
  exact ⟨Ds, a1, ⟨h1.1, fun op ho => by
    obtain ⟨Ls, hLs, hop⟩ := h1.2 op ho
    obtain ⟨op', hop', rfl⟩ := List.mem_map.1 hop
    have hf : Ls.flatten ∈ Lss.map List.flatten := List.mem_map_of_mem hLs
    rw [a6] at hf
    obtain ⟨D, -, hD⟩ := List.mem_map.1 hf
    rw [← hD] at hop'
    rcases List.mem_append.1 hop' with hop | hop
    · cases rot
      · simp at hop
      · obtain ⟨q, -, rfl⟩ := List.mem_map.1 hop
        trivial
    · obtain ⟨q, -, rfl⟩ := List.mem_map.1 hop
      trivial⟩, h4, h3, fun ρ st => h2.transfer (fun ρ st => measBasis_run hnd ρ st) ρ st⟩

end SurfaceSim
