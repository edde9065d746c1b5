/-
Time steps of whole experiments.
-/
import Verif.Lemmas.UsageMerge
import Verif.Lemmas.UniformMeas

namespace SurfaceSim
open Spec NoiseModel Blocks LayoutLib Experiments

variable {p : Gate → Bool} {ex : Bool} {inds : Dict String Nat} {cfg : Detectors.Config}

/-! ### coordinates -/

theorem qubitCoords_gates {inds : Dict String Nat} {d : Dict String (List Rat)} {c : Circuit}
    (h : NoiseModel.qubitCoords inds d = .ok c) : ∀ i ∈ c, i.gate = .QUBIT_COORDS := by
  unfold NoiseModel.qubitCoords at h
  split at h
  · simp at h
  · have key : ∀ (d : List (String × List Rat)) (acc : Except Err Circuit),
        (∀ c, acc = .ok c → ∀ i ∈ c, i.gate = .QUBIT_COORDS) → ∀ c, d.foldl (fun acc kv =>
      match acc with
      | .error e => .error e
      | .ok c =>
        match inds.get? kv.1 with
        | none => .error .keyError
        | some i => appendOp c .QUBIT_COORDS [i] (kv.2.map Arg.num)) acc = .ok c → ∀ i ∈ c, i.gate = .QUBIT_COORDS := by
      intro d
      induction d with
      | nil => exact fun acc ha c hc => ha c hc
      | cons kv d ih =>
        intro acc ha c hc
        refine ih _ ?_ c hc
        intro c1 h1
        cases acc with
        | error e => simp at h1
        | ok c0 =>
          simp only at h1
          cases hi : inds.get? kv.1 with
          | none => rw [hi] at h1; simp at h1
          | some i =>
            rw [hi] at h1
            simp only [appendOp] at h1
            split at h1
            · simp at h1
            · rename_i j hj
              simp only [Except.ok.injEq] at h1
              subst h1
              intro k hk
              have := mkInstr_ok hj
              rcases mem_foldl_append (L := [j]) (c := c0) (i := k) hk with ⟨x, hx, he⟩ | ⟨x, hx, he⟩
              · rw [← he]; exact ha c0 rfl x hx
              · rw [List.mem_singleton] at hx
                rw [← he, hx, this]
    exact key d (.ok []) (by simp) c h

theorem blockCoords_gates {nm : NoiseModel} {ls : List Layout} {c : Circuit} (h : Blocks.qubitCoords nm ls = .ok c) :
    ∀ i ∈ c, i.gate = .QUBIT_COORDS := by
  unfold Blocks.qubitCoords at h
  have key : ∀ (ls : List Layout) (acc c : Circuit), (∀ i ∈ acc, i.gate = .QUBIT_COORDS) →
      qubitCoordsLoop nm ls acc = .ok c → ∀ i ∈ c, i.gate = .QUBIT_COORDS := by
    intro ls
    induction ls with
    | nil =>
      intro acc c ha h
      simp only [qubitCoordsLoop, Except.ok.injEq] at h
      subst h
      exact ha
    | cons l ls ih =>
      intro acc c ha h
      unfold qubitCoordsLoop at h
      split at h
      · simp at h
      · split at h
        · simp at h
        · rename_i c1 hc1
          refine ih _ _ ?_ h
          intro i hi
          rcases mem_concat_gate hi with ⟨j, hj, he⟩ | ⟨j, hj, he⟩
          · rw [← he]; exact ha j hj
          · rw [← he]; exact qubitCoords_gates hc1 j hj
  exact key ls [] c (by simp) h

theorem start_ublocks (hm : Marks p) {nm : NoiseModel} {ls : List Layout} {s s' : Sim cfg} {e : Circuit}
    (h : start nm ls s = (.ok e, s')) : ublocks p e = [[]] := by
  unfold start at h
  obtain ⟨_, s1, -, h⟩ := PyM.bind_eq_ok h
  obtain ⟨_, s2, -, h⟩ := PyM.bind_eq_ok h
  obtain ⟨c, s3, h1, h⟩ := PyM.bind_eq_ok h
  simp only [pure, PyM.pure, Prod.mk.injEq, Except.ok.injEq, PyM.ofExcept] at h h1
  rw [← h.1, ublocks_concat]
  have hg := blockCoords_gates h1.1
  rw [ublocks_noTick (c := c) (fun i hi => by rw [hg i hi]; decide)]
  have hu : used p c = [] := by
    unfold used
    rw [List.flatMap_eq_nil_iff]
    intro i hi
    rw [hg i hi, hm _ (by simp)]
    rfl
  rw [hu]
  rfl

/-! ### steps that follow each other -/

/-- A circuit with these steps, the last of which uses nothing. -/
def Cyc (p : Gate → Bool) (ex : Bool) (qs : List Nat) (P : List Bool) (c : Circuit) : Prop :=
  ∃ P0, P = P0 ++ [false] ∧ Timeline p ex qs P c

variable {qs : List Nat}

theorem cyc_init (hm : Marks p) {nm : NoiseModel} {ls : List Layout} {s1 s2 : Sim cfg} {e c : Circuit}
    (h : start nm ls s1 = (.ok e, s2)) {n : Nat} (hc : Timeline p ex qs (cycle n) c) :
    Cyc p ex qs (cycle n) (e.concat c) := by
  refine ⟨_, rfl, ?_⟩
  unfold Timeline at hc ⊢
  have : ublocks p (e.concat c) = ublocks p c := by
    rw [ublocks_concat, start_ublocks hm h]
    cases hu : ublocks p c with
    | nil => exact absurd hu (ublocks_ne c)
    | cons v b => simp [glue]
  show List.Forall₂ _ _ (ublocks p (e.concat c))
  rw [this]
  exact hc

theorem forall₂_glue {R : Bool → List Nat → Prop} (hR : ∀ u, R false u ↔ u = []) {P P' : List Bool} {X Y : List (List Nat)}
    (h : List.Forall₂ R (P ++ [false]) X) (h' : List.Forall₂ R (false :: P') Y) :
    List.Forall₂ R (P ++ [false] ++ P') (glue X Y) := by
  induction P generalizing X with
  | nil =>
    cases h with
    | cons h1 h2 =>
      cases h2
      cases h' with
      | cons k1 k2 =>
        rw [hR] at h1 k1
        subst h1 k1
        exact .cons ((hR _).2 rfl) k2
  | cons b P ih =>
    cases h with
    | cons h1 h2 =>
      have hne : ∀ {Z}, List.Forall₂ R (P ++ [false]) Z → Z ≠ [] := by
        rintro _ hz rfl
        have := hz.length_eq
        simp at this
      rw [glue_cons _ _ _ (hne h2)]
      exact .cons h1 (ih h2)

theorem Cyc.then {P P' : List Bool} {c c' : Circuit} (h : Cyc p ex qs P c) (h' : Timeline p ex qs (false :: P') c') :
    Timeline p ex qs (P ++ P') (c.concat c') := by
  obtain ⟨P0, rfl, h⟩ := h
  unfold Timeline at h h' ⊢
  have e : (tickBlocks (c.concat c')).map (used p) = glue ((tickBlocks c).map (used p)) ((tickBlocks c').map (used p)) :=
    ublocks_concat c c'
  rw [e]
  exact forall₂_glue (by simp) h h'

theorem addTo_uses {e c : Circuit} {b : PyM (Sim cfg) Circuit} {s s' : Sim cfg} (h : addTo e b s = (.ok c, s')) :
    ∃ c0, b s = (.ok c0, s') ∧ c = e.concat c0 := by
  unfold addTo at h
  obtain ⟨c0, s1, h1, h⟩ := PyM.bind_eq_ok h
  simp only [pure, PyM.pure, Prod.mk.injEq, Except.ok.injEq] at h
  exact ⟨c0, by rw [h1, h.2], h.1.symm⟩

theorem Spec.EachOnce.perm {qs' : List Nat} {pre post : Bool} {n : Nat} {c : Circuit} (h : EachOnce p ex qs pre n post c)
    (hp : qs.Perm qs') : EachOnce p ex qs' pre n post c := by
  obtain ⟨bs, h1, h2, h3⟩ := h
  refine ⟨bs, h1, h2, fun u hu => ?_⟩
  have := h3 u hu
  split at this <;> rename_i he
  · rw [if_pos he]
    exact this.trans hp
  · rw [if_neg he]
    exact this.trans hp.subperm

/-- The block has these steps after one that uses nothing. -/
def Adds (p : Gate → Bool) (ex : Bool) (qs : List Nat) (n : Nat) (b : PyM (Sim cfg) Circuit) : Prop :=
  ∀ s c s', b s = (.ok c, s') → EachOnce p ex qs true n true c

theorem Cyc.addTo {P : List Bool} {e c : Circuit} (he : Cyc p ex qs P e) {b : PyM (Sim cfg) Circuit} {n : Nat}
    (hb : Adds p ex qs n b) {s s' : Sim cfg} (h : addTo e b s = (.ok c, s')) : Cyc p ex qs (P ++ cycle n) c := by
  obtain ⟨c0, h1, rfl⟩ := addTo_uses h
  refine ⟨P ++ List.replicate n true, by simp [cycle], he.then ?_⟩
  have := timeline_of_eachOnce (hb _ _ _ h1)
  simpa [cycle] using this

theorem Cyc.addAll {α : Type} {P : List Bool} {e c : Circuit} (he : Cyc p ex qs P e) {f : α → PyM (Sim cfg) Circuit} {n : Nat}
    {l : List α} (hb : ∀ x ∈ l, Adds p ex qs n (f x)) {s s' : Sim cfg} (h : addAll e l f s = (.ok c, s')) :
    Cyc p ex qs (P ++ (List.replicate l.length (cycle n)).flatten) c := by
  induction l generalizing P e s with
  | nil =>
    simp only [Experiments.addAll, pure, PyM.pure, Prod.mk.injEq, Except.ok.injEq] at h
    rw [← h.1]
    simpa using he
  | cons x l ih =>
    unfold Experiments.addAll at h
    obtain ⟨e1, s1, h1, h⟩ := PyM.bind_eq_ok h
    have := ih (he.addTo (hb x (by simp)) h1) (fun y hy => hb y (by simp [hy])) h
    simpa [List.replicate_succ, List.append_assoc] using this

theorem Cyc.gateAndRounds {P : List Bool} {e c : Circuit} (he : Cyc p ex qs P e) {gate round : PyM (Sim cfg) Circuit}
    {m n rounds : Nat} (hg : Adds p ex qs m gate) (hr : Adds p ex qs n round) {s s' : Sim cfg}
    (h : gateAndRounds gate rounds round e s = (.ok c, s')) :
    Cyc p ex qs (P ++ (cycle m ++ (List.replicate rounds (cycle n)).flatten)) c := by
  unfold Experiments.gateAndRounds at h
  obtain ⟨e1, s1, h1, h⟩ := PyM.bind_eq_ok h
  have := (he.addTo hg h1).addAll (fun _ _ => hr) h
  simpa [List.append_assoc] using this

theorem Cyc.repeatGate {P : List Bool} {e c : Circuit} (he : Cyc p ex qs P e) {gate round : PyM (Sim cfg) Circuit}
    {m n rounds k : Nat} (hg : Adds p ex qs m gate) (hr : Adds p ex qs n round) {s s' : Sim cfg}
    (h : repeatGate gate rounds round k e s = (.ok c, s')) :
    Cyc p ex qs (P ++ (List.replicate k (cycle m ++ (List.replicate rounds (cycle n)).flatten)).flatten) c := by
  induction k generalizing P e s with
  | zero =>
    simp only [Experiments.repeatGate, pure, PyM.pure, Prod.mk.injEq, Except.ok.injEq] at h
    rw [← h.1]
    simpa using he
  | succ k ih =>
    unfold Experiments.repeatGate at h
    obtain ⟨e1, s1, h1, h⟩ := PyM.bind_eq_ok h
    have := ih (he.gateAndRounds hg hr h1) h
    simpa [List.replicate_succ, List.append_assoc] using this

/-! ### the experiments -/

/-- What is needed of the blocks of an experiment. -/
structure FamilyUses (p : Gate → Bool) (ex : Bool) (qs : List Nat) (fam : Family cfg) (l : Layout) (dataInit : Dict String Int)
    (ni nm : Bool → Nat) (nr : Nat) (reset : Bool) : Prop where
  marks : Marks p
  init : ∀ rot s c s', fam.init l dataInit rot s = (.ok c, s') → EachOnce p ex qs false (ni rot) true c
  round : ∀ sel, Adds p ex qs nr (fam.round l reset sel)
  meas : ∀ rot sel, Adds p ex qs (nm rot) (fam.meas l rot reset sel)

theorem FamilyUses.initTime {fam : Family cfg} {l : Layout} {dataInit : Dict String Int} {ni nm : Bool → Nat} {nr : Nat}
    {reset : Bool} (hf : FamilyUses p ex qs fam l dataInit ni nm nr reset) {rot : Bool} {s s' : Sim cfg} {c : Circuit}
    (h : fam.init l dataInit rot s = (.ok c, s')) : Timeline p ex qs (cycle (ni rot)) c := by
  have := timeline_of_eachOnce (hf.init rot _ _ _ h)
  simpa [cycle] using this

theorem time_memory {fam : Family cfg} {l : Layout} {dataInit : Dict String Int} {ni nm : Bool → Nat} {nr : Nat}
    {reset : Bool} (hf : FamilyUses p ex qs fam l dataInit ni nm nr reset) {o : SetOrder} {mo : NoiseModel} {R : Int} {rot : Bool}
    {sel : Option (List String)} {gauge : Bool} {s s' : Sim cfg} {c : Circuit}
    (h : memory fam o mo l R dataInit rot reset sel gauge s = (.ok c, s')) :
    Timeline p ex qs (cycle (ni rot) ++ (List.replicate R.toNat (cycle nr)).flatten ++ cycle (nm rot)) c := by
  unfold memory at h
  split at h
  · simp [PyM.raise] at h
  · obtain ⟨sel', s1, -, h⟩ := PyM.bind_eq_ok h
    obtain ⟨e1, s2, h1, h⟩ := PyM.bind_eq_ok h
    obtain ⟨e2, s3, h2, h⟩ := PyM.bind_eq_ok h
    obtain ⟨e3, s4, h3, h⟩ := PyM.bind_eq_ok h
    obtain ⟨c1, k1, ec⟩ := addTo_uses h2
    have h0 : Cyc p ex qs (cycle (ni rot)) e2 := by rw [ec]; exact cyc_init hf.marks h1 (hf.initTime k1)
    have hr : ∀ r ∈ List.range R.toNat, Adds p ex qs nr (memoryRound fam o l rot reset sel' gauge r) := by
      intro r _ s c s' h
      unfold memoryRound at h
      split at h
      · obtain ⟨first, s1, -, h⟩ := PyM.bind_eq_ok h
        exact hf.round _ _ _ _ h
      · exact hf.round _ _ _ _ h
    have := ((h0.addAll hr h3).addTo (hf.meas rot _) h)
    rw [List.length_range] at this
    obtain ⟨_, -, this⟩ := this
    exact this

theorem time_repeatedS {fam : Family cfg} {l : Layout} {dataInit : Dict String Int} {ni nm : Bool → Nat} {nr ng : Nat}
    {reset : Bool} (hf : FamilyUses p ex qs fam l dataInit ni nm nr reset) {o : SetOrder} {mo : NoiseModel} {G R : Int} {rot : Bool}
    {sel : Option (List String)} {gauge : Bool} (hg : Adds (cfg := cfg) p ex qs ng (transS o mo l)) {s s' : Sim cfg} {c : Circuit}
    (h : repeatedS fam o mo l G R dataInit rot reset sel gauge s = (.ok c, s')) :
    Timeline p ex qs (cycle (ni rot) ++ cycle nr ++
      (List.replicate G.toNat (cycle ng ++ (List.replicate R.toNat (cycle nr)).flatten)).flatten ++ cycle (nm rot)) c := by
  unfold repeatedS at h
  split at h
  · simp [PyM.raise] at h
  · split at h
    · simp [PyM.raise] at h
    · obtain ⟨sel', s1, -, h⟩ := PyM.bind_eq_ok h
      obtain ⟨e1, s2, h1, h⟩ := PyM.bind_eq_ok h
      obtain ⟨e2, s3, h2, h⟩ := PyM.bind_eq_ok h
      obtain ⟨first, s4, -, h⟩ := PyM.bind_eq_ok h
      obtain ⟨e3, s5, h3, h⟩ := PyM.bind_eq_ok h
      obtain ⟨e4, s6, h4, h⟩ := PyM.bind_eq_ok h
      obtain ⟨c1, k1, ec⟩ := addTo_uses h2
      have h0 : Cyc p ex qs (cycle (ni rot)) e2 := by rw [ec]; exact cyc_init hf.marks h1 (hf.initTime k1)
      obtain ⟨_, -, this⟩ := (((h0.addTo (hf.round _) h3).repeatGate hg (hf.round _) h4).addTo
        (hf.meas rot _) h)
      exact this

theorem time_repeatedH {fam : Family cfg} {l : Layout} {dataInit : Dict String Int} {ni nm : Bool → Nat} {nr ng : Nat}
    {reset : Bool} (hf : FamilyUses p ex qs fam l dataInit ni nm nr reset) {o : SetOrder} {mo : NoiseModel} {G R : Int} {rot : Bool}
    {sel : Option (List String)} {gauge : Bool} (hg : Adds (cfg := cfg) p ex qs ng (transH o mo l)) {s s' : Sim cfg} {c : Circuit}
    (h : repeatedH fam o mo l G R dataInit rot reset sel gauge s = (.ok c, s')) :
    Timeline p ex qs (cycle (ni rot) ++ cycle nr ++
      (List.replicate G.toNat (cycle ng ++ (List.replicate R.toNat (cycle nr)).flatten)).flatten ++
      cycle (nm (if G % 2 = 0 then rot else !rot))) c := by
  unfold repeatedH at h
  split at h
  · simp [PyM.raise] at h
  · split at h
    · simp [PyM.raise] at h
    · obtain ⟨sel', s1, -, h⟩ := PyM.bind_eq_ok h
      obtain ⟨e1, s2, h1, h⟩ := PyM.bind_eq_ok h
      obtain ⟨e2, s3, h2, h⟩ := PyM.bind_eq_ok h
      obtain ⟨first, s4, -, h⟩ := PyM.bind_eq_ok h
      obtain ⟨e3, s5, h3, h⟩ := PyM.bind_eq_ok h
      obtain ⟨e4, s6, h4, h⟩ := PyM.bind_eq_ok h
      obtain ⟨c1, k1, ec⟩ := addTo_uses h2
      have h0 : Cyc p ex qs (cycle (ni rot)) e2 := by rw [ec]; exact cyc_init hf.marks h1 (hf.initTime k1)
      obtain ⟨_, -, this⟩ := (((h0.addTo (hf.round _) h3).repeatGate hg (hf.round _) h4).addTo
        (hf.meas _ _) h)
      exact this

theorem time_google (hm : Marks p) {o : SetOrder} {mo : NoiseModel} {l : Layout} {ni nr nf : Nat} {R : Int}
    {dataInit : Dict String Int} {rot : Bool} {sel : Option (List String)} {gauge : Bool}
    (hi : ∀ s c s', initQubitsXzzx (cfg := cfg) o mo l dataInit rot s = (.ok c, s') → EachOnce p ex qs false ni true c)
    (hr : ∀ sel, Adds (cfg := cfg) p ex qs nr (googleRound o mo l sel))
    (hf : ∀ sel s c s', googleFinal (cfg := cfg) o mo l sel rot s = (.ok c, s') → EachOnce p ex qs true nf false c)
    {s s' : Sim cfg} {c : Circuit} (h : googleMemory o mo l R dataInit rot sel gauge s = (.ok c, s')) :
    Timeline p ex qs (cycle ni ++ (List.replicate (R.toNat - 1) (cycle nr)).flatten ++ List.replicate nf true) c := by
  have fin : ∀ {sel s c s'}, googleFinal (cfg := cfg) o mo l sel rot s = (.ok c, s') →
      Timeline p ex qs (false :: List.replicate nf true) c := by
    intro sel s c s' h
    simpa using timeline_of_eachOnce (hf _ _ _ _ h)
  unfold googleMemory at h
  split at h
  · simp [PyM.raise] at h
  · obtain ⟨sel', s1, -, h⟩ := PyM.bind_eq_ok h
    obtain ⟨e1, s2, h1, h⟩ := PyM.bind_eq_ok h
    obtain ⟨e2, s3, h2, h⟩ := PyM.bind_eq_ok h
    obtain ⟨c1, k1, ec⟩ := addTo_uses h2
    have h0 : Cyc p ex qs (cycle ni) e2 := by
      rw [ec]
      refine cyc_init hm h1 ?_
      have := timeline_of_eachOnce (hi _ _ _ k1)
      simpa [cycle] using this
    split at h
    · rename_i e
      obtain ⟨first, s4, -, h⟩ := PyM.bind_eq_ok h
      obtain ⟨c2, k2, ef⟩ := addTo_uses h
      rw [e, ef]
      simpa using h0.then (fin k2)
    · obtain ⟨e3, s4, h3, h⟩ := PyM.bind_eq_ok h
      obtain ⟨c2, k2, ef⟩ := addTo_uses h
      have hr' : ∀ r ∈ List.range (R.toNat - 1), Adds (cfg := cfg) p ex qs nr (googleMemoryRound o mo l rot sel' gauge r) := by
        intro r _ s c s' h
        unfold googleMemoryRound at h
        split at h
        · obtain ⟨first, s1, -, h⟩ := PyM.bind_eq_ok h
          exact hr _ _ _ _ h
        · exact hr _ _ _ _ h
      have := (h0.addAll hr' h3).then (fin k2)
      rw [List.length_range] at this
      rw [ef]
      exact this

theorem Cyc.cnotLoop {P : List Bool} {e : Circuit} (he : Cyc p ex qs P e) {o : SetOrder} {mo : NoiseModel}
    {round : List Layout → PyM (Sim cfg) Circuit} {alt : Bool} {C : Layout × Layout → Prop} {ct : Layout × Layout}
    {rounds m n k g : Nat} (hC : C ct) (hs : alt = true → ∀ ct, C ct → C (ct.2, ct.1))
    (hg : ∀ ct, C ct → Adds (cfg := cfg) p ex qs m (transCnot o mo ct.1 ct.2)) (hr : ∀ ct, C ct → Adds p ex qs n (round [ct.1, ct.2]))
    {s s' : Sim cfg} {r : Circuit × (Layout × Layout)} (h : cnotLoop o mo round alt rounds g k ct e s = (.ok r, s')) :
    C r.2 ∧
      Cyc p ex qs (P ++ (List.replicate k (cycle m ++ (List.replicate rounds (cycle n)).flatten)).flatten) r.1 := by
  induction k generalizing P e s g ct with
  | zero =>
    simp only [Experiments.cnotLoop, pure, PyM.pure, Prod.mk.injEq, Except.ok.injEq] at h
    rw [← h.1]
    exact ⟨hC, by simpa using he⟩
  | succ k ih =>
    unfold Experiments.cnotLoop at h
    have hC' : C (if alt = true ∧ g % 2 = 1 then (ct.2, ct.1) else ct) := by
      split
      · rename_i h
        exact hs h.1 ct hC
      · exact hC
    obtain ⟨e1, s1, h1, h⟩ := PyM.bind_eq_ok h
    obtain ⟨h2, h3⟩ := ih (he.gateAndRounds (hg _ hC') (hr _ hC') h1) hC' h
    exact ⟨h2, by simpa [List.replicate_succ, List.append_assoc] using h3⟩

theorem time_repeatedCnot (hm : Marks p) {iter : Layout → Bool → Gen} {o : SetOrder} {mo : NoiseModel} {lc lt : Layout}
    {ni nr ng nf : Nat} {G R : Int} {dataInit : Dict String Int} {rot reset : Bool} {sel : Option (List String)} {gauge : Bool}
    {Qc Qt : List Nat} {qc qt : List String} (hqc : lc.getQubits [] = .ok qc) (hqt : lt.getQubits [] = .ok qt)
    (hic : ∀ s c s', initQubits (cfg := cfg) o mo lc (dataInit.filter fun kv => kv.1 ∈ qc) rot s = (.ok c, s') →
      EachOnce p ex Qc false ni true c)
    (hit : ∀ s c s', initQubits (cfg := cfg) o mo lt (dataInit.filter fun kv => kv.1 ∈ qt) rot s = (.ok c, s') →
      EachOnce p ex Qt false ni true c)
    {C : Layout × Layout → Prop} {orient : String} (hC : C (lc, lt)) (hs : orient = "alternating" → ∀ ct, C ct → C (ct.2, ct.1))
    (hr : ∀ ct, C ct → ∀ sel, Adds (cfg := cfg) p ex (Qc ++ Qt) nr (mergeQecRounds iter [ct.1, ct.2] reset sel))
    (hg : ∀ ct, C ct → Adds (cfg := cfg) p ex (Qc ++ Qt) ng (transCnot o mo ct.1 ct.2))
    (hf : ∀ ct, C ct → ∀ sel,
      Adds (cfg := cfg) p ex (Qc ++ Qt) nf (mergeLogMeas (fun l b => logMeasIter mo l b) [ct.1, ct.2] [rot, rot] reset sel))
    {s s' : Sim cfg} {c : Circuit}
    (h : repeatedCnot iter o mo lc lt G R dataInit orient rot reset sel gauge s = (.ok c, s')) :
    Timeline p ex (Qc ++ Qt) (cycle ni ++ cycle nr ++
      (List.replicate G.toNat (cycle ng ++ (List.replicate R.toNat (cycle nr)).flatten)).flatten ++ cycle nf) c := by
  unfold repeatedCnot at h
  split at h
  · simp [PyM.raise] at h
  · split at h
    · simp [PyM.raise] at h
    · obtain ⟨sel', s1, -, h⟩ := PyM.bind_eq_ok h
      split at h
      · simp [PyM.raise] at h
      rw [hqc, hqt, PyM.bind_ok (PyM.ofExcept_apply _ _), PyM.bind_ok (PyM.ofExcept_apply _ _)] at h
      obtain ⟨e1, s2, h1, h⟩ := PyM.bind_eq_ok h
      obtain ⟨ic, s3, h2, h⟩ := PyM.bind_eq_ok h
      obtain ⟨it, s4, h3, h⟩ := PyM.bind_eq_ok h
      obtain ⟨mc, s5, h4, h⟩ := PyM.bind_eq_ok h
      simp only [PyM.ofExcept, Prod.mk.injEq] at h4
      obtain ⟨first, s6, -, h⟩ := PyM.bind_eq_ok h
      obtain ⟨e2, s7, h5, h⟩ := PyM.bind_eq_ok h
      obtain ⟨r, s8, h6, h⟩ := PyM.bind_eq_ok h
      have ht : Timeline p ex (Qc ++ Qt) (cycle ni) mc := by
        have hc := timeline_of_eachOnce (hic _ _ _ h2)
        have ht := timeline_of_eachOnce (hit _ _ _ h3)
        have := timeline_merge (Qs := [Qc, Qt]) (P := cycle ni)
          (.cons (by simpa [cycle] using hc) (.cons (by simpa [cycle] using ht) .nil)) h4.1
        simpa using this
      have h0 := ((cyc_init hm h1 ht).addTo (hr _ hC _) h5)
      obtain ⟨k1, k2⟩ := h0.cnotLoop hC (fun h => hs (by simpa using h)) hg (fun ct hct => hr ct hct _) h6
      obtain ⟨_, -, this⟩ := k2.addTo (hf _ k1 _) h
      exact this

end SurfaceSim
