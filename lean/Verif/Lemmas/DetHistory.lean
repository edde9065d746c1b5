import Verif.Lemmas.DetBuild

namespace SurfaceSim
open Spec Detectors
variable {cfg : Config}

theorem afterHistory_snoc (p : List (Call cfg)) (c : Call cfg) :
    afterHistory (p ++ [c]) = (c.exec (afterHistory p)).2 := by
  simp [afterHistory, List.foldl_append]

theorem AllReturned.init {p : List (Call cfg)} {c : Call cfg} (h : AllReturned (p ++ [c])) : AllReturned p := by
  intro p' c' q e
  exact h p' c' (q ++ [c]) (by rw [e]; simp)

theorem AllReturned.last {p : List (Call cfg)} {c : Call cfg} (h : AllReturned (p ++ [c])) :
    (c.exec (afterHistory p)).1 = true := h p c [] rfl

/-- Activation that returns. -/
theorem forEach_activate (l : List String) (s : State cfg) (h : DetWF s)
    (hok : (PyM.forEach l (activateOne (cfg := cfg)) s).1.isOk = true) :
    let s' := (PyM.forEach l (activateOne (cfg := cfg)) s).2
    (∀ b, isActive s' b = (decide (b ∈ l) || isActive s b)) ∧
    (∀ b, nrOf s'.rounds b = if b ∈ l then 0 else nrOf s.rounds b) ∧
    s'.prev = s.prev ∧ s'.curr = s.curr ∧ s'.order = s.order ∧ s'.total = s.total := by
  induction l generalizing s with
  | nil => simp [PyM.forEach, PyM.pure]
  | cons a l ih =>
    simp only [PyM.forEach, PyM.bind] at hok ⊢
    unfold activateOne at hok ⊢
    cases hg : s.active.get? a with
    | none => simp [hg, Except.isOk, Except.toBool] at hok
    | some b =>
      cases b with
      | true => simp [hg, Except.isOk, Except.toBool] at hok
      | false =>
        simp only [hg] at hok ⊢
        have hwf := activateOne_inv a s h
        unfold activateOne at hwf
        simp only [hg] at hwf
        obtain ⟨h1, h2, h3, h4, h5, h6⟩ := ih _ hwf hok
        refine ⟨?_, ?_, h3, h4, h5, h6⟩
        · intro b
          rw [show activateOne (cfg := cfg) = _ from rfl] at h1
          have := h1 b
          unfold activateOne at this
          rw [this]
          by_cases hb : b = a
          · subst hb
            simp [isActive, Dict.get?_set]
          · have hb' : ¬ a = b := fun e => hb e.symm
            simp [isActive, Dict.get?_set, hb, hb']
        · intro b
          have := h2 b
          unfold activateOne at this
          rw [this]
          by_cases hb : b = a
          · subst hb
            simp [nrOf, Dict.get?_set]
          · have hb' : ¬ a = b := fun e => hb e.symm
            simp [nrOf, Dict.get?_set, hb, hb']


/-- Rows and columns in `l` replaced by those of the identity. -/
def isolateAll (l : List String) (M : cfg.Mat Int) : cfg.Mat Int := fun a b =>
  if cfg.label a ∈ l ∨ cfg.label b ∈ l then (if a = b then 1 else 0) else M a b

theorem idx_label (hn : cfg.anc.Nodup) {a : String} {i : Fin cfg.n} (h : cfg.idx a = .ok i) :
    cfg.label i = a := by
  unfold Config.idx at h
  split at h
  · rename_i j hj
    cases h
    rw [List.finIdxOf?_eq_some_iff] at hj
    exact hj.1
  · cases h

theorem isolateAll_isolate (hn : cfg.anc.Nodup) {a : String} {i : Fin cfg.n} (h : cfg.idx a = .ok i)
    (l : List String) (M : cfg.Mat Int) : isolateAll l (isolate M i) = isolateAll (a :: l) M := by
  have hl := idx_label hn h
  have hinj := label_injective hn
  funext x y
  have hx : cfg.label x = a ↔ x = i := ⟨fun e => hinj (e.trans hl.symm), fun e => e ▸ hl⟩
  have hy : cfg.label y = a ↔ y = i := ⟨fun e => hinj (e.trans hl.symm), fun e => e ▸ hl⟩
  unfold isolateAll isolate
  simp only [List.mem_cons, hx, hy]
  by_cases h1 : x = i <;> by_cases h2 : y = i
  · subst h1; subst h2; simp
  · subst h1
    have : ¬ x = y := fun e => h2 e.symm
    simp [this, h2]
  · subst h2; simp [h1]
  · simp [h1, h2]

theorem forEach_deactivate (hn : cfg.anc.Nodup) (l : List String) (s : State cfg) (h : DetWF s)
    (hok : (PyM.forEach l (deactivateOne (cfg := cfg)) s).1.isOk = true) :
    let s' := (PyM.forEach l (deactivateOne (cfg := cfg)) s).2
    (∀ b, isActive s' b = (!decide (b ∈ l) && isActive s b)) ∧
    s'.rounds = s.rounds ∧
    s'.prev = isolateAll l s.prev ∧ s'.curr = isolateAll l s.curr ∧ s'.order = s.order ∧
    s'.total = s.total := by
  induction l generalizing s with
  | nil =>
    have : ∀ M : cfg.Mat Int, isolateAll [] M = M := by intro M; funext a b; simp [isolateAll]
    simp [PyM.forEach, PyM.pure, this]
  | cons a l ih =>
    simp only [PyM.forEach, PyM.bind] at hok ⊢
    have hwf := deactivateOne_inv a s h
    cases hg : s.active.get? a with
    | none => simp [deactivateOne, hg, Except.isOk, Except.toBool] at hok
    | some b =>
      cases b with
      | false => simp [deactivateOne, hg, Except.isOk, Except.toBool] at hok
      | true =>
        cases hi : cfg.idx a with
        | error e => simp [deactivateOne, hg, hi, Except.isOk, Except.toBool] at hok
        | ok i =>
          have e1 : deactivateOne a s = (.ok (), State.mk (isolate s.prev i) (isolate s.curr i) s.order
              (s.active.set a false) s.rounds s.total) := by
            simp [deactivateOne, hg, hi]
          rw [e1] at hok ⊢ hwf
          simp only at hok ⊢ hwf
          obtain ⟨h1, h2, h3, h4, h5, h6⟩ := ih _ hwf hok
          refine ⟨?_, h2, ?_, ?_, h5, h6⟩
          · intro b
            rw [h1 b]
            by_cases hb : b = a
            · subst hb
              simp [isActive, Dict.get?_set]
            · have hb' : ¬ a = b := fun e => hb e.symm
              simp [isActive, Dict.get?_set, hb, hb']
          · rw [h3]; exact isolateAll_isolate hn hi l s.prev
          · rw [h4]; exact isolateAll_isolate hn hi l s.curr

theorem buildFromAnc_ok {s s' : State cfg} {getRec : String → Int → Except Err Int} {reset : Bool}
    {ancs : Option (List String)} {c : Circuit} (h : buildFromAnc getRec reset ancs s = (.ok c, s')) :
    s' = afterBuild s ∧ ∃ sel D, selected s ancs = .ok sel ∧ ancDets s (bumped s) reset = .ok D ∧
      c = D.map (detInstr cfg getRec sel s.total) := by
  have htime : (((s.total + 1 : Nat) : Rat)) - 1 = (s.total : Rat) := by push_cast; ring
  unfold buildFromAnc at h
  split at h
  · cases h
  · rename_i sel hsel
    simp only at h
    split at h
    · cases h
    · rename_i D hD
      split at h
      · cases h
      · rename_i c' hc
        cases h
        rw [htime] at hc
        exact ⟨rfl, sel, D, hsel, hD, emit_eq_of_ok _ _ _ _ _ hc⟩

theorem buildFromData_ok {s s' : State cfg} {getRec : String → Int → Except Err Int}
    {sup : Dict String (List String)} {reset : Bool} {stabs : List String}
    {ancs : Option (List String)} {c : Circuit}
    (h : buildFromData getRec sup reset stabs ancs s = (.ok c, s')) :
    s' = afterData s ∧ ∃ sel D D', selected s ancs = .ok sel ∧ dataDets s (bumped s) reset = .ok D ∧
      mapExcept (D.filter fun d => decide (cfg.label d.1 ∈ stabs)) (toDataDet sup) = .ok D' ∧
      c = D'.map (detInstr cfg getRec sel ((s.total : Rat) - 1/2)) := by
  unfold buildFromData at h
  split at h
  · cases h
  · split at h
    · cases h
    · rename_i sel hsel
      simp only at h
      split at h
      · cases h
      · rename_i D hD
        split at h
        · cases h
        · rename_i D' hD'
          split at h
          · cases h
          · rename_i c' hc
            cases h
            exact ⟨rfl, sel, D, D', hsel, hD, hD', emit_eq_of_ok _ _ _ _ _ hc⟩

/-- An unsuccessful update leaves the object as it was. -/
theorem update_error (rows : List (Fin cfg.n)) (U : cfg.Mat Int) (s : State cfg)
    (h : (update rows U s).1.isOk = false) : (update rows U s).2 = s := by
  unfold update at h ⊢
  split
  · rfl
  · split
    · rfl
    · split
      · rfl
      · rename_i h1 h2 h3
        rw [if_neg h1, if_neg h2, if_neg h3] at h
        cases h

/-- What an update can do. -/
theorem update_cases (rows : List (Fin cfg.n)) (U : cfg.Mat Int) (s : State cfg) :
    (∃ e, update rows U s = (.error e, s)) ∨
    ((U.map (Int.cast : Int → ZMod 2)).det ≠ 0 ∧
      update rows U s = (.ok (), { s with curr := (U * s.curr).map (· % 2), order := rows })) := by
  unfold update
  split
  · exact Or.inl ⟨_, rfl⟩
  · split
    · exact Or.inl ⟨_, rfl⟩
    · split
      · exact Or.inl ⟨_, rfl⟩
      · rename_i h
        exact Or.inr ⟨h, rfl⟩

theorem updateFromDict_cases (d : Dict String (List String)) (s : State cfg) :
    (∃ e, updateFromDict d s = (.error e, s)) ∨
    ∃ U : cfg.Mat Int, dictMatrix d 1 = .ok U ∧ updateFromDict d s = update (List.finRange cfg.n) U s := by
  unfold updateFromDict
  split
  · exact Or.inl ⟨_, rfl⟩
  · split
    · exact Or.inl ⟨_, rfl⟩
    · rename_i U hU
      exact Or.inr ⟨U, hU, rfl⟩

/-- Matrices after a build or its exception. -/
theorem buildFromAnc_mats (s : State cfg) (getRec : String → Int → Except Err Int) (reset : Bool)
    (ancs : Option (List String)) :
    (buildFromAnc getRec reset ancs s).2.curr = s.curr ∧
    ((buildFromAnc getRec reset ancs s).2.prev = s.prev ∨ (buildFromAnc getRec reset ancs s).2.prev = s.curr) := by
  unfold buildFromAnc
  split
  · exact ⟨rfl, Or.inl rfl⟩
  · simp only
    split
    · exact ⟨rfl, Or.inl rfl⟩
    · split
      · exact ⟨rfl, Or.inl rfl⟩
      · exact ⟨rfl, Or.inr rfl⟩

theorem buildFromData_mats (s : State cfg) (getRec : String → Int → Except Err Int)
    (sup : Dict String (List String)) (reset : Bool) (stabs : List String) (ancs : Option (List String)) :
    (buildFromData getRec sup reset stabs ancs s).2.curr = s.curr ∧
    ((buildFromData getRec sup reset stabs ancs s).2.prev = s.prev ∨
      (buildFromData getRec sup reset stabs ancs s).2.prev = s.curr) := by
  unfold buildFromData
  split
  · exact ⟨rfl, Or.inl rfl⟩
  · split
    · exact ⟨rfl, Or.inl rfl⟩
    · simp only
      split
      · exact ⟨rfl, Or.inl rfl⟩
      · split
        · exact ⟨rfl, Or.inl rfl⟩
        · split
          · exact ⟨rfl, Or.inl rfl⟩
          · exact ⟨rfl, Or.inr rfl⟩

/-- Runs the calls and checks that none raises. -/
def returnsFrom (s : State cfg) : List (Call cfg) → Bool
  | [] => true
  | c :: l => (c.exec s).1 && returnsFrom (c.exec s).2 l

theorem allReturned_of_check (hist : List (Call cfg)) (h : returnsFrom (State.fresh cfg) hist = true) :
    AllReturned hist := by
  intro p c q e
  subst e
  unfold afterHistory
  generalize State.fresh cfg = s at *
  induction p generalizing s with
  | nil =>
    simp only [List.nil_append, returnsFrom, Bool.and_eq_true] at h
    exact h.1
  | cons d p ih =>
    simp only [List.cons_append, returnsFrom, Bool.and_eq_true] at h
    exact ih _ h.2

end SurfaceSim
