/-
The tables stored by the functions of `log_gates`.
-/
import Verif.Lemmas.TransBlocks
import Verif.Lemmas.UnrotRounds
import Verif.Lemmas.RotRounds

namespace SurfaceSim
open Spec NoiseModel Blocks LayoutLib LogGates

theorem ofExcept_bind_ok {σ α β : Type} {x : Except Err α} {f : α → PyM σ β} {s s' : σ} {b : β}
    (h : (PyM.ofExcept x >>= f) s = (.ok b, s')) : ∃ a, x = .ok a ∧ f a s = (.ok b, s') := by
  obtain ⟨a, s1, h1, h2⟩ := PyM.bind_eq_ok h
  simp only [PyM.ofExcept_apply, Prod.mk.injEq] at h1
  obtain ⟨rfl, rfl⟩ := h1
  exact ⟨a, rfl, h2⟩

/-- The labels of gates are no labels of the library. -/
def GateLabel (label : String) : Prop := label ∉ ["ind", "role", "stab_type", "coords", "neighbors"]

theorem gateLabel_trans (s t : String) : GateLabel ("trans-" ++ s ++ t) := by
  intro h
  simp only [List.mem_cons, List.not_mem_nil, or_false] at h
  rcases h with h | h | h | h | h <;>
  · have := congrArg String.toList h
    simp [String.toList_append] at this

theorem gateLabel_s (t : String) : GateLabel ("trans-s_" ++ t) := gateLabel_trans "s_" t
theorem gateLabel_h (t : String) : GateLabel ("trans-h_" ++ t) := gateLabel_trans "h_" t

theorem storeData_ok {label key : String} (hk : GateLabel label) {cz : Dict (Option String) (Option String)}
    {s : Dict (Option String) String} {data : List String} {l l' : Layout}
    (h : storeData label key cz s data l = (.ok (), l')) :
    WithParams l l' ∧ (∀ d ∈ data, ∃ p g, cz.get? (some d) = some p ∧ s.get? (some d) = some g ∧
      l'.param label d = .ok (.gate [(key, atomOf p), ("local", .str g)])) ∧
      ∀ p q, (p = label → q ∉ data) → l'.param p q = l.param p q := by
  have he : storeData label key cz s data = PyM.forEach data fun d => PyM.bind (PyM.ofExcept
      (match cz.getE (some d) with
        | .error e => .error e
        | .ok p => match s.getE (some d) with
          | .error e => .error e
          | .ok g => .ok (Val.gate [(key, atomOf p), ("local", .str g)]))) fun v => store label d v := by
    unfold storeData
    congr 1
    funext d l
    simp only [Bind.bind, PyM.bind, PyM.ofExcept]
    cases cz.getE (some d) with
    | error e => rfl
    | ok p =>
      cases s.getE (some d) with
      | error e => rfl
      | ok g => rfl
  rw [he] at h
  obtain ⟨h1, h2, h3⟩ := forEach_store hk data h
  refine ⟨h1, fun d hd => ?_, h3⟩
  obtain ⟨v, hv, hv'⟩ := h2 d hd
  cases hc : cz.getE (some d) with
  | error e => simp [hc] at hv
  | ok p =>
    cases hg : s.getE (some d) with
    | error e => simp [hc, hg] at hv
    | ok g =>
      simp only [hc, hg, Except.ok.injEq] at hv
      exact ⟨p, g, (Dict.getE_ok_iff _ _ _).1 hc, (Dict.getE_ok_iff _ _ _).1 hg, hv ▸ hv'⟩

theorem storeData_exists {label key : String} {cz : Dict (Option String) (Option String)}
    {s : Dict (Option String) String} {data : List String} {l : Layout}
    (h : ∀ d ∈ data, d ∈ l.graph.nodes.keys ∧ (∃ p, cz.get? (some d) = some p) ∧ ∃ g, s.get? (some d) = some g) :
    ∃ l', storeData label key cz s data l = (.ok (), l') ∧ l'.graph.nodes.keys = l.graph.nodes.keys := by
  induction data generalizing l with
  | nil => exact ⟨l, rfl, rfl⟩
  | cons d ds ih =>
    obtain ⟨h1, ⟨p, hp⟩, g, hg⟩ := h d (by simp)
    obtain ⟨l1, k1, k2⟩ := setParam_ok (key := label) (v := .gate [(key, atomOf p), ("local", .str g)]) h1
    obtain ⟨l', k3, k4⟩ := ih (l := l1) fun d' hd' => k2 ▸ h d' (by simp [hd'])
    refine ⟨l', ?_, k4.trans k2⟩
    unfold storeData at k3 ⊢
    simp only [PyM.forEach, Bind.bind, PyM.bind, PyM.ofExcept, (Dict.getE_ok_iff _ _ _).2 hp, (Dict.getE_ok_iff _ _ _).2 hg,
      store, k1] at k3 ⊢
    exact k3

theorem storeAnc_ok {label : String} (hk : GateLabel label) {new : Dict String (List String)} {anc : List String}
    {l l' : Layout} (h : storeAnc label new anc l = (.ok (), l')) :
    WithParams l l' ∧ (∀ a ∈ anc, ∃ g, new.get? a = some g ∧
      l'.param label a = .ok (.gate [("new_stab_gen", .strs g)])) ∧
      ∀ p q, (p = label → q ∉ anc) → l'.param p q = l.param p q := by
  have he : storeAnc label new anc = PyM.forEach anc fun a => PyM.bind (PyM.ofExcept
      (match new.getE a with
        | .error e => .error e
        | .ok g => .ok (Val.gate [("new_stab_gen", .strs g)]))) fun v => store label a v := by
    unfold storeAnc
    congr 1
    funext a l
    simp only [Bind.bind, PyM.bind, PyM.ofExcept]
    cases new.getE a with
    | error e => rfl
    | ok p => rfl
  rw [he] at h
  obtain ⟨h1, h2, h3⟩ := forEach_store hk anc h
  refine ⟨h1, fun a ha => ?_, h3⟩
  obtain ⟨v, hv, hv'⟩ := h2 a ha
  cases hc : new.getE a with
  | error e => simp [hc] at hv
  | ok g =>
    simp only [hc, Except.ok.injEq] at hv
    exact ⟨g, (Dict.getE_ok_iff _ _ _).1 hc, hv ▸ hv'⟩

theorem storeAnc_exists {label : String} {new : Dict String (List String)} {anc : List String} {l : Layout}
    (h : ∀ a ∈ anc, a ∈ l.graph.nodes.keys ∧ ∃ g, new.get? a = some g) :
    ∃ l', storeAnc label new anc l = (.ok (), l') ∧ l'.graph.nodes.keys = l.graph.nodes.keys := by
  induction anc generalizing l with
  | nil => exact ⟨l, rfl, rfl⟩
  | cons d ds ih =>
    obtain ⟨h1, g, hg⟩ := h d (by simp)
    obtain ⟨l1, k1, k2⟩ := setParam_ok (key := label) (v := .gate [("new_stab_gen", .strs g)]) h1
    obtain ⟨l', k3, k4⟩ := ih (l := l1) fun d' hd' => k2 ▸ h d' (by simp [hd'])
    refine ⟨l', ?_, k4.trans k2⟩
    unfold storeAnc at k3 ⊢
    simp only [PyM.forEach, Bind.bind, PyM.bind, PyM.ofExcept, (Dict.getE_ok_iff _ _ _).2 hg, store, k1] at k3 ⊢
    exact k3

/-- The initial dictionary with the same gate on all data qubits. -/
theorem get?_const (g : String) (data : List String) (acc : Dict (Option String) String) (d : String) :
    (data.foldl (fun acc d => Dict.set acc (some d) g) acc).get? (some d) =
      if d ∈ data then some g else acc.get? (some d) := by
  induction data generalizing acc with
  | nil => simp
  | cons e ds ih =>
    rw [List.foldl_cons, ih, Dict.get?_set]
    by_cases h1 : d ∈ ds
    · simp [h1]
    · by_cases h2 : e = d
      · simp [h2]
      · simp [h1, h2, Ne.symm h2]

theorem foldPairs_ok {l : Layout} {D : Dict Vec String} {p v : Vec} (ds : List String)
    {acc r : Dict (Option String) (Option String)} (h : foldPairs l D p v ds acc = .ok r) :
    (∀ d ∈ ds, ∃ d', reflected l D p v d = .ok d' ∧ r.get? (some d) = some (if d' ≠ d then some d' else none)) ∧
      ∀ d, d ∉ ds → r.get? (some d) = acc.get? (some d) := by
  induction ds generalizing acc with
  | nil =>
    simp only [foldPairs, Except.ok.injEq] at h
    subst h
    exact ⟨by simp, fun _ _ => rfl⟩
  | cons d ds ih =>
    unfold foldPairs at h
    cases hr : reflected l D p v d with
    | error e => simp [hr] at h
    | ok d' =>
      simp only [hr] at h
      obtain ⟨h1, h2⟩ := ih h
      constructor
      · intro e he
        by_cases hm : e ∈ ds
        · exact h1 e hm
        · rcases List.mem_cons.1 he with rfl | he
          · exact ⟨d', hr, by rw [h2 e hm, Dict.get?_set, if_pos rfl]⟩
          · exact absurd he hm
      · intro e he
        simp only [List.mem_cons, not_or] at he
        rw [h2 e he.2, Dict.get?_set, if_neg]
        simpa using Ne.symm he.1

theorem foldPairs_exists {l : Layout} {D : Dict Vec String} {p v : Vec} (ds : List String)
    (h : ∀ d ∈ ds, ∃ d', reflected l D p v d = .ok d') (acc : Dict (Option String) (Option String)) :
    ∃ r, foldPairs l D p v ds acc = .ok r := by
  induction ds generalizing acc with
  | nil => exact ⟨acc, rfl⟩
  | cons d ds ih =>
    obtain ⟨d', hd⟩ := h d (by simp)
    unfold foldPairs
    simp only [hd]
    exact ih (fun e he => h e (by simp [he])) _

theorem newStabH_ok {l : Layout} {D : Dict Vec String} {p v : Vec} (xs : List String)
    {acc r : Dict String (List String)} (h : newStabH l D p v xs acc = .ok r) :
    (∀ x ∈ xs, ∃ y, reflected l D p v x = .ok y ∧ r.get? x = some [y]) ∧
      ∀ x, x ∉ xs → r.get? x = acc.get? x := by
  induction xs generalizing acc with
  | nil =>
    simp only [newStabH, Except.ok.injEq] at h
    subst h
    exact ⟨by simp, fun _ _ => rfl⟩
  | cons d ds ih =>
    unfold newStabH at h
    cases hr : reflected l D p v d with
    | error e => simp [hr] at h
    | ok d' =>
      simp only [hr] at h
      obtain ⟨h1, h2⟩ := ih h
      constructor
      · intro e he
        by_cases hm : e ∈ ds
        · exact h1 e hm
        · rcases List.mem_cons.1 he with rfl | he
          · exact ⟨d', hr, by rw [h2 e hm, Dict.get?_set, if_pos rfl]⟩
          · exact absurd he hm
      · intro e he
        simp only [List.mem_cons, not_or] at he
        rw [h2 e he.2, Dict.get?_set, if_neg (Ne.symm he.1)]

theorem newStabH_exists {l : Layout} {D : Dict Vec String} {p v : Vec} (xs : List String)
    (h : ∀ x ∈ xs, ∃ y, reflected l D p v x = .ok y) (acc : Dict String (List String)) :
    ∃ r, newStabH l D p v xs acc = .ok r := by
  induction xs generalizing acc with
  | nil => exact ⟨acc, rfl⟩
  | cons d ds ih =>
    obtain ⟨d', hd⟩ := h d (by simp)
    unfold newStabH
    simp only [hd]
    exact ih (fun e he => h e (by simp [he])) _

/-! ### checks -/

theorem checkFold_ok {l : Layout} {L : List (String × Site × Kind)} {dirs : List (Site × String)}
    (hg : OnGrid l L dirs) {code : String} {extra : Int} {q : String} (h : checkFold l code extra q = .ok ()) :
    l.distanceZ = l.distanceX + extra ∧ q ∈ dataOf L := by
  unfold checkFold dataQubits at h
  rw [hg.getQubits_data] at h
  by_cases h1 : l.code ≠ code
  · simp [h1] at h
  · by_cases h2 : l.distanceZ ≠ l.distanceX + extra
    · simp [h1, h2] at h
    · by_cases h3 : q ∉ labelsOf L fun k => k = .data
      · simp only [h1, h2, h3, if_false, if_true] at h
        simp at h
      · exact ⟨not_not.1 h2, not_not.1 h3⟩

end SurfaceSim
