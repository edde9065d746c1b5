/-
C04, C05, C06: parameter lookup of `Setup`.
-/
import Verif.Lemmas.Setup

namespace SurfaceSim.Props
open SurfaceSim Spec

theorem parents_eq_fallback (p : String) : Setup.parents.get? p = fallback p := by
  unfold fallback
  split_ifs with h1 h2
  · simp only [List.map_cons, List.map_nil, List.mem_cons, List.not_mem_nil, or_false] at h1
    rcases h1 with rfl | rfl | rfl <;> decide +kernel
  · simp only [List.map_cons, List.map_nil, List.mem_cons, List.not_mem_nil, or_false] at h2
    rcases h2 with rfl | rfl | rfl | rfl | rfl | rfl | rfl | rfl <;> decide +kernel
  · rw [Dict.get?_eq_none_iff]
    intro h
    have : p ∈ ["cz", "cnot", "swap"].map (· ++ "_error_prob") ++
        ["h", "s", "sdag", "x", "z", "reset", "meas", "idle"].map (· ++ "_error_prob") := by
      have e : Setup.parents.keys = ["cz", "cnot", "swap"].map (· ++ "_error_prob") ++
        ["h", "s", "sdag", "x", "z", "reset", "meas", "idle"].map (· ++ "_error_prob") := by decide +kernel
      rw [← e]; exact h
    rcases List.mem_append.1 this with h | h
    · exact h1 h
    · exact h2 h

/-- **C04.** For every setup dictionary that loads, `param(p, *qs)` is the value for exactly these
qubits, else the global value, else the global value of the parent, else `KeyError`; the raw value is
then passed through the variable table. -/
theorem C04_param_resolution (d : SetupDict) (es : List SetupEntry) (s : Setup)
    (hd : d.setup = some es) (hn : EntriesNodup es) (h : Setup.init d = .ok s)
    (p : String) (qs : List String) :
    s.param p qs = match rawValue es p qs with
      | some v => s.evalParamVal v
      | none => .error .keyError := by
  have L := Setup.init_loaded hd hn h
  have hempty : s.qubitParams.get? [] = none := by
    have := L.keys []
    simpa using this
  unfold Setup.param rawValue Setup.paramOwn
  rw [L.qub, L.glob]
  cases qubitValue es p qs with
  | some v => rfl
  | none =>
    cases globalValue es p with
    | some v => rfl
    | none =>
      simp only
      rw [parents_eq_fallback]
      cases fallback p with
      | none => rfl
      | some p' =>
        simp only [hempty, L.glob, Option.bind_none]
        cases globalValue es p' <;> rfl

/-- Meaning of the variable table (`C04`/`C06`): numbers and flags stand for themselves; a string is
replaced by the value of the variable it names, raises `ValueError` while that variable is free, and is
returned as it is when it names no variable. -/
theorem C04_eval (s : Setup) :
    (∀ q, s.evalParamVal (.num q) = .ok (.num q)) ∧
    (∀ b, s.evalParamVal (.flag b) = .ok (.flag b)) ∧
    (∀ n x, s.evalParamVal (.str n) = .ok x ↔
      (s.varParams.get? n = some (some x) ∨ (s.varParams.get? n = none ∧ x = .str n))) ∧
    (∀ n, s.evalParamVal (.str n) = .error .valueError ↔ s.varParams.get? n = some none) := by
  refine ⟨fun _ => rfl, fun _ => rfl, fun n x => ?_, fun n => ?_⟩ <;>
  · unfold Setup.evalParamVal
    rcases h : s.varParams.get? n with _ | _ | q <;> simp [h, eq_comm]

/-- Witness for C04: all three levels are used. -/
example :
    let es : List SetupEntry :=
      [⟨.none, [("sq_error_prob", .num (1/10)), ("T1", .num 5)]⟩, ⟨.qubit "D1", [("h_error_prob", .num (1/2))]⟩]
    (Setup.init ⟨none, none, [], some es⟩).map (fun s =>
      [(s.param "h_error_prob" ["D1"]).toOption, (s.param "h_error_prob" ["D2"]).toOption,
       (s.param "T1" ["D2"]).toOption, (s.param "T2" ["D2"]).toOption])
    = .ok [some (.num (1/2)), some (.num (1/10)), some (.num 5), none] := by decide +kernel

/-- **C04, disagreement**: the parent's *qubit-specific* value is never used: a setup that gives
`sq_error_prob` for qubit D1 only makes `param("h_error_prob", "D1")` a `KeyError`. -/
theorem C04_parent_ignores_qubits :
    (Setup.init ⟨none, none, [], some [⟨.qubit "D1", [("sq_error_prob", .num (1/10))]⟩]⟩).map
      (fun s => (s.param "h_error_prob" ["D1"], s.param "sq_error_prob" ["D1"]))
    = .ok (.error .keyError, .ok (.num (1/10))) := by decide +kernel

/-- Setups that the public API can produce. -/
inductive SetupReach : Setup → Prop
  | init {d : SetupDict} {es : List SetupEntry} {s : Setup} (hd : d.setup = some es)
      (hn : EntriesNodup es) (h : Setup.init d = .ok s) : SetupReach s
  | setVar {s : Setup} (v : String) (q : PVal) (h : SetupReach s) : SetupReach (s.setVarParam v q)
  | setPar {s s' : Setup} (p : String) (v : PVal) (qs : List String) (h : SetupReach s)
      (h' : s.setParam p v qs = .ok s') : SetupReach s'

/-- **C06** (first half): if `free_params` is empty, `param` never raises the "not specified"
`ValueError`. -/
theorem C06_no_free_params (s : Setup) (hf : s.freeParams = []) (p : String) (qs : List String) :
    s.param p qs ≠ .error .valueError := by
  have hv : ∀ v, s.evalParamVal v ≠ .error .valueError := by
    intro v
    cases v with
    | num q => simp [Setup.evalParamVal]
    | flag b => simp [Setup.evalParamVal]
    | str n =>
      intro h
      have := ((C04_eval s).2.2.2 n).1 h
      have hm := Dict.mem_of_get? this
      have : n ∈ s.freeParams := by
        unfold Setup.freeParams
        rw [List.mem_filterMap]
        exact ⟨(n, none), hm, by simp⟩
      rw [hf] at this
      simp at this
  have ho : ∀ p qs, s.paramOwn p qs ≠ some (.error .valueError) := by
    intro p qs
    unfold Setup.paramOwn
    split
    · intro h; exact hv _ (by simpa using h)
    · split
      · intro h; exact hv _ (by simpa using h)
      · simp
  unfold Setup.param
  cases h1 : s.paramOwn p qs with
  | some r => intro h; exact ho p qs (by rw [h1]; simp at h; rw [h])
  | none =>
    simp only
    cases Setup.parents.get? p with
    | none => simp
    | some p' =>
      simp only
      cases h2 : s.paramOwn p' [] with
      | some r => intro h; exact ho p' [] (by rw [h2]; simp at h; rw [h])
      | none => simp

/-- **C06** (second half): `set_var_param(v, x)` gives every parameter that refers to `v` the value `x`,
leaves all other values alone, and removes exactly `v` from `free_params`. -/
theorem C06_set_var_param (s : Setup) (v : String) (x : PVal) :
    ((s.setVarParam v x).evalParamVal (.str v) = .ok x) ∧
    (∀ w, w ≠ .str v → (s.setVarParam v x).evalParamVal w = s.evalParamVal w) ∧
    ((s.varParams.keys).Nodup → (s.setVarParam v x).freeParams = s.freeParams.filter (· ≠ v)) := by
  refine ⟨by simp [Setup.evalParamVal, Setup.setVarParam], ?_, ?_⟩
  · intro w hw
    cases w with
    | num q => rfl
    | flag b => rfl
    | str n =>
      have : v ≠ n := fun h => hw (by rw [h])
      simp [Setup.evalParamVal, Setup.setVarParam, Dict.get?_set_ne _ this]
  · intro hn
    unfold Setup.freeParams Setup.setVarParam
    generalize s.varParams = d at hn
    simp only
    induction d with
    | nil => simp [Dict.set]
    | cons kv d ih =>
      obtain ⟨a, b⟩ := kv
      simp only [Dict.keys, List.map_cons, List.nodup_cons] at hn
      by_cases h : a = v
      · subst h
        have hfix : ∀ (l : List (String × Option PVal)), a ∉ l.map Prod.fst →
            (l.filterMap fun kv => if kv.2 = none then some kv.1 else none).filter (· ≠ a)
              = l.filterMap fun kv => if kv.2 = none then some kv.1 else none := by
          intro l hl
          rw [List.filter_eq_self]
          intro b' hb'
          rw [List.mem_filterMap] at hb'
          obtain ⟨kv, hkv, he⟩ := hb'
          have : kv.1 = b' := by
            by_cases h0 : kv.2 = none <;> simp [h0] at he
            exact he
          simp only [ne_eq, decide_eq_true_eq]
          rintro rfl
          exact hl (List.mem_map.2 ⟨kv, hkv, this⟩)
        have h1 := hfix d hn.1
        cases b with
        | none => simp only [Dict.set, if_true, List.filterMap_cons]; simpa using h1.symm
        | some y => simp only [Dict.set, if_true, List.filterMap_cons]; simpa using h1.symm
      · have ih' := ih hn.2
        cases b with
        | none => simp only [Dict.set, if_neg h, List.filterMap_cons]; simpa [h] using ih'
        | some y => simp only [Dict.set, if_neg h, List.filterMap_cons]; simpa using ih'

/-- Witness for C06 (`CircuitNoiseSetup`): one free parameter, after setting it every error
probability is a number. -/
example :
    (Setup.init Setup.circuitNoiseSetupDict).map (fun s =>
      (s.freeParams, s.param "h_error_prob" ["D1"], (s.setVarParam "prob" (.num (1/100))).freeParams,
       (s.setVarParam "prob" (.num (1/100))).param "cz_error_prob" ["D1", "X1"]))
    = .ok (["prob"], .error .valueError, [], .ok (.num (1/100))) := by decide +kernel

/-- **C06, disagreement**: with no free parameters left, `param` can still return a string: a value is
only registered as a variable if the *parameter name* is not yet the name of a variable. -/
theorem C06_unregistered_variable :
    (Setup.init ⟨none, none, [], some [⟨.none, [("a", .str "b"), ("b", .str "c")]⟩]⟩).map
      (fun s => ((s.setVarParam "b" (.num (1/2))).freeParams, (s.setVarParam "b" (.num (1/2))).param "b" []))
    = .ok ([], .ok (.str "c")) := by decide +kernel

/-! ### C05: round trip through `to_dict` -/

theorem update_nil_of_nodup {κ α : Type} [DecidableEq κ] (d : Dict κ α) (h : (d.map Prod.fst).Nodup) :
    Dict.update [] d = d := by
  unfold Dict.update
  suffices H : ∀ (l acc : Dict κ α), ((acc ++ l).map Prod.fst).Nodup →
      l.foldl (fun acc kv => Dict.set acc kv.1 kv.2) acc = acc ++ l by
    simpa using H d [] (by simpa using h)
  intro l
  induction l with
  | nil => intro acc _; simp
  | cons kv l ih =>
    intro acc hn
    obtain ⟨k, v⟩ := kv
    have hk : k ∉ acc.map Prod.fst := by
      simp only [List.map_append, List.map_cons] at hn
      have := (List.nodup_append.1 hn).2.2
      intro hm
      exact this k hm k (by simp) rfl
    have hset : Dict.set acc k v = acc ++ [(k, v)] := by
      clear ih hn
      induction acc with
      | nil => rfl
      | cons p acc ih' =>
        obtain ⟨a, b⟩ := p
        simp only [List.map_cons, List.mem_cons, not_or] at hk
        have : a ≠ k := fun h => hk.1 h.symm
        simp [Dict.set, this, ih' hk.2]
    rw [List.foldl_cons, hset, ih]
    · simp
    · simpa using hn

/-- A setup whose dictionaries are python dictionaries (distinct keys), with at least one entry, and
qubit keys of one or two qubits. -/
structure RoundTrippable (s : Setup) : Prop where
  nonempty : s.globalParams ≠ [] ∨ s.qubitParams ≠ []
  globNodup : (s.globalParams.map Prod.fst).Nodup
  keysNodup : (s.qubitParams.map Prod.fst).Nodup
  keysLen : ∀ kv ∈ s.qubitParams, kv.1.length = 1 ∨ kv.1.length = 2

theorem tuple_keyOf (k : List String) (h : k.length = 1 ∨ k.length = 2) :
    Setup.QKey.tuple (Setup.keyOf k) = k := by
  match k, h with
  | [a], _ => rfl
  | [a, b], _ => rfl
  | [], h => simp at h
  | a :: b :: c :: l, h => simp at h

theorem loadEntries_qubits (s0 : Setup) (l : List (List String × Dict String PVal))
    (hn : ((s0.qubitParams ++ l).map Prod.fst).Nodup)
    (hl : ∀ kv ∈ l, kv.1.length = 1 ∨ kv.1.length = 2) :
    ∃ vars, Setup.loadEntries s0 (l.map fun kv => ⟨Setup.keyOf kv.1, kv.2⟩) =
      .ok { s0 with qubitParams := s0.qubitParams ++ l, varParams := vars } ∧
      vars = (l.map Prod.snd).foldl Setup.registerVars s0.varParams := by
  induction l generalizing s0 with
  | nil => exact ⟨s0.varParams, by simp [Setup.loadEntries], rfl⟩
  | cons kv l ih =>
    obtain ⟨k, v⟩ := kv
    have hk := hl (k, v) (by simp)
    have hne : k ≠ [] := by rintro rfl; simp at hk
    have hknot : k ∉ s0.qubitParams.map Prod.fst := by
      simp only [List.map_append, List.map_cons] at hn
      intro hm
      exact (List.nodup_append.1 hn).2.2 k hm k (by simp) rfl
    have hhas : s0.qubitParams.has k = false := by
      have := Dict.has_iff s0.qubitParams k
      cases h : s0.qubitParams.has k
      · rfl
      · exact absurd (this.1 h) hknot
    have hset : s0.qubitParams.set k v = s0.qubitParams ++ [(k, v)] := by
      generalize s0.qubitParams = acc at hknot
      induction acc with
      | nil => rfl
      | cons p acc ih' =>
        obtain ⟨a, b⟩ := p
        simp only [List.map_cons, List.mem_cons, not_or] at hknot
        have : a ≠ k := fun h => hknot.1 h.symm
        simp [Dict.set, this, ih' hknot.2]
    have hload : Setup.loadEntry s0 ⟨Setup.keyOf k, v⟩ = .ok { s0 with
        qubitParams := s0.qubitParams ++ [(k, v)], varParams := Setup.registerVars s0.varParams v } := by
      simp [Setup.loadEntry, tuple_keyOf k hk, hne, hhas, hset]
    obtain ⟨vars, h1, h2⟩ := ih { s0 with
        qubitParams := s0.qubitParams ++ [(k, v)], varParams := Setup.registerVars s0.varParams v }
      (by simpa using hn) (fun kv hkv => hl kv (List.mem_cons_of_mem _ hkv))
    refine ⟨vars, ?_, by simpa using h2⟩
    simp only [List.map_cons, Setup.loadEntries, hload]
    rw [h1]
    simp

/-- **C05** (provable part): the round trip keeps the name, description, gate durations and all
parameter tables.  Not kept (see below): values given with `set_var_param`. -/
theorem C05_to_dict_roundtrip_partial (s : Setup) (h : RoundTrippable s) :
    ∃ s', Setup.init s.toDict = .ok s' ∧ s'.globalParams = s.globalParams ∧
      s'.qubitParams = s.qubitParams ∧ s'.name = s.name ∧ s'.description = s.description ∧
      s'.gateDurations = s.gateDurations ∧ s'.toDict = s.toDict ∧
      s'.varParams = (s.qubitParams.map Prod.snd).foldl Setup.registerVars
        (Setup.registerVars [] s.globalParams) := by
  set es := (if s.globalParams = [] then [] else [(⟨.none, s.globalParams⟩ : SetupEntry)]) ++
      s.qubitParams.map (fun kv => (⟨Setup.keyOf kv.1, kv.2⟩ : SetupEntry)) with hes
  have hne : es ≠ [] := by
    rcases h.nonempty with h1 | h1
    · simp [hes, h1]
    · simp [hes, h1]
  have hinit : Setup.init s.toDict =
      Setup.loadEntries ⟨s.name, s.description, s.gateDurations, [], [], []⟩ es := by
    unfold Setup.init Setup.toDict
    rw [← hes]
    cases h' : es with
    | nil => exact absurd h' hne
    | cons e es => rfl
  have key : ∃ s', Setup.loadEntries ⟨s.name, s.description, s.gateDurations, [], [], []⟩ es = .ok s' ∧
      s' = ⟨s.name, s.description, s.gateDurations, s.qubitParams, s.globalParams,
        (s.qubitParams.map Prod.snd).foldl Setup.registerVars
        (Setup.registerVars [] s.globalParams)⟩ := by
    by_cases hg : s.globalParams = []
    · obtain ⟨vars, e1, e2⟩ := loadEntries_qubits
        ⟨s.name, s.description, s.gateDurations, [], [], []⟩ s.qubitParams
        (by simpa using h.keysNodup) h.keysLen
      refine ⟨_, by rw [hes, if_pos hg, List.nil_append]; exact e1, ?_⟩
      simp [hg, e2, Setup.registerVars]
    · obtain ⟨vars, e1, e2⟩ := loadEntries_qubits
        ⟨s.name, s.description, s.gateDurations, [], s.globalParams,
          Setup.registerVars [] s.globalParams⟩ s.qubitParams
        (by simpa using h.keysNodup) h.keysLen
      refine ⟨_, ?_, rfl⟩
      rw [hes, if_neg hg]
      simp only [List.singleton_append, Setup.loadEntries, Setup.loadEntry, Setup.QKey.tuple, ne_eq,
        not_true_eq_false, if_false, update_nil_of_nodup _ h.globNodup]
      rw [e1, e2]
      simp
  obtain ⟨s', e1, e2⟩ := key
  refine ⟨s', by rw [hinit, e1], ?_⟩
  subst e2
  exact ⟨rfl, rfl, rfl, rfl, rfl, rfl, rfl⟩

/-- **C05**, on the API: after the round trip every query for a parameter whose value is not a string
gives the same answer, and loading once more changes nothing. -/
theorem C05_roundtrip_queries_partial (s : Setup) (h : RoundTrippable s) :
    ∃ s', Setup.init s.toDict = .ok s' ∧ Setup.init s'.toDict = .ok s' ∧
      (∀ name, s'.gateDuration name = s.gateDuration name) ∧
      (∀ p qs, (∀ kv ∈ s.globalParams, ∀ n, kv.2 ≠ .str n) →
        (∀ e ∈ s.qubitParams, ∀ kv ∈ e.2, ∀ n, kv.2 ≠ .str n) → s'.param p qs = s.param p qs) := by
  obtain ⟨s', e, hg, hq, hn, hd, hgd, htd, hv⟩ := C05_to_dict_roundtrip_partial s h
  refine ⟨s', e, by rw [htd]; exact e, fun name => by unfold Setup.gateDuration; rw [hgd], ?_⟩
  intro p qs h1 h2
  have hev : ∀ v, (∀ n, v ≠ .str n) → s'.evalParamVal v = s.evalParamVal v := by
    intro v hv
    cases v with
    | num q => rfl
    | flag b => rfl
    | str n => exact absurd rfl (hv n)
  have hown : ∀ p qs, s'.paramOwn p qs = s.paramOwn p qs := by
    intro p qs
    unfold Setup.paramOwn
    rw [hg, hq]
    cases h3 : (s.qubitParams.get? qs).bind (fun d => d.get? p) with
    | some v =>
      simp only
      rw [hev]
      rw [Option.bind_eq_some_iff] at h3
      obtain ⟨d, hd, hdp⟩ := h3
      exact fun n => h2 _ (Dict.mem_of_get? hd) _ (Dict.mem_of_get? hdp) n
    | none =>
      cases h4 : s.globalParams.get? p with
      | some v =>
        simp only
        rw [hev]
        exact fun n => h1 _ (Dict.mem_of_get? h4) n
      | none => rfl
  unfold Setup.param
  rw [hown]
  cases s.paramOwn p qs with
  | some r => rfl
  | none =>
    simp only
    cases Setup.parents.get? p with
    | none => rfl
    | some p' => simp only [hown]

/-- Witness for C05. -/
example : RoundTrippable ⟨some "n", none, [("H", 20)], [(["D1"], [("T1", .num 3)]), (["D1", "X1"], [("a", .num 1)])],
    [("p", .str "prob")], [("prob", none)]⟩ :=
  ⟨by decide +kernel, by decide +kernel, by decide +kernel, by decide +kernel⟩

/-- **C05, disagreements**: (1) an empty setup (as used by `NoiselessModel`) cannot be reloaded;
(2) parameters of three qubits become global ones; (3) variable values are lost. -/
theorem C05_empty_setup_not_reloadable :
    (Setup.init ⟨none, none, [], some [⟨.none, []⟩]⟩).bind (fun s => Setup.init s.toDict)
      = .error .valueError := by decide +kernel

theorem C05_three_qubit_keys_become_global :
    (Setup.init ⟨none, none, [], some [⟨.qubits ["a", "b", "c"], [("p", .num 1)]⟩]⟩).bind
      (fun s => (Setup.init s.toDict).map (fun s' => ((s.param "p" []).toOption, (s'.param "p" []).toOption)))
      = .ok (none, some (.num 1)) := by decide +kernel

theorem C05_variable_values_lost :
    (Setup.init Setup.circuitNoiseSetupDict).bind (fun s =>
      (Setup.init (s.setVarParam "prob" (.num (1/2))).toDict).map (fun s' => s'.param "h_error_prob" []))
      = .ok (.error .valueError) := by decide +kernel

/-- Every setup reachable through the API has dictionaries with distinct keys. -/
theorem C05_reachable_nodup (s : Setup) (h : SetupReach s) :
    (s.globalParams.map Prod.fst).Nodup ∧ (s.qubitParams.map Prod.fst).Nodup := by
  have hupd : ∀ (e d : Dict String PVal), (d.map Prod.fst).Nodup → ((d.update e).map Prod.fst).Nodup := by
    intro e
    unfold Dict.update
    induction e with
    | nil => intro d hd; exact hd
    | cons kv e ih => intro d hd; exact ih _ (Dict.keys_nodup_set hd _ _)
  induction h with
  | @init d es s hd hn h =>
    unfold Setup.init at h
    rw [hd] at h
    have H : ∀ (es : List SetupEntry) (s0 s1 : Setup),
        (s0.globalParams.map Prod.fst).Nodup ∧ (s0.qubitParams.map Prod.fst).Nodup →
        Setup.loadEntries s0 es = .ok s1 →
        (s1.globalParams.map Prod.fst).Nodup ∧ (s1.qubitParams.map Prod.fst).Nodup := by
      intro es
      induction es with
      | nil => intro s0 s1 h0 h1; simp [Setup.loadEntries] at h1; subst h1; exact h0
      | cons e es ih =>
        intro s0 s1 h0 h1
        unfold Setup.loadEntries at h1
        cases he : Setup.loadEntry s0 e with
        | error err => simp [he] at h1
        | ok s2 =>
          simp only [he] at h1
          refine ih s2 s1 ?_ h1
          unfold Setup.loadEntry at he
          split at he
          · split at he
            · cases he
            · cases he; exact ⟨h0.1, Dict.keys_nodup_set h0.2 _ _⟩
          · cases he; exact ⟨hupd _ _ h0.1, h0.2⟩
    cases es with
    | nil => simp at h
    | cons e es => exact H _ _ _ ⟨by simp, by simp⟩ h
  | setVar v q h ih => exact ih
  | setPar p v qs h h' ih =>
    unfold Setup.setParam at h'
    split at h'
    · cases h'; exact ⟨Dict.keys_nodup_set ih.1 _ _, ih.2⟩
    · split at h'
      · cases h'
      · cases h'; exact ⟨ih.1, Dict.keys_nodup_set ih.2 _ _⟩

end SurfaceSim.Props
