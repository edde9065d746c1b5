/-
C06: the values of variable parameters after any sequence of `set_var_param` calls.
-/
import Verif.Props.Setup
import Mathlib.Data.List.Induction

namespace SurfaceSim.Props
open SurfaceSim SurfaceSim.Spec

/-- `set_var_param` called with these names and values, in order. -/
def setVars (s : Setup) (kvs : List (String × PVal)) : Setup := kvs.foldl (fun s kv => s.setVarParam kv.1 kv.2) s

theorem setVars_get (kvs : List (String × PVal)) : ∀ (s : Setup) (v : String),
    (setVars s kvs).varParams.get? v = match lastValue kvs v with
      | some x => some (some x)
      | none => s.varParams.get? v := by
  induction kvs using List.reverseRecOn with
  | nil => intro s v; simp [setVars, lastValue]
  | append_singleton l kv ih =>
    intro s v
    have h1 : setVars s (l ++ [kv]) = (setVars s l).setVarParam kv.1 kv.2 := by simp [setVars]
    rw [h1, Setup.setVarParam]
    by_cases h : kv.1 = v
    · simp [h, lastValue]
    · rw [Dict.get?_set_ne _ h, ih s v]
      simp [lastValue, h]

theorem registerVars_none : ∀ (ps : Dict String PVal) (vars : Dict String (Option PVal)),
    (∀ v x, vars.get? v = some x → x = none) → ∀ v x, (Setup.registerVars vars ps).get? v = some x → x = none
  | [], vars, h => by simpa [Setup.registerVars] using h
  | (p, .num _) :: ps, vars, h => by simpa [Setup.registerVars] using registerVars_none ps vars h
  | (p, .flag _) :: ps, vars, h => by simpa [Setup.registerVars] using registerVars_none ps vars h
  | (p, .str w) :: ps, vars, h => by
    unfold Setup.registerVars
    split
    · exact registerVars_none ps vars h
    · refine registerVars_none ps _ fun v x hv => ?_
      rw [Dict.get?_set] at hv
      split at hv
      · exact (Option.some.inj hv).symm
      · exact h v x hv

theorem loadEntries_none : ∀ (es : List SetupEntry) (s s' : Setup),
    (∀ v x, s.varParams.get? v = some x → x = none) → s.loadEntries es = .ok s' →
    ∀ v x, s'.varParams.get? v = some x → x = none
  | [], s, s', h, he => by
    simp only [Setup.loadEntries, Except.ok.injEq] at he
    subst he
    exact h
  | e :: es, s, s', h, he => by
    unfold Setup.loadEntries at he
    cases h1 : s.loadEntry e with
    | error _ => rw [h1] at he; nomatch he
    | ok s1 =>
      rw [h1] at he
      refine loadEntries_none es s1 s' (fun v x hv => ?_) he
      unfold Setup.loadEntry at h1
      split at h1
      · split at h1
        · nomatch h1
        · cases h1
          exact registerVars_none _ _ h v x hv
      · cases h1
        exact registerVars_none _ _ h v x hv

theorem init_none {d : SetupDict} {s : Setup} (h : Setup.init d = .ok s) (v : String) (x : Option PVal)
    (hv : s.varParams.get? v = some x) : x = none := by
  unfold Setup.init at h
  split at h
  · nomatch h
  · nomatch h
  · exact loadEntries_none _ _ s (fun v x h => by simp at h) h v x hv

theorem mem_freeParams {d : SetupDict} {s : Setup} (h : Setup.init d = .ok s) (v : String) :
    v ∈ s.freeParams ↔ s.varParams.get? v = some none := by
  constructor
  · intro hv
    unfold Setup.freeParams at hv
    obtain ⟨⟨k, x⟩, hm, hk⟩ := List.mem_filterMap.1 hv
    split at hk
    · have hx := Option.some.inj hk
      simp only at hx
      subst hx
      have : k ∈ s.varParams.keys := List.mem_map.2 ⟨_, hm, rfl⟩
      obtain ⟨y, hy⟩ := Option.isSome_iff_exists.1 ((Dict.get?_isSome_iff _ _).2 this)
      rw [hy, init_none h k y hy]
    · nomatch hk
  · intro hv
    exact List.mem_filterMap.2 ⟨(v, none), Dict.mem_of_get? hv, by simp⟩

/-- **C06** After any calls of `set_var_param` on a setup that was just loaded, `var_param(v)` is the last value set for `v`,
else the last value set for the parameter that `v` falls back to, else it raises `ValueError`. -/
theorem C06_var_param {d : SetupDict} {s : Setup} (h : Setup.init d = .ok s) (kvs : List (String × PVal)) (v : String) :
    (setVars s kvs).varParam v = match lastValue kvs v with
      | some x => .ok x
      | none => match (fallback v).bind (lastValue kvs) with
        | some x => .ok x
        | none => .error .valueError := by
  have key : ∀ w, lastValue kvs w = none → (setVars s kvs).varParams.get? w = none ∨ (setVars s kvs).varParams.get? w = some none := by
    intro w hw
    rw [setVars_get, hw]
    cases hg : s.varParams.get? w with
    | none => exact .inl rfl
    | some x => rw [init_none h w x hg]; exact .inr rfl
  unfold Setup.varParam
  rw [parents_eq_fallback]
  cases hl : lastValue kvs v with
  | some x => rw [setVars_get, hl]
  | none =>
    have rest : (match fallback v with
        | some p => match (setVars s kvs).varParams.get? p with
          | some (some q) => Except.ok q
          | _ => .error Err.valueError
        | none => .error Err.valueError) = match (fallback v).bind (lastValue kvs) with
        | some x => .ok x
        | none => (.error .valueError : Except Err PVal) := by
      cases fallback v with
      | none => rfl
      | some p =>
        simp only [Option.bind_some]
        cases hp : lastValue kvs p with
        | some x => rw [setVars_get, hp]
        | none => rcases key p hp with h' | h' <;> rw [h']
    rcases key v hl with h' | h' <;> rw [h'] <;> exact rest

/-- **C06** After any calls of `set_var_param` on a setup that was just loaded, `param(p, *qs)` is the raw value of the dictionary
(C04), where the name of a variable stands for the last value set for it; a variable that was free and was never set raises
`ValueError`. -/
theorem C06_param_after_sets {d : SetupDict} {es : List SetupEntry} {s : Setup} (hd : d.setup = some es) (hn : EntriesNodup es)
    (h : Setup.init d = .ok s) (kvs : List (String × PVal)) (p : String) (qs : List String) :
    (setVars s kvs).param p qs = match rawValue es p qs with
      | none => .error .keyError
      | some (.str n) => match lastValue kvs n with
        | some x => .ok x
        | none => if n ∈ s.freeParams then .error .valueError else .ok (.str n)
      | some v => .ok v := by
  have hq : ∀ kvs (s : Setup), (setVars s kvs).qubitParams = s.qubitParams ∧ (setVars s kvs).globalParams = s.globalParams := by
    intro kvs
    induction kvs with
    | nil => intro s; exact ⟨rfl, rfl⟩
    | cons kv l ih => intro s; exact ih (s.setVarParam kv.1 kv.2)
  obtain ⟨h1, h2⟩ := hq kvs s
  have L := Setup.init_loaded hd hn h
  have hempty : s.qubitParams.get? [] = none := by
    have := L.keys []
    simpa using this
  have hr : (setVars s kvs).param p qs = match rawValue es p qs with
      | some v => (setVars s kvs).evalParamVal v
      | none => .error .keyError := by
    unfold Setup.param rawValue Setup.paramOwn
    rw [h1, h2, L.qub, L.glob]
    cases qubitValue es p qs with
    | some v => rfl
    | none =>
      cases globalValue es p with
      | some v => rfl
      | none =>
        simp only
        rw [parents_eq_fallback]
        cases fallback p with
        | none => rfl
        | some p' =>
          simp only [hempty, L.glob, Option.bind_none]
          cases globalValue es p' <;> rfl
  rw [hr]
  cases rawValue es p qs with
  | none => rfl
  | some v =>
    cases v with
    | num q => rfl
    | flag b => rfl
    | str n =>
      simp only [Setup.evalParamVal]
      rw [setVars_get]
      cases hl : lastValue kvs n with
      | some x => rfl
      | none =>
        simp only [mem_freeParams h]
        cases hg : s.varParams.get? n with
        | none => simp
        | some x => rw [init_none h n x hg]; simp

/-- Witness: the setup of the circuit-level models; `prob` is free and then set twice, and a parameter is set by its own name. -/
example : (Setup.init Setup.circuitNoiseSetupDict).map (fun s =>
    let s' := setVars s [("prob", .num (1/10)), ("sq_error_prob", .num (1/3)), ("prob", .num (1/5))]
    (s.freeParams, [(s'.varParam "prob").toOption, (s'.varParam "h_error_prob").toOption, (s'.varParam "cz_error_prob").toOption,
      (s'.param "h_error_prob" ["D1"]).toOption])) =
    .ok (["prob"], [some (.num (1/5)), some (.num (1/3)), none, some (.num (1/5))]) := by decide +kernel

end SurfaceSim.Props
