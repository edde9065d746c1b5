import Verif.Model.Setup
import Verif.Lemmas.Dict
import Verif.Spec.Setup

namespace SurfaceSim
open Setup Spec

theorem Setup.parents_depth_one : ∀ kv ∈ Setup.parents, Setup.parents.get? kv.2 = none := by
  decide +kernel

theorem lastValue_append (a b : List (String × PVal)) (p : String) :
    lastValue (a ++ b) p = (lastValue b p).or (lastValue a p) := by
  unfold lastValue
  rw [List.filter_append, List.getLast?_append]
  cases (List.filter (fun kv => decide (kv.1 = p)) b).getLast? <;> simp

theorem lastValue_nodup {d : Dict String PVal} (h : (d.map Prod.fst).Nodup) (p : String) :
    lastValue d p = d.get? p := by
  induction d with
  | nil => rfl
  | cons kv d ih =>
    obtain ⟨k, v⟩ := kv
    simp only [List.map_cons, List.nodup_cons] at h
    have ih := ih h.2
    have e := lastValue_append [(k, v)] d p
    rw [List.singleton_append] at e
    rw [e, ih, Dict.get?_cons]
    by_cases hk : k = p
    · subst hk
      have : Dict.get? d k = none := (Dict.get?_eq_none_iff d k).2 h.1
      simp [this, lastValue]
    · simp [hk, lastValue]

theorem Dict.get?_update {κ α : Type} [DecidableEq κ] (d e : Dict κ α) (k : κ) :
    (d.update e).get? k = ((e.filter fun kv => kv.1 = k).getLast?.map Prod.snd).or (d.get? k) := by
  unfold Dict.update
  induction e generalizing d with
  | nil => simp
  | cons kv e ih =>
    obtain ⟨a, b⟩ := kv
    rw [List.foldl_cons, ih, Dict.get?_set]
    by_cases h : a = k
    · simp only [h, decide_true, List.filter_cons_of_pos, if_true]
      rw [List.getLast?_cons]
      cases (List.filter (fun kv => decide (kv.1 = k)) e).getLast? <;> simp
    · simp [h]

/-- What the loader has established after reading the entries `es`. -/
structure Setup.Loaded (es : List SetupEntry) (s : Setup) : Prop where
  glob : ∀ p, s.globalParams.get? p = globalValue es p
  qub : ∀ qs p, (s.qubitParams.get? qs).bind (fun d => d.get? p) = qubitValue es p qs
  keys : ∀ qs, (s.qubitParams.get? qs).isSome ↔ qs ≠ [] ∧ ∃ e ∈ es, entryQubits e = qs

theorem QKey.tuple_eq (e : SetupEntry) : Setup.QKey.tuple e.key = entryQubits e := by
  obtain ⟨k, p⟩ := e
  cases k <;> rfl

theorem globalValue_snoc (es : List SetupEntry) (e : SetupEntry) (p : String) :
    globalValue (es ++ [e]) p =
      if entryQubits e = [] then (lastValue e.params p).or (globalValue es p) else globalValue es p := by
  unfold globalValue
  rw [List.filter_append]
  by_cases h : entryQubits e = []
  · simp [h, lastValue_append]
  · simp [h]

theorem qubitValue_snoc (es : List SetupEntry) (e : SetupEntry) (p : String) (qs : List String)
    (hqs : qs ≠ []) :
    qubitValue (es ++ [e]) p qs =
      if entryQubits e = qs then (lastValue e.params p).or (qubitValue es p qs)
      else qubitValue es p qs := by
  unfold qubitValue
  simp only [hqs, if_false]
  rw [List.filter_append]
  by_cases h : entryQubits e = qs
  · simp [h, lastValue_append]
  · simp [h]

theorem qubitValue_none_of {es : List SetupEntry} {qs : List String}
    (h : ¬ ∃ e ∈ es, entryQubits e = qs) (p : String) : qubitValue es p qs = none := by
  unfold qubitValue
  split
  · rfl
  · have : (es.filter fun e => entryQubits e = qs) = [] := by
      rw [List.filter_eq_nil_iff]
      intro e he
      simp only [decide_eq_true_eq]
      exact fun h' => h ⟨e, he, h'⟩
    rw [this]
    rfl

theorem Setup.loadEntry_loaded {es : List SetupEntry} {s s' : Setup} {e : SetupEntry}
    (hs : Loaded es s) (hn : (e.params.map Prod.fst).Nodup) (h : loadEntry s e = .ok s') :
    Loaded (es ++ [e]) s' := by
  unfold loadEntry at h
  rw [QKey.tuple_eq] at h
  by_cases hq : entryQubits e = []
  · rw [if_neg (by simp [hq])] at h
    cases h
    refine ⟨fun p => ?_, fun qs p => ?_, fun qs => ?_⟩
    · rw [globalValue_snoc, if_pos hq, Dict.get?_update, hs.glob]
      rfl
    · by_cases hqs : qs = []
      · subst hqs
        have : ¬ (s.qubitParams.get? []).isSome := by rw [hs.keys]; simp
        simp only [Option.not_isSome_iff_eq_none] at this
        simp [this, qubitValue]
      · rw [qubitValue_snoc _ _ _ _ hqs, if_neg (by rw [hq]; exact fun h => hqs h.symm)]
        exact hs.qub qs p
    · rw [hs.keys]
      constructor
      · rintro ⟨h1, e', h2, h3⟩
        exact ⟨h1, e', by simp [h2], h3⟩
      · rintro ⟨h1, e', h2, h3⟩
        refine ⟨h1, e', ?_, h3⟩
        rcases List.mem_append.1 h2 with h2 | h2
        · exact h2
        · simp at h2; subst h2; exact absurd (h3.symm.trans hq) h1
  · rw [if_pos (by simpa using hq)] at h
    split at h
    · cases h
    · rename_i hhas
      cases h
      refine ⟨fun p => ?_, fun qs p => ?_, fun qs => ?_⟩
      · rw [globalValue_snoc, if_neg hq]
        exact hs.glob p
      · by_cases hqs : qs = []
        · subst hqs
          have h0 : ¬ (s.qubitParams.get? []).isSome := by rw [hs.keys]; simp
          simp only [Option.not_isSome_iff_eq_none] at h0
          simp [Dict.get?_set, hq, h0, qubitValue]
        · rw [qubitValue_snoc _ _ _ _ hqs]
          simp only [Dict.get?_set]
          by_cases he : entryQubits e = qs
          · subst he
            have hnone : qubitValue es p (entryQubits e) = none := by
              rw [← hs.qub]
              have : s.qubitParams.get? (entryQubits e) = none := by
                simpa [Dict.has] using hhas
              simp [this]
            rw [if_pos rfl, if_pos rfl, hnone, lastValue_nodup hn]
            simp
          · simp only [he, if_false]
            exact hs.qub qs p
      · simp only [Dict.get?_set]
        by_cases he : entryQubits e = qs
        · subst he
          simp only [if_true, Option.isSome_some, true_iff]
          exact ⟨hq, e, by simp, rfl⟩
        · simp only [he, if_false]
          rw [hs.keys]
          constructor
          · rintro ⟨h1, e', h2, h3⟩
            exact ⟨h1, e', by simp [h2], h3⟩
          · rintro ⟨h1, e', h2, h3⟩
            refine ⟨h1, e', ?_, h3⟩
            rcases List.mem_append.1 h2 with h2 | h2
            · exact h2
            · simp at h2; subst h2; exact absurd h3 he

theorem Setup.loadEntries_loaded {es es' : List SetupEntry} {s s' : Setup}
    (hs : Loaded es s) (hn : EntriesNodup es') (h : loadEntries s es' = .ok s') :
    Loaded (es ++ es') s' := by
  induction es' generalizing es s with
  | nil => simp [loadEntries] at h; subst h; simpa using hs
  | cons e es' ih =>
    unfold loadEntries at h
    cases he : loadEntry s e with
    | error err => simp [he] at h
    | ok s1 =>
      simp only [he] at h
      have := ih (loadEntry_loaded hs (hn e (by simp)) he)
        (fun e he => hn e (List.mem_cons_of_mem _ he)) h
      simpa using this

theorem Setup.init_loaded {d : SetupDict} {s : Setup} {es : List SetupEntry} (hd : d.setup = some es)
    (hn : EntriesNodup es) (h : Setup.init d = .ok s) : Loaded es s := by
  unfold Setup.init at h
  rw [hd] at h
  cases es with
  | nil => simp at h
  | cons e es =>
    simp only at h
    have h0 : Loaded [] (Setup.mk d.name d.description d.gateDurations [] [] []) :=
      ⟨fun p => by simp [globalValue, lastValue], fun qs p => by simp [qubitValue, lastValue],
       fun qs => by simp⟩
    exact loadEntries_loaded h0 hn h

end SurfaceSim
