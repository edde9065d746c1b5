import Verif.Model.Py
import Mathlib.Data.List.Nodup
import Mathlib.Data.List.Basic

namespace SurfaceSim
namespace Dict
variable {κ α : Type} [DecidableEq κ]

@[simp] theorem get?_nil (k : κ) : get? ([] : Dict κ α) k = none := rfl

@[simp] theorem get?_cons (k' : κ) (v : α) (d : Dict κ α) (k : κ) :
    get? ((k', v) :: d) k = if k' = k then some v else get? d k := rfl

theorem get?_set (d : Dict κ α) (k k' : κ) (v : α) :
    get? (set d k v) k' = if k = k' then some v else get? d k' := by
  induction d with
  | nil => simp [set]
  | cons p d ih =>
    obtain ⟨a, b⟩ := p
    by_cases h : a = k
    · subst h
      by_cases h2 : a = k' <;> simp [set, h2]
    · by_cases h2 : a = k'
      · subst h2
        have h' : ¬ k = a := fun e => h e.symm
        simp [set, h, h']
      · simp [set, h, h2, ih]

@[simp] theorem get?_set_self (d : Dict κ α) (k : κ) (v : α) : get? (set d k v) k = some v := by
  simp [get?_set]

theorem get?_set_ne (d : Dict κ α) {k k' : κ} (h : k ≠ k') (v : α) :
    get? (set d k v) k' = get? d k' := by
  simp [get?_set, h]

theorem get?_eq_none_iff (d : Dict κ α) (k : κ) : get? d k = none ↔ k ∉ keys d := by
  induction d with
  | nil => simp [keys]
  | cons p d ih =>
    obtain ⟨a, b⟩ := p
    by_cases h : a = k
    · simp [keys, h]
    · have h' : ¬ k = a := fun e => h e.symm
      simp only [keys] at ih
      simp [keys, h, ih, h']

theorem get?_isSome_iff (d : Dict κ α) (k : κ) : (get? d k).isSome ↔ k ∈ keys d := by
  have := get?_eq_none_iff d k
  cases h : get? d k with
  | none => simp [h] at this; simp [this]
  | some v => simp [h] at this; simp [this]

theorem has_iff (d : Dict κ α) (k : κ) : has d k = true ↔ k ∈ keys d := by
  simp [has, get?_isSome_iff]

theorem mem_of_get? {d : Dict κ α} {k : κ} {v : α} (h : get? d k = some v) : (k, v) ∈ d := by
  induction d with
  | nil => simp at h
  | cons p d ih =>
    obtain ⟨a, b⟩ := p
    by_cases hk : a = k
    · subst hk; simp at h; simp [h]
    · simp [hk] at h; exact List.mem_cons_of_mem _ (ih h)

theorem get?_of_mem {d : Dict κ α} (hn : (keys d).Nodup) {k : κ} {v : α} (h : (k, v) ∈ d) :
    get? d k = some v := by
  induction d with
  | nil => simp at h
  | cons p d ih =>
    obtain ⟨a, b⟩ := p
    simp only [keys, List.map_cons, List.nodup_cons] at hn
    rcases List.mem_cons.1 h with h | h
    · cases h; simp
    · have : a ≠ k := by
        rintro rfl
        exact hn.1 (List.mem_map.2 ⟨(a, v), h, rfl⟩)
      simp [this, ih hn.2 h]

theorem keys_set (d : Dict κ α) (k : κ) (v : α) :
    keys (set d k v) = if k ∈ keys d then keys d else keys d ++ [k] := by
  induction d with
  | nil => simp [set, keys]
  | cons p d ih =>
    obtain ⟨a, b⟩ := p
    by_cases h : a = k
    · simp [set, keys, h]
    · have h' : ¬ k = a := fun e => h e.symm
      simp only [keys] at ih
      by_cases hm : k ∈ d.map Prod.fst <;> simp_all [set, keys]

theorem keys_nodup_set {d : Dict κ α} (hn : (keys d).Nodup) (k : κ) (v : α) :
    (keys (set d k v)).Nodup := by
  rw [keys_set]
  split
  · exact hn
  · rename_i h
    rw [List.nodup_append]
    refine ⟨hn, by simp, ?_⟩
    intro a ha b hb
    simp at hb
    subst hb
    rintro rfl
    exact h ha

theorem mem_keys_set (d : Dict κ α) (k k' : κ) (v : α) :
    k' ∈ keys (set d k v) ↔ k' = k ∨ k' ∈ keys d := by
  rw [keys_set]
  split
  · rename_i h
    constructor
    · exact Or.inr
    · rintro (rfl | h') <;> assumption
  · simp [or_comm]

theorem set_set (d : Dict κ α) (k : κ) (v w : α) : set (set d k v) k w = set d k w := by
  induction d with
  | nil => simp [set]
  | cons p d ih =>
    obtain ⟨a, b⟩ := p
    by_cases h : a = k <;> simp [set, h, ih]

theorem set_self_of_get? {d : Dict κ α} {k : κ} {v : α} (h : get? d k = some v) : set d k v = d := by
  induction d with
  | nil => simp at h
  | cons p d ih =>
    obtain ⟨a, b⟩ := p
    by_cases hk : a = k
    · subst hk; simp at h; simp [set, h]
    · simp [hk] at h; simp [set, hk, ih h]

theorem get?_map_val {β : Type} (d : Dict κ α) (f : α → β) (k : κ) :
    get? (d.map fun kv => (kv.1, f kv.2)) k = (get? d k).map f := by
  induction d with
  | nil => simp
  | cons p d ih =>
    obtain ⟨a, b⟩ := p
    by_cases h : a = k <;> simp [h, ih]

theorem get?_append (d e : Dict κ α) (k : κ) :
    get? (d ++ e) k = (get? d k).or (get? e k) := by
  induction d with
  | nil => simp
  | cons p d ih =>
    obtain ⟨a, b⟩ := p
    by_cases h : a = k <;> simp [h, ih]

theorem getE_ok_iff (d : Dict κ α) (k : κ) (v : α) : getE d k = .ok v ↔ get? d k = some v := by
  unfold getE
  cases get? d k <;> simp

theorem get?_map_key {ι : Type} (l : List ι) (f : ι → κ) (g : ι → α) {i : ι}
    (hi : i ∈ l) (hinj : ∀ j ∈ l, f j = f i → g j = g i) :
    get? (l.map fun j => (f j, g j)) (f i) = some (g i) := by
  induction l with
  | nil => simp at hi
  | cons a l ih =>
    by_cases h : f a = f i
    · simp [h, hinj a (by simp) h]
    · have : i ∈ l := by
        rcases List.mem_cons.1 hi with rfl | h'
        · exact absurd rfl h
        · exact h'
      simp only [List.map_cons, get?_cons, h, if_false]
      exact ih this (fun j hj => hinj j (List.mem_cons_of_mem _ hj))

end Dict

namespace PyM
variable {σ α β : Type}

@[simp] theorem pure_apply (a : α) (s : σ) : (pure a : PyM σ α) s = (.ok a, s) := rfl
@[simp] theorem pure_apply' (a : α) (s : σ) : (PyM.pure a : PyM σ α) s = (.ok a, s) := rfl

theorem bind_apply (m : PyM σ α) (f : α → PyM σ β) (s : σ) :
    (m >>= f) s = match m s with
      | (.ok a, s') => f a s'
      | (.error e, s') => (.error e, s') := rfl

theorem bind_ok {m : PyM σ α} {f : α → PyM σ β} {s s' : σ} {a : α} (h : m s = (.ok a, s')) :
    (m >>= f) s = f a s' := by rw [bind_apply, h]

theorem bind_ok' {m : PyM σ α} {f : α → PyM σ β} {s s' : σ} {a : α} (h : m s = (.ok a, s')) :
    (PyM.bind m f) s = f a s' := by unfold PyM.bind; rw [h]

theorem bind_error {m : PyM σ α} {f : α → PyM σ β} {s s' : σ} {e : Err}
    (h : m s = (.error e, s')) : (m >>= f) s = (.error e, s') := by rw [bind_apply, h]

@[simp] theorem raise_apply (e : Err) (s : σ) : (raise e : PyM σ α) s = (.error e, s) := rfl
@[simp] theorem get_apply (s : σ) : (PyM.get : PyM σ σ) s = (.ok s, s) := rfl
@[simp] theorem put_apply (s t : σ) : (PyM.put t : PyM σ Unit) s = (.ok (), t) := rfl
@[simp] theorem ofExcept_apply (e : Except Err α) (s : σ) : (ofExcept e : PyM σ α) s = (e, s) := rfl

end PyM

theorem mapExcept_ok {α β : Type} (l : List α) (f : α → Except Err β) (g : α → β)
    (h : ∀ a ∈ l, f a = .ok (g a)) : mapExcept l f = .ok (l.map g) := by
  induction l with
  | nil => rfl
  | cons a l ih =>
    simp [mapExcept, h a (by simp), ih (fun b hb => h b (List.mem_cons_of_mem _ hb))]

end SurfaceSim
