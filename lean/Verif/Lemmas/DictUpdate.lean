/-
The matrix built by `update_from_dict`.
-/
import Verif.Lemmas.DetExact
import Verif.Spec.DetUpdate

namespace SurfaceSim
open Spec Detectors

variable {cfg : Config}

theorem idx_ok_of_mem {a : String} (h : a ∈ cfg.anc) : ∃ i, cfg.idx a = .ok i := by
  unfold Config.idx
  cases hi : cfg.anc.finIdxOf? a with
  | some i => exact ⟨i, rfl⟩
  | none =>
    rw [List.finIdxOf?_eq_none_iff] at hi
    exact absurd h hi

theorem mem_of_idx_ok (hn : cfg.anc.Nodup) {a : String} {i : Fin cfg.n} (h : cfg.idx a = .ok i) : a ∈ cfg.anc := by
  rw [← idx_label hn h]
  exact List.get_mem _ _

theorem setOnes_ok (hn : cfg.anc.Nodup) {i : Fin cfg.n} {olds : List String} {U V : cfg.Mat Int}
    (h : setOnes i olds U = .ok V) : (∀ o ∈ olds, o ∈ cfg.anc) ∧
      ∀ a b, V a b = if a = i ∧ cfg.label b ∈ olds then 1 else U a b := by
  induction olds generalizing U with
  | nil =>
    simp only [setOnes, Except.ok.injEq] at h
    subst h
    simp
  | cons o olds ih =>
    unfold setOnes at h
    cases hj : cfg.idx o with
    | error e => simp [hj] at h
    | ok j =>
      simp only [hj] at h
      obtain ⟨h1, h2⟩ := ih h
      have hl := idx_label hn hj
      refine ⟨fun o' ho' => ?_, fun a b => ?_⟩
      · rcases List.mem_cons.1 ho' with rfl | ho'
        · exact mem_of_idx_ok hn hj
        · exact h1 o' ho'
      · rw [h2]
        have : b = j ↔ cfg.label b = o := by
          rw [← hl]
          exact ⟨fun h => by rw [h], fun h => label_injective hn h⟩
        by_cases ha : a = i <;> by_cases hb : cfg.label b ∈ olds <;> by_cases hc : cfg.label b = o <;>
          simp [ha, hb, hc, this]

theorem setOnes_exists {i : Fin cfg.n} {olds : List String} (h : ∀ o ∈ olds, o ∈ cfg.anc) (U : cfg.Mat Int) :
    ∃ V, setOnes i olds U = .ok V := by
  induction olds generalizing U with
  | nil => exact ⟨U, rfl⟩
  | cons o olds ih =>
    obtain ⟨j, hj⟩ := idx_ok_of_mem (h o (by simp))
    unfold setOnes
    rw [hj]
    exact ih (fun e he => h e (by simp [he])) _

theorem dictMatrix_ok (hn : cfg.anc.Nodup) {d : Dict String (List String)} (hd : d.keys.Nodup) {U V : cfg.Mat Int}
    (h : dictMatrix d U = .ok V) : KnownAncillas cfg d ∧
      ∀ a b, V a b = match d.get? (cfg.label a) with
        | some olds => if cfg.label b ∈ olds then 1 else if a = b then 0 else U a b
        | none => U a b := by
  induction d generalizing U with
  | nil =>
    simp only [dictMatrix, Except.ok.injEq] at h
    subst h
    exact ⟨fun _ h => by simp at h, fun a b => rfl⟩
  | cons kv d ih =>
    obtain ⟨new, olds⟩ := kv
    unfold dictMatrix at h
    cases hi : cfg.idx new with
    | error e => simp [hi] at h
    | ok i =>
      simp only [hi] at h
      cases hs : setOnes i olds (fun a b => if a = i ∧ b = i then 0 else U a b) with
      | error e => simp [hs] at h
      | ok W =>
        simp only [hs] at h
        have hk : new ∉ Dict.keys d ∧ (Dict.keys d).Nodup := by
          have : Dict.keys ((new, olds) :: d) = new :: Dict.keys d := rfl
          rw [this, List.nodup_cons] at hd
          exact hd
        obtain ⟨h1, h2⟩ := ih hk.2 h
        obtain ⟨h3, h4⟩ := setOnes_ok hn hs
        have hl := idx_label hn hi
        refine ⟨?_, fun a b => ?_⟩
        · rintro kv hkv
          rcases List.mem_cons.1 hkv with rfl | hkv
          · exact ⟨mem_of_idx_ok hn hi, h3⟩
          · exact h1 kv hkv
        · have hai : cfg.label a = new ↔ a = i := by
            rw [← hl]
            exact ⟨fun h => label_injective hn h, fun h => by rw [h]⟩
          rw [h2]
          by_cases ha : a = i
          · subst ha
            have : Dict.get? d (cfg.label a) = none := by
              rw [hl]; exact (Dict.get?_eq_none_iff _ _).2 hk.1
            rw [this, h4]
            simp only [Dict.get?, hl, true_and]
            by_cases hb : cfg.label b ∈ olds <;> by_cases hc : a = b <;> simp [hb, hc, eq_comm]
          · have hne : new ≠ cfg.label a := fun h => ha (hai.1 h.symm)
            have : Dict.get? ((new, olds) :: d) (cfg.label a) = Dict.get? d (cfg.label a) := by
              simp [Dict.get?, hne]
            rw [this, h4]
            simp [ha]

theorem dictMatrix_exists {d : Dict String (List String)} (h : KnownAncillas cfg d) (U : cfg.Mat Int) :
    ∃ V, dictMatrix d U = .ok V := by
  induction d generalizing U with
  | nil => exact ⟨U, rfl⟩
  | cons kv d ih =>
    obtain ⟨new, olds⟩ := kv
    obtain ⟨i, hi⟩ := idx_ok_of_mem (h (new, olds) (by simp)).1
    obtain ⟨W, hW⟩ := setOnes_exists (i := i) (h (new, olds) (by simp)).2 (fun a b => if a = i ∧ b = i then 0 else U a b)
    unfold dictMatrix
    rw [hi]
    simp only [hW]
    exact ih (fun e he => h e (by simp [he])) _

theorem dictMatrix_one (hn : cfg.anc.Nodup) {d : Dict String (List String)} (hd : d.keys.Nodup) {V : cfg.Mat Int}
    (h : dictMatrix d 1 = .ok V) : KnownAncillas cfg d ∧ mod2 V = dictMat d ∧ ∀ a b, V a b = 0 ∨ V a b = 1 := by
  obtain ⟨h1, h2⟩ := dictMatrix_ok hn hd h
  refine ⟨h1, ?_, fun a b => ?_⟩
  · ext a b
    simp only [mod2, Matrix.map_apply, h2, dictMat]
    cases d.get? (cfg.label a) with
    | none => simp [Matrix.one_apply, eq_comm]
    | some olds =>
      by_cases hb : cfg.label b ∈ olds <;> by_cases hc : a = b <;> simp [hb, hc]
  · rw [h2]
    cases d.get? (cfg.label a) with
    | none => by_cases hc : a = b <;> simp [Matrix.one_apply, hc]
    | some olds => by_cases hb : cfg.label b ∈ olds <;> by_cases hc : a = b <;> simp [hb, hc]

end SurfaceSim
