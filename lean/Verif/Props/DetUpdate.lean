/-
What `update_from_dict` does (C23).
-/
import Verif.Lemmas.DictUpdate

namespace SurfaceSim.Props
open SurfaceSim Spec Detectors

variable {cfg : Config}

/-- **C23** `update_from_dict` is accepted exactly if all labels are ancillas and the described change of generators is
invertible. -/
theorem C23_update_from_dict_accepts (hn : cfg.anc.Nodup) (d : Dict String (List String)) (hd : d.keys.Nodup)
    (s : State cfg) :
    (Call.exec s (.updateFromDict d)).1 = true ↔ KnownAncillas cfg d ∧ (dictMat d : cfg.Mat (ZMod 2)).det ≠ 0 := by
  simp only [Call.exec]
  unfold updateFromDict
  constructor
  · intro h
    split at h
    · simp [Except.isOk, Except.toBool] at h
    · split at h
      · simp [Except.isOk, Except.toBool] at h
      · rename_i U hU
        obtain ⟨h1, h2, h3⟩ := dictMatrix_one hn hd hU
        rcases update_cases (List.finRange cfg.n) U s with ⟨e, he⟩ | ⟨hdet, he⟩
        · rw [he] at h; simp [Except.isOk, Except.toBool] at h
        · exact ⟨h1, h2 ▸ hdet⟩
  · rintro ⟨h1, h2⟩
    have hss : NoiseModel.strictSuperset d.keys cfg.anc = false := by
      simp only [NoiseModel.strictSuperset, Bool.and_eq_false_iff]
      right
      rw [List.any_eq_false]
      intro k hk
      obtain ⟨kv, hkv, rfl⟩ := List.mem_map.1 hk
      simpa using (h1 kv hkv).1
    rw [if_neg (by simp [hss])]
    obtain ⟨U, hU⟩ := dictMatrix_exists h1 1
    simp only [hU]
    obtain ⟨-, h3, h4⟩ := dictMatrix_one hn hd hU
    unfold update
    rw [if_neg (by simp), if_neg, if_neg (by rw [← h3] at h2; exact h2)]
    · rfl
    · simp only [List.any_eq_true, decide_eq_true_eq, not_exists, not_and]
      intro a _ b _
      rcases h4 a b with h | h <;> simp [h]

/-- **C23** An accepted `update_from_dict` replaces the generators of the listed ancillas by the listed products of the
current ones, leaves the generators of the other ancillas, the previous generators and the counters. -/
theorem C23_update_from_dict_effect (hn : cfg.anc.Nodup) (d : Dict String (List String)) (hd : d.keys.Nodup)
    (s : State cfg) (h : (Call.exec s (.updateFromDict d)).1 = true) :
    mod2 (Call.exec s (.updateFromDict d)).2.curr = dictMat d * mod2 s.curr ∧
    (Call.exec s (.updateFromDict d)).2.prev = s.prev ∧ (Call.exec s (.updateFromDict d)).2.active = s.active ∧
    (Call.exec s (.updateFromDict d)).2.rounds = s.rounds ∧ (Call.exec s (.updateFromDict d)).2.total = s.total := by
  simp only [Call.exec] at h ⊢
  rcases updateFromDict_cases d s with ⟨e, he⟩ | ⟨U, hU, he⟩
  · rw [he] at h; simp [Except.isOk, Except.toBool] at h
  · rw [he] at h ⊢
    rcases update_cases (List.finRange cfg.n) U s with ⟨e, he⟩ | ⟨hdet, he⟩
    · rw [he] at h; simp [Except.isOk, Except.toBool] at h
    · rw [he]
      refine ⟨?_, rfl, rfl, rfl, rfl⟩
      simp only
      rw [mod2_emod, mod2_mul, (dictMatrix_one hn hd hU).2.1]

/-- The example of the documentation of `update_from_dict`: X1 becomes the product of X1 and Z1. -/
example : let cfg : Config := ⟨["X1", "Z1"], .preGate, [("X1", []), ("Z1", [])]⟩
    let s := (Call.exec (State.fresh cfg) (.updateFromDict [("X1", ["X1", "Z1"])])).2
    (Call.exec (State.fresh cfg) (.updateFromDict [("X1", ["X1", "Z1"])])).1 = true ∧
      s.curr 0 0 = 1 ∧ s.curr 0 1 = 1 ∧ s.curr 1 0 = 0 ∧ s.curr 1 1 = 1 := by decide +kernel

end SurfaceSim.Props
