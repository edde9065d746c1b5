/-
The dictionary of new generators read from a layout.
-/
import Verif.Lemmas.FoldTotal

namespace SurfaceSim
open Spec NoiseModel Blocks LayoutLib LogGates

theorem newStabLoop_ok {l : Layout} {label : String} (as : List String)
    (h : ∀ a ∈ as, ∃ g, l.param label a = .ok (.gate [("new_stab_gen", .strs g)])) (acc : Dict String (List String)) :
    ∃ D, newStabLoop l label as acc = .ok D ∧
      (∀ a, D.get? a = if a ∈ as then some (newGen l label a) else acc.get? a) ∧
      ∀ a, a ∈ D.keys ↔ a ∈ acc.keys ∨ a ∈ as := by
  induction as generalizing acc with
  | nil => exact ⟨acc, rfl, by simp, by simp⟩
  | cons a as ih =>
    obtain ⟨g, hg⟩ := h a (by simp)
    obtain ⟨D, h1, h2, h3⟩ := ih (fun b hb => h b (by simp [hb])) (acc.set a g)
    have hgen : newGen l label a = g := by
      unfold newGen gateAt
      rw [hg]
      simp [Dict.get?]
    refine ⟨D, ?_, fun b => ?_, fun b => ?_⟩
    · unfold newStabLoop gateAttrs
      rw [hg]
      simp only [newStabOf]
      exact h1
    · rw [h2, Dict.get?_set]
      by_cases hb : b ∈ as
      · simp [hb]
      · by_cases hab : a = b
        · subst hab
          simp [hgen]
        · simp [hb, hab, Ne.symm hab]
    · rw [h3, Dict.mem_keys_set, List.mem_cons]
      tauto

/-- The dictionary maps each ancilla to its stored new generator. -/
theorem newStabDict_grid {l : Layout} {L : List (String × Site × Kind)} {dirs : List (Site × String)} (hg : OnGrid l L dirs)
    {label : String} (h : ∀ a ∈ ancOf L, ∃ g, l.param label a = .ok (.gate [("new_stab_gen", .strs g)])) :
    ∃ D, newStabDict l label = .ok D ∧ (∀ a ∈ ancOfLayout l, D.get? a = some (newGen l label a)) ∧
      ∀ a, a ∈ D.keys ↔ a ∈ ancOfLayout l := by
  obtain ⟨D, h1, h2, h3⟩ := newStabLoop_ok (ancOf L) h []
  rw [ancOfLayout_grid hg]
  refine ⟨D, ?_, fun a ha => by rw [h2, if_pos ha], fun a => by rw [h3]; simp [Dict.keys]⟩
  unfold newStabDict ancQubits
  rw [hg.getQubits_anc]
  exact h1

/-- The form of the blocks of transversal gates. -/
theorem gateBlock_iff {cfg : Detectors.Config} {D : Dict String (List String)} {b : PyM MeasState Circuit} {m m' : MeasState}
    {s s' : Detectors.State cfg} {c : Circuit} :
    (PyM.bind (onDets (cfg := cfg) fun _ => Detectors.updateFromDict D) fun _ => onModel b) (m, s) = (.ok c, (m', s')) ↔
      Detectors.updateFromDict D s = (.ok (), s') ∧ b m = (.ok c, m') := by
  unfold PyM.bind onDets onModel
  cases hu : Detectors.updateFromDict D s with
  | mk r s1 =>
    cases r with
    | error e => simp [hu]
    | ok u =>
      cases hb : b m with
      | mk r' m1 =>
        simp only [hu, hb, Prod.mk.injEq, true_and]
        constructor
        · rintro ⟨rfl, rfl, rfl⟩
          exact ⟨rfl, rfl, rfl⟩
        · rintro ⟨rfl, rfl, rfl⟩
          exact ⟨rfl, rfl, rfl⟩

theorem newStabLoop_nodup {l : Layout} {label : String} {as : List String} {acc D : Dict String (List String)}
    (h : newStabLoop l label as acc = .ok D) (ha : acc.keys.Nodup) : D.keys.Nodup := by
  induction as generalizing acc with
  | nil =>
    unfold newStabLoop at h
    rw [← Except.ok.inj h]
    exact ha
  | cons a as ih =>
    unfold newStabLoop at h
    cases h1 : gateAttrs l label a with
    | error e => simp [h1] at h
    | ok attrs =>
      cases h2 : newStabOf attrs with
      | error e => simp [h1, h2] at h
      | ok g =>
        simp only [h1, h2] at h
        exact ih h (Dict.keys_nodup_set ha _ _)

end SurfaceSim
