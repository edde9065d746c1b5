/-
Objects made from a generated layout: qubit indices, ancilla coordinates, detectors.
-/
import Verif.Lemmas.FoldTotal
import Verif.Props.RotLayout
import Verif.Props.UnrotLayout
import Verif.Spec.Memory

namespace SurfaceSim
open Spec NoiseModel Blocks LayoutLib

/-! ### the constructor of `Detectors` -/

theorem sameSet_iff {a b : List String} : Detectors.sameSet a b = true ↔ ∀ x, x ∈ a ↔ x ∈ b := by
  unfold Detectors.sameSet
  simp only [Bool.and_eq_true, List.all_eq_true, decide_eq_true_eq]
  exact ⟨fun h x => ⟨h.1 x, h.2 x⟩, fun h => ⟨fun x => (h x).1, fun x => (h x).2⟩⟩

theorem config_make_some {anc : List String} {frame : String} {coords : Dict String (List Rat)} {cfg : Detectors.Config} :
    Detectors.Config.make anc frame (some coords) = .ok cfg ↔
      Detectors.Frame.parse frame = .ok cfg.frame ∧ cfg.anc = anc ∧ cfg.coords = coords ∧ (∀ x, x ∈ coords.keys ↔ x ∈ anc) ∧
        coords ≠ [] ∧ ∃ m, ∀ kv ∈ coords, kv.2.length = m := by
  unfold Detectors.Config.make
  cases hf : Detectors.Frame.parse frame with
  | error e => simp
  | ok f =>
    simp only [Option.getD_some]
    by_cases hs : Detectors.sameSet coords.keys anc = true
    · rw [hs]
      simp only [Bool.not_true, Bool.false_eq_true, if_false]
      have hs' := sameSet_iff.1 hs
      cases hc : coords with
      | nil => simp
      | cons kv rest =>
        obtain ⟨q, c⟩ := kv
        simp only
        rw [hc] at hs'
        by_cases hr : (rest.any fun kv => kv.2.length ≠ c.length) = true
        · rw [if_pos hr]
          constructor
          · intro h; cases h
          · rintro ⟨-, -, -, -, -, m, hm⟩
            exfalso
            obtain ⟨kv, h1, h2⟩ := List.any_eq_true.1 hr
            rw [decide_eq_true_eq] at h2
            exact h2 ((hm kv (by simp [h1])).trans (hm (q, c) (by simp)).symm)
        · rw [if_neg hr]
          constructor
          · intro h
            simp only [Except.ok.injEq] at h
            subst h
            refine ⟨rfl, rfl, rfl, hs', by simp, c.length, fun kv hkv => ?_⟩
            rcases List.mem_cons.1 hkv with rfl | hkv
            · rfl
            · by_contra hne
              exact hr (List.any_eq_true.2 ⟨kv, hkv, by simpa using hne⟩)
          · rintro ⟨h1, h2, h3, -⟩
            simp only [Except.ok.injEq] at h1 ⊢
            obtain ⟨x, y, z⟩ := cfg
            simp only at h1 h2 h3
            rw [h1, h2, h3]
    · rw [Bool.not_eq_true] at hs
      rw [hs]
      simp only [Bool.not_false, if_true]
      constructor
      · intro h; cases h
      · rintro ⟨-, -, -, h, -⟩
        rw [sameSet_iff.2 h] at hs
        cases hs

theorem config_make_none (anc : List String) (frame : String) :
    Detectors.Config.make anc frame none = Detectors.Config.make anc frame (some (anc.map fun a => (a, []))) := rfl

theorem frame_parse {frame : String} :
    (∃ f, Detectors.Frame.parse frame = .ok f) ↔ frame ∈ ["pre-gate", "post-gate", "gate-independent"] := by
  unfold Detectors.Frame.parse
  constructor
  · rintro ⟨f, h⟩
    split at h <;> simp at h ⊢
  · intro h
    simp only [List.mem_cons, List.not_mem_nil, or_false] at h
    rcases h with rfl | rfl | rfl <;> exact ⟨_, rfl⟩

/-! ### indices and coordinates -/

theorem mapExcept_getE {α : Type} {d : Dict String α} (hd : d.keys.Nodup) : mapExcept d.keys d.getE = .ok (d.map Prod.snd) := by
  have : ∀ e : Dict String α, (∀ kv ∈ e, d.get? kv.1 = some kv.2) → mapExcept e.keys d.getE = .ok (e.map Prod.snd) := by
    intro e
    induction e with
    | nil => intro _; rfl
    | cons kv e ih =>
      intro h
      have h1 : d.getE kv.1 = .ok kv.2 := (Dict.getE_ok_iff _ _ _).2 (h kv (by simp))
      have h2 := ih fun kv' hkv => h kv' (by simp [hkv])
      simp only [Dict.keys, List.map_cons, mapExcept] at h2 ⊢
      rw [h1, h2]
  exact this d fun kv hkv => Dict.get?_of_mem hd hkv

/-- Non-negative qubit indices as stim uses them. -/
theorem inds_ok {l : Layout} (hinv : l.Inv) {V : List Int} (hV : l.getInds l.graph.nodes.keys = .ok V) (h0 : ∀ v ∈ V, 0 ≤ v)
    (hn : V.Nodup) : ∃ inds : Dict String Nat, inds.map (fun kv => (kv.1, (kv.2 : Int))) = l.qubitInds ∧
      inds.keys = l.graph.nodes.keys ∧ IndsInj inds := by
  have hk : l.qubitInds.keys = l.graph.nodes.keys := hinv.indKeys
  have hkn : l.qubitInds.keys.Nodup := hk ▸ hinv.nodup
  unfold Layout.getInds at hV
  rw [← hk, mapExcept_getE hkn, Except.ok.injEq] at hV
  subst hV
  have hpos : ∀ kv ∈ l.qubitInds, 0 ≤ kv.2 := fun kv hkv => h0 kv.2 (List.mem_map_of_mem hkv)
  refine ⟨l.qubitInds.map fun kv => (kv.1, kv.2.toNat), ?_, ?_, ?_⟩
  · rw [List.map_map]
    conv_rhs => rw [← List.map_id l.qubitInds]
    refine List.map_congr_left fun kv hkv => ?_
    simp only [Function.comp_apply, id_eq, Int.toNat_of_nonneg (hpos kv hkv)]
  · rw [← hk]
    simp [Dict.keys, Function.comp_def]
  · have keys : Dict.keys (l.qubitInds.map fun kv => (kv.1, kv.2.toNat)) = l.qubitInds.keys := by
      simp [Dict.keys, Function.comp_def]
    have hi : ∀ kv ∈ l.qubitInds, ind (l.qubitInds.map fun kv => (kv.1, kv.2.toNat)) kv.1 = kv.2.toNat := by
      intro kv hkv
      unfold ind
      rw [Dict.get?_of_mem (v := kv.2.toNat) (by rw [keys]; exact hkn) (List.mem_map.2 ⟨kv, hkv, rfl⟩)]
      rfl
    intro a ha b hb he
    rw [keys] at ha hb
    obtain ⟨ka, hka, rfl⟩ := List.mem_map.1 ha
    obtain ⟨kb, hkb, rfl⟩ := List.mem_map.1 hb
    rw [hi ka hka, hi kb hkb] at he
    have : ka.2 = kb.2 := by
      have := hpos ka hka
      have := hpos kb hkb
      omega
    rw [List.inj_on_of_nodup_map hn hka hkb this]

theorem coordOf_iff {l : Layout} (hl : l.Inv) {q : String} (hq : q ∈ l.graph.nodes.keys) (c : List Rat) :
    l.coordOf q = .ok c ↔ l.param "coords" q = .ok (.coords c) := by
  unfold Layout.coordOf
  constructor
  · intro h
    cases hg : l.qubitCoords.getE q with
    | error e => rw [hg] at h; cases h
    | ok v =>
      rw [hg] at h
      simp only at h
      cases v <;> simp only [Layout.asCoords, Except.ok.injEq, reduceCtorEq] at h
      subst h
      exact (Layout.get?_qubitCoords hl hq _).1 ((Dict.getE_ok_iff _ _ _).1 hg)
  · intro h
    rw [(Dict.getE_ok_iff _ _ _).2 ((Layout.get?_qubitCoords hl hq c).2 h)]
    rfl

/-- `anc_coords()` of a layout. -/
theorem ancCoords_ok {l : Layout} (hl : l.Inv) {anc : List String} (ha : l.getQubits [("role", .str "anc")] = .ok anc)
    (hk : ∀ q ∈ anc, q ∈ l.graph.nodes.keys) (d : Dict String (List Rat)) :
    l.ancCoords = .ok d ↔ d.keys = anc ∧ ∀ kv ∈ d, l.param "coords" kv.1 = .ok (.coords kv.2) := by
  unfold Layout.ancCoords
  rw [ha]
  simp only
  constructor
  · intro h
    cases hc : l.getCoords anc with
    | error e => rw [hc] at h; cases h
    | ok cs =>
      rw [hc] at h
      simp only [Except.ok.injEq] at h
      subst h
      unfold Layout.getCoords at hc
      split at hc
      · cases hc
      · have h1 := (mapExcept_ok_iff _ _ _).1 hc
        refine ⟨?_, fun kv hkv => ?_⟩
        · unfold Dict.keys
          rw [List.map_fst_zip (by rw [h1.length_eq])]
        · have h2 : l.coordOf kv.1 = .ok kv.2 := (List.forall₂_iff_zip.1 h1).2 hkv
          exact (coordOf_iff hl (hk _ (List.of_mem_zip hkv).1) _).1 h2
  · rintro ⟨h1, h2⟩
    have hco : ∀ kv ∈ d, l.coordOf kv.1 = .ok kv.2 := fun kv hkv =>
      (coordOf_iff hl (hk _ (h1 ▸ List.mem_map_of_mem hkv)) _).2 (h2 kv hkv)
    have hss : Layout.strictSuperset anc l.qubitCoords.keys = false := by
      unfold Layout.strictSuperset
      rw [Bool.and_eq_false_iff]
      right
      rw [List.any_eq_false]
      intro e he
      obtain ⟨kv, hkv, rfl⟩ := List.mem_map.1 (h1 ▸ he)
      have := (Layout.get?_qubitCoords hl (hk _ he) _).2 (h2 kv hkv)
      have hm : kv.1 ∈ l.qubitCoords.keys := by rw [← Dict.get?_isSome_iff, this]; rfl
      simpa using hm
    have hm : mapExcept anc l.coordOf = .ok (d.map Prod.snd) := by
      rw [mapExcept_ok_iff, ← h1]
      unfold Dict.keys
      rw [List.forall₂_map_left_iff, List.forall₂_map_right_iff, List.forall₂_same]
      exact hco
    unfold Layout.getCoords
    rw [hss]
    simp only [Bool.false_eq_true, if_false]
    rw [hm]
    simp only [Except.ok.injEq]
    rw [← h1]
    unfold Dict.keys
    clear * -
    induction d with
    | nil => rfl
    | cons kv d ih => simp [ih]

end SurfaceSim
