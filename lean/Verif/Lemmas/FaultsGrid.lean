/-
Lines of data qubits on a grid, and which of them a fault inside a round can change.
-/
import Verif.Lemmas.FaultsMemory
import Verif.Lemmas.MemoryCodes
import Verif.Lemmas.TransBlocks
import Verif.Lemmas.Invariant

namespace SurfaceSim
open Spec NoiseModel Blocks LayoutLib

variable {nm : NoiseModel} {l : Layout} {L : List (String × Site × Kind)} {dirs : List (Site × String)} {J : Type}
  {A : Finset String} {V : Site → Kind → Prop} {κ : String × String → Bool} {K : Kind → Bool} {P : J → Site → Prop}

open Classical in
/-- The data qubits of a line, given by positions. -/
noncomputable def onLine (L : List (String × Site × Kind)) (P : Site → Prop) (q : String) : ZMod 2 :=
  if ∃ s, (q, s, Kind.data) ∈ L ∧ P s then 1 else 0

theorem onLine_ne (P : Site → Prop) (q : String) : onLine L P q ≠ 0 ↔ ∃ s, (q, s, Kind.data) ∈ L ∧ P s := by
  unfold onLine
  split <;> simp_all

open Classical in
theorem onLine_data (hg : OnGrid l L dirs) (P : Site → Prop) {q : String} {s : Site} (hq : (q, s, Kind.data) ∈ L) :
    onLine L P q = if P s then 1 else 0 := by
  have : (∃ s, (q, s, Kind.data) ∈ L ∧ P s) ↔ P s := by
    constructor
    · rintro ⟨s', hq', hp⟩
      rwa [(hg.unique hq hq').1]
    · exact fun h => ⟨s, hq, h⟩
  unfold onLine
  simp only [this]

theorem onLine_anc (hg : OnGrid l L dirs) (P : Site → Prop) {q : String} {s : Site} {k : Kind} (hq : (q, s, k) ∈ L)
    (hk : k ≠ .data) : onLine L P q = 0 := by
  by_contra h
  obtain ⟨s', hq', -⟩ := (onLine_ne P q).1 h
  exact hk (hg.unique hq hq').2

open Classical in
/-- What the gates of the ancilla at `s` collect from a line. -/
noncomputable def siteW (V : Site → Kind → Prop) (K : Kind → Bool) (p : Site → Prop) (steps : List (Kind → List Site)) (s : Site)
    (k : Kind) : ZMod 2 :=
  if K k then (steps.map fun st => ((st k).map fun σ => if V (s + σ) .data ∧ p (s + σ) then (1 : ZMod 2) else 0).sum).sum else 0

/-- Layers with at most one gate per ancilla. -/
def Single (L : List (String × Site × Kind)) (F : List (String × String)) (st : Kind → List Site) : Prop :=
  Layer L F st ∧ ∀ k, (st k).length ≤ 1

theorem Single.unique (hg : OnGrid l L dirs) {F : List (String × String)} {st : Kind → List Site} (h : Single L F st)
    {a d d' : String} (h1 : (a, d) ∈ F) (h2 : (a, d') ∈ F) : d = d' := by
  obtain ⟨s, k, σ, ha, -, hs, hq⟩ := (h.1.mem a d).1 h1
  obtain ⟨s', k', σ', ha', -, hs', hq'⟩ := (h.1.mem a d').1 h2
  obtain ⟨rfl, rfl⟩ := hg.unique ha ha'
  have hσ : σ = σ' := by
    have := h.2 k
    match hst : st k with
    | [] => rw [hst] at hs; simp at hs
    | [x] => rw [hst] at hs hs'; simp at hs hs'; rw [hs, hs']
    | _ :: _ :: _ => rw [hst] at this; simp at this
  subst hσ
  exact (hg.unique' hq hq').1

open Classical in
/-- What one layer collects. -/
theorem sum_layer (hg : OnGrid l L dirs) (hV : Sites L V) {F : List (String × String)} {st : Kind → List Site}
    (h : Single L F st) (hK : ∀ e ∈ F, ∀ s k, (e.1, s, k) ∈ L → κ e = K k) {a : String} {s : Site} {k : Kind}
    (ha : (a, s, k) ∈ L) (hk : k ≠ .data) (p : Site → Prop) :
    sumIf F (fun e => e.1 = a) (fun e => if κ e then onLine L p e.2 else 0) = siteW V K p [st] s k := by
  by_cases hex : ∃ d, (a, d) ∈ F
  · obtain ⟨d, hd⟩ := hex
    rw [sumIf_unique (p := fun e : String × String => e.1 = a) h.1.nodup hd rfl (fun b hb hba => by
      obtain ⟨b1, b2⟩ := b
      simp only at hba
      subst hba
      rw [h.unique hg hd hb])]
    obtain ⟨s', k', σ, ha', -, hs, hq⟩ := (h.1.mem a d).1 hd
    obtain ⟨rfl, rfl⟩ := hg.unique ha ha'
    have hst : st k = [σ] := by
      have := h.2 k
      match hst : st k with
      | [] => rw [hst] at hs; simp at hs
      | [x] => rw [hst] at hs; simp at hs; rw [hs]
      | _ :: _ :: _ => rw [hst] at this; simp at this
    unfold siteW
    rw [hK _ hd s k ha]
    simp [hst, onLine_data hg p hq, hV.valid _ _ _ hq]
  · rw [sumIf_none]
    · unfold siteW
      split
      · simp only [List.map_cons, List.map_nil, List.sum_cons, List.sum_nil, add_zero]
        symm
        apply List.sum_eq_zero
        intro x hx
        obtain ⟨σ, hσ, rfl⟩ := List.mem_map.1 hx
        rw [if_neg]
        rintro ⟨hv, -⟩
        obtain ⟨d, hd⟩ := hV.ex _ _ hv
        exact hex ⟨d, (h.1.mem a d).2 ⟨s, k, σ, ha, hk, hσ, hd⟩⟩
      · rfl
    · rintro ⟨b1, b2⟩ hb rfl
      exact hex ⟨b2, hb⟩

theorem siteW_nil (p : Site → Prop) (s : Site) (k : Kind) : siteW V K p [] s k = 0 := by
  unfold siteW; split <;> simp

theorem siteW_cons (p : Site → Prop) (st : Kind → List Site) (steps : List (Kind → List Site)) (s : Site) (k : Kind) :
    siteW V K p (st :: steps) s k = siteW V K p [st] s k + siteW V K p steps s k := by
  unfold siteW; split <;> simp

theorem weight_layers (hg : OnGrid l L dirs) (hV : Sites L V) {Fs : List (List (String × String))}
    {steps : List (Kind → List Site)} (h : List.Forall₂ (Single L) Fs steps)
    (hK : ∀ F ∈ Fs, ∀ e ∈ F, ∀ s k, (e.1, s, k) ∈ L → κ e = K k) {a : String} {s : Site} {k : Kind}
    (ha : (a, s, k) ∈ L) (hk : k ≠ .data) (p : Site → Prop) :
    hookWeight κ (onLine L p) Fs.flatten a = siteW V K p steps s k := by
  unfold hookWeight
  rw [onLine_anc hg p ha hk, zero_add]
  induction h with
  | nil => simp [sumIf, siteW_nil]
  | @cons F st Fs steps h1 h2 ih =>
    rw [List.flatten_cons, sumIf_append, siteW_cons, ih (fun F' hF' => hK F' (by simp [hF']))]
    have := sum_layer hg hV h1 (hK F (by simp)) ha hk p
    rw [← this]

/-- No gate lets one fault change two lines. -/
def SiteHooks (V : Site → Kind → Prop) (K : Kind → Bool) (P : J → Site → Prop) : List (Kind → List Site) → Prop
  | [] => True
  | st :: steps => (∀ s k, V s k → k ≠ .data → ∀ σ ∈ st k, V (s + σ) .data →
      AtMostOne fun j => siteW V K (P j) steps s k ≠ 0 ∨ P j (s + σ)) ∧ SiteHooks V K P steps

theorem hooks_append (hg : OnGrid l L dirs) {F B : List (String × String)} {st : Kind → List Site} (hF : Single L F st)
    {ln : J → String → ZMod 2} (hB : Hooks A κ ln B)
    (h : ∀ e ∈ F, AtMostOne fun j => hookWeight κ (ln j) B e.1 ≠ 0 ∨ ln j e.2 ≠ 0) : Hooks A κ ln (F ++ B) := by
  have key : ∀ G : List (String × String), G.Sublist F → Hooks A κ ln (G ++ B) := by
    intro G
    induction G with
    | nil => exact fun _ => hB
    | cons e G ih =>
      intro hG
      refine ⟨?_, ih (List.Sublist.trans (List.sublist_cons_self _ _) hG)⟩
      have hn := hF.1.nodup.sublist hG
      have : ∀ j, hookWeight κ (ln j) (G ++ B) e.1 = hookWeight κ (ln j) B e.1 := by
        intro j
        unfold hookWeight
        rw [sumIf_append, sumIf_none, zero_add]
        rintro ⟨b1, b2⟩ hb hbe
        obtain ⟨e1, e2⟩ := e
        simp only at hbe
        subst hbe
        have := hF.unique hg (hG.subset (List.mem_cons_of_mem _ hb)) (hG.subset (by simp : (b1, e2) ∈ (b1, e2) :: G))
        subst this
        exact (List.nodup_cons.1 hn).1 hb
      refine (h e (hG.subset (by simp))).mono fun j hj => ?_
      rw [← this j]
      exact hj
  exact key F (List.Sublist.refl _)

theorem hooks_layers (hg : OnGrid l L dirs) (hV : Sites L V) {Fs : List (List (String × String))}
    {steps : List (Kind → List Site)} (h : List.Forall₂ (Single L) Fs steps)
    (hK : ∀ F ∈ Fs, ∀ e ∈ F, ∀ s k, (e.1, s, k) ∈ L → κ e = K k) (hone : ∀ s, AtMostOne fun j => P j s)
    (hs : SiteHooks V K P steps) : Hooks A κ (fun j => onLine L (P j)) Fs.flatten := by
  induction h with
  | nil =>
    intro q _ i j hi hj
    obtain ⟨s, hq, hi⟩ := (onLine_ne _ _).1 hi
    obtain ⟨s', hq', hj⟩ := (onLine_ne _ _).1 hj
    rw [(hg.unique hq' hq).1] at hj
    exact hone s i j hi hj
  | @cons F st Fs steps h1 h2 ih =>
    rw [List.flatten_cons]
    refine hooks_append hg h1 (ih (fun F' hF' => hK F' (by simp [hF'])) hs.2) ?_
    rintro ⟨a, d⟩ he
    obtain ⟨s, k, σ, ha, hk, hσ, hd⟩ := (h1.1.mem a d).1 he
    refine (hs.1 s k (hV.valid _ _ _ ha) hk σ hσ (hV.valid _ _ _ hd)).mono fun j hj => ?_
    rcases hj with hj | hj
    · left
      rwa [← weight_layers hg hV h2 (fun F' hF' => hK F' (by simp [hF'])) ha hk]
    · right
      obtain ⟨s', hd', hp⟩ := (onLine_ne _ _).1 hj
      rwa [(hg.unique hd hd').1]

/-- Rounds given by layers of gates. -/
theorem roundPres_layers (hg : OnGrid l L dirs) (hV : Sites L V) (hkeys : ∀ q s k, (q, s, k) ∈ L → q ∈ nm.inds.keys)
    {τ : String → String → Bool} {S0 S1 S2 S3 : List String} {E0 E1 E2 : List (String × String)}
    (hc : Coherent (fun q => decide (q ∈ ancOf L)) τ S0 S1 S2 S3 E0 E1 E2) {reset : Bool} {b : Call1}
    (hb : Does nm.inds b (roundOps reset (ancOf L) (coherentOps S0 S1 S2 S3 E0 E1 E2)))
    {Fs : List (List (String × String))} {steps : List (Kind → List Site)} (h : List.Forall₂ (Single L) Fs steps)
    (hF : E0 ++ E1 ++ E2 = Fs.flatten) {β : String → Bool}
    (hK : ∀ F ∈ Fs, ∀ e ∈ F, ∀ s k, (e.1, s, k) ∈ L → differ τ β e = K k) (hone : ∀ s, AtMostOne fun j => P j s)
    (hs : SiteHooks V K P steps) (h0 : ∀ s k, V s k → k ≠ .data → ∀ j, siteW V K (P j) steps s k = 0) :
    RoundPres nm (ancOf L) nm.inds.keys.toFinset (fun j => fn β (onLine L (P j))) b := by
  have hops := hb.1
  have hd : ∀ e ∈ E0 ++ E1 ++ E2, e.1 ≠ e.2 := by
    intro e he
    have : decide (e.1 ∈ ancOf L) = true ∧ decide (e.2 ∈ ancOf L) = false := by
      simp only [List.mem_append] at he
      rcases he with (he | he) | he
      · exact ⟨(hc.e0 e he).1, (hc.e0 e he).2.1⟩
      · exact ⟨(hc.e1 e he).1, (hc.e1 e he).2.1⟩
      · exact ⟨(hc.e2 e he).1, (hc.e2 e he).2.1⟩
    intro heq
    rw [heq, this.2] at this
    simp at this
  have hco : ∀ o ∈ coherentOps S0 S1 S2 S3 E0 E1 E2,
      (∃ q ∈ S0 ++ S1 ++ S2 ++ S3, o = .h q) ∨ ∃ e ∈ E0 ++ E1 ++ E2, o = .cz e.1 e.2 := by
    intro o ho
    unfold coherentOps at ho
    simp only [List.mem_append, List.mem_map] at ho ⊢
    rcases ho with (((((⟨q, hq, rfl⟩ | ⟨q, hq, rfl⟩) | ⟨q, hq, rfl⟩) | ⟨q, hq, rfl⟩) | ⟨q, hq, rfl⟩) | ⟨q, hq, rfl⟩) | ⟨q, hq, rfl⟩ <;>
    first
      | exact Or.inl ⟨q, by tauto, rfl⟩
      | exact Or.inr ⟨q, by tauto, rfl⟩
  have hro : ∀ o ∈ roundOps reset (ancOf L) (coherentOps S0 S1 S2 S3 E0 E1 E2),
      (∃ q, o = .r q) ∨ (∃ q, o = .m q) ∨ (∃ q, o = .h q) ∨ ∃ e ∈ E0 ++ E1 ++ E2, o = .cz e.1 e.2 := by
    intro o ho
    unfold roundOps at ho
    simp only [List.mem_append] at ho
    rcases ho with (ho | ho) | ho
    · cases reset
      · simp at ho
      · simp only [if_true, List.mem_map] at ho
        obtain ⟨q, -, rfl⟩ := ho
        exact Or.inl ⟨q, rfl⟩
    · rcases hco o ho with ⟨q, -, rfl⟩ | he
      · exact Or.inr (Or.inr (Or.inl ⟨q, rfl⟩))
      · exact Or.inr (Or.inr (Or.inr (by simpa using he)))
    · obtain ⟨q, -, rfl⟩ := List.mem_map.1 ho
      exact Or.inr (Or.inl ⟨q, rfl⟩)
  have hin : ∀ o ∈ coherentOps S0 S1 S2 S3 E0 E1 E2,
      o ∈ roundOps reset (ancOf L) (coherentOps S0 S1 S2 S3 E0 E1 E2) := by
    intro o ho
    unfold roundOps
    simp only [List.mem_append]
    exact Or.inl (Or.inr ho)
  have hancA : ∀ q ∈ ancOf L, q ∈ nm.inds.keys.toFinset := by
    intro q hq
    obtain ⟨s, k, hq, -⟩ := mem_ancOf.1 hq
    simpa using hkeys _ _ _ hq
  have hanc : ∀ q ∈ ancOf L, ∃ s k, (q, s, k) ∈ L ∧ k ≠ .data := fun q hq => mem_ancOf.1 hq
  refine ⟨_, hb, ?_, ?_, measured_roundOps _ _ _ _ _ _ _ _ _, ?_⟩
  · intro o ho
    rcases hro o ho with ⟨q, rfl⟩ | ⟨q, rfl⟩ | ⟨q, rfl⟩ | ⟨e, he, rfl⟩
    · trivial
    · trivial
    · trivial
    · exact hd e he
  · intro o ho
    rcases hro o ho with ⟨q, rfl⟩ | ⟨q, rfl⟩ | ⟨q, rfl⟩ | ⟨e, he, rfl⟩ <;> simp
  · refine pres_round hc ?_ hancA ?_ ?_ ?_ ?_ reset
    · intro j q hq
      obtain ⟨s, k, hq, hk⟩ := hanc q hq
      exact onLine_anc hg _ hq hk
    · intro q hq
      have := hops (.h q) (hin _ (by
        unfold coherentOps
        simp only [List.mem_append, List.mem_map] at hq ⊢
        rcases hq with ((hq | hq) | hq) | hq
        · exact Or.inl (Or.inl (Or.inl (Or.inl (Or.inl (Or.inl ⟨q, hq, rfl⟩)))))
        · exact Or.inl (Or.inl (Or.inl (Or.inl (Or.inr ⟨q, hq, rfl⟩))))
        · exact Or.inl (Or.inl (Or.inr ⟨q, hq, rfl⟩))
        · exact Or.inr ⟨q, hq, rfl⟩)) q (by simp [Op.qubits])
      simpa using this
    · intro e he
      have := hops (.cz e.1 e.2) (hin _ (by
        unfold coherentOps
        simp only [List.mem_append, List.mem_map] at he ⊢
        rcases he with (hq | hq) | hq
        · exact Or.inl (Or.inl (Or.inl (Or.inl (Or.inl (Or.inr ⟨e, hq, rfl⟩)))))
        · exact Or.inl (Or.inl (Or.inl (Or.inr ⟨e, hq, rfl⟩)))
        · exact Or.inl (Or.inr ⟨e, hq, rfl⟩)))
      exact ⟨by simpa using this e.1 (by simp [Op.qubits]), by simpa using this e.2 (by simp [Op.qubits])⟩
    · rw [hF]
      exact hooks_layers hg hV h hK hone hs
    · intro j q hq
      obtain ⟨s, k, hq, hk⟩ := hanc q hq
      rw [hF, weight_layers hg hV h hK hq hk]
      exact h0 s k (hV.valid _ _ _ hq) hk j

end SurfaceSim
