/-
Memory experiments of rot_surface_code_xzzx_google.py with faults.
-/
import Verif.Lemmas.FaultsCodes
import Verif.Lemmas.GoogleMemory

namespace SurfaceSim
open Spec NoiseModel Blocks Experiments LayoutLib

variable {cfg : Detectors.Config} {nm : NoiseModel} {l : Layout} {J : Type} {A : Finset String} {rb : Bool}
  {data anc stabs log R : List String} {isX : String → String → Bool}

/-- Only the first operations. -/
theorem Pres.left {l m : List (Op String)} {W W' W'' : J → Func String} (h : Pres A (l ++ m) W W'')
    (hb : ∀ j, Func.backL m (W j) = W' j) : Pres A l W' W'' := by
  obtain ⟨h1, h2, h3, h4⟩ := h
  obtain rfl : W' = fun j => Func.backL m (W j) := funext fun j => (hb j).symm
  refine ⟨fun o ho => h1 o (by simp [ho]), ?_, ?_, fun j => by rw [← Func.backL_append]; exact h4 j⟩
  · intro j
    have := h2 j
    clear h1 h2 h3 h4
    induction l with
    | nil => trivial
    | cons o l ih =>
      obtain ⟨g1, g2⟩ := this
      rw [show l.append m = l ++ m from rfl, Func.backL_append] at g1
      exact ⟨g1, ih g2⟩
  · clear h1 h2 h4
    induction l with
    | nil => exact h3.here
    | cons o l ih =>
      obtain ⟨g1, g2, g3, g4⟩ := h3
      have e1 : ∀ w : Func String, Func.backL (o :: l.append m) w = Func.backL (o :: l) (Func.backL m w) :=
        fun w => Func.backL_append (o :: l) m w
      have e2 : ∀ w : Func String, Func.backL (l.append m) w = Func.backL l (Func.backL m w) :=
        fun w => Func.backL_append l m w
      simp only [e1] at g1
      simp only [e2] at g2 g3
      exact ⟨g1, g2, g3, ih g4⟩

/-- Gates X and Z change no parity. -/
theorem Pres.flips {l : List (Op String)} {W W' : J → Func String} (h : Pres A (withoutFlips l) W W')
    (hk : ∀ o ∈ l, ∀ q ∈ o.qubits, q ∈ A) : Pres A l W W' := by
  induction l generalizing W' with
  | nil => exact h
  | cons o l ih =>
    have hk' := fun o' ho' => hk o' (List.mem_cons_of_mem _ ho')
    by_cases hf : o.isFlip = true
    · have e : withoutFlips (o :: l) = withoutFlips l := by simp [withoutFlips, hf]
      rw [e] at h
      refine (ih h hk').cons (hk o (by simp)) ?_ ?_ h.here ?_ ?_ <;> cases o <;> simp [Op.isFlip] at hf <;>
        first | exact fun _ => trivial | exact fun _ => rfl | simp
    · have e : withoutFlips (o :: l) = o :: withoutFlips l := by simp [withoutFlips, hf]
      rw [e] at h
      obtain ⟨h1, h2, h3, h4⟩ := h
      have h' : Pres A (withoutFlips l) W (fun j => Func.backL (withoutFlips l) (W j)) :=
        ⟨fun o' ho' => h1 o' (by simp [ho']), fun j => (h2 j).2, h3.2.2.2, fun _ => rfl⟩
      refine (ih h' hk').cons (hk o (by simp)) (fun j => (h2 j).1) (fun j => h4 j) ?_ h3.2.1 h3.2.2.1
      have := h3.1
      simpa only [h4] using this

/-- Coherent parts of rounds whose ancillas have types. -/
theorem pres_coherent_typed {L : List (String × Site × Kind)} {dirs : List (Site × String)} {V : Site → Kind → Prop}
    {P : J → Site → Prop} (hg : OnGrid l L dirs) (hr : CanRun nm l) (hV : Sites L V)
    {τ : String → String → Bool} {S0 S1 S2 S3 : List String} {E0 E1 E2 : List (String × String)}
    (hc : Coherent (fun q => decide (q ∈ ancOf L)) τ S0 S1 S2 S3 E0 E1 E2)
    (hS : ∀ q ∈ S0 ++ S1 ++ S2 ++ S3, ∃ s k, (q, s, k) ∈ L)
    {Fs : List (List (String × String))} {steps : List (Kind → List Site)} (h : List.Forall₂ (Single L) Fs steps)
    (hF : E0 ++ E1 ++ E2 = Fs.flatten) (hdir : ∀ st ∈ steps, ∀ k, ∀ σ ∈ st k, ∃ dir, (σ, dir) ∈ dirs)
    {R : Bool → List String} {rb : Bool}
    (hty : ∀ rb, ∀ x ∈ stabsOf L rb, ∀ d ∈ l.getNeighbors [x] none, τ x d = decide (d ∈ R rb))
    (hcompl : ∀ d ∈ dataOf L, decide (d ∈ R (!rb)) = !decide (d ∈ R rb))
    (hone : ∀ s, AtMostOne fun j => P j s)
    (hs : SiteHooks V (spreads rb) P steps) (h0 : ∀ s k, V s k → k ≠ .data → ∀ j, siteW V (spreads rb) (P j) steps s k = 0) :
    Pres nm.inds.keys.toFinset (coherentOps S0 S1 S2 S3 E0 E1 E2)
      (fun j => fn (fun d => decide (d ∈ R rb)) (onLine L (P j))) (fun j => fn (fun d => decide (d ∈ R rb)) (onLine L (P j))) := by
  have hkey : ∀ q s k, (q, s, k) ∈ L → q ∈ nm.inds.keys.toFinset :=
    fun q s k hq => by simpa using (CanRun.usable hr hg).known q s k hq
  have hanc : ∀ q ∈ ancOf L, ∃ s k, (q, s, k) ∈ L ∧ k ≠ .data := fun q hq => mem_ancOf.1 hq
  have hK := differ_typed hg h hdir hty hcompl
  refine pres_coherent hc ?_ ?_ ?_ ?_ ?_
  · intro j q hq
    obtain ⟨s, k, hq, hk⟩ := hanc q (by simpa using hq)
    exact onLine_anc hg _ hq hk
  · intro q hq
    obtain ⟨s, k, hq⟩ := hS q hq
    exact hkey _ _ _ hq
  · intro e he
    rw [hF] at he
    obtain ⟨F, hFm, he'⟩ := List.mem_flatten.1 he
    obtain ⟨st, hl⟩ : ∃ st, Single L F st := by
      clear hs h0 hF hdir hK he he'
      induction h with
      | nil => simp at hFm
      | @cons F' st Fs steps h1 h2 ih =>
        rcases List.mem_cons.1 hFm with rfl | hFm
        · exact ⟨st, h1⟩
        · exact ih hFm
    obtain ⟨s, k, σ, ha, -, -, hd⟩ := (hl.1.mem e.1 e.2).1 he'
    exact ⟨hkey _ _ _ ha, hkey _ _ _ hd⟩
  · rw [hF]
    exact hooks_layers hg hV h hK hone hs
  · intro j q hq
    obtain ⟨s, k, hq, hk⟩ := hanc q (by simpa using hq)
    rw [hF, weight_layers hg hV h hK hq hk]
    exact h0 s k (hV.valid _ _ _ hq) hk j

variable {a : Args} {dx dz : Int}

section
variable (h : IsRot a dx dz l) (hdx : 2 ≤ dx) (hdz : 2 ≤ dz) (hr : CanRun nm l) (o : SetOrder) (rb : Bool) (n : Nat)
include h hdx hdz hr

/-- Steps a to h of a round, with the Hadamards on the ancillas. -/
theorem IsRot.google_coherent_pres :
    Pres nm.inds.keys.toFinset (withoutFlips (googleOps o l (rotEntries a dx dz)) ++
        (o.ord (Blocks.setOf (ancOf (rotEntries a dx dz)))).map Op.h)
      (fun j : Fin n => fn (fun d => decide (d ∈ xzzxR l (rotEntries a dx dz) rb)) (onLine (rotEntries a dx dz) (rotLine rb j)))
      (fun j => fn (fun d => decide (d ∈ xzzxR l (rotEntries a dx dz) rb)) (onLine (rotEntries a dx dz) (rotLine rb j))) := by
  rw [withoutFlips_googleOps]
  refine pres_coherent_typed h.grid hr (rot_sites a dx dz) (rot_google_coherent h o) ?_ h.single_layers ?_ rotSteps_dirs
    (R := fun rb => xzzxR l (rotEntries a dx dz) rb) (rb := rb) (h.xzzx_type hdx hdz) (h.xzzx_compl hdx hdz rb)
    (atMostOne_rot rb n) (rot_hooks rb n) (fun s k hv hk j => rot_zero rb s k hv hk j)
  · intro q hq
    simp only [List.mem_append, mem_ord, mem_setOf] at hq
    rcases hq with (((hq | hq) | hq) | hq) | hq
    · obtain ⟨s, hq⟩ := mem_xOf.1 hq; exact ⟨_, _, hq⟩
    · obtain ⟨s, hq⟩ := mem_zOf.1 hq; exact ⟨_, _, hq⟩
    · obtain ⟨s, hq⟩ := mem_dataOf.1 hq; exact ⟨_, _, hq⟩
    · obtain ⟨s, hq⟩ := mem_dataOf.1 hq; exact ⟨_, _, hq⟩
    · obtain ⟨s, k, hq, -⟩ := mem_ancOf.1 hq; exact ⟨_, _, hq⟩
  · simp only [List.flatten_cons, List.flatten_nil, List.append_nil, List.append_assoc]

/-- Steps a to h of a round. -/
theorem IsRot.googleOps_pres :
    Pres nm.inds.keys.toFinset (googleOps o l (rotEntries a dx dz))
      (fun j : Fin n => fn (fun d => decide (d ∈ xzzxR l (rotEntries a dx dz) rb)) (onLine (rotEntries a dx dz) (rotLine rb j)))
      (fun j => fn (fun d => decide (d ∈ xzzxR l (rotEntries a dx dz) rb)) (onLine (rotEntries a dx dz) (rotLine rb j))) := by
  have hp := h.google_coherent_pres hdx hdz hr o rb n
  have hkeys : ∀ q ∈ dataOf (rotEntries a dx dz) ++ ancOf (rotEntries a dx dz), q ∈ nm.inds.keys.toFinset := by
    have hu := CanRun.usable hr h.grid
    intro q hq
    rcases List.mem_append.1 hq with hq | hq
    · obtain ⟨s, hq⟩ := mem_dataOf.1 hq; simpa using hu.known _ _ _ hq
    · obtain ⟨s, k, hq, -⟩ := mem_ancOf.1 hq; simpa using hu.known _ _ _ hq
  refine Pres.flips (hp.left ?_) fun op ho q hq => hkeys q (googleOps_qubits h o op ho q hq)
  have hn : (o.ord (Blocks.setOf (ancOf (rotEntries a dx dz)))).Nodup := (ord_nodup o).2 (setOf_nodup _)
  have hb := pres_h (A := nm.inds.keys.toFinset) (β := fun d => decide (d ∈ xzzxR l (rotEntries a dx dz) rb))
    (u := fun j : Fin n => onLine (rotEntries a dx dz) (rotLine rb j)) hn
    (fun q hq => hkeys q (List.mem_append_right _ (mem_setOf.1 ((mem_ord o).1 hq)))) ?_
  · intro j
    rw [hb.back j]
    refine fn_congr fun q hq => ?_
    have hq' : q ∉ o.ord (Blocks.setOf (ancOf (rotEntries a dx dz))) := by
      intro hm
      obtain ⟨s, k, hm, hk⟩ := mem_ancOf.1 (mem_setOf.1 ((mem_ord o).1 hm))
      exact hq (onLine_anc h.grid _ hm hk)
    simp [hq']
  · intro q hq
    have := hp.here q hq
    simpa only [blind_fn] using this

omit hdx hdz hr in
theorem googleOps_distinct : ∀ op ∈ googleOps o l (rotEntries a dx dz), op.Distinct := by
  intro op ho
  by_cases hf : op.isFlip = true
  · cases op <;> simp [Op.isFlip] at hf <;> trivial
  · refine google_distinct h o op ?_
    unfold roundOps
    simp only [List.mem_append]
    refine Or.inl (Or.inr (Or.inl ?_))
    unfold withoutFlips
    exact List.mem_filter.2 ⟨ho, by simpa using hf⟩

/-- A round. -/
theorem IsRot.google_pres : RoundPres nm (ancOf (rotEntries a dx dz)) nm.inds.keys.toFinset
    (fun j : Fin n => fn (fun d => decide (d ∈ xzzxR l (rotEntries a dx dz) rb)) (onLine (rotEntries a dx dz) (rotLine rb j)))
    (sumGen (googleIter o nm l)) := by
  have hg := h.grid
  have hd := google_does hr.faithful hg (CanRun.usable hr hg) o
  have hp := h.google_coherent_pres hdx hdz hr o rb n
  have hu : ∀ q ∈ nm.inds.keys.toFinset, AtMostOne fun j : Fin n => onLine (rotEntries a dx dz) (rotLine rb j) q ≠ 0 := by
    intro q hq
    have := hp.here q hq
    simpa only [blind_fn] using this
  have hanc : ∀ q ∈ ancOf (rotEntries a dx dz), q ∈ nm.inds.keys.toFinset ∧ ∀ j : Fin n,
      onLine (rotEntries a dx dz) (rotLine rb j) q = 0 := by
    intro q hq
    obtain ⟨s, k, hq, hk⟩ := mem_ancOf.1 hq
    exact ⟨by simpa using (CanRun.usable hr hg).known _ _ _ hq, fun j => onLine_anc hg _ hq hk⟩
  refine ⟨_, hd, ?_, ?_, ?_, ?_⟩
  · intro op ho
    rcases List.mem_append.1 ho with ho | ho
    · exact googleOps_distinct h o op ho
    · simp only [List.mem_append, List.mem_map] at ho
      rcases ho with ((⟨y, hy, rfl⟩ | ⟨y, hy, rfl⟩) | ⟨y, hy, rfl⟩) | ⟨y, hy, rfl⟩ <;> trivial
  · intro op ho
    rcases List.mem_append.1 ho with ho | ho
    · have := quiet_googleOps o l _ op ho
      cases op <;> simp [quiet] at this ⊢
    · simp only [List.mem_append, List.mem_map] at ho
      rcases ho with ((⟨y, hy, rfl⟩ | ⟨y, hy, rfl⟩) | ⟨y, hy, rfl⟩) | ⟨y, hy, rfl⟩ <;> simp
  · simp only [measured_append, google_measured h o, measured_m]
    rw [measured_map_none _ _ (by simp), measured_map_none _ _ (by simp), measured_map_none _ _ (by simp)]
    simp
  · refine Pres.flips ?_ fun op ho q hq => by simpa using hd.1 op ho q hq
    simp only [withoutFlips_append, withoutFlips_x]
    simp only [withoutFlips_map _ Op.h (fun _ => rfl), withoutFlips_map _ Op.m (fun _ => rfl),
      withoutFlips_map _ Op.r (fun _ => rfl), List.append_nil]
    have p2 := pres_m_zero (A := nm.inds.keys.toFinset) (β := fun d => decide (d ∈ xzzxR l (rotEntries a dx dz) rb))
      (fun q hq => (hanc q hq).1) hu (fun j q hq => (hanc q hq).2 j)
    have p3 := pres_r_zero (A := nm.inds.keys.toFinset) (β := fun d => decide (d ∈ xzzxR l (rotEntries a dx dz) rb))
      (fun q hq => (hanc q hq).1) hu (fun j q hq => (hanc q hq).2 j)
    have := hp.append (p2.append p3)
    simpa only [List.append_assoc] using this

/-- The last round, with the measurement of the data qubits. -/
theorem IsRot.googleFinal_pres : Pres nm.inds.keys.toFinset (googleOps o l (rotEntries a dx dz) ++
      ((o.ord (union (Blocks.setOf (ancOf (rotEntries a dx dz))) (xzzxR l (rotEntries a dx dz) rb))).map Op.h ++
        (ancOf (rotEntries a dx dz)).map Op.m ++ (dataOf (rotEntries a dx dz)).map Op.m))
    (fun j : Fin n => recF (dataOf (rotEntries a dx dz)) (onLine (rotEntries a dx dz) (rotLine rb j)))
    (fun j => fn (fun d => decide (d ∈ xzzxR l (rotEntries a dx dz) rb)) (onLine (rotEntries a dx dz) (rotLine rb j))) := by
  have hg := h.grid
  have hp := h.googleOps_pres hdx hdz hr o rb n
  have hk : ∀ q s k, (q, s, k) ∈ rotEntries a dx dz → q ∈ nm.inds.keys.toFinset :=
    fun q s k hq => by simpa using (CanRun.usable hr hg).known q s k hq
  have hu : ∀ q ∈ nm.inds.keys.toFinset, AtMostOne fun j : Fin n => onLine (rotEntries a dx dz) (rotLine rb j) q ≠ 0 := by
    intro q hq
    have := hp.here q hq
    simpa only [blind_fn] using this
  have hanc : ∀ q ∈ ancOf (rotEntries a dx dz), q ∈ nm.inds.keys.toFinset ∧ ∀ j : Fin n,
      onLine (rotEntries a dx dz) (rotLine rb j) q = 0 := by
    intro q hq
    obtain ⟨s, k, hq, hk'⟩ := mem_ancOf.1 hq
    exact ⟨hk _ _ _ hq, fun j => onLine_anc hg _ hq hk'⟩
  have p1 := pres_meas (A := nm.inds.keys.toFinset) (b := fun _ => false)
    (ln := fun j : Fin n => onLine (rotEntries a dx dz) (rotLine rb j)) (D := dataOf (rotEntries a dx dz)) (H := [])
    (fun q hq => by obtain ⟨s, hq⟩ := mem_dataOf.1 hq; exact hk _ _ _ hq) (at_data hg).nodup (by simp) (by simp) hu (by simp)
    (fun j q hq => by obtain ⟨s, hq, -⟩ := (onLine_ne _ _).1 hq; exact mem_dataOf.2 ⟨s, hq⟩)
  have p2 := pres_m_zero (A := nm.inds.keys.toFinset) (β := fun _ => false)
      (fun q hq => (hanc q hq).1) hu (fun j q hq => (hanc q hq).2 j)
  have hn : (o.ord (union (Blocks.setOf (ancOf (rotEntries a dx dz))) (xzzxR l (rotEntries a dx dz) rb))).Nodup :=
    (ord_nodup o).2 (union_nodup _ (setOf_nodup _))
  have p3 := pres_h (A := nm.inds.keys.toFinset) (β := fun _ => false)
    (u := fun j : Fin n => onLine (rotEntries a dx dz) (rotLine rb j)) hn
    (fun q hq => by
      rcases mem_union.1 ((mem_ord o).1 hq) with hq | hq
      · exact (hanc q (mem_setOf.1 hq)).1
      · obtain ⟨s, hq⟩ := mem_dataOf.1 (xzzxR_data hg hq); exact hk _ _ _ hq) hu
  have e3 : ∀ j : Fin n, fn (fun q => xor false (decide (q ∈ o.ord (union (Blocks.setOf (ancOf (rotEntries a dx dz)))
        (xzzxR l (rotEntries a dx dz) rb))))) (onLine (rotEntries a dx dz) (rotLine rb j)) =
      fn (fun d => decide (d ∈ xzzxR l (rotEntries a dx dz) rb)) (onLine (rotEntries a dx dz) (rotLine rb j)) := by
    intro j
    refine fn_congr fun q hq => ?_
    have hq' : q ∉ ancOf (rotEntries a dx dz) := fun hm => hq ((hanc q hm).2 j)
    simp [mem_ord, mem_union, mem_setOf, hq']
  simp only [e3] at p3
  have := hp.append (p3.append (p2.append p1))
  simpa only [List.append_assoc, List.map_nil, List.nil_append] using this

end

/-- A round of rot_surface_code_xzzx_google.py is a round with the resets of the ancillas at its end. -/
theorem googleRound_eq (hm : MemCode nm l rb data anc stabs log isX R) (hcode : l.code = "rotated_surface_code") (o : SetOrder)
    {sel : List String} (hsel : ∀ a ∈ sel, a ∈ anc) (s : Sim cfg) :
    googleRound o nm l (some sel) s = qecRound (googleIter o nm l) l true (some sel) s := by
  unfold googleRound qecRound
  rw [if_neg (by simp [hcode])]
  show (PyM.bind _ _) s = (PyM.bind _ _) s
  unfold PyM.bind
  cases hx : onModel (sumGen (googleIter o nm l)) s with
  | mk r s1 =>
    cases r with
    | error e => rfl
    | ok c =>
      simp only
      rw [PyM.bind_ok (show PyM.ofExcept (checkAncDetectors l (some sel)) s1 = (.ok sel, s1) by
        rw [checkAnc_ok hm hsel]; rfl)]

/-- The family whose rounds are those of rot_surface_code_xzzx_google.py. -/
def googleFam (cfg : Detectors.Config) (o : SetOrder) (nm : NoiseModel) : Family cfg :=
  { xzzxPipelined cfg o nm with round := fun l reset sel => qecRound (googleIter o nm l) l reset sel }

theorem googleMemoryRound_eq (hm : MemCode nm l rb data anc stabs log isX R) (hcode : l.code = "rotated_surface_code")
    (o : SetOrder) {sel : List String} (hsel : ∀ a ∈ sel, a ∈ anc) (gauge : Bool) :
    memoryRound (googleFam cfg o nm) o l rb true sel gauge = googleMemoryRound o nm l rb sel gauge := by
  funext r s
  unfold memoryRound googleMemoryRound
  by_cases h0 : r = 0 ∧ (!gauge) = true
  · rw [if_pos h0, if_pos h0]
    have hf : PyM.ofExcept (firstDets o [l] rb sel) s = (.ok (o.ord (inter (setOf sel) stabs)), s) := by
      rw [firstDets_ok hm]; rfl
    rw [PyM.bind_ok hf, PyM.bind_ok hf]
    exact (googleRound_eq hm hcode o (fun a ha => hsel a (mem_first.1 ha).1) s).symm
  · rw [if_neg h0, if_neg h0]
    exact (googleRound_eq hm hcode o hsel s).symm

open Classical in
/-- The detectors of the last round, from the outcomes of the ancillas. -/
def lastRound (cfg : Detectors.Config) (anc sel : List String) (r : Nat) (recs : List (ZMod 2)) : List (ZMod 2) :=
  cfg.anc.map fun a => if a ∈ sel ∧ a ∈ anc then (outs (histOf anc (r + 1)) recs a).getD 0 0 +
    (if 1 ≤ r then (outs (histOf anc (r + 1)) recs a).getD 1 0 else 0) else 0

open Classical in
/-- The last round with the measurement of the data qubits. -/
theorem googleFinal_runs (hm : MemCode nm l rb data anc stabs log isX R) (hcode : l.code = "rotated_surface_code")
    (hcfg : ConfigOk cfg) (hsub : ∀ a ∈ anc, a ∈ cfg.anc) (hdata : ∀ d ∈ data, d ∉ cfg.anc) (o : SetOrder)
    {M : List (Op String)} (hM : Does nm.inds (sumGen (googleFinalIter o nm l rb)) M) (hMd : ∀ op ∈ M, op.Distinct)
    (hMm : measured M = anc ++ data) {sel : List String} (hsel : ∀ a ∈ sel, a ∈ anc) {r : Nat} {s : Sim cfg}
    (ht : s.1.Tracks nm.inds (histOf anc r)) (hdet : DetAt anc r s.2) :
    ∃ c s' T, googleFinal o nm l (some sel) rb s = (.ok c, s') ∧ PairsOk c ∧ Quiet T ∧
      ops c = M.map (Op.rename (ind nm.inds)) ++ T ∧
      ∀ (ρ : Nat → ZMod 2) (st : FState Nat) (v : String → ZMod 2) (recs0 : List (ZMod 2)),
        st.recs = (data.map v).reverse ++ recs0 → recs0.length = (histOf anc (r + 1)).length →
        run ρ st T = { st with
          dets := ((cfg.anc.filter (· ∈ stabs)).map fun a => if a ∈ sel ∧ a ∈ anc then
            ((l.getNeighbors [a] none).map v).sum + (outs (histOf anc (r + 1)) recs0 a).getD 0 0 else 0).reverse ++
              ((lastRound cfg anc sel r recs0).reverse ++ st.dets)
          obs := (0, (log.map v).sum) :: st.obs } := by
  obtain ⟨c, s1, e1, he, ho, t1⟩ := hM.2 _ _ ht
  rw [hMm, ← List.append_assoc, ← histOf_succ] at t1
  have p1 : PairsOk c := pairsOk_of_ops hm.can.inj he ho hM.1 hMd
  have hca : ∀ a ∈ anc, (histOf anc (r + 1) ++ data).count a = r + 1 := by
    intro a ha
    rw [List.count_append, count_histOf hm.ancN ha, List.count_eq_zero.2 (fun h => hm.disj h ha), Nat.add_zero]
  have hfind : ∀ a ∈ anc, Props.FindsAt s1.measTarget (lookOf s1) a (min 3 (r + 1)) := by
    intro a ha k hk1 hk2
    exact (lookOf_spec t1 (hm.known (List.mem_append_right _ ha)) hk1 (by rw [hca a ha]; omega)).1
  obtain ⟨c', d', e2, p2, hd, f2⟩ := DetAt.round hcfg hdet s1.measTarget (lookOf s1) true sel
    (fun a ha => hsub a (hsel a ha)) hfind
  have o1 := p1.concat p2
  obtain ⟨c4, s4, h4, p4, hs4, T, hT, f4⟩ := finish_values hm hcfg hsub hdata (s := (s1, d')) t1 o1.2 hd sel
    (fun a ha => hsub a (hsel a ha)) true (fun a ha => hm.sup a (hm.stabsSub a ha))
  have hTq : Quiet T := by
    obtain ⟨T', q1, q2⟩ := finishMeas_tail o1.2.1 h4
    rw [hT] at q2
    rw [List.append_cancel_left q2]
    exact quiet_ops q1
  have hq : Quiet (ops c') := quiet_ops fun i hi => Or.inl (buildFromAnc_gates e2 i hi)
  refine ⟨c4, s4, ops c' ++ T, ?_, p4, ?_, ?_, ?_⟩
  · unfold googleFinal
    rw [if_neg (by simp [hcode])]
    rw [PyM.bind_ok (show PyM.ofExcept (checkAncDetectors l (some sel)) s = (.ok sel, s) by
        rw [checkAnc_ok hm hsel]; rfl)]
    rw [PyM.bind_ok (onModel_ok e1)]
    rw [PyM.bind_ok (onDets_ok (s := (s1, s.2)) (f := fun getRec => Detectors.buildFromAnc getRec true (some sel)) e2)]
    exact h4
  · intro op hop
    rcases List.mem_append.1 hop with h | h
    · exact hq op h
    · exact hTq op h
  · rw [hT, o1.1, ho, List.append_assoc]
  · intro ρ st v recs0 g1 g2
    have key := f4 ρ (run ρ st (ops c')) v recs0
    rw [f2] at key
    rw [run_append, f2, key g1 g2]
    have hlen : st.recs.length = (histOf anc (r + 1) ++ data).length := by
      rw [g1]; simp [g2]; omega
    have L : ∀ a ∈ anc, ∀ k, 1 ≤ k → k ≤ r + 1 → lookback st.recs (lookOf s1 a k) =
        (outs (histOf anc (r + 1)) recs0 a).getD (k - 1) 0 := by
      intro a ha k hk1 hk2
      rw [(lookOf_spec t1 (hm.known (List.mem_append_right _ ha)) hk1 (by rw [hca a ha]; omega)).2 _ hlen, g1,
        outs_append hm.dataN, if_neg (fun h => hm.disj h ha)]
    have e : lastRound cfg anc sel r recs0 = cfg.anc.map fun a => if a ∈ sel ∧ a ∈ anc then
        parity st.recs (lookOf s1 a 1 :: (if true = true then (if 1 ≤ r then [lookOf s1 a 2] else [])
          else (if 2 ≤ r then [lookOf s1 a 3] else []))) else 0 := by
      unfold lastRound
      refine List.map_congr_left fun a _ => ?_
      split
      · rename_i hs
        unfold parity
        rw [List.map_cons, List.sum_cons, L a hs.2 1 (by omega) (by omega)]
        by_cases h' : 1 ≤ r
        · simp [h', L a hs.2 2 (by omega) (by omega)]
        · simp [h']
      · rfl
    rw [e]
    simp

/-- Fewer faults than lines are seen by the detectors or do not change the observable, and this is exact. -/
theorem google_detects [Fintype J] (hm : MemCode nm l rb data anc stabs log isX R) (hcode : l.code = "rotated_surface_code")
    (hcfg : ConfigOk cfg) (hsub : ∀ a ∈ anc, a ∈ cfg.anc) (hdata : ∀ d ∈ data, d ∉ cfg.anc) {dataInit : Dict String Int}
    (o : SetOrder) (hi : InitEff nm data anc R dataInit (sumGen (initXzzxIter o nm l dataInit rb)))
    {ln : J → String → ZMod 2} (hln : Lines l data stabs log ln)
    (hb : RoundPres nm anc nm.inds.keys.toFinset (fun j => fn (fun d => decide (d ∈ R)) (ln j)) (sumGen (googleIter o nm l)))
    {M : List (Op String)} (hM : Does nm.inds (sumGen (googleFinalIter o nm l rb)) (M ++ data.map Op.m))
    (hMd : ∀ op ∈ M, op.Distinct) (hMl : Loud M) (hMm : measured M = anc)
    (hp : Pres nm.inds.keys.toFinset (M ++ data.map Op.m) (fun j => recF data (ln j))
      (fun j => fn (fun d => decide (d ∈ R)) (ln j))) (ancDetectors : Option (List String))
    (hsel : ∀ sel, ancDetectors = some sel → (∀ a ∈ sel, a ∈ anc) ∧ ∀ a ∈ stabs, a ∈ sel) (gauge : Bool) (r : Nat)
    (s : Sim cfg) :
    ∃ c s', googleMemory o nm l (r + 1 : Nat) dataInit rb ancDetectors gauge s = (.ok c, s') ∧ Detects (Fintype.card J) c ∧
      ∀ S : List String, S.Nodup → (∀ q ∈ S, q ∈ data) →
        (∀ a ∈ stabs, ((l.getNeighbors [a] none).map fun q => if q ∈ S then (1 : ZMod 2) else 0).sum = 0) →
        (log.map fun q => if q ∈ S then (1 : ZMod 2) else 0).sum = 1 → Unseen S.length c := by
  classical
  set sel := ancDetectors.getD anc with hseld
  have hsel' : ∀ a ∈ sel, a ∈ anc := by
    cases ancDetectors with
    | none => exact fun a ha => ha
    | some x => exact (hsel x rfl).1
  have hsel2 : ∀ a ∈ stabs, a ∈ sel := by
    cases ancDetectors with
    | none => exact hm.stabsSub
    | some x => exact (hsel x rfl).2
  have hround : ∀ a ∈ stabs, ∀ t, a ∈ roundSel o stabs sel gauge t := by
    intro a ha t
    unfold roundSel
    split
    · exact mem_first.2 ⟨hsel2 a ha, ha⟩
    · exact hsel2 a ha
  have hmeas : measured (M ++ data.map Op.m) = anc ++ data := by
    rw [measured_append, hMm, measured_m]
  have hdist : ∀ op ∈ M ++ data.map Op.m, op.Distinct := by
    intro op ho
    rcases List.mem_append.1 ho with ho | ho
    · exact hMd op ho
    · obtain ⟨q, -, rfl⟩ := List.mem_map.1 ho; trivial
  have hloud : Loud (M ++ data.map Op.m) := loud_append hMl (by
    intro op ho
    obtain ⟨q, -, rfl⟩ := List.mem_map.1 ho
    simp)
  have hnd : (anc ++ data).Nodup := List.nodup_append.2 ⟨hm.ancN, hm.dataN, fun x hx y hy e => hm.disj hy (e ▸ hx)⟩
  obtain ⟨e0, h0, p0, o0⟩ := start_ok hm s
  obtain ⟨c1, s1, h1, i1⟩ := fInv_init (A := nm.inds.keys.toFinset) hm hcfg hsub hi (fun q hq => by simpa using hq)
    (fun q _ => hln.one q) (roundSel o stabs sel gauge) true p0 o0
    (s := (MeasState.fresh nm.inds, Detectors.State.fresh cfg)) (MeasState.tracks_fresh _) DetAt.new
  obtain ⟨e2, s2, h2, i2⟩ := fInv_rounds (fam := googleFam cfg o nm) hm hcfg hsub (fun _ => rfl) hb o hsel' gauge r _ _ _ i1
  rw [googleMemoryRound_eq hm hcode o hsel'] at h2
  simp only [Nat.zero_add] at i2
  have hselr : ∀ a ∈ roundSel o stabs sel gauge r, a ∈ anc := fun a ha => hsel' a (roundSel_sub a ha)
  obtain ⟨c3, s3, T, h3, p3, hTq, hT, f3⟩ := googleFinal_runs hm hcode hcfg hsub hdata o hM hdist hmeas hselr i2.tracks i2.det
  obtain ⟨TS, hTS, hTSq⟩ := hTq.lift (ind nm.inds)
  have o3 := i2.even.concat p3
  obtain ⟨X, hX, ⟨W0, hX0⟩, hXf⟩ := i2.body
  refine ⟨e2.concat c3, s3, ?_, ?_, ?_⟩
  · unfold googleMemory
    rw [if_neg (by omega)]
    have k0 : PyM.ofExcept (ancDefault [l] ancDetectors) s = (.ok sel, s) := by
      cases ancDetectors with
      | some x => rfl
      | none =>
        unfold ancDefault allAnc ancQubits
        simp only [mapExcept, hm.qAnc]
        simp [hseld]
    rw [PyM.bind_ok k0, PyM.bind_ok h0]
    have k1 : addTo e0 (initQubitsXzzx o nm l dataInit rb) (MeasState.fresh nm.inds, Detectors.State.fresh cfg) =
        (.ok (e0.concat c1), s1) := by
      unfold addTo initQubitsXzzx
      rw [PyM.bind_ok h1]
      rfl
    rw [PyM.bind_ok k1]
    cases r with
    | zero =>
      rw [if_pos (by simp)]
      cases h2
      rw [PyM.bind_ok (show PyM.ofExcept (firstSel o [l] rb sel gauge) s1 = (.ok (roundSel o stabs sel gauge 0), s1) by
          unfold firstSel roundSel
          cases gauge
          · rw [if_neg (by simp), firstDets_ok hm]; rfl
          · rw [if_pos (by simp)]; rfl)]
      unfold addTo
      rw [PyM.bind_ok h3]
      rfl
    | succ r =>
      rw [if_neg (by omega)]
      rw [Int.toNat_natCast, Nat.add_sub_cancel, List.range_eq_range', PyM.bind_ok h2]
      unfold addTo
      unfold roundSel at h3
      rw [if_neg (by omega)] at h3
      rw [PyM.bind_ok h3]
      rfl
  · have hops : ops (e2.concat c3) = (X ++ ((M ++ data.map Op.m) ++ TS)).map (Op.rename (ind nm.inds)) := by
      rw [o3.1, hT, hX, hTS]
      simp only [List.map_append]
    have hpres : Pres nm.inds.keys.toFinset (X ++ ((M ++ data.map Op.m) ++ TS)) (fun j => recF data (ln j)) W0 :=
      hX0.append (hp.append (pres_quiet hTSq (by
        intro q _ i j hi
        exact (hi ⟨rfl, rfl⟩).elim)))
    refine detects_of_record (cfg := cfg) (reset := true) (n := r + 1) hm hsub hops hln hpres hround (fun a ha => hround a ha r) ?_
    intro P L k hf ρ st g1 g2 g3
    obtain ⟨L1, L', k1, k', P', rfl, rfl, hf1, hf'⟩ := hf.append
    obtain ⟨L2, L3, k2, k3, P'', rfl, rfl, hf2, hf3⟩ := hf'.append
    obtain ⟨O, j1, j2, j3, j4⟩ := hXf P L1 k1 hf1 ρ st g1 g2 g3
    obtain ⟨⟨vv, q1, q2⟩, q3, q4⟩ := hf2.records hloud ρ (run ρ st L1)
    rw [hmeas] at q1
    obtain ⟨f, rfl⟩ := exists_outcomes hnd vv q1
    rw [List.map_append, List.reverse_append, List.append_assoc] at q2
    obtain ⟨w1, w2, w3⟩ := hTSq.values hf3 (ind nm.inds) ρ (run ρ (run ρ st L1) L2)
    rw [← hTS, f3 ρ _ f _ q2 (by rw [histOf_succ]; simp [j1]; omega)] at w2 w3
    simp only [run_append]
    let O' : String → Nat → ZMod 2 := fun a t => if t < r then O a t else f a
    have hO : ∀ a, ∀ t < r, O' a t = O a t := fun a t ht => by simp [O', ht]
    have hO2 : ∀ a, O' a r = f a := fun a => by simp [O']
    have houts : ∀ a ∈ anc, outs (histOf anc (r + 1)) ((anc.map f).reverse ++ (run ρ st L1).recs) a =
        f a :: ((List.range r).map (O a)).reverse := by
      intro a ha
      rw [histOf_succ, outs_append hm.ancN, if_pos ha, j3 a ha]
    refine ⟨O', f, fun ln => val_recF data ln _ f _ (by rw [w1]; exact q2), ?_, ?_⟩
    · rw [w2]
      simp only
      rw [q3, j4, List.reverse_append, List.reverse_append, List.reverse_reverse, List.reverse_reverse, List.reverse_reverse,
        List.range_succ, List.flatMap_append]
      congr 1
      · congr 1
        · refine flatMap_congr_from fun t ht => ?_
          unfold roundChange
          refine List.map_congr_left fun a _ => ?_
          split
          · exact changeAt_congr fun k hk => (hO a k (by have := List.mem_range.1 ht; omega)).symm
          · rfl
        · simp only [List.flatMap_cons, List.flatMap_nil, List.append_nil]
          unfold lastRound roundChange
          refine List.map_congr_left fun a _ => ?_
          split
          · rename_i hs
            rw [houts a hs.2]
            unfold changeAt
            rw [hO2]
            by_cases h' : 1 ≤ r
            · obtain ⟨k, rfl⟩ : ∃ k, r = k + 1 := ⟨r - 1, by omega⟩
              simp only [h', if_true, List.getD_cons_zero, List.getD_cons_succ]
              rw [List.range_succ, List.map_append, List.reverse_append]
              simp [hO a k (by omega)]
            · simp [h']
          · rfl
      · refine List.map_congr_left fun a _ => ?_
        split
        · rename_i hs
          rw [houts a hs.2]
          simp [hO2]
        · rfl
    · rw [w3]
      simp only
      rw [q4, j2]
      rfl
  · intro S hS hSd hSs hSl
    have inj : ∀ a b, a ∈ nm.inds.keys → b ∈ nm.inds.keys → ind nm.inds a = ind nm.inds b → a = b :=
      fun a b ha hb => hm.can.inj a ha b hb
    have hkd : ∀ q ∈ data, q ∈ nm.inds.keys := fun q hq => hM.1 (.m q) (by simp [hq]) q (by simp [Op.qubits])
    refine unseen_of (A := (X ++ M).map (Op.rename (ind nm.inds))) (T := T) (ι := ind nm.inds) (data := data)
      (log := log) (N := (histOf anc (r + 1)).length)
      (G := fun recs0 v => ((cfg.anc.filter (· ∈ stabs)).map fun a => if a ∈ roundSel o stabs sel gauge r ∧ a ∈ anc then
            ((l.getNeighbors [a] none).map v).sum + (outs (histOf anc (r + 1)) recs0 a).getD 0 0 else 0).reverse ++
            (lastRound cfg anc (roundSel o stabs sel gauge r) r recs0).reverse)
      ?_ (fun a ha b hb => inj a b (hkd a ha) (hkd b hb)) hm.dataN hS hSd ?_ ?_ ?_ hSl
    · rw [o3.1, hT, hX]
      simp only [List.map_append, List.map_map, List.append_assoc]
      rfl
    · intro ρ st v recs0 g1 g2
      rw [f3 ρ st v recs0 g1 g2]
      exact ⟨by rw [List.append_assoc], rfl⟩
    · intro ρ ζ
      have hap := agree_pullback (ind nm.inds) (· ∈ nm.inds.keys) (FState.start ζ)
      have hkX : ∀ o ∈ X ++ M, ∀ q ∈ o.qubits, q ∈ nm.inds.keys := by
        intro o ho q hq
        rcases List.mem_append.1 ho with ho | ho
        · simpa using hX0.known o ho q hq
        · exact hM.1 o (by simp [ho]) q hq
      have a2 := hap.run inj ρ _ hkX
      obtain ⟨O, j1, -⟩ := hXf _ _ _ (Spec.Faulty.noFaults (fun _ _ => False) X) ρ (pullback (ind nm.inds) (FState.start ζ)) rfl rfl rfl
      obtain ⟨⟨v, q1, q2⟩, -, -⟩ := (Spec.Faulty.noFaults (fun _ _ => False) M).records hMl ρ
        (run ρ (pullback (ind nm.inds) (FState.start ζ)) X)
      rw [a2.recs, run_append, q2, List.length_append, j1, q1, hMm, histOf_succ, List.length_append, Nat.add_comm]
    · intro recs0 v
      congr 2
      refine List.map_congr_left fun a ha => ?_
      have hast : a ∈ stabs := by simpa using (List.mem_filter.1 ha).2
      have hs : ((l.getNeighbors [a] none).map fun q => v q + if q ∈ S then 1 else 0).sum =
          ((l.getNeighbors [a] none).map v).sum := by
        rw [sum_add_map, hSs a hast, add_zero]
      rw [hs]

theorem IsRot.detects_google (h : IsRot a dx dz l) (hnum : NumCoords l) (hdx : 2 ≤ dx) (hdz : 2 ≤ dz) (hr : CanRun nm l)
    {dataInit : Dict String Int} {ancDetectors : Option (List String)}
    (hargs : MemoryArgs cfg nm l dataInit ancDetectors) (o : SetOrder) (rb gauge : Bool)
    (hsel : SelectsBasis l rb ancDetectors) (r : Nat) (s : Sim cfg) :
    ∃ c s', googleMemory o nm l (r + 1 : Nat) dataInit rb ancDetectors gauge s = (.ok c, s') ∧
      Detects (lineCount dx dz rb) c ∧ Unseen (lineCount dx dz rb) c := by
  have hg := h.grid
  have hc := h.codeGrid (dx := dx) (dz := dz) (by omega) (by omega)
  have hlog := logicalSupport_of h.log h.logX h.logZ rb
  have hR : ∀ q ∈ xzzxR l (rotEntries a dx dz) rb, q ∈ dataOf (rotEntries a dx dz) := fun _ hq => xzzxR_data h.grid hq
  have hsub : ∀ d ∈ (if rb then logXList a dx dz else logZList a dz), d ∈ dataOf (rotEntries a dx dz) := by
    cases rb
    · exact hc.subZ
    · exact hc.subX
  have hm := memCode_grid hg hr hnum hlog hsub hR (h.xzzx_type hdx hdz rb)
  obtain ⟨ha1, ha2⟩ := hargs.anc _ hg.getQubits_anc
  have hst : l.getQubits [("role", .str "anc"), ("stab_type", .str (if rb then "x_type" else "z_type"))] =
      .ok (stabsOf (rotEntries a dx dz) rb) := by
    have := stabQubits_grid hg rb
    unfold stabQubits stabType at this
    cases rb <;> exact this
  have hM := googleFinal_does hr.faithful hg (CanRun.usable hr hg) o rb hR
  rw [← List.append_assoc] at hM
  have hp := h.googleFinal_pres hdx hdz hr o rb (lineCount dx dz rb)
  rw [← List.append_assoc] at hp
  have hmem : ∀ op ∈ googleOps o l (rotEntries a dx dz) ++ ((o.ord (union (Blocks.setOf (ancOf (rotEntries a dx dz)))
      (xzzxR l (rotEntries a dx dz) rb))).map Op.h ++ (ancOf (rotEntries a dx dz)).map Op.m),
      op ∈ googleOps o l (rotEntries a dx dz) ∨ (∃ q, op = .h q) ∨ ∃ q, op = .m q := by
    intro op ho
    simp only [List.mem_append, List.mem_map] at ho
    rcases ho with ho | ⟨q, -, rfl⟩ | ⟨q, -, rfl⟩
    · exact Or.inl ho
    · exact Or.inr (Or.inl ⟨q, rfl⟩)
    · exact Or.inr (Or.inr ⟨q, rfl⟩)
  have := google_detects (cfg := cfg) hm h.code hargs.config ha1 (hargs.data _ hg.getQubits_data) o
    (initEff_xzzx hr hg o hargs.init h.code rb hR) (h.lines (by omega) (by omega) rb)
    (h.google_pres hdx hdz hr o rb _) hM ?_ ?_ ?_ hp ancDetectors (fun sel he => ⟨ha2 sel he, hsel sel he _ hst⟩) gauge r s
  · rw [Fintype.card_fin] at this
    obtain ⟨c, s', h', hd, hn⟩ := this
    refine ⟨c, s', h', hd, ?_⟩
    have hnx : (logXList a dx dz).Nodup := logXList_nodup _ _ (by omega)
    have hnz : (logZList a dz).Nodup := logZList_nodup _ _
    have hodd := rot_logs_overlap hg (dx := dx) (dz := dz) (by omega) (by omega)
    rw [show lineCount dx dz rb = (if rb then logZList a dz else logXList a dx dz).length by
      cases rb <;> simp [logXList, logZList, lineCount]]
    refine hn _ ?_ ?_ ?_ ?_
    · cases rb <;> assumption
    · cases rb
      · exact hc.subX
      · exact hc.subZ
    · intro x hx
      rw [sum_indicator_overlap, overlap_comm (hg.neighbors_nodup x) (by cases rb <;> assumption), ZMod.natCast_eq_zero_iff_even]
      cases rb
      · obtain ⟨s, hs⟩ := mem_zOf.1 hx
        exact hc.logX x s hs
      · obtain ⟨s, hs⟩ := mem_xOf.1 hx
        exact hc.logZ x s hs
    · rw [sum_indicator_overlap]
      cases rb
      · simp [hodd.2]
      · simp [hodd.1]
  · intro op ho
    rcases hmem op ho with ho | ⟨q, rfl⟩ | ⟨q, rfl⟩
    · exact googleOps_distinct h o op ho
    · trivial
    · trivial
  · intro op ho
    rcases hmem op ho with ho | ⟨q, rfl⟩ | ⟨q, rfl⟩
    · have := quiet_googleOps o l _ op ho
      cases op <;> simp [quiet] at this ⊢
    · simp
    · simp
  · rw [measured_append, measured_append, google_measured h o, measured_m, measured_map_none _ _ (by simp)]
    simp

end SurfaceSim
