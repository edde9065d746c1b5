/-
The transversal S gate of rotated codes.
-/
import Verif.Lemmas.RotLoops
import Verif.Lemmas.UnrotS
import Verif.Lemmas.RotRounds

namespace SurfaceSim
open Spec NoiseModel Blocks LayoutLib LogGates

/-- The site after `i` jumps `v` and `j` jumps `h`. -/
def steps (p v h : Site) (i j : Nat) : Site := (p.1 + i * v.1 + j * h.1, p.2 + i * v.2 + j * h.2)

/-- A shift as a vector. -/
def vec (s : Site) : Vec := ((s.1 : Rat), (s.2 : Rat))

/-- The positions that the loops visit. -/
structure Frame (D : Dict Vec String) (L : List (String × Site × Kind)) (o : Vec) (p v h : Site) (A B : Nat) : Prop where
  get : ∀ i j q, D.get? (place o (steps p v h i j)) = some q ↔ (q, steps p v h i j, Kind.data) ∈ L
  rect : ∀ i j, (∃ q, (q, steps p v h i j, Kind.data) ∈ L) ↔ i < A ∧ j < B
  inj : ∀ i j i' j', steps p v h i j = steps p v h i' j' → i = i' ∧ j = j'
  cover : ∀ d s, (d, s, Kind.data) ∈ L → ∃ i j, s = steps p v h i j

theorem walk_steps (D : Dict Vec String) (o : Vec) (p v h : Site) :
    Walk D.get? (vec h) (vec v) (fun m => place o (steps p v h m m)) (fun i j => D.get? (place o (steps p v h i j))) := by
  refine ⟨fun m => ?_, fun m k => ?_, fun m k => ?_, fun m => rfl⟩
  · unfold place steps vec
    ext <;> simp <;> ring
  · congr 1
    unfold place steps vec
    ext <;> simp <;> ring
  · congr 1
    unfold place steps vec
    ext <;> simp <;> ring

section
variable {D : Dict Vec String} {L : List (String × Site × Kind)} {o : Vec} {p v h : Site} {A B : Nat} {l : Layout}
  {dirs : List (Site × String)}

theorem tau_ne (i j : Nat) : ¬ ((tau i j).1 = i ∧ (tau i j).2 = j) := by
  unfold tau
  split <;> simp <;> omega

/-- The tables computed by the loops. -/
theorem Frame.tables (F : Frame D L o p v h A B) (hg : OnGrid l L dirs) (hAB : B ≤ A + 1) (hB : 2 ≤ B) {q : String}
    (hq : (q, p, Kind.data) ∈ L) {n : Nat} {cz : Dict (Option String) (Option String)} {sg : Dict (Option String) String}
    (hcz : czSteps D.get? (vec h) (vec v) n (place o p) 0 [] = .ok cz)
    (hsg : rotSGates l D.get? (dataOf L) q (place o p) (vec h) (vec v) = .ok sg) :
    ∃ (P : String → Option String) (G : String → String), (∀ d ∈ dataOf L, cz.get? (some d) = some (P d)) ∧ (∀ d ∈ dataOf L, sg.get? (some d) = some (G d)) ∧
      (∀ d ∈ dataOf L, G d = "I" ∨ G d = "S" ∨ G d = "S_DAG") ∧ (∀ d ∈ dataOf L, P d ≠ some d) ∧
      ∀ i j d, (d, steps p v h i j, Kind.data) ∈ L → G d = rotGate (B - 1) i j ∧
        ∀ e, P d = some e ↔ (e, steps p v h (tau i j).1 (tau i j).2, Kind.data) ∈ L := by
  have W := walk_steps D o p v h
  have hp0 : steps p v h 0 0 = p := by simp [steps]
  have hrect : ∀ i j, (∃ q, D.get? (place o (steps p v h i j)) = some q) ↔ i < A ∧ j < B := by
    intro i j
    rw [← F.rect]
    simp only [F.get]
  have hinj : ∀ i j i' j' q, D.get? (place o (steps p v h i j)) = some q → D.get? (place o (steps p v h i' j')) = some q →
      i = i' ∧ j = j' := by
    intro i j i' j' q h1 h2
    rw [F.get] at h1 h2
    exact F.inj _ _ _ _ (hg.unique h1 h2).1
  have h1 := czSteps_ok W hrect hinj hAB n (m := 0) (k := 0) (cz := []) (r := cz) (by simpa only [hp0] using hcz)
    (fun i j q _ hD => by unfold Done at hD; split at hD <;> omega)
  have h2 := rotSGates_ok (l := l) (data := dataOf L) (q := q) (p := place o p) W hrect hinj hAB hB (by simp only [hp0])
    (by simp only [hp0]; have := (F.get 0 0 q).2 (by rw [hp0]; exact hq); rwa [hp0] at this) hsg
  refine ⟨fun d => (cz.get? (some d)).getD none, fun d => (sg.get? (some d)).getD "I", fun d hd => ?_, fun d hd => ?_,
    fun d hd => ?_, fun d hd => ?_, fun i j d hd => ⟨?_, fun e => ?_⟩⟩
  · obtain ⟨s, hs⟩ := mem_dataOf.1 hd
    obtain ⟨i, j, rfl⟩ := F.cover d s hs
    simp only [h1 i j d ((F.get _ _ _).2 hs), Option.getD_some]
  · obtain ⟨s, hs⟩ := mem_dataOf.1 hd
    obtain ⟨i, j, rfl⟩ := F.cover d s hs
    simp only [h2 i j d ((F.get _ _ _).2 hs) hd, Option.getD_some]
  · obtain ⟨s, hs⟩ := mem_dataOf.1 hd
    obtain ⟨i, j, rfl⟩ := F.cover d s hs
    simp only [h2 i j d ((F.get _ _ _).2 hs) hd, Option.getD_some]
    unfold rotGate
    split
    · split <;> simp
    · split <;> simp
  · obtain ⟨s, hs⟩ := mem_dataOf.1 hd
    obtain ⟨i, j, rfl⟩ := F.cover d s hs
    simp only [h1 i j d ((F.get _ _ _).2 hs), Option.getD_some]
    intro hc
    rw [F.get] at hc
    exact tau_ne i j (F.inj _ _ _ _ (hg.unique hc hs).1)
  · simp only [h2 i j d ((F.get _ _ _).2 hd) (mem_dataOf.2 ⟨_, hd⟩), Option.getD_some]
  · simp only [h1 i j d ((F.get _ _ _).2 hd), Option.getD_some, F.get]

end

section
variable {l : Layout} {a : Args} {dx dz : Int} {D : Dict Vec String} {o : Vec}

/-- The dictionary of the positions. -/
theorem rot_labelDict (hp : Placed l (rotEntries a dx dz) (names rotDirs) o) :
    ∃ D, labelDict id l = .ok D ∧ ∀ s q, D.get? (place o s) = some q ↔ ∃ k, (q, s, k) ∈ rotEntries a dx dz := by
  obtain ⟨D, h1, h2⟩ := hp.labelDict_get (f := id) fun e _ e' _ h => place_inj _ h
  refine ⟨D, h1, fun s q => ?_⟩
  rw [h2]
  constructor
  · rintro ⟨s', k, hk, he⟩
    rw [place_inj _ he]
    exact ⟨k, hk⟩
  · rintro ⟨k, hk⟩
    exact ⟨s, k, hk, rfl⟩

set_option maxHeartbeats 1000000 in
/-- The three ways to place the loops. -/
theorem rot_corner_cases {r c : Int} {shx shz : Site} {n1 n2 : String} (hx : (shx, n1) ∈ names rotDirs)
    (hz : (shz, n2) ∈ names rotDirs) (gq : RotSite dx (dx + 1) r c .data)
    (gx : RotSite dx (dx + 1) (r + shx.1) (c + shx.2) .x) (gz : RotSite dx (dx + 1) (r + shz.1) (c + shz.2) .z)
    (hquad : ∀ r' c', RotSite dx (dx + 1) r' c' .data → ∃ i j, (r', c') =
      steps (r, c) ((shx + shz).2, -(shx + shz).1) (shx + shz) i j) :
    2 ≤ dx ∧ (((r, c) = (1, 1) ∧ shx = (-1, 1) ∧ shx + shz = (0, 2)) ∨
      ((r, c) = (1, 2 * dx + 1) ∧ shx = (1, -1) ∧ shx + shz = (2, 0)) ∨
      ((r, c) = (2 * dx - 1, 1) ∧ shx = (-1, 1) ∧ shx + shz = (-2, 0) ∧ dx % 2 = 1)) := by
  simp only [RotSite] at gq gx gz hquad
  obtain ⟨i1, j1, e1⟩ := hquad 1 1 (by omega)
  obtain ⟨i2, j2, e2⟩ := hquad (2 * dx - 1) (2 * dx + 1) (by omega)
  obtain ⟨i3, j3, e3⟩ := hquad 1 (2 * dx + 1) (by omega)
  obtain ⟨i4, j4, e4⟩ := hquad (2 * dx - 1) 1 (by omega)
  rcases mem_rotNames.1 hx with ⟨rfl, -⟩ | ⟨rfl, -⟩ | ⟨rfl, -⟩ | ⟨rfl, -⟩ <;>
  rcases mem_rotNames.1 hz with ⟨rfl, -⟩ | ⟨rfl, -⟩ | ⟨rfl, -⟩ | ⟨rfl, -⟩ <;>
  · simp only [steps, Prod.mk_add_mk, Prod.mk.injEq, and_true, true_and] at e1 e2 e3 e4 gx gz ⊢
    omega

/-- A frame from the sites of the data qubits. -/
theorem rot_frame (hp : Placed l (rotEntries a dx dz) (names rotDirs) o)
    (hD : ∀ s q, D.get? (place o s) = some q ↔ ∃ k, (q, s, k) ∈ rotEntries a dx dz) {p v h : Site} {A B : Nat}
    (hodd : ∀ i j, (steps p v h i j).1 % 2 = 1)
    (hrect : ∀ i j, RotSite dx dz (steps p v h i j).1 (steps p v h i j).2 .data ↔ i < A ∧ j < B)
    (hinj : ∀ i j i' j', steps p v h i j = steps p v h i' j' → i = i' ∧ j = j')
    (hcover : ∀ r c, RotSite dx dz r c .data → ∃ i j, (r, c) = steps p v h i j) :
    Frame D (rotEntries a dx dz) o p v h A B := by
  refine ⟨fun i j q => ?_, fun i j => ?_, hinj, fun d s hd => ?_⟩
  · rw [hD]
    constructor
    · rintro ⟨k, hk⟩
      have g := rotEntry (r := (steps p v h i j).1) (c := (steps p v h i j).2) hk
      cases k with
      | data => exact hk
      | x => simp only [RotSite] at g; have := hodd i j; omega
      | z => simp only [RotSite] at g; have := hodd i j; omega
    · exact fun h => ⟨_, h⟩
  · rw [← hrect]
    constructor
    · rintro ⟨q, hq⟩
      exact rotEntry (r := (steps p v h i j).1) (c := (steps p v h i j).2) hq
    · exact fun h => exists_rotEntry h
  · obtain ⟨r, c⟩ := s
    exact hcover r c (rotEntry hd)

end

/-- The site of the partner. -/
def tauSite (s : Site) : Site := if s.2 ≤ s.1 then (s.2, s.1 + 2) else (s.2 - 2, s.1)

/-- The gate on a data qubit. -/
def gateSite (dx : Int) (s : Site) : String :=
  if s.2 = s.1 + 2 then (if s.1 = 2 * dx - 1 then "S_DAG" else "S") else if s.1 = 1 ∧ s.2 = 1 then "S" else "I"

/-- The tables stored by `set_trans_s` for rotated codes. -/
structure RSTable (L : List (String × Site × Kind)) (dx : Int) (P : String → Option String) (G : String → String)
    (sw : String → String) : Prop where
  swap : ∀ d s, (d, s, Kind.data) ∈ L → (sw d, tauSite s, Kind.data) ∈ L
  pair : ∀ d ∈ dataOf L, P d = some (sw d)
  gate : ∀ d s, (d, s, Kind.data) ∈ L → G d = gateSite dx s
  odd : ∀ d s, (d, s, Kind.data) ∈ L → s.1 % 2 = 1 ∧ s.2 % 2 = 1

theorem tauSite_tauSite (s : Site) (h : s.1 % 2 = 1 ∧ s.2 % 2 = 1) : tauSite (tauSite s) = s := by
  obtain ⟨r, c⟩ := s
  unfold tauSite
  simp only at h ⊢
  by_cases h1 : c ≤ r
  · rw [if_pos h1]
    simp only
    rw [if_neg (by omega)]
    simp
  · rw [if_neg h1]
    simp only
    rw [if_pos (by omega)]
    simp

section
variable {L : List (String × Site × Kind)} {l : Layout} {dirs : List (Site × String)} {dx : Int}
  {P : String → Option String} {G : String → String} {sw : String → String}

theorem RSTable.invol (h : RSTable L dx P G sw) (hg : OnGrid l L dirs) {d : String} (hd : d ∈ dataOf L) :
    sw d ∈ dataOf L ∧ sw (sw d) = d := by
  obtain ⟨s, hs⟩ := mem_dataOf.1 hd
  have h1 := h.swap d s hs
  refine ⟨mem_dataOf.2 ⟨_, h1⟩, ?_⟩
  have h2 := h.swap _ _ h1
  rw [tauSite_tauSite _ (h.odd d s hs)] at h2
  exact (hg.unique' h2 hs).1

theorem RSTable.ne (h : RSTable L dx P G sw) (hg : OnGrid l L dirs) {d : String} (hd : d ∈ dataOf L) : sw d ≠ d := by
  obtain ⟨⟨r, c⟩, hs⟩ := mem_dataOf.1 hd
  have h1 := h.swap d _ hs
  intro he
  rw [he] at h1
  have := (hg.unique h1 hs).1
  unfold tauSite at this
  simp only at this
  split at this <;> simp only [Prod.mk.injEq] at this <;> omega

theorem RSTable.sym (h : RSTable L dx P G sw) (hg : OnGrid l L dirs) {d e : String} (hd : d ∈ dataOf L) (he : P d = some e) :
    e ∈ dataOf L ∧ e ≠ d ∧ P e = some d := by
  rw [h.pair d hd, Option.some.injEq] at he
  subst he
  obtain ⟨h1, h2⟩ := h.invol hg hd
  exact ⟨h1, h.ne hg hd, by rw [h.pair _ h1, h2]⟩

theorem RSTable.data_perm (h : RSTable L dx P G sw) (hg : OnGrid l L dirs) : ((dataOf L).map sw).Perm (dataOf L) := by
  rw [List.perm_ext_iff_of_nodup]
  · intro e
    rw [List.mem_map]
    constructor
    · rintro ⟨d, hd, rfl⟩
      exact (h.invol hg hd).1
    · exact fun he => ⟨_, (h.invol hg he).1, (h.invol hg he).2⟩
  · refine List.Nodup.map_on ?_ (hg.labelsOf_nodup _)
    intro d hd e he hde
    rw [← (h.invol hg hd).2, ← (h.invol hg he).2, hde]
  · exact hg.labelsOf_nodup _

/-- Whether a phase gate acts on a site. -/
def Gated (s : Site) : Prop := s.2 = s.1 + 2 ∨ s.1 = 1 ∧ s.2 = 1

instance (s : Site) : Decidable (Gated s) := by unfold Gated; infer_instance

theorem gateSite_gated (dx : Int) (s : Site) : (gateSite dx s = "S" ∨ gateSite dx s = "S_DAG") ↔ Gated s := by
  unfold gateSite Gated
  split
  · rename_i h
    split <;> simp [h]
  · rename_i h
    split
    · rename_i h'; simp [h']
    · rename_i h'
      simp only [h, h', or_self, iff_false, not_or]
      decide

/-- Sums of the images of data qubits, qubit by qubit. -/
theorem RSTable.sum (h : RSTable L dx P G sw) (hg : OnGrid l L dirs) {S : List String} (hS : S.Nodup)
    (hSd : ∀ d ∈ S, d ∈ dataOf L) (f : String → ZMod 2) :
    (S.map (sTerm P G f)).sum = ((dataOf L).map fun d =>
      (if d ∈ S ∧ (G d = "S" ∨ G d = "S_DAG") then f d else 0) + (if sw d ∈ S then f d else 0)).sum := by
  have e1 : (S.map (sTerm P G f)).sum = (S.map fun d => if G d = "S" ∨ G d = "S_DAG" then f d else 0).sum +
      (S.map fun d => f (sw d)).sum := by
    rw [← List.sum_map_add]
    congr 1
    refine List.map_congr_left fun d hd => ?_
    unfold sTerm
    rw [h.pair d (hSd d hd)]
  rw [e1, sum_sub hg hS hSd, sum_sub hg hS hSd (fun d => f (sw d)), List.sum_map_add]
  congr 1
  · congr 1
    refine List.map_congr_left fun d hd => ?_
    by_cases h1 : d ∈ S <;> simp [h1]
  · rw [← ((h.data_perm hg).map _).sum_eq, List.map_map]
    congr 1
    refine List.map_congr_left fun d hd => ?_
    simp only [Function.comp_apply, (h.invol hg hd).2]

end

/-- The Z plaquette in the image of an X plaquette. -/
def zSite (s : Site) : Site := if s.2 < s.1 then (s.2, s.1 + 2) else (s.2 - 2, s.1)

section
variable {l : Layout} {a : Args} {dx : Int} {P : String → Option String} {G : String → String} {sw : String → String}

theorem zmod_ite {p q r : Prop} [Decidable p] [Decidable q] [Decidable r] (x : ZMod 2) (h : ((p ∧ ¬ q) ∨ (¬ p ∧ q)) ↔ r) :
    (if p then x else 0) + (if q then x else 0) = if r then x else 0 := by
  have hx : x + x = 0 := CharTwo.add_self_eq_zero x
  by_cases hp : p <;> by_cases hq : q <;> simp [hp, hq] at h <;> simp [hp, hq, h, hx]

theorem RSTable.stab (hg : OnGrid l (rotEntries a dx (dx + 1)) (names rotDirs)) (ht : RSTable (rotEntries a dx (dx + 1)) dx P G sw)
    {x z : String} {s : Site} (hx : (x, s, Kind.x) ∈ rotEntries a dx (dx + 1))
    (hz : (z, zSite s, Kind.z) ∈ rotEntries a dx (dx + 1)) (f : String → ZMod 2) :
    ((l.getNeighbors [x] none).map (sTerm P G f)).sum = ((l.getNeighbors [z] none).map f).sum := by
  rw [ht.sum hg (hg.neighbors_nodup x) fun d hd => nbr_data hg (mem_anc_of_x (mem_xOf.2 ⟨s, hx⟩)) hd,
    sum_sub hg (hg.neighbors_nodup z) fun d hd => nbr_data hg (mem_anc_of_z (mem_zOf.2 ⟨_, hz⟩)) hd]
  congr 1
  refine List.map_congr_left fun d hd => ?_
  refine zmod_ite _ ?_
  obtain ⟨⟨r, c⟩, hd⟩ := mem_dataOf.1 hd
  obtain ⟨R, C⟩ := s
  have h1 := ht.swap _ _ hd
  have gd := rotEntry hd
  have gx := rotEntry hx
  have gz := rotEntry (r := (zSite (R, C)).1) (c := (zSite (R, C)).2) hz
  rw [ht.gate _ _ hd, gateSite_gated, rotN hg hx (by simp) hd,
    rotN (r := (zSite (R, C)).1) (c := (zSite (R, C)).2) hg hz (by simp) hd,
    rotN (r' := (tauSite (r, c)).1) (c' := (tauSite (r, c)).2) hg hx (by simp) h1]
  simp only [RotSite] at gd gx gz
  unfold zSite at gz ⊢
  unfold Gated tauSite
  simp only at gz ⊢
  by_cases e1 : C < R <;> by_cases e2 : c ≤ r <;> simp only [e1, e2, if_true, if_false] at gz ⊢ <;> omega

/-- The plaquette at the corner keeps its operator. -/
theorem RSTable.stab_corner (hg : OnGrid l (rotEntries a dx (dx + 1)) (names rotDirs))
    (ht : RSTable (rotEntries a dx (dx + 1)) dx P G sw) {x : String} (hx : (x, (0, 2), Kind.x) ∈ rotEntries a dx (dx + 1))
    (f : String → ZMod 2) : ((l.getNeighbors [x] none).map (sTerm P G f)).sum = 0 := by
  rw [ht.sum hg (hg.neighbors_nodup x) fun d hd => nbr_data hg (mem_anc_of_x (mem_xOf.2 ⟨_, hx⟩)) hd]
  have : ∀ d ∈ dataOf (rotEntries a dx (dx + 1)), ((if d ∈ l.getNeighbors [x] none ∧ (G d = "S" ∨ G d = "S_DAG") then f d else 0) +
      (if sw d ∈ l.getNeighbors [x] none then f d else 0)) = 0 := by
    intro d hd
    rw [zmod_ite (r := False) (f d), if_neg not_false]
    rw [iff_false]
    obtain ⟨⟨r, c⟩, hd⟩ := mem_dataOf.1 hd
    have h1 := ht.swap _ _ hd
    have gd := rotEntry hd
    have gx := rotEntry hx
    rw [ht.gate _ _ hd, gateSite_gated, rotN hg hx (by simp) hd,
      rotN (r' := (tauSite (r, c)).1) (c' := (tauSite (r, c)).2) hg hx (by simp) h1]
    simp only [RotSite] at gd gx
    unfold Gated tauSite
    simp only
    by_cases e2 : c ≤ r <;> simp only [e2, if_true, if_false] <;> omega
  rw [List.map_congr_left this]
  simp

theorem RSTable.logical (hu : IsRot a dx (dx + 1) l) (ht : RSTable (rotEntries a dx (dx + 1)) dx P G sw) (hd1 : 1 ≤ dx)
    (f : String → ZMod 2) :
    ((logXList a dx (dx + 1)).map (sTerm P G f)).sum = ((logZList a (dx + 1)).map f).sum := by
  have hg := hu.grid
  rw [ht.sum hg (logXList_nodup a dx (by omega)) fun d hd => mem_dataOf.2 (rot_logX_data (by omega) hd),
    sum_sub hg (logZList_nodup a (dx + 1)) fun d hd => mem_dataOf.2 (rot_logZ_data (by omega) hd)]
  congr 1
  refine List.map_congr_left fun d hd => ?_
  refine zmod_ite _ ?_
  obtain ⟨⟨r, c⟩, hd⟩ := mem_dataOf.1 hd
  have h1 := ht.swap _ _ hd
  have gd := rotEntry hd
  rw [ht.gate _ _ hd, gateSite_gated, rot_mem_logX hd, rot_mem_logX (r := (tauSite (r, c)).1) (c := (tauSite (r, c)).2) h1,
    rot_mem_logZ hd1 hd]
  simp only [RotSite] at gd
  unfold Gated tauSite
  simp only
  by_cases e2 : c ≤ r <;> simp only [e2, if_true, if_false] <;> omega

end

end SurfaceSim
