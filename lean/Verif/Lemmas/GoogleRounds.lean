/-
The rounds of rot_surface_code_xzzx_google.py: operations and positions.
-/
import Verif.Lemmas.MemoryCodes
import Verif.Lemmas.Superpose

namespace SurfaceSim
open Spec NoiseModel Blocks LayoutLib

variable {a : Args} {dx dz : Int} {l : Layout} {L : List (String × Site × Kind)} {dirs : List (Site × String)}

theorem dedup_of_nodup {α : Type} [DecidableEq α] {A : List α} (h : A.Nodup) : Layout.dedup A = A := by
  induction A with
  | nil => rfl
  | cons q A ih =>
    rw [List.nodup_cons] at h
    simp only [Layout.dedup, ih h.2]
    rw [List.filter_eq_self.2]
    intro b hb
    simp only [decide_eq_true_eq, ne_eq]
    rintro rfl
    exact h.1 hb

theorem pairs_append_nodup {A B : List String} (h : (A ++ B).Nodup) (d : Option String) :
    l.getNeighborPairs (A ++ B) d = l.getNeighborPairs A d ++ l.getNeighborPairs B d := by
  have h' := List.nodup_append.1 h
  unfold Layout.getNeighborPairs Layout.outEdgeView
  rw [dedup_of_nodup h, dedup_of_nodup h'.1, dedup_of_nodup h'.2.1]
  simp

theorem xz_nodup (hg : OnGrid l L dirs) : (xOf L ++ zOf L).Nodup := by
  rw [List.nodup_append]
  refine ⟨(at_x hg).nodup, (at_z hg).nodup, ?_⟩
  rintro q hq _ hq' rfl
  obtain ⟨s, h⟩ := mem_xOf.1 hq
  obtain ⟨s', h'⟩ := mem_zOf.1 hq'
  exact absurd (hg.unique h h').2 (by simp)

theorem at_xz (hg : OnGrid l L dirs) : At L (xOf L ++ zOf L) (fun _ k => k ≠ .data) := by
  refine ⟨xz_nodup hg, fun q hq => ?_, fun q s k hq => ?_⟩
  · rcases List.mem_append.1 hq with h | h
    · obtain ⟨s, h⟩ := mem_xOf.1 h; exact ⟨s, _, h⟩
    · obtain ⟨s, h⟩ := mem_zOf.1 h; exact ⟨s, _, h⟩
  · rw [List.mem_append, (at_x hg).mem _ _ _ hq, (at_z hg).mem _ _ _ hq]
    cases k <;> simp

/-- The operations of steps a to h, up to the gates X. -/
def googleOps (o : SetOrder) (l : Layout) (L : List (String × Site × Kind)) : List (Op String) :=
  let A := o.ord (Blocks.setOf (xOf L ++ zOf L))
  let D := o.ord (Blocks.setOf (dataOf L))
  A.map Op.h ++ D.map Op.x ++
  (czPairs l L "north_east" "north_east").map (fun p => Op.cz p.1 p.2) ++
  D.map Op.h ++ A.map Op.x ++
  (czPairs l L "north_west" "south_east").map (fun p => Op.cz p.1 p.2) ++
  (o.ord (Blocks.setOf (dataOf L ++ (xOf L ++ zOf L)))).map Op.x ++
  (czPairs l L "south_east" "north_west").map (fun p => Op.cz p.1 p.2) ++
  D.map Op.h ++ A.map Op.x ++
  (czPairs l L "south_west" "south_west").map (fun p => Op.cz p.1 p.2)

section
variable {nm : NoiseModel} (hn : Faithful nm) (hg : OnGrid l L dirs) (hu : Usable nm.inds L) (o : SetOrder)
include hn hg hu

theorem googleCoherent_does : ∃ Ls, List.Forall₂ (Does nm.inds) (googleCoherent o nm l) Ls ∧
    Ls.flatten = googleOps o l L := by
  have hd : dataQubits l = .ok (dataOf L) := hg.getQubits_data
  have hx : stabQubits l "x_type" = .ok (xOf L) := hg.getQubits_x
  have hz : stabQubits l "z_type" = .ok (zOf L) := hg.getQubits_z
  have kd : ∀ q ∈ dataOf L, q ∈ nm.inds.keys := hu.labels (fun k => k = .data)
  have ka : ∀ q ∈ xOf L ++ zOf L, q ∈ nm.inds.keys := fun q h => by
    obtain ⟨s, k, h⟩ := (at_xz hg).sub q h
    exact hu.known _ _ _ h
  have kA : ∀ q ∈ o.ord (Blocks.setOf (xOf L ++ zOf L)), q ∈ nm.inds.keys := fun q h =>
    ka q (mem_setOf.1 ((mem_ord o).1 h))
  have kD : ∀ q ∈ o.ord (Blocks.setOf (dataOf L)), q ∈ nm.inds.keys := fun q h =>
    kd q (mem_setOf.1 ((mem_ord o).1 h))
  have kq : ∀ q ∈ Blocks.setOf (dataOf L ++ (xOf L ++ zOf L)), q ∈ nm.inds.keys := fun q h => by
    rcases List.mem_append.1 (mem_setOf.1 h) with h | h
    · exact kd q h
    · exact ka q h
  have kQ : ∀ q ∈ o.ord (Blocks.setOf (dataOf L ++ (xOf L ++ zOf L))), q ∈ nm.inds.keys := fun q h =>
    kq q ((mem_ord o).1 h)
  have t := Does.tick nm.inds
  have cz : ∀ ps : List (String × String), GoodPairs nm.inds ps → List.Forall₂ (Does nm.inds)
      (googleCz o nm (Blocks.setOf (dataOf L ++ (xOf L ++ zOf L))) ps) [ps.map (fun p => Op.cz p.1 p.2), [], []] := by
    intro ps hps
    exact .cons (does_cz hn ps hps) (.cons (does_idle hn _ fun q h => kq q (mem_diff.1 ((mem_ord o).1 h)).1) (.cons t .nil))
  have gp : ∀ d1 d2, GoodPairs nm.inds (l.getNeighborPairs (xOf L) (some d1) ++ l.getNeighborPairs (zOf L) (some d2)) := by
    intro d1 d2 p hp
    rcases List.mem_append.1 hp with h | h
    · exact hu.pairs hg _ _ p h
    · exact hu.pairs hg _ _ p h
  unfold googleCoherent
  rw [hd, hx, hz]
  simp only [withE]
  rw [pairs_append_nodup (xz_nodup hg), pairs_append_nodup (xz_nodup hg)]
  refine ⟨_, List.rel_append (List.rel_append (List.rel_append (List.rel_append (List.rel_append (List.rel_append
    (List.rel_append (.cons (does_incoming hn _ kd) (.cons t (.cons (does_h hn _ kA) (.cons (does_x hn _ kD) (.cons t .nil)))))
    (cz _ (gp _ _))) (.cons (does_h hn _ kD) (.cons (does_x hn _ kA) (.cons t .nil)))) (cz _ (gp _ _)))
    (.cons (does_x hn _ kQ) (.cons t .nil))) (cz _ (gp _ _)))
    (.cons (does_h hn _ kD) (.cons (does_x hn _ kA) (.cons t .nil)))) (cz _ (gp _ _)), ?_⟩
  simp [googleOps, czPairs]

/-- The operations of a round. -/
theorem google_does : Does nm.inds (sumGen (googleIter o nm l)) (googleOps o l L ++
    ((o.ord (Blocks.setOf (ancOf L))).map Op.h ++ (dataOf L).map Op.x ++ (ancOf L).map Op.m ++ (ancOf L).map Op.r)) := by
  have hd : dataQubits l = .ok (dataOf L) := hg.getQubits_data
  have ha : ancQubits l = .ok (ancOf L) := hg.getQubits_anc
  have kd : ∀ q ∈ dataOf L, q ∈ nm.inds.keys := hu.labels (fun k => k = .data)
  have ka : ∀ q ∈ ancOf L, q ∈ nm.inds.keys := hu.labels (fun k => k ≠ .data)
  have kA : ∀ q ∈ o.ord (Blocks.setOf (ancOf L)), q ∈ nm.inds.keys := fun q h =>
    ka q (mem_setOf.1 ((mem_ord o).1 h))
  have t := Does.tick nm.inds
  obtain ⟨Ls, h1, h2⟩ := googleCoherent_does hn hg hu o
  unfold googleIter
  rw [hd, ha]
  simp only [withE]
  refine (Does.sumGen (List.rel_append h1 (.cons (does_h hn _ kA) (.cons (does_x hn _ kd) (.cons t
    (.cons (does_m hn _ ka) (.cons (does_idle hn _ kd) (.cons t (.cons (does_r hn _ ka) (.cons (does_idle hn _ kd)
      (.cons t .nil))))))))))).congr ?_
  simp [h2]

/-- The operations of the last round with the measurement of the data qubits. -/
theorem googleFinal_does (rb : Bool) (hR : ∀ q ∈ xzzxR l L rb, q ∈ dataOf L) :
    Does nm.inds (sumGen (googleFinalIter o nm l rb)) (googleOps o l L ++
      ((o.ord (union (Blocks.setOf (ancOf L)) (xzzxR l L rb))).map Op.h ++ (ancOf L).map Op.m ++ (dataOf L).map Op.m)) := by
  have hd : dataQubits l = .ok (dataOf L) := hg.getQubits_data
  have ha : ancQubits l = .ok (ancOf L) := hg.getQubits_anc
  have kd : ∀ q ∈ dataOf L, q ∈ nm.inds.keys := hu.labels (fun k => k = .data)
  have ka : ∀ q ∈ ancOf L, q ∈ nm.inds.keys := hu.labels (fun k => k ≠ .data)
  have kR : ∀ q ∈ o.ord (union (Blocks.setOf (ancOf L)) (xzzxR l L rb)), q ∈ nm.inds.keys := fun q h => by
    rcases mem_union.1 ((mem_ord o).1 h) with h | h
    · exact ka q (mem_setOf.1 h)
    · exact kd q (hR q h)
  have kq : ∀ q ∈ Blocks.setOf (dataOf L ++ ancOf L), q ∈ nm.inds.keys := fun q h => by
    rcases List.mem_append.1 (mem_setOf.1 h) with h | h
    · exact kd q h
    · exact ka q h
  have t := Does.tick nm.inds
  obtain ⟨Ls, h1, h2⟩ := googleCoherent_does hn hg hu o
  unfold googleFinalIter
  rw [hd, ha, stabQubits_grid hg]
  simp only [withE]
  refine (Does.sumGen (List.rel_append h1 (.cons (does_h hn _ kR)
    (.cons (does_idle hn _ fun q h => kq q (mem_diff.1 ((mem_ord o).1 h)).1) (.cons t
    (.cons (does_m hn _ ka) (.cons (does_m hn _ kd) .nil))))))).congr ?_
  simp [h2]

end

theorem withoutFlips_append (A B : List (Op String)) : withoutFlips (A ++ B) = withoutFlips A ++ withoutFlips B := by
  simp [withoutFlips]

theorem withoutFlips_keep {A : List (Op String)} (h : ∀ op ∈ A, op.isFlip = false) : withoutFlips A = A := by
  unfold withoutFlips
  rw [List.filter_eq_self]
  intro op ho
  simp [h op ho]

theorem withoutFlips_x (A : List String) : withoutFlips (A.map Op.x) = [] := by
  unfold withoutFlips
  rw [List.filter_eq_nil_iff]
  intro op ho
  obtain ⟨q, -, rfl⟩ := List.mem_map.1 ho
  simp [Op.isFlip]

theorem withoutFlips_map {α : Type} (A : List α) (f : α → Op String) (h : ∀ x, (f x).isFlip = false) :
    withoutFlips (A.map f) = A.map f :=
  withoutFlips_keep fun op ho => by
    obtain ⟨q, -, rfl⟩ := List.mem_map.1 ho
    exact h q

theorem withoutFlips_rename (ι : String → Nat) (A : List (Op String)) :
    withoutFlips (A.map (Op.rename ι)) = (withoutFlips A).map (Op.rename ι) := by
  unfold withoutFlips
  rw [List.filter_map]
  congr 2
  funext op
  cases op <;> rfl

/-- Without the gates X, steps a to h are the coherent part of a round. -/
theorem withoutFlips_googleOps (o : SetOrder) (S : List String) :
    withoutFlips (googleOps o l L) ++ S.map Op.h =
      coherentOps (o.ord (Blocks.setOf (xOf L ++ zOf L))) (o.ord (Blocks.setOf (dataOf L)))
        (o.ord (Blocks.setOf (dataOf L))) S (czPairs l L "north_east" "north_east")
        (czPairs l L "north_west" "south_east" ++ czPairs l L "south_east" "north_west")
        (czPairs l L "south_west" "south_west") := by
  unfold googleOps coherentOps
  simp only [withoutFlips_append, withoutFlips_x]
  simp only [withoutFlips_map _ Op.h (fun _ => rfl), withoutFlips_map _ (fun p : String × String => Op.cz p.1 p.2) (fun _ => rfl)]
  simp

theorem rot_google_coherent (h : IsRot a dx dz l) (o : SetOrder) :
    Coherent (fun q => decide (q ∈ ancOf (rotEntries a dx dz))) (xzzxType l)
      (o.ord (Blocks.setOf (xOf (rotEntries a dx dz) ++ zOf (rotEntries a dx dz))))
      (o.ord (Blocks.setOf (dataOf (rotEntries a dx dz)))) (o.ord (Blocks.setOf (dataOf (rotEntries a dx dz))))
      (o.ord (Blocks.setOf (ancOf (rotEntries a dx dz))))
      (czPairs l (rotEntries a dx dz) "north_east" "north_east")
      (czPairs l (rotEntries a dx dz) "north_west" "south_east" ++
        czPairs l (rotEntries a dx dz) "south_east" "north_west")
      (czPairs l (rotEntries a dx dz) "south_west" "south_west") := by
  have hg := h.grid
  have hV := rot_sites a dx dz
  have ne : (((1, 1) : Site), "north_east") ∈ names rotDirs := by decide
  have nw : (((1, -1) : Site), "north_west") ∈ names rotDirs := by decide
  have se : (((-1, 1) : Site), "south_east") ∈ names rotDirs := by decide
  have sw : (((-1, -1) : Site), "south_west") ∈ names rotDirs := by decide
  refine Coherent.ofGrid hg hV (isA_anc hg) ?_ (T := fun s _ s' => s' = s + (1, -1) ∨ s' = s + (-1, 1))
    (xzzxType_iff h)
    (layer_cz hg ne ne) (Layer.append hg (layer_cz hg nw se) (layer_cz hg se nw) ?_) (layer_cz hg sw sw)
    ((at_xz hg).setOf.ord o) ((at_data hg).setOf.ord o) ((at_data hg).setOf.ord o) ((at_anc hg).setOf.ord o) ?_ ?_ ?_ ?_ ?_
  · intro q hq
    exact (at_anc hg).sub q (by simpa using hq)
  · intro k; cases k <;> decide
  · rintro ⟨r, c⟩ k ⟨r1, c1⟩ hv hk hσ hd
    cases k <;> simp [czSh, RotSite] at hk hσ hv hd ⊢ <;> obtain ⟨rfl, rfl⟩ := hσ <;> omega
  · rintro ⟨r, c⟩ k ⟨r1, c1⟩ hv hk hσ hd
    cases k <;> simp [czSh, RotSite] at hk hσ hv hd ⊢ <;> rcases hσ with ⟨rfl, rfl⟩ | ⟨rfl, rfl⟩ <;> omega
  · rintro ⟨r, c⟩ k ⟨r1, c1⟩ hv hk hσ hd
    cases k <;> simp [czSh, RotSite] at hk hσ hv hd ⊢ <;> obtain ⟨rfl, rfl⟩ := hσ <;> omega
  · intro s k _
    cases k <;> simp
  · intro s k s' k' hv hv' hk hk'
    exact rot_css_cross s k s' k' hv hv' hk hk'

end SurfaceSim
