/-
The transversal S gate of unrotated codes.
-/
import Verif.Lemmas.SGate
import Verif.Lemmas.FoldTotal

namespace SurfaceSim
open Spec NoiseModel Blocks LayoutLib LogGates

theorem getNeighbors_params {l0 l : Layout} (hw : WithParams l0 l) (q : String) :
    l.getNeighbors [q] none = l0.getNeighbors [q] none := by
  induction hw with
  | refl => rfl
  | @set l l' p q' v _ _ hs ih =>
    rw [← ih]
    unfold Layout.setParam at hs
    split at hs
    · simp at hs
    · rename_i attrs ha
      simp only [Except.ok.injEq] at hs
      subst hs
      unfold Layout.getNeighbors Layout.getNeighborPairs Layout.outEdgeView
      simp only
      congr 3
      congr 1
      refine List.filter_congr fun x _ => ?_
      have : ∀ (d : Dict String (Dict String Val)) y, d.has y = (d.get? y).isSome := fun d y => by simp [Dict.has]
      rw [this, this, Dict.get?_set]
      split
      · rename_i h; rw [← h, ha]; rfl
      · rfl

theorem diagonalGates_ok {D : Dict Vec String} {p v : Vec} (ks : List Nat) (hks : ks.Nodup)
    (hinj : ∀ k ∈ ks, ∀ k' ∈ ks, ∀ d, D.get? (round5 (p + (k : Rat) • v)) = some d →
      D.get? (round5 (p + (k' : Rat) • v)) = some d → k = k')
    {acc r : Dict (Option String) String} (h : diagonalGates D p v ks acc = .ok r) :
    (∀ k ∈ ks, ∃ d, D.get? (round5 (p + (k : Rat) • v)) = some d ∧
      r.get? (some d) = some (if k % 2 = 0 then "S" else "S_DAG")) ∧
    ∀ d, (∀ k ∈ ks, D.get? (round5 (p + (k : Rat) • v)) ≠ some d) → r.get? (some d) = acc.get? (some d) := by
  induction ks generalizing acc with
  | nil =>
    simp only [diagonalGates, Except.ok.injEq] at h
    subst h
    exact ⟨by simp, fun _ _ => rfl⟩
  | cons k ks ih =>
    unfold diagonalGates at h
    rw [List.nodup_cons] at hks
    cases hd : D.getE (round5 (p + (k : Rat) • v)) with
    | error e => simp [hd] at h
    | ok d =>
      simp only [hd] at h
      have hd' := (Dict.getE_ok_iff _ _ _).1 hd
      obtain ⟨h1, h2⟩ := ih hks.2 (fun k hk k' hk' => hinj k (by simp [hk]) k' (by simp [hk'])) h
      refine ⟨fun k' hk' => ?_, fun e he => ?_⟩
      · rcases List.mem_cons.1 hk' with rfl | hk'
        · refine ⟨d, hd', ?_⟩
          rw [h2 d (fun k' hk' hc => hks.1 ?_), Dict.get?_set_self]
          exact (hinj _ (by simp) k' (by simp [hk']) d hd' hc) ▸ hk'
        · exact h1 k' hk'
      · rw [h2 e fun k' hk' => he k' (by simp [hk']), Dict.get?_set, if_neg]
        intro hc
        simp only [Option.some.injEq] at hc
        subst hc
        exact he k (by simp) hd'

theorem diagonalGates_exists {D : Dict Vec String} {p v : Vec} (ks : List Nat)
    (h : ∀ k ∈ ks, ∃ d, D.get? (round5 (p + (k : Rat) • v)) = some d) (acc : Dict (Option String) String) :
    ∃ r, diagonalGates D p v ks acc = .ok r := by
  induction ks generalizing acc with
  | nil => exact ⟨acc, rfl⟩
  | cons k ks ih =>
    obtain ⟨d, hd⟩ := h k (by simp)
    unfold diagonalGates
    rw [(Dict.getE_ok_iff _ _ _).2 hd]
    exact ih (fun e he => h e (by simp [he])) _

/-- The points on the diagonal. -/
def diag (p : Site) (e1 e2 : Int) (k : Nat) : Site := (p.1 + k * e1, p.2 + k * e2)

theorem place_diag (o : Vec) (p : Site) (e1 e2 : Int) (k : Nat) :
    place o p + (k : Rat) • ((e1 : Rat), (e2 : Rat)) = place o (diag p e1 e2 k) := by
  unfold place diag
  ext <;> simp <;> ring

/-- The tables stored by `set_trans_s` for unrotated codes. -/
structure USTable (L : List (String × Site × Kind)) (p : Site) (e1 e2 : Int) (P : String → Option String)
    (G : String → String) (sw : String → String) : Prop where
  swap : ∀ d s, (d, s, Kind.data) ∈ L → (sw d, refl p (e1 * e2) s, Kind.data) ∈ L
  pair : ∀ d ∈ dataOf L, P d = if sw d ≠ d then some (sw d) else none
  off : ∀ d s, (d, s, Kind.data) ∈ L → refl p (e1 * e2) s ≠ s → G d = "I"
  on : ∀ d s, (d, s, Kind.data) ∈ L → refl p (e1 * e2) s = s → G d = if (s.1 - p.1) % 2 = 0 then "S" else "S_DAG"

section
variable {L : List (String × Site × Kind)} {l : Layout} {dirs : List (Site × String)} {p : Site} {e1 e2 : Int}
  {P : String → Option String} {G : String → String} {sw : String → String}

theorem USTable.fixed (h : USTable L p e1 e2 P G sw) (hg : OnGrid l L dirs) {d : String} {s : Site}
    (hd : (d, s, Kind.data) ∈ L) : sw d = d ↔ refl p (e1 * e2) s = s := by
  have h1 := h.swap d s hd
  constructor
  · intro he
    rw [he] at h1
    exact (hg.unique h1 hd).1
  · intro he
    rw [he] at h1
    exact (hg.unique' h1 hd).1

theorem USTable.gate (h : USTable L p e1 e2 P G sw) (hg : OnGrid l L dirs) {d : String} (hd : d ∈ dataOf L) :
    (sw d = d ∧ P d = none ∧ (G d = "S" ∨ G d = "S_DAG")) ∨ (sw d ≠ d ∧ P d = some (sw d) ∧ G d = "I") := by
  obtain ⟨s, hs⟩ := mem_dataOf.1 hd
  by_cases hf : sw d = d
  · refine Or.inl ⟨hf, by rw [h.pair d hd, if_neg (not_not.2 hf)], ?_⟩
    rw [h.on d s hs ((h.fixed hg hs).1 hf)]
    split <;> simp
  · exact Or.inr ⟨hf, by rw [h.pair d hd, if_pos hf], h.off d s hs fun hc => hf ((h.fixed hg hs).2 hc)⟩

theorem USTable.term (h : USTable L p e1 e2 P G sw) (hg : OnGrid l L dirs) {d : String} (hd : d ∈ dataOf L)
    (f : String → ZMod 2) : sTerm P G f d = f (sw d) := by
  unfold sTerm
  rcases h.gate hg hd with ⟨h1, h2, h3⟩ | ⟨h1, h2, h3⟩
  · rw [if_pos h3, h2, h1]; simp
  · rw [h2, h3]; simp

theorem USTable.invol (h : USTable L p e1 e2 P G sw) (hg : OnGrid l L dirs) (hε : e1 * e2 = 1 ∨ e1 * e2 = -1) {d : String}
    (hd : d ∈ dataOf L) : sw d ∈ dataOf L ∧ sw (sw d) = d := by
  obtain ⟨s, hs⟩ := mem_dataOf.1 hd
  have h1 := h.swap d s hs
  refine ⟨mem_dataOf.2 ⟨_, h1⟩, ?_⟩
  have h2 := h.swap _ _ h1
  rw [refl_refl hε] at h2
  exact (hg.unique' h2 hs).1

theorem USTable.vals (h : USTable L p e1 e2 P G sw) (hg : OnGrid l L dirs) :
    (∀ d ∈ dataOf L, G d = "I" ∨ G d = "S" ∨ G d = "S_DAG") ∧ (∀ d ∈ dataOf L, P d ≠ some d) ∧
      (∀ d ∈ dataOf L, G d ≠ "I" → P d = none) ∧ ∀ d ∈ dataOf L, P d = none → G d ≠ "I" := by
  refine ⟨fun d hd => ?_, fun d hd => ?_, fun d hd => ?_, fun d hd => ?_⟩ <;>
  rcases h.gate hg hd with ⟨h1, h2, h3⟩ | ⟨h1, h2, h3⟩
  · exact Or.inr h3
  · exact Or.inl h3
  · rw [h2]; simp
  · rw [h2]; simpa using h1
  · exact fun _ => h2
  · exact fun h => absurd h3 h
  · intro _ hc; rw [hc] at h3; simp at h3
  · intro hc; rw [h2] at hc; simp at hc

theorem USTable.symTable_aux (h : USTable L p e1 e2 P G sw) (hg : OnGrid l L dirs) (hε : e1 * e2 = 1 ∨ e1 * e2 = -1) {d e : String}
    (hd : d ∈ dataOf L) (he : P d = some e) : e ∈ dataOf L ∧ e ≠ d ∧ P e = some d := by
  rcases h.gate hg hd with ⟨-, h1, -⟩ | ⟨h1, h2, -⟩
  · rw [h1] at he; simp at he
  · rw [h2, Option.some.injEq] at he
    subst he
    obtain ⟨h3, h4⟩ := h.invol hg hε hd
    refine ⟨h3, h1, ?_⟩
    rw [h.pair _ h3, h4, if_pos (Ne.symm h1)]

/-- The gate exchanges the data qubits. -/
theorem USTable.data_perm (h : USTable L p e1 e2 P G sw) (hg : OnGrid l L dirs) (hε : e1 * e2 = 1 ∨ e1 * e2 = -1) :
    ((dataOf L).map sw).Perm (dataOf L) := by
  rw [List.perm_ext_iff_of_nodup]
  · intro e
    rw [List.mem_map]
    constructor
    · rintro ⟨d, hd, rfl⟩
      exact (h.invol hg hε hd).1
    · exact fun he => ⟨_, (h.invol hg hε he).1, (h.invol hg hε he).2⟩
  · refine List.Nodup.map_on ?_ (hg.labelsOf_nodup _)
    intro d hd e he hde
    rw [← (h.invol hg hε hd).2, ← (h.invol hg hε he).2, hde]
  · exact hg.labelsOf_nodup _

end

/-- The neighbours of the reflected ancilla are the reflected neighbours. -/
theorem USTable.nbrs {l : Layout} {a : Args} {dx dz : Int} {p : Site} {e1 e2 : Int} {P : String → Option String}
    {G : String → String} {sw : String → String} (hg : OnGrid l (unrotEntries a dx dz) (names unrotDirs))
    (hε : e1 * e2 = 1 ∨ e1 * e2 = -1) (ht : USTable (unrotEntries a dx dz) p e1 e2 P G sw) {x y : String} {s : Site} {k : Kind}
    (hx : (x, s, k) ∈ unrotEntries a dx dz) (hk : k ≠ .data) (hy : (y, refl p (e1 * e2) s, flipKind k) ∈ unrotEntries a dx dz) :
    ((l.getNeighbors [x] none).map sw).Perm (l.getNeighbors [y] none) := by
  have hky : flipKind k ≠ .data := by cases k <;> simp [flipKind] at hk ⊢
  have key : ∀ {x y : String} {s : Site} {k : Kind}, (x, s, k) ∈ unrotEntries a dx dz → k ≠ .data →
      (y, refl p (e1 * e2) s, flipKind k) ∈ unrotEntries a dx dz → ∀ d ∈ l.getNeighbors [x] none,
      d ∈ dataOf (unrotEntries a dx dz) ∧ sw d ∈ l.getNeighbors [y] none := by
    intro x y s k hx hk hy d hd
    have hky : flipKind k ≠ .data := by cases k <;> simp [flipKind] at hk ⊢
    obtain ⟨sh, dir, hsh, hd⟩ := (hg.mem_neighbors_anc hx hk).1 hd
    have h1 := ht.swap _ _ hd
    obtain ⟨sh', dir', hsh', he⟩ := refl_nbr (p := p) hε (s := s) hsh
    refine ⟨mem_dataOf.2 ⟨_, hd⟩, (hg.mem_neighbors_anc hy hky).2 ⟨sh', dir', hsh', ?_⟩⟩
    rw [← he]
    exact h1
  rw [List.perm_ext_iff_of_nodup]
  · intro e
    rw [List.mem_map]
    constructor
    · rintro ⟨d, hd, rfl⟩
      exact (key hx hk hy d hd).2
    · intro he
      have hx' : (x, refl p (e1 * e2) (refl p (e1 * e2) s), flipKind (flipKind k)) ∈ unrotEntries a dx dz := by
        rw [refl_refl hε]
        cases k <;> simpa [flipKind] using hx
      obtain ⟨h1, h2⟩ := key hy hky hx' e he
      exact ⟨_, h2, (ht.invol hg hε h1).2⟩
  · refine List.Nodup.map_on ?_ (hg.neighbors_nodup x)
    intro d hd e he hde
    rw [← (ht.invol hg hε (key hx hk hy d hd).1).2, ← (ht.invol hg hε (key hx hk hy e he).1).2, hde]
  · exact hg.neighbors_nodup y

/-- The labels on the diagonal. -/
theorem diag_labels {l : Layout} {a : Args} {dx dz : Int} {D : Dict Vec String} {p : Site} {e1 e2 : Int} {q : String}
    (hD : ∀ s q, D.get? (round5 (place a.initPoint s)) = some q ↔ ∃ k, (q, s, k) ∈ unrotEntries a dx dz)
    (he1 : e1 = 1 ∨ e1 = -1) (he2 : e2 = 1 ∨ e2 = -1) (hq : (q, p, Kind.data) ∈ unrotEntries a dx dz) :
    ∀ (k : Nat) (d : String), D.get? (round5 (place a.initPoint p + (k : Rat) • ((e1 : Rat), (e2 : Rat)))) = some d ↔
      (d, diag p e1 e2 k, Kind.data) ∈ unrotEntries a dx dz := by
  intro k d
  rw [place_diag, hD]
  constructor
  · rintro ⟨kd, hkd⟩
    have gq := unrotEntry (r := p.1) (c := p.2) hq
    have gk := unrotEntry (r := (diag p e1 e2 k).1) (c := (diag p e1 e2 k).2) hkd
    have : kd = .data := by
      cases kd with
      | data => rfl
      | x => simp only [UnrotSite, diag] at gq gk; rcases he1 with rfl | rfl <;> rcases he2 with rfl | rfl <;> omega
      | z => simp only [UnrotSite, diag] at gq gk; rcases he1 with rfl | rfl <;> rcases he2 with rfl | rfl <;> omega
    exact this ▸ hkd
  · exact fun h => ⟨_, h⟩

theorem diag_gates {l : Layout} {a : Args} {dz n : Int} {D : Dict Vec String} {p : Site} {e1 e2 : Int} {q : String}
    {acc sg : Dict (Option String) String} (hg : OnGrid l (unrotEntries a dz dz) (names unrotDirs))
    (hD : ∀ s q, D.get? (round5 (place a.initPoint s)) = some q ↔ ∃ k, (q, s, k) ∈ unrotEntries a dz dz)
    (he1 : e1 = 1 ∨ e1 = -1) (he2 : e2 = 1 ∨ e2 = -1) (hq : (q, p, Kind.data) ∈ unrotEntries a dz dz)
    (h8' : diagonalGates D (place a.initPoint p) ((e1 : Rat), (e2 : Rat)) (List.range n.toNat) acc = .ok sg) :
    (∀ k ∈ List.range n.toNat, ∃ d, D.get? (round5 (place a.initPoint p + (k : Rat) • ((e1 : Rat), (e2 : Rat)))) = some d ∧
      sg.get? (some d) = some (if k % 2 = 0 then "S" else "S_DAG")) ∧
    ∀ d, (∀ k ∈ List.range n.toNat, D.get? (round5 (place a.initPoint p + (k : Rat) • ((e1 : Rat), (e2 : Rat)))) ≠ some d) →
      sg.get? (some d) = acc.get? (some d) := by
  have hDd := diag_labels (l := l) hD he1 he2 hq
  exact diagonalGates_ok _ List.nodup_range (by
    intro k _ k' _ d hk hk'
    rw [hDd] at hk hk'
    have := congrArg Prod.fst (hg.unique hk hk').1
    simp only [diag] at this
    rcases he1 with rfl | rfl <;> omega) h8'

/-- The tables of the gate. -/
theorem us_tables {l : Layout} {a : Args} {dz : Int} {D : Dict Vec String} {p : Site} {e1 e2 : Int} {q : String}
    {cz : Dict (Option String) (Option String)} {sg : Dict (Option String) String}
    (hp : Placed l (unrotEntries a dz dz) (names unrotDirs) a.initPoint)
    (hD : ∀ s q, D.get? (round5 (place a.initPoint s)) = some q ↔ ∃ k, (q, s, k) ∈ unrotEntries a dz dz)
    (hq : (q, p, Kind.data) ∈ unrotEntries a dz dz)
    (hc1 : p.1 = 0 ∧ e1 = 1 ∨ p.1 = 2 * dz - 2 ∧ e1 = -1) (hc2 : p.2 = 0 ∧ e2 = 1 ∨ p.2 = 2 * dz - 2 ∧ e2 = -1)
    (h8 : foldPairs l D (place a.initPoint p) ((e1 : Rat), (e2 : Rat)) (dataOf (unrotEntries a dz dz)) [] = .ok cz)
    (h8' : diagonalGates D (place a.initPoint p) ((e1 : Rat), (e2 : Rat)) (List.range (2 * dz - 1).toNat)
      ((dataOf (unrotEntries a dz dz)).foldl (fun acc d => Dict.set acc (some d) "I") []) = .ok sg) :
    ∃ P G sw, (∀ d ∈ dataOf (unrotEntries a dz dz), cz.get? (some d) = some (P d)) ∧
      (∀ d ∈ dataOf (unrotEntries a dz dz), sg.get? (some d) = some (G d)) ∧
      USTable (unrotEntries a dz dz) p e1 e2 P G sw := by
  have hg := hp.grid
  have he1 : e1 = 1 ∨ e1 = -1 := by omega
  have he2 : e2 = 1 ∨ e2 = -1 := by omega
  have hε : e1 * e2 = 1 ∨ e1 * e2 = -1 := by rcases he1 with rfl | rfl <;> rcases he2 with rfl | rfl <;> simp
  have hDd := diag_labels (l := l) hD he1 he2 hq
  obtain ⟨f1, -⟩ := foldPairs_ok _ h8
  obtain ⟨s1, s2⟩ := diag_gates hg hD he1 he2 hq h8'
  have hfix : ∀ s : Site, ∀ d, (d, s, Kind.data) ∈ unrotEntries a dz dz →
      (refl p (e1 * e2) s = s ↔ ∃ k ∈ List.range (2 * dz - 1).toNat, s = diag p e1 e2 k) := by
    rintro ⟨r, c⟩ d hd'
    have gd := unrotEntry hd'
    simp only [UnrotSite] at gd
    constructor
    · intro hr
      simp only [refl, Prod.mk.injEq] at hr
      refine ⟨(e1 * (r - p.1)).toNat, ?_, ?_⟩
      · rw [List.mem_range]
        rcases hc1 with ⟨h1, rfl⟩ | ⟨h1, rfl⟩ <;> omega
      · simp only [diag, Prod.mk.injEq]
        rcases hc1 with ⟨h1, rfl⟩ | ⟨h1, rfl⟩ <;> rcases hc2 with ⟨h2, rfl⟩ | ⟨h2, rfl⟩ <;> omega
    · rintro ⟨k, -, hk⟩
      simp only [diag, Prod.mk.injEq] at hk
      obtain ⟨rfl, rfl⟩ := hk
      simp only [refl, Prod.mk.injEq]
      rcases he1 with rfl | rfl <;> rcases he2 with rfl | rfl <;> constructor <;> omega
  let P : String → Option String := fun d => (cz.get? (some d)).getD none
  let G : String → String := fun d => (sg.get? (some d)).getD ""
  let sw : String → String := fun d => (P d).getD d
  have hP : ∀ d ∈ dataOf (unrotEntries a dz dz), cz.get? (some d) = some (P d) := by
    intro d hd'
    obtain ⟨d', -, hdd⟩ := f1 d hd'
    simp only [P, hdd, Option.getD_some]
  have hG : ∀ d ∈ dataOf (unrotEntries a dz dz), sg.get? (some d) = some (G d) := by
    intro d hd'
    have : ∃ g, sg.get? (some d) = some g := by
      by_cases hk : ∃ k ∈ List.range (2 * dz - 1).toNat,
          D.get? (round5 (place a.initPoint p + (k : Rat) • ((e1 : Rat), (e2 : Rat)))) = some d
      · obtain ⟨k, hk, hc⟩ := hk
        obtain ⟨d', h1, h2⟩ := s1 k hk
        rw [hc, Option.some.injEq] at h1
        subst h1
        exact ⟨_, h2⟩
      · rw [s2 d fun k hk' hc => hk ⟨k, hk', hc⟩, get?_const, if_pos (by exact hd')]
        exact ⟨_, rfl⟩
    obtain ⟨g, q2⟩ := this
    simp only [G, q2, Option.getD_some]
  have hus : USTable (unrotEntries a dz dz) p e1 e2 P G sw := by
    have hswd : ∀ d s, (d, s, Kind.data) ∈ unrotEntries a dz dz → (sw d, refl p (e1 * e2) s, Kind.data) ∈ unrotEntries a dz dz ∧
        P d = if sw d ≠ d then some (sw d) else none := by
      intro d s hds
      have hdm : d ∈ dataOf (unrotEntries a dz dz) := mem_dataOf.2 ⟨s, hds⟩
      obtain ⟨d', hr, hg1⟩ := f1 d hdm
      obtain ⟨kd, hd'⟩ := (unrot_reflected hp hD he1 he2 hds d').1 hr
      have hkd := unrot_refl_kind hε hq hds hd'
      simp only [flipKind] at hkd
      subst hkd
      have hPd : P d = if d' ≠ d then some d' else none := by simp only [P, hg1, Option.getD_some]
      have hsw : sw d = d' := by
        simp only [sw, hPd]
        by_cases hdd : d' = d <;> simp [hdd]
      rw [hsw]
      exact ⟨hd', hPd⟩
    refine ⟨fun d s hds => (hswd d s hds).1, fun d hd' => ?_, fun d s hds hr => ?_, fun d s hds hr => ?_⟩
    · obtain ⟨s, hds⟩ := mem_dataOf.1 hd'
      exact (hswd d s hds).2
    · have hdm : d ∈ dataOf (unrotEntries a dz dz) := mem_dataOf.2 ⟨s, hds⟩
      have := s2 d fun k hk hc => hr ((hfix s d hds).2 ⟨k, hk, by rw [hDd] at hc; exact (hg.unique hds hc).1⟩)
      rw [get?_const, if_pos (by exact hdm), hG d hdm, Option.some.injEq] at this
      exact this
    · have hdm : d ∈ dataOf (unrotEntries a dz dz) := mem_dataOf.2 ⟨s, hds⟩
      obtain ⟨k, hk, rfl⟩ := (hfix s d hds).1 hr
      obtain ⟨d', hd1, hd2⟩ := s1 k hk
      rw [hDd] at hd1
      have := (hg.unique' hd1 hds).1
      subst this
      rw [hG _ hdm, Option.some.injEq] at hd2
      rw [hd2]
      congr 1
      simp only [diag, eq_iff_iff]
      rcases he1 with rfl | rfl <;> omega
  exact ⟨P, G, sw, hP, hG, hus⟩

/-- What `set_trans_s` stores. -/
theorem unrotSetTransS_ok {a : Args} {dx dz : Int} {l0 l l' : Layout} {q : String}
    (h : unrotSurfaceCodeRectangle dx dz a = .ok l0) (hw : WithParams l0 l) (e : unrotSetTransS q l = (.ok (), l')) :
    dz = dx ∧ WithParams l l' ∧ (∀ p q', p ≠ "trans-s_" ++ a.label → l'.param p q' = l.param p q') ∧
    ∃ p e1 e2 P G sw, (q, p, Kind.data) ∈ unrotEntries a dx dx ∧
      (p.1 = 0 ∧ e1 = 1 ∨ p.1 = 2 * dx - 2 ∧ e1 = -1) ∧ (p.2 = 0 ∧ e2 = 1 ∨ p.2 = 2 * dx - 2 ∧ e2 = -1) ∧
      USTable (unrotEntries a dx dx) p e1 e2 P G sw ∧
      STable l' (unrotEntries a dx dx) ("trans-s_" ++ a.label) P G := by
  have hp := (unrot_placed h).params hw
  have hu := isUnrot_of_params h hw
  have hg := hp.grid
  unfold unrotSetTransS at e
  rw [PyM.bind_ok (PyM.get_apply l)] at e
  obtain ⟨_, hc, e⟩ := ofExcept_bind_ok e
  obtain ⟨data, h1, e⟩ := ofExcept_bind_ok e
  obtain ⟨anc, h2, e⟩ := ofExcept_bind_ok e
  obtain ⟨xs, h3, e⟩ := ofExcept_bind_ok e
  obtain ⟨zs, h4, e⟩ := ofExcept_bind_ok e
  obtain ⟨lab, h5, e⟩ := ofExcept_bind_ok e
  obtain ⟨⟨cx, cp, cv⟩, h6, e⟩ := ofExcept_bind_ok e
  obtain ⟨D, h7, e⟩ := ofExcept_bind_ok e
  obtain ⟨cz, h8, e⟩ := ofExcept_bind_ok e
  obtain ⟨sg, h8', e⟩ := ofExcept_bind_ok e
  obtain ⟨_, l1, h9, e⟩ := PyM.bind_eq_ok e
  obtain ⟨new, h10, hz⟩ := ofExcept_bind_ok e
  unfold dataQubits at h1
  unfold ancQubits at h2
  unfold stabQubits at h3 h4
  rw [hg.getQubits_data, Except.ok.injEq] at h1
  rw [hg.getQubits_anc, Except.ok.injEq] at h2
  rw [hg.getQubits_x, Except.ok.injEq] at h3
  rw [hg.getQubits_z, Except.ok.injEq] at h4
  rw [firstLogical_of hu.log, Except.ok.injEq] at h5
  subst h1 h2 h3 h4 h5
  obtain ⟨hdist, hq⟩ := checkFold_ok hg hc
  obtain ⟨p, hq⟩ := mem_dataOf.1 hq
  obtain ⟨rfl, e1, e2, he1, he2, rfl⟩ := unrot_corner hp hq h6
  obtain ⟨D', hD', hD⟩ := unrot_labelDict hp
  rw [h7, Except.ok.injEq] at hD'
  subst hD'
  have hd := distances_params hw
  have hd0 := unrot_distances h
  have hdd : dz = dx := by rw [hd.1, hd.2, hd0.1, hd0.2] at hdist; simpa using hdist
  subst hdd
  obtain ⟨k1, k2, k3⟩ := storeData_ok (gateLabel_s _) h9
  obtain ⟨m1, m2, m3⟩ := storeAnc_ok (gateLabel_s _) hz
  have hε : e1 * e2 = 1 ∨ e1 * e2 = -1 := by rcases he1 with rfl | rfl <;> rcases he2 with rfl | rfl <;> simp
  have hDd := diag_labels (l := l) hD he1 he2 hq
  have hdz : l.distanceZ = dz := by rw [hd.2, hd0.2]
  rw [hdz] at h8'
  obtain ⟨s1, s2⟩ := diag_gates hg hD he1 he2 hq h8'
  -- the corner
  have gq := unrotEntry (r := p.1) (c := p.2) hq
  have hcor : (p.1 = 0 ∧ e1 = 1 ∨ p.1 = 2 * dz - 2 ∧ e1 = -1) ∧ (p.2 = 0 ∧ e2 = 1 ∨ p.2 = 2 * dz - 2 ∧ e2 = -1) ∧ 2 ≤ dz := by
    obtain ⟨-, shx, shz, dx', dz', z, n, hdx, hdz', hx, hzz, hn, hv⟩ := hp.corner_ok hq h6
    have gx := unrotEntry (r := (p + shx).1) (c := (p + shx).2) hx
    have gz := unrotEntry (r := (p + shz).1) (c := (p + shz).2) hzz
    simp only [UnrotSite] at gq gx gz
    obtain ⟨d, hd', -⟩ := s1 (2 * dz - 2).toNat (by rw [List.mem_range]; omega)
    rw [hDd] at hd'
    have gd := unrotEntry (r := (diag p e1 e2 (2 * dz - 2).toNat).1) (c := (diag p e1 e2 (2 * dz - 2).toNat).2) hd'
    simp only [UnrotSite, diag] at gd
    have : ((2 * dz - 2).toNat : Int) = 2 * dz - 2 := by omega
    rw [this] at gd
    rcases he1 with rfl | rfl <;> rcases he2 with rfl | rfl <;> omega
  obtain ⟨hc1, hc2, hd2⟩ := hcor
  obtain ⟨P, G, sw, hP, hG, hus⟩ := us_tables hp hD hq hc1 hc2 h8 h8'
  obtain ⟨hGv, hPs, hpw, -⟩ := hus.vals hg
  have hzx : ∀ key z, (zstabDict l (zOf (unrotEntries a dz dz))).get? key = some z → z ∉ xOf (unrotEntries a dz dz) :=
    fun key z hz => x_not_z hg (zstabDict_get _ hz).1
  obtain ⟨n1, n2⟩ := newStabS_ok _ h10 hzx
  have hanc : ∀ z ∈ ancOf (unrotEntries a dz dz), ∀ d ∈ dataOf (unrotEntries a dz dz), z ≠ d :=
    fun z hz d hd' he => ancOf_not_data hg hz (he ▸ hd')
  have hnb : ∀ q, l'.getNeighbors [q] none = l.getNeighbors [q] none :=
    fun q => getNeighbors_params (WithParams.trans k1 m1) q
  refine ⟨rfl, WithParams.trans k1 m1, fun p' q' hp' => by rw [m3 _ _ fun h => absurd h hp', k3 _ _ fun h => absurd h hp'],
    p, e1, e2, P, G, sw, hq, hc1, hc2, hus, ⟨?_, ?_⟩, fun x hx => ?_, fun z hz => ?_⟩
  · intro d hd'
    obtain ⟨pp, gg, q1, q2, q3⟩ := k2 d hd'
    rw [hP d hd', Option.some.injEq] at q1
    rw [hG d hd', Option.some.injEq] at q2
    rw [m3 _ _ fun _ hm => hanc d hm d hd' rfl, q3, q1, q2]
  · exact fun d hd' e he => hus.symTable_aux hg hε hd' he
  · obtain ⟨g, q1, q2⟩ := m2 x (mem_anc_of_x hx)
    rw [hnb]
    rcases n1 x hx with ⟨h, -⟩ | ⟨-, z, hf, hr, -⟩
    · simp at h
    · obtain ⟨h1, h2⟩ := hf.spec hg hx hG hGv hP hPs (fun _ => hpw)
      rw [hr, Option.some.injEq] at q1
      subst q1
      exact Or.inr ⟨z, h1, q2, by rw [hnb]; exact h2⟩
  · obtain ⟨g, q1, q2⟩ := m2 z (mem_anc_of_z hz)
    rcases n2 z (x_not_z hg hz) with h | ⟨h, -⟩
    · rw [h] at q1; simp at q1
    · rw [h, Option.some.injEq] at q1
      subst q1
      exact q2

theorem unrot_z_nbrs {l : Layout} {a : Args} {d : Int} (hg : OnGrid l (unrotEntries a d d) (names unrotDirs)) {z z' : String}
    {s s' : Site} (h : (z, s, Kind.z) ∈ unrotEntries a d d) (h' : (z', s', Kind.z) ∈ unrotEntries a d d)
    (hn : ∀ e, e ∈ l.getNeighbors [z] none → e ∈ l.getNeighbors [z'] none) : z = z' := by
  obtain ⟨r, c⟩ := s
  obtain ⟨r', c'⟩ := s'
  have g := unrotEntry h
  have g' := unrotEntry h'
  simp only [UnrotSite] at g g'
  obtain ⟨e1, h1⟩ := exists_unrotEntry (a := a) (dx := d) (dz := d) (r := r + 1) (c := c) (k := .data) (by simp only [UnrotSite]; omega)
  obtain ⟨e2, h2⟩ := exists_unrotEntry (a := a) (dx := d) (dz := d) (r := r + -1) (c := c) (k := .data) (by simp only [UnrotSite]; omega)
  have m1 := hn e1 ((hg.mem_neighbors_anc h (by simp)).2 ⟨(1, 0), "east", by decide, by simpa using h1⟩)
  have m2 := hn e2 ((hg.mem_neighbors_anc h (by simp)).2 ⟨(-1, 0), "west", by decide, by simpa using h2⟩)
  obtain ⟨s1, d1, n1, k1⟩ := (hg.mem_neighbors_anc h' (by simp)).1 m1
  obtain ⟨s2, d2, n2, k2⟩ := (hg.mem_neighbors_anc h' (by simp)).1 m2
  have u1 := (hg.unique h1 k1).1
  have u2 := (hg.unique h2 k2).1
  have : r = r' ∧ c = c' := by
    rcases mem_unrotNames.1 n1 with ⟨rfl, -⟩ | ⟨rfl, -⟩ | ⟨rfl, -⟩ | ⟨rfl, -⟩ <;>
    rcases mem_unrotNames.1 n2 with ⟨rfl, -⟩ | ⟨rfl, -⟩ | ⟨rfl, -⟩ | ⟨rfl, -⟩ <;>
    · simp at u1 u2
      omega
  obtain ⟨rfl, rfl⟩ := this
  exact (hg.unique' h h').1

theorem unrotSetTransS_exists {a : Args} {d : Int} {l0 l : Layout} {q : String}
    (h : unrotSurfaceCodeRectangle d d a = .ok l0) (hw : WithParams l0 l) (hq : q ∈ dataOf (unrotEntries a d d))
    (h2 : (l.getNeighbors [q] none).length = 2) : ∃ l', unrotSetTransS q l = (.ok (), l') := by
  have hp := (unrot_placed h).params hw
  have hu := isUnrot_of_params h hw
  have hg := hp.grid
  have hd := distances_params hw
  have hd0 := unrot_distances h
  obtain ⟨⟨r, c⟩, hqs⟩ := mem_dataOf.1 hq
  obtain ⟨d2, hr, hc⟩ := unrot_corner_site hg hqs h2
  obtain ⟨x, e1, e2, he1, he2, hcor, k1, k2, k3, k4⟩ := unrot_corner_exists hp d2 hqs hr hc
  obtain ⟨D, hD', hD⟩ := unrot_labelDict hp
  simp only at hr hc k1 k2 k3 k4
  have m1 : (r = 0 ∧ e1 = 1 ∨ r = 2 * d - 2 ∧ e1 = -1) := by
    rcases hr with h | h
    · exact Or.inl ⟨h, k1 h⟩
    · exact Or.inr ⟨h, k2 h⟩
  have m2 : (c = 0 ∧ e2 = 1 ∨ c = 2 * d - 2 ∧ e2 = -1) := by
    rcases hc with h | h
    · exact Or.inl ⟨h, k3 h⟩
    · exact Or.inr ⟨h, k4 h⟩
  have hε : e1 * e2 = 1 ∨ e1 * e2 = -1 := by rcases he1 with rfl | rfl <;> rcases he2 with rfl | rfl <;> simp
  have href : ∀ {q' : String} {s : Site} {k : Kind}, (q', s, k) ∈ unrotEntries a d d →
      ∃ y, reflected l D (place a.initPoint (r, c)) ((e1 : Rat), (e2 : Rat)) q' = .ok y := by
    intro q' s k hm
    obtain ⟨y, hy⟩ := unrot_refl_exists (p := (r, c)) m1 m2 hm
    exact ⟨y, (unrot_reflected hp hD he1 he2 hm y).2 ⟨_, hy⟩⟩
  have h1 : dataQubits l = .ok (dataOf (unrotEntries a d d)) := hg.getQubits_data
  have h2 : ancQubits l = .ok (ancOf (unrotEntries a d d)) := hg.getQubits_anc
  have h3 : stabQubits l "x_type" = .ok (xOf (unrotEntries a d d)) := hg.getQubits_x
  have h4 : stabQubits l "z_type" = .ok (zOf (unrotEntries a d d)) := hg.getQubits_z
  obtain ⟨cz, hsw⟩ := foldPairs_exists (l := l) (D := D) (p := place a.initPoint (r, c)) (v := ((e1 : Rat), (e2 : Rat)))
    (dataOf (unrotEntries a d d)) (fun e he => by obtain ⟨s, he⟩ := mem_dataOf.1 he; exact href he) []
  have hdz : l.distanceZ = d := by rw [hd.2, hd0.2]
  have hDd := diag_labels (l := l) hD he1 he2 hqs
  obtain ⟨sg, hsg⟩ := diagonalGates_exists (D := D) (p := place a.initPoint (r, c)) (v := ((e1 : Rat), (e2 : Rat)))
    (List.range (2 * d - 1).toNat) (fun k hk => by
      rw [List.mem_range] at hk
      obtain ⟨e, he⟩ := exists_unrotEntry (a := a) (dx := d) (dz := d) (r := (diag (r, c) e1 e2 k).1)
        (c := (diag (r, c) e1 e2 k).2) (k := .data) (by
          simp only [UnrotSite, diag]
          rcases m1 with ⟨rfl, rfl⟩ | ⟨rfl, rfl⟩ <;> rcases m2 with ⟨rfl, rfl⟩ | ⟨rfl, rfl⟩ <;> omega)
      exact ⟨e, (hDd k e).2 he⟩)
    ((dataOf (unrotEntries a d d)).foldl (fun acc d => Dict.set acc (some d) "I") [])
  obtain ⟨P, G, sw, hP, hG, hus⟩ := us_tables hp hD hqs m1 m2 hsw hsg
  obtain ⟨hGv, hPs, hpw, hnn⟩ := hus.vals hg
  have hfind : ∀ x s, (x, s, Kind.x) ∈ unrotEntries a d d → ∀ z, (z, refl (r, c) (e1 * e2) s, Kind.z) ∈ unrotEntries a d d →
      Finds l (zstabDict l (zOf (unrotEntries a d d))) cz sg false x z := by
    intro x s hx z hz
    have hxm : x ∈ xOf (unrotEntries a d d) := mem_xOf.2 ⟨s, hx⟩
    obtain ⟨z', f1, f2, f3⟩ := finds_exists (withPair := false) hg hxm hG hGv hP hPs (fun _ => hpw)
      (fun d' hd' hn => ⟨rfl, hnn d' hd' hn⟩) (mem_zOf.2 ⟨_, hz⟩) (fun f => by
        rw [← ((hus.nbrs hg hε hx (by simp) hz).map f).sum_eq, List.map_map]
        congr 1
        exact List.map_congr_left fun e he => hus.term hg (nbr_data hg (mem_anc_of_x hxm) he) f)
    obtain ⟨s', hz'⟩ := mem_zOf.1 f2
    rwa [← unrot_z_nbrs hg hz' hz fun e he => f3.mem_iff.1 he]
  obtain ⟨new, hnew⟩ := newStabS_exists (l := l) (zs := zstabDict l (zOf (unrotEntries a d d))) (cz := cz) (s := sg)
    (withPair := false) (skip := none) (xOf (unrotEntries a d d)) (fun e he _ => by
      obtain ⟨s, he⟩ := mem_xOf.1 he
      obtain ⟨z, hz⟩ := unrot_refl_exists (p := (r, c)) m1 m2 he
      exact ⟨z, hfind e s he z hz⟩) []
  have hzx : ∀ key z, (zstabDict l (zOf (unrotEntries a d d))).get? key = some z → z ∉ xOf (unrotEntries a d d) :=
    fun key z hz => x_not_z hg (zstabDict_get _ hz).1
  obtain ⟨n1, n2⟩ := newStabS_ok _ hnew hzx
  obtain ⟨l1, hs1, hk1⟩ := storeData_exists (label := "trans-s_" ++ a.label) (key := "cz") (cz := cz)
    (s := sg) (data := dataOf (unrotEntries a d d)) (l := l) (fun e he => by
      obtain ⟨s, hes⟩ := mem_dataOf.1 he
      exact ⟨mem_keys_of_placed hg hes, ⟨_, hP e he⟩, _, hG e he⟩)
  obtain ⟨l2, hs2, -⟩ := storeAnc_exists (label := "trans-s_" ++ a.label) (new := new) (anc := ancOf (unrotEntries a d d))
    (l := l1) (fun e he => by
      obtain ⟨s, k, hes, -⟩ := mem_ancOf.1 he
      refine ⟨by rw [hk1]; exact mem_keys_of_placed hg hes, ?_⟩
      rcases anc_cases he with hx | hz
      · rcases n1 e hx with ⟨-, h⟩ | ⟨-, z, -, h, -⟩
        · exact ⟨_, h⟩
        · exact ⟨_, h⟩
      · obtain ⟨s, hz⟩ := mem_zOf.1 hz
        obtain ⟨y, hy⟩ := unrot_refl_exists (p := (r, c)) m1 m2 hz
        have hy' : (e, refl (r, c) (e1 * e2) (refl (r, c) (e1 * e2) s), Kind.z) ∈ unrotEntries a d d := by
          rw [refl_refl hε]; exact hz
        have hf := hfind y _ hy e hy'
        rcases n1 y (mem_xOf.2 ⟨_, hy⟩) with ⟨h, -⟩ | ⟨-, z, hfz, -, h⟩
        · simp at h
        · have : z = e := by
            obtain ⟨r1, key1, a1, a2, a3⟩ := hf
            obtain ⟨r2, key2, b1, b2, b3⟩ := hfz
            rw [a1, Except.ok.injEq] at b1
            subst b1
            rw [a2, Except.ok.injEq] at b2
            subst b2
            rw [a3, Option.some.injEq] at b3
            exact b3.symm
          exact ⟨_, this ▸ h⟩)
  refine ⟨l2, ?_⟩
  unfold unrotSetTransS
  have hdist : l.distanceZ = l.distanceX + 0 := by rw [hd.1, hd.2, hd0.1, hd0.2]; simp
  rw [PyM.bind_ok (PyM.get_apply l), hp.checkFold hu.code hdist hq hu.log]
  simp only [h1, h2, h3, h4, firstLogical_of hu.log, hcor, hD', hsw, hdz, hsg, hnew, Bind.bind, PyM.bind, PyM.ofExcept, hs1, hs2]

/-- The logical X becomes the product of the logical X and Z. -/
theorem USTable.logical {l : Layout} {a : Args} {d : Int} {p : Site} {e1 e2 : Int} {P : String → Option String}
    {G : String → String} {sw : String → String} (hu : IsUnrot a d d l)
    (ht : USTable (unrotEntries a d d) p e1 e2 P G sw) (hd1 : 1 ≤ d)
    (hc1 : p.1 = 0 ∧ e1 = 1 ∨ p.1 = 2 * d - 2 ∧ e1 = -1) (hc2 : p.2 = 0 ∧ e2 = 1 ∨ p.2 = 2 * d - 2 ∧ e2 = -1)
    (f : String → ZMod 2) :
    ((logXList a d (2 * d - 1)).map (sTerm P G f)).sum = ((logZList a d).map f).sum +
      ((if e1 * e2 = 1 then [] else zOf (unrotEntries a d d)).map fun z => ((l.getNeighbors [z] none).map f).sum).sum := by
  have hg := hu.grid
  have he1 : e1 = 1 ∨ e1 = -1 := by omega
  have he2 : e2 = 1 ∨ e2 = -1 := by omega
  have hε : e1 * e2 = 1 ∨ e1 * e2 = -1 := by rcases he1 with rfl | rfl <;> rcases he2 with rfl | rfl <;> simp
  have hXd : ∀ e ∈ logXList a d (2 * d - 1), e ∈ dataOf (unrotEntries a d d) := fun e he =>
    mem_dataOf.2 (unrot_logX_data hd1 he)
  have hZd : ∀ e ∈ logZList a d, e ∈ dataOf (unrotEntries a d d) := fun e he =>
    mem_dataOf.2 (unrot_logZ_data hd1 he)
  have hre : ∀ (S : List String) (f : String → ZMod 2), S.Nodup → (∀ e ∈ S, e ∈ dataOf (unrotEntries a d d)) →
      (S.map fun e => f (sw e)).sum = ((dataOf (unrotEntries a d d)).map fun e => if sw e ∈ S then f e else 0).sum := by
    intro S f hS hSd
    rw [sum_sub hg hS hSd, ← ((ht.data_perm hg hε).map _).sum_eq, List.map_map]
    congr 1
    refine List.map_congr_left fun e he => ?_
    simp only [Function.comp_apply, (ht.invol hg hε he).2]
  have e1' : ((logXList a d (2 * d - 1)).map (sTerm P G f)).sum = ((logXList a d (2 * d - 1)).map fun e => f (sw e)).sum := by
    congr 1
    exact List.map_congr_left fun e he => ht.term hg (hXd e he) f
  rw [e1', hre _ _ (logXList_nodup a d (by omega)) hXd, sum_sub hg (logZList_nodup a d) hZd, sum_stabs hg, ← List.sum_map_add]
  · congr 1
    refine List.map_congr_left fun e he => ?_
    obtain ⟨⟨r, c⟩, he⟩ := mem_dataOf.1 he
    have h1 := ht.swap _ _ he
    simp only [refl] at h1
    simp only [unrot_mem_logX h1, unrot_mem_logZ hd1 he]
    rcases hε with hε | hε
    · have : p.2 + e1 * e2 * (r - p.1) = r := by
        rw [hε]
        have : e1 = e2 := by rcases he1 with rfl | rfl <;> rcases he2 with rfl | rfl <;> simp at hε ⊢
        omega
      rw [if_pos hε]
      simp only [this]
      simp
    · have : (p.2 + e1 * e2 * (r - p.1) = 0) ↔ r = 2 * d - 2 := by
        rw [hε]
        have : e1 = -e2 := by rcases he1 with rfl | rfl <;> rcases he2 with rfl | rfl <;> simp at hε ⊢
        omega
      rw [if_neg (show ¬ e1 * e2 = 1 by omega), unrot_count_z hg he]
      simp only [this]
      by_cases h1 : r = 0 <;> by_cases h2 : r = 2 * d - 2
      · rw [if_pos h1, if_pos h2, if_pos h1, if_pos h2, CharTwo.add_self_eq_zero]; simp
      · rw [if_pos h1, if_neg h2, if_pos h1, if_neg h2, add_zero, one_mul, CharTwo.add_self_eq_zero]
      · rw [if_neg h1, if_pos h2, if_neg h1, if_pos h2]; simp
      · rw [if_neg h1, if_neg h2, if_neg h1, if_neg h2]; simp
  · intro z hz
    split at hz
    · simp at hz
    · exact mem_anc_of_z hz

end SurfaceSim
