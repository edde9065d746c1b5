/-
The transversal H gate of unrotated codes.
-/
import Verif.Lemmas.Tables
import Verif.Lemmas.GateEffects

namespace SurfaceSim
open Spec NoiseModel Blocks LayoutLib LogGates

/-- What `set_trans_h` stores. -/
structure HTable (l : Layout) (L : List (String × Site × Kind)) (label : String) (p : Site) (ε : Int) : Prop where
  data : ∀ d s, (d, s, Kind.data) ∈ L → ∃ d', (d', refl p ε s, Kind.data) ∈ L ∧
    l.param label d = .ok (.gate [("swap", atomOf (if d' ≠ d then some d' else none)), ("local", .str "H")])
  anc : ∀ x s k, (x, s, k) ∈ L → k ≠ .data → ∃ y, (y, refl p ε s, flipKind k) ∈ L ∧
    l.param label x = .ok (.gate [("new_stab_gen", .strs [y])])

theorem HTable.congr {l l' : Layout} {L : List (String × Site × Kind)} {label : String} {p : Site} {ε : Int}
    (h : HTable l L label p ε) (he : ∀ q, l'.param label q = l.param label q) : HTable l' L label p ε :=
  ⟨fun d s hd => by rw [he]; exact h.data d s hd, fun x s k hx hk => by rw [he]; exact h.anc x s k hx hk⟩

theorem firstLogical_of {l : Layout} {label : String} (h : l.logQubits = [label]) : firstLogical l = .ok label := by
  unfold firstLogical
  rw [h]
  rfl

theorem unrotSetTransH_ok {a : Args} {dx dz : Int} {l0 l l' : Layout} {q : String}
    (h : unrotSurfaceCodeRectangle dx dz a = .ok l0) (hw : WithParams l0 l) (e : unrotSetTransH q l = (.ok (), l')) :
    dz = dx ∧ WithParams l l' ∧ (∀ p q', p ≠ "trans-h_" ++ a.label → l'.param p q' = l.param p q') ∧ ∃ p ε, (q, p, Kind.data) ∈ unrotEntries a dx dz ∧ (ε = 1 ∨ ε = -1) ∧
      HTable l' (unrotEntries a dx dz) ("trans-h_" ++ a.label) p ε := by
  have hp := (unrot_placed h).params hw
  have hu := isUnrot_of_params h hw
  have hg := hp.grid
  unfold unrotSetTransH at e
  rw [PyM.bind_ok (PyM.get_apply l)] at e
  obtain ⟨_, hc, e⟩ := ofExcept_bind_ok e
  obtain ⟨data, h1, e⟩ := ofExcept_bind_ok e
  obtain ⟨anc, h2, e⟩ := ofExcept_bind_ok e
  obtain ⟨xs, h3, e⟩ := ofExcept_bind_ok e
  obtain ⟨zs, h4, e⟩ := ofExcept_bind_ok e
  obtain ⟨lab, h5, e⟩ := ofExcept_bind_ok e
  obtain ⟨⟨cx, cp, cv⟩, h6, e⟩ := ofExcept_bind_ok e
  obtain ⟨D, h7, e⟩ := ofExcept_bind_ok e
  obtain ⟨sw, h8, e⟩ := ofExcept_bind_ok e
  obtain ⟨_, l1, h9, e⟩ := PyM.bind_eq_ok e
  obtain ⟨new, h10, hz⟩ := ofExcept_bind_ok e
  unfold dataQubits at h1
  unfold ancQubits at h2
  unfold stabQubits at h3 h4
  rw [hg.getQubits_data, Except.ok.injEq] at h1
  rw [hg.getQubits_anc, Except.ok.injEq] at h2
  rw [hg.getQubits_x, Except.ok.injEq] at h3
  rw [hg.getQubits_z, Except.ok.injEq] at h4
  rw [firstLogical_of hu.log, Except.ok.injEq] at h5
  subst h1 h2 h3 h4 h5
  obtain ⟨hdist, hq⟩ := checkFold_ok hg hc
  obtain ⟨p, hq⟩ := mem_dataOf.1 hq
  obtain ⟨rfl, e1, e2, he1, he2, rfl⟩ := unrot_corner hp hq h6
  obtain ⟨D', hD', hD⟩ := unrot_labelDict hp
  rw [h7, Except.ok.injEq] at hD'
  subst hD'
  have hd := distances_params hw
  have hd0 := unrot_distances h
  obtain ⟨k1, k2, k3⟩ := storeData_ok (gateLabel_h _) h9
  obtain ⟨m1, m2, m3⟩ := storeAnc_ok (gateLabel_h _) hz
  obtain ⟨f1, -⟩ := foldPairs_ok _ h8
  obtain ⟨n1, -⟩ := newStabH_ok _ h10
  have hε : e1 * e2 = 1 ∨ e1 * e2 = -1 := by rcases he1 with rfl | rfl <;> rcases he2 with rfl | rfl <;> simp
  refine ⟨by rw [hd.1, hd.2, hd0.1, hd0.2] at hdist; simpa using hdist, WithParams.trans k1 m1,
    fun p' q' hp' => by rw [m3 _ _ fun h => absurd h hp', k3 _ _ fun h => absurd h hp'], p, e1 * e2, hq, hε, ?_, ?_⟩
  · intro d s hds
    have hdm : d ∈ dataOf (unrotEntries a dx dz) := mem_dataOf.2 ⟨s, hds⟩
    obtain ⟨d', hr, hg1⟩ := f1 d hdm
    obtain ⟨kd, hd'⟩ := (unrot_reflected hp hD he1 he2 hds d').1 hr
    have hkd := unrot_refl_kind hε hq hds hd'
    simp only [flipKind] at hkd
    subst hkd
    obtain ⟨pp, gg, q1, q2, q3⟩ := k2 d hdm
    rw [hg1, Option.some.injEq] at q1
    rw [get?_const, if_pos (by exact hdm), Option.some.injEq] at q2
    subst q1 q2
    refine ⟨d', hd', ?_⟩
    rw [m3 _ _ fun _ hm => ?_]
    · exact q3
    · obtain ⟨s', k', hk', hk''⟩ := mem_ancOf.1 hm
      exact hk'' (hg.unique hk' hds).2
  · intro x s k hxs hk
    have hxm : x ∈ ancOf (unrotEntries a dx dz) := mem_ancOf.2 ⟨s, k, hxs, hk⟩
    obtain ⟨y, hr, hy⟩ := n1 x hxm
    obtain ⟨ky, hy'⟩ := (unrot_reflected hp hD he1 he2 hxs y).1 hr
    have := unrot_refl_kind hε hq hxs hy'
    subst this
    obtain ⟨g, q1, q2⟩ := m2 x hxm
    rw [hy, Option.some.injEq] at q1
    subst q1
    exact ⟨y, hy', q2⟩

section
variable {l : Layout} {a : Args} {dx dz : Int} {label : String} {p : Site} {ε : Int}

/-- The qubit with which the gate exchanges `d`. -/
def swapWith (l : Layout) (label d : String) : String := (partnerAt l label "swap" d).getD d

theorem HTable.swapWith (ht : HTable l (unrotEntries a dx dz) label p ε) {d : String} {s : Site}
    (hd : (d, s, Kind.data) ∈ unrotEntries a dx dz) :
    (swapWith l label d, refl p ε s, Kind.data) ∈ unrotEntries a dx dz ∧
      partnerAt l label "swap" d = if SurfaceSim.swapWith l label d = d then none else some (SurfaceSim.swapWith l label d) := by
  obtain ⟨d', h1, h2⟩ := ht.data d s hd
  have : partnerAt l label "swap" d = if d' ≠ d then some d' else none := by
    unfold partnerAt gateAt
    rw [h2]
    by_cases hdd : d' = d <;> simp [hdd, Dict.get?, atomOf]
  have hs : SurfaceSim.swapWith l label d = d' := by
    unfold SurfaceSim.swapWith
    rw [this]
    by_cases hdd : d' = d <;> simp [hdd]
  rw [hs]
  refine ⟨h1, ?_⟩
  rw [this]
  by_cases hdd : d' = d <;> simp [hdd]

theorem HTable.newGen (ht : HTable l (unrotEntries a dx dz) label p ε) {x : String} {s : Site} {k : Kind}
    (hx : (x, s, k) ∈ unrotEntries a dx dz) (hk : k ≠ .data) :
    ∃ y, (y, refl p ε s, flipKind k) ∈ unrotEntries a dx dz ∧ Spec.newGen l label x = [y] := by
  obtain ⟨y, h1, h2⟩ := ht.anc x s k hx hk
  refine ⟨y, h1, ?_⟩
  unfold Spec.newGen gateAt
  rw [h2]
  simp [Dict.get?]

theorem HTable.symTable (hg : OnGrid l (unrotEntries a dx dz) (names unrotDirs)) (hε : ε = 1 ∨ ε = -1)
    (ht : HTable l (unrotEntries a dx dz) label p ε) :
    SymTable l (dataOf (unrotEntries a dx dz)) label "swap" (partnerAt l label "swap") fun _ => "H" := by
  constructor
  · intro d hd
    obtain ⟨s, hd⟩ := mem_dataOf.1 hd
    obtain ⟨d', h1, h2⟩ := ht.data d s hd
    rw [h2]
    congr 4
    unfold partnerAt gateAt
    rw [h2]
    by_cases hdd : d' = d <;> simp [hdd, Dict.get?, atomOf]
  · intro d hd e he
    obtain ⟨s, hd⟩ := mem_dataOf.1 hd
    obtain ⟨h1, h2⟩ := ht.swapWith hd
    rw [h2] at he
    split at he
    · simp at he
    · rename_i hne
      simp only [Option.some.injEq] at he
      rw [he] at h1 hne
      refine ⟨mem_dataOf.2 ⟨_, h1⟩, hne, ?_⟩
      obtain ⟨h3, h4⟩ := ht.swapWith h1
      rw [refl_refl hε] at h3
      have := (hg.unique' h3 hd).1
      rw [this] at h4
      rw [h4, if_neg (Ne.symm hne)]

/-- The neighbours of the reflected ancilla are the reflected neighbours. -/
theorem HTable.nbrs (hg : OnGrid l (unrotEntries a dx dz) (names unrotDirs)) (hε : ε = 1 ∨ ε = -1)
    (ht : HTable l (unrotEntries a dx dz) label p ε) {x y : String} {s : Site} {k : Kind}
    (hx : (x, s, k) ∈ unrotEntries a dx dz) (hk : k ≠ .data) (hy : (y, refl p ε s, flipKind k) ∈ unrotEntries a dx dz) :
    ((l.getNeighbors [x] none).map (SurfaceSim.swapWith l label)).Perm (l.getNeighbors [y] none) := by
  have hky : flipKind k ≠ .data := by cases k <;> simp [flipKind] at hk ⊢
  have key : ∀ {x y : String} {s : Site} {k : Kind}, (x, s, k) ∈ unrotEntries a dx dz → k ≠ .data →
      (y, refl p ε s, flipKind k) ∈ unrotEntries a dx dz → ∀ d ∈ l.getNeighbors [x] none,
      ∃ s', (d, s', Kind.data) ∈ unrotEntries a dx dz ∧
        SurfaceSim.swapWith l label d ∈ l.getNeighbors [y] none ∧
        (SurfaceSim.swapWith l label d, refl p ε s', Kind.data) ∈ unrotEntries a dx dz := by
    intro x y s k hx hk hy d hd
    have hky : flipKind k ≠ .data := by cases k <;> simp [flipKind] at hk ⊢
    obtain ⟨sh, dir, hsh, hd⟩ := (hg.mem_neighbors_anc hx hk).1 hd
    obtain ⟨h1, -⟩ := ht.swapWith hd
    obtain ⟨sh', dir', hsh', he⟩ := refl_nbr (p := p) hε (s := s) hsh
    refine ⟨_, hd, (hg.mem_neighbors_anc hy hky).2 ⟨sh', dir', hsh', ?_⟩, h1⟩
    rw [← he]
    exact h1
  have hinj : ∀ d e, ∀ s1 s2, (d, s1, Kind.data) ∈ unrotEntries a dx dz → (e, s2, Kind.data) ∈ unrotEntries a dx dz →
      SurfaceSim.swapWith l label d = SurfaceSim.swapWith l label e → d = e := by
    intro d e s1 s2 hd he hde
    have h1 := (ht.swapWith hd).1
    have h2 := (ht.swapWith he).1
    rw [hde] at h1
    have h3 := (hg.unique h1 h2).1
    have h4 := congrArg (refl p ε) h3
    rw [refl_refl hε, refl_refl hε] at h4
    subst h4
    exact (hg.unique' hd he).1
  rw [List.perm_ext_iff_of_nodup]
  · intro e
    rw [List.mem_map]
    constructor
    · rintro ⟨d, hd, rfl⟩
      obtain ⟨-, -, h, -⟩ := key hx hk hy d hd
      exact h
    · intro he
      have hx' : (x, refl p ε (refl p ε s), flipKind (flipKind k)) ∈ unrotEntries a dx dz := by
        rw [refl_refl hε]
        cases k <;> simpa [flipKind] using hx
      obtain ⟨s', h1, h2, h3⟩ := key hy hky hx' e he
      refine ⟨_, h2, ?_⟩
      have h4 := (ht.swapWith h3).1
      rw [refl_refl hε] at h4
      exact (hg.unique' h4 h1).1
  · refine List.Nodup.map_on ?_ (hg.neighbors_nodup x)
    intro d hd e he hde
    obtain ⟨s1, h1, -⟩ := key hx hk hy d hd
    obtain ⟨s2, h2, -⟩ := key hx hk hy e he
    exact hinj d e s1 s2 h1 h2 hde
  · exact hg.neighbors_nodup y

/-- The gate exchanges the data qubits. -/
theorem HTable.data_perm (hg : OnGrid l (unrotEntries a dx dz) (names unrotDirs)) (hε : ε = 1 ∨ ε = -1)
    (ht : HTable l (unrotEntries a dx dz) label p ε) :
    ((dataOf (unrotEntries a dx dz)).map (SurfaceSim.swapWith l label)).Perm (dataOf (unrotEntries a dx dz)) := by
  have hinv : ∀ d ∈ dataOf (unrotEntries a dx dz), SurfaceSim.swapWith l label (SurfaceSim.swapWith l label d) = d := by
    intro d hd
    obtain ⟨s, hd⟩ := mem_dataOf.1 hd
    have h1 := (ht.swapWith (ht.swapWith hd).1).1
    rw [refl_refl hε] at h1
    exact (hg.unique' h1 hd).1
  have hmem : ∀ d ∈ dataOf (unrotEntries a dx dz), SurfaceSim.swapWith l label d ∈ dataOf (unrotEntries a dx dz) := by
    intro d hd
    obtain ⟨s, hd⟩ := mem_dataOf.1 hd
    exact mem_dataOf.2 ⟨_, (ht.swapWith hd).1⟩
  rw [List.perm_ext_iff_of_nodup]
  · intro e
    rw [List.mem_map]
    constructor
    · rintro ⟨d, hd, rfl⟩
      exact hmem d hd
    · exact fun he => ⟨_, hmem e he, hinv e he⟩
  · refine List.Nodup.map_on ?_ (hg.labelsOf_nodup _)
    intro d hd e he hde
    rw [← hinv d hd, ← hinv e he, hde]
  · exact hg.labelsOf_nodup _

/-- The reflection is at one of the diagonals. -/
theorem HTable.diagonal (hε : ε = 1 ∨ ε = -1) {dx : Int} {q : String} (hq : (q, p, Kind.data) ∈ unrotEntries a dx dx)
    (ht : HTable l (unrotEntries a dx dx) label p ε) :
    (ε = 1 ∧ p.1 = p.2) ∨ (ε = -1 ∧ p.1 + p.2 = 2 * dx - 2) := by
  obtain ⟨pr, pc⟩ := p
  have gq := unrotEntry hq
  simp only [UnrotSite] at gq
  obtain ⟨d1, h1⟩ := exists_unrotEntry (a := a) (dx := dx) (dz := dx) (r := 0) (c := 0) (k := .data)
    (by simp only [UnrotSite]; omega)
  obtain ⟨d2, h2⟩ := exists_unrotEntry (a := a) (dx := dx) (dz := dx) (r := 2 * dx - 2) (c := 2 * dx - 2) (k := .data)
    (by simp only [UnrotSite]; omega)
  have g1 := unrotEntry (ht.swapWith h1).1
  have g2 := unrotEntry (ht.swapWith h2).1
  simp only [UnrotSite] at g1 g2
  rcases hε with rfl | rfl
  · left; simp; omega
  · right; simp; omega

end

section
variable {l : Layout} {a : Args} {d : Int} {p : Site} {ε : Int} {nm : NoiseModel}

theorem ancOf_not_data {L : List (String × Site × Kind)} {dirs : List (Site × String)} (hg : OnGrid l L dirs) {x : String}
    (hx : x ∈ ancOf L) : x ∉ dataOf L := by
  intro h
  obtain ⟨s, k, h1, h2⟩ := mem_ancOf.1 hx
  obtain ⟨s', h3⟩ := mem_dataOf.1 h
  exact h2 (hg.unique h1 h3).2

theorem HTable.applies (hu : IsUnrot a d d l) (hr : CanRun nm l) (o : SetOrder) (hε : ε = 1 ∨ ε = -1)
    (ht : HTable l (unrotEntries a d d) ("trans-h_" ++ a.label) p ε) :
    AppliesGate nm [l] ("trans-h_" ++ a.label) (sumGen (transHIter o nm l)) := by
  have hg := hu.grid
  have hb := acts_transH hg hr o hu.code (firstLogical_of hu.log) (ht.symTable hg hε)
  refine appliesGate_of_acts hg hr hb (fun x hx _ _ => ?_) fun x hx fx fz => ?_
  · simp [hx]
  · obtain ⟨s, k, hxs, hk⟩ := mem_ancOf.1 hx
    obtain ⟨y, hy, hn⟩ := ht.newGen hxs hk
    rw [hn]
    simp only [List.map_cons, List.map_nil, List.sum_cons, List.sum_nil, add_zero]
    unfold stabSum
    rw [← ((ht.nbrs hg hε hxs hk hy).map _).sum_eq, List.map_map]
    congr 1
    refine List.map_congr_left fun e he => ?_
    have hed : e ∈ dataOf (unrotEntries a d d) := nbr_data hg hx he
    have hxx : x ∈ xOf (unrotEntries a d d) ↔ k = .x := by
      rw [mem_xOf]
      constructor
      · rintro ⟨s', h⟩; exact (hg.unique hxs h).2
      · rintro rfl; exact ⟨s, hxs⟩
    have hyx : y ∈ xOf (unrotEntries a d d) ↔ k = .z := by
      rw [mem_xOf]
      constructor
      · rintro ⟨s', h⟩
        have := (hg.unique hy h).2
        cases k <;> simp [flipKind] at this ⊢
      · rintro rfl; exact ⟨_, hy⟩
    simp only [if_pos hed, Function.comp_apply]
    cases k
    · exact absurd rfl hk
    · simp [hxx, hyx, SurfaceSim.swapWith]
    · simp [hxx, hyx, SurfaceSim.swapWith]

theorem HTable.involutive (hu : IsUnrot a d d l) (hε : ε = 1 ∨ ε = -1) {label : String}
    (ht : HTable l (unrotEntries a d d) label p ε) : Involutive [l] label := by
  have hg := hu.grid
  intro l' hl' x hx
  rw [List.mem_singleton] at hl'
  subst hl'
  rw [ancOfLayout_grid hg] at hx
  obtain ⟨s, k, hxs, hk⟩ := mem_ancOf.1 hx
  obtain ⟨y, hy, hn⟩ := ht.newGen hxs hk
  have hky : flipKind k ≠ .data := by cases k <;> simp [flipKind] at hk ⊢
  have hya : y ∈ ancOf (unrotEntries a d d) := mem_ancOf.2 ⟨_, _, hy, hky⟩
  obtain ⟨x', hx', hn'⟩ := ht.newGen hy hky
  rw [refl_refl hε] at hx'
  have := (hg.unique' hx' hxs).1
  subst this
  refine ⟨by rw [hn]; simp, fun b hb => ⟨l', by simp, ?_⟩, fun y' => ?_⟩
  · rw [hn, List.mem_singleton] at hb
    subst hb
    rw [ancOfLayout_grid hg]
    exact hya
  · rw [hn]
    simp only [List.flatMap_cons, List.flatMap_nil, List.append_nil, ancOfLayout_grid hg, if_pos hya, hn']
    by_cases h : y' = x'
    · subst h; simp
    · simp [h, Ne.symm h]

theorem HTable.mapsLogical (hu : IsUnrot a d d l) (hr : CanRun nm l) (o : SetOrder) (hε : ε = 1 ∨ ε = -1) {q : String}
    (hq : (q, p, Kind.data) ∈ unrotEntries a d d) (ht : HTable l (unrotEntries a d d) ("trans-h_" ++ a.label) p ε)
    (isX : Bool) :
    MapsLogical nm [l] (sumGen (transHIter o nm l)) l a.label isX [(l, a.label, !isX)] := by
  have hg := hu.grid
  have hd1 : 1 ≤ d := by
    have := unrotEntry (r := p.1) (c := p.2) hq
    simp only [UnrotSite] at this
    omega
  have hb := acts_transH hg hr o hu.code (firstLogical_of hu.log) (ht.symTable hg hε)
  have hdiag := ht.diagonal hε hq
  have hX : l.logX.get? a.label = some (logXList a d (2 * d - 1)) := by rw [hu.logX]; simp [Dict.get?]
  have hZ : l.logZ.get? a.label = some (logZList a d) := by rw [hu.logZ]; simp [Dict.get?]
  have hXd : ∀ e ∈ logXList a d (2 * d - 1), e ∈ dataOf (unrotEntries a d d) := fun e he =>
    mem_dataOf.2 (unrot_logX_data hd1 he)
  have hZd : ∀ e ∈ logZList a d, e ∈ dataOf (unrotEntries a d d) := fun e he =>
    mem_dataOf.2 (unrot_logZ_data hd1 he)
  have hre : ∀ (S : List String) (f : String → ZMod 2), S.Nodup → (∀ e ∈ S, e ∈ dataOf (unrotEntries a d d)) →
      (S.map fun e => f (SurfaceSim.swapWith l ("trans-h_" ++ a.label) e)).sum =
      ((dataOf (unrotEntries a d d)).map fun e =>
        if SurfaceSim.swapWith l ("trans-h_" ++ a.label) e ∈ S then f e else 0).sum := by
    intro S f hS hSd
    rw [sum_sub hg hS hSd, ← ((ht.data_perm hg hε).map _).sum_eq, List.map_map]
    congr 1
    refine List.map_congr_left fun e he => ?_
    obtain ⟨s, he⟩ := mem_dataOf.1 he
    have h1 := (ht.swapWith (ht.swapWith he).1).1
    rw [refl_refl hε] at h1
    have h2 := (hg.unique' h1 he).1
    simp only [Function.comp_apply, h2]
  have hsub : ∀ (i : Bool), ∀ z ∈ (if i then xOf (unrotEntries a d d) else zOf (unrotEntries a d d)),
      z ∈ ancOf (unrotEntries a d d) := by
    intro i z hz
    cases i
    · obtain ⟨s, h⟩ := mem_zOf.1 (by simpa using hz); exact mem_ancOf.2 ⟨_, _, h, by simp⟩
    · obtain ⟨s, h⟩ := mem_xOf.1 (by simpa using hz); exact mem_ancOf.2 ⟨_, _, h, by simp⟩
  refine mapsLogical_of_acts (image := [!isX]) (S := if isX then logXList a d (2 * d - 1) else logZList a d)
    (T := if ε = 1 then [] else if isX then zOf (unrotEntries a d d) else xOf (unrotEntries a d d)) hg hr hb
    ?_ ?_ ?_ fun fx fz => ?_
  · cases isX
    · simpa using hZ
    · simpa using hX
  · cases isX
    · simpa using hZd
    · simpa using hXd
  · intro z hz
    split at hz
    · simp at hz
    · cases isX
      · exact hsub true z (by simpa using hz)
      · exact hsub false z (by simpa using hz)
  · cases isX
    · simp only [Bool.false_eq_true, if_false, Bool.not_false, List.map_cons, List.map_nil, List.sum_cons, List.sum_nil,
        add_zero, if_true, hX, Option.getD_some]
      have e1 : ((logZList a d).map fun e => if e ∈ dataOf (unrotEntries a d d) then
          fz ((partnerAt l ("trans-h_" ++ a.label) "swap" e).getD e) else fx e).sum =
          ((logZList a d).map fun e => fz (SurfaceSim.swapWith l ("trans-h_" ++ a.label) e)).sum := by
        congr 1
        refine List.map_congr_left fun e he => ?_
        rw [if_pos (hZd e he)]; rfl
      rw [e1, hre _ _ (logZList_nodup a d) hZd, sum_sub hg (logXList_nodup a d (by omega)) hXd]
      have e2 : ((if ε = 1 then [] else xOf (unrotEntries a d d)).map (stabSum l (unrotEntries a d d) fx fz)).sum =
          ((dataOf (unrotEntries a d d)).map fun e => (((if ε = 1 then [] else xOf (unrotEntries a d d)).countP
            fun z => decide (e ∈ l.getNeighbors [z] none) : Nat) : ZMod 2) * fz e).sum := by
        rw [← sum_stabs hg]
        · congr 1
          refine List.map_congr_left fun z hz => ?_
          unfold stabSum
          have : z ∈ xOf (unrotEntries a d d) := by
            split at hz
            · simp at hz
            · exact hz
          simp only [this, if_true]
        · intro z hz
          split at hz
          · simp at hz
          · exact hsub true z (by simpa using hz)
      rw [e2, ← List.sum_map_add]
      congr 1
      refine List.map_congr_left fun e he => ?_
      obtain ⟨⟨r, c⟩, he⟩ := mem_dataOf.1 he
      have h1 := (ht.swapWith he).1
      simp only [refl] at h1
      simp only [unrot_mem_logZ hd1 h1, unrot_mem_logX he]
      rcases hdiag with ⟨rfl, hpp⟩ | ⟨rfl, hpp⟩
      · have : p.1 + 1 * (c - p.2) = c := by omega
        simp only [this]
        simp
      · have : (p.1 + -1 * (c - p.2) = 0) ↔ c = 2 * d - 2 := by omega
        rw [if_neg (by decide : ¬ (-1 : Int) = 1), unrot_count_x hg he]
        simp only [this]
        by_cases h1 : c = 0 <;> by_cases h2 : c = 2 * d - 2
        · rw [if_pos h1, if_pos h2, if_pos h1, if_pos h2, CharTwo.add_self_eq_zero]; simp
        · rw [if_pos h1, if_neg h2, if_pos h1, if_neg h2, add_zero, one_mul, CharTwo.add_self_eq_zero]
        · rw [if_neg h1, if_pos h2, if_neg h1, if_pos h2]; simp
        · rw [if_neg h1, if_neg h2, if_neg h1, if_neg h2]; simp
    · simp only [if_true, Bool.not_true, List.map_cons, List.map_nil, List.sum_cons, List.sum_nil,
        add_zero, Bool.false_eq_true, if_false, hZ, Option.getD_some]
      have e1 : ((logXList a d (2 * d - 1)).map fun e => if e ∈ dataOf (unrotEntries a d d) then
          fx ((partnerAt l ("trans-h_" ++ a.label) "swap" e).getD e) else fz e).sum =
          ((logXList a d (2 * d - 1)).map fun e => fx (SurfaceSim.swapWith l ("trans-h_" ++ a.label) e)).sum := by
        congr 1
        refine List.map_congr_left fun e he => ?_
        rw [if_pos (hXd e he)]; rfl
      rw [e1, hre _ _ (logXList_nodup a d (by omega)) hXd, sum_sub hg (logZList_nodup a d) hZd]
      have e2 : ((if ε = 1 then [] else zOf (unrotEntries a d d)).map (stabSum l (unrotEntries a d d) fx fz)).sum =
          ((dataOf (unrotEntries a d d)).map fun e => (((if ε = 1 then [] else zOf (unrotEntries a d d)).countP
            fun z => decide (e ∈ l.getNeighbors [z] none) : Nat) : ZMod 2) * fx e).sum := by
        rw [← sum_stabs hg]
        · congr 1
          refine List.map_congr_left fun z hz => ?_
          unfold stabSum
          have : z ∉ xOf (unrotEntries a d d) := by
            split at hz
            · simp at hz
            · intro hx
              obtain ⟨s, h⟩ := mem_xOf.1 hx
              obtain ⟨s', h'⟩ := mem_zOf.1 hz
              have := (hg.unique h h').2
              simp at this
          simp only [this, if_false]
        · intro z hz
          split at hz
          · simp at hz
          · exact hsub false z (by simpa using hz)
      rw [e2, ← List.sum_map_add]
      congr 1
      refine List.map_congr_left fun e he => ?_
      obtain ⟨⟨r, c⟩, he⟩ := mem_dataOf.1 he
      have h1 := (ht.swapWith he).1
      simp only [refl] at h1
      simp only [unrot_mem_logX h1, unrot_mem_logZ hd1 he]
      rcases hdiag with ⟨rfl, hpp⟩ | ⟨rfl, hpp⟩
      · have : p.2 + 1 * (r - p.1) = r := by omega
        simp only [this]
        simp
      · have : (p.2 + -1 * (r - p.1) = 0) ↔ r = 2 * d - 2 := by omega
        rw [if_neg (by decide : ¬ (-1 : Int) = 1), unrot_count_z hg he]
        simp only [this]
        by_cases h1 : r = 0 <;> by_cases h2 : r = 2 * d - 2
        · rw [if_pos h1, if_pos h2, if_pos h1, if_pos h2, CharTwo.add_self_eq_zero]; simp
        · rw [if_pos h1, if_neg h2, if_pos h1, if_neg h2, add_zero, one_mul, CharTwo.add_self_eq_zero]
        · rw [if_neg h1, if_pos h2, if_neg h1, if_pos h2]; simp
        · rw [if_neg h1, if_neg h2, if_neg h1, if_neg h2]; simp

end

end SurfaceSim
