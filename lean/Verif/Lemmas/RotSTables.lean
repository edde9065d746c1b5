/-
What `set_trans_s` stores for rotated codes.
-/
import Verif.Lemmas.RotS

namespace SurfaceSim
open Spec NoiseModel Blocks LayoutLib LogGates

section
variable {l : Layout} {a : Args} {dx : Int} {D : Dict Vec String} {o : Vec}

theorem rot_frame_main (hp : Placed l (rotEntries a dx (dx + 1)) (names rotDirs) o)
    (hD : ∀ s q, D.get? (place o s) = some q ↔ ∃ k, (q, s, k) ∈ rotEntries a dx (dx + 1)) :
    Frame D (rotEntries a dx (dx + 1)) o (1, 1) (2, 0) (0, 2) dx.toNat (dx.toNat + 1) := by
  refine rot_frame hp hD (fun i j => ?_) (fun i j => ?_) (fun i j i' j' h => ?_) fun r c h => ⟨((r - 1) / 2).toNat, ((c - 1) / 2).toNat, ?_⟩
  · simp only [steps]; omega
  · simp only [steps, RotSite]; omega
  · simp only [steps, Prod.mk.injEq] at h; omega
  · simp only [RotSite] at h
    simp only [steps, Prod.mk.injEq]; omega

theorem rot_frame_right (hp : Placed l (rotEntries a dx (dx + 1)) (names rotDirs) o)
    (hD : ∀ s q, D.get? (place o s) = some q ↔ ∃ k, (q, s, k) ∈ rotEntries a dx (dx + 1)) (h1 : 1 ≤ dx) :
    Frame D (rotEntries a dx (dx + 1)) o (1, 2 * dx + 1) (0, -2) (2, 0) (dx.toNat + 1) dx.toNat := by
  refine rot_frame hp hD (fun i j => ?_) (fun i j => ?_) (fun i j i' j' h => ?_)
    fun r c h => ⟨((2 * dx + 1 - c) / 2).toNat, ((r - 1) / 2).toNat, ?_⟩
  · simp only [steps]; omega
  · simp only [steps, RotSite]; omega
  · simp only [steps, Prod.mk.injEq] at h; omega
  · simp only [RotSite] at h
    simp only [steps, Prod.mk.injEq]; omega

theorem rot_frame_left (hp : Placed l (rotEntries a dx (dx + 1)) (names rotDirs) o)
    (hD : ∀ s q, D.get? (place o s) = some q ↔ ∃ k, (q, s, k) ∈ rotEntries a dx (dx + 1)) (h1 : 1 ≤ dx) :
    Frame D (rotEntries a dx (dx + 1)) o (2 * dx - 1, 1) (0, 2) (-2, 0) (dx.toNat + 1) dx.toNat := by
  refine rot_frame hp hD (fun i j => ?_) (fun i j => ?_) (fun i j i' j' h => ?_)
    fun r c h => ⟨((c - 1) / 2).toNat, ((2 * dx - 1 - r) / 2).toNat, ?_⟩
  · simp only [steps]; omega
  · simp only [steps, RotSite]; omega
  · simp only [steps, Prod.mk.injEq] at h; omega
  · simp only [RotSite] at h
    simp only [steps, Prod.mk.injEq]; omega

theorem rs_tables (hp : Placed l (rotEntries a dx (dx + 1)) (names rotDirs) o)
    (hD : ∀ s q, D.get? (place o s) = some q ↔ ∃ k, (q, s, k) ∈ rotEntries a dx (dx + 1)) (h1 : 1 ≤ dx) {q : String}
    (hq : (q, (1, 1), Kind.data) ∈ rotEntries a dx (dx + 1)) {n : Nat} {cz : Dict (Option String) (Option String)}
    {sg : Dict (Option String) String} (hcz : czSteps D.get? (vec (0, 2)) (vec (2, 0)) n (place o (1, 1)) 0 [] = .ok cz)
    (hsg : rotSGates l D.get? (dataOf (rotEntries a dx (dx + 1))) q (place o (1, 1)) (vec (0, 2)) (vec (2, 0)) = .ok sg) :
    ∃ (P : String → Option String) (G : String → String) (sw : String → String),
      (∀ d ∈ dataOf (rotEntries a dx (dx + 1)), cz.get? (some d) = some (P d)) ∧
      (∀ d ∈ dataOf (rotEntries a dx (dx + 1)), sg.get? (some d) = some (G d)) ∧
      (∀ d ∈ dataOf (rotEntries a dx (dx + 1)), G d = "I" ∨ G d = "S" ∨ G d = "S_DAG") ∧
      RSTable (rotEntries a dx (dx + 1)) dx P G sw := by
  have F := rot_frame_main hp hD
  obtain ⟨P, G, h1, h2, h3, h4, h5⟩ := F.tables hp.grid (by omega) (by omega) hq hcz hsg
  have hsite : ∀ i j : Nat, steps (1, 1) (2, 0) (0, 2) (tau i j).1 (tau i j).2 = tauSite (steps (1, 1) (2, 0) (0, 2) i j) := by
    intro i j
    unfold tau tauSite
    by_cases hij : j ≤ i
    · rw [if_pos hij, if_pos (by simp only [steps]; omega)]
      simp only [steps, Prod.mk.injEq]
      omega
    · rw [if_neg hij, if_neg (by simp only [steps]; omega)]
      simp only [steps, Prod.mk.injEq]
      omega
  have hsw : ∀ d s, (d, s, Kind.data) ∈ rotEntries a dx (dx + 1) → ∃ e, P d = some e ∧
      (e, tauSite s, Kind.data) ∈ rotEntries a dx (dx + 1) := by
    intro d s hs
    obtain ⟨i, j, rfl⟩ := F.cover d s hs
    obtain ⟨e, he⟩ : ∃ e, (e, tauSite (steps (1, 1) (2, 0) (0, 2) i j), Kind.data) ∈ rotEntries a dx (dx + 1) := by
      refine exists_rotEntry (r := (tauSite (steps (1, 1) (2, 0) (0, 2) i j)).1)
        (c := (tauSite (steps (1, 1) (2, 0) (0, 2) i j)).2) ?_
      have g := rotEntry (r := (steps (1, 1) (2, 0) (0, 2) i j).1) (c := (steps (1, 1) (2, 0) (0, 2) i j).2) hs
      generalize hst : steps (1, 1) (2, 0) (0, 2) i j = st at g ⊢
      simp only [RotSite] at g
      unfold tauSite
      split
      · simp only [RotSite]; omega
      · simp only [RotSite]; omega
    refine ⟨e, ((h5 i j d hs).2 e).2 ?_, he⟩
    rw [hsite]
    exact he
  refine ⟨P, G, fun d => (P d).getD d, h1, h2, h3, fun d s hs => ?_, fun d hd => ?_, fun d s hs => ?_, fun d s hs => ?_⟩
  · obtain ⟨e, h, he⟩ := hsw d s hs
    simp only [h, Option.getD_some]
    exact he
  · obtain ⟨s, hs⟩ := mem_dataOf.1 hd
    obtain ⟨e, h, he⟩ := hsw d s hs
    simp only [h, Option.getD_some]
  · obtain ⟨i, j, rfl⟩ := F.cover d s hs
    have g := rotEntry (r := (steps (1, 1) (2, 0) (0, 2) i j).1) (c := (steps (1, 1) (2, 0) (0, 2) i j).2) hs
    rw [(h5 i j d hs).1]
    simp only [RotSite, steps] at g
    unfold rotGate gateSite
    simp only [steps]
    congr 1
    · rw [eq_iff_iff]; omega
    · congr 1
      rw [eq_iff_iff]; omega
    · congr 1
      rw [eq_iff_iff]; omega
  · have g := rotEntry (r := s.1) (c := s.2) hs
    simp only [RotSite] at g
    omega

/-- At the wrong corners the product of an X stabilizer is empty. -/
theorem rot_wrong_corner (hg : OnGrid l (rotEntries a dx (dx + 1)) (names rotDirs)) {p v h : Site} {A B : Nat}
    (F : Frame D (rotEntries a dx (dx + 1)) o p v h A B) (hAB : B + 1 = A) (hB : 2 ≤ B) {q x : String} {s : Site}
    (hq : (q, p, Kind.data) ∈ rotEntries a dx (dx + 1)) {n : Nat} {cz : Dict (Option String) (Option String)}
    {sg : Dict (Option String) String} (hcz : czSteps D.get? (vec h) (vec v) n (place o p) 0 [] = .ok cz)
    (hsg : rotSGates l D.get? (dataOf (rotEntries a dx (dx + 1))) q (place o p) (vec h) (vec v) = .ok sg)
    (hx : (x, s, Kind.x) ∈ rotEntries a dx (dx + 1))
    (hs : ∀ i j d, (d, steps p v h i j, Kind.data) ∈ rotEntries a dx (dx + 1) → d ∈ l.getNeighbors [x] none →
      (i + 1 = B ∨ i = B) ∧ j ≤ i)
    {z : String} (hf : Finds l (zstabDict l (zOf (rotEntries a dx (dx + 1)))) cz sg true x z) : False := by
  obtain ⟨P, G, h1, h2, h3, h4, h5⟩ := F.tables hg (by omega) hB hq hcz hsg
  have hxm : x ∈ xOf (rotEntries a dx (dx + 1)) := mem_xOf.2 ⟨_, hx⟩
  obtain ⟨hz, hsum⟩ := hf.spec hg hxm h2 h3 h1 h4 (by simp)
  have hzero : ∀ d ∈ l.getNeighbors [x] none, ∀ f, sTerm P G f d = 0 := by
    intro d hd f
    obtain ⟨t, ht⟩ := mem_dataOf.1 (nbr_data hg (mem_anc_of_x hxm) hd)
    obtain ⟨i, j, rfl⟩ := F.cover d t ht
    obtain ⟨hi, hj⟩ := hs i j d ht hd
    obtain ⟨g1, g2⟩ := h5 i j d ht
    have hr := (F.rect i j).1 ⟨d, ht⟩
    have hP : P d = none := by
      cases hPd : P d with
      | none => rfl
      | some e =>
        have := (F.rect _ _).1 ⟨e, (g2 e).1 hPd⟩
        unfold tau at this
        rw [if_pos hj] at this
        simp only at this
        omega
    have hG : G d = "I" := by
      rw [g1]
      unfold rotGate
      rw [if_neg (by omega), if_neg (by omega)]
    unfold sTerm
    rw [hP, hG]
    simp
  obtain ⟨⟨R, C⟩, hzs⟩ := mem_zOf.1 hz
  have hperm : ([] : List String).Perm (l.getNeighbors [z] none) := by
    refine perm_of_sums List.nodup_nil (hg.neighbors_nodup z) fun f => ?_
    rw [← hsum f, List.map_congr_left fun d hd => hzero d hd f]
    simp
  have gz := rotEntry hzs
  simp only [RotSite] at gz
  obtain ⟨e, he⟩ : ∃ e c, (e, (R + 1, c), Kind.data) ∈ rotEntries a dx (dx + 1) ∧ (c = C + 1 ∨ c = C - 1) := by
    by_cases hC : C < 2 * (dx + 1)
    · obtain ⟨e, he⟩ := exists_rotEntry (a := a) (dx := dx) (dz := dx + 1) (r := R + 1) (c := C + 1) (k := .data)
        (by simp only [RotSite]; omega)
      exact ⟨e, _, he, Or.inl rfl⟩
    · obtain ⟨e, he⟩ := exists_rotEntry (a := a) (dx := dx) (dz := dx + 1) (r := R + 1) (c := C - 1) (k := .data)
        (by simp only [RotSite]; omega)
      exact ⟨e, _, he, Or.inr rfl⟩
  obtain ⟨c, he, hc⟩ := he
  have := hperm.mem_iff.2 ((rotN hg hzs (by simp) he).2 ⟨Or.inl rfl, hc⟩)
  simp at this

end

/-- What `set_trans_s` stores. -/
theorem rotSetTransS_ok {a : Args} {dx dz : Int} {l0 l l' : Layout} {q : String}
    (h : rotSurfaceCodeRectangle dx dz a = .ok l0) (hw : WithParams l0 l) (e : rotSetTransS q l = (.ok (), l')) :
    dz = dx + 1 ∧ 2 ≤ dx ∧ WithParams l l' ∧ (∀ p q', p ≠ "trans-s_" ++ a.label → l'.param p q' = l.param p q') ∧
    ∃ P G sw, (q, (1, 1), Kind.data) ∈ rotEntries a dx (dx + 1) ∧
      RSTable (rotEntries a dx (dx + 1)) dx P G sw ∧
      STable l' (rotEntries a dx (dx + 1)) ("trans-s_" ++ a.label) P G := by
  have hp := (rot_placed h).params hw
  have hu := isRot_of_params h hw
  have hg := hp.grid
  unfold rotSetTransS at e
  rw [PyM.bind_ok (PyM.get_apply l)] at e
  obtain ⟨_, hc, e⟩ := ofExcept_bind_ok e
  obtain ⟨data, h1, e⟩ := ofExcept_bind_ok e
  obtain ⟨anc, h2, e⟩ := ofExcept_bind_ok e
  obtain ⟨xs, h3, e⟩ := ofExcept_bind_ok e
  obtain ⟨zs, h4, e⟩ := ofExcept_bind_ok e
  obtain ⟨lab, h5, e⟩ := ofExcept_bind_ok e
  obtain ⟨⟨cx, cp, cv⟩, h6, e⟩ := ofExcept_bind_ok e
  obtain ⟨D, h7, e⟩ := ofExcept_bind_ok e
  obtain ⟨cz, h8, e⟩ := ofExcept_bind_ok e
  obtain ⟨sg, h8', e⟩ := ofExcept_bind_ok e
  obtain ⟨_, l1, h9, e⟩ := PyM.bind_eq_ok e
  obtain ⟨new, h10, hz⟩ := ofExcept_bind_ok e
  unfold dataQubits at h1
  unfold ancQubits at h2
  unfold stabQubits at h3 h4
  rw [hg.getQubits_data, Except.ok.injEq] at h1
  rw [hg.getQubits_anc, Except.ok.injEq] at h2
  rw [hg.getQubits_x, Except.ok.injEq] at h3
  rw [hg.getQubits_z, Except.ok.injEq] at h4
  rw [firstLogical_of hu.log, Except.ok.injEq] at h5
  subst h1 h2 h3 h4 h5
  obtain ⟨hdist, hq⟩ := checkFold_ok hg hc
  obtain ⟨p, hq⟩ := mem_dataOf.1 hq
  have hd := distances_params hw
  have hd0 := rot_distances h
  have hdd : dz = dx + 1 := by rw [hd.1, hd.2, hd0.1, hd0.2] at hdist; simpa using hdist
  subst hdd
  obtain ⟨rfl, shx, shz, dx', dz', z, n, hdx, hdz', hx, hzz, hn, rfl⟩ := hp.corner_ok hq h6
  obtain ⟨D', hD', hD⟩ := rot_labelDict hp
  rw [h7, Except.ok.injEq] at hD'
  subst hD'
  obtain ⟨k1, k2, k3⟩ := storeData_ok (gateLabel_s _) h9
  obtain ⟨m1, m2, m3⟩ := storeAnc_ok (gateLabel_s _) hz
  have hjv : ((((shx + shz).2 : Int) : Rat), -(((shx + shz).1 : Int) : Rat)) = vec ((shx + shz).2, -(shx + shz).1) := by
    simp [vec]
  simp only at h8 h8' h10
  rw [hjv] at h8 h8'
  change czSteps D.get? (vec (shx + shz)) _ _ _ _ _ = _ at h8
  change rotSGates l D.get? _ q _ (vec (shx + shz)) _ = _ at h8'
  generalize hor : (a.initPoint.1 - 1, a.initPoint.2 - 1) = o at *
  obtain ⟨r, c⟩ := p
  -- the corner
  have hcor := rot_corner_cases hdx hdz' (rotEntry hq) (rotEntry (r := r + shx.1) (c := c + shx.2) hx)
    (rotEntry (r := r + shz.1) (c := c + shz.2) hzz) (fun r' c' hs => by
      obtain ⟨e, he⟩ := exists_rotEntry (a := a) hs
      obtain ⟨pp, gg, q1, -⟩ := k2 e (mem_dataOf.2 ⟨_, he⟩)
      have W := walk_steps D o (r, c) ((shx + shz).2, -(shx + shz).1) (shx + shz)
      have hp0 : steps (r, c) ((shx + shz).2, -(shx + shz).1) (shx + shz) 0 0 = (r, c) := by simp [steps]
      rcases czSteps_keys W _ (m := 0) (by simp only [hp0]; exact h8) e (by rw [q1]; simp) with h | ⟨i, j, h⟩
      · simp [Dict.get?] at h
      · obtain ⟨k, hk⟩ := (hD _ _).1 h
        exact ⟨i, j, (hg.unique he hk).1⟩)
  obtain ⟨hd2, hcor⟩ := hcor
  have hzx : ∀ key z, (zstabDict l (zOf (rotEntries a dx (dx + 1)))).get? key = some z → z ∉ xOf (rotEntries a dx (dx + 1)) :=
    fun key z hz => x_not_z hg (zstabDict_get _ hz).1
  obtain ⟨n1, n2⟩ := newStabS_ok _ h10 hzx
  rcases hcor with ⟨hrc, hsx, hsh⟩ | ⟨hrc, hsx, hsh⟩ | ⟨hrc, hsx, hsh, hodd⟩
  · have hxc := hx
    rw [hrc] at h8 h8' hq hxc hzz hn
    rw [hsh] at h8 h8'
    simp only [neg_zero] at h8 h8'
    obtain ⟨P, G, sw, hP, hG, hGv, hrs⟩ := rs_tables hp hD (by omega) hq h8 h8'
    have hPs : ∀ d ∈ dataOf (rotEntries a dx (dx + 1)), P d ≠ some d := fun d hd' hc => by
      rw [hrs.pair d hd', Option.some.injEq] at hc
      exact hrs.ne hg hd' hc
    have hanc : ∀ z ∈ ancOf (rotEntries a dx (dx + 1)), ∀ d ∈ dataOf (rotEntries a dx (dx + 1)), z ≠ d :=
      fun z hz d hd' he => ancOf_not_data hg hz (he ▸ hd')
    have hnb : ∀ q, l'.getNeighbors [q] none = l.getNeighbors [q] none :=
      fun q => getNeighbors_params (WithParams.trans k1 m1) q
    refine ⟨rfl, hd2, WithParams.trans k1 m1, fun p' q' hp' => by rw [m3 _ _ fun h => absurd h hp', k3 _ _ fun h => absurd h hp'],
      P, G, sw, hq, hrs, ⟨?_, ?_⟩, fun x hx => ?_, fun z hz => ?_⟩
    · intro d hd'
      obtain ⟨pp, gg, q1, q2, q3⟩ := k2 d hd'
      rw [hP d hd', Option.some.injEq] at q1
      rw [hG d hd', Option.some.injEq] at q2
      rw [m3 _ _ fun _ hm => hanc d hm d hd' rfl, q3, q1, q2]
    · exact fun d hd' e he => hrs.sym hg hd' he
    · obtain ⟨g, q1, q2⟩ := m2 x (mem_anc_of_x hx)
      rw [hnb]
      rcases n1 x hx with ⟨hs, hr⟩ | ⟨-, z, hf, hr, -⟩
      · rw [Option.some.injEq] at hs
        subst hs
        rw [hr, Option.some.injEq] at q1
        subst q1
        refine Or.inl ⟨q2, fun f => ?_⟩
        refine hrs.stab_corner hg ?_ f
        rw [hsx] at hxc
        exact hxc
      · obtain ⟨h1, h2⟩ := hf.spec hg hx hG hGv hP hPs (by simp)
        rw [hr, Option.some.injEq] at q1
        subst q1
        exact Or.inr ⟨z, h1, q2, by rw [hnb]; exact h2⟩
    · obtain ⟨g, q1, q2⟩ := m2 z (mem_anc_of_z hz)
      rcases n2 z (x_not_z hg hz) with h | ⟨h, -⟩
      · rw [h] at q1; simp [Dict.get?] at q1
      · rw [h, Option.some.injEq] at q1
        subst q1
        exact q2
  · exfalso
    rw [hrc] at h8 h8' hq hx hzz hn
    rw [hsh] at h8 h8'
    obtain ⟨x, hx'⟩ := exists_rotEntry (a := a) (dx := dx) (dz := dx + 1) (r := 0) (c := 2) (k := .x)
      (by simp only [RotSite]; omega)
    have F := rot_frame_right hp hD (by omega)
    rcases n1 x (mem_xOf.2 ⟨_, hx'⟩) with ⟨hs, -⟩ | ⟨-, z, hf, -⟩
    · rw [Option.some.injEq] at hs
      subst hs
      have := (hg.unique hx hx').1
      rw [hsx] at this
      simp at this
    · refine rot_wrong_corner hg F rfl (by omega) hq h8 h8' hx' (fun i j d hd' hdn => ?_) hf
      rw [rotN (r' := (steps (1, 2 * dx + 1) (0, -2) (2, 0) i j).1) (c' := (steps (1, 2 * dx + 1) (0, -2) (2, 0) i j).2) hg hx'
        (by simp) hd'] at hdn
      simp only [steps] at hdn
      omega
  · exfalso
    rw [hrc] at h8 h8' hq hx hzz hn
    rw [hsh] at h8 h8'
    obtain ⟨x, hx'⟩ := exists_rotEntry (a := a) (dx := dx) (dz := dx + 1) (r := 2 * dx - 2) (c := 2 * dx) (k := .x)
      (by simp only [RotSite]; omega)
    have F := rot_frame_left hp hD (by omega)
    rcases n1 x (mem_xOf.2 ⟨_, hx'⟩) with ⟨hs, -⟩ | ⟨-, z, hf, -⟩
    · rw [Option.some.injEq] at hs
      subst hs
      have := (hg.unique hx hx').1
      rw [hsx] at this
      simp only [Prod.mk_add_mk, Prod.mk.injEq] at this
      omega
    · refine rot_wrong_corner hg F rfl (by omega) hq h8 h8' hx' (fun i j d hd' hdn => ?_) hf
      have g := (F.rect i j).1 ⟨d, hd'⟩
      rw [rotN (r' := (steps (2 * dx - 1, 1) (0, 2) (-2, 0) i j).1) (c' := (steps (2 * dx - 1, 1) (0, 2) (-2, 0) i j).2) hg hx'
        (by simp) hd'] at hdn
      simp only [steps] at hdn
      omega

theorem rot_z_nbrs {l : Layout} {a : Args} {dx dz : Int} (hg : OnGrid l (rotEntries a dx dz) (names rotDirs)) {z z' : String}
    {s s' : Site} (hdz : 2 ≤ dz) (h : (z, s, Kind.z) ∈ rotEntries a dx dz) (h' : (z', s', Kind.z) ∈ rotEntries a dx dz)
    (hn : (l.getNeighbors [z] none).Perm (l.getNeighbors [z'] none)) : z = z' := by
  obtain ⟨r, c⟩ := s
  obtain ⟨r', c'⟩ := s'
  have g := rotEntry h
  have g' := rotEntry h'
  simp only [RotSite] at g g'
  have key : ∀ i j, (i = 1 ∨ i = -1) → (j = 1 ∨ j = -1) →
      (0 < r + i ∧ r + i < 2 * dx ∧ 0 < c + j ∧ c + j < 2 * dz ↔
        (0 < r + i ∧ r + i < 2 * dx ∧ 0 < c + j ∧ c + j < 2 * dz) ∧
          (r + i = r' + 1 ∨ r + i = r' - 1) ∧ (c + j = c' + 1 ∨ c + j = c' - 1)) := by
    intro i j hi hj
    constructor
    · intro hs
      refine ⟨hs, ?_⟩
      obtain ⟨e, he⟩ := exists_rotEntry (a := a) (dx := dx) (dz := dz) (r := r + i) (c := c + j) (k := .data)
        (by simp only [RotSite]; omega)
      exact (rotN hg h' (by simp) he).1 (hn.mem_iff.1 ((rotN hg h (by simp) he).2 (by omega)))
    · exact fun hs => hs.1
  have key' : ∀ i j, (i = 1 ∨ i = -1) → (j = 1 ∨ j = -1) →
      (0 < r' + i ∧ r' + i < 2 * dx ∧ 0 < c' + j ∧ c' + j < 2 * dz →
          (r' + i = r + 1 ∨ r' + i = r - 1) ∧ (c' + j = c + 1 ∨ c' + j = c - 1)) := by
    intro i j hi hj hs
    obtain ⟨e, he⟩ := exists_rotEntry (a := a) (dx := dx) (dz := dz) (r := r' + i) (c := c' + j) (k := .data)
      (by simp only [RotSite]; omega)
    exact (rotN hg h (by simp) he).1 (hn.mem_iff.2 ((rotN hg h' (by simp) he).2 (by omega)))
  have k1 := key 1 1 (by simp) (by simp)
  have k2 := key 1 (-1) (by simp) (by simp)
  have k3 := key (-1) 1 (by simp) (by simp)
  have k4 := key (-1) (-1) (by simp) (by simp)
  have j1 := key' 1 1 (by simp) (by simp)
  have j2 := key' 1 (-1) (by simp) (by simp)
  have : r = r' ∧ c = c' := by omega
  obtain ⟨rfl, rfl⟩ := this
  exact (hg.unique' h h').1

theorem rotSetTransS_exists {a : Args} {dx : Int} {l0 l : Layout} {q : String}
    (h : rotSurfaceCodeRectangle dx (dx + 1) a = .ok l0) (hw : WithParams l0 l) (hd2 : 2 ≤ dx)
    (hq : (q, (1, 1), Kind.data) ∈ rotEntries a dx (dx + 1)) : ∃ l', rotSetTransS q l = (.ok (), l') := by
  have hp := (rot_placed h).params hw
  have hu := isRot_of_params h hw
  have hg := hp.grid
  have hd := distances_params hw
  have hd0 := rot_distances h
  generalize hor : (a.initPoint.1 - 1, a.initPoint.2 - 1) = o at *
  have hqd : q ∈ dataOf (rotEntries a dx (dx + 1)) := mem_dataOf.2 ⟨_, hq⟩
  have hxs : ∀ {x : String} {sh : Site} {n : String}, (sh, n) ∈ names rotDirs →
      (x, (1, 1) + sh, Kind.x) ∈ rotEntries a dx (dx + 1) → sh = (-1, 1) := by
    intro x sh n hs hx
    have g := rotEntry (r := 1 + sh.1) (c := 1 + sh.2) hx
    simp only [RotSite] at g
    rcases mem_rotNames.1 hs with ⟨rfl, -⟩ | ⟨rfl, -⟩ | ⟨rfl, -⟩ | ⟨rfl, -⟩ <;> simp at g ⊢
  have hzs : ∀ {z : String} {sh : Site} {n : String}, (sh, n) ∈ names rotDirs →
      (z, (1, 1) + sh, Kind.z) ∈ rotEntries a dx (dx + 1) → sh = (1, 1) := by
    intro x sh n hs hx
    have g := rotEntry (r := 1 + sh.1) (c := 1 + sh.2) hx
    simp only [RotSite] at g
    rcases mem_rotNames.1 hs with ⟨rfl, -⟩ | ⟨rfl, -⟩ | ⟨rfl, -⟩ | ⟨rfl, -⟩ <;> simp at g ⊢
  obtain ⟨⟨cx, cp, cv⟩, hcor⟩ := hp.corner_exists hq
    (by
      obtain ⟨x, hx⟩ := exists_rotEntry (a := a) (dx := dx) (dz := dx + 1) (r := 0) (c := 2) (k := .x)
        (by simp only [RotSite]; omega)
      exact ⟨x, (-1, 1), "south_east", mem_rotNames.2 (by simp), by simpa using hx⟩)
    (by
      obtain ⟨x, hx⟩ := exists_rotEntry (a := a) (dx := dx) (dz := dx + 1) (r := 2) (c := 2) (k := .z)
        (by simp only [RotSite]; omega)
      exact ⟨x, (1, 1), "north_east", mem_rotNames.2 (by simp), by simpa using hx⟩)
    (fun x shx d z shz d' h1 h2 h3 h4 => by
      rw [hxs h1 h2, hzs h3 h4]
      exact exists_rotEntry (r := 1) (c := 3) (by simp only [RotSite]; omega))
  obtain ⟨rfl, shx, shz, dx', dz', z, n, hdx, hdz', hx, hzz, hn, rfl⟩ := hp.corner_ok hq hcor
  obtain rfl := hxs hdx hx
  obtain rfl := hzs hdz' hzz
  obtain ⟨D, hD', hD⟩ := rot_labelDict hp
  have hsite : place o (1, 1) = place o (steps (1, 1) (2, 0) (0, 2) 0 0) := by simp [steps]
  have hjh : ((((-1, 1) + (1, 1) : Site).1 : Rat), (((-1, 1) + (1, 1) : Site).2 : Rat)) = vec (0, 2) := rfl
  rw [hjh] at hcor
  have hjv : ((vec (0, 2)).2, -(vec (0, 2)).1) = vec (2, 0) := by simp [vec]
  have F := rot_frame_main hp hD
  have hrect : ∀ i j, (∃ q, D.get? (place o (steps (1, 1) (2, 0) (0, 2) i j)) = some q) ↔ i < dx.toNat ∧ j < dx.toNat + 1 := by
    intro i j
    rw [← F.rect]
    simp only [F.get]
  have hfuel : dx.toNat ≤ l.graph.nodes.length := by
    have h1 : (dataOf (rotEntries a dx (dx + 1))).length ≤ l.graph.nodes.length := by
      have : l.graph.nodes.length = l.graph.nodes.keys.length := by simp [Dict.keys]
      rw [this, hg.keys]
      unfold dataOf labelsOf
      simp only [List.length_map]
      exact List.length_filter_le _ _
    have h2 : (logXList a dx (dx + 1)).length ≤ (dataOf (rotEntries a dx (dx + 1))).length :=
      ((logXList_nodup a dx (by omega)).subperm fun d hd => mem_dataOf.2 (rot_logX_data (by omega) hd)).length_le
    have h3 : (logXList a dx (dx + 1)).length = dx.toNat := by simp [logXList]
    omega
  have hfuel2 : (dx.toNat + 1) * (dx.toNat + 1) + 1 ≤ fuel l := by
    unfold fuel
    have : (dx.toNat + 1) * (dx.toNat + 1) < (l.graph.nodes.length + 2) * (l.graph.nodes.length + 2) :=
      Nat.mul_lt_mul'' (by omega) (by omega)
    have e : (l.graph.nodes.length + 2) ^ 2 = (l.graph.nodes.length + 2) * (l.graph.nodes.length + 2) := by ring
    omega
  obtain ⟨cz, hcz⟩ := czSteps_exists (walk_steps D o (1, 1) (2, 0) (0, 2)) hrect (fuel l) (m := 0) (k := 0) (Nat.zero_le _)
    (Nat.zero_le _) (by
      have : (dx.toNat - 0) * (dx.toNat + 2) + 1 = (dx.toNat + 1) * (dx.toNat + 1) := by rw [Nat.sub_zero]; ring
      omega) [] (by omega)
  obtain ⟨sg, hsg⟩ := rotSGates_exists (l := l) (data := dataOf (rotEntries a dx (dx + 1))) (q := q)
    (p := place o (steps (1, 1) (2, 0) (0, 2) 0 0)) (walk_steps D o (1, 1) (2, 0) (0, 2)) hrect (by omega) (by omega) rfl
    (by
      have : dx.toNat + 1 ≤ (dx.toNat + 1) * (dx.toNat + 1) := Nat.le_mul_of_pos_left _ (by omega)
      omega)
  simp only [← hsite] at hcz hsg
  obtain ⟨P, G, sw, hP, hG, hGv, hrs⟩ := rs_tables hp hD (by omega) hq hcz hsg
  have hPs : ∀ d ∈ dataOf (rotEntries a dx (dx + 1)), P d ≠ some d := fun d hd' hc => by
    rw [hrs.pair d hd', Option.some.injEq] at hc
    exact hrs.ne hg hd' hc
  have h1 : dataQubits l = .ok (dataOf (rotEntries a dx (dx + 1))) := hg.getQubits_data
  have h2 : ancQubits l = .ok (ancOf (rotEntries a dx (dx + 1))) := hg.getQubits_anc
  have h3 : stabQubits l "x_type" = .ok (xOf (rotEntries a dx (dx + 1))) := hg.getQubits_x
  have h4 : stabQubits l "z_type" = .ok (zOf (rotEntries a dx (dx + 1))) := hg.getQubits_z
  have hfind : ∀ x s, (x, s, Kind.x) ∈ rotEntries a dx (dx + 1) → ∀ z, (z, zSite s, Kind.z) ∈ rotEntries a dx (dx + 1) →
      Finds l (zstabDict l (zOf (rotEntries a dx (dx + 1)))) cz sg true x z := by
    intro x s hx z hz
    have hxm : x ∈ xOf (rotEntries a dx (dx + 1)) := mem_xOf.2 ⟨s, hx⟩
    obtain ⟨z', f1, f2, f3⟩ := finds_exists (withPair := true) hg hxm hG hGv hP hPs (by simp)
      (fun d' hd' hn => by rw [hrs.pair d' hd'] at hn; simp at hn) (mem_zOf.2 ⟨_, hz⟩) (hrs.stab hg hx hz)
    obtain ⟨s', hz'⟩ := mem_zOf.1 f2
    rwa [← rot_z_nbrs hg (by omega) hz' hz f3]
  have hzsite : ∀ x s, (x, s, Kind.x) ∈ rotEntries a dx (dx + 1) → x ≠ cx →
      ∃ z, (z, zSite s, Kind.z) ∈ rotEntries a dx (dx + 1) := by
    rintro x ⟨r, c⟩ hx' hne
    have g := rotEntry hx'
    refine exists_rotEntry (r := (zSite (r, c)).1) (c := (zSite (r, c)).2) ?_
    have hrc : ¬ (r = 0 ∧ c = 2) := by
      rintro ⟨rfl, rfl⟩
      exact hne (hg.unique' hx' hx).1
    simp only [RotSite] at g
    unfold zSite
    split <;> rename_i hc <;> simp only [RotSite] at hc ⊢ <;> omega
  obtain ⟨new, hnew⟩ := newStabS_exists (l := l) (zs := zstabDict l (zOf (rotEntries a dx (dx + 1)))) (cz := cz) (s := sg)
    (withPair := true) (skip := some cx) (xOf (rotEntries a dx (dx + 1))) (fun e he hne => by
      obtain ⟨s, he⟩ := mem_xOf.1 he
      obtain ⟨z, hz⟩ := hzsite e s he fun hc => hne (by rw [hc])
      exact ⟨z, hfind e s he z hz⟩) []
  have hzx : ∀ key z, (zstabDict l (zOf (rotEntries a dx (dx + 1)))).get? key = some z → z ∉ xOf (rotEntries a dx (dx + 1)) :=
    fun key z hz => x_not_z hg (zstabDict_get _ hz).1
  obtain ⟨n1, n2⟩ := newStabS_ok _ hnew hzx
  obtain ⟨l1, hs1, hk1⟩ := storeData_exists (label := "trans-s_" ++ a.label) (key := "cz") (cz := cz)
    (s := sg) (data := dataOf (rotEntries a dx (dx + 1))) (l := l) (fun e he => by
      obtain ⟨s, hes⟩ := mem_dataOf.1 he
      exact ⟨mem_keys_of_placed hg hes, ⟨_, hP e he⟩, _, hG e he⟩)
  obtain ⟨l2, hs2, -⟩ := storeAnc_exists (label := "trans-s_" ++ a.label) (new := new) (anc := ancOf (rotEntries a dx (dx + 1)))
    (l := l1) (fun e he => by
      obtain ⟨s, k, hes, -⟩ := mem_ancOf.1 he
      refine ⟨by rw [hk1]; exact mem_keys_of_placed hg hes, ?_⟩
      rcases anc_cases he with hx | hz
      · rcases n1 e hx with ⟨-, h⟩ | ⟨-, z, -, h, -⟩
        · exact ⟨_, h⟩
        · exact ⟨_, h⟩
      · obtain ⟨⟨r, c⟩, hz⟩ := mem_zOf.1 hz
        have g := rotEntry hz
        simp only [RotSite] at g
        obtain ⟨t, y, hy, ht, hne⟩ : ∃ t y, (y, t, Kind.x) ∈ rotEntries a dx (dx + 1) ∧ zSite t = (r, c) ∧ t ≠ (0, 2) := by
          by_cases hrc : r < c
          · obtain ⟨y, hy⟩ := exists_rotEntry (a := a) (dx := dx) (dz := dx + 1) (r := c - 2) (c := r) (k := .x)
              (by simp only [RotSite]; omega)
            refine ⟨_, y, hy, ?_, by simp only [ne_eq, Prod.mk.injEq]; omega⟩
            unfold zSite
            rw [if_pos (by simp only; omega)]
            simp
          · obtain ⟨y, hy⟩ := exists_rotEntry (a := a) (dx := dx) (dz := dx + 1) (r := c) (c := r + 2) (k := .x)
              (by simp only [RotSite]; omega)
            refine ⟨_, y, hy, ?_, by simp only [ne_eq, Prod.mk.injEq]; omega⟩
            unfold zSite
            rw [if_neg (by simp only; omega)]
            simp
        have hf := hfind y _ hy e (by rw [ht]; exact hz)
        rcases n1 y (mem_xOf.2 ⟨_, hy⟩) with ⟨h, -⟩ | ⟨-, z, hfz, -, h⟩
        · rw [Option.some.injEq] at h
          subst h
          exact absurd (hg.unique hy hx).1 hne
        · have : z = e := by
            obtain ⟨r1, key1, a1, a2, a3⟩ := hf
            obtain ⟨r2, key2, b1, b2, b3⟩ := hfz
            rw [a1, Except.ok.injEq] at b1
            subst b1
            rw [a2, Except.ok.injEq] at b2
            subst b2
            rw [a3, Option.some.injEq] at b3
            exact b3.symm
          exact ⟨_, this ▸ h⟩)
  refine ⟨l2, ?_⟩
  unfold rotSetTransS
  have hdist : l.distanceZ = l.distanceX + 1 := by rw [hd.1, hd.2, hd0.1, hd0.2]
  rw [PyM.bind_ok (PyM.get_apply l), hp.checkFold hu.code hdist hqd hu.log]
  simp only [h1, h2, h3, h4, firstLogical_of hu.log, hcor, hD', hjv, hcz, hsg, hnew, Bind.bind, PyM.bind, PyM.ofExcept, hs1, hs2]

end SurfaceSim
