/-
C113: measuring with a single camera, from its detections to positions.
-/
import Verif.Model.SingleCam
import Verif.Props.Pictures
import Verif.Props.Dumbbell

namespace Verif.FullCorr

open Verif.Geo Verif.Geo.V3 Verif.Geo.Spec Verif.Search Verif.Search.Spec Verif.Corr Verif.Corr.Spec

theorem singleLoop_ok (xy : List (ℝ × ℝ)) (crd : List Geo.Coord) (hd : (crd.map Geo.Coord.pnr).Nodup)
    (hb : ∀ c ∈ crd, 0 ≤ c.pnr ∧ c.pnr.toNat < xy.length) :
    ∀ (left pt : ℕ) (tnr : List Int), tnr.length = xy.length → pt + left = crd.length →
      ∃ r, singleLoop xy crd left pt tnr = .ok r ∧ r.1.length = left ∧ r.2.length = xy.length ∧
        (∀ (j : ℕ) (c : Geo.Coord), pt ≤ j → crd[j]? = some c → ∃ p, xy[c.pnr.toNat]? = some p ∧
          r.1[j - pt]? = some (c.pnr, p) ∧ r.2[c.pnr.toNat]? = some (j : Int)) ∧
        ∀ m : ℕ, (∀ (j : ℕ) (c : Geo.Coord), pt ≤ j → crd[j]? = some c → c.pnr ≠ m) → r.2[m]? = tnr[m]? := by
  intro left
  induction left with
  | zero =>
    intro pt tnr hl he
    refine ⟨_, rfl, rfl, hl, ?_, fun _ _ => rfl⟩
    intro j c hj hc
    have := (List.getElem?_eq_some_iff.1 hc).1
    omega
  | succ left ih =>
    intro pt tnr hl he
    have hpt : pt < crd.length := by omega
    have hc := List.getElem?_eq_getElem hpt
    set c := crd[pt]
    obtain ⟨h0, h1⟩ := hb c (List.mem_of_getElem? hc)
    have hp := List.getElem?_eq_getElem h1
    obtain ⟨r, hr, l1, l2, a, b⟩ := ih (pt + 1) (tnr.set c.pnr.toNat pt) (by simpa using hl) (by omega)
    have hne : ∀ (j : ℕ) (c' : Geo.Coord), pt + 1 ≤ j → crd[j]? = some c' → c'.pnr ≠ c.pnr := by
      intro j c' hj hc' e
      obtain ⟨i1, e1⟩ := List.getElem?_eq_some_iff.1 hc'
      have := (List.Nodup.getElem_inj_iff hd (i := j) (j := pt) (hi := by simpa using i1) (hj := by simpa using hpt)).1 (by
        simp only [List.getElem_map, e1]
        exact e)
      omega
    refine ⟨((c.pnr, xy[c.pnr.toNat]) :: r.1, r.2), ?_, by simp [l1], l2, ?_, ?_⟩
    · simp only [singleLoop, pyGet, hc, bind, Except.bind]
      rw [if_pos (by omega)]
      simp only [hp, hr]
    · intro j c' hj hc'
      rcases Nat.eq_or_lt_of_le hj with rfl | hj
      · rw [hc] at hc'
        cases hc'
        refine ⟨_, hp, by simp, ?_⟩
        have := b c.pnr.toNat (by
          intro j c' hj' hc' e
          exact hne j c' hj' hc' (by omega))
        show r.2[c.pnr.toNat]? = _
        rw [this, List.getElem?_set_self (by rw [hl]; exact h1)]
      · obtain ⟨p, p1, p2, p3⟩ := a j c' hj hc'
        refine ⟨p, p1, ?_, p3⟩
        rw [show j - pt = (j - (pt + 1)) + 1 by omega, List.getElem?_cons_succ]
        exact p2
    · intro m hm
      show r.2[m]? = _
      rw [b m fun j c' hj hc' => hm j c' (by omega) hc', List.getElem?_set_ne]
      intro e
      exact hm pt c (le_refl _) hc (by omega)

theorem matched_get {d : Pic} {ip : ImgPar} {tol : ℝ} {c : Geo.Coord} (hc : c ∈ d.matched ip tol) :
    ∃ (n : ℕ) (t : Det), c.pnr = n ∧ d.dets[n]? = some t ∧ (c.x, c.y) = flatPos ip tol d.cal t := by
  obtain ⟨-, -, h3, -⟩ := C46_numbers d.pixels ip d.cal tol
  obtain ⟨t, ht, he⟩ := h3 c hc
  simp only [Pic.pixels, List.getElem?_map, Option.map_eq_some_iff] at ht
  obtain ⟨t', ht', rfl⟩ := ht
  have := matched_pos hc
  exact ⟨c.pnr.toNat, t', by omega, ht', he⟩

theorem matched_length (d : Pic) (ip : ImgPar) (tol : ℝ) : (d.matched ip tol).length = d.dets.length := by
  have := data_length d ip tol
  simpa [Pic.data] using this

theorem matched_exists {d : Pic} {ip : ImgPar} {tol : ℝ} {n : ℕ} (h : n < d.dets.length) :
    ∃ (j : ℕ) (c : Geo.Coord), (d.matched ip tol)[j]? = some c ∧ c.pnr = n := by
  obtain ⟨h1, -⟩ := C46_numbers d.pixels ip d.cal tol
  have : (n : Int) ∈ (d.matched ip tol).map Geo.Coord.pnr :=
    h1.mem_iff.2 (List.mem_map.2 ⟨n, List.mem_range.2 (by simpa [Pic.pixels] using h), rfl⟩)
  obtain ⟨c, hc, e⟩ := List.mem_map.1 this
  obtain ⟨i, hi, hic⟩ := List.mem_iff_getElem.1 hc
  exact ⟨i, c, by rw [List.getElem?_eq_getElem hi, hic], e⟩

/-- C113: `single_cam_correspondences` of a camera's targets and the coordinates `match_coords` makes of them returns: one entry per
target, every target exactly once, with its pixel position; the entries are in the order of the flat x coordinates; the tnr of the
target an entry names is the number of the entry. -/
theorem C113_listed (d : Pic) (ip : ImgPar) (tol : ℝ) :
    ∃ o, singleCamCorrespondences d.dets (d.matched ip tol) = .ok o ∧ o.num = d.dets.length ∧ o.entries.length = d.dets.length ∧
      o.tnr.length = d.dets.length ∧
      (∀ (j : ℕ) (e : Int × (ℝ × ℝ)), o.entries[j]? = some e → ∃ (n : ℕ) (t : Det), d.dets[n]? = some t ∧
        e = ((n : Int), (t.x, t.y)) ∧ o.tnr[n]? = some (j : Int)) ∧
      (∀ (n : ℕ) (t : Det), d.dets[n]? = some t → ∃ j : ℕ, o.entries[j]? = some ((n : Int), (t.x, t.y)) ∧ o.tnr[n]? = some (j : Int)) ∧
      ∀ (i j n m : ℕ) (s t : Det), i ≤ j → o.entries[i]? = some ((n : Int), (s.x, s.y)) →
        o.entries[j]? = some ((m : Int), (t.x, t.y)) → d.dets[n]? = some s → d.dets[m]? = some t →
        (flatPos ip tol d.cal s).1 ≤ (flatPos ip tol d.cal t).1 := by
  obtain ⟨-, h2, -⟩ := C46_numbers d.pixels ip d.cal tol
  obtain ⟨hs, -⟩ := C46_sorted_relabelling d.pixels ip d.cal tol true
  obtain ⟨r, hr, l1, l2, a, -⟩ := singleLoop_ok (d.dets.map fun t => (t.x, t.y)) (d.matched ip tol) h2 (by
    intro c hc
    obtain ⟨n, t, e, ht, -⟩ := matched_get hc
    have := (List.getElem?_eq_some_iff.1 ht).1
    simp only [List.length_map]
    omega) d.dets.length 0 (d.dets.map Det.tnr) (by simp) (by rw [matched_length]; omega)
  have key : ∀ (j : ℕ) (c : Geo.Coord), (d.matched ip tol)[j]? = some c → ∃ (n : ℕ) (t : Det), d.dets[n]? = some t ∧
      c.pnr = n ∧ (c.x, c.y) = flatPos ip tol d.cal t ∧ r.1[j]? = some ((n : Int), (t.x, t.y)) ∧ r.2[n]? = some (j : Int) := by
    intro j c hc
    obtain ⟨n, t, e, ht, hf⟩ := matched_get (List.mem_of_getElem? hc)
    obtain ⟨p, p1, p2, p3⟩ := a j c (Nat.zero_le _) hc
    rw [e] at p1 p2 p3
    simp only [Int.toNat_natCast, Nat.sub_zero, List.getElem?_map, ht, Option.map_some, Option.some.injEq] at p1 p2 p3
    subst p1
    exact ⟨n, t, ht, e, hf, p2, p3⟩
  have get : ∀ (j : ℕ) (e : Int × (ℝ × ℝ)), r.1[j]? = some e → ∃ c, (d.matched ip tol)[j]? = some c := by
    intro j e he
    have := (List.getElem?_eq_some_iff.1 he).1
    exact ⟨_, List.getElem?_eq_getElem (by rw [matched_length]; omega)⟩
  refine ⟨⟨r.1, d.dets.length, r.2⟩, ?_, rfl, l1, by simpa using l2, ?_, ?_, ?_⟩
  · simp only [singleCamCorrespondences, hr, bind, Except.bind]
  · intro j e he
    obtain ⟨c, hc⟩ := get j e he
    obtain ⟨n, t, ht, -, -, h4, h5⟩ := key j c hc
    have he : r.1[j]? = some e := he
    rw [h4, Option.some.injEq] at he
    exact ⟨n, t, ht, he.symm, h5⟩
  · intro n t ht
    obtain ⟨j, c, hc, e⟩ := matched_exists (ip := ip) (tol := tol) (List.getElem?_eq_some_iff.1 ht).1
    obtain ⟨n', t', ht', e', -, h4, h5⟩ := key j c hc
    have : n' = n := by omega
    subst this
    rw [ht] at ht'
    cases ht'
    exact ⟨j, h4, h5⟩
  · intro i j n m s t hij hi hj hsn htm
    obtain ⟨c, hc⟩ := get i _ hi
    obtain ⟨c', hc'⟩ := get j _ hj
    obtain ⟨n', s', hs', -, hf, h4, -⟩ := key i c hc
    obtain ⟨m', t', ht', -, hf', h4', -⟩ := key j c' hc'
    have hi : r.1[i]? = some ((n : Int), (s.x, s.y)) := hi
    have hj : r.1[j]? = some ((m : Int), (t.x, t.y)) := hj
    rw [h4] at hi
    rw [h4'] at hj
    simp only [Option.some.injEq, Prod.mk.injEq, Nat.cast_inj] at hi hj
    rw [hi.1, hsn] at hs'
    cases hs'
    rw [hj.1, htm] at ht'
    cases ht'
    rw [← hf, ← hf']
    obtain ⟨i1, rfl⟩ := List.getElem?_eq_some_iff.1 hc
    obtain ⟨i2, rfl⟩ := List.getElem?_eq_some_iff.1 hc'
    rcases Nat.eq_or_lt_of_le hij with rfl | hlt
    · exact le_refl _
    · exact List.pairwise_iff_getElem.1 hs i j i1 i2 hlt

/-- The traced ray of the flat image of a particle in air is the line of sight. -/
theorem ray_of_image {cal : Cam} {lut : LUT} {mm : MM} {v : Geo.VPar} {P X : V3} (hair : Air mm) (hl : Looks cal v P X) {q : ℝ × ℝ}
    (hq : flatImageCoord P cal lut mm = some q) : ∃ dir, rayTracing q.1 q.2 cal mm = some (X, dir) ∧ dir.z ≠ 0 ∧ OnLine X dir P := by
  obtain ⟨omega, phi, kappa, hdm⟩ := hl.rot
  obtain ⟨ns, h3⟩ := hair.n2
  obtain ⟨d, h5⟩ := hair.d
  have h1 := hair.n1
  have h2 := hair.lay
  have h4 := hair.n3
  set g := cal.glass.unit with hg
  set L := cal.glass.norm with hLd
  have hL : 0 < L := V3.norm_pos hl.glass
  have hg1 : g.norm = 1 := V3.norm_unit hl.glass
  have hglass : cal.glass = g.smul L := by
    have hn : cal.glass.norm ≠ 0 := hL.ne'
    rw [hg, unit_of_ne hl.glass, hLd]
    ext <;> simp only [V3.smul_x, V3.smul_y, V3.smul_z] <;> field_simp
  have hun : ∀ w : V3, w.dot g = w.dot cal.glass / L := by
    intro w
    rw [hg, unit_of_ne hl.glass]
    simp only [V3.dot, V3.smul_x, V3.smul_y, V3.smul_z]
    ring
  have hside : (P - cal.pos).dot g < 0 := by rw [hun]; exact div_neg_of_neg_of_pos hl.behind hL
  have hnn : cal.glass.dot cal.glass = L * L := by
    have := V3.norm_sq cal.glass
    nlinarith
  have hXg : X.dot g = L := by rw [hun, hl.cross, hnn]; field_simp
  have hq' := C27_no_refraction cal lut mm P 1 ns (by rw [h5, h2]; simp) (by rw [h5]; simp) one_ne_zero h1 h3 h4
      (Or.inl ⟨rfl, h2⟩) hl.glass hl.front.ne
  rw [hq, Option.some.injEq] at hq'
  have hne : P - cal.pos ≠ 0 := by
    intro e; rw [e] at hside; simp [dot] at hside
  set N := (P - cal.pos).norm with hN
  have hN0 : 0 < N := lt_of_le_of_ne (norm_nonneg _) (fun e => hne (V3.norm_eq_zero.1 e.symm))
  set dir := (P - cal.pos).smul (1 / N) with hdirdef
  have hdir1 : dir.norm = 1 := by
    rw [hdirdef, norm_smul, ← hN, abs_of_pos (by positivity)]; field_simp
  set w := dot cal.dm.c2 (P - cal.pos) with hw
  have hray := pinhole_ray hdm hl.cc hl.front
  rw [← hw] at hray
  have hw0 : w < 0 := hl.front
  have hcc := hl.cc
  have hdir : cal.dm.mulVec ⟨q.1, q.2, -cal.cc⟩ = dir.smul (N * (cal.cc / -w)) := by
    rw [hq']
    show cal.dm.mulVec ⟨(pinhole cal.pos cal.dm cal.cc P).1, (pinhole cal.pos cal.dm cal.cc P).2, -cal.cc⟩ = _
    rw [hray, hdirdef]; ext <;> simp <;> field_simp
  have hs : 0 < N * (cal.cc / -w) := mul_pos hN0 (div_pos hcc (by linarith))
  have hnp : dir.dot g < 0 := by
    have : dir.dot g = (P - cal.pos).dot g * (1 / N) := by
      rw [hdirdef]; simp only [dot, smul_x, smul_y, smul_z]; ring
    rw [this]; exact mul_neg_of_neg_of_pos hside (by positivity)
  obtain ⟨X', e1, ⟨t, e2⟩, e3⟩ := C26_straight q.1 q.2 omega phi kappa L cal mm d 1 [] ns g dir
    (N * (cal.cc / -w)) h5 h3 hdm hL hg1 hglass hs hdir1 hdir hnp (by rw [h1]; norm_num) h1.symm
    (by rw [h4, h1])
  have hXX : X' = X := by
    obtain ⟨u, hu⟩ := hl.line
    have h1 : cal.pos.dot g + (P - cal.pos).dot g * u = L := by
      rw [← hXg, hu]; simp only [dot, add_x, add_y, add_z, smul_x, smul_y, smul_z]; ring
    have h2 : cal.pos.dot g + (P - cal.pos).dot g * (t / N) = L := by
      rw [← e3, e2, hdirdef]; simp only [dot, add_x, add_y, add_z, smul_x, smul_y, smul_z]; ring
    have h3 : u = t / N := mul_left_cancel₀ hside.ne (by linarith)
    rw [e2, hu, hdirdef, h3]
    ext <;> simp <;> ring
  subst hXX
  refine ⟨dir, e1, ?_, N - t, ?_⟩
  · rw [hdirdef, smul_z, sub_z]
    exact mul_ne_zero (sub_ne_zero.2 hl.deep) (by positivity)
  · rw [e2, hdirdef]
    ext <;> simp <;> field_simp <;> ring

theorem epiMM2D_some {mm : MM} (hair : Air mm) (x y : ℝ) (cal : Cam) (v : Geo.VPar) : ∃ p, epiMM2D x y cal mm v = some p := by
  obtain ⟨ns, h3⟩ := hair.n2
  obtain ⟨d, h5⟩ := hair.d
  simp [epiMM2D, rayTracing, h3, h5]

theorem singlePositions_some {mm : MM} (hair : Air mm) (cal : Cam) (v : Geo.VPar) (fs : List (ℝ × ℝ)) :
    ∃ r, singleCamPointPositions (fs.map fun f => [f]) mm [cal] v = .ok r := by
  induction fs with
  | nil => exact ⟨_, rfl⟩
  | cons f fs ih =>
    obtain ⟨⟨ps, rc⟩, hr⟩ := ih
    obtain ⟨p, hp⟩ := epiMM2D_some hair f.1 f.2 cal v
    exact ⟨(p :: ps, 0 :: rc), by simp [singleCamPointPositions, pyGet, hp, hr]⟩

/-- C113: a single camera without lens distortion in air; the image of a particle is exactly the pixel position of target `n`, and the
particle is half way between the depth limits of the volume at the point `X` of the glass through which it is seen. Take
the coordinates `match_coords` makes of the targets, the identifiers `single_cam_correspondences` lists, their coordinates by
`get_by_pnrs`, and `point_positions` of these: the row that lists target `n` is the particle, with error 0. -/
theorem C113_particle (d : Pic) (ip : ImgPar) (tol : ℝ) (mm : MM) (v : Geo.VPar) (hpix : ip.pixX ≠ 0 ∧ ip.pixY ≠ 0)
    (hno : NoLens d.cal) (hair : Air mm) (P X : V3) (n : ℕ) (t : Det) (ht : d.dets[n]? = some t) (hl : Looks d.cal v P X)
    (hmid : P.z - zMinAt v X.x = zMaxAt v X.x - P.z)
    (himg : ∃ m, imgCoord P d.cal d.lut mm = some m ∧ metricToPixel m.1 m.2 ip = (t.x, t.y)) (numCams : ℕ) :
    ∃ (o : SingleOut) (ps : List (Option V3)) (errs : List (Option ℝ)) (j : ℕ),
      singleCamCorrespondences d.dets (d.matched ip tol) = .ok o ∧
      pointPositions ((d.lookup ip tol (o.entries.map Prod.fst)).map fun f => [f]) numCams mm [d.cal] v = .ok (.rows ps, errs) ∧
      ps.length = d.dets.length ∧ o.tnr[n]? = some (j : Int) ∧ o.entries[j]? = some ((n : Int), (t.x, t.y)) ∧
      ps[j]? = some (some P) ∧ errs[j]? = some (some 0) := by
  obtain ⟨o, ho, -, hlen, -, hent, hall, -⟩ := C113_listed d ip tol
  obtain ⟨j, hj, htn⟩ := hall n t ht
  have hflat : flatImageCoord P d.cal d.lut mm = some (flatPos ip tol d.cal t) := by
    obtain ⟨m, hm, hp⟩ := himg
    rw [C66_corrected P _ _ _ tol m hno.k1 hno.k2 hno.k3 hno.p1 hno.p2 hno.scale hno.shear hm]
    have hi := (C23_inverse ip hpix.1 hpix.2 m.1 m.2).2
    rw [hp] at hi
    simp only [flatPos, hi]
  have hnd : (o.entries.map Prod.fst).Nodup := by
    rw [List.nodup_iff_injective_get]
    intro a b hab
    have key : ∀ i : ℕ, ∀ h : i < o.entries.length, ∃ n : ℕ, (o.entries[i]).1 = n ∧ o.tnr[n]? = some (i : Int) := by
      intro i h
      obtain ⟨n, t, -, e, h2⟩ := hent i _ (List.getElem?_eq_getElem h)
      exact ⟨n, by rw [e], h2⟩
    obtain ⟨n1, e1, f1⟩ := key a (by simpa using a.isLt)
    obtain ⟨n2, e2, f2⟩ := key b (by simpa using b.isLt)
    simp only [List.get_eq_getElem, List.getElem_map] at hab
    have : n1 = n2 := by
      have := e1.symm.trans (hab.trans e2)
      exact_mod_cast this
    rw [this, f2, Option.some.injEq] at f1
    apply Fin.ext
    exact_mod_cast f1.symm
  obtain ⟨-, h2, -⟩ := C46_numbers d.pixels ip d.cal tol
  obtain ⟨hlk, hg⟩ := C46_get_by_pnrs (d.matched ip tol) (o.entries.map Prod.fst) coordUnused hnd h2
  obtain ⟨i, c, hc, hcn⟩ := matched_exists (ip := ip) (tol := tol) (List.getElem?_eq_some_iff.1 ht).1
  have hrow := (hg j n (by rw [List.getElem?_map, hj]; rfl)).1 c (List.mem_of_getElem? hc) hcn
  obtain ⟨n', t', e', ht', hf'⟩ := matched_get (List.mem_of_getElem? hc)
  have : n' = n := by omega
  subst this
  rw [ht] at ht'
  cases ht'
  rw [hf'] at hrow
  obtain ⟨⟨ps, rc⟩, hr⟩ := singlePositions_some hair d.cal v (d.lookup ip tol (o.entries.map Prod.fst))
  obtain ⟨c1, c2, c3⟩ := C36_single_camera _ mm [d.cal] v ps rc hr
  obtain ⟨xy, c', p, x1, x2, x3, x4⟩ := c3 j [flatPos ip tol d.cal t] (by
    rw [List.getElem?_map]
    show ((getByPnrs (d.matched ip tol) (o.entries.map Prod.fst) coordUnused)[j]?).map _ = _
    rw [hrow]
    rfl)
  simp at x1 x2
  subst x1 x2
  obtain ⟨dir, r1, r2, r3⟩ := ray_of_image hair hl hflat
  obtain ⟨m1, m2, m3, -⟩ := C29_move_along_ray (0.5 * (zMinAt v X.x + zMaxAt v X.x)) X dir r2
  have hP := m3 P r3 (by norm_num; linarith)
  simp only [epiMM2D, r1, Option.map_some, Option.some.injEq] at x4
  rw [← hP] at x4
  have hjl : j < d.dets.length := by rw [← hlen]; exact (List.getElem?_eq_some_iff.1 hj).1
  refine ⟨o, ps.map some, rc.map some, j, ho, ?_, ?_, htn, hj, ?_, ?_⟩
  · simp only [pointPositions, List.length_singleton, if_true, hr, bind, Except.bind]
  · rw [List.length_map, c1, List.length_map]
    show (getByPnrs (d.matched ip tol) (o.entries.map Prod.fst) coordUnused).length = _
    rw [hlk, List.length_map, hlen]
  · rw [List.getElem?_map, x3, x4]
    rfl
  · rw [List.getElem?_map, c2, List.getElem?_replicate, if_pos]
    · rfl
    · rw [List.length_map]
      show _ < (getByPnrs (d.matched ip tol) (o.entries.map Prod.fst) coordUnused).length
      rw [hlk, List.length_map, hlen]
      exact hjl

/-- C113: without calibrations `point_positions` raises ValueError; with more than one it is
`multi_cam_point_positions` (see C36). -/
theorem C113_dispatch (targets : List (List (ℝ × ℝ))) (numCams : ℕ) (mm : MM) (v : Geo.VPar) (c1 c2 : Cam) (cs : List Cam) :
    pointPositions targets numCams mm [] v = .error .valueError ∧
    pointPositions targets numCams mm (c1 :: c2 :: cs) v = multiCamPointPositions targets numCams mm (c1 :: c2 :: cs) := by
  constructor
  · rfl
  · simp [pointPositions]

/-- Two targets in one picture; the particle is the second target, which comes first by x. -/
noncomputable def exSingle : Pic := ⟨(exRow 0).cal, emptyLUT, [⟨900, 100, ⟨4, 2, 2, 100⟩, -1⟩, exDet 0]⟩

example (tol : ℝ) : ∃ (o : SingleOut) (ps : List (Option V3)) (errs : List (Option ℝ)) (j : ℕ),
    singleCamCorrespondences exSingle.dets (exSingle.matched exPars.ip tol) = .ok o ∧
    pointPositions ((exSingle.lookup exPars.ip tol (o.entries.map Prod.fst)).map fun f => [f]) 1 exPars.mm [exSingle.cal]
      ⟨-50, 50, -20, -20, 10, 10⟩ = .ok (.rows ps, errs) ∧
    ps.length = exSingle.dets.length ∧ o.tnr[1]? = some (j : Int) ∧ o.entries[j]? = some (((1 : ℕ) : Int), ((exDet 0).x, (exDet 0).y)) ∧
    ps[j]? = some (some ⟨1, 2, -5⟩) ∧ errs[j]? = some (some 0) := by
  have hl := exRow_looks 0
  have hline : OnLine exSingle.cal.pos ((⟨1, 2, -5⟩ : V3) - exSingle.cal.pos) ⟨90 / 105, 180 / 105, 10⟩ := by
    have h := hl.line
    simp only [Fin.val_zero, Nat.cast_zero, mul_zero, sub_zero, one_mul, zero_add] at h
    exact h
  have hcross : (⟨90 / 105, 180 / 105, 10⟩ : V3).dot exSingle.cal.glass = exSingle.cal.glass.dot exSingle.cal.glass := by
    have h := hl.cross
    simp only [Fin.val_zero, Nat.cast_zero, mul_zero, sub_zero, one_mul, zero_add] at h
    exact h
  refine C113_particle exSingle exPars.ip tol exPars.mm ⟨-50, 50, -20, -20, 10, 10⟩ (by norm_num [exPars])
    ⟨rfl, rfl, rfl, rfl, rfl, by norm_num [exSingle, exRow, defaultAddPar], by norm_num [exSingle, exRow, defaultAddPar]⟩
    ⟨rfl, rfl, ⟨[], rfl⟩, rfl, ⟨_, rfl⟩⟩ ⟨1, 2, -5⟩ ⟨90 / 105, 180 / 105, 10⟩ 1 (exDet 0) rfl ?_ ?_ ?_ 1
  · exact ⟨hl.rot, hl.cc, hl.glass, hl.front, hl.behind, hl.deep, hline, hcross,
      by norm_num [zMinAt, zMaxAt]⟩
  · norm_num [zMinAt, zMaxAt]
  · exact (exPic_pictured tol).image 0

end Verif.FullCorr
