/-
C111: from the pixel positions in four pictures to the position of the particle.
-/
import Verif.Spec.Pictures
import Verif.Props.FullCorr
import Verif.Props.FrameData
import Verif.Props.ImgCoord

namespace Verif.FullCorr

open Verif.Geo Verif.Geo.V3 Verif.Geo.Spec Verif.Search Verif.Search.Spec Verif.Corr Verif.Corr.Spec

/-! ### The sorted coordinates and the targets -/

theorem unsorted_get (d : Pic) (ip : ImgPar) (tol : ℝ) (n : ℕ) : (d.unsorted ip tol).crd[n]? =
    (d.dets[n]?).map fun t => ⟨n, (flatPos ip tol d.cal t).1, (flatPos ip tol d.cal t).2⟩ := by
  simp [Pic.unsorted, List.getElem?_mapIdx]

/-- A row of the sorted coordinates is the row of its target. -/
theorem row_of {d : Pic} {ip : ImgPar} {tol : ℝ} {i : ℕ} {q : Search.Coord} (h : (d.data ip tol).crd[i]? = some q) :
    (d.unsorted ip tol).crd[q.pnr]? = some q := by
  simp only [Pic.data, List.getElem?_map, Option.map_eq_some_iff] at h
  obtain ⟨c, hc, rfl⟩ := h
  obtain ⟨-, -, h3, -⟩ := C46_numbers d.pixels ip d.cal tol
  obtain ⟨t, ht, he⟩ := h3 c (List.mem_of_getElem? hc)
  simp only [Pic.pixels, List.getElem?_map, Option.map_eq_some_iff] at ht
  obtain ⟨t', ht', rfl⟩ := ht
  rw [unsorted_get, ht', Option.map_some]
  have : flatPos ip tol d.cal t' = (c.x, c.y) := he.symm
  rw [this]

theorem matched_pos {d : Pic} {ip : ImgPar} {tol : ℝ} {c : Geo.Coord} (hc : c ∈ d.matched ip tol) : 0 ≤ c.pnr := by
  obtain ⟨h1, -⟩ := C46_numbers d.pixels ip d.cal tol
  have : c.pnr ∈ (List.range d.pixels.length).map (fun n : ℕ => (n : Int)) := h1.mem_iff.1 (List.mem_map_of_mem hc)
  obtain ⟨n, -, e⟩ := List.mem_map.1 this
  omega

/-- Every target has a row. -/
theorem row_exists {d : Pic} {ip : ImgPar} {tol : ℝ} {n : ℕ} (h : n < d.dets.length) :
    ∃ (i : ℕ) (q : Search.Coord), (d.data ip tol).crd[i]? = some q ∧ q.pnr = n := by
  obtain ⟨h1, -⟩ := C46_numbers d.pixels ip d.cal tol
  have : (n : Int) ∈ (d.matched ip tol).map Geo.Coord.pnr :=
    h1.mem_iff.2 (List.mem_map.2 ⟨n, List.mem_range.2 (by simpa [Pic.pixels] using h), rfl⟩)
  obtain ⟨c, hc, e⟩ := List.mem_map.1 this
  obtain ⟨i, hi, hic⟩ := List.mem_iff_getElem.1 hc
  refine ⟨i, ⟨c.pnr.toNat, c.x, c.y⟩, ?_, ?_⟩
  · simp only [Pic.data, List.getElem?_map, List.getElem?_eq_getElem hi, hic, Option.map_some]
  · simp only [e, Int.toNat_natCast]

theorem data_once (d : Pic) (ip : ImgPar) (tol : ℝ) : ((d.data ip tol).crd.map Search.Coord.pnr).Nodup := by
  obtain ⟨-, h2, -⟩ := C46_numbers d.pixels ip d.cal tol
  have e : (d.data ip tol).crd.map Search.Coord.pnr = (d.matched ip tol).map fun c => c.pnr.toNat := by
    simp [Pic.data, List.map_map, Function.comp_def]
  rw [e]
  have h2 : ((d.matched ip tol).map Geo.Coord.pnr).Nodup := h2
  rw [List.nodup_map_iff_inj_on (List.Nodup.of_map _ h2)]
  intro a ha b hb hab
  have h0 := matched_pos ha
  have h1 := matched_pos hb
  exact List.inj_on_of_nodup_map h2 ha hb (by omega)

theorem data_length (d : Pic) (ip : ImgPar) (tol : ℝ) : (d.data ip tol).crd.length = d.dets.length := by
  obtain ⟨-, h⟩ := C46_sorted_relabelling d.pixels ip d.cal tol true
  have := h.length_eq
  simp only [Pic.data, Pic.matched, List.length_map]
  rw [this]
  simp [Pic.pixels]

/-- Rows with the same number are the same row. -/
theorem row_inj {d : Pic} {ip : ImgPar} {tol : ℝ} {i j : ℕ} {q r : Search.Coord} (hi : (d.data ip tol).crd[i]? = some q)
    (hj : (d.data ip tol).crd[j]? = some r) (h : q.pnr = r.pnr) : i = j := by
  obtain ⟨l1, e1⟩ := List.getElem?_eq_some_iff.1 hi
  obtain ⟨l2, e2⟩ := List.getElem?_eq_some_iff.1 hj
  refine (List.Nodup.getElem_inj_iff (data_once d ip tol) (hi := by simpa using l1) (hj := by simpa using l2)).1 ?_
  simp only [List.getElem_map, e1, e2, h]

/-- The coordinates `match_coords` makes of fine detections are fine. -/
theorem data_fine {d : Pic} (h : PicFine d) (ip : ImgPar) (tol : ℝ) : DataFine (d.data ip tol) where
  sorted := by
    obtain ⟨hs, -⟩ := C46_sorted_relabelling d.pixels ip d.cal tol true
    have e : (d.data ip tol).crd.map Search.Coord.x = (d.matched ip tol).map Geo.Coord.x := by
      simp [Pic.data, List.map_map, Function.comp_def]
    rw [e, List.pairwise_map]
    exact hs
  few := by rw [data_length]; exact h.few
  some := by rw [data_length]; exact h.some
  names q hq := by
    obtain ⟨i, hi, e⟩ := List.mem_iff_getElem.1 hq
    have := row_of (e ▸ List.getElem?_eq_getElem hi)
    rw [unsorted_get, Option.map_eq_some_iff] at this
    obtain ⟨t, ht, -⟩ := this
    have := (List.getElem?_eq_some_iff.1 ht).1
    simpa [Pic.data] using this
  once := data_once d ip tol
  sizes s hs := by
    obtain ⟨t, ht, rfl⟩ := List.mem_map.1 hs
    exact h.sizes t ht
  pixs := by rw [data_length]; simp [Pic.data]
  tnrs := by rw [data_length]; simp [Pic.data]
  xys := by rw [data_length]; simp [Pic.data]

/-! ### From the unsorted to the sorted coordinates -/

theorem epi_unsorted {p : Pars} {tol : ℝ} {a b : Pic} {i : ℕ} {q : Search.Coord} (h : (a.data p.ip tol).crd[i]? = some q)
    (e : (ℝ × ℝ) × (ℝ × ℝ)) : Epi p (a.data p.ip tol) (b.data p.ip tol) i e ↔
      Epi p (a.unsorted p.ip tol) (b.unsorted p.ip tol) q.pnr e := by
  have h' := row_of h
  constructor
  · rintro ⟨r, hr, he⟩
    rw [h] at hr
    cases hr
    exact ⟨q, h', he⟩
  · rintro ⟨r, hr, he⟩
    rw [h'] at hr
    cases hr
    exact ⟨q, h, he⟩

theorem onEpi_unsorted {p : Pars} {tol : ℝ} {a b : Pic} {i j : ℕ} {q r : Search.Coord} (hq : (a.data p.ip tol).crd[i]? = some q)
    (hr : (b.data p.ip tol).crd[j]? = some r) (h : OnEpi p (a.data p.ip tol) (b.data p.ip tol) i j) :
    OnEpi p (a.unsorted p.ip tol) (b.unsorted p.ip tol) q.pnr r.pnr := by
  obtain ⟨e, r', he, hr', hz⟩ := h
  rw [hr] at hr'
  cases hr'
  exact ⟨e, r, (epi_unsorted hq e).1 he, row_of hr, hz⟩

theorem notCrowded_sorted {p : Pars} {tol : ℝ} {a b : Pic} {i : ℕ} {q : Search.Coord} (hq : (a.data p.ip tol).crd[i]? = some q)
    (h : NotCrowded p (a.unsorted p.ip tol) (b.unsorted p.ip tol) q.pnr) : NotCrowded p (a.data p.ip tol) (b.data p.ip tol) i := by
  intro e q' s he hq' hs l hl ha
  rw [hq] at hq'
  cases hq'
  have hrow : ∀ j ∈ l, ∃ r, (b.data p.ip tol).crd[j]? = some r := by
    intro j hj
    obtain ⟨r, t, hr, -⟩ := ha j hj
    exact ⟨r, hr⟩
  let f : ℕ → ℕ := fun j => (((b.data p.ip tol).crd[j]?).map Search.Coord.pnr).getD 0
  have hf : ∀ j r, (b.data p.ip tol).crd[j]? = some r → f j = r.pnr := by
    intro j r hr
    simp [f, hr]
  have := h e q s ((epi_unsorted hq e).1 he) (row_of hq) hs (l.map f) ((List.nodup_map_iff_inj_on hl).2 ?_) ?_
  · simpa using this
  · intro x hx y hy hxy
    obtain ⟨rx, hrx⟩ := hrow x hx
    obtain ⟨ry, hry⟩ := hrow y hy
    rw [hf x rx hrx, hf y ry hry] at hxy
    exact row_inj hrx hry hxy
  · intro m hm
    obtain ⟨j, hj, rfl⟩ := List.mem_map.1 hm
    obtain ⟨r, t, hr, ht, hrest⟩ := ha j hj
    rw [hf j r hr]
    exact ⟨r, t, row_of hr, ht, hrest⟩

/-- The flat position of a target that shows the particle is the particle's flat projection. -/
theorem Pictured.flat {p : Pars} {tol : ℝ} {pics : Fin 4 → Pic} {P : V3} {X : Fin 4 → V3} {n : Fin 4 → ℕ} {t : Fin 4 → Det}
    (h : Pictured p tol pics P X n t) (hpix : p.ip.pixX ≠ 0 ∧ p.ip.pixY ≠ 0) (hno : ∀ c, NoLens (pics c).cal) (c : Fin 4) :
    flatImageCoord P (pics c).cal (pics c).lut p.mm = some (flatPos p.ip tol (pics c).cal (t c)) := by
  obtain ⟨m, hm, hp⟩ := h.image c
  have hl := hno c
  rw [C66_corrected P _ _ _ tol m hl.k1 hl.k2 hl.k3 hl.p1 hl.p2 hl.scale hl.shear hm]
  have hi := (C23_inverse p.ip hpix.1 hpix.2 m.1 m.2).2
  rw [hp] at hi
  simp only [flatPos, hi]

/-- The particle is seen, in the sense of C109. -/
theorem Pictured.seen {p : Pars} {tol : ℝ} {pics : Fin 4 → Pic} {P : V3} {X : Fin 4 → V3} {n : Fin 4 → ℕ} {t : Fin 4 → Det}
    (h : Pictured p tol pics P X n t) (hpix : p.ip.pixX ≠ 0 ∧ p.ip.pixY ≠ 0) (hno : ∀ c, NoLens (pics c).cal) :
    ∃ k : Fin 4 → ℕ, (∀ c, ((pics c).data p.ip tol).crd[k c]? =
        some ⟨n c, (flatPos p.ip tol (pics c).cal (t c)).1, (flatPos p.ip tol (pics c).cal (t c)).2⟩) ∧
      Seen p (fun c => (pics c).data p.ip tol) P X k fun c => (t c).shape := by
  have hrow : ∀ c, ∃ k : ℕ, ((pics c).data p.ip tol).crd[k]? =
        some ⟨n c, (flatPos p.ip tol (pics c).cal (t c)).1, (flatPos p.ip tol (pics c).cal (t c)).2⟩ := by
    intro c
    have ht := h.target c
    obtain ⟨i, q, hi, hq⟩ := row_exists (ip := p.ip) (tol := tol) (List.getElem?_eq_some_iff.1 ht).1
    refine ⟨i, ?_⟩
    have hr := row_of hi
    rw [unsorted_get, hq, ht, Option.map_some, Option.some.injEq] at hr
    rw [hi, hr]
  choose k hk using hrow
  refine ⟨k, hk, h.looks, h.facing, ?_, h.alike, ?_, ?_⟩
  · intro c
    obtain ⟨b1, b2, b3, b4⟩ := h.inside c
    refine ⟨_, hk c, ?_, ?_, b1, b2, b3, b4⟩
    · show ((pics c).dets.map Det.shape)[n c]? = _
      rw [List.getElem?_map, h.target c]
      rfl
    · exact h.flat hpix hno c
  · intro c1 c2 h12 e he
    exact h.slanted c1 c2 h12 e ((epi_unsorted (hk c1) e).1 he)
  · intro c1 c2 h12
    exact notCrowded_sorted (hk c1) (h.sparse c1 c2 h12)

theorem Unambiguous.sorted {p : Pars} {tol : ℝ} {pics : Fin 4 → Pic} {n k : Fin 4 → ℕ} {q : Fin 4 → Search.Coord}
    (hun : Unambiguous p tol pics n) (hk : ∀ c, ((pics c).data p.ip tol).crd[k c]? = some (q c)) (hq : ∀ c, (q c).pnr = n c)
    (k' : Fin 4 → ℕ) (hne : k' ≠ k) (hc : ∃ c, k' c = k c) :
    ∃ c1 c2, c1 < c2 ∧ ¬ OnEpi p ((pics c1).data p.ip tol) ((pics c2).data p.ip tol) (k' c1) (k' c2) := by
  by_cases hin : ∀ c, ∃ r, ((pics c).data p.ip tol).crd[k' c]? = some r
  · choose r hr using hin
    obtain ⟨c0, h0⟩ := hc
    obtain ⟨d, hd⟩ := Function.ne_iff.1 hne
    obtain ⟨c1, c2, h12, ho⟩ := hun (fun c => (r c).pnr) (by
        intro e
        have := congrFun e d
        exact hd (row_inj (hr d) (hk d) (by rw [this, hq]))) ⟨c0, by
        have := hr c0
        rw [h0, hk c0, Option.some.injEq] at this
        show (r c0).pnr = n c0
        rw [← this, hq c0]⟩
    exact ⟨c1, c2, h12, fun h => ho (onEpi_unsorted (hr c1) (hr c2) h)⟩
  · push Not at hin
    obtain ⟨d, hd⟩ := hin
    by_cases h : d = 0
    · refine ⟨d, 1, by rw [h]; decide, ?_⟩
      rintro ⟨e, q, ⟨q', h1, -⟩, -⟩
      exact hd q' h1
    · refine ⟨0, d, Fin.pos_iff_ne_zero.2 h, ?_⟩
      rintro ⟨e, q, -, h1, -⟩
      exact hd q h1

/-! ### The particle -/

/-- The identifiers of a returned group are different. -/
theorem quads_nodup (srt : NpSort ℝ) {p : Pars} {cams : Fin 4 → CamData} (hd : ∀ c, DataFine (cams c)) (heps : 0 < p.crit.eps0)
    (hcs : 0 ≤ p.crit.csumg) {o : Out} (ho : pyCorrespondences srt p cams = .ok o) (c : Fin 4) :
    ((o.quads c).map Prod.fst).Nodup := by
  cases hr : run srt p cams with
  | error e => rw [pyCorrespondences, hr] at ho; cases ho
  | ok r =>
    rw [py_eq srt hd heps hcs hr] at ho
    cases ho
    obtain ⟨hb, h4, -, -, hpw, -⟩ := run_full srt hd heps hcs hr
    simp only [List.map_map]
    have hsub : r.quads.Pairwise (fun a b => ¬ Share 4 a b) := by
      unfold Result.con at hpw
      exact (List.pairwise_append.1 (by simpa using hpw)).1
    rw [List.Nodup, List.pairwise_map]
    refine hsub.imp_of_mem ?_
    intro a b ha hb' hsh heq
    apply hsh
    have key : ∀ x ∈ r.quads, ∃ (k : ℕ) (q : Search.Coord), x.p c = k ∧ (cams c).crd[k]? = some q ∧
        (ent (cams c) c x).1 = q.pnr := by
      intro x hx
      have h0 : 0 ≤ x.p c := by
        by_contra hneg
        have := h4 x hx
        rw [Set.ncard_eq_zero] at this
        have hm : c ∈ {c | x.p c < 0} := by simpa using hneg
        rw [this] at hm
        exact hm
      have hlt := hb x (by simp [Result.con, hx]) c h0
      have hq := List.getElem?_eq_getElem hlt
      obtain ⟨xy, -, e⟩ := ent_some (hd c) (c := c) (t := x) (k := (x.p c).toNat) (by omega) hq
      exact ⟨_, _, by omega, hq, by rw [e]⟩
    obtain ⟨k, q, h1, h2, h3⟩ := key a ha
    obtain ⟨k', q', h1', h2', h3'⟩ := key b hb'
    simp only [Function.comp_apply] at heq
    rw [h3, h3'] at heq
    have heq : q.pnr = q'.pnr := by exact_mod_cast heq
    obtain ⟨l1, e1⟩ := List.getElem?_eq_some_iff.1 h2
    obtain ⟨l2, e2⟩ := List.getElem?_eq_some_iff.1 h2'
    have hkk : k = k' := by
      refine (List.Nodup.getElem_inj_iff (hd c).once (hi := by simpa using l1) (hj := by simpa using l2)).1 ?_
      simp only [List.getElem_map, e1, e2, heq]
    exact ⟨c, k, ⟨c.isLt, h1⟩, ⟨c.isLt, by rw [hkk]; exact h1'⟩⟩

/-- C111: in air, cameras without lens distortion; a particle is seen in four pictures, and its image in picture `c` is exactly the pixel
position of target `n c`. Take the coordinates `match_coords` makes of the pictures, `py_correspondences` of them, `get_by_pnrs` of
the identifiers it lists as quadruplets, and `point_position` of its rows: if the particle is not ambiguous, nor on one line with two
cameras, and nothing overflows, one row lists its four targets and `point_position` of that row is the particle, with error 0. -/
theorem C111_particle (srt : NpSort ℝ) (p : Pars) (tol : ℝ) (pics : Fin 4 → Pic) (hpix : p.ip.pixX ≠ 0 ∧ p.ip.pixY ≠ 0)
    (hno : ∀ c, NoLens (pics c).cal) (hfine : ∀ c, PicFine (pics c)) (heps : 0 < p.crit.eps0) (hcs : 0 ≤ p.crit.csumg)
    (cm : ℝ) (hcm : p.corrmin = .fin cm) (hair : Air p.mm) (hover : ¬ Overflow p fun c => (pics c).data p.ip tol)
    (P : V3) (X : Fin 4 → V3) (n : Fin 4 → ℕ) (t : Fin 4 → Det) (hs : Pictured p tol pics P X n t)
    (hun : Unambiguous p tol pics n) (hline : ∀ c1 c2, c1 < c2 → NotParallel (P - (pics c1).cal.pos) (P - (pics c2).cal.pos))
    (hmark : ∀ c, (flatPos p.ip tol (pics c).cal (t c)).1 ≠ -1e10)
    (o : Out) (ho : pyCorrespondences srt p (fun c => (pics c).data p.ip tol) = .ok o) :
    ∃ (j : ℕ) (f : Fin 4 → ℝ × ℝ), (∀ c, (o.quads c)[j]? = some ((n c : Int), ((t c).x, (t c).y))) ∧
      (∀ c, ((pics c).lookup p.ip tol ((o.quads c).map Prod.fst))[j]? = some (f c)) ∧
      pointPosition ((List.finRange 4).map f) 4 p.mm ((List.finRange 4).map fun c => (pics c).cal) = .ok (some (0, P)) := by
  have hd : ∀ c, DataFine ((pics c).data p.ip tol) := fun c => data_fine (hfine c) p.ip tol
  obtain ⟨k, hk, hseen⟩ := hs.seen hpix hno
  obtain ⟨j, hj⟩ := C110_particle_listed srt p _ hd heps hcs cm hcm hair hover P X k _ hseen
    (hun.sorted hk fun c => rfl) o ho
  have hq : ∀ c, (o.quads c)[j]? = some ((n c : Int), ((t c).x, (t c).y)) := by
    intro c
    obtain ⟨q, xy, h1, h2, h3⟩ := hj c
    rw [hk c] at h1
    cases h1
    rw [h3]
    have : (((pics c).dets.map fun t => (t.x, t.y)) : List (ℝ × ℝ))[n c]? = some xy := h2
    rw [List.getElem?_map, hs.target c, Option.map_some, Option.some.injEq] at this
    rw [← this]
  refine ⟨j, fun c => flatPos p.ip tol (pics c).cal (t c), hq, ?_, ?_⟩
  · intro c
    have hn := quads_nodup srt hd heps hcs ho c
    obtain ⟨-, h2, -⟩ := C46_numbers (pics c).pixels p.ip (pics c).cal tol
    obtain ⟨-, hg⟩ := C46_get_by_pnrs ((pics c).matched p.ip tol) ((o.quads c).map Prod.fst) coordUnused hn h2
    have hkc := hk c
    simp only [Pic.data, List.getElem?_map, Option.map_eq_some_iff] at hkc
    obtain ⟨r, hr, he⟩ := hkc
    simp only [Search.Coord.mk.injEq] at he
    have hr0 := matched_pos (List.mem_of_getElem? hr)
    have := (hg j (n c) (by rw [List.getElem?_map, hq c]; rfl)).1 r (List.mem_of_getElem? hr) (by omega)
    rw [Pic.lookup, this, he.2.1, he.2.2]
  · exact C109_position p _ hair P X k _ hseen hline
      (fun c => ⟨n c, (flatPos p.ip tol (pics c).cal (t c)).1, (flatPos p.ip tol (pics c).cal (t c)).2⟩) hk hmark

/-- C111: nothing overflows if there are fewer than 40000 ways to pick one target per picture. -/
theorem C111_no_overflow (p : Pars) (tol : ℝ) (pics : Fin 4 → Pic) (hfine : ∀ c, PicFine (pics c)) (heps : 0 < p.crit.eps0)
    (hcs : 0 ≤ p.crit.csumg) (hN : (pics 0).dets.length * ((pics 1).dets.length * ((pics 2).dets.length *
      (pics 3).dets.length)) < 40000) : ¬ Overflow p fun c => (pics c).data p.ip tol := by
  refine C109_no_overflow p _ (fun c => data_fine (hfine c) p.ip tol) heps hcs ?_
  simp only [data_length]
  exact hN

/-- C111: `py_correspondences` returns if the epipolar lines of all targets can be computed. -/
theorem C111_returns (srt : NpSort ℝ) (p : Pars) (tol : ℝ) (pics : Fin 4 → Pic) (hfine : ∀ c, PicFine (pics c))
    (heps : 0 < p.crit.eps0) (hcs : 0 ≤ p.crit.csumg) (hepi : ∀ c1 c2, c1 < c2 → ∀ n < (pics c1).dets.length,
      ∃ e, Epi p ((pics c1).unsorted p.ip tol) ((pics c2).unsorted p.ip tol) n e) :
    ∃ o, pyCorrespondences srt p (fun c => (pics c).data p.ip tol) = .ok o := by
  obtain ⟨o, ho, -⟩ := C110_distribution srt p (fun c => (pics c).data p.ip tol) (fun c => data_fine (hfine c) p.ip tol) heps hcs (by
    intro c1 c2 h i hi
    have hq := List.getElem?_eq_getElem hi
    have hr := row_of hq
    rw [unsorted_get, Option.map_eq_some_iff] at hr
    obtain ⟨t, ht, -⟩ := hr
    obtain ⟨e, he⟩ := hepi c1 c2 h _ (List.getElem?_eq_some_iff.1 ht).1
    exact ⟨e, (epi_unsorted hq e).2 he⟩)
  exact ⟨o, ho⟩

/-- C111: with the default lens parameters a target is inside the sensor, for the search, exactly if its pixel position is inside the
picture. -/
theorem C111_inside (ip : ImgPar) (tol : ℝ) (cal : Cam) (t : Det) (hap : cal.ap = defaultAddPar) (hx : 0 < ip.pixX) (hy : 0 < ip.pixY) :
    ((sensorOf ip cal).xmin < (flatPos ip tol cal t).1 ∧ (flatPos ip tol cal t).1 < (sensorOf ip cal).xmax ∧
      (sensorOf ip cal).ymin < (flatPos ip tol cal t).2 ∧ (flatPos ip tol cal t).2 < (sensorOf ip cal).ymax) ↔
    (0 < t.x ∧ t.x < ip.imx) ∧ (0 < t.y ∧ t.y < ip.imy) := by
  have hb := fun x y => (C24_default_identity 1e-5 x y).2
  have hb' := fun x y => (C24_default_identity tol x y).2
  simp only [sensorOf, flatPos, distToFlat, hap, hb, hb', pixelToMetric]
  constructor
  · rintro ⟨h1, h2, h3, h4⟩
    refine ⟨⟨?_, ?_⟩, ?_, ?_⟩
    · by_contra h; push Not at h; nlinarith
    · by_contra h; push Not at h; nlinarith
    · by_contra h; push Not at h; nlinarith
    · by_contra h; push Not at h; nlinarith
  · rintro ⟨⟨h1, h2⟩, h3, h4⟩
    refine ⟨?_, ?_, ?_, ?_⟩ <;> nlinarith

/-! ### An example: the four cameras of C109, with pictures -/

/-- The picture of camera number `c`: one target. -/
noncomputable def exDet (c : Fin 4) : Det := ⟨500 + 500 * (1 - 10 * (c.val : ℝ)) / 105, 500 - 1000 / 105, ⟨4, 2, 2, 100⟩, -1⟩

noncomputable def exPic (c : Fin 4) : Pic := ⟨(exRow c).cal, emptyLUT, [exDet c]⟩

theorem exPic_flat (c : Fin 4) (tol : ℝ) : flatPos exPars.ip tol (exPic c).cal (exDet c) = (50 * (1 - 10 * (c.val : ℝ)) / 105, 100 / 105) := by
  have hb' := fun x y => (C24_default_identity tol x y).2
  simp only [flatPos, distToFlat, exPic, exRow, hb', pixelToMetric, exPars, exDet]
  norm_num
  ring

theorem exPic_crd (c : Fin 4) (tol : ℝ) : ((exPic c).unsorted exPars.ip tol).crd = (exRow c).crd := by
  have hf := exPic_flat c tol
  have hd : (exPic c).dets = [exDet c] := rfl
  simp only [Pic.unsorted, hd, List.mapIdx_cons, List.mapIdx_nil, hf]
  rfl

theorem exPic_epi (tol : ℝ) (c1 c2 : Fin 4) (i : ℕ) (e : (ℝ × ℝ) × (ℝ × ℝ)) :
    Epi exPars ((exPic c1).unsorted exPars.ip tol) ((exPic c2).unsorted exPars.ip tol) i e ↔ Epi exPars (exRow c1) (exRow c2) i e := by
  unfold Epi
  rw [exPic_crd]
  rfl

theorem exPic_pictured (tol : ℝ) : Pictured exPars tol exPic ⟨1, 2, -5⟩
    (fun c => ⟨10 * (c.val : ℝ) + (1 - 10 * (c.val : ℝ)) * (90 / 105), 180 / 105, 10⟩) (fun _ => 0) exDet where
  looks := exRow_looks
  facing := exRow_seen.facing
  target c := rfl
  image c := by
    have hf := exRow_flat c ⟨1, 2, -5⟩ (by norm_num)
    refine ⟨flatToDist (-50 * ((1 - 10 * (c.val : ℝ)) / (-5 - 100))) (-50 * (2 / (-5 - 100))) 0 0 defaultAddPar, ?_, ?_⟩
    · show imgCoord _ (exRow c).cal (exRow c).lut _ = _
      rw [imgCoord, hf]
      rfl
    · simp only [flatToDist, (C24_default_identity 0 _ _).1, metricToPixel, exPars, exDet]
      norm_num
      ring
  inside c := by
    have hc : (c.val : ℝ) ≤ 3 := by exact_mod_cast Nat.le_of_lt_succ c.isLt
    have h0 : (0 : ℝ) ≤ c.val := Nat.cast_nonneg _
    refine (C111_inside exPars.ip tol (exPic c).cal (exDet c) rfl (by norm_num [exPars]) (by norm_num [exPars])).2 ?_
    simp only [exDet, exPars]
    norm_num
    constructor <;> linarith
  alike := exRow_seen.alike
  slanted c1 c2 h e he := exRow_slanted c1 c2 h e ((exPic_epi tol c1 c2 0 e).1 he)
  sparse c1 c2 h e q s _ _ _ l hl ha := by
    have hs : l ⊆ [0] := by
      intro j hj
      obtain ⟨u, t, hu, -⟩ := ha j hj
      rw [exPic_crd] at hu
      have : j < 1 := (List.getElem?_eq_some_iff.1 hu).1
      simp; omega
    have := (hl.subperm hs).length_le
    simp at this
    omega

theorem exPic_unambiguous (tol : ℝ) : Unambiguous exPars tol exPic fun _ => 0 := by
  intro k' hne _
  obtain ⟨c, hc⟩ := Function.ne_iff.1 hne
  have hno : ∀ d : Fin 4, ((exPic d).unsorted exPars.ip tol).crd[k' c]? = none := by
    intro d
    rw [exPic_crd, List.getElem?_eq_none_iff]
    simp only [exRow, List.length_singleton]
    omega
  by_cases h : c = 0
  · refine ⟨c, 1, by rw [h]; decide, ?_⟩
    rintro ⟨e, q, ⟨q', h1, -⟩, -⟩
    rw [hno] at h1
    cases h1
  · refine ⟨0, c, Fin.pos_iff_ne_zero.2 h, ?_⟩
    rintro ⟨e, q, -, h1, -⟩
    rw [hno] at h1
    cases h1

theorem exPic_fine (c : Fin 4) : PicFine (exPic c) := by
  constructor <;> simp [exPic, exDet]

/-- From the pictures to the particle. -/
example (srt : NpSort ℝ) : ∃ o, pyCorrespondences srt exPars (fun c => (exPic c).data exPars.ip 1e-5) = .ok o ∧
    ∃ (j : ℕ) (f : Fin 4 → ℝ × ℝ), (∀ c, (o.quads c)[j]? = some (0, ((exDet c).x, (exDet c).y))) ∧
      (∀ c, ((exPic c).lookup exPars.ip 1e-5 ((o.quads c).map Prod.fst))[j]? = some (f c)) ∧
      pointPosition ((List.finRange 4).map f) 4 exPars.mm ((List.finRange 4).map fun c => (exPic c).cal)
        = .ok (some (0, ⟨1, 2, -5⟩)) := by
  have heps : 0 < exPars.crit.eps0 := by norm_num [exPars]
  have hcs : 0 ≤ exPars.crit.csumg := by norm_num [exPars]
  obtain ⟨o, ho⟩ := C111_returns srt exPars 1e-5 exPic exPic_fine heps hcs (by
    intro c1 c2 h i hi
    have hi : i = 0 := by simpa [exPic] using hi
    subst hi
    obtain ⟨e, he⟩ := exRow_seen.epi exAir h
    exact ⟨e, (exPic_epi 1e-5 c1 c2 0 e).2 he⟩)
  refine ⟨o, ho, ?_⟩
  refine C111_particle srt exPars 1e-5 exPic (by norm_num [exPars]) ?_ exPic_fine heps hcs 33 rfl exAir
    (C111_no_overflow exPars 1e-5 exPic exPic_fine heps hcs (by simp [exPic])) _ _ _ _ (exPic_pictured 1e-5)
    (exPic_unambiguous 1e-5) ?_ ?_ o ho
  · intro c
    constructor <;> norm_num [exPic, exRow, defaultAddPar]
  · intro c1 c2 h
    rw [notParallel_iff]
    have h12 : (c1.val : ℝ) < c2.val := by exact_mod_cast h
    norm_num [exPic, exRow, dot, cross]
    nlinarith
  · intro c
    rw [exPic_flat]
    have hc : (c.val : ℝ) ≤ 3 := by exact_mod_cast Nat.le_of_lt_succ c.isLt
    simp only
    intro h
    norm_num at h
    linarith

/-! ### C112: the sensor of the search -/

/-- C112 (part that holds): with the default lens parameters, a target inside the picture that lies on the epipolar segment, passes the
criteria and has at most 40 competitors is a candidate. Missing: other lens parameters, see `C112_sensor_refuted`. -/
theorem C112_found_partial (p : Pars) (tol : ℝ) (d : Pic) (hfine : PicFine d) (hap : d.cal.ap = defaultAddPar)
    (hx : 0 < p.ip.pixX) (hy : 0 < p.ip.pixY) (heps : 0 < p.crit.eps0) (s : Shape)
    (hs : 0 ≤ s.n ∧ 0 ≤ s.nx ∧ 0 ≤ s.ny ∧ 0 ≤ s.sumg) (e : (ℝ × ℝ) × (ℝ × ℝ)) (hne : e.1.1 ≠ e.2.1) (n : ℕ) (t : Det)
    (ht : d.dets[n]? = some t) (hin : (0 < t.x ∧ t.x < p.ip.imx) ∧ (0 < t.y ∧ t.y < p.ip.imy)) (hal : Alike p.crit s t.shape)
    (τ : ℝ) (h0 : 0 ≤ τ) (h1 : τ ≤ 1)
    (hon : flatPos p.ip tol d.cal t = ((1 - τ) * e.1.1 + τ * e.2.1, (1 - τ) * e.1.2 + τ * e.2.2))
    (hfew : ∀ l : List ℕ, l.Nodup → (∀ j ∈ l, Acceptable p.crit s (d.data p.ip tol).crd (d.data p.ip tol).pix e.1.1 e.1.2 e.2.1 e.2.2 j) →
      l.length ≤ 40) :
    ∃ r, findCandidate (sensorOf p.ip d.cal) p.crit s (d.data p.ip tol).crd (d.data p.ip tol).pix e.1.1 e.1.2 e.2.1 e.2.2 = .ok r ∧
      ∃ c ∈ r, ∃ q, (d.data p.ip tol).crd[c.pnr]? = some q ∧ q.pnr = n := by
  classical
  have hd := data_fine hfine p.ip tol
  obtain ⟨i, q, hi, hq⟩ := row_exists (ip := p.ip) (tol := tol) (List.getElem?_eq_some_iff.1 ht).1
  have hr := row_of hi
  rw [unsorted_get, hq, ht, Option.map_some, Option.some.injEq] at hr
  have hqx : q.x = (1 - τ) * e.1.1 + τ * e.2.1 := by rw [← hr, hon]
  have hqy : q.y = (1 - τ) * e.1.2 + τ * e.2.2 := by rw [← hr, hon]
  have hpx : (d.data p.ip tol).pix[q.pnr]? = some t.shape := by
    show (d.dets.map Det.shape)[q.pnr]? = _
    rw [List.getElem?_map, hq, ht]
    rfl
  obtain ⟨hacc, bx, by', -⟩ := acceptable_exact heps hi hpx hal hne h0 h1 hqx hqy
  have ht' : tilt e.1.1 e.2.1 = e.2.1 := if_neg hne
  obtain ⟨b1, b2, b3, b4⟩ := (C111_inside p.ip tol d.cal t hap hx hy).2 hin
  rw [hon] at b1 b2 b3 b4
  simp only at b1 b2 b3 b4
  rw [← hqx] at b1 b2
  rw [← hqy] at b3 b4
  obtain ⟨r, hr, hm⟩ := C09_candidates_complete_partial (sensorOf p.ip d.cal) p.crit s (d.data p.ip tol).crd (d.data p.ip tol).pix
    e.1.1 e.1.2 e.2.1 e.2.2 (dataOK hd hs) heps hd.sorted hd.few (by
      unfold SegmentOff
      rw [ht']
      rintro (h | h | h | h) <;> linarith [bx.1, bx.2, by'.1, by'.2])
  rw [List.take_of_length_le (hfew _ (List.Nodup.filter _ List.nodup_range) (by
      intro j hj
      have := (List.mem_filter.1 hj).2
      exact of_decide_eq_true this))] at hm
  have hmem : i ∈ r.map Cand.pnr := by
    rw [hm]
    exact List.mem_filter.2 ⟨List.mem_range.2 (List.getElem?_eq_some_iff.1 hi).1, decide_eq_true hacc⟩
  obtain ⟨c, hc, hci⟩ := List.mem_map.1 hmem
  exact ⟨r, hr, c, hc, q, by rw [hci]; exact hi, hq⟩

/-- The target of camera 2 of the example, on a segment through it. -/
example : ∃ r, findCandidate (sensorOf exPars.ip (exPic 1).cal) exPars.crit (exDet 1).shape ((exPic 1).data exPars.ip 1e-5).crd
    ((exPic 1).data exPars.ip 1e-5).pix (-450 / 105 - 1) (100 / 105) (-450 / 105 + 1) (100 / 105) = .ok r ∧
      ∃ c ∈ r, ∃ q, ((exPic 1).data exPars.ip 1e-5).crd[c.pnr]? = some q ∧ q.pnr = 0 := by
  refine C112_found_partial exPars 1e-5 (exPic 1) (exPic_fine 1) rfl (by norm_num [exPars]) (by norm_num [exPars])
    (by norm_num [exPars]) _ (by norm_num [exDet]) ((-450 / 105 - 1, 100 / 105), (-450 / 105 + 1, 100 / 105)) (by norm_num) 0
    (exDet 1) rfl (by norm_num [exDet, exPars]) (by norm_num [Alike, ratio, exPars, exDet]) (1 / 2) (by norm_num) (by norm_num)
    ?_ ?_
  · rw [exPic_flat]
    norm_num
  · intro l hl ha
    have hs : l ⊆ [0] := by
      intro j hj
      obtain ⟨u, t, hu, -⟩ := ha j hj
      have : j < ((exPic 1).data exPars.ip 1e-5).crd.length := (List.getElem?_eq_some_iff.1 hu).1
      rw [data_length] at this
      have e : (exPic 1).dets.length = 1 := rfl
      simp; omega
    have := (hl.subperm hs).length_le
    simp at this
    omega

/-- A camera whose x scale is 2 and whose principal point is at x = 10; one target, near the left edge of the picture. -/
noncomputable def exScale : Pic := ⟨⟨⟨0, 0, 100⟩, rotationMatrix 0 0 0, 50, 10, 0, { defaultAddPar with scx := 2 }, ⟨0, 0, 10⟩⟩, emptyLUT,
  [⟨10, 500, ⟨4, 2, 2, 100⟩, -1⟩]⟩

theorem scale_two (x y tol : ℝ) : correctBrownAffine x y { defaultAddPar with scx := 2 } tol = (x / 2, y) := by
  have := (C24_affine_inverse { defaultAddPar with scx := 2 } rfl rfl rfl rfl rfl (by norm_num) (by norm_num [defaultAddPar]) tol (x / 2) y).2
  have hd : distortBrownAffine (x / 2) y { defaultAddPar with scx := 2 } = (x, y) := by
    simp only [distortBrownAffine, defaultAddPar]
    split_ifs with h
    · have : x = 0 := by linarith [h.1]
      simp [h.2, this]
    · simp
      ring
  rw [hd] at this
  exact this

theorem exScale_flat (tol : ℝ) (t : Det) : flatPos exPars.ip tol exScale.cal t = ((t.x - 500) / 20 - 10, (500 - t.y) / 10) := by
  simp only [flatPos, distToFlat, exScale, scale_two, pixelToMetric, exPars]
  norm_num
  constructor <;> ring

/-- C112 is false for other lens parameters: the corners of the sensor are shifted by the principal point before the lens is corrected,
the targets after. The target of `exScale` is inside the picture and exactly on the segment, its sizes are those of the
particle, and it is the only target; still no candidate is found. -/
theorem C112_sensor_refuted (tol : ℝ) :
    ∃ t, exScale.dets = [t] ∧ ((0 < t.x ∧ t.x < exPars.ip.imx) ∧ (0 < t.y ∧ t.y < exPars.ip.imy)) ∧
      flatPos exPars.ip tol exScale.cal t = ((1 - 1 / 4) * (-35) + 1 / 4 * (-33), (1 - 1 / 4) * 0 + 1 / 4 * 0) ∧
      Alike exPars.crit t.shape t.shape ∧ NoLens exScale.cal ∧
      findCandidate (sensorOf exPars.ip exScale.cal) exPars.crit t.shape (exScale.data exPars.ip tol).crd
        (exScale.data exPars.ip tol).pix (-35) 0 (-33) 0 = .ok [] := by
  refine ⟨_, rfl, by norm_num [exPars], ?_, by norm_num [Alike, ratio, exPars], ?_, ?_⟩
  · rw [exScale_flat]
    norm_num
  · constructor <;> norm_num [exScale, defaultAddPar]
  · unfold findCandidate
    simp only
    rw [if_pos]
    obtain ⟨w1, w2, w3, w4, -, -⟩ := mkWindow_eq (-35) 0 (-33) 0
    rw [w1, w2, w3, w4]
    left
    have hs : (sensorOf exPars.ip exScale.cal).xmin = -30 := by
      simp only [sensorOf, exScale, scale_two, exPars]
      norm_num
    rw [hs]
    norm_num [tilt]

end Verif.FullCorr
