/-
C109, C110: correspondences from the targets of four cameras, with the geometry.
-/
import Verif.Spec.FullCorr
import Verif.Props.Correspondences
import Verif.Props.Search
import Verif.Props.Epi
import Verif.Props.Orientation

namespace Verif.FullCorr

open Verif.Geo Verif.Geo.V3 Verif.Geo.Spec Verif.Search Verif.Search.Spec Verif.Corr Verif.Corr.Spec

theorem ratio_nonneg {a b : ℝ} (ha : 0 ≤ a) (hb : 0 ≤ b) : 0 ≤ ratio a b := by
  unfold ratio
  split_ifs
  · exact le_refl _
  · exact div_nonneg (le_min ha hb) (le_trans ha (le_max_left _ _))

theorem ratio_pos {a b : ℝ} (ha : 0 ≤ a) (hb : 0 ≤ b) (h : 0 < ratio a b) : 0 < a ∧ 0 < b := by
  unfold ratio at h
  split_ifs at h with h0
  · exact absurd h (lt_irrefl _)
  · constructor
    · rcases ha.eq_or_lt with e | e
      · subst e; rw [min_eq_left hb, zero_div] at h; exact absurd h (lt_irrefl _)
      · exact e
    · rcases hb.eq_or_lt with e | e
      · subst e; rw [min_eq_right ha, zero_div] at h; exact absurd h (lt_irrefl _)
      · exact e

theorem dataOK {d : CamData} (h : DataFine d) {s : Shape} (hs : 0 ≤ s.n ∧ 0 ≤ s.nx ∧ 0 ≤ s.ny ∧ 0 ≤ s.sumg) :
    DataOK s d.crd d.pix := ⟨hs, h.names, h.sizes⟩

theorem findPair_eq {p : Pars} {a b : CamData} {i : ℕ} {q : Search.Coord} {s : Shape} {e : (ℝ × ℝ) × (ℝ × ℝ)}
    (hq : a.crd[i]? = some q) (hs : a.pix[q.pnr]? = some s) (he : epiMM q.x q.y a.cal b.cal b.lut p.mm p.vol = some e)
    {r : List Cand} (hr : findCandidate (sensorOf p.ip b.cal) p.crit s b.crd b.pix e.1.1 e.1.2 e.2.1 e.2.2 = .ok r) :
    findPair p a b i = .ok (r.map slotOf) := by
  simp only [findPair, pyGet, hq, hs, bind, Except.bind, he, hr]

/-- What is known about every slot. -/
theorem found_spec {p : Pars} {a b : CamData} (ha : DataFine a) (hb : DataFine b) (heps : 0 < p.crit.eps0)
    (hcs : 0 ≤ p.crit.csumg) (i : ℕ) :
    (found (findPair p a b i)).length ≤ 40 ∧ ∀ s ∈ found (findPair p a b i),
      s.p2 < b.crd.length ∧ 0 ≤ s.dist ∧ 0 < s.corr ∧ (s.dist = 0 → OnEpi p a b i s.p2) := by
  cases hq : a.crd[i]? with
  | none =>
    have : findPair p a b i = .error .indexError := by simp [findPair, pyGet, hq, bind, Except.bind]
    rw [this]
    simp [found]
  | some q =>
    cases he : epiMM q.x q.y a.cal b.cal b.lut p.mm p.vol with
    | none =>
      have : findPair p a b i = .error .other := by simp [findPair, pyGet, hq, bind, Except.bind, he]
      rw [this]
      simp [found]
    | some e =>
      have hlt := ha.names q (List.mem_of_getElem? hq)
      have hs := List.getElem?_eq_getElem hlt
      set s := a.pix[q.pnr]
      have hs0 := ha.sizes s (List.mem_of_getElem? hs)
      obtain ⟨r, hr, -, hl, hc⟩ := C08_candidates_sound (sensorOf p.ip b.cal) p.crit s b.crd b.pix e.1.1 e.1.2 e.2.1 e.2.2
        (dataOK hb hs0) heps
      rw [findPair_eq hq hs he hr]
      simp only [found]
      refine ⟨by simpa using hl, ?_⟩
      intro sl hsl
      obtain ⟨c, hcm, rfl⟩ := List.mem_map.1 hsl
      obtain ⟨h1, h2, u, t, hu, ht, h3, -, ⟨τ, h4⟩, h5⟩ := hc c hcm
      refine ⟨h1, h3, ?_, fun h0 => ⟨e, u, ⟨q, hq, he⟩, hu, τ, ?_⟩⟩
      · obtain ⟨u', t', hu', ht', -, -, -, -, -, -, h6⟩ := h2
        rw [hu] at hu'
        cases hu'
        rw [ht] at ht'
        cases ht'
        have ht0 := hb.sizes t (List.mem_of_getElem? ht)
        have hp := lt_of_le_of_lt hcs h6
        obtain ⟨p1, p2⟩ := ratio_pos hs0.2.2.2 ht0.2.2.2 hp
        have r1 := ratio_nonneg hs0.1 ht0.1
        have r2 := ratio_nonneg hs0.2.1 ht0.2.1
        have r3 := ratio_nonneg hs0.2.2.1 ht0.2.2.1
        show 0 < c.corr
        rw [h5]
        positivity
      · rw [h4]
        have : c.tol = 0 := h0
        rw [this]; norm_num

theorem valid_eq {p : Pars} {cams : Fin 4 → CamData} (hd : ∀ c, DataFine (cams c)) (heps : 0 < p.crit.eps0)
    (hcs : 0 ≤ p.crit.csumg) {c1 c2 : Fin 4} (h : c1 < c2) {i : ℕ} (hi : i < numTargets cams c1) :
    (adjacency p cams c1 c2 i).valid = found (findPair p (cams c1) (cams c2) i) := by
  unfold adjacency matchPairs
  rw [if_pos ⟨h, hi⟩, mkRow_valid, List.take_of_length_le]
  exact (found_spec (hd c1) (hd c2) heps hcs i).1

theorem adjacency_wf {p : Pars} {cams : Fin 4 → CamData} (hd : ∀ c, DataFine (cams c)) (heps : 0 < p.crit.eps0)
    (hcs : 0 ≤ p.crit.csumg) : WF (adjacency p cams) (numTargets cams) :=
  matchPairs_wf _ _ fun c1 c2 i s hs => ((found_spec (hd c1) (hd c2) heps hcs i).2 s hs).1

/-- A point on the segment is on the line and within the box. -/
theorem acceptable_exact {v : Search.VPar} (heps : 0 < v.eps0) {s t : Shape} {crd : List Search.Coord} {pix : List Shape}
    {q : Search.Coord} {j : ℕ} (hq : crd[j]? = some q) (ht : pix[q.pnr]? = some t) (hal : Alike v s t) {e : (ℝ × ℝ) × (ℝ × ℝ)}
    (hne : e.1.1 ≠ e.2.1) {τ : ℝ} (h0 : 0 ≤ τ) (h1 : τ ≤ 1) (hx : q.x = (1 - τ) * e.1.1 + τ * e.2.1)
    (hy : q.y = (1 - τ) * e.1.2 + τ * e.2.2) :
    Acceptable v s crd pix e.1.1 e.1.2 e.2.1 e.2.2 j ∧
      (min e.1.1 e.2.1 ≤ q.x ∧ q.x ≤ max e.1.1 e.2.1) ∧ (min e.1.2 e.2.2 ≤ q.y ∧ q.y ≤ max e.1.2 e.2.2) ∧
      distToLinePt e.1.1 e.1.2 (tilt e.1.1 e.2.1) e.2.2 q.x q.y τ = 0 := by
  have ht' : tilt e.1.1 e.2.1 = e.2.1 := if_neg hne
  have box : ∀ a b : ℝ, min a b ≤ (1 - τ) * a + τ * b ∧ (1 - τ) * a + τ * b ≤ max a b := by
    intro a b
    have l1 := min_le_left a b
    have l2 := min_le_right a b
    have l3 := le_max_left a b
    have l4 := le_max_right a b
    constructor <;> nlinarith
  have hd : distToLinePt e.1.1 e.1.2 (tilt e.1.1 e.2.1) e.2.2 q.x q.y τ = 0 := by
    rw [ht', distToLinePt, hx, hy]
    ring
  have bx := box e.1.1 e.2.1
  have by' := box e.1.2 e.2.2
  rw [← hx] at bx
  rw [← hy] at by'
  refine ⟨⟨q, t, hq, ht, ?_, ?_, ⟨τ, ?_⟩, hal⟩, bx, by', hd⟩
  · rw [ht']; constructor <;> linarith [bx.1, bx.2]
  · constructor <;> linarith [by'.1, by'.2]
  · rw [hd]; positivity

/-- The epipolar line of a seen particle exists. -/
theorem SeenBy.epi {S : Set (Fin 4)} {p : Pars} {cams : Fin 4 → CamData} (hair : Air p.mm) {P : V3} {X : Fin 4 → V3}
    {k : Fin 4 → ℕ} {s : Fin 4 → Shape} (hs : SeenBy S p cams P X k s) {c1 c2 : Fin 4} (hc1 : c1 ∈ S) (hc2 : c2 ∈ S)
    (h : c1 < c2) : ∃ e, Epi p (cams c1) (cams c2) (k c1) e := by
  obtain ⟨q1, hq1, hs1, hf1, -⟩ := (hs.detected c1 hc1).at_
  have hl := hs.looks c1 hc1
  obtain ⟨om, ph, ka, hrot⟩ := hl.rot
  obtain ⟨ns, hn2⟩ := hair.n2
  obtain ⟨dd, hdd⟩ := hair.d
  have hgp := V3.norm_pos hl.glass
  have hgl : (cams c1).cal.glass = (cams c1).cal.glass.unit.smul (cams c1).cal.glass.norm := by
    rw [unit_of_ne hl.glass]
    ext <;> simp only [V3.smul_x, V3.smul_y, V3.smul_z] <;> field_simp
  have hun : ∀ v : V3, v.dot (cams c1).cal.glass.unit = v.dot (cams c1).cal.glass / (cams c1).cal.glass.norm := by
    intro v
    rw [unit_of_ne hl.glass]
    simp only [V3.dot, V3.smul_x, V3.smul_y, V3.smul_z]
    ring
  have hnn : (cams c1).cal.glass.dot (cams c1).cal.glass = (cams c1).cal.glass.norm * (cams c1).cal.glass.norm := by
    have := V3.norm_sq (cams c1).cal.glass
    nlinarith
  obtain ⟨a1, a2, p1, p2, e1, -, he, -⟩ := C69_epipolar_segment om ph ka (cams c1).cal.glass.norm (cams c1).cal
    (cams c2).cal (cams c1).lut (cams c2).lut p.mm p.vol dd ns (cams c1).cal.glass.unit P (X c1)
    ⟨hair.n1, hair.lay, hn2, hair.n3, hdd⟩ hrot hl.cc hgp (V3.norm_unit hl.glass) hgl (hs.looks c2 hc2).glass hl.front
    (by rw [hun]; exact div_neg_of_neg_of_pos hl.behind hgp) hl.deep hl.line
    (by rw [hun, hl.cross, hnn]; field_simp) hl.volume (hs.facing c1 hc1 c2 hc2 h)
  rw [hf1] at e1
  cases e1
  exact ⟨_, q1, hq1, he⟩

/-- The link between the targets of a seen particle. -/
theorem linkBy {S : Set (Fin 4)} {p : Pars} {cams : Fin 4 → CamData} (hd : ∀ c, DataFine (cams c)) (heps : 0 < p.crit.eps0)
    (hcs : 0 ≤ p.crit.csumg) (hair : Air p.mm) {P : V3} {X : Fin 4 → V3} {k : Fin 4 → ℕ} {s : Fin 4 → Shape}
    (hs : SeenBy S p cams P X k s) {c1 c2 : Fin 4} (hc1 : c1 ∈ S) (hc2 : c2 ∈ S) (h : c1 < c2) :
    ∃ sl, Link (adjacency p cams) c1 c2 (k c1) sl ∧ sl.p2 = k c2 ∧ sl.dist = 0 ∧ 0 < sl.corr := by
  classical
  obtain ⟨q1, hq1, hs1, hf1, -⟩ := (hs.detected c1 hc1).at_
  obtain ⟨q2, hq2, hs2, hf2, hb1, hb2, hb3, hb4⟩ := (hs.detected c2 hc2).at_
  have hk1 : k c1 < numTargets cams c1 := (List.getElem?_eq_some_iff.1 hq1).1
  have hl := hs.looks c1 hc1
  obtain ⟨om, ph, ka, hrot⟩ := hl.rot
  obtain ⟨ns, hn2⟩ := hair.n2
  obtain ⟨dd, hdd⟩ := hair.d
  have hgp := V3.norm_pos hl.glass
  have hgl : (cams c1).cal.glass = (cams c1).cal.glass.unit.smul (cams c1).cal.glass.norm := by
    rw [unit_of_ne hl.glass]
    ext <;> simp only [V3.smul_x, V3.smul_y, V3.smul_z] <;> field_simp
  have hun : ∀ v : V3, v.dot (cams c1).cal.glass.unit = v.dot (cams c1).cal.glass / (cams c1).cal.glass.norm := by
    intro v
    rw [unit_of_ne hl.glass]
    simp only [V3.dot, V3.smul_x, V3.smul_y, V3.smul_z]
    ring
  have hnn : (cams c1).cal.glass.dot (cams c1).cal.glass = (cams c1).cal.glass.norm * (cams c1).cal.glass.norm := by
    have := V3.norm_sq (cams c1).cal.glass
    nlinarith
  obtain ⟨a1, a2, p1, p2, e1, e2, he, τ, t0, t1, tx, ty⟩ := C69_epipolar_segment om ph ka (cams c1).cal.glass.norm (cams c1).cal
    (cams c2).cal (cams c1).lut (cams c2).lut p.mm p.vol dd ns (cams c1).cal.glass.unit P (X c1)
    ⟨hair.n1, hair.lay, hn2, hair.n3, hdd⟩ hrot hl.cc hgp (V3.norm_unit hl.glass) hgl (hs.looks c2 hc2).glass hl.front
    (by rw [hun]; exact div_neg_of_neg_of_pos hl.behind hgp) hl.deep hl.line
    (by rw [hun, hl.cross, hnn]; field_simp) hl.volume (hs.facing c1 hc1 c2 hc2 h)
  rw [hf1] at e1
  cases e1
  rw [hf2] at e2
  cases e2
  simp only at tx ty he
  have hne := hs.slanted c1 hc1 c2 hc2 h (p1, p2) ⟨q1, hq1, he⟩
  obtain ⟨hacc, bx, by', -⟩ := acceptable_exact heps hq2 hs2 (hs.alike c1 hc1 c2 hc2 h) (e := (p1, p2)) hne t0 t1 tx ty
  have hs0 := (hd c1).sizes _ (List.mem_of_getElem? hs1)
  have ht' : tilt p1.1 p2.1 = p2.1 := if_neg hne
  obtain ⟨r, hr, hm⟩ := C09_candidates_complete_partial (sensorOf p.ip (cams c2).cal) p.crit (s c1) (cams c2).crd (cams c2).pix
    p1.1 p1.2 p2.1 p2.2 (dataOK (hd c2) hs0) heps (hd c2).sorted (hd c2).few (by
      unfold SegmentOff
      rw [ht']
      simp only at bx by'
      rintro (h | h | h | h) <;> linarith [bx.1, bx.2, by'.1, by'.2])
  have hk2 : k c2 < (cams c2).crd.length := (List.getElem?_eq_some_iff.1 hq2).1
  rw [List.take_of_length_le (hs.sparse c1 hc1 c2 hc2 h (p1, p2) q1 (s c1) ⟨q1, hq1, he⟩ hq1 hs1 _
    (List.Nodup.filter _ List.nodup_range) (by
      intro j hj
      have := (List.mem_filter.1 hj).2
      exact of_decide_eq_true this))] at hm
  have hmem : k c2 ∈ r.map Cand.pnr := by
    rw [hm]
    exact List.mem_filter.2 ⟨List.mem_range.2 hk2, decide_eq_true hacc⟩
  obtain ⟨c, hc, hck⟩ := List.mem_map.1 hmem
  have hfp := findPair_eq (b := cams c2) hq1 hs1 he hr
  have hsl : slotOf c ∈ found (findPair p (cams c1) (cams c2) (k c1)) := by
    rw [hfp]
    exact List.mem_map.2 ⟨c, hc, rfl⟩
  refine ⟨slotOf c, ?_, hck, ?_, ((found_spec (hd c1) (hd c2) heps hcs _).2 _ hsl).2.2.1⟩
  · unfold Link
    rw [valid_eq hd heps hcs h hk1]
    exact hsl
  · obtain ⟨r', hr', -, -, hc'⟩ := C08_candidates_sound (sensorOf p.ip (cams c2).cal) p.crit (s c1) (cams c2).crd (cams c2).pix
      p1.1 p1.2 p2.1 p2.2 (dataOK (hd c2) hs0) heps
    rw [hr] at hr'
    cases hr'
    obtain ⟨-, -, u, t, hu, -, h3, h4, -⟩ := hc' c hc
    rw [hck, hq2] at hu
    cases hu
    have hz := h4 τ
    have : distToLinePt p1.1 p1.2 (tilt p1.1 p2.1) p2.2 q2.x q2.y τ = 0 := by
      rw [ht', distToLinePt, tx, ty]
      ring
    rw [this] at hz
    show c.tol = 0
    nlinarith

/-- Seen by all. -/
theorem Seen.by {p : Pars} {cams : Fin 4 → CamData} {P : V3} {X : Fin 4 → V3} {k : Fin 4 → ℕ} {s : Fin 4 → Shape}
    (hs : Seen p cams P X k s) : SeenBy Set.univ p cams P X k s :=
  ⟨fun c _ => hs.looks c, fun c1 _ c2 _ => hs.facing c1 c2, fun c _ => hs.detected c, fun c1 _ c2 _ => hs.alike c1 c2,
    fun c1 _ c2 _ => hs.slanted c1 c2, fun c1 _ c2 _ => hs.sparse c1 c2⟩

/-- The epipolar line of a particle seen by all exists. -/
theorem Seen.epi {p : Pars} {cams : Fin 4 → CamData} (hair : Air p.mm) {P : V3} {X : Fin 4 → V3} {k : Fin 4 → ℕ} {s : Fin 4 → Shape}
    (hs : Seen p cams P X k s) {c1 c2 : Fin 4} (h : c1 < c2) : ∃ e, Epi p (cams c1) (cams c2) (k c1) e :=
  hs.by.epi hair (Set.mem_univ _) (Set.mem_univ _) h

/-- The link between the targets of a particle seen by all. -/
theorem link {p : Pars} {cams : Fin 4 → CamData} (hd : ∀ c, DataFine (cams c)) (heps : 0 < p.crit.eps0)
    (hcs : 0 ≤ p.crit.csumg) (hair : Air p.mm) {P : V3} {X : Fin 4 → V3} {k : Fin 4 → ℕ} {s : Fin 4 → Shape}
    (hs : Seen p cams P X k s) {c1 c2 : Fin 4} (h : c1 < c2) :
    ∃ sl, Link (adjacency p cams) c1 c2 (k c1) sl ∧ sl.p2 = k c2 ∧ sl.dist = 0 ∧ 0 < sl.corr :=
  linkBy hd heps hcs hair hs.by (Set.mem_univ _) (Set.mem_univ _) h

theorem npDiv_zero {a : ℝ} (h : 0 < a) : Fl.npDiv a (0 : ℝ) = .pinf := by
  simp [Fl.npDiv, h.ne', h]

theorem npDiv_top {a b : ℝ} (h : (.pinf : Fl ℝ) ≤ Fl.npDiv a b) : b = 0 := by
  by_contra hb
  rw [Fl.npDiv, if_neg hb] at h
  have : Fl.key (.pinf : Fl ℝ) ≤ Fl.key (.fin (a / b)) := h
  rw [Fl.key, Fl.key, Prod.Lex.toLex_le_toLex] at this
  simp at this

theorem not_top_zero : ¬ ((.pinf : Fl ℝ) ≤ (NTuple.zero : NTuple ℝ).corr) := by
  intro h
  have : Fl.key (.pinf : Fl ℝ) ≤ Fl.key (.fin 0) := h
  rw [Fl.key, Fl.key, Prod.Lex.toLex_le_toLex] at this
  simp at this

/-- The result of a call is the result of the three stages. -/
theorem run_stages {srt : NpSort ℝ} {p : Pars} {cams : Fin 4 → CamData} {r : Result ℝ} (hr : run srt p cams = .ok r) :
    stages srt NMAX (adjacency p cams) (numTargets cams) p.corrmin p.allCam = .ok (r.quads, r.triplets, r.pairs) := by
  unfold run at hr
  cases h1 : searches p cams with
  | error e => rw [h1] at hr; cases hr
  | ok u =>
    rw [h1] at hr
    simp only [bind, Except.bind, correspondences] at hr
    have e : matchPairs (numTargets cams) (fun i1 i2 i => found (findPair p (cams i1) (cams i2) i)) = adjacency p cams := rfl
    rw [e] at hr
    cases h2 : stages srt NMAX (adjacency p cams) (numTargets cams) p.corrmin p.allCam with
    | error e => rw [h2] at hr; cases hr
    | ok v =>
      obtain ⟨q, t, d⟩ := v
      rw [h2] at hr
      simp only at hr
      split at hr
      · cases hr
      · cases hr
        rfl

/-- Every quadruplet of the search names targets; if its correlation is infinite, its six distances are zero. -/
theorem quad_exact {p : Pars} {cams : Fin 4 → CamData} (hd : ∀ c, DataFine (cams c)) (heps : 0 < p.crit.eps0)
    (hcs : 0 ≤ p.crit.csumg) {t : NTuple ℝ} (ht : IsQuad (adjacency p cams) (numTargets cams 0) p.corrmin t)
    (htop : (.pinf : Fl ℝ) ≤ t.corr) :
    ∃ k' : Fin 4 → ℕ, (∀ c, t.p c = k' c) ∧ ∀ c1 c2, c1 < c2 → OnEpi p (cams c1) (cams c2) (k' c1) (k' c2) := by
  obtain ⟨p1, p2, p3, p4, s12, s13, s14, s23, s24, s34, hlt, hp, ⟨l12, rfl⟩, ⟨l13, rfl⟩, ⟨l14, rfl⟩, ⟨l23, e23⟩, ⟨l24, e24⟩,
    ⟨l34, e34⟩, hc, -⟩ := ht
  have hA := adjacency_wf hd heps hcs
  have b12 := (hA 0 1 (by decide) p1 hlt).2.2.2.1 _ l12
  have b13 := (hA 0 2 (by decide) p1 hlt).2.2.2.1 _ l13
  unfold Link at l12 l13 l14 l23 l24 l34
  rw [valid_eq hd heps hcs (by decide) hlt] at l12 l13 l14
  rw [valid_eq hd heps hcs (by decide) b12] at l23 l24
  rw [valid_eq hd heps hcs (by decide) b13] at l34
  obtain ⟨-, d12, c12, o12⟩ := (found_spec (hd 0) (hd 1) heps hcs _).2 _ l12
  obtain ⟨-, d13, c13, o13⟩ := (found_spec (hd 0) (hd 2) heps hcs _).2 _ l13
  obtain ⟨-, d14, c14, o14⟩ := (found_spec (hd 0) (hd 3) heps hcs _).2 _ l14
  obtain ⟨-, d23, c23, o23⟩ := (found_spec (hd 1) (hd 2) heps hcs _).2 _ l23
  obtain ⟨-, d24, c24, o24⟩ := (found_spec (hd 1) (hd 3) heps hcs _).2 _ l24
  obtain ⟨-, d34, c34, o34⟩ := (found_spec (hd 2) (hd 3) heps hcs _).2 _ l34
  rw [hc] at htop
  have hz := npDiv_top htop
  rw [e23] at o23
  rw [e24] at o24
  rw [e34] at o34
  refine ⟨![p1, s12.p2, s13.p2, s14.p2], ?_, ?_⟩
  · intro c
    rw [hp]
    fin_cases c <;> rfl
  · intro c1 c2 h
    fin_cases c1 <;> fin_cases c2 <;> simp at h
    · exact o12 (by linarith)
    · exact o13 (by linarith)
    · exact o14 (by linarith)
    · exact o23 (by linarith)
    · exact o24 (by linarith)
    · exact o34 (by linarith)

/-- C109: in air, let a particle be seen by all four cameras, its coordinates exact, and let the call return without overflow. Then its
four targets are reported as a quadruplet, or one of them is part of a reported quadruplet that is as exact: all six
pairs of its targets are exactly on each other's epipolar lines. -/
theorem C109_reported_or_ambiguous (srt : NpSort ℝ) (p : Pars) (cams : Fin 4 → CamData) (hd : ∀ c, DataFine (cams c))
    (heps : 0 < p.crit.eps0) (hcs : 0 ≤ p.crit.csumg) (cm : ℝ) (hcm : p.corrmin = .fin cm) (hair : Air p.mm)
    (hover : ¬ Overflow p cams) (P : V3) (X : Fin 4 → V3) (k : Fin 4 → ℕ) (s : Fin 4 → Shape) (hs : Seen p cams P X k s)
    (r : Result ℝ) (hr : run srt p cams = .ok r) :
    (∃ t ∈ r.quads, ∀ c, t.p c = k c) ∨
    ∃ t ∈ r.quads, ∃ k' : Fin 4 → ℕ, (∀ c, t.p c = k' c) ∧ k' ≠ k ∧ (∃ c, k' c = k c) ∧
      ∀ c1 c2, c1 < c2 → OnEpi p (cams c1) (cams c2) (k' c1) (k' c2) := by
  have hA := adjacency_wf hd heps hcs
  obtain ⟨s12, l12, e12, d12, c12⟩ := link hd heps hcs hair hs (c1 := 0) (c2 := 1) (by decide)
  obtain ⟨s13, l13, e13, d13, c13⟩ := link hd heps hcs hair hs (c1 := 0) (c2 := 2) (by decide)
  obtain ⟨s14, l14, e14, d14, c14⟩ := link hd heps hcs hair hs (c1 := 0) (c2 := 3) (by decide)
  obtain ⟨s23, l23, e23, d23, c23⟩ := link hd heps hcs hair hs (c1 := 1) (c2 := 2) (by decide)
  obtain ⟨s24, l24, e24, d24, c24⟩ := link hd heps hcs hair hs (c1 := 1) (c2 := 3) (by decide)
  obtain ⟨s34, l34, e34, d34, c34⟩ := link hd heps hcs hair hs (c1 := 2) (c2 := 3) (by decide)
  have hk0 : k 0 < numTargets cams 0 := by
    obtain ⟨q, hq, -⟩ := (hs.detected 0).at_
    exact (List.getElem?_eq_some_iff.1 hq).1
  set t : NTuple ℝ := ⟨![(k 0 : Int), k 1, k 2, k 3], .pinf⟩ with htdef
  have htp : ∀ c, t.p c = k c := by
    intro c
    fin_cases c <;> rfl
  have hq : IsQuad (adjacency p cams) (numTargets cams 0) p.corrmin t := by
    refine ⟨k 0, k 1, k 2, k 3, s12, s13, s14, s23, s24, s34, hk0, rfl, ⟨l12, e12⟩, ⟨l13, e13⟩, ⟨l14, e14⟩, ⟨l23, e23⟩,
      ⟨l24, e24⟩, ⟨l34, e34⟩, ?_, ?_⟩
    · rw [d12, d13, d14, d23, d24, d34]
      simp only [add_zero]
      rw [npDiv_zero (by positivity)]
    · rw [hcm]
      simp only [htdef, Fl.npLe]
      rw [decide_eq_false_iff_not]
      intro h
      have : Fl.key (.pinf : Fl ℝ) ≤ Fl.key (.fin cm) := h
      rw [Fl.key, Fl.key, Prod.Lex.toLex_le_toLex] at this
      simp at this
  have hlt : (fourCameraMatching (adjacency p cams) (numTargets cams 0) p.corrmin (4 * NMAX)).length < 4 * NMAX :=
    not_le.1 hover
  have hmem := (C04_quadruplets_exact _ (numTargets cams) p.corrmin (4 * NMAX) hA).2 hlt t hq
  have hN : ∀ c, numTargets cams c ≤ NMAX := by
    intro c
    have := (hd c).few
    have e : NMAX = 10000 := rfl
    simp only [numTargets]
    omega
  obtain ⟨q, tt, pp, u1, u2, hst, -, -, -, -, -, hqs, -, -, -, hbest, -⟩ :=
    stages_spec (srt := srt) (corrmin := p.corrmin) (allCam := p.allCam) hA hN (by decide)
  rw [run_stages hr] at hst
  obtain ⟨rfl, rfl, rfl⟩ : r.quads = q ∧ r.triplets = tt ∧ r.pairs = pp := by
    have := Except.ok.inj hst
    simpa using this
  rcases hbest t hmem with h | ⟨y, hy, ⟨c, j, hyc, htc⟩, hle⟩
  · exact Or.inl ⟨t, h, htp⟩
  · have hyq : IsQuad (adjacency p cams) (numTargets cams 0) p.corrmin y := by
      rcases hqs y hy with h | ⟨rfl, -⟩
      · exact (C04_quadruplets_exact _ (numTargets cams) p.corrmin (4 * NMAX) hA).1 y h
      · exact absurd hle not_top_zero
    obtain ⟨k', hk', ho⟩ := quad_exact hd heps hcs hyq hle
    by_cases hkk : k' = k
    · left
      exact ⟨y, hy, fun c => by rw [hk', hkk]⟩
    · right
      refine ⟨y, hy, k', hk', hkk, ⟨c, ?_⟩, ho⟩
      have h1 := hyc.2
      have h2 := htc.2
      rw [hk'] at h1
      rw [htp] at h2
      omega

/-- C109: if the particle is not ambiguous (no other four targets, one of them the particle's, are pairwise exactly on
each other's epipolar lines), its four targets are reported as a quadruplet. -/
theorem C109_reported (srt : NpSort ℝ) (p : Pars) (cams : Fin 4 → CamData) (hd : ∀ c, DataFine (cams c))
    (heps : 0 < p.crit.eps0) (hcs : 0 ≤ p.crit.csumg) (cm : ℝ) (hcm : p.corrmin = .fin cm) (hair : Air p.mm)
    (hover : ¬ Overflow p cams) (P : V3) (X : Fin 4 → V3) (k : Fin 4 → ℕ) (s : Fin 4 → Shape) (hs : Seen p cams P X k s)
    (hun : ∀ k' : Fin 4 → ℕ, k' ≠ k → (∃ c, k' c = k c) →
      ∃ c1 c2, c1 < c2 ∧ ¬ OnEpi p (cams c1) (cams c2) (k' c1) (k' c2))
    (r : Result ℝ) (hr : run srt p cams = .ok r) : ∃ t ∈ r.quads, ∀ c, t.p c = k c := by
  rcases C109_reported_or_ambiguous srt p cams hd heps hcs cm hcm hair hover P X k s hs r hr with h | ⟨t, -, k', -, h1, h2, h3⟩
  · exact h
  · obtain ⟨c1, c2, h4, h5⟩ := hun k' h1 h2
    exact absurd (h3 c1 c2 h4) h5

/-! ### The call returns -/

/-- The candidates of a search name different targets. -/
theorem found_nodup {p : Pars} {a b : CamData} (ha : DataFine a) (hb : DataFine b) (heps : 0 < p.crit.eps0) (i : ℕ) :
    ((found (findPair p a b i)).map Slot.p2).Nodup := by
  cases hq : a.crd[i]? with
  | none =>
    have : findPair p a b i = .error .indexError := by simp [findPair, pyGet, hq, bind, Except.bind]
    rw [this]
    simp [found]
  | some q =>
    cases he : epiMM q.x q.y a.cal b.cal b.lut p.mm p.vol with
    | none =>
      have : findPair p a b i = .error .other := by simp [findPair, pyGet, hq, bind, Except.bind, he]
      rw [this]
      simp [found]
    | some e =>
      have hlt := ha.names q (List.mem_of_getElem? hq)
      have hs := List.getElem?_eq_getElem hlt
      have hs0 := ha.sizes _ (List.mem_of_getElem? hs)
      obtain ⟨r, hr, hp, -⟩ := C08_candidates_sound (sensorOf p.ip b.cal) p.crit a.pix[q.pnr] b.crd b.pix e.1.1 e.1.2 e.2.1 e.2.2
        (dataOK hb hs0) heps
      rw [findPair_eq hq hs he hr]
      simp only [found, List.map_map]
      have e : Slot.p2 ∘ slotOf = Cand.pnr := rfl
      rw [e]
      exact hp.imp (fun h => Nat.ne_of_lt h)

theorem searches_ok {p : Pars} {cams : Fin 4 → CamData} (hd : ∀ c, DataFine (cams c)) (heps : 0 < p.crit.eps0)
    (hepi : ∀ c1 c2, c1 < c2 → ∀ i < (cams c1).crd.length, ∃ e, Epi p (cams c1) (cams c2) i e) :
    ∃ u, searches p cams = .ok u := by
  refine ⟨_, forE_ok (g := fun _ => _) fun i1 h1 => forE_ok (g := fun _ => _) fun i2 h2 =>
    forE_ok (g := fun _ => []) fun i hi => ?_⟩
  have h12 : i1 < i2 := by
    have := (mem_camsBetween.1 h2).1
    exact Fin.lt_def.2 (by omega)
  obtain ⟨e, q, hq, he⟩ := hepi i1 i2 h12 i (List.mem_range.1 hi)
  have hlt := (hd i1).names q (List.mem_of_getElem? hq)
  have hs := List.getElem?_eq_getElem hlt
  have hs0 := (hd i1).sizes _ (List.mem_of_getElem? hs)
  obtain ⟨r, hr, -⟩ := C08_candidates_sound (sensorOf p.ip (cams i2).cal) p.crit (cams i1).pix[q.pnr] (cams i2).crd (cams i2).pix
    e.1.1 e.1.2 e.2.1 e.2.2 (dataOK (hd i2) hs0) heps
  rw [findPair_eq hq hs he hr]
  rfl

theorem validInput {p : Pars} {cams : Fin 4 → CamData} (hd : ∀ c, DataFine (cams c)) (heps : 0 < p.crit.eps0)
    (hcs : 0 ≤ p.crit.csumg) :
    ValidInput (numTargets cams) (fun i1 i2 i => found (findPair p (cams i1) (cams i2) i))
      (fun c => (cams c).crd.map fun q => (q.pnr : Int)) (fun c => (cams c).tnr) where
  pos c := (hd c).some
  le c := by
    have := (hd c).few
    have e : NMAX = 10000 := rfl
    simp only [numTargets]
    omega
  cand c1 c2 i s hs := ((found_spec (hd c1) (hd c2) heps hcs i).2 s hs).1
  len c := by simp [numTargets]
  tlen c := (hd c).tnrs
  range c v hv := by
    obtain ⟨q, hq, rfl⟩ := List.mem_map.1 hv
    have := (hd c).names q hq
    rw [(hd c).pixs] at this
    simp only [numTargets]
    omega
  nodup c := by
    have := (hd c).once
    have e : (cams c).crd.map (fun q => (q.pnr : Int)) = ((cams c).crd.map Search.Coord.pnr).map fun n : ℕ => (n : Int) := by
      simp [List.map_map, Function.comp_def]
    rw [e]
    exact this.map (fun a b h => by exact_mod_cast h)

/-- C109: the call returns if the epipolar lines of all coordinates can be computed. -/
theorem C109_returns (srt : NpSort ℝ) (p : Pars) (cams : Fin 4 → CamData) (hd : ∀ c, DataFine (cams c))
    (heps : 0 < p.crit.eps0) (hcs : 0 ≤ p.crit.csumg)
    (hepi : ∀ c1 c2, c1 < c2 → ∀ i < (cams c1).crd.length, ∃ e, Epi p (cams c1) (cams c2) i e) :
    ∃ r, run srt p cams = .ok r := by
  obtain ⟨u, hu⟩ := searches_ok hd heps hepi
  obtain ⟨r, hr, -⟩ := C03_each_target_in_one_correspondence srt _ _ p.corrmin p.allCam _ _ (validInput hd heps hcs)
  refine ⟨r, ?_⟩
  unfold run
  rw [hu]
  exact hr

theorem forE_mem {α β : Type} {f : α → Py (List β)} : ∀ {xs : List α} {r : List β}, forE xs f = .ok r →
    ∀ x ∈ xs, ∃ y, f x = .ok y
  | [], _, _, x, hx => by simp at hx
  | a :: xs, r, h, x, hx => by
    unfold forE at h
    cases ha : f a with
    | error e => rw [ha] at h; cases h
    | ok y =>
      rw [ha] at h
      cases hb : forE xs f with
      | error e => rw [hb] at h; cases h
      | ok z =>
        rcases List.mem_cons.1 hx with rfl | hx
        · exact ⟨y, ha⟩
        · exact forE_mem hb x hx

/-- C109: if the call returns, it could compute every epipolar line: it does not hide the failure of a search. -/
theorem C109_raises (srt : NpSort ℝ) (p : Pars) (cams : Fin 4 → CamData) (r : Result ℝ) (hr : run srt p cams = .ok r)
    (c1 c2 : Fin 4) (h : c1 < c2) (i : ℕ) (hi : i < (cams c1).crd.length) : ∃ e, Epi p (cams c1) (cams c2) i e := by
  unfold run at hr
  cases h1 : searches p cams with
  | error e => rw [h1] at hr; cases hr
  | ok u =>
    have m1 : c1 ∈ camsBetween 0 3 := mem_camsBetween.2 ⟨Nat.zero_le _, by
      have := Fin.lt_def.1 h
      have := c2.isLt
      omega⟩
    have m2 : c2 ∈ camsBetween (c1.val + 1) 4 := mem_camsBetween.2 ⟨Fin.lt_def.1 h, c2.isLt⟩
    obtain ⟨y1, h2⟩ := forE_mem h1 c1 m1
    obtain ⟨y2, h3⟩ := forE_mem h2 c2 m2
    obtain ⟨y3, h4⟩ := forE_mem h3 i (List.mem_range.2 hi)
    have hq := List.getElem?_eq_getElem hi
    set q := (cams c1).crd[i]
    cases he : epiMM q.x q.y (cams c1).cal (cams c2).cal (cams c2).lut p.mm p.vol with
    | none =>
      have : findPair p (cams c1) (cams c2) i = .error .other := by simp [findPair, pyGet, hq, bind, Except.bind, he]
      rw [this] at h4
      cases h4
    | some e => exact ⟨e, q, hq, he⟩

/-! ### Overflow -/

theorem length_flatMap_le {α β : Type} {f : α → List β} {m : ℕ} : ∀ {xs : List α}, (∀ x ∈ xs, (f x).length ≤ m) →
    (xs.flatMap f).length ≤ xs.length * m
  | [], _ => by simp
  | x :: xs, h => by
    have := length_flatMap_le (xs := xs) fun y hy => h y (by simp [hy])
    have h0 := h x (by simp)
    rw [List.flatMap_cons, List.length_append, List.length_cons, Nat.succ_mul]
    omega

theorem length_flatMap_pick {α β : Type} {f : α → List β} {g : α → ℕ} {a : ℕ} : ∀ {xs : List α}, (xs.map g).Nodup →
    (∀ x ∈ xs, (f x).length ≤ 1) → (∀ x ∈ xs, g x ≠ a → f x = []) → (xs.flatMap f).length ≤ 1
  | [], _, _, _ => by simp
  | x :: xs, hn, h1, h0 => by
    rw [List.map_cons, List.nodup_cons] at hn
    rw [List.flatMap_cons, List.length_append]
    by_cases hx : g x = a
    · have : xs.flatMap f = [] := by
        rw [List.flatMap_eq_nil_iff]
        intro y hy
        refine h0 y (by simp [hy]) fun e => hn.1 ?_
        rw [hx, ← e]
        exact List.mem_map_of_mem hy
      rw [this]
      simpa using h1 x (by simp)
    · rw [h0 x (by simp) hx]
      have := length_flatMap_pick hn.2 (fun y hy => h1 y (by simp [hy])) (fun y hy => h0 y (by simp [hy]))
      simpa using this

theorem row_length {p : Pars} {cams : Fin 4 → CamData} (hd : ∀ c, DataFine (cams c)) (heps : 0 < p.crit.eps0)
    (hcs : 0 ≤ p.crit.csumg) {c1 c2 : Fin 4} (h : c1 < c2) {i : ℕ} (hi : i < numTargets cams c1) :
    (adjacency p cams c1 c2 i).valid.length ≤ (cams c2).crd.length ∧ ((adjacency p cams c1 c2 i).valid.map Slot.p2).Nodup := by
  rw [valid_eq hd heps hcs h hi]
  have hn := found_nodup (hd c1) (hd c2) heps i
  refine ⟨?_, hn⟩
  have hs : (found (findPair p (cams c1) (cams c2) i)).map Slot.p2 ⊆ List.range (cams c2).crd.length := by
    intro j hj
    obtain ⟨s, hs, rfl⟩ := List.mem_map.1 hj
    exact List.mem_range.2 ((found_spec (hd c1) (hd c2) heps hcs i).2 s hs).1
  have := (hn.subperm hs).length_le
  simpa using this

/-- C109: there is no overflow if there are fewer than 40000 ways to pick one target per camera. -/
theorem C109_no_overflow (p : Pars) (cams : Fin 4 → CamData) (hd : ∀ c, DataFine (cams c)) (heps : 0 < p.crit.eps0)
    (hcs : 0 ≤ p.crit.csumg)
    (hN : (cams 0).crd.length * ((cams 1).crd.length * ((cams 2).crd.length * (cams 3).crd.length)) < 40000) :
    ¬ Overflow p cams := by
  have hA := adjacency_wf hd heps hcs
  have e : 4 * NMAX = 40000 := rfl
  unfold Overflow fourCameraMatching
  rw [e, not_le, List.length_take]
  refine lt_of_le_of_lt (min_le_right _ _) (lt_of_le_of_lt ?_ hN)
  have h0 : (List.range (numTargets cams 0)).length = (cams 0).crd.length := by simp [numTargets]
  rw [← h0]
  refine length_flatMap_le fun i hi => ?_
  have hi := List.mem_range.1 hi
  unfold fourOf
  refine (length_flatMap_le fun s12 h12 => ?_).trans (Nat.mul_le_mul_right _ (row_length hd heps hcs (by decide) hi).1)
  have b12 := (hA 0 1 (by decide) i hi).2.2.2.1 _ h12
  refine (length_flatMap_le fun s13 h13 => ?_).trans (Nat.mul_le_mul_right _ (row_length hd heps hcs (by decide) hi).1)
  have b13 := (hA 0 2 (by decide) i hi).2.2.2.1 _ h13
  have h3 := (row_length hd heps hcs (c1 := 0) (c2 := 3) (by decide) hi).1
  have := length_flatMap_le (m := 1) (xs := (adjacency p cams 0 3 i).valid) (f := fun s14 =>
    (adjacency p cams 1 2 s12.p2).valid.flatMap fun s23 =>
      if s13.p2 ≠ s23.p2 then [] else
    (adjacency p cams 1 3 s12.p2).valid.flatMap fun s24 =>
      if s14.p2 ≠ s24.p2 then [] else
    (adjacency p cams 2 3 s13.p2).valid.flatMap fun s34 =>
      if s14.p2 ≠ s34.p2 then [] else
      let corr := Fl.npDiv (s12.corr + s13.corr + s14.corr + s23.corr + s24.corr + s34.corr)
        (s12.dist + s13.dist + s14.dist + s23.dist + s24.dist + s34.dist)
      if corr.npLe p.corrmin then [] else
      [(⟨![(adjacency p cams 0 1 i).p1, s12.p2, s13.p2, s14.p2], corr⟩ : NTuple ℝ)]) (by
    intro s14 _
    refine length_flatMap_pick (g := Slot.p2) (a := s13.p2) (row_length hd heps hcs (by decide) b12).2 (fun s23 _ => ?_)
      (fun s23 _ hne => if_pos (Ne.symm hne))
    split_ifs
    · simp
    refine length_flatMap_pick (g := Slot.p2) (a := s14.p2) (row_length hd heps hcs (by decide) b12).2 (fun s24 _ => ?_)
      (fun s24 _ hne => if_pos (Ne.symm hne))
    split_ifs
    · simp
    refine length_flatMap_pick (g := Slot.p2) (a := s14.p2) (row_length hd heps hcs (by decide) b13).2 (fun s34 _ => ?_)
      (fun s34 _ hne => if_pos (Ne.symm hne))
    split_ifs
    · simp
    dsimp only
    split_ifs <;> simp)
  exact this.trans (by omega)

/-! ### The position -/

/-- C109: the position that `point_position` computes from the coordinates of the reported quadruplet is the particle, with error 0,
unless the particle is on one line with two cameras. -/
theorem C109_position (p : Pars) (cams : Fin 4 → CamData) (hair : Air p.mm) (P : V3) (X : Fin 4 → V3) (k : Fin 4 → ℕ)
    (s : Fin 4 → Shape) (hs : Seen p cams P X k s)
    (hline : ∀ c1 c2, c1 < c2 → NotParallel (P - (cams c1).cal.pos) (P - (cams c2).cal.pos))
    (q : Fin 4 → Search.Coord) (hq : ∀ c, (cams c).crd[k c]? = some (q c)) (hmark : ∀ c, (q c).x ≠ -1e10) :
    pointPosition ((List.finRange 4).map fun c => ((q c).x, (q c).y)) 4 p.mm ((List.finRange 4).map fun c => (cams c).cal)
      = .ok (some (0, P)) := by
  obtain ⟨ns, hn2⟩ := hair.n2
  obtain ⟨dd, hdd⟩ := hair.d
  have hone : OneIndex p.mm := ⟨by rw [hair.n1]; norm_num, ⟨ns, by rw [hn2, hair.n1]⟩, by rw [hair.n3, hair.n1],
    by rw [hdd]; simp, by rw [hdd, hair.lay]; simp⟩
  have hsees : ∀ c, Sees (cams c).cal P := fun c =>
    ⟨(hs.looks c).rot, (hs.looks c).cc.ne', (hs.looks c).glass, mul_neg_of_pos_of_neg (hs.looks c).cc (hs.looks c).front,
      (hs.looks c).behind⟩
  have hflat : ∀ c, flatImageCoord P (cams c).cal emptyLUT p.mm = some ((q c).x, (q c).y) := by
    intro c
    obtain ⟨q', h1, -, h2, -⟩ := (hs.detected c).at_
    rw [hq] at h1
    cases h1
    have hn := C27_no_refraction (cams c).cal (cams c).lut p.mm P 1 ns (by rw [hdd, hair.lay]; simp) (by rw [hdd]; simp)
      one_ne_zero hair.n1 hn2 hair.n3 (Or.inl ⟨rfl, hair.lay⟩) (hs.looks c).glass (hs.looks c).front.ne
    rw [h2] at hn
    rw [(trace_projection (hsees c) hone).1, hn]
  have hget : ∀ {α : Type} (f : Fin 4 → α) (i : ℕ) (a : α), ((List.finRange 4).map f)[i]? = some a →
      ∃ c : Fin 4, c.val = i ∧ f c = a := by
    intro α f i a h
    rw [List.getElem?_map, Option.map_eq_some_iff] at h
    obtain ⟨c, hc, rfl⟩ := h
    obtain ⟨hl, rfl⟩ := List.getElem?_eq_some_iff.1 hc
    exact ⟨_, by simp, rfl⟩
  have hput : ∀ {α : Type} (f : Fin 4 → α) (c : Fin 4), ((List.finRange 4).map f)[c.val]? = some (f c) := by
    intro α f c
    fin_cases c <;> rfl
  refine C60_triangulation_recovers P _ 4 p.mm _ (by simp) hone ?_ ?_ ?_
  · intro cam hc t ht hne
    obtain ⟨c, rfl, rfl⟩ := hget _ _ _ ht
    exact ⟨_, hput _ c, hsees c, hflat c⟩
  · intro i j ci cj hij _ _ hi hj
    obtain ⟨c, rfl, rfl⟩ := hget _ _ _ hi
    obtain ⟨c', rfl, rfl⟩ := hget _ _ _ hj
    exact hline c c' hij
  · have hall : ∀ c : Fin 4, c.val ∈ usedCams ((List.finRange 4).map fun c => ((q c).x, (q c).y)) 4 := by
      intro c
      simp only [usedCams, Finset.mem_filter, Finset.mem_range]
      exact ⟨c.isLt, _, hput _ c, hmark c⟩
    have : ({0, 1} : Finset ℕ) ⊆ usedCams ((List.finRange 4).map fun c => ((q c).x, (q c).y)) 4 := by
      intro x hx
      simp only [Finset.mem_insert, Finset.mem_singleton] at hx
      rcases hx with rfl | rfl
      · exact hall 0
      · exact hall 1
    exact (Finset.card_le_card this).trans' (by decide)

/-! ### An example: four cameras in a row, one particle -/

/-- Camera number `c` is at (10 c, 0, 100), behind a window at z = 10. -/
noncomputable def exRow (c : Fin 4) : CamData where
  cal := ⟨⟨10 * (c.val : ℝ), 0, 100⟩, rotationMatrix 0 0 0, 50, 0, 0, defaultAddPar, ⟨0, 0, 10⟩⟩
  lut := emptyLUT
  crd := [⟨0, 50 * (1 - 10 * (c.val : ℝ)) / 105, 100 / 105⟩]
  pix := [⟨4, 2, 2, 100⟩]
  tnr := [-1]
  xy := [(500, 400)]

noncomputable def exPars : Pars := ⟨⟨-50, 50, -20, -20, 20, 20⟩, ⟨1 / 10, 1 / 2, 1 / 2, 1 / 2, 1 / 2⟩, .fin 33, ⟨1, 1, [1], 1, [6]⟩,
  ⟨1000, 1000, 1 / 10, 1 / 10⟩, false⟩

theorem exRow_fine (c : Fin 4) : DataFine (exRow c) := by
  constructor <;> simp [exRow]

theorem exAir : Air exPars.mm := ⟨rfl, rfl, ⟨[], rfl⟩, rfl, ⟨6, rfl⟩⟩

theorem exRow_flat (c : Fin 4) (M : V3) (hM : M.z < 100) : flatImageCoord M (exRow c).cal (exRow c).lut exPars.mm =
    some (-50 * ((M.x - 10 * (c.val : ℝ)) / (M.z - 100)), -50 * (M.y / (M.z - 100))) := by
  have hg : (exRow c).cal.glass ≠ 0 := fun h => by have := congrArg V3.z h; norm_num [exRow] at this
  rw [C27_no_refraction (exRow c).cal (exRow c).lut exPars.mm M 1 [] (by simp [exPars]) (by simp [exPars]) one_ne_zero rfl rfl rfl
    (Or.inl ⟨rfl, rfl⟩) hg (by
      norm_num [exRow, dot, M3.c2, rotationMatrix]
      linarith)]
  norm_num [pinhole, exRow, rotationMatrix]

theorem exRow_looks (c : Fin 4) : Looks (exRow c).cal exPars.vol ⟨1, 2, -5⟩
    ⟨10 * (c.val : ℝ) + (1 - 10 * (c.val : ℝ)) * (90 / 105), 180 / 105, 10⟩ where
  rot := ⟨0, 0, 0, rfl⟩
  cc := by norm_num [exRow]
  glass := fun h => by have := congrArg V3.z h; norm_num [exRow] at this
  front := by norm_num [exRow, dot, M3.c2, rotationMatrix]
  behind := by norm_num [exRow, dot]
  deep := by norm_num [exRow]
  line := ⟨90 / 105, by ext <;> norm_num [exRow]⟩
  cross := by norm_num [exRow, dot]
  volume := by norm_num [zMinAt, zMaxAt, exPars]

/-- The epipolar lines of the example are slanted. -/
theorem exRow_slanted (c1 c2 : Fin 4) (h : c1 < c2) (e : (ℝ × ℝ) × (ℝ × ℝ)) (he : Epi exPars (exRow c1) (exRow c2) 0 e) :
    e.1.1 ≠ e.2.1 := by
  obtain ⟨q, hq, he⟩ := he
  have hone : OneIndex exPars.mm := ⟨by norm_num [exPars], ⟨[], rfl⟩, rfl, by simp [exPars], by simp [exPars]⟩
  have hl := exRow_looks c1
  have hsee : Sees (exRow c1).cal ⟨1, 2, -5⟩ := ⟨hl.rot, hl.cc.ne', hl.glass, mul_neg_of_pos_of_neg hl.cc hl.front, hl.behind⟩
  obtain ⟨hp, X, hr, hon⟩ := trace_projection hsee hone
  have hlut : (exRow c1).lut = emptyLUT := rfl
  rw [← hlut, exRow_flat c1 _ (by norm_num)] at hp
  rw [← Option.some.inj hp] at hr
  have hqq : q = ⟨0, 50 * (1 - 10 * (c1.val : ℝ)) / 105, 100 / 105⟩ := by
    simpa [exRow, eq_comm] using hq
  have hx : q.x = -50 * ((1 - 10 * (c1.val : ℝ)) / (-5 - 100)) := by rw [hqq]; ring
  have hy : q.y = -50 * (2 / (-5 - 100)) := by rw [hqq]; norm_num
  simp only at hr
  rw [← hx, ← hy] at hr
  have hne : (⟨1, 2, -5⟩ - (exRow c1).cal.pos : V3) ≠ 0 := fun h => by have := congrArg V3.z h; norm_num [exRow] at this
  set v : V3 := ⟨1, 2, -5⟩ - (exRow c1).cal.pos with hv
  have hN := V3.norm_pos hne
  have hu : v.unit = v.smul (1 / v.norm) := unit_of_ne hne
  have hz : v.unit.z ≠ 0 := by
    rw [hu]
    simp only [V3.smul_z]
    have : v.z = -105 := by rw [hv]; norm_num [exRow]
    rw [this]
    exact mul_ne_zero (by norm_num) (one_div_ne_zero hN.ne')
  obtain ⟨M1, M2, ⟨t1, ht1⟩, z1, ⟨t2, ht2⟩, z2, f1, f2⟩ :=
    (C29_epi_mm q.x q.y (exRow c1).cal (exRow c2).cal (exRow c2).lut exPars.mm exPars.vol X v.unit hr hz e.1 e.2).1 he
  obtain ⟨t0, ht0⟩ := hon
  have za : zMinAt exPars.vol X.x = -20 := by norm_num [zMinAt, exPars]
  have zb : zMaxAt exPars.vol X.x = 20 := by norm_num [zMaxAt, exPars]
  rw [za] at z1
  rw [zb] at z2
  rw [exRow_flat c2 _ (by rw [z1]; norm_num), Option.some.injEq] at f1
  rw [exRow_flat c2 _ (by rw [z2]; norm_num), Option.some.injEq] at f2
  rw [← f1, ← f2]
  simp only
  rw [z1, z2]
  have vx : v.x = 1 - 10 * (c1.val : ℝ) := by rw [hv]; simp [exRow]
  have vz : v.z = -105 := by rw [hv]; norm_num [exRow]
  have hM : ∀ (M : V3) (t : ℝ), M = X + v.unit.smul t → M.x = 1 + v.x * ((t - t0) / v.norm) ∧
      M.z = -5 + v.z * ((t - t0) / v.norm) := by
    intro M t hM
    have a1 := congrArg V3.x hM
    have a2 := congrArg V3.z hM
    have b1 := congrArg V3.x ht0
    have b2 := congrArg V3.z ht0
    rw [hu] at a1 a2 b1 b2
    simp only [V3.add_x, V3.add_z, V3.smul_x, V3.smul_z] at a1 a2 b1 b2
    constructor
    · rw [a1]
      have : X.x = 1 - v.x * (1 / v.norm) * t0 := by linarith
      rw [this]; ring
    · rw [a2]
      have : X.z = -5 - v.z * (1 / v.norm) * t0 := by linarith
      rw [this]; ring
  obtain ⟨x1, y1⟩ := hM M1 t1 ht1
  obtain ⟨x2, y2⟩ := hM M2 t2 ht2
  rw [z1, vz] at y1
  rw [z2, vz] at y2
  have s1 : (t1 - t0) / v.norm = 15 / 105 := by linarith
  have s2 : (t2 - t0) / v.norm = -25 / 105 := by linarith
  rw [x1, x2, s1, s2, vx]
  intro hcon
  have h12 : (c1.val : ℝ) < c2.val := by exact_mod_cast h
  norm_num at hcon
  linarith

theorem exRow_seen : Seen exPars exRow ⟨1, 2, -5⟩
    (fun c => ⟨10 * (c.val : ℝ) + (1 - 10 * (c.val : ℝ)) * (90 / 105), 180 / 105, 10⟩) (fun _ => 0)
    (fun _ => ⟨4, 2, 2, 100⟩) where
  looks := exRow_looks
  facing c1 c2 _ M _ _ h2 := by
    norm_num [zMaxAt, exPars] at h2
    norm_num [dot, M3.c2, rotationMatrix, exRow]
    linarith
  detected c := by
    refine ⟨_, rfl, rfl, ?_, ?_⟩
    · rw [exRow_flat c _ (by norm_num)]
      norm_num
      ring
    · have hc : (c.val : ℝ) ≤ 3 := by exact_mod_cast Nat.le_of_lt_succ c.isLt
      have h0 : (0 : ℝ) ≤ c.val := Nat.cast_nonneg _
      have hap : (exRow c).cal.ap = defaultAddPar := rfl
      simp only [sensorOf, hap, (C24_default_identity _ _ _).2]
      simp only [exRow, exPars]
      norm_num
      constructor <;> linarith
  alike c1 c2 _ := by norm_num [Alike, ratio, exPars]
  slanted := exRow_slanted
  sparse c1 c2 _ e q s _ _ _ l hl ha := by
    have hs : l ⊆ [0] := by
      intro j hj
      obtain ⟨u, t, hu, -⟩ := ha j hj
      have : j < 1 := (List.getElem?_eq_some_iff.1 hu).1
      simp; omega
    have := (hl.subperm hs).length_le
    simp at this
    omega

/-- The call returns and reports the particle, and its position is exact. -/
example (srt : NpSort ℝ) : ∃ r, run srt exPars exRow = .ok r ∧ (∃ t ∈ r.quads, ∀ c, t.p c = 0) ∧
    pointPosition ((List.finRange 4).map fun c => (50 * (1 - 10 * (c.val : ℝ)) / 105, 100 / 105)) 4 exPars.mm
      ((List.finRange 4).map fun c => (exRow c).cal) = .ok (some (0, ⟨1, 2, -5⟩)) := by
  have heps : 0 < exPars.crit.eps0 := by norm_num [exPars]
  have hcs : 0 ≤ exPars.crit.csumg := by norm_num [exPars]
  have hover : ¬ Overflow exPars exRow := C109_no_overflow exPars exRow exRow_fine heps hcs (by simp [exRow])
  obtain ⟨r, hr⟩ := C109_returns srt exPars exRow exRow_fine heps hcs (by
    intro c1 c2 h i hi
    have hi : i = 0 := by simpa [exRow] using hi
    subst hi
    exact exRow_seen.epi exAir h)
  refine ⟨r, hr, ?_, ?_⟩
  · have := C109_reported srt exPars exRow exRow_fine heps hcs 33 rfl exAir hover _ _ _ _ exRow_seen (by
      intro k' hne _
      obtain ⟨c, hc⟩ := Function.ne_iff.1 hne
      have hno : ∀ d : Fin 4, (exRow d).crd[k' c]? = none := by
        intro d
        rw [List.getElem?_eq_none_iff]
        simp only [exRow, List.length_singleton]
        omega
      by_cases h : c = 0
      · refine ⟨c, 1, by rw [h]; decide, ?_⟩
        rintro ⟨e, q, ⟨q', h1, -⟩, -⟩
        rw [hno] at h1
        cases h1
      · refine ⟨0, c, Fin.pos_iff_ne_zero.2 h, ?_⟩
        rintro ⟨e, q, -, h1, -⟩
        rw [hno] at h1
        cases h1) r hr
    simpa using this
  · refine C109_position exPars exRow exAir _ _ _ _ exRow_seen ?_ (fun c => ⟨0, 50 * (1 - 10 * (c.val : ℝ)) / 105, 100 / 105⟩)
      (fun c => rfl) ?_
    · intro c1 c2 h
      rw [notParallel_iff]
      have h12 : (c1.val : ℝ) < c2.val := by exact_mod_cast h
      norm_num [exRow, dot, cross]
      nlinarith
    · intro c
      have hc : (c.val : ℝ) ≤ 3 := by exact_mod_cast Nat.le_of_lt_succ c.isLt
      simp only
      intro h
      norm_num at h
      linarith

/-! ### C110: the distribution -/

/-- What is known about the result of `correspondences`. -/
theorem run_full (srt : NpSort ℝ) {p : Pars} {cams : Fin 4 → CamData} (hd : ∀ c, DataFine (cams c)) (heps : 0 < p.crit.eps0)
    (hcs : 0 ≤ p.crit.csumg) {r : Result ℝ} (hr : run srt p cams = .ok r) :
    (∀ t ∈ r.con, ∀ c, 0 ≤ t.p c → (t.p c).toNat < (cams c).crd.length) ∧
    (∀ t ∈ r.quads, {c | t.p c < 0}.ncard = 0) ∧ (∀ t ∈ r.triplets, {c | t.p c < 0}.ncard = 1) ∧
    (∀ t ∈ r.pairs, {c | t.p c < 0}.ncard = 2) ∧
    r.con.Pairwise (fun a b => ¬ Share 4 a b) ∧
    (∀ (j : ℕ) t, r.con[j]? = some t → ∀ c (k : ℕ), t.p c = k → ∃ q, (cams c).crd[k]? = some q ∧ (r.tnr c)[q.pnr]? = some (j : Int)) ∧
    (∀ c (m : ℕ), (∀ t ∈ r.con, ∀ (k : ℕ) q, t.p c = k → (cams c).crd[k]? = some q → q.pnr ≠ m) →
      (r.tnr c)[m]? = (cams c).tnr[m]?) := by
  have hv := validInput hd heps hcs
  have hA := adjacency_wf hd heps hcs
  obtain ⟨r', hr', hpw, -, htn, hkeep⟩ := C03_each_target_in_one_correspondence srt _ _ p.corrmin p.allCam _ _ hv
  have hrr : r' = r := by
    unfold run at hr
    cases h1 : searches p cams with
    | error e => rw [h1] at hr; cases hr
    | ok u =>
      rw [h1] at hr
      have hr : correspondences srt NMAX (numTargets cams) (fun i1 i2 i => found (findPair p (cams i1) (cams i2) i)) p.corrmin p.allCam
        (fun c => (cams c).crd.map fun q => (q.pnr : Int)) (fun c => (cams c).tnr) = .ok r := hr
      rw [hr'] at hr
      exact Except.ok.inj hr
  subst hrr
  obtain ⟨q, t, pp, u1, u2, hst, -, -, -, -, -, hqs, hts, hps, -, -, -, -, -, -, -, hbd, -⟩ :=
    stages_spec (srt := srt) (corrmin := p.corrmin) (allCam := p.allCam) hA hv.le (by decide)
  rw [run_stages hr] at hst
  obtain ⟨rfl, rfl, rfl⟩ : r'.quads = q ∧ r'.triplets = t ∧ r'.pairs = pp := by
    have := Except.ok.inj hst
    simpa using this
  have hcnt : ∀ (P : Fin 4 → Prop) (S : Finset (Fin 4)), (∀ c, P c ↔ c ∈ S) → {c | P c}.ncard = S.card := by
    intro P S h
    have : {c | P c} = (S : Set (Fin 4)) := by ext c; simp [h]
    rw [this, Set.ncard_coe_finset]
  refine ⟨?_, ?_, ?_, ?_, hpw, ?_, ?_⟩
  · intro x hx c h0
    have hu : Uses 4 x c (x.p c).toNat := ⟨c.isLt, by omega⟩
    rcases hbd x hx c _ hu with h | rfl
    · exact h
    · have := (hd c).some
      simpa [NTuple.zero] using this
  · intro x hx
    have hnn : ∀ c, 0 ≤ x.p c := by
      rcases hqs x hx with h | ⟨rfl, -⟩
      · obtain ⟨p1, p2, p3, p4, -, -, -, -, -, -, -, hp, -⟩ := (C04_quadruplets_exact _ (numTargets cams) p.corrmin _ hA).1 x h
        intro c
        rw [hp]
        fin_cases c <;> simp
      · intro c
        simp [NTuple.zero]
    rw [hcnt _ ∅ (by intro c; have := hnn c; simp; omega)]
    rfl
  · intro x hx
    have hx := List.mem_of_mem_take (hts x hx)
    rw [mem_threePure] at hx
    obtain ⟨c1, c2, c3, i, s12, s13, s23, h12, h23, hi, -, -, -, -, -, -, -, rfl⟩ := hx
    obtain ⟨e1, e2, e3, e4, -⟩ := mkTuple3 h12 h23 (adjacency p cams c1 c2 i).p1 (s12.p2 : Int) (s13.p2 : Int)
      (Fl.npDiv (s12.corr + s13.corr + s23.corr) (s12.dist + s13.dist + s23.dist))
    have hp1 := (hA c1 c2 h12 i hi).1
    rw [hp1] at e1 e2 e3 e4
    rw [hp1]
    rw [hcnt _ (({c1, c2, c3} : Finset (Fin 4))ᶜ) (by
      intro c
      simp only [Finset.mem_compl, Finset.mem_insert, Finset.mem_singleton]
      by_cases a1 : c = c1
      · subst a1; rw [e1]; simp
      by_cases a2 : c = c2
      · subst a2; rw [e2]; simp
      by_cases a3 : c = c3
      · subst a3; rw [e3]; simp
      rw [e4 c a1 a2 a3]
      simp [a1, a2, a3])]
    clear * - h12 h23
    revert c1 c2 c3
    decide
  · intro x hx
    have hx := List.mem_of_mem_take (hps x hx)
    rw [mem_pairsPure] at hx
    obtain ⟨c1, c2, i, s, h12, hi, -, -, -, -, rfl⟩ := hx
    obtain ⟨e1, e2, e4, -⟩ := mkTuple2 h12 (adjacency p cams c1 c2 i).p1 (s.p2 : Int) (Fl.npDiv s.corr s.dist)
    have hp1 := (hA c1 c2 h12 i hi).1
    rw [hp1] at e1 e2 e4
    rw [hp1]
    rw [hcnt _ (({c1, c2} : Finset (Fin 4))ᶜ) (by
      intro c
      simp only [Finset.mem_compl, Finset.mem_insert, Finset.mem_singleton]
      by_cases a1 : c = c1
      · subst a1; rw [e1]; simp
      by_cases a2 : c = c2
      · subst a2; rw [e2]; simp
      rw [e4 c a1 a2]
      simp [a1, a2])]
    clear * - h12
    revert c1 c2
    decide
  · intro j x hj c k hk
    obtain ⟨v, h1, h2⟩ := htn j x hj c k ⟨c.isLt, hk⟩
    rw [List.getElem?_map, Option.map_eq_some_iff] at h1
    obtain ⟨q, hq, rfl⟩ := h1
    exact ⟨q, hq, by simpa using h2⟩
  · intro c m h
    refine hkeep c m fun x hx k hu he => ?_
    rw [List.getElem?_map, Option.map_eq_some_iff] at he
    obtain ⟨q, hq, e⟩ := he
    exact h x hx k q hu.2 hq (by exact_mod_cast e)

/-- The entry without exceptions. -/
noncomputable def ent (d : CamData) (c : Fin 4) (t : NTuple ℝ) : Int × (ℝ × ℝ) :=
  if t.p c < 0 then (-1, (-999, -999))
  else match d.crd[(t.p c).toNat]? with
    | some q => (q.pnr, (d.xy[q.pnr]?).getD (0, 0))
    | none => (0, (0, 0))

theorem ent_some {d : CamData} (hd : DataFine d) {c : Fin 4} {t : NTuple ℝ} {k : ℕ} (hk : t.p c = k) {q : Search.Coord}
    (hq : d.crd[k]? = some q) : ∃ xy, d.xy[q.pnr]? = some xy ∧ ent d c t = ((q.pnr : Int), xy) := by
  have hlt := hd.names q (List.mem_of_getElem? hq)
  rw [hd.pixs, ← hd.xys] at hlt
  refine ⟨_, List.getElem?_eq_getElem hlt, ?_⟩
  unfold ent
  rw [if_neg (by omega), hk]
  simp only [Int.toNat_natCast, hq, List.getElem?_eq_getElem hlt, Option.getD_some]

theorem entry_ok {d : CamData} (hd : DataFine d) {c : Fin 4} {t : NTuple ℝ} (h : 0 ≤ t.p c → (t.p c).toNat < d.crd.length) :
    entry d c t = .ok (ent d c t) := by
  unfold entry
  by_cases h0 : t.p c < 0
  · rw [if_pos h0]
    unfold ent
    rw [if_pos h0]
  · rw [if_neg h0]
    have hlt := h (by omega)
    have hq := List.getElem?_eq_getElem hlt
    obtain ⟨xy, hxy, he⟩ := ent_some hd (c := c) (t := t) (k := (t.p c).toNat) (by omega) hq
    simp only [pyGet, hq, hxy, bind, Except.bind, he]

theorem entries_ok {d : CamData} (hd : DataFine d) {c : Fin 4} : ∀ (ts : List (NTuple ℝ)),
    (∀ t ∈ ts, 0 ≤ t.p c → (t.p c).toNat < d.crd.length) → entries d c ts = .ok (ts.map (ent d c))
  | [], _ => rfl
  | t :: ts, h => by
    have ih := entries_ok hd ts fun x hx => h x (by simp [hx])
    simp only [entries, entry_ok hd (h t (by simp)), ih, bind, Except.bind, List.map_cons]

theorem group_ok {cams : Fin 4 → CamData} (hd : ∀ c, DataFine (cams c)) {ts : List (NTuple ℝ)}
    (h : ∀ t ∈ ts, ∀ c, 0 ≤ t.p c → (t.p c).toNat < (cams c).crd.length) :
    group cams ts = .ok fun c => ts.map (ent (cams c) c) := by
  have hc : ∀ c, entries (cams c) c ts = .ok (ts.map (ent (cams c) c)) := fun c => entries_ok (hd c) ts fun t ht => h t ht c
  simp only [group, hc, bind, Except.bind]
  congr 1
  funext c
  fin_cases c <;> rfl

/-- The result of `py_correspondences`, from the result of `correspondences`. -/
theorem py_eq (srt : NpSort ℝ) {p : Pars} {cams : Fin 4 → CamData} (hd : ∀ c, DataFine (cams c)) (heps : 0 < p.crit.eps0)
    (hcs : 0 ≤ p.crit.csumg) {r : Result ℝ} (hr : run srt p cams = .ok r) :
    pyCorrespondences srt p cams = .ok ⟨fun c => r.quads.map (ent (cams c) c), fun c => r.triplets.map (ent (cams c) c),
      fun c => r.pairs.map (ent (cams c) c), r.quads.length + r.triplets.length + r.pairs.length, r.tnr⟩ := by
  obtain ⟨hb, -⟩ := run_full srt hd heps hcs hr
  have e1 : r.con.take r.quads.length = r.quads := by simp [Result.con]
  have e2 : (r.con.drop r.quads.length).take r.triplets.length = r.triplets := by simp [Result.con]
  have e3 : (r.con.drop (r.quads.length + r.triplets.length)).take r.pairs.length = r.pairs := by
    have : r.con = (r.quads ++ r.triplets) ++ r.pairs := by simp [Result.con]
    rw [this, List.drop_append_of_le_length (by simp), List.drop_of_length_le (by simp)]
    simp
  have b1 : ∀ t ∈ r.quads, t ∈ r.con := fun t ht => by simp [Result.con, ht]
  have b2 : ∀ t ∈ r.triplets, t ∈ r.con := fun t ht => by simp [Result.con, ht]
  have b3 : ∀ t ∈ r.pairs, t ∈ r.con := fun t ht => by simp [Result.con, ht]
  simp only [pyCorrespondences, hr, bind, Except.bind, e1, e2, e3]
  rw [group_ok hd fun t ht => hb t (b1 t ht), group_ok hd fun t ht => hb t (b2 t ht), group_ok hd fun t ht => hb t (b3 t ht)]

theorem ent_absent {d : CamData} (hd : DataFine d) {c : Fin 4} {t : NTuple ℝ} (h : 0 ≤ t.p c → (t.p c).toNat < d.crd.length) :
    (∃ xy, ent d c t = (-1, xy)) ↔ t.p c < 0 := by
  constructor
  · rintro ⟨xy, he⟩
    by_contra h0
    have hlt := h (by omega)
    obtain ⟨xy', -, he'⟩ := ent_some hd (c := c) (t := t) (k := (t.p c).toNat) (by omega) (List.getElem?_eq_getElem hlt)
    rw [he] at he'
    have := congrArg Prod.fst he'
    simp only at this
    omega
  · intro h0
    exact ⟨_, by unfold ent; rw [if_pos h0]⟩

/-- C110: `py_correspondences` returns if the epipolar lines can be computed, and its result is what a user expects. -/
theorem C110_distribution (srt : NpSort ℝ) (p : Pars) (cams : Fin 4 → CamData) (hd : ∀ c, DataFine (cams c))
    (heps : 0 < p.crit.eps0) (hcs : 0 ≤ p.crit.csumg)
    (hepi : ∀ c1 c2, c1 < c2 → ∀ i < (cams c1).crd.length, ∃ e, Epi p (cams c1) (cams c2) i e) :
    ∃ o, pyCorrespondences srt p cams = .ok o ∧ Distributed cams o := by
  obtain ⟨r, hr⟩ := C109_returns srt p cams hd heps hcs hepi
  obtain ⟨hb, h4, h3, h2, hpw, htn, hkeep⟩ := run_full srt hd heps hcs hr
  refine ⟨_, py_eq srt hd heps hcs hr, ?_⟩
  set o : Out := ⟨fun c => r.quads.map (ent (cams c) c), fun c => r.triplets.map (ent (cams c) c),
      fun c => r.pairs.map (ent (cams c) c), r.quads.length + r.triplets.length + r.pairs.length, r.tnr⟩ with ho
  have hl : ∀ c, listed o c = r.con.map (ent (cams c) c) := by
    intro c
    simp [listed, ho, Result.con]
  have hget : ∀ (c : Fin 4) (j m : ℕ) (xy : ℝ × ℝ), (listed o c)[j]? = some ((m : Int), xy) →
      ∃ (t : NTuple ℝ) (k : ℕ) (q : Search.Coord), r.con[j]? = some t ∧ t.p c = k ∧ (cams c).crd[k]? = some q ∧ q.pnr = m := by
    intro c j m xy h
    rw [hl, List.getElem?_map, Option.map_eq_some_iff] at h
    obtain ⟨t, ht, he⟩ := h
    by_cases h0 : t.p c < 0
    · obtain ⟨xy', e⟩ := (ent_absent (hd c) (hb t (List.mem_of_getElem? ht) c)).2 h0
      rw [e] at he
      have := congrArg Prod.fst he
      simp only at this
      omega
    · have hlt := hb t (List.mem_of_getElem? ht) c (by omega)
      have hq := List.getElem?_eq_getElem hlt
      obtain ⟨xy', -, e⟩ := ent_some (hd c) (c := c) (t := t) (k := (t.p c).toNat) (by omega) hq
      rw [e] at he
      have := congrArg Prod.fst he
      simp only at this
      exact ⟨t, _, _, ht, by omega, hq, by exact_mod_cast this⟩
  have habs : ∀ (ts : List (NTuple ℝ)), (∀ t ∈ ts, t ∈ r.con) → ∀ (j : ℕ) (hj : j < ts.length),
      {c | Absent (fun c => ts.map (ent (cams c) c)) j c} = {c | (ts[j]).p c < 0} := by
    intro ts hts j hj
    ext c
    simp only [Absent, Set.mem_ofPred_eq, List.getElem?_map, List.getElem?_eq_getElem hj, Option.map_some, Option.some.injEq]
    exact ent_absent (hd c) (hb _ (hts _ (List.getElem_mem hj)) c)
  constructor
  · intro c
    rw [hl]
    simp [Result.con, ho]
    omega
  · intro c e he
    rw [hl] at he
    obtain ⟨t, ht, rfl⟩ := List.mem_map.1 he
    by_cases h0 : t.p c < 0
    · left
      unfold ent
      rw [if_pos h0]
    · right
      have hlt := hb t ht c (by omega)
      obtain ⟨xy', h1, e⟩ := ent_some (hd c) (c := c) (t := t) (k := (t.p c).toNat) (by omega) (List.getElem?_eq_getElem hlt)
      exact ⟨_, _, h1, e⟩
  · intro j hj
    have hj : j < r.quads.length := by simpa [ho] using hj
    have := habs r.quads (fun t ht => by simp [Result.con, ht]) j hj
    rw [this]
    exact h4 _ (List.getElem_mem hj)
  · intro j hj
    have hj : j < r.triplets.length := by simpa [ho] using hj
    have := habs r.triplets (fun t ht => by simp [Result.con, ht]) j hj
    rw [this]
    exact h3 _ (List.getElem_mem hj)
  · intro j hj
    have hj : j < r.pairs.length := by simpa [ho] using hj
    have := habs r.pairs (fun t ht => by simp [Result.con, ht]) j hj
    rw [this]
    exact h2 _ (List.getElem_mem hj)
  · intro c
    simp [ho]
  · intro c i j m xy xy' hi hj
    obtain ⟨t, k, q, ht, hk, hq, hm⟩ := hget c i m xy hi
    obtain ⟨t', k', q', ht', hk', hq', hm'⟩ := hget c j m xy' hj
    have hkk : k = k' := by
      obtain ⟨l1, e1⟩ := List.getElem?_eq_some_iff.1 hq
      obtain ⟨l2, e2⟩ := List.getElem?_eq_some_iff.1 hq'
      have hn := (hd c).once
      refine (List.Nodup.getElem_inj_iff hn (hi := by simpa using l1) (hj := by simpa using l2)).1 ?_
      simp only [List.getElem_map, e1, e2, hm, hm']
    subst hkk
    have hsh : Share 4 t t' := ⟨c, k, ⟨c.isLt, hk⟩, ⟨c.isLt, hk'⟩⟩
    obtain ⟨l1, e1⟩ := List.getElem?_eq_some_iff.1 ht
    obtain ⟨l2, e2⟩ := List.getElem?_eq_some_iff.1 ht'
    rw [List.pairwise_iff_getElem] at hpw
    rcases Nat.lt_trichotomy i j with h | h | h
    · exact absurd (by rw [e1, e2]; exact hsh) (hpw i j l1 l2 h)
    · exact h
    · refine absurd ?_ (hpw j i l2 l1 h)
      rw [e1, e2]
      exact ⟨c, k, ⟨c.isLt, hk'⟩, ⟨c.isLt, hk⟩⟩
  · intro c j m xy h
    obtain ⟨t, k, q, ht, hk, hq, rfl⟩ := hget c j m xy h
    obtain ⟨q', hq', h'⟩ := htn j t ht c k hk
    rw [hq] at hq'
    cases hq'
    exact h'
  · intro c m h
    refine hkeep c m fun t ht k q hk hq hm => ?_
    obtain ⟨xy, -, e⟩ := ent_some (hd c) hk hq
    refine h xy ?_
    rw [hl, ← hm, ← e]
    exact List.mem_map_of_mem ht

/-- C110 with C109: a particle that is seen exactly and unambiguously is listed among the quadruplets, with the identifiers and the pixel
positions of its four targets. -/
theorem C110_particle_listed (srt : NpSort ℝ) (p : Pars) (cams : Fin 4 → CamData) (hd : ∀ c, DataFine (cams c))
    (heps : 0 < p.crit.eps0) (hcs : 0 ≤ p.crit.csumg) (cm : ℝ) (hcm : p.corrmin = .fin cm) (hair : Air p.mm)
    (hover : ¬ Overflow p cams) (P : V3) (X : Fin 4 → V3) (k : Fin 4 → ℕ) (s : Fin 4 → Shape) (hs : Seen p cams P X k s)
    (hun : ∀ k' : Fin 4 → ℕ, k' ≠ k → (∃ c, k' c = k c) →
      ∃ c1 c2, c1 < c2 ∧ ¬ OnEpi p (cams c1) (cams c2) (k' c1) (k' c2))
    (o : Out) (ho : pyCorrespondences srt p cams = .ok o) :
    ∃ j : ℕ, ∀ c, ∃ q xy, (cams c).crd[k c]? = some q ∧ (cams c).xy[q.pnr]? = some xy ∧
      (o.quads c)[j]? = some ((q.pnr : Int), xy) := by
  cases hr : run srt p cams with
  | error e => rw [pyCorrespondences, hr] at ho; cases ho
  | ok r =>
    rw [py_eq srt hd heps hcs hr] at ho
    cases ho
    obtain ⟨t, ht, htk⟩ := C109_reported srt p cams hd heps hcs cm hcm hair hover P X k s hs hun r hr
    obtain ⟨j, hj, hjt⟩ := List.mem_iff_getElem.1 ht
    refine ⟨j, fun c => ?_⟩
    obtain ⟨q, hq, -⟩ := (hs.detected c).at_
    obtain ⟨xy, hxy, he⟩ := ent_some (hd c) (htk c) hq
    refine ⟨q, xy, hq, hxy, ?_⟩
    simp only [List.getElem?_map, List.getElem?_eq_getElem hj, Option.map_some, hjt, he]

/-- The example of C109 meets the hypotheses. -/
example (srt : NpSort ℝ) : ∃ o, pyCorrespondences srt exPars exRow = .ok o ∧ Distributed exRow o := by
  refine C110_distribution srt exPars exRow exRow_fine (by norm_num [exPars]) (by norm_num [exPars]) ?_
  intro c1 c2 h i hi
  have hi : i = 0 := by simpa [exRow] using hi
  subst hi
  exact exRow_seen.epi exAir h

end Verif.FullCorr
