/-
C143, C144: correspondences of targets that are near, not on, each other's epipolar lines.
-/
import Verif.Spec.NoisyCorr
import Verif.Props.TripletCorr

namespace Verif.FullCorr

open Verif.Geo Verif.Geo.V3 Verif.Geo.Spec Verif.Search Verif.Search.Spec Verif.Corr Verif.Corr.Spec

/-- What a slot says is what `FitsWith` says. -/
theorem link_with {p : Pars} {cams : Fin 4 → CamData} (hd : ∀ c, DataFine (cams c)) (heps : 0 < p.crit.eps0)
    (hcs : 0 ≤ p.crit.csumg) {c1 c2 : Fin 4} (h : c1 < c2) {i : ℕ} (hi : i < numTargets cams c1) {sl : Slot ℝ}
    (hl : Link (adjacency p cams) c1 c2 i sl) : FitsWith p (cams c1) (cams c2) i sl.p2 sl.dist sl.corr := by
  unfold Link at hl
  rw [valid_eq hd heps hcs h hi] at hl
  have hq := List.getElem?_eq_getElem (l := (cams c1).crd) (i := i) hi
  set q := (cams c1).crd[i]'hi
  cases he : epiMM q.x q.y (cams c1).cal (cams c2).cal (cams c2).lut p.mm p.vol with
  | none =>
    have : findPair p (cams c1) (cams c2) i = .error .other := by simp [findPair, pyGet, hq, bind, Except.bind, he]
    rw [this] at hl
    simp [found] at hl
  | some e =>
    have hlt := (hd c1).names q (List.mem_of_getElem? hq)
    have hs := List.getElem?_eq_getElem hlt
    have hs0 := (hd c1).sizes _ (List.mem_of_getElem? hs)
    obtain ⟨r, hr, -, -, hc⟩ := C08_candidates_sound (sensorOf p.ip (cams c2).cal) p.crit (cams c1).pix[q.pnr] (cams c2).crd
      (cams c2).pix e.1.1 e.1.2 e.2.1 e.2.2 (dataOK (hd c2) hs0) heps
    rw [findPair_eq hq hs he hr] at hl
    simp only [found] at hl
    obtain ⟨c, hcm, rfl⟩ := List.mem_map.1 hl
    obtain ⟨-, h2, u, t, hu, ht, h3, h4, h5, h6⟩ := hc c hcm
    exact ⟨e, q, _, u, t, ⟨q, hq, he⟩, hq, hs, hu, ht, h2, h3, h4, h5, h6⟩

/-- Distance and correlation are determined. -/
theorem FitsWith.unique {p : Pars} {a b : CamData} {i j : ℕ} {d w d' w' : ℝ} (h : FitsWith p a b i j d w)
    (h' : FitsWith p a b i j d' w') : d = d' ∧ w = w' := by
  obtain ⟨e, q, s, u, t, ⟨q1, g1, g2⟩, hq, hs, hu, ht, -, d0, dl, ⟨τ, dτ⟩, rfl⟩ := h
  obtain ⟨e', q', s', u', t', ⟨q1', g1', g2'⟩, hq', hs', hu', ht', -, d0', dl', ⟨τ', dτ'⟩, rfl⟩ := h'
  rw [hq] at hq' g1 g1'
  cases hq'; cases g1; cases g1'
  rw [g2] at g2'
  cases g2'
  rw [hs] at hs'
  cases hs'
  rw [hu] at hu'
  cases hu'
  rw [ht] at ht'
  cases ht'
  refine ⟨?_, rfl⟩
  have h1 := dl τ'
  have h2 := dl' τ
  rw [dτ'] at h1
  rw [dτ] at h2
  exact le_antisymm (abs_le_of_sq_le_sq' h1 d0' |>.2) (abs_le_of_sq_le_sq' h2 d0 |>.2)

theorem FitsWith.lt {p : Pars} {a b : CamData} {i j : ℕ} {d w : ℝ} (h : FitsWith p a b i j d w) :
    i < a.crd.length ∧ j < b.crd.length := by
  obtain ⟨e, q, s, u, t, -, hq, -, hu, -⟩ := h
  exact ⟨(List.getElem?_eq_some_iff.1 hq).1, (List.getElem?_eq_some_iff.1 hu).1⟩

theorem FitsWith.pos {p : Pars} {a b : CamData} (ha : DataFine a) (hb : DataFine b) (hcs : 0 ≤ p.crit.csumg) {i j : ℕ} {d w : ℝ}
    (h : FitsWith p a b i j d w) : 0 ≤ d ∧ 0 < w := by
  obtain ⟨e, q, s, u, t, -, hq, hs, hu, ht, ⟨u', t', hu', ht', -, -, -, -, -, -, h6⟩, h3, -, -, rfl⟩ := h
  rw [hu] at hu'
  cases hu'
  rw [ht] at ht'
  cases ht'
  have hs0 := ha.sizes s (List.mem_of_getElem? hs)
  have ht0 := hb.sizes t (List.mem_of_getElem? ht)
  have hp := lt_of_le_of_lt hcs h6
  obtain ⟨p1, p2⟩ := ratio_pos hs0.2.2.2 ht0.2.2.2 hp
  have r1 := ratio_nonneg hs0.1 ht0.1
  have r2 := ratio_nonneg hs0.2.1 ht0.2.1
  have r3 := ratio_nonneg hs0.2.2.1 ht0.2.2.1
  exact ⟨h3, by positivity⟩

theorem FitsWith.fits {p : Pars} {a b : CamData} {i j : ℕ} {d w : ℝ} (h : FitsWith p a b i j d w) : Fits p a b i j := by
  obtain ⟨e, q, s, u, t, he, hq, hs, -, -, ha, -⟩ := h
  exact ⟨e, q, s, he, hq, hs, ha⟩

/-- Targets that fit are linked. -/
theorem with_link {p : Pars} {cams : Fin 4 → CamData} (hd : ∀ c, DataFine (cams c)) (heps : 0 < p.crit.eps0)
    (hcs : 0 ≤ p.crit.csumg) {c1 c2 : Fin 4} (h : c1 < c2) {i j : ℕ} {d w : ℝ}
    (hf : FitsWith p (cams c1) (cams c2) i j d w) (hmeet : MeetsSensor p (cams c1) (cams c2) i)
    (hsp : NotCrowded p (cams c1) (cams c2) i) : Link (adjacency p cams) c1 c2 i ⟨j, w, d⟩ := by
  classical
  have hi := hf.lt.1
  have hf0 := hf
  obtain ⟨e, q, s, u, t, he, hq, hs, hu, ht, hacc, -⟩ := hf
  obtain ⟨q', hq', he'⟩ := he
  rw [hq] at hq'
  cases hq'
  have hs0 := (hd c1).sizes _ (List.mem_of_getElem? hs)
  obtain ⟨r, hr, hm⟩ := C09_candidates_complete_partial (sensorOf p.ip (cams c2).cal) p.crit s (cams c2).crd (cams c2).pix
    e.1.1 e.1.2 e.2.1 e.2.2 (dataOK (hd c2) hs0) heps (hd c2).sorted (hd c2).few (hmeet e ⟨q, hq, he'⟩)
  have hj : j < (cams c2).crd.length := (List.getElem?_eq_some_iff.1 hu).1
  rw [List.take_of_length_le (hsp e q s ⟨q, hq, he'⟩ hq hs _ (List.Nodup.filter _ List.nodup_range) (by
      intro j hj
      have := (List.mem_filter.1 hj).2
      exact of_decide_eq_true this))] at hm
  have hmem : j ∈ r.map Cand.pnr := by
    rw [hm]
    exact List.mem_filter.2 ⟨List.mem_range.2 hj, decide_eq_true hacc⟩
  obtain ⟨c, hc, hck⟩ := List.mem_map.1 hmem
  have hfp := findPair_eq (b := cams c2) hq hs he' hr
  have hsl : slotOf c ∈ found (findPair p (cams c1) (cams c2) i) := by
    rw [hfp]
    exact List.mem_map.2 ⟨c, hc, rfl⟩
  have hl : Link (adjacency p cams) c1 c2 i (slotOf c) := by
    unfold Link
    rw [valid_eq hd heps hcs h hi]
    exact hsl
  have hw := link_with hd heps hcs h hi hl
  have hck' : (slotOf c).p2 = j := hck
  rw [hck'] at hw
  obtain ⟨e1, e2⟩ := hw.unique hf0
  have : slotOf c = ⟨j, w, d⟩ := by
    cases hsc : slotOf c with
    | mk a b f =>
      rw [hsc] at hck' e1 e2
      simp only at hck' e1 e2
      rw [hck', e1, e2]
  rw [← this]
  exact hl

/-! ### Comparing quotients -/

theorem npDiv_le {a b a' b' : ℝ} (ha : 0 < a) (hb : 0 ≤ b) (ha' : 0 < a') (hb' : 0 ≤ b')
    (h : Fl.npDiv a b ≤ Fl.npDiv a' b') : a * b' ≤ a' * b := by
  rcases hb'.eq_or_lt with e | e
  · rw [← e, mul_zero]
    positivity
  rcases hb.eq_or_lt with e2 | e2
  · rw [← e2, npDiv_zero ha] at h
    exact absurd (npDiv_top h) e.ne'
  · rw [Fl.npDiv, if_neg e2.ne', Fl.npDiv, if_neg e.ne'] at h
    have : Fl.key (.fin (a / b)) ≤ Fl.key (.fin (a' / b')) := h
    rw [Fl.key, Fl.key, Prod.Lex.toLex_le_toLex] at this
    simp only [lt_self_iff_false, true_and, false_or] at this
    rwa [div_le_div_iff₀ e2 e] at this

/-- A quotient above the threshold. -/
theorem npDiv_above {a b cm : ℝ} (ha : 0 < a) (hb : 0 ≤ b) (h : cm * b < a) : (Fl.npDiv a b).npLe (.fin cm) = false := by
  rcases hb.eq_or_lt with e | e
  · rw [← e, npDiv_zero ha]
    exact npLe_top cm
  · rw [Fl.npDiv, if_neg e.ne']
    simp only [Fl.npLe]
    rw [decide_eq_false_iff_not]
    intro hle
    have : Fl.key (.fin (a / b)) ≤ Fl.key (.fin cm) := hle
    rw [Fl.key, Fl.key, Prod.Lex.toLex_le_toLex] at this
    simp only [lt_self_iff_false, true_and, false_or] at this
    rw [div_le_iff₀ e] at this
    linarith

theorem npDiv_not_le_zero {a b : ℝ} (ha : 0 < a) (hb : 0 ≤ b) : ¬ Fl.npDiv a b ≤ (NTuple.zero : NTuple ℝ).corr := by
  intro h
  rcases hb.eq_or_lt with e | e
  · rw [← e, npDiv_zero ha] at h
    exact not_top_zero h
  · rw [Fl.npDiv, if_neg e.ne'] at h
    have : Fl.key (.fin (a / b)) ≤ Fl.key (.fin 0) := h
    rw [Fl.key, Fl.key, Prod.Lex.toLex_le_toLex] at this
    simp only [lt_self_iff_false, true_and, false_or] at this
    have := div_pos ha e
    linarith

/-- A quadruplet of the search, in terms of fits. -/
theorem quad_with {p : Pars} {cams : Fin 4 → CamData} (hd : ∀ c, DataFine (cams c)) (heps : 0 < p.crit.eps0)
    (hcs : 0 ≤ p.crit.csumg) {t : NTuple ℝ} (ht : IsQuad (adjacency p cams) (numTargets cams 0) p.corrmin t) :
    ∃ (k : Fin 4 → ℕ) (d w : Fin 4 → Fin 4 → ℝ), (∀ c, t.p c = k c) ∧
      (∀ c1 c2, c1 < c2 → FitsWith p (cams c1) (cams c2) (k c1) (k c2) (d c1 c2) (w c1 c2)) ∧
      t.corr = Fl.npDiv (six w) (six d) := by
  obtain ⟨p1, p2, p3, p4, s12, s13, s14, s23, s24, s34, hlt, hp, ⟨l12, rfl⟩, ⟨l13, rfl⟩, ⟨l14, rfl⟩, ⟨l23, e23⟩, ⟨l24, e24⟩,
    ⟨l34, e34⟩, hc, -⟩ := ht
  have hA := adjacency_wf hd heps hcs
  have b12 := (hA 0 1 (by decide) p1 hlt).2.2.2.1 _ l12
  have b13 := (hA 0 2 (by decide) p1 hlt).2.2.2.1 _ l13
  have f12 := link_with hd heps hcs (by decide) hlt l12
  have f13 := link_with hd heps hcs (by decide) hlt l13
  have f14 := link_with hd heps hcs (by decide) hlt l14
  have f23 := link_with hd heps hcs (by decide) b12 l23
  have f24 := link_with hd heps hcs (by decide) b12 l24
  have f34 := link_with hd heps hcs (by decide) b13 l34
  rw [e23] at f23
  rw [e24] at f24
  rw [e34] at f34
  refine ⟨![p1, s12.p2, s13.p2, s14.p2], ![![0, s12.dist, s13.dist, s14.dist], ![0, 0, s23.dist, s24.dist], ![0, 0, 0, s34.dist], ![0, 0, 0, 0]],
    ![![0, s12.corr, s13.corr, s14.corr], ![0, 0, s23.corr, s24.corr], ![0, 0, 0, s34.corr], ![0, 0, 0, 0]], ?_, ?_, hc⟩
  · intro c
    rw [hp]
    fin_cases c <;> rfl
  · intro c1 c2 h
    fin_cases c1 <;> fin_cases c2 <;> simp at h
    · exact f12
    · exact f13
    · exact f14
    · exact f23
    · exact f24
    · exact f34

theorem six_pos {p : Pars} {cams : Fin 4 → CamData} (hd : ∀ c, DataFine (cams c)) (hcs : 0 ≤ p.crit.csumg) {k : Fin 4 → ℕ}
    {d w : Fin 4 → Fin 4 → ℝ} (h : ∀ c1 c2, c1 < c2 → FitsWith p (cams c1) (cams c2) (k c1) (k c2) (d c1 c2) (w c1 c2)) :
    0 ≤ six d ∧ 0 < six w := by
  have f := fun (c1 c2 : Fin 4) (hc : c1 < c2) => (h c1 c2 hc).pos (hd c1) (hd c2) hcs
  obtain ⟨a1, b1⟩ := f 0 1 (by decide)
  obtain ⟨a2, b2⟩ := f 0 2 (by decide)
  obtain ⟨a3, b3⟩ := f 0 3 (by decide)
  obtain ⟨a4, b4⟩ := f 1 2 (by decide)
  obtain ⟨a5, b5⟩ := f 1 3 (by decide)
  obtain ⟨a6, b6⟩ := f 2 3 (by decide)
  unfold six
  constructor <;> positivity

/-- C143: let four targets, one of each camera, fit one another (however inexact they are, and in any media), and let their score, the sum of the
six correlations over the sum of the six distances, be above `corrmin`. If the call returns without overflow, they are reported as a quadruplet, or one of them is part of another
reported quadruplet, of targets that fit one another with a score at least as high. -/
theorem C143_reported_or_outranked (srt : NpSort ℝ) (p : Pars) (cams : Fin 4 → CamData) (hd : ∀ c, DataFine (cams c))
    (heps : 0 < p.crit.eps0) (hcs : 0 ≤ p.crit.csumg) (cm : ℝ) (hcm : p.corrmin = .fin cm) (hover : ¬ Overflow p cams)
    (k : Fin 4 → ℕ) (d w : Fin 4 → Fin 4 → ℝ) (hg : Group4 Set.univ p cams k d w) (hsc : cm * six d < six w)
    (r : Result ℝ) (hr : run srt p cams = .ok r) :
    (∃ t ∈ r.quads, ∀ c, t.p c = k c) ∨
    ∃ t ∈ r.quads, ∃ (k' : Fin 4 → ℕ) (d' w' : Fin 4 → Fin 4 → ℝ), (∀ c, t.p c = k' c) ∧ k' ≠ k ∧ (∃ c, k' c = k c) ∧
      (∀ c1 c2, c1 < c2 → FitsWith p (cams c1) (cams c2) (k' c1) (k' c2) (d' c1 c2) (w' c1 c2)) ∧
      six w * six d' ≤ six w' * six d := by
  have hA := adjacency_wf hd heps hcs
  have hfit : ∀ c1 c2, c1 < c2 → FitsWith p (cams c1) (cams c2) (k c1) (k c2) (d c1 c2) (w c1 c2) :=
    fun c1 c2 h => hg.fit c1 (Set.mem_univ _) c2 (Set.mem_univ _) h
  have hl : ∀ c1 c2, c1 < c2 → Link (adjacency p cams) c1 c2 (k c1) ⟨k c2, w c1 c2, d c1 c2⟩ := fun c1 c2 h =>
    with_link hd heps hcs h (hfit c1 c2 h) (hg.meets c1 (Set.mem_univ _) c2 (Set.mem_univ _) h)
      (hg.sparse c1 (Set.mem_univ _) c2 (Set.mem_univ _) h)
  obtain ⟨hd0, hw0⟩ := six_pos hd hcs hfit
  have hk0 : k 0 < numTargets cams 0 := (hfit 0 1 (by decide)).lt.1
  set t : NTuple ℝ := ⟨![(k 0 : Int), k 1, k 2, k 3], Fl.npDiv (six w) (six d)⟩ with htdef
  have htp : ∀ c, t.p c = k c := by
    intro c
    fin_cases c <;> rfl
  have hq : IsQuad (adjacency p cams) (numTargets cams 0) p.corrmin t := by
    refine ⟨k 0, k 1, k 2, k 3, _, _, _, _, _, _, hk0, rfl, ⟨hl 0 1 (by decide), rfl⟩, ⟨hl 0 2 (by decide), rfl⟩,
      ⟨hl 0 3 (by decide), rfl⟩, ⟨hl 1 2 (by decide), rfl⟩, ⟨hl 1 3 (by decide), rfl⟩, ⟨hl 2 3 (by decide), rfl⟩, rfl, ?_⟩
    rw [hcm]
    exact npDiv_above hw0 hd0 hsc
  have hlt : (fourCameraMatching (adjacency p cams) (numTargets cams 0) p.corrmin (4 * NMAX)).length < 4 * NMAX :=
    not_le.1 hover
  have hmem := (C04_quadruplets_exact _ (numTargets cams) p.corrmin (4 * NMAX) hA).2 hlt t hq
  obtain ⟨q, tt, pp, u1, u2, hst, -, -, -, -, -, hqs, -, -, -, hbest, -⟩ :=
    stages_spec (srt := srt) (corrmin := p.corrmin) (allCam := p.allCam) hA (numTargets_le hd) (by decide)
  rw [run_stages hr] at hst
  obtain ⟨rfl, rfl, rfl⟩ : r.quads = q ∧ r.triplets = tt ∧ r.pairs = pp := by
    have := Except.ok.inj hst
    simpa using this
  rcases hbest t hmem with h | ⟨y, hy, ⟨c, j, hyc, htc⟩, hle⟩
  · exact Or.inl ⟨t, h, htp⟩
  · have hyq : IsQuad (adjacency p cams) (numTargets cams 0) p.corrmin y := by
      rcases hqs y hy with h | ⟨rfl, -⟩
      · exact (C04_quadruplets_exact _ (numTargets cams) p.corrmin (4 * NMAX) hA).1 y h
      · exact absurd hle (npDiv_not_le_zero hw0 hd0)
    obtain ⟨k', d', w', hk', hf', hc'⟩ := quad_with hd heps hcs hyq
    by_cases hkk : k' = k
    · left
      exact ⟨y, hy, fun c => by rw [hk', hkk]⟩
    · right
      refine ⟨y, hy, k', d', w', hk', hkk, ⟨c, ?_⟩, hf', ?_⟩
      · have h1 := hyc.2
        have h2 := htc.2
        rw [hk'] at h1
        rw [htp] at h2
        omega
      · rw [hc'] at hle
        obtain ⟨a, b⟩ := six_pos hd hcs hf'
        exact npDiv_le hw0 hd0 b a hle

/-- Targets that fit one another only are not in a crowd. -/
theorem FitOnly.sparse {S : Set (Fin 4)} {p : Pars} {cams : Fin 4 → CamData} {k : Fin 4 → ℕ} (h : FitOnly S p cams k)
    {c1 c2 : Fin 4} (h1 : c1 ∈ S) (hc : c1 < c2) : NotCrowded p (cams c1) (cams c2) (k c1) := by
  intro e q s he hq hs l hl ha
  have hsub : l ⊆ [k c2] := by
    intro j hj
    have := ((h c1 h1 c2 j).1 hc ⟨e, q, s, he, hq, hs, ha j hj⟩).2
    simp [this]
  have := (hl.subperm hsub).length_le
  simp at this
  omega

/-- C143: four targets that fit one another and nothing else are reported as a quadruplet, if their score is above `corrmin`. -/
theorem C143_reported (srt : NpSort ℝ) (p : Pars) (cams : Fin 4 → CamData) (hd : ∀ c, DataFine (cams c))
    (heps : 0 < p.crit.eps0) (hcs : 0 ≤ p.crit.csumg) (cm : ℝ) (hcm : p.corrmin = .fin cm) (hover : ¬ Overflow p cams)
    (k : Fin 4 → ℕ) (d w : Fin 4 → Fin 4 → ℝ)
    (hfit : ∀ c1 c2, c1 < c2 → FitsWith p (cams c1) (cams c2) (k c1) (k c2) (d c1 c2) (w c1 c2))
    (hmeet : ∀ c1 c2, c1 < c2 → MeetsSensor p (cams c1) (cams c2) (k c1))
    (hf : FitOnly Set.univ p cams k) (hsc : cm * six d < six w)
    (r : Result ℝ) (hr : run srt p cams = .ok r) : ∃ t ∈ r.quads, ∀ c, t.p c = k c := by
  have hg : Group4 Set.univ p cams k d w := ⟨fun c1 _ c2 _ => hfit c1 c2, fun c1 _ c2 _ => hmeet c1 c2,
    fun c1 h1 c2 _ h => hf.sparse h1 h⟩
  rcases C143_reported_or_outranked srt p cams hd heps hcs cm hcm hover k d w hg hsc r hr with h | ⟨t, -, k', d', w', -, hne, ⟨c, hc⟩, hf', -⟩
  · exact h
  · exfalso
    apply hne
    funext c'
    rcases lt_trichotomy c c' with h | h | h
    · have := (hf' c c' h).fits
      rw [hc] at this
      exact ((hf c (Set.mem_univ _) c' _).1 h this).2
    · rw [← h, hc]
    · have := (hf' c' c h).fits
      rw [hc] at this
      exact ((hf c (Set.mem_univ _) c' _).2 h this).2

/-- C143: the distances are less than `eps0`, so a threshold `corrmin` of at most the mean correlation over `eps0` is always passed. -/
theorem C143_threshold (p : Pars) (cams : Fin 4 → CamData) (hd : ∀ c, DataFine (cams c)) (hcs : 0 ≤ p.crit.csumg) (heps : 0 < p.crit.eps0)
    (cm : ℝ) (k : Fin 4 → ℕ) (d w : Fin 4 → Fin 4 → ℝ)
    (hfit : ∀ c1 c2, c1 < c2 → FitsWith p (cams c1) (cams c2) (k c1) (k c2) (d c1 c2) (w c1 c2))
    (h : cm * (6 * p.crit.eps0) ≤ six w) : cm * six d < six w := by
  have hlt : ∀ c1 c2, c1 < c2 → d c1 c2 < p.crit.eps0 := by
    intro c1 c2 hc
    obtain ⟨e, q, s, u, t, -, -, -, hu, -, ⟨u', t', hu', -, -, -, ⟨τ, hτ⟩, -⟩, d0, dl, -⟩ := hfit c1 c2 hc
    rw [hu] at hu'
    cases hu'
    exact lt_of_pow_lt_pow_left₀ 2 heps.le (lt_of_le_of_lt (dl τ) hτ)
  obtain ⟨hd0, hw0⟩ := six_pos hd hcs hfit
  have h6 : six d < 6 * p.crit.eps0 := by
    unfold six
    linarith [hlt 0 1 (by decide), hlt 0 2 (by decide), hlt 0 3 (by decide), hlt 1 2 (by decide), hlt 1 3 (by decide), hlt 2 3 (by decide)]
  rcases le_or_gt cm 0 with h0 | h0
  · nlinarith [mul_nonneg (neg_nonneg.2 h0) hd0]
  · nlinarith

/-! ### Triplets and pairs -/

/-- A triplet of the search, in terms of fits; the last pair may be a stale entry if the target of the third camera has number 0. -/
theorem triplet_with {p : Pars} {cams : Fin 4 → CamData} (hd : ∀ c, DataFine (cams c)) (heps : 0 < p.crit.eps0)
    (hcs : 0 ≤ p.crit.csumg) {u : Usage} {t : NTuple ℝ}
    (ht : t ∈ threePure (adjacency p cams) (numTargets cams) p.corrmin u) :
    ∃ (d1 d2 d3 : Fin 4) (k1 k2 k3 : ℕ) (x12 y12 x13 y13 x23 y23 : ℝ), d1 < d2 ∧ d2 < d3 ∧ t.p d1 = k1 ∧ t.p d2 = k2 ∧ t.p d3 = k3 ∧
      (∀ c, c ≠ d1 → c ≠ d2 → c ≠ d3 → t.p c = -2) ∧
      FitsWith p (cams d1) (cams d2) k1 k2 x12 y12 ∧ FitsWith p (cams d1) (cams d3) k1 k3 x13 y13 ∧
      (k3 ≠ 0 → FitsWith p (cams d2) (cams d3) k2 k3 x23 y23) ∧
      t.corr = Fl.npDiv (y12 + y13 + y23) (x12 + x13 + x23) := by
  have hA := adjacency_wf hd heps hcs
  rw [mem_threePure] at ht
  obtain ⟨c1, c2, c3, i, s12, s13, s23, h12, h23, hi, -, l12, -, l13, -, hf, -, rfl⟩ := ht
  have hp1 := (hA c1 c2 h12 i hi).1
  obtain ⟨e1, e2, e3, e4, e5⟩ := mkTuple3 h12 h23 (adjacency p cams c1 c2 i).p1 (s12.p2 : Int) (s13.p2 : Int)
    (Fl.npDiv (s12.corr + s13.corr + s23.corr) (s12.dist + s13.dist + s23.dist))
  rw [hp1] at e1 e2 e3 e4 e5
  rw [hp1]
  have b12 : s12.p2 < numTargets cams c2 := (hA c1 c2 h12 i hi).2.2.2.1 _ l12
  refine ⟨c1, c2, c3, i, s12.p2, s13.p2, s12.dist, s12.corr, s13.dist, s13.corr, s23.dist, s23.corr, h12, h23, e1, e2, e3, e4,
    link_with hd heps hcs h12 hi l12, link_with hd heps hcs (h12.trans h23) hi l13, ?_, e5⟩
  intro h0
  obtain ⟨l23, e23⟩ := findSlot_valid hA h23 b12 h0 hf
  have := link_with hd heps hcs h23 b12 l23
  rwa [e23] at this

/-- C144: let three targets of different cameras fit one another (however inexact they are, and in any media), with a score, the sum of the
three correlations over the sum of the three distances, above `corrmin`. If there is room for all triplets and the call (without
`all_cam_flag`) returns, they are reported as a triplet, or one of them is part of a reported quadruplet, or of another reported triplet with a score at least
as high (unless that one ends in a target with number 0, whose last pair may be a stale entry). -/
theorem C144_triplet_or_outranked (srt : NpSort ℝ) (p : Pars) (cams : Fin 4 → CamData) (hd : ∀ c, DataFine (cams c))
    (heps : 0 < p.crit.eps0) (hcs : 0 ≤ p.crit.csumg) (cm : ℝ) (hcm : p.corrmin = .fin cm)
    (hflag : p.allCam = false) (hmany : ¬ ManyTriplets p cams) (c1 c2 c3 : Fin 4) (h12 : c1 < c2) (h23 : c2 < c3)
    (k : Fin 4 → ℕ) (d w : Fin 4 → Fin 4 → ℝ) (hg : Group4 {c1, c2, c3} p cams k d w)
    (hsc : cm * (d c1 c2 + d c1 c3 + d c2 c3) < w c1 c2 + w c1 c3 + w c2 c3)
    (r : Result ℝ) (hr : run srt p cams = .ok r) :
    (∃ t ∈ r.triplets, t.p c1 = k c1 ∧ t.p c2 = k c2 ∧ t.p c3 = k c3 ∧ ∀ c, c ≠ c1 → c ≠ c2 → c ≠ c3 → t.p c = -2) ∨
    (∃ t ∈ r.quads, ∃ c ∈ ({c1, c2, c3} : Set (Fin 4)), t.p c = k c) ∨
    ∃ t ∈ r.triplets, (∃ c ∈ ({c1, c2, c3} : Set (Fin 4)), t.p c = k c) ∧
      ∃ (d1 d2 d3 : Fin 4) (k1 k2 k3 : ℕ) (x12 y12 x13 y13 x23 y23 : ℝ), d1 < d2 ∧ d2 < d3 ∧ t.p d1 = k1 ∧ t.p d2 = k2 ∧ t.p d3 = k3 ∧
        (∀ c, c ≠ d1 → c ≠ d2 → c ≠ d3 → t.p c = -2) ∧
        FitsWith p (cams d1) (cams d2) k1 k2 x12 y12 ∧ FitsWith p (cams d1) (cams d3) k1 k3 x13 y13 ∧
        (k3 ≠ 0 → FitsWith p (cams d2) (cams d3) k2 k3 x23 y23 ∧
          (w c1 c2 + w c1 c3 + w c2 c3) * (x12 + x13 + x23) ≤ (y12 + y13 + y23) * (d c1 c2 + d c1 c3 + d c2 c3)) := by
  have hA := adjacency_wf hd heps hcs
  have m1 : c1 ∈ ({c1, c2, c3} : Set (Fin 4)) := by simp
  have m2 : c2 ∈ ({c1, c2, c3} : Set (Fin 4)) := by simp
  have m3 : c3 ∈ ({c1, c2, c3} : Set (Fin 4)) := by simp
  have g12 := hg.fit c1 m1 c2 m2 h12
  have g13 := hg.fit c1 m1 c3 m3 (h12.trans h23)
  have g23 := hg.fit c2 m2 c3 m3 h23
  have l12 := with_link hd heps hcs h12 g12 (hg.meets c1 m1 c2 m2 h12) (hg.sparse c1 m1 c2 m2 h12)
  have l13 := with_link hd heps hcs (h12.trans h23) g13 (hg.meets c1 m1 c3 m3 (h12.trans h23)) (hg.sparse c1 m1 c3 m3 (h12.trans h23))
  have l23 := with_link hd heps hcs h23 g23 (hg.meets c2 m2 c3 m3 h23) (hg.sparse c2 m2 c3 m3 h23)
  obtain ⟨p12, q12⟩ := g12.pos (hd _) (hd _) hcs
  obtain ⟨p13, q13⟩ := g13.pos (hd _) (hd _) hcs
  obtain ⟨p23, q23⟩ := g23.pos (hd _) (hd _) hcs
  have hD : 0 ≤ d c1 c2 + d c1 c3 + d c2 c3 := by positivity
  have hW : 0 < w c1 c2 + w c1 c3 + w c2 c3 := by positivity
  obtain ⟨q, tt, pp, u1, u2, hst, -, hu1, -, hl1, -, -, hts, -, -, -, hbest, -⟩ :=
    stages_spec (srt := srt) (corrmin := p.corrmin) (allCam := p.allCam) hA (numTargets_le hd) (by decide)
  rw [run_stages hr] at hst
  obtain ⟨rfl, rfl, rfl⟩ : r.quads = q ∧ r.triplets = tt ∧ r.pairs = pp := by
    have := Except.ok.inj hst
    simpa using this
  by_cases hq : ∃ t ∈ r.quads, ∃ c ∈ ({c1, c2, c3} : Set (Fin 4)), t.p c = k c
  · exact Or.inr (Or.inl hq)
  have hmark : ∀ c ∈ ({c1, c2, c3} : Set (Fin 4)), mark u1 c (k c) = 0 := by
    intro c hc
    rw [hu1]
    exact useCount_zero fun t ht he => hq ⟨t, ht, c, hc, he⟩
  obtain ⟨f1, f2, f3, f4, f5⟩ := mkTuple3 h12 h23 (k c1 : Int) (k c2 : Int) (k c3 : Int)
    (Fl.npDiv (w c1 c2 + w c1 c3 + w c2 c3) (d c1 c2 + d c1 c3 + d c2 c3))
  set t : NTuple ℝ := mkTuple [(c1, (k c1 : Int)), (c2, (k c2 : Int)), (c3, (k c3 : Int))]
    (Fl.npDiv (w c1 c2 + w c1 c3 + w c2 c3) (d c1 c2 + d c1 c3 + d c2 c3)) with htdef
  have htrip : IsTriplet (adjacency p cams) (numTargets cams) p.corrmin u1 t := by
    refine ⟨c1, c2, c3, k c1, k c2, k c3, _, _, _, h12, h23, g12.lt.1, f1, f2, f3, f4, hmark c1 m1, hmark c2 m2, hmark c3 m3,
      ⟨l12, rfl⟩, ⟨l13, rfl⟩, ⟨l23, rfl⟩, ?_, ?_⟩
    · rw [f5]
    · rw [hcm, f5]
      exact npDiv_above hW hD hsc
  have hnd : ∀ c1 c2 i, (((adjacency p cams) c1 c2 i).valid.map Slot.p2).Nodup := by
    intro a b i
    unfold adjacency matchPairs
    split_ifs with hab
    · rw [mkRow_valid]
      have := found_nodup (p := p) (hd a) (hd b) heps i
      rw [← List.take_append_drop Corr.MAXCAND (found (findPair p (cams a) (cams b) i)), List.map_append] at this
      exact (List.nodup_append.1 this).1
    · simp [Row.valid]
  have hroom := three_room hd heps hcs hmany u1
  have hthree : threeCameraMatching NMAX (adjacency p cams) (numTargets cams) p.corrmin
      ((threePure (adjacency p cams) (numTargets cams) p.corrmin u1).length + 1) u1 =
      .ok (threePure (adjacency p cams) (numTargets cams) p.corrmin u1) := by
    unfold threeCameraMatching
    rw [threeAll_ok hA (numTargets_le hd) hl1]
    simp only [bind, Except.bind]
    rw [List.take_of_length_le (Nat.le_succ _)]
  have hmem := C05_triplets_complete _ _ _ _ _ _ hA (numTargets_le hd) hl1 hnd _ hthree (Nat.lt_succ_self _) t htrip
  obtain ⟨hb, -⟩ := hbest hflag
  rw [hroom] at hb
  have hkey : ∀ c (j : ℕ), t.p c = j → c ∈ ({c1, c2, c3} : Set (Fin 4)) ∧ j = k c := by
    intro c j hu
    have hc : c ∈ ({c1, c2, c3} : Set (Fin 4)) := by
      by_contra hc
      simp only [Set.mem_insert_iff, Set.mem_singleton_iff, not_or] at hc
      rw [f4 c hc.1 hc.2.1 hc.2.2] at hu
      omega
    refine ⟨hc, ?_⟩
    simp only [Set.mem_insert_iff, Set.mem_singleton_iff] at hc
    rcases hc with rfl | rfl | rfl
    · rw [f1] at hu; omega
    · rw [f2] at hu; omega
    · rw [f3] at hu; omega
  rcases hb t hmem with h | ⟨c, j, ⟨-, hu⟩, hpos⟩ | ⟨y, hy, ⟨c, j, ⟨-, hy1⟩, ⟨-, ht1⟩⟩, hle⟩
  · exact Or.inl ⟨t, h, f1, f2, f3, f4⟩
  · exfalso
    obtain ⟨hc, hj⟩ := hkey c j hu
    rw [hj, hmark c hc] at hpos
    omega
  · right; right
    obtain ⟨hc, hj⟩ := hkey c j ht1
    refine ⟨y, hy, ⟨c, hc, by rw [hy1, hj]⟩, ?_⟩
    obtain ⟨d1, d2, d3, k1, k2, k3, x12, y12, x13, y13, x23, y23, a1, a2, a3, a4, a5, a6, w12, w13, w23, hcorr⟩ :=
      triplet_with hd heps hcs (List.mem_of_mem_take (hts y hy))
    refine ⟨d1, d2, d3, k1, k2, k3, x12, y12, x13, y13, x23, y23, a1, a2, a3, a4, a5, a6, w12, w13, fun h0 => ⟨w23 h0, ?_⟩⟩
    rw [f5, hcorr] at hle
    obtain ⟨b1, b2⟩ := w12.pos (hd _) (hd _) hcs
    obtain ⟨b3, b4⟩ := w13.pos (hd _) (hd _) hcs
    obtain ⟨b5, b6⟩ := (w23 h0).pos (hd _) (hd _) hcs
    exact npDiv_le hW hD (by positivity) (by positivity) hle

/-- C144 (part that holds): three targets of different cameras that fit one another and nothing else, with a score above `corrmin`, are reported as a
triplet if none of them has number 0 in the order by x. Missing: targets with number 0, see `C115_refuted`. -/
theorem C144_triplet_partial (srt : NpSort ℝ) (p : Pars) (cams : Fin 4 → CamData) (hd : ∀ c, DataFine (cams c))
    (heps : 0 < p.crit.eps0) (hcs : 0 ≤ p.crit.csumg) (cm : ℝ) (hcm : p.corrmin = .fin cm)
    (hflag : p.allCam = false) (hmany : ¬ ManyTriplets p cams) (c1 c2 c3 : Fin 4) (h12 : c1 < c2) (h23 : c2 < c3)
    (k : Fin 4 → ℕ) (d w : Fin 4 → Fin 4 → ℝ)
    (hfit : ∀ a ∈ ({c1, c2, c3} : Set (Fin 4)), ∀ b ∈ ({c1, c2, c3} : Set (Fin 4)), a < b →
      FitsWith p (cams a) (cams b) (k a) (k b) (d a b) (w a b) ∧ MeetsSensor p (cams a) (cams b) (k a))
    (hf : FitOnly {c1, c2, c3} p cams k) (h0 : ∀ c ∈ ({c1, c2, c3} : Set (Fin 4)), k c ≠ 0)
    (hsc : cm * (d c1 c2 + d c1 c3 + d c2 c3) < w c1 c2 + w c1 c3 + w c2 c3)
    (r : Result ℝ) (hr : run srt p cams = .ok r) :
    ∃ t ∈ r.triplets, t.p c1 = k c1 ∧ t.p c2 = k c2 ∧ t.p c3 = k c3 ∧ ∀ c, c ≠ c1 → c ≠ c2 → c ≠ c3 → t.p c = -2 := by
  obtain ⟨e, hdS⟩ : ∃ e : Fin 4, e ∉ ({c1, c2, c3} : Set (Fin 4)) := by
    simp only [Set.mem_insert_iff, Set.mem_singleton_iff]
    clear * -
    revert c1 c2 c3
    decide
  rcases C144_triplet_or_outranked srt p cams hd heps hcs cm hcm hflag hmany c1 c2 c3 h12 h23 k d w
    ⟨fun a ha b hb h => (hfit a ha b hb h).1, fun a ha b hb h => (hfit a ha b hb h).2, fun a ha b _ h => hf.sparse ha h⟩ hsc r hr with
    h | ⟨t, ht, c, hc, he⟩ | ⟨t, ht, ⟨c, hc, he⟩, -⟩
  · exact h
  · exact absurd he (quad_avoids hd heps hcs hr hf h0 hdS ht hc)
  · obtain ⟨d1, d2, d3, g12, g23, m1, m2, m3, t1, t2, t3, t4⟩ := triplet_inside hd heps hcs hr hf ht hc he
    obtain ⟨rfl, rfl, rfl⟩ : d1 = c1 ∧ d2 = c2 ∧ d3 = c3 := by
      simp only [Set.mem_insert_iff, Set.mem_singleton_iff] at m1 m2 m3
      clear * - h12 h23 g12 g23 m1 m2 m3
      revert c1 c2 c3 d1 d2 d3
      decide
    exact ⟨t, ht, t1, t2, t3, t4⟩

/-- A pair of the search, in terms of fits. -/
theorem pair_with {p : Pars} {cams : Fin 4 → CamData} (hd : ∀ c, DataFine (cams c)) (heps : 0 < p.crit.eps0)
    (hcs : 0 ≤ p.crit.csumg) {u : Usage} {t : NTuple ℝ}
    (ht : t ∈ pairsPure (adjacency p cams) (numTargets cams) p.corrmin u) :
    ∃ (d1 d2 : Fin 4) (k1 k2 : ℕ) (x y : ℝ), d1 < d2 ∧ t.p d1 = k1 ∧ t.p d2 = k2 ∧ (∀ c, c ≠ d1 → c ≠ d2 → t.p c = -2) ∧
      FitsWith p (cams d1) (cams d2) k1 k2 x y ∧ t.corr = Fl.npDiv y x := by
  have hA := adjacency_wf hd heps hcs
  rw [mem_pairsPure] at ht
  obtain ⟨c1, c2, i, s, h12, hi, -, hv, -, -, rfl⟩ := ht
  obtain ⟨e1, e2, e4, e5⟩ := mkTuple2 h12 (adjacency p cams c1 c2 i).p1 (s.p2 : Int) (Fl.npDiv s.corr s.dist)
  have hp1 := (hA c1 c2 h12 i hi).1
  rw [hp1] at e1 e2 e4 e5
  rw [hp1]
  exact ⟨c1, c2, i, s.p2, s.dist, s.corr, h12, e1, e2, e4, link_with hd heps hcs h12 hi (by unfold Link; rw [hv]; simp), e5⟩

/-- C144: let two targets of different cameras fit (however inexact they are, and in any media), with a score above `corrmin`, and let no other target of the second camera fit the first. If
there is room for all pairs and the call (without `all_cam_flag`) returns, they are reported as a pair, or one of them is part of a
reported quadruplet or triplet, or of another reported pair with a score at least as high. -/
theorem C144_pair_or_outranked (srt : NpSort ℝ) (p : Pars) (cams : Fin 4 → CamData) (hd : ∀ c, DataFine (cams c))
    (heps : 0 < p.crit.eps0) (hcs : 0 ≤ p.crit.csumg) (cm : ℝ) (hcm : p.corrmin = .fin cm) (hflag : p.allCam = false)
    (hN : 3 * (cams 0).crd.length + 2 * (cams 1).crd.length + (cams 2).crd.length ≤ 40000) (c1 c2 : Fin 4) (h12 : c1 < c2)
    (k1 k2 : ℕ) (d w : ℝ) (hfit : FitsWith p (cams c1) (cams c2) k1 k2 d w) (hmeet : MeetsSensor p (cams c1) (cams c2) k1)
    (hone : ∀ m, Fits p (cams c1) (cams c2) k1 m → m = k2) (hsc : cm * d < w)
    (r : Result ℝ) (hr : run srt p cams = .ok r) :
    (∃ t ∈ r.pairs, t.p c1 = k1 ∧ t.p c2 = k2 ∧ ∀ c, c ≠ c1 → c ≠ c2 → t.p c = -2) ∨
    (∃ t ∈ r.quads ++ r.triplets, t.p c1 = k1 ∨ t.p c2 = k2) ∨
    ∃ t ∈ r.pairs, (t.p c1 = k1 ∨ t.p c2 = k2) ∧ ∃ (d1 d2 : Fin 4) (j1 j2 : ℕ) (x y : ℝ), d1 < d2 ∧ t.p d1 = j1 ∧ t.p d2 = j2 ∧
      (∀ c, c ≠ d1 → c ≠ d2 → t.p c = -2) ∧ FitsWith p (cams d1) (cams d2) j1 j2 x y ∧ w * x ≤ y * d := by
  have hA := adjacency_wf hd heps hcs
  have hsp : NotCrowded p (cams c1) (cams c2) k1 := by
    intro e q s he hq hs l hl ha
    have hsub : l ⊆ [k2] := by
      intro j hj
      have := hone j ⟨e, q, s, he, hq, hs, ha j hj⟩
      simp [this]
    have := (hl.subperm hsub).length_le
    simp at this
    omega
  have l12 := with_link hd heps hcs h12 hfit hmeet hsp
  obtain ⟨p12, q12⟩ := hfit.pos (hd _) (hd _) hcs
  have hk : k1 < numTargets cams c1 := hfit.lt.1
  obtain ⟨q, tt, pp, u1, u2, hst, -, -, hu2, -, hl2, -, -, hps, -, -, hbest, -⟩ :=
    stages_spec (srt := srt) (corrmin := p.corrmin) (allCam := p.allCam) hA (numTargets_le hd) (by decide)
  rw [run_stages hr] at hst
  obtain ⟨rfl, rfl, rfl⟩ : r.quads = q ∧ r.triplets = tt ∧ r.pairs = pp := by
    have := Except.ok.inj hst
    simpa using this
  by_cases hq : ∃ t ∈ r.quads ++ r.triplets, t.p c1 = k1 ∨ t.p c2 = k2
  · exact Or.inr (Or.inl hq)
  have hmark1 : mark u2 c1 k1 = 0 := by
    rw [hu2]
    exact useCount_zero fun t ht he => hq ⟨t, ht, Or.inl he⟩
  have hmark2 : mark u2 c2 k2 = 0 := by
    rw [hu2]
    exact useCount_zero fun t ht he => hq ⟨t, ht, Or.inr he⟩
  have hrow : (adjacency p cams c1 c2 k1).valid = [⟨k2, w, d⟩] := by
    have hnd := (row_length hd heps hcs h12 hk).2
    have hall : ∀ x ∈ (adjacency p cams c1 c2 k1).valid.map Slot.p2, x = k2 := by
      intro x hx
      obtain ⟨sl, hsl, rfl⟩ := List.mem_map.1 hx
      exact hone _ (link_fits hd heps hcs h12 hk hsl)
    unfold Link at l12
    generalize (adjacency p cams c1 c2 k1).valid = L at l12 hnd hall
    match L with
    | [] => simp at l12
    | [a] => simpa [eq_comm] using l12
    | a :: b :: L =>
      have ha := hall a.p2 (by simp)
      have hb := hall b.p2 (by simp)
      simp [ha, hb] at hnd
  obtain ⟨f1, f2, f4, f5⟩ := mkTuple2 h12 (k1 : Int) (k2 : Int) (Fl.npDiv w d)
  set t : NTuple ℝ := mkTuple [(c1, (k1 : Int)), (c2, (k2 : Int))] (Fl.npDiv w d) with htdef
  have hmem : t ∈ pairsPure (adjacency p cams) (numTargets cams) p.corrmin u2 := by
    rw [mem_pairsPure]
    have hp1 := (hA c1 c2 h12 _ hk).1
    refine ⟨c1, c2, k1, ⟨k2, w, d⟩, h12, hk, ?_, hrow, hmark2, ?_, ?_⟩
    · rw [hp1]; simpa using hmark1
    · rw [hcm]
      exact npDiv_above q12 p12 hsc
    · rw [hp1]
  obtain ⟨-, hb⟩ := hbest hflag
  rw [pairs_room hN] at hb
  rcases hb t hmem with h | ⟨c, j, ⟨-, hu⟩, hpos⟩ | ⟨y, hy, ⟨c, j, ⟨-, hy1⟩, ⟨-, ht1⟩⟩, hle⟩
  · exact Or.inl ⟨t, h, f1, f2, f4⟩
  · exfalso
    by_cases a1 : c = c1
    · subst a1
      rw [f1] at hu
      have : j = k1 := by omega
      rw [this, hmark1] at hpos
      omega
    by_cases a2 : c = c2
    · subst a2
      rw [f2] at hu
      have : j = k2 := by omega
      rw [this, hmark2] at hpos
      omega
    rw [f4 c a1 a2] at hu
    omega
  · right; right
    obtain ⟨d1, d2, j1, j2, x, yy, b1, b2, b3, b4, b5, hcorr⟩ := pair_with hd heps hcs (List.mem_of_mem_take (hps y hy))
    refine ⟨y, hy, ?_, d1, d2, j1, j2, x, yy, b1, b2, b3, b4, b5, ?_⟩
    · by_cases a1 : c = c1
      · subst a1
        rw [f1] at ht1
        exact Or.inl (by rw [hy1, ← ht1])
      by_cases a2 : c = c2
      · subst a2
        rw [f2] at ht1
        exact Or.inr (by rw [hy1, ← ht1])
      rw [f4 c a1 a2] at ht1
      omega
    · rw [f5, hcorr] at hle
      obtain ⟨e1, e2⟩ := b5.pos (hd _) (hd _) hcs
      exact npDiv_le q12 p12 e2 e1 hle

/-- C144 (part that holds): two targets of different cameras that fit one another and nothing else, with a score above `corrmin`, are reported as a
pair if neither has number 0 in the order by x. Missing: targets with number 0, see `C116_refuted`. -/
theorem C144_pair_partial (srt : NpSort ℝ) (p : Pars) (cams : Fin 4 → CamData) (hd : ∀ c, DataFine (cams c))
    (heps : 0 < p.crit.eps0) (hcs : 0 ≤ p.crit.csumg) (cm : ℝ) (hcm : p.corrmin = .fin cm) (hflag : p.allCam = false)
    (hN : 3 * (cams 0).crd.length + 2 * (cams 1).crd.length + (cams 2).crd.length ≤ 40000) (c1 c2 : Fin 4) (h12 : c1 < c2)
    (k : Fin 4 → ℕ) (d w : ℝ) (hfit : FitsWith p (cams c1) (cams c2) (k c1) (k c2) d w)
    (hmeet : MeetsSensor p (cams c1) (cams c2) (k c1)) (hf : FitOnly {c1, c2} p cams k) (h0 : k c1 ≠ 0 ∧ k c2 ≠ 0)
    (hsc : cm * d < w) (r : Result ℝ) (hr : run srt p cams = .ok r) :
    ∃ t ∈ r.pairs, t.p c1 = k c1 ∧ t.p c2 = k c2 ∧ ∀ c, c ≠ c1 → c ≠ c2 → t.p c = -2 := by
  have m1 : c1 ∈ ({c1, c2} : Set (Fin 4)) := by simp
  have m2 : c2 ∈ ({c1, c2} : Set (Fin 4)) := by simp
  have h0' : ∀ c ∈ ({c1, c2} : Set (Fin 4)), k c ≠ 0 := by
    intro c hc
    simp only [Set.mem_insert_iff, Set.mem_singleton_iff] at hc
    rcases hc with rfl | rfl
    · exact h0.1
    · exact h0.2
  obtain ⟨e, hdS⟩ : ∃ e : Fin 4, e ∉ ({c1, c2} : Set (Fin 4)) := by
    simp only [Set.mem_insert_iff, Set.mem_singleton_iff]
    clear * -
    revert c1 c2
    decide
  have hno : ∀ t ∈ r.triplets, ∀ c ∈ ({c1, c2} : Set (Fin 4)), t.p c ≠ k c := by
    intro t ht c hc he
    obtain ⟨d1, d2, d3, g12, g23, n1, n2, n3, -⟩ := triplet_inside hd heps hcs hr hf ht hc he
    simp only [Set.mem_insert_iff, Set.mem_singleton_iff] at n1 n2 n3
    clear * - h12 g12 g23 n1 n2 n3
    revert c1 c2 d1 d2 d3
    decide
  rcases C144_pair_or_outranked srt p cams hd heps hcs cm hcm hflag hN c1 c2 h12 _ _ d w hfit hmeet
    (fun m hm => ((hf c1 m1 c2 m).1 h12 hm).2) hsc r hr with h | ⟨t, ht, he⟩ | ⟨t, ht, he, d1, d2, k1, k2, x, y, g12, t1, t2, t4, hfit', -⟩
  · exact h
  · exfalso
    rcases List.mem_append.1 ht with ht | ht
    · rcases he with he | he
      · exact quad_avoids hd heps hcs hr hf h0' hdS ht m1 he
      · exact quad_avoids hd heps hcs hr hf h0' hdS ht m2 he
    · rcases he with he | he
      · exact hno t ht c1 m1 he
      · exact hno t ht c2 m2 he
  · have hfit' := hfit'.fits
    have key : ∀ c ∈ ({c1, c2} : Set (Fin 4)), t.p c = k c → d1 ∈ ({c1, c2} : Set (Fin 4)) ∧ k1 = k d1 := by
      intro c hc he
      by_cases a1 : c = d1
      · subst a1
        rw [he] at t1
        exact ⟨hc, by omega⟩
      by_cases a2 : c = d2
      · subst a2
        rw [he] at t2
        have : k2 = k c := by omega
        rw [this] at hfit'
        exact (hf c hc d1 k1).2 g12 hfit'
      rw [t4 c a1 a2] at he
      omega
    obtain ⟨n1, rfl⟩ : d1 ∈ ({c1, c2} : Set (Fin 4)) ∧ k1 = k d1 := by
      rcases he with he | he
      · exact key c1 m1 he
      · exact key c2 m2 he
    obtain ⟨n2, rfl⟩ := (hf d1 n1 d2 k2).1 g12 hfit'
    obtain ⟨rfl, rfl⟩ : d1 = c1 ∧ d2 = c2 := by
      simp only [Set.mem_insert_iff, Set.mem_singleton_iff] at n1 n2
      clear * - h12 g12 n1 n2
      revert c1 c2 d1 d2
      decide
    exact ⟨t, ht, t1, t2, t4⟩

/-! ### Examples: the four cameras in a row, with coordinates that are a little off -/

/-- Two targets of the row with nearly the same y fit. -/
theorem row_with {c1 c2 : Fin 4} (h : c1 < c2) {l1 l2 : List Search.Coord} {i j : ℕ} {q u : Search.Coord} (hq : l1[i]? = some q)
    (hu : l2[j]? = some u) (hqp : q.pnr < l1.length) (hup : u.pnr < l2.length) (hy : |u.y - q.y| < 1 / 10)
    (hx1 : q.x + 500 * ((c1.val : ℝ) - c2.val) / 80 ≤ u.x) (hx2 : u.x ≤ q.x + 500 * ((c1.val : ℝ) - c2.val) / 120) :
    FitsWith exPars (rowWith c1 l1) (rowWith c2 l2) i j |u.y - q.y| 1600 := by
  have h12 : (c1.val : ℝ) < c2.val := by exact_mod_cast h
  have hlt : q.x + 500 * ((c1.val : ℝ) - c2.val) / 80 < q.x + 500 * ((c1.val : ℝ) - c2.val) / 120 := by linarith
  have hs : (rowWith c1 l1).pix[q.pnr]? = some ⟨4, 2, 2, 100⟩ := by
    simp only [rowWith, List.getElem?_map, List.getElem?_eq_getElem hqp, Option.map_some]
  have ht : (rowWith c2 l2).pix[u.pnr]? = some ⟨4, 2, 2, 100⟩ := by
    simp only [rowWith, List.getElem?_map, List.getElem?_eq_getElem hup, Option.map_some]
  set xa := q.x + 500 * ((c1.val : ℝ) - c2.val) / 120 with hxa
  set xb := q.x + 500 * ((c1.val : ℝ) - c2.val) / 80 with hxb
  have htilt : tilt xa xb = xb := if_neg hlt.ne'
  have hτ : ∃ τ, distToLinePt xa q.y xb q.y u.x u.y τ = |u.y - q.y| ^ 2 := by
    refine ⟨(u.x - xa) / (xb - xa), ?_⟩
    have : xb - xa ≠ 0 := by linarith
    rw [distToLinePt, sq_abs, div_mul_cancel₀ _ this]
    ring
  have hy' := abs_lt.1 hy
  refine ⟨((xa, q.y), (xb, q.y)), q, ⟨4, 2, 2, 100⟩, u, ⟨4, 2, 2, 100⟩, ⟨q, hq, row_epi c1 c2 q.x q.y⟩, hq, hs, hu, ht,
    ⟨u, ⟨4, 2, 2, 100⟩, hu, ht, ?_, ?_, ?_, ?_⟩, abs_nonneg _, ?_, ?_, ?_⟩
  · simp only
    rw [htilt, min_eq_right hlt.le, max_eq_left hlt.le]
    norm_num [exPars]
    constructor <;> linarith
  · norm_num [exPars]
    constructor <;> linarith [hy'.1, hy'.2]
  · obtain ⟨τ, hτ⟩ := hτ
    refine ⟨τ, ?_⟩
    simp only
    rw [htilt, hτ]
    norm_num [exPars]
    have := abs_nonneg (u.y - q.y)
    nlinarith [sq_abs (u.y - q.y)]
  · norm_num [ratio, exPars]
  · intro τ
    simp only
    rw [htilt, distToLinePt, sq_abs]
    nlinarith [sq_nonneg (u.x - (xa + τ * (xb - xa)))]
  · simp only
    rw [htilt]
    exact hτ
  · norm_num [ratio]

/-- Every camera has the image of the particle, moved upwards by `c` hundredths, and another target elsewhere. -/
noncomputable def exNoisy (S : Set (Fin 4)) [DecidablePred (· ∈ S)] (c : Fin 4) : List Search.Coord :=
  if c ∈ S then [⟨0, -49, -40⟩, ⟨1, 50 * (1 - 10 * (c.val : ℝ)) / 105, 100 / 105 + (c.val : ℝ) / 100⟩] else [⟨0, -49, 30⟩]

theorem exNoisy_fine (S : Set (Fin 4)) [DecidablePred (· ∈ S)] (c : Fin 4) : DataFine (rowWith c (exNoisy S c)) := by
  have hc : (c.val : ℝ) ≤ 3 := by exact_mod_cast Nat.le_of_lt_succ c.isLt
  by_cases h : c ∈ S
  · rw [exNoisy, if_pos h]
    constructor <;> simp [rowWith]
    linarith
  · rw [exNoisy, if_neg h]
    constructor <;> simp [rowWith]

theorem exNoisy_y (S : Set (Fin 4)) [DecidablePred (· ∈ S)] {c : Fin 4} {j : ℕ} {q : Search.Coord} (h : (exNoisy S c)[j]? = some q)
    (hy : |q.y - 100 / 105| < 1) : c ∈ S ∧ j = 1 := by
  rw [abs_lt] at hy
  by_cases hc : c ∈ S
  · refine ⟨hc, ?_⟩
    rw [exNoisy, if_pos hc] at h
    match j with
    | 0 =>
      cases h
      norm_num at hy
    | 1 => rfl
    | j + 2 => simp at h
  · exfalso
    rw [exNoisy, if_neg hc] at h
    match j with
    | 0 =>
      cases h
      norm_num at hy
    | j + 1 => simp at h

theorem exNoisy_at (S : Set (Fin 4)) [DecidablePred (· ∈ S)] {c : Fin 4} (hc : c ∈ S) :
    (exNoisy S c)[1]? = some ⟨1, 50 * (1 - 10 * (c.val : ℝ)) / 105, 100 / 105 + (c.val : ℝ) / 100⟩ := by
  rw [exNoisy, if_pos hc]
  rfl

theorem exNoisy_fit (S : Set (Fin 4)) [DecidablePred (· ∈ S)] : FitOnly S exPars (fun c => rowWith c (exNoisy S c)) fun _ => 1 := by
  intro c hc d m
  have h3 : (c.val : ℝ) ≤ 3 := by exact_mod_cast Nat.le_of_lt_succ c.isLt
  have h0 : (0 : ℝ) ≤ c.val := Nat.cast_nonneg _
  constructor
  · intro _ hf
    obtain ⟨q, q', h1, h2, hy⟩ := row_fits hf
    rw [exNoisy_at S hc] at h1
    cases h1
    refine exNoisy_y S h2 ?_
    rw [abs_lt] at hy ⊢
    simp only at hy
    constructor <;> linarith [hy.1, hy.2]
  · intro _ hf
    obtain ⟨q, q', h1, h2, hy⟩ := row_fits hf
    rw [exNoisy_at S hc] at h2
    cases h2
    refine exNoisy_y S h1 ?_
    rw [abs_lt] at hy ⊢
    simp only at hy
    constructor <;> linarith [hy.1, hy.2]

theorem exNoisy_with (S : Set (Fin 4)) [DecidablePred (· ∈ S)] {c1 c2 : Fin 4} (h1 : c1 ∈ S) (h2 : c2 ∈ S) (h : c1 < c2) :
    FitsWith exPars (rowWith c1 (exNoisy S c1)) (rowWith c2 (exNoisy S c2)) 1 1 (((c2.val : ℝ) - c1.val) / 100) 1600 := by
  have h12 : (c1.val : ℝ) < c2.val := by exact_mod_cast h
  have b2 : (c2.val : ℝ) ≤ 3 := by exact_mod_cast Nat.le_of_lt_succ c2.isLt
  have b1 : (0 : ℝ) ≤ c1.val := Nat.cast_nonneg _
  have e : |100 / 105 + (c2.val : ℝ) / 100 - (100 / 105 + (c1.val : ℝ) / 100)| = ((c2.val : ℝ) - c1.val) / 100 := by
    rw [abs_of_nonneg] <;> linarith
  have := row_with h (exNoisy_at S h1) (exNoisy_at S h2) (by simp [exNoisy, h1]) (by simp [exNoisy, h2])
    (by simp only; rw [e]; linarith) (by simp only; linarith) (by simp only; linarith)
  simp only at this
  rwa [e] at this

theorem exNoisy_meets (S : Set (Fin 4)) [DecidablePred (· ∈ S)] {c1 c2 : Fin 4} (h1 : c1 ∈ S) (h : c1 < c2) :
    MeetsSensor exPars (rowWith c1 (exNoisy S c1)) (rowWith c2 (exNoisy S c2)) 1 := by
  intro e he
  have h12 : (c1.val : ℝ) < c2.val := by exact_mod_cast h
  have b2 : (c2.val : ℝ) ≤ 3 := by exact_mod_cast Nat.le_of_lt_succ c2.isLt
  have b1 : (0 : ℝ) ≤ c1.val := Nat.cast_nonneg _
  obtain ⟨q, hq, rfl⟩ := row_epi' he
  rw [exNoisy_at S h1] at hq
  cases hq
  have hap : (rowWith c2 (exNoisy S c2)).cal.ap = defaultAddPar := rfl
  have hxh : (rowWith c2 (exNoisy S c2)).cal.xh = 0 := rfl
  have hyh : (rowWith c2 (exNoisy S c2)).cal.yh = 0 := rfl
  unfold SegmentOff
  simp only [sensorOf, hap, (C24_default_identity _ _ _).2, hxh, hyh]
  rw [tilt, if_neg (by intro hcon; linarith)]
  norm_num [exPars]
  refine ⟨fun hcon => ?_, fun hcon => ?_, ?_, ?_⟩ <;> linarith

/-- A particle whose four detections are up to three hundredths off each other's epipolar lines is reported. -/
example (srt : NpSort ℝ) [DecidablePred (· ∈ (Set.univ : Set (Fin 4)))] :
    ∃ r, run srt exPars (fun c => rowWith c (exNoisy Set.univ c)) = .ok r ∧ ∃ t ∈ r.quads, ∀ c, t.p c = 1 := by
  have heps : 0 < exPars.crit.eps0 := by norm_num [exPars]
  have hcs : 0 ≤ exPars.crit.csumg := by norm_num [exPars]
  obtain ⟨r, hr⟩ := C109_returns srt exPars _ (exNoisy_fine Set.univ) heps hcs fun c1 c2 _ i hi => row_epi_all c1 c2 i hi
  refine ⟨r, hr, ?_⟩
  have hlen : ∀ c, (rowWith c (exNoisy Set.univ c)).crd.length = 2 := fun c => by simp [rowWith, exNoisy]
  have := C143_reported srt exPars _ (exNoisy_fine Set.univ) heps hcs 33 rfl
    (C109_no_overflow exPars _ (exNoisy_fine Set.univ) heps hcs (by simp only [hlen]; norm_num)) (fun _ => 1) _ _
    (fun c1 c2 h => exNoisy_with Set.univ (Set.mem_univ c1) (Set.mem_univ c2) h)
    (fun c1 c2 h => exNoisy_meets Set.univ (Set.mem_univ c1) h) (exNoisy_fit Set.univ) (by norm_num [six]) r hr
  simpa using this

/-- So is one that only cameras 0, 1 and 3 see. -/
example (srt : NpSort ℝ) [DecidablePred (· ∈ ({0, 1, 3} : Set (Fin 4)))] :
    ∃ r, run srt exPars (fun c => rowWith c (exNoisy {0, 1, 3} c)) = .ok r ∧
    ∃ t ∈ r.triplets, t.p 0 = 1 ∧ t.p 1 = 1 ∧ t.p 3 = 1 ∧ t.p 2 = -2 := by
  have heps : 0 < exPars.crit.eps0 := by norm_num [exPars]
  have hcs : 0 ≤ exPars.crit.csumg := by norm_num [exPars]
  obtain ⟨r, hr⟩ := C109_returns srt exPars _ (exNoisy_fine {0, 1, 3}) heps hcs fun c1 c2 _ i hi => row_epi_all c1 c2 i hi
  refine ⟨r, hr, ?_⟩
  have hroom := C115_room exPars (fun c => rowWith c (exNoisy {0, 1, 3} c)) (exNoisy_fine {0, 1, 3}) heps hcs _ (fun _ => rfl) (by
    simp only [rowWith]
    have l0 : (exNoisy {0, 1, 3} 0).length = 2 := by simp [exNoisy]
    have l1 : (exNoisy {0, 1, 3} 1).length = 2 := by simp [exNoisy]
    have l2 : (exNoisy {0, 1, 3} 2).length = 1 := by simp [exNoisy]
    have l3 : (exNoisy {0, 1, 3} 3).length = 2 := by simp [exNoisy]
    rw [l0, l1, l2, l3]
    norm_num)
  obtain ⟨t, ht, h1, h2, h3, h4⟩ := C144_triplet_partial srt exPars _ (exNoisy_fine {0, 1, 3}) heps hcs 33 rfl rfl hroom 0 1 3
    (by decide) (by decide) (fun _ => 1) (fun a b => ((b.val : ℝ) - a.val) / 100) (fun _ _ => 1600)
    (fun a ha b hb h => ⟨exNoisy_with _ ha hb h, exNoisy_meets _ ha h⟩) (exNoisy_fit _) (fun _ _ => one_ne_zero) (by norm_num) r hr
  exact ⟨t, ht, by simpa using h1, by simpa using h2, by simpa using h3, h4 2 (by decide) (by decide) (by decide)⟩

/-- And one that only cameras 1 and 2 see. -/
example (srt : NpSort ℝ) [DecidablePred (· ∈ ({1, 2} : Set (Fin 4)))] :
    ∃ r, run srt exPars (fun c => rowWith c (exNoisy {1, 2} c)) = .ok r ∧
    ∃ t ∈ r.pairs, t.p 1 = 1 ∧ t.p 2 = 1 ∧ t.p 0 = -2 ∧ t.p 3 = -2 := by
  have heps : 0 < exPars.crit.eps0 := by norm_num [exPars]
  have hcs : 0 ≤ exPars.crit.csumg := by norm_num [exPars]
  obtain ⟨r, hr⟩ := C109_returns srt exPars _ (exNoisy_fine {1, 2}) heps hcs fun c1 c2 _ i hi => row_epi_all c1 c2 i hi
  refine ⟨r, hr, ?_⟩
  obtain ⟨t, ht, h1, h2, h4⟩ := C144_pair_partial srt exPars _ (exNoisy_fine {1, 2}) heps hcs 33 rfl rfl (by
      simp only [rowWith]
      have l0 : (exNoisy {1, 2} 0).length = 1 := by simp [exNoisy]
      have l1 : (exNoisy {1, 2} 1).length = 2 := by simp [exNoisy]
      have l2 : (exNoisy {1, 2} 2).length = 2 := by simp [exNoisy]
      rw [l0, l1, l2]
      norm_num) 1 2 (by decide) (fun _ => 1) _ _ (exNoisy_with {1, 2} (by simp) (by simp) (by decide))
    (exNoisy_meets {1, 2} (by simp) (by decide)) (exNoisy_fit _) (by simp) (by norm_num) r hr
  exact ⟨t, ht, by simpa using h1, by simpa using h2, h4 0 (by decide) (by decide), h4 3 (by decide) (by decide)⟩

end Verif.FullCorr
