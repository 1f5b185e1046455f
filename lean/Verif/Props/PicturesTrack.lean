/-
C114: from the pictures of a run to the trajectory.
-/
import Verif.Spec.PicturesTrack
import Verif.Props.Pictures
import Verif.Props.LoneTrack
import Mathlib.Tactic.IntervalCases

namespace Verif.FullCorr

open Verif.Geo Verif.Geo.V3 Verif.Geo.Spec Verif.Search Verif.Search.Spec Verif.Corr Verif.Corr.Spec

variable {p : Pars} {tol : ℝ} {pics : Fin 4 → Pic} {P : V3} {X : Fin 4 → V3} {t : Fin 4 → Det}

theorem LonePictured.fine (h : LonePictured p tol pics P X t) (c : Fin 4) : PicFine (pics c) := by
  constructor
  · simp [h.only c]
  · simp [h.only c]
  · intro u hu
    rw [h.only c, List.mem_singleton] at hu
    subst hu
    exact h.sizes c

theorem LonePictured.crd_none (h : LonePictured p tol pics P X t) (c : Fin 4) {j : ℕ} (hj : j ≠ 0) :
    ((pics c).unsorted p.ip tol).crd[j]? = none := by
  rw [unsorted_get, h.only c]
  cases j with
  | zero => exact absurd rfl hj
  | succ j => rfl

theorem LonePictured.pictured (h : LonePictured p tol pics P X t) : Pictured p tol pics P X (fun _ => 0) t where
  looks := h.looks
  facing := h.facing
  target c := by rw [h.only c]; rfl
  image := h.image
  inside := h.inside
  alike := h.alike
  slanted := h.slanted
  sparse c1 c2 h12 e q s _ _ _ l hl ha := by
    have hs : l ⊆ [0] := by
      intro j hj
      obtain ⟨u, t, hu, -⟩ := ha j hj
      by_contra hne
      rw [h.crd_none c2 (by simpa using hne)] at hu
      cases hu
    have := (hl.subperm hs).length_le
    simp at this
    omega

theorem LonePictured.unambiguous (h : LonePictured p tol pics P X t) : Unambiguous p tol pics fun _ => 0 := by
  intro k' hne _
  obtain ⟨c, hc⟩ := Function.ne_iff.1 hne
  by_cases h0 : c = 0
  · refine ⟨c, 1, by rw [h0]; decide, ?_⟩
    rintro ⟨e, q, ⟨q', h1, -⟩, -⟩
    rw [h.crd_none c hc] at h1
    cases h1
  · refine ⟨0, c, Fin.pos_iff_ne_zero.2 h0, ?_⟩
    rintro ⟨e, q, -, h1, -⟩
    rw [h.crd_none c hc] at h1
    cases h1

/-- The only entry of the result. -/
theorem lone_out (srt : NpSort ℝ) (hpix : p.ip.pixX ≠ 0 ∧ p.ip.pixY ≠ 0)
    (hno : ∀ c, NoLens (pics c).cal) (heps : 0 < p.crit.eps0) (hcs : 0 ≤ p.crit.csumg) (cm : ℝ) (hcm : p.corrmin = .fin cm)
    (hair : Air p.mm) (h : LonePictured p tol pics P X t) :
    ∃ o, pyCorrespondences srt p (fun c => (pics c).data p.ip tol) = .ok o ∧ o.total = 1 ∧
      (∀ c, listed o c = [(0, ((t c).x, (t c).y))]) ∧ (∀ c, o.tnr c = [0]) ∧
      ∃ f : Fin 4 → ℝ × ℝ, (∀ c, (pics c).lookup p.ip tol [0] = [f c]) ∧
        pointPosition ((List.finRange 4).map f) 4 p.mm ((List.finRange 4).map fun c => (pics c).cal) = .ok (some (0, P)) := by
  have hd : ∀ c, DataFine ((pics c).data p.ip tol) := fun c => data_fine (h.fine c) p.ip tol
  have hlen : ∀ c, ((pics c).data p.ip tol).crd.length = 1 := fun c => by rw [data_length, h.only c]; rfl
  obtain ⟨k, hk, hseen⟩ := h.pictured.seen hpix hno
  have hk0 : ∀ c, k c = 0 := by
    intro c
    have h1 : k c < ((pics c).data p.ip tol).crd.length := (List.getElem?_eq_some_iff.1 (hk c)).1
    have := hlen c
    omega
  obtain ⟨o, ho, hdist⟩ := C110_distribution srt p (fun c => (pics c).data p.ip tol) hd heps hcs (by
    intro c1 c2 h12 i hi
    obtain ⟨e, he⟩ := hseen.epi hair h12
    have : i = k c1 := by
      have h1 := hlen c1
      have h2 := hk0 c1
      have : i < ((pics c1).data p.ip tol).crd.length := hi
      omega
    exact ⟨e, this ▸ he⟩)
  obtain ⟨j, f, hq, hlook, hpos⟩ := C111_particle srt p tol pics hpix hno h.fine heps hcs cm hcm hair
    (C111_no_overflow p tol pics h.fine heps hcs (by simp [h.only])) P X _ t h.pictured h.unambiguous h.line h.mark o ho
  have hjl : ∀ c, (listed o c)[j]? = some (((0 : ℕ) : Int), ((t c).x, (t c).y)) := by
    intro c
    rw [listed, List.append_assoc, List.getElem?_append_left (List.getElem?_eq_some_iff.1 (hq c)).1]
    exact hq c
  -- every other entry is empty
  have other : ∀ (c : Fin 4) (i : ℕ) (e : Int × (ℝ × ℝ)), i ≠ j → (listed o c)[i]? = some e → e = (-1, (-999, -999)) := by
    intro c i e hi he
    rcases hdist.entry c e (List.mem_of_getElem? he) with h1 | ⟨m, xy, h1, rfl⟩
    · exact h1
    · exfalso
      have h1 : ((pics c).data p.ip tol).xy[m]? = some xy := h1
      have hl := (List.getElem?_eq_some_iff.1 h1).1
      rw [(hd c).xys, hlen c] at hl
      have : m = 0 := by omega
      subst this
      exact hi (hdist.once c i j 0 _ _ he (hjl c))
  have all4 : ∀ (g : Group) (i off : ℕ), (∀ c, (listed o c)[off + i]? = (g c)[i]?) → off + i ≠ j → (∀ c, i < (g c).length) →
      {c | Absent g i c}.ncard = 4 := by
    intro g i off hg hne hi
    have : {c | Absent g i c} = Set.univ := by
      ext c
      simp only [Set.mem_univ, iff_true]
      have he := List.getElem?_eq_getElem (hi c)
      have hc := other c (off + i) _ hne ((hg c).trans he)
      exact ⟨(-999, -999), by rw [he, hc]⟩
    rw [this, Set.ncard_univ]
    simp
  have hjq : j < (o.quads 0).length := (List.getElem?_eq_some_iff.1 (hq 0)).1
  have lq : ∀ c i, i < (o.quads c).length → (listed o c)[0 + i]? = (o.quads c)[i]? := by
    intro c i hi
    rw [listed, List.append_assoc, Nat.zero_add, List.getElem?_append_left hi]
  have lt : ∀ c i, i < (o.triplets c).length → (listed o c)[(o.quads 0).length + i]? = (o.triplets c)[i]? := by
    intro c i hi
    rw [listed, List.append_assoc, List.getElem?_append_right (by rw [(hdist.sizes c).1]; omega), (hdist.sizes c).1,
      Nat.add_sub_cancel_left, List.getElem?_append_left hi]
  have lp : ∀ c i, (listed o c)[(o.quads 0).length + (o.triplets 0).length + i]? = (o.pairs c)[i]? := by
    intro c i
    rw [listed, List.getElem?_append_right (by rw [List.length_append, (hdist.sizes c).1, (hdist.sizes c).2.1]; omega),
      List.length_append, (hdist.sizes c).1, (hdist.sizes c).2.1, Nat.add_sub_cancel_left]
  have hq1 : (o.quads 0).length = 1 ∧ j = 0 := by
    have key : ∀ i, i < (o.quads 0).length → i = j := by
      intro i hi
      by_contra hne
      have := all4 o.quads i 0 (fun c => lq c i (by rw [(hdist.sizes c).1]; exact hi)) (by omega)
        (fun c => by rw [(hdist.sizes c).1]; exact hi)
      rw [hdist.four i hi] at this
      omega
    have h0 := key 0 (by omega)
    refine ⟨?_, h0.symm⟩
    by_contra hne
    have := key 1 (by omega)
    omega
  have ht0 : (o.triplets 0).length = 0 := by
    by_contra hne
    have := all4 o.triplets 0 (o.quads 0).length (fun c => lt c 0 (by rw [(hdist.sizes c).2.1]; omega)) (by omega)
      (fun c => by rw [(hdist.sizes c).2.1]; omega)
    rw [hdist.three 0 (by omega)] at this
    omega
  have hp0 : (o.pairs 0).length = 0 := by
    by_contra hne
    have := all4 o.pairs 0 ((o.quads 0).length + (o.triplets 0).length) (fun c => lp c 0) (by omega)
      (fun c => by rw [(hdist.sizes c).2.2]; omega)
    rw [hdist.two 0 (by omega)] at this
    omega
  obtain ⟨hq1, rfl⟩ := hq1
  have hl1 : ∀ c, (listed o c).length = 1 := by
    intro c
    obtain ⟨s1, s2, s3⟩ := hdist.sizes c
    simp only [listed, List.length_append]
    omega
  have hlist : ∀ c, listed o c = [(0, ((t c).x, (t c).y))] := by
    intro c
    obtain ⟨e, he⟩ := List.length_eq_one_iff.1 (hl1 c)
    have := hjl c
    rw [he] at this ⊢
    simpa using this
  refine ⟨o, ho, by rw [← hdist.total 0, hl1 0], hlist, ?_, f, ?_, hpos⟩
  · intro c
    have h1 := hdist.number c 0 0 _ (hjl c)
    -- length
    have hlt : (o.tnr c).length = 1 := by
      by_contra hne
      have h2 := hdist.keep c 1 (by
        intro xy hm
        rw [hlist c] at hm
        simp at hm)
      have h3 : ((pics c).data p.ip tol).tnr[1]? = none := by
        rw [List.getElem?_eq_none_iff, (hd c).tnrs, hlen c]
      have h2 : (o.tnr c)[1]? = ((pics c).data p.ip tol).tnr[1]? := h2
      rw [h3, List.getElem?_eq_none_iff] at h2
      have := (List.getElem?_eq_some_iff.1 h1).1
      omega
    obtain ⟨e, he⟩ := List.length_eq_one_iff.1 hlt
    rw [he] at h1 ⊢
    simpa using h1
  · intro c
    have h1 := hlook c
    have hqc : o.quads c = [(0, ((t c).x, (t c).y))] := by
      obtain ⟨e, he⟩ := List.length_eq_one_iff.1 ((hdist.sizes c).1.trans hq1)
      have := hq c
      rw [he] at this ⊢
      simpa using this
    rw [hqc] at h1
    have hll : ((pics c).lookup p.ip tol [0]).length = 1 := by
      obtain ⟨-, h2, -⟩ := C46_numbers (pics c).pixels p.ip (pics c).cal tol
      exact (C46_get_by_pnrs ((pics c).matched p.ip tol) [0] coordUnused (by simp) h2).1
    obtain ⟨e, he⟩ := List.length_eq_one_iff.1 hll
    simp only [List.map_cons, List.map_nil] at h1
    rw [he] at h1 ⊢
    simpa using h1

open Verif.Track Verif.Track.Spec in
/-- C114, one frame: in air, cameras without lens distortion. `py_correspondences` of four pictures with one target each, exactly the
images of a particle, returns, its results can be recorded as a frame, and every frame recorded from them holds exactly that particle, with one target
and one correspondence. -/
theorem C114_frame (srt : NpSort ℝ) (p : Pars) (tol : ℝ) (pics : Fin 4 → Pic) (hpix : p.ip.pixX ≠ 0 ∧ p.ip.pixY ≠ 0)
    (hno : ∀ c, NoLens (pics c).cal) (heps : 0 < p.crit.eps0) (hcs : 0 ≤ p.crit.csumg) (cm : ℝ) (hcm : p.corrmin = .fin cm)
    (hair : Air p.mm) (P : V3) (X : Fin 4 → V3) (t : Fin 4 → Det) (h : LonePictured p tol pics P X t) :
    ∃ o, pyCorrespondences srt p (fun c => (pics c).data p.ip tol) = .ok o ∧ (∃ f, Recorded p tol pics o f) ∧
      ∀ f, Recorded p tol pics o f → (∃ c d, f.parts = [⟨P, -1, -2, c, d⟩]) ∧
        f.img.targets = (List.finRange 4).map (fun c => [⟨(t c).x, (t c).y, 0⟩]) ∧ ∃ nr, f.img.corr = [⟨nr, [0, 0, 0, 0]⟩] := by
  obtain ⟨o, ho, htot, hl, htn, v, hv, hpos⟩ := lone_out srt hpix hno heps hcs cm hcm hair h
  have htg : (List.finRange 4).map (fun c =>
      List.zipWith (fun (t : Det) (k : Int) => (⟨t.x, t.y, k⟩ : Search.Tgt ℝ)) (pics c).dets (o.tnr c)) =
      (List.finRange 4).map (fun c => [⟨(t c).x, (t c).y, 0⟩]) := by
    refine List.map_congr_left fun c _ => ?_
    rw [h.only c, htn c]
    rfl
  refine ⟨o, ho, ?_, ?_⟩
  · refine ⟨⟨0, [⟨P, -1, -2, [], 0⟩], ⟨(List.finRange 4).map (fun c => [⟨(t c).x, (t c).y, 0⟩]), [⟨1, [0, 0, 0, 0]⟩], ?_⟩⟩, ?_⟩
    · intro ts hts u hu
      obtain ⟨c, -, rfl⟩ := List.mem_map.1 hts
      rw [List.mem_singleton] at hu
      subst hu
      simp
    · constructor
      · simp [htot]
      · intro j q hq
        have hj : j = 0 := by
          have := (List.getElem?_eq_some_iff.1 hq).1
          simpa using this
        subst hj
        simp at hq
        subst hq
        refine ⟨rfl, rfl, v, 0, ?_, hpos⟩
        intro c
        rw [hl c]
        simp [hv c]
      · exact htg.symm
      · simp [htot]
      · intro j r hr
        have hj : j = 0 := by
          have := (List.getElem?_eq_some_iff.1 hr).1
          simpa using this
        subst hj
        simp at hr
        subst hr
        refine ⟨rfl, ?_⟩
        intro c
        refine ⟨_, by rw [hl c]; rfl, ?_⟩
        fin_cases c <;> rfl
  · intro f hf
    refine ⟨?_, hf.targets.trans htg, ?_⟩
    · have hlen := hf.count
      rw [htot] at hlen
      obtain ⟨q, hq⟩ := List.length_eq_one_iff.1 hlen
      obtain ⟨h1, h2, v', e, h3, h4⟩ := hf.place 0 q (by rw [hq]; rfl)
      have hvv : v' = v := by
        funext c
        have := h3 c
        rw [hl c] at this
        simp [hv c] at this
        exact this.symm
      rw [hvv, hpos] at h4
      simp only [Except.ok.injEq, Option.some.injEq, Prod.mk.injEq] at h4
      refine ⟨q.cands, q.final, ?_⟩
      rw [hq]
      obtain ⟨x, pr, nx, cs, fi⟩ := q
      simp only at h1 h2 h4
      rw [h1, h2, h4.2]
    · have hlen := hf.rows
      rw [htot] at hlen
      obtain ⟨r, hr⟩ := List.length_eq_one_iff.1 hlen
      obtain ⟨h1, h2⟩ := hf.row 0 r (by rw [hr]; rfl)
      have hz : ∀ c : Fin 4, r.p[c.val]? = some 0 := by
        intro c
        obtain ⟨e, he, hp⟩ := h2 c
        rw [hl c] at he
        simp at he
        rw [hp, ← he]
      refine ⟨r.nr, ?_⟩
      rw [hr]
      obtain ⟨nr, l⟩ := r
      simp only at h1 hz
      match l, h1 with
      | [a, b, c, d], _ =>
        have := hz 0
        have := hz 1
        have := hz 2
        have := hz 3
        simp_all

open Verif.Track Verif.Track.Spec in
theorem lone_files (srt : NpSort ℝ) (p : Pars) (tol : ℝ) (hpix : p.ip.pixX ≠ 0 ∧ p.ip.pixY ≠ 0) (heps : 0 < p.crit.eps0)
    (hcs : 0 ≤ p.crit.csumg) (cm : ℝ) (hcm : p.corrmin = .fin cm) (hair : Air p.mm)
    (cams : Fin 4 → Cam × LUT) (hno : ∀ c, NoLens (cams c).1) (s : Setup) (hs : s.cals = (List.finRange 4).map cams)
    (x : Int → V3) (first : Int) (L : Nat) (X : Int → Fin 4 → V3) (t : Int → Fin 4 → Det)
    (hpic : ∀ n, first ≤ n → n ≤ first + L → LonePictured p tol (fun c => ⟨(cams c).1, (cams c).2, [t n c]⟩) (x n) (X n) (t n))
    (disk : Int → Frame V3 ℝ (Img ℝ))
    (hdisk : ∀ n, first ≤ n → n ≤ first + L → ∃ o,
      pyCorrespondences srt p (fun c => (⟨(cams c).1, (cams c).2, [t n c]⟩ : Pic).data p.ip tol) = .ok o ∧
      Recorded p tol (fun c => ⟨(cams c).1, (cams c).2, [t n c]⟩) o (disk n)) : LoneFiles s disk x first (first + L) := by
  have hnc : s.cals.length = 4 := by rw [hs]; simp
  intro n h1 h2
  obtain ⟨o, ho, hrec⟩ := hdisk n h1 h2
  obtain ⟨o', ho', -, hall⟩ := C114_frame srt p tol _ hpix hno heps hcs cm hcm hair _ _ _ (hpic n h1 h2)
  rw [ho] at ho'
  cases ho'
  obtain ⟨hp, ht, nr, hc⟩ := hall _ hrec
  refine ⟨hp, ?_, ⟨nr, [0, 0, 0, 0]⟩, by rw [hc]; rfl, ?_⟩
  · intro cam hcam
    have h4 : cam < 4 := by omega
    refine ⟨⟨(t n ⟨cam, h4⟩).x, (t n ⟨cam, h4⟩).y, 0⟩, ?_, rfl⟩
    rw [ht, List.getElem?_map, List.getElem?_eq_getElem (by simpa using h4)]
    simp
  · intro cam hcam
    have h4 : cam < 4 := by omega
    interval_cases cam <;> rfl

open Verif.Track Verif.Track.Spec in
/-- C114: pictures of four cameras in air without lens distortion, one particle, in every frame exactly pictured. Record
the results of `py_correspondences` frame by frame and track: the run does not raise and writes the trajectory of the particle, true positions
and links from the first frame to the last. Uniform motion within the velocity limits; adding off. -/
theorem C114_uniform (srt : NpSort ℝ) (p : Pars) (tol : ℝ) (hpix : p.ip.pixX ≠ 0 ∧ p.ip.pixY ≠ 0) (heps : 0 < p.crit.eps0)
    (hcs : 0 ≤ p.crit.csumg) (cm : ℝ) (hcm : p.corrmin = .fin cm) (hair : Air p.mm)
    (cams : Fin 4 → Cam × LUT) (hno : ∀ c, NoLens (cams c).1)
    (s : Setup) (hs : s.cals = (List.finRange 4).map cams ∧ s.mm = p.mm ∧ s.ip = p.ip) (hadd : s.add = false) (hdacc : 0 < s.dacc)
    (a u : V3) (hu : Pos3dInBounds u s.vel) (first : Int) (L : Nat) (hL : 3 ≤ L)
    (X : Int → Fin 4 → V3) (t : Int → Fin 4 → Det)
    (hpic : ∀ n, first ≤ n → n ≤ first + L → LonePictured p tol (fun c => ⟨(cams c).1, (cams c).2, [t n c]⟩) (a + u.smul n) (X n) (t n))
    (hproj : ∀ n : Int, first ≤ n → n ≤ first + L + 1 → Projectable s (a + u.smul n))
    (disk : Int → Frame V3 ℝ (Img ℝ))
    (hdisk : ∀ n, first ≤ n → n ≤ first + L → ∃ o,
      pyCorrespondences srt p (fun c => (⟨(cams c).1, (cams c).2, [t n c]⟩ : Pic).data p.ip tol) = .ok o ∧
      Recorded p tol (fun c => ⟨(cams c).1, (cams c).2, [t n c]⟩) o (disk n)) (c0 c1 c2 c3 : Frame V3 ℝ (Img ℝ)) :
    ∃ r, forwardRun disk (trackBuf s.tracker) first (first + L) [c0, c1, c2, c3] = .ok r ∧
      CompleteTrajectory (fun n => a + u.smul n) first L (writesOf r.log) := by
  have hnc : s.cals.length = 4 := by rw [hs.1]; simp
  refine C98_lone_uniform_run s (by omega) hadd hdacc a u hu disk first L hL ?_ hproj c0 c1 c2 c3
  exact lone_files srt p tol hpix heps hcs cm hcm hair cams hno s hs.1 _ first L X t hpic disk hdisk

open Verif.Track Verif.Track.Spec in
/-- C114 for smooth motion, as in C98: steps within the velocity limits, second differences small. -/
theorem C114_smooth (srt : NpSort ℝ) (p : Pars) (tol : ℝ) (hpix : p.ip.pixX ≠ 0 ∧ p.ip.pixY ≠ 0) (heps : 0 < p.crit.eps0)
    (hcs : 0 ≤ p.crit.csumg) (cm : ℝ) (hcm : p.corrmin = .fin cm) (hair : Air p.mm)
    (cams : Fin 4 → Cam × LUT) (hno : ∀ c, NoLens (cams c).1)
    (s : Setup) (hs : s.cals = (List.finRange 4).map cams ∧ s.mm = p.mm ∧ s.ip = p.ip) (hadd : s.add = false)
    (x : Int → V3) (first : Int) (L : Nat) (hL : 3 ≤ L)
    (hv : ∀ n, first ≤ n → n < first + L → Pos3dInBounds (x (n + 1) - x n) s.vel ∧ x (n + 1) ≠ x n)
    (ha : ∀ n, first < n → n < first + L → (secondDiff x n).norm < s.dacc / 10 ∧
      2 * (secondDiff x n).norm < (x (n + 1) - x n).norm)
    (X : Int → Fin 4 → V3) (t : Int → Fin 4 → Det)
    (hpic : ∀ n, first ≤ n → n ≤ first + L → LonePictured p tol (fun c => ⟨(cams c).1, (cams c).2, [t n c]⟩) (x n) (X n) (t n))
    (hp0 : Projectable s (x first))
    (hp1 : ∀ n, first < n → n ≤ first + L → Projectable s ((x n).smul 2 - x (n - 1)))
    (hp2 : ∀ n, first < n → n < first + L → Projectable s (((x (n + 1)).smul 5 - (x n).smul 4 + x (n - 1)).smul 0.5))
    (disk : Int → Frame V3 ℝ (Img ℝ))
    (hdisk : ∀ n, first ≤ n → n ≤ first + L → ∃ o,
      pyCorrespondences srt p (fun c => (⟨(cams c).1, (cams c).2, [t n c]⟩ : Pic).data p.ip tol) = .ok o ∧
      Recorded p tol (fun c => ⟨(cams c).1, (cams c).2, [t n c]⟩) o (disk n)) (c0 c1 c2 c3 : Frame V3 ℝ (Img ℝ)) :
    ∃ r, forwardRun disk (trackBuf s.tracker) first (first + L) [c0, c1, c2, c3] = .ok r ∧
      CompleteTrajectory x first L (writesOf r.log) := by
  have hnc : s.cals.length = 4 := by rw [hs.1]; simp
  refine C98_lone_smooth_run s (by omega) hadd x disk first L hL ?_ hv ha hp0 hp1 hp2 c0 c1 c2 c3
  exact lone_files srt p tol hpix heps hcs cm hcm hair cams hno s hs.1 _ first L X t hpic disk hdisk

/-! ### An example: the four cameras of C109, a particle that moves along the x axis -/

/-- The cameras. -/
noncomputable def rowCam (c : Fin 4) : Cam × LUT := ((exRow c).cal, emptyLUT)

/-- The target that shows a particle at `(a, 2, -5)`. -/
noncomputable def rowDet (a : ℝ) (c : Fin 4) : Det := ⟨500 + 500 * (a - 10 * (c.val : ℝ)) / 105, 500 - 1000 / 105, ⟨4, 2, 2, 100⟩, -1⟩

noncomputable def rowPic (a : ℝ) (c : Fin 4) : Pic := ⟨(rowCam c).1, (rowCam c).2, [rowDet a c]⟩

theorem rowPic_flat (a : ℝ) (c : Fin 4) (tol : ℝ) :
    flatPos exPars.ip tol (rowPic a c).cal (rowDet a c) = (50 * (a - 10 * (c.val : ℝ)) / 105, 100 / 105) := by
  have hb' := fun x y => (C24_default_identity tol x y).2
  simp only [flatPos, distToFlat, rowPic, rowCam, exRow, hb', pixelToMetric, exPars, rowDet]
  norm_num
  ring

theorem rowPic_crd (a : ℝ) (c : Fin 4) (tol : ℝ) :
    ((rowPic a c).unsorted exPars.ip tol).crd = [⟨0, 50 * (a - 10 * (c.val : ℝ)) / 105, 100 / 105⟩] := by
  have hf := rowPic_flat a c tol
  have hd : (rowPic a c).dets = [rowDet a c] := rfl
  simp only [Pic.unsorted, hd, List.mapIdx_cons, List.mapIdx_nil, hf]

theorem row_looks (a : ℝ) (c : Fin 4) : Looks (exRow c).cal exPars.vol ⟨a, 2, -5⟩
    ⟨10 * (c.val : ℝ) + (a - 10 * (c.val : ℝ)) * (90 / 105), 180 / 105, 10⟩ where
  rot := ⟨0, 0, 0, rfl⟩
  cc := by norm_num [exRow]
  glass := fun h => by have := congrArg V3.z h; norm_num [exRow] at this
  front := by norm_num [exRow, dot, M3.c2, rotationMatrix]
  behind := by norm_num [exRow, dot]
  deep := by norm_num [exRow]
  line := ⟨90 / 105, by ext <;> norm_num [exRow]⟩
  cross := by norm_num [exRow, dot]
  volume := by norm_num [zMinAt, zMaxAt, exPars]

theorem row_slanted (a tol : ℝ) (c1 c2 : Fin 4) (h : c1 < c2) (e : (ℝ × ℝ) × (ℝ × ℝ))
    (he : Epi exPars ((rowPic a c1).unsorted exPars.ip tol) ((rowPic a c2).unsorted exPars.ip tol) 0 e) : e.1.1 ≠ e.2.1 := by
  obtain ⟨q, hq, he⟩ := he
  have hone : OneIndex exPars.mm := ⟨by norm_num [exPars], ⟨[], rfl⟩, rfl, by simp [exPars], by simp [exPars]⟩
  have hl := row_looks a c1
  have hsee : Sees (exRow c1).cal ⟨a, 2, -5⟩ := ⟨hl.rot, hl.cc.ne', hl.glass, mul_neg_of_pos_of_neg hl.cc hl.front, hl.behind⟩
  obtain ⟨hp, X, hr, hon⟩ := trace_projection hsee hone
  have hlut : (exRow c1).lut = emptyLUT := rfl
  rw [← hlut, exRow_flat c1 _ (by norm_num)] at hp
  rw [← Option.some.inj hp] at hr
  rw [rowPic_crd] at hq
  have hqq : q = ⟨0, 50 * (a - 10 * (c1.val : ℝ)) / 105, 100 / 105⟩ := by
    simpa [eq_comm] using hq
  have hx : q.x = -50 * ((a - 10 * (c1.val : ℝ)) / (-5 - 100)) := by rw [hqq]; ring
  have hy : q.y = -50 * (2 / (-5 - 100)) := by rw [hqq]; norm_num
  simp only at hr
  rw [← hx, ← hy] at hr
  have hne : (⟨a, 2, -5⟩ - (exRow c1).cal.pos : V3) ≠ 0 := fun h => by have := congrArg V3.z h; norm_num [exRow] at this
  set v : V3 := ⟨a, 2, -5⟩ - (exRow c1).cal.pos with hv
  have hN := V3.norm_pos hne
  have hu : v.unit = v.smul (1 / v.norm) := unit_of_ne hne
  have hz : v.unit.z ≠ 0 := by
    rw [hu]
    simp only [V3.smul_z]
    have : v.z = -105 := by rw [hv]; norm_num [exRow]
    rw [this]
    exact mul_ne_zero (by norm_num) (one_div_ne_zero hN.ne')
  obtain ⟨M1, M2, ⟨t1, ht1⟩, z1, ⟨t2, ht2⟩, z2, f1, f2⟩ :=
    (C29_epi_mm q.x q.y (exRow c1).cal (exRow c2).cal (exRow c2).lut exPars.mm exPars.vol X v.unit hr hz e.1 e.2).1 he
  obtain ⟨t0, ht0⟩ := hon
  have za : zMinAt exPars.vol X.x = -20 := by norm_num [zMinAt, exPars]
  have zb : zMaxAt exPars.vol X.x = 20 := by norm_num [zMaxAt, exPars]
  rw [za] at z1
  rw [zb] at z2
  rw [exRow_flat c2 _ (by rw [z1]; norm_num), Option.some.injEq] at f1
  rw [exRow_flat c2 _ (by rw [z2]; norm_num), Option.some.injEq] at f2
  rw [← f1, ← f2]
  simp only
  rw [z1, z2]
  have vx : v.x = a - 10 * (c1.val : ℝ) := by rw [hv]; simp [exRow]
  have vz : v.z = -105 := by rw [hv]; norm_num [exRow]
  have hM : ∀ (M : V3) (t : ℝ), M = X + v.unit.smul t → M.x = a + v.x * ((t - t0) / v.norm) ∧
      M.z = -5 + v.z * ((t - t0) / v.norm) := by
    intro M t hM
    have a1 := congrArg V3.x hM
    have a2 := congrArg V3.z hM
    have b1 := congrArg V3.x ht0
    have b2 := congrArg V3.z ht0
    rw [hu] at a1 a2 b1 b2
    simp only [V3.add_x, V3.add_z, V3.smul_x, V3.smul_z] at a1 a2 b1 b2
    constructor
    · rw [a1]
      have : X.x = a - v.x * (1 / v.norm) * t0 := by linarith
      rw [this]; ring
    · rw [a2]
      have : X.z = -5 - v.z * (1 / v.norm) * t0 := by linarith
      rw [this]; ring
  obtain ⟨x1, y1⟩ := hM M1 t1 ht1
  obtain ⟨x2, y2⟩ := hM M2 t2 ht2
  rw [z1, vz] at y1
  rw [z2, vz] at y2
  have s1 : (t1 - t0) / v.norm = 15 / 105 := by linarith
  have s2 : (t2 - t0) / v.norm = -25 / 105 := by linarith
  rw [x1, x2, s1, s2, vx]
  intro hcon
  have h12 : (c1.val : ℝ) < c2.val := by exact_mod_cast h
  norm_num at hcon
  linarith

theorem rowPic_lone (a tol : ℝ) (ha : 0 ≤ a ∧ a ≤ 10) : LonePictured exPars tol (rowPic a) ⟨a, 2, -5⟩
    (fun c => ⟨10 * (c.val : ℝ) + (a - 10 * (c.val : ℝ)) * (90 / 105), 180 / 105, 10⟩) (rowDet a) where
  only c := rfl
  sizes c := by norm_num [rowDet]
  looks c := row_looks a c
  facing c1 c2 _ M _ _ h2 := by
    norm_num [zMaxAt, exPars] at h2
    norm_num [dot, M3.c2, rotationMatrix, rowPic, rowCam, exRow]
    linarith
  image c := by
    have hf := exRow_flat c ⟨a, 2, -5⟩ (by norm_num)
    refine ⟨flatToDist (-50 * ((a - 10 * (c.val : ℝ)) / (-5 - 100))) (-50 * (2 / (-5 - 100))) 0 0 defaultAddPar, ?_, ?_⟩
    · show imgCoord _ (exRow c).cal (exRow c).lut _ = _
      rw [imgCoord, hf]
      rfl
    · simp only [flatToDist, (C24_default_identity 0 _ _).1, metricToPixel, exPars, rowDet]
      norm_num
      ring
  inside c := by
    have hc : (c.val : ℝ) ≤ 3 := by exact_mod_cast Nat.le_of_lt_succ c.isLt
    have h0 : (0 : ℝ) ≤ c.val := Nat.cast_nonneg _
    refine (C111_inside exPars.ip tol (rowPic a c).cal (rowDet a c) rfl (by norm_num [exPars]) (by norm_num [exPars])).2 ?_
    simp only [rowDet, exPars]
    norm_num
    constructor <;> linarith
  alike c1 c2 _ := by norm_num [Alike, ratio, exPars, rowDet]
  slanted := row_slanted a tol
  line c1 c2 h := by
    rw [notParallel_iff]
    have h12 : (c1.val : ℝ) < c2.val := by exact_mod_cast h
    norm_num [rowPic, rowCam, exRow, dot, cross]
    nlinarith
  mark c := by
    rw [rowPic_flat]
    have hc : (c.val : ℝ) ≤ 3 := by exact_mod_cast Nat.le_of_lt_succ c.isLt
    simp only
    intro h
    norm_num at h
    linarith

open Verif.Track in
noncomputable def rowSetup : Setup where
  cals := (List.finRange 4).map rowCam
  mm := exPars.mm
  ip := exPars.ip
  tol := 0.001
  vel := ⟨⟨-2, -2, -2⟩, ⟨2, 2, 2⟩⟩
  dacc := 1
  dangle := 100
  add := false
  lmax := 3
  lo := ⟨-50, -50, -50⟩
  hi := ⟨50, 50, 50⟩

open Verif.Track in
theorem rowCam_depth (c : Fin 4) (Y : V3) : depth (rowCam c).1 Y = 100 - Y.z := by
  simp [depth, rowCam, exRow, rotationMatrix]

open Verif.Track in
theorem rowSetup_projectable {Y : V3} (hY : Y.z ≤ 50) : Projectable rowSetup Y := by
  have key : ∀ c : Fin 4, AirCam rowSetup (rowCam c).1 Y := by
    intro c
    refine ⟨⟨rfl, rfl, ⟨[], rfl⟩, rfl, rfl⟩, rfl, ?_, ?_, ?_, ?_, ?_⟩
    · intro e
      have := congrArg V3.z e
      norm_num [rowCam, exRow] at this
    · norm_num [rowCam, exRow]
    · norm_num [rowSetup, exPars]
    · norm_num [rowCam, exRow, rotationMatrix]
    · intro bx b_y bz
      rw [rowCam_depth]
      cases bz <;> simp only [boxCorner, rowSetup] <;> norm_num <;> linarith
  refine air_projectable ?_ ?_
  · intro c hc
    obtain ⟨k, -, rfl⟩ := List.mem_map.1 hc
    exact key k
  · intro c hc
    obtain ⟨k, -, rfl⟩ := List.mem_map.1 hc
    rw [rowCam_depth]
    linarith

open Verif.Track Verif.Track.Spec in
/-- Frames 0 .. 5 of a particle that moves from (0, 2, -5) by (1, 0, 0) per frame: the pictures can be recorded, and every recording is
tracked completely. -/
example (srt : NpSort ℝ) (tol : ℝ) (c0 c1 c2 c3 : Frame V3 ℝ (Img ℝ)) :
    ∃ disk : Int → Frame V3 ℝ (Img ℝ),
      (∀ n : Int, 0 ≤ n → n ≤ 0 + (5 : ℕ) → ∃ o, pyCorrespondences srt exPars (fun c => (rowPic n c).data exPars.ip tol) = .ok o ∧
        Recorded exPars tol (rowPic n) o (disk n)) ∧
      ∃ r, forwardRun disk (trackBuf rowSetup.tracker) 0 (0 + (5 : ℕ)) [c0, c1, c2, c3] = .ok r ∧
        CompleteTrajectory (fun n => (⟨0, 2, -5⟩ : V3) + (⟨1, 0, 0⟩ : V3).smul n) 0 5 (writesOf r.log) := by
  have hno : ∀ c : Fin 4, NoLens (rowCam c).1 := by
    intro c
    constructor <;> norm_num [rowCam, exRow, defaultAddPar]
  have heps : 0 < exPars.crit.eps0 := by norm_num [exPars]
  have hcs : 0 ≤ exPars.crit.csumg := by norm_num [exPars]
  have hpix : exPars.ip.pixX ≠ 0 ∧ exPars.ip.pixY ≠ 0 := by norm_num [exPars]
  have hat : ∀ n : Int, (⟨0, 2, -5⟩ : V3) + (⟨1, 0, 0⟩ : V3).smul n = ⟨n, 2, -5⟩ := by
    intro n
    ext <;> simp
  have hb : ∀ n : Int, 0 ≤ n → n ≤ 0 + (5 : ℕ) → (0 : ℝ) ≤ n ∧ (n : ℝ) ≤ 10 := by
    intro n h1 h2
    constructor
    · exact_mod_cast h1
    · have : n ≤ 10 := by omega
      exact_mod_cast this
  have hex : ∀ n : Int, ∃ f : Frame V3 ℝ (Img ℝ), 0 ≤ n → n ≤ 0 + (5 : ℕ) → ∃ o,
      pyCorrespondences srt exPars (fun c => (rowPic n c).data exPars.ip tol) = .ok o ∧ Recorded exPars tol (rowPic n) o f := by
    intro n
    by_cases hn : 0 ≤ n ∧ n ≤ 0 + (5 : ℕ)
    · obtain ⟨o, ho, ⟨f, hf⟩, -⟩ := C114_frame srt exPars tol (rowPic n) hpix hno heps hcs 33 rfl exAir _ _ _
        (rowPic_lone n tol (hb n hn.1 hn.2))
      exact ⟨f, fun _ _ => ⟨o, ho, hf⟩⟩
    · exact ⟨c0, fun h1 h2 => absurd ⟨h1, h2⟩ hn⟩
  choose disk hdisk using hex
  refine ⟨disk, hdisk, ?_⟩
  refine C114_uniform srt exPars tol hpix heps hcs 33 rfl exAir rowCam hno rowSetup ⟨rfl, rfl, rfl⟩ rfl (by norm_num [rowSetup])
    ⟨0, 2, -5⟩ ⟨1, 0, 0⟩ (by norm_num [Pos3dInBounds, rowSetup]) 0 5 (by norm_num)
    (fun n c => ⟨10 * (c.val : ℝ) + (n - 10 * (c.val : ℝ)) * (90 / 105), 180 / 105, 10⟩) (fun n => rowDet n) ?_ ?_ disk hdisk c0 c1 c2 c3
  · intro n h1 h2
    rw [hat]
    exact rowPic_lone n tol (hb n h1 h2)
  · intro n _ _
    rw [hat]
    exact rowSetup_projectable (by norm_num)

end Verif.FullCorr
