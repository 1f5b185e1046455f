/-
C99: a forward tracking step, and a whole forward run, does not raise.
-/
import Verif.Proofs.Total
import Verif.Props.LoneTrack

set_option linter.unusedSectionVars false

namespace Verif.Track
open Verif.Track.Spec Verif.Geo Verif.Geo.Spec

/-! ### Specification -/

/-- Every camera has at least one target. -/
def AllSeen (s : Setup) (i : Img ℝ) : Prop :=
  ∀ cam, cam < s.cals.length → ∃ ts, i.targets[cam]? = some ts ∧ ts ≠ []

/-- Particle `h` has a correspondence, whose entries are -1 or numbers of targets. -/
def Corresponds (s : Setup) (i : Img ℝ) (h : Nat) : Prop :=
  ∃ r, i.corr[h]? = some r ∧ ∀ cam, cam < s.cals.length → ∃ p, r.p[cam]? = some p ∧
    (p = -1 ∨ ∃ (k : Nat) (ts : List (Search.Tgt ℝ)), p = k ∧ i.targets[cam]? = some ts ∧ k < ts.length)

/-- `v` has, for camera `cam`, the (flat) coordinates of a target that belongs to no particle. -/
def FreeTargetIn (s : Setup) (i : Img ℝ) (v : List (ℝ × ℝ)) (cam : Nat) : Prop :=
  ∃ ts t, i.targets[cam]? = some ts ∧ t ∈ ts ∧ t.tnr = -1 ∧ v[cam]? = some (s.flat cam (t.x, t.y))

/-- `v` could be the images of a new particle: some cameras, two at least, show a target that belongs to no particle,
the others nothing. -/
def NewImages (s : Setup) (i : Img ℝ) (v : List (ℝ × ℝ)) : Prop :=
  v.length = s.cals.length ∧
    (∀ cam, cam < s.cals.length → v[cam]? = some (coordUnused, coordUnused) ∨ FreeTargetIn s i v cam) ∧
    ∃ c1 c2, c1 < c2 ∧ c2 < s.cals.length ∧ FreeTargetIn s i v c1 ∧ FreeTargetIn s i v c2

/-- The lines of sight of all targets that belong to no particle can be computed. -/
def RaysOK (s : Setup) (i : Img ℝ) : Prop :=
  ∀ (cam : Nat) (c : Cam × LUT) (ts : List (Search.Tgt ℝ)) (t : Search.Tgt ℝ), s.cals[cam]? = some c →
    i.targets[cam]? = some ts → t ∈ ts → t.tnr = -1 →
    (s.flat cam (t.x, t.y)).1 ≠ coordUnused ∧ ∃ r, rayTracing (s.flat cam (t.x, t.y)).1 (s.flat cam (t.x, t.y)).2 c.1 s.mm = some r

/-- Where the particle at `x1`, which was at `x0`, is expected next. -/
noncomputable def expectedNext : Option V3 → V3 → V3
  | some x0, x1 => x1.smul 2 - x0
  | none, x1 => x1

/-- Where it is expected in the frame after next, if it goes to `x3`. -/
noncomputable def expectedThen : Option V3 → V3 → V3 → V3
  | some x0, x1, x3 => (x3.smul 5 - x1.smul 4 + x0).smul (1 / 2)
  | none, x1, x3 => x3.smul 2 - x1

/-- What can be asked of the input so that the search for particle `h` at `x1`, which was at `x0`, does not raise. `i1` are the
images of its frame; `X2`, `i2` positions and images of the next, `X3`, `i3` of the one after. -/
structure Trackable (s : Setup) (i1 : Img ℝ) (h : Nat) (x0 : Option V3) (x1 : V3) (X2 : List V3) (i2 : Img ℝ) (X3 : List V3)
    (i3 : Img ℝ) : Prop where
  /-- a particle without predecessor has valid correspondences -/
  own : x0 = none → Corresponds s i1 h
  /-- the positions where it is expected can be projected -/
  next : Projectable s (expectedNext x0 x1)
  after : ∀ x3 ∈ X2, Projectable s (expectedThen x0 x1 x3)
  /-- the candidates stand still only if the particle does: the angle between the two motions exists -/
  angle : ∀ x0', x0 = some x0' → ∀ x3 ∈ X2, (x0' = x1 ↔ x3 = x1)
  angleAfter : ∀ x3 ∈ X2, ∀ x4 ∈ X3, (x4 = x3 ↔ expectedThen x0 x1 x3 = x3)
  /-- likewise the new particles -/
  angleNew : ∀ x3 ∈ X2, ∀ v x4, NewImages s i3 v → s.position v = .ok x4 → (x4 = x3 ↔ expectedThen x0 x1 x3 = x3)

/-! ### Proof -/

theorem expectedNext_eq (s : Setup) (x0 : Option V3) (x1 : V3) : expected s.tracker x0 x1 = expectedNext x0 x1 := by
  cases x0 with
  | none => rfl
  | some x0 => rfl

theorem expectedThen_eq (s : Setup) (x0 : Option V3) (x1 x3 : V3) : expectedAfter s.tracker x0 x1 x3 = expectedThen x0 x1 x3 := by
  cases x0 with
  | none => rfl
  | some x0 =>
    show (x3.smul 5 - x1.smul 4 + x0).smul 0.5 = (x3.smul 5 - x1.smul 4 + x0).smul (1 / 2)
    norm_num

theorem projOwn_length {s : Setup} {i : Img ℝ} {h : Nat} {X : V3} (hi : Corresponds s i h) (hX : Projectable s X) :
    (s.projOwn i h X).length = s.cals.length := by
  classical
  obtain ⟨r, h2, h3⟩ := hi
  have key : ∀ cam, ∃ v, cam < s.cals.length → s.ownPix i h X cam = .ok v := by
    intro cam
    by_cases hc : cam < s.cals.length
    · obtain ⟨p, hp, hp'⟩ := h3 cam hc
      unfold Setup.ownPix
      rw [pyGet_some h2]
      simp only [bind, Except.bind]
      rw [pyGet_some hp]
      simp only
      rcases hp' with rfl | ⟨k, ts, rfl, ht, hk⟩
      · obtain ⟨v, hv⟩ := pix_ok hX cam hc
        exact ⟨v, fun _ => by rw [if_pos rfl]; exact hv⟩
      · refine ⟨((ts[k]).x, (ts[k]).y), fun _ => ?_⟩
        rw [if_neg (by omega), pyGet_some ht]
        simp only
        rw [pyGetI_nat (List.getElem?_eq_getElem hk)]
    · exact ⟨(0, 0), fun h => absurd h hc⟩
  choose v hv using key
  rw [Setup.projOwn, allOk_map (List.range s.cals.length) _ v (fun b hb => hv b (List.mem_range.1 hb))]
  simp

theorem tracker_search_total {s : Setup} (hn : 1 ≤ s.cals.length ∧ s.cals.length ≤ 2) (him : (s.ip.imx : ℝ) ≤ 10 ^ 19 ∧ (s.ip.imy : ℝ) ≤ 10 ^ 19)
    {X : V3} (hX : Projectable s X) {v : List (ℝ × ℝ)} (hv : v.length = s.cals.length) {i : Img ℝ} (hi : AllSeen s i) :
    ∃ w, s.tracker.search X v i = .ok w ∧ Ended 7 w := by
  obtain ⟨l, hl⟩ := sortedCandidates_total s.cams X v i.targets him hi hv (area_ok hX)
  refine ⟨_, ?_, sortedCandidates_ended (c := s.cams) him hn i.ok hl⟩
  show (sortedCandidates s.cams X v i.targets).bind _ = _
  rw [hl]
  rfl

theorem rest_free {K : Type} [Field K] [LinearOrder K] [IsStrictOrderedRing K] (ts : List (Search.Tgt K))
    (cx cy dl dr du dd imx imy : K) (him : imx ≤ 10 ^ 19 ∧ imy ≤ 10 ^ 19) :
    ∃ r, Search.candsearchInPixRest ts cx cy dl dr du dd imx imy (-1) = .ok r ∧
      (0 < r.1 → ∃ (i : Nat) (t : Search.Tgt K), r.2 = i ∧ ts[i]? = some t ∧ t.tnr = -1 ∧ 0 < t.x ∧ 0 < t.y) := by
  classical
  unfold Search.candsearchInPixRest
  simp only
  split_ifs with hc
  swap
  · exact ⟨_, rfl, fun h => by simp at h⟩
  obtain ⟨j0, h1, h2, -⟩ := Search.startPoint_ok (ts.map Search.Tgt.y) (Search.clip cx cy dl dr du dd imx imy).ymin
  rw [List.length_map] at h1 h2
  simp only [h1, bind, Except.bind]
  obtain ⟨k, s', h3, -, h4, -⟩ := Search.restLoop_spec ts (Search.clip cx cy dl dr du dd imx imy) cx cy (-1)
    (List.range' j0 (ts.length - j0)) (by intro j hj; rw [List.mem_range'_1] at hj; omega)
    (by
      rintro j ⟨t, a, -, b⟩
      rw [Search.clip_eq] at b
      exact Search.inWindow_dist ts cx cy dl dr du dd imx imy j hc him ⟨t, a, b⟩) [] (Search.BIG, -1)
    (Or.inl ⟨rfl, rfl⟩)
  rw [h3]
  refine ⟨_, rfl, ?_⟩
  rw [List.nil_append] at h4
  rcases h4 with ⟨-, e⟩ | ⟨j, hj, e, -⟩
  · rw [e]
    simp
  · rw [e]
    rw [List.mem_filter] at hj
    obtain ⟨t, a, b, c⟩ := of_decide_eq_true hj.2
    rw [Search.clip_eq] at c
    exact fun _ => ⟨j, t, rfl, a, b, lt_of_le_of_lt (le_max_right _ _) c.1.1, lt_of_le_of_lt (le_max_right _ _) c.2.1⟩

theorem two_of_countP {α : Type} (f : α → Bool) : ∀ l : List α, 2 ≤ l.countP f →
    ∃ (i j : Nat) (a b : α), i < j ∧ l[i]? = some a ∧ l[j]? = some b ∧ f a = true ∧ f b = true
  | [], h => by simp at h
  | a :: l, h => by
    by_cases ha : f a = true
    · rw [List.countP_cons_of_pos ha] at h
      obtain ⟨b, hb, hfb⟩ := List.countP_pos_iff.1 (show 0 < l.countP f by omega)
      obtain ⟨j, hj⟩ := List.getElem?_of_mem hb
      exact ⟨0, j + 1, a, b, by omega, rfl, by simpa using hj, ha, hfb⟩
    · rw [List.countP_cons_of_neg ha] at h
      obtain ⟨i, j, x, y, h1, h2, h3, h4, h5⟩ := two_of_countP f l h
      exact ⟨i + 1, j + 1, x, y, by omega, by simpa using h2, by simpa using h3, h4, h5⟩

/-- What `assess_new_position` finds. -/
theorem assessNew_images {s : Setup} (him : (s.ip.imx : ℝ) ≤ 10 ^ 19 ∧ (s.ip.imy : ℝ) ≤ 10 ^ 19) {X : V3} (hX : Projectable s X)
    {i : Img ℝ} (hi : AllSeen s i) :
    ∃ n v c, s.tracker.assess X i = .ok (n, v, c) ∧ (2 ≤ n → NewImages s i v) := by
  classical
  have key : ∀ cam, ∃ r, cam < s.cams.num → assessCam s.cams X i.targets cam = .ok r ∧
      ((r.1 = (coordUnused, coordUnused) ∧ used r.1 = false) ∨
        (used r.1 = true ∧ ∃ ts t, i.targets[cam]? = some ts ∧ t ∈ ts ∧ t.tnr = -1 ∧ r.1 = (t.x, t.y))) := by
    intro cam
    by_cases hc : cam < s.cams.num
    swap
    · exact ⟨((0, 0), 0), fun h => absurd h hc⟩
    obtain ⟨ts, t1, -⟩ := hi cam hc
    obtain ⟨px, hpx⟩ := pix_ok hX cam hc
    obtain ⟨r, r1, r2⟩ := rest_free ts px.1 px.2 ADD_PART ADD_PART ADD_PART ADD_PART s.cams.imx s.cams.imy him
    unfold assessCam
    rw [hpx, pyGet_some t1]
    simp only [bind, Except.bind]
    rw [r1]
    simp only
    by_cases h0 : r.1 > 0
    · rw [if_pos h0]
      obtain ⟨k, t, e, hk, ht, hx, hy⟩ := r2 h0
      rw [e, pyGetI_nat hk]
      refine ⟨_, fun _ => ⟨rfl, Or.inr ⟨?_, ts, t, t1, List.mem_of_getElem? hk, ht, rfl⟩⟩⟩
      refine decide_eq_true ⟨?_, ?_⟩ <;> intro e <;> simp only [COORD_UNUSED] at e <;> linarith
    · rw [if_neg h0]
      refine ⟨_, fun _ => ⟨rfl, Or.inl ⟨?_, by simp [used]⟩⟩⟩
      simp [COORD_UNUSED, coordUnused]
      norm_num
  choose f hf using key
  have hok := assessCams_ok (c := s.cams) (pos := X) (targets := i.targets) (f := f) (List.range s.cams.num)
    (fun cam h => (hf cam (List.mem_range.1 h)).1)
  refine ⟨_, _, _, by show assessNew s.cams X i.targets = _; simp only [assessNew, hok, bind, Except.bind]; rfl, ?_⟩
  have e : ∀ cam, cam < s.cams.num → ((List.range s.cams.num).map f)[cam]? = some (f cam) := by
    intro cam hc
    rw [List.getElem?_map, List.getElem?_range hc]; rfl
  have e1 : ∀ cam, cam < s.cams.num → (flattenCams s.cams ((List.range s.cams.num).map f))[cam]? =
      some (if used (f cam).1 then s.flat cam (f cam).1 else (f cam).1) := by
    intro cam hc
    rw [flattenCams, List.getElem?_mapIdx, e cam hc]; rfl
  have free : ∀ cam, cam < s.cams.num → used (f cam).1 = true → FreeTargetIn s i (flattenCams s.cams ((List.range s.cams.num).map f)) cam := by
    intro cam hc hu
    rcases (hf cam hc).2 with ⟨-, h⟩ | ⟨-, ts, t, h1, h2, h3, h4⟩
    · rw [hu] at h
      exact absurd h (by simp)
    · refine ⟨ts, t, h1, h2, h3, ?_⟩
      rw [e1 cam hc, if_pos hu, h4]
  intro h2
  refine ⟨by simp [flattenCams, Setup.cams], ?_, ?_⟩
  · intro cam hc
    rcases (hf cam hc).2 with ⟨h, h'⟩ | ⟨h, -⟩
    · left
      rw [e1 cam hc, h', h]
      simp
    · exact Or.inr (free cam hc h)
  · obtain ⟨c1, c2, a, b, h1, ha, hb, ua, ub⟩ := two_of_countP _ _ h2
    have l1 := (List.getElem?_eq_some_iff.1 ha).1
    have l2 := (List.getElem?_eq_some_iff.1 hb).1
    rw [List.length_map, List.length_range] at l1 l2
    rw [e c1 l1] at ha
    rw [e c2 l2] at hb
    cases ha
    cases hb
    exact ⟨c1, c2, h1, l2, free c1 l1 ua, free c2 l2 ub⟩

theorem camRays_ok {v : List (ℝ × ℝ)} {cals : List Cam} {mm : MM} : ∀ cams : List ℕ,
    (∀ cam ∈ cams, ∃ r, camRay v cals mm cam = .ok r) → ∃ rs, camRays v cals mm cams = .ok rs ∧ rs.length = cams.length ∧
      ∀ (k : ℕ) (cam : ℕ), cams[k]? = some cam → ∃ r, rs[k]? = some r ∧ camRay v cals mm cam = .ok r
  | [], _ => ⟨[], rfl, rfl, by simp⟩
  | cam :: cams, h => by
    obtain ⟨r, hr⟩ := h cam (by simp)
    obtain ⟨rs, h1, h2, h3⟩ := camRays_ok cams (fun c hc => h c (by simp [hc]))
    refine ⟨r :: rs, by simp only [camRays, hr, h1], by simp [h2], ?_⟩
    intro k c hk
    cases k with
    | zero => simp at hk; subst hk; exact ⟨r, rfl, hr⟩
    | succ k => simpa using h3 k c (by simpa using hk)

theorem foldl_pair_n (r : Ray) : ∀ (rs : List (Option Ray)) (a : PPAcc),
    (rs.foldl (addPairOpt r) a).n = a.n + rs.countP Option.isSome
  | [], a => by simp
  | none :: rs, a => by
    rw [List.foldl_cons, foldl_pair_n r rs]
    simp [addPairOpt]
  | some q :: rs, a => by
    rw [List.foldl_cons, foldl_pair_n r rs]
    simp only [addPairOpt, List.countP_cons, Option.isSome_some, if_true]
    unfold addPair
    simp only
    omega

theorem pairLoop_le : ∀ (rs : List (Option Ray)) (a : PPAcc), a.n ≤ (pairLoop rs a).n
  | [], a => le_refl _
  | none :: rs, a => pairLoop_le rs a
  | some r :: rs, a => by
    refine le_trans ?_ (pairLoop_le rs _)
    rw [foldl_pair_n]
    omega

theorem pairLoop_pos : ∀ (rs : List (Option Ray)) (a : PPAcc), 2 ≤ rs.countP Option.isSome → 0 < (pairLoop rs a).n
  | [], a, h => by simp at h
  | none :: rs, a, h => pairLoop_pos rs a (by simpa using h)
  | some r :: rs, a, h => by
    refine lt_of_lt_of_le ?_ (pairLoop_le rs _)
    rw [foldl_pair_n]
    rw [List.countP_cons_of_pos rfl] at h
    omega

theorem countP_two {α : Type} (f : α → Bool) : ∀ (l : List α) (i j : Nat) (a b : α), i < j → l[i]? = some a → l[j]? = some b →
    f a = true → f b = true → 2 ≤ l.countP f
  | [], i, j, a, b, _, h, _, _, _ => by simp at h
  | x :: l, 0, j + 1, a, b, _, ha, hb, fa, fb => by
    simp at ha
    subst ha
    rw [List.countP_cons_of_pos fa]
    have : 0 < l.countP f := List.countP_pos_iff.2 ⟨b, List.mem_of_getElem? (by simpa using hb), fb⟩
    omega
  | x :: l, i + 1, j + 1, a, b, hij, ha, hb, fa, fb => by
    have := countP_two f l i j a b (by omega) (by simpa using ha) (by simpa using hb) fa fb
    rw [List.countP_cons]
    omega

/-- A new particle is triangulated without error. -/
theorem position_total {s : Setup} {i : Img ℝ} (hr : RaysOK s i) {v : List (ℝ × ℝ)} (hv : NewImages s i v) :
    ∃ x, s.position v = .ok x := by
  obtain ⟨h1, h2, c1, c2, h3, h4, h5, h6⟩ := hv
  have ray : ∀ cam, cam < s.cals.length → FreeTargetIn s i v cam → ∃ r, camRay v (s.cals.map Prod.fst) s.mm cam = .ok (some r) := by
    intro cam hc ⟨ts, t, a1, a2, a3, a4⟩
    obtain ⟨b1, r, b2⟩ := hr cam s.cals[cam] ts t (List.getElem?_eq_getElem hc) a1 a2 a3
    refine ⟨r, ?_⟩
    unfold camRay
    have hget : (s.cals.map Prod.fst)[cam]? = some s.cals[cam].1 := by
      rw [List.getElem?_map, List.getElem?_eq_getElem hc]; rfl
    rw [pyGet_some a4]
    simp only
    rw [if_neg b1, pyGet_some hget]
    simp only [b2]
  have all : ∀ cam ∈ List.range s.cals.length, ∃ r, camRay v (s.cals.map Prod.fst) s.mm cam = .ok r := by
    intro cam hc
    rw [List.mem_range] at hc
    rcases h2 cam hc with h | h
    · refine ⟨none, ?_⟩
      unfold camRay
      rw [pyGet_some h]
      simp
    · obtain ⟨r, hr⟩ := ray cam hc h
      exact ⟨_, hr⟩
  obtain ⟨rs, q1, q2, q3⟩ := camRays_ok _ all
  have two : 2 ≤ rs.countP Option.isSome := by
    obtain ⟨r1, e1⟩ := ray c1 (by omega) h5
    obtain ⟨r2, e2⟩ := ray c2 h4 h6
    obtain ⟨x1, f1, g1⟩ := q3 c1 c1 (List.getElem?_range (by omega))
    obtain ⟨x2, f2, g2⟩ := q3 c2 c2 (List.getElem?_range h4)
    rw [e1] at g1
    rw [e2] at g2
    cases g1
    cases g2
    exact countP_two _ rs c1 c2 _ _ h3 f1 f2 rfl rfl
  have hpos := pairLoop_pos rs ⟨0, some (0, 0)⟩ two
  unfold Setup.position pointPosition
  simp only [q1]
  rw [if_neg (by omega)]
  split
  · exact ⟨_, rfl⟩
  · exact ⟨_, rfl⟩
  · rename_i h
    cases h

theorem calls_ok_of {s : Setup} (him : (s.ip.imx : ℝ) ≤ 10 ^ 19 ∧ (s.ip.imy : ℝ) ≤ 10 ^ 19) {m : Nat}
    {b1 b2 b3 : Frame V3 ℝ (Img ℝ)} (h3 : AllSeen s b3.img) (hr : RaysOK s b3.img) {h : Nat} {x0 : Option V3}
    {x1 : V3} (ht : Trackable s b1.img h x0 x1 (b2.parts.map Part.x) b2.img (b3.parts.map Part.x) b3.img)
    (hs : ∃ w, s.tracker.search (expectedNext x0 x1) (s.tracker.centreProj x0 b1 h (expectedNext x0 x1)) b2.img = .ok w ∧ Ended m w)
    (ha : ∀ r ∈ b2.parts, ∃ w, s.tracker.search (expectedThen x0 x1 r.x) (s.tracker.proj (expectedThen x0 x1 r.x)) b3.img = .ok w ∧
      Ended m w) :
    CallsOK s.tracker b1 b2 b3 m h x0 x1 where
  search := by
    rw [expectedNext_eq]
    exact hs
  ahead := by
    intro r hr
    rw [expectedThen_eq]
    exact ha r hr
  assess := by
    intro r hr'
    rw [expectedThen_eq]
    have hX := ht.after r.x (List.mem_map_of_mem hr')
    obtain ⟨n, v, c, a1, a2⟩ := assessNew_images him hX h3
    refine ⟨n, v, c, a1, fun hn => ?_⟩
    obtain ⟨x4, hx⟩ := position_total hr (a2 hn)
    refine ⟨x4, hx, fun _ _ => ?_⟩
    obtain ⟨angle, h⟩ := angleAcc_ok (ht.angleNew r.x (List.mem_map_of_mem hr') v x4 (a2 hn) hx)
    exact ⟨_, h⟩
  angle0 := by
    intro hs r hr'
    obtain ⟨x0', rfl⟩ := Option.isSome_iff_exists.1 hs
    rw [expectedNext_eq]
    have := ht.angle x0' rfl r.x (List.mem_map_of_mem hr')
    obtain ⟨angle, h⟩ := angleAcc_ok (a := x1) (b := expectedNext (some x0') x1) (c := r.x) (by
      rw [← this]
      constructor
      · intro e
        have hx := congrArg V3.x e
        have hy := congrArg V3.y e
        have hz := congrArg V3.z e
        simp [expectedNext, V3.smul] at hx hy hz
        ext <;> linarith
      · intro e
        rw [e]
        ext <;> simp [expectedNext, V3.smul] <;> ring)
    exact ⟨_, h⟩
  angle1 := by
    intro r hr' q hq _
    rw [expectedThen_eq]
    obtain ⟨angle, h⟩ := angleAcc_ok (ht.angleAfter r.x (List.mem_map_of_mem hr') q.x (List.mem_map_of_mem hq))
    exact ⟨_, h⟩

theorem calls_ok {s : Setup} (hn : 1 ≤ s.cals.length ∧ s.cals.length ≤ 2) (him : (s.ip.imx : ℝ) ≤ 10 ^ 19 ∧ (s.ip.imy : ℝ) ≤ 10 ^ 19)
    {b1 b2 b3 : Frame V3 ℝ (Img ℝ)} (h2 : AllSeen s b2.img) (h3 : AllSeen s b3.img) (hr : RaysOK s b3.img) {h : Nat} {x0 : Option V3}
    {x1 : V3} (ht : Trackable s b1.img h x0 x1 (b2.parts.map Part.x) b2.img (b3.parts.map Part.x) b3.img) :
    CallsOK s.tracker b1 b2 b3 7 h x0 x1 := by
  refine calls_ok_of him h3 hr ht ?_ ?_
  · refine tracker_search_total hn him ht.next ?_ h2
    cases x0 with
    | none => exact projOwn_length (ht.own rfl) ht.next
    | some x0 => exact proj_length ht.next
  · intro r hr
    have hX := ht.after r.x (List.mem_map_of_mem hr)
    exact tracker_search_total hn him hX (proj_length hX) h3

/-- C99 (partial): a forward step does not raise, whatever the number of particles and targets: with one or two cameras, without
adding, if every camera has a target in the next frames, the frame to link to has no links, and every particle is trackable.
Missing: more than two cameras (false in general: `C99_no_end_refuted`, `C99_eighty_refuted`; under conditions: `C99_run_four_partial`), a camera without target (false:
`C99_empty_camera_refuted`), a particle at rest (false: `C99_rest_refuted`), and adding. -/
theorem C99_step_returns_partial (s : Setup) (hn : 1 ≤ s.cals.length ∧ s.cals.length ≤ 2) (hadd : s.add = false)
    (him : (s.ip.imx : ℝ) ≤ 10 ^ 19 ∧ (s.ip.imy : ℝ) ≤ 10 ^ 19) (b0 b1 b2 b3 : Frame V3 ℝ (Img ℝ))
    (h2 : AllSeen s b2.img) (h3 : AllSeen s b3.img) (hr : RaysOK s b3.img) (hfree : ∀ q ∈ b2.parts, q.prev = PREV_NONE)
    (hc : ∀ h p, b1.parts[h]? = some p → ∃ x0, Predecessor (b0.parts.map Part.x) p x0 ∧
      Trackable s b1.img h x0 p.x (b2.parts.map Part.x) b2.img (b3.parts.map Part.x) b3.img) :
    ∃ r, stepFrames s.tracker b0 b1 b2 b3 = .ok r := by
  have hg : SearchSane s.tracker := C81_search_sane s.cams _ him (by show s.cals.length ≤ 4; omega)
  suffices H : ∀ h p, b1.parts[h]? = some p → ∃ x0, prevPos b0 p = .ok x0 ∧ CallsOK s.tracker b1 b2 b3 7 h x0 p.x by
    obtain ⟨b1', b2', k, h, -⟩ := stepFrames_total hg hadd (m := 7) (by decide) hfree H
    exact ⟨_, h⟩
  intro h p hp
  obtain ⟨x0, h1, h2'⟩ := hc h p hp
  refine ⟨x0, ?_, calls_ok hn him h2 h3 hr h2'⟩
  unfold Predecessor at h1
  unfold prevPos
  split_ifs at h1 with hneg
  · rw [if_neg (by omega), h1]
  · obtain ⟨a, b⟩ := h1
    rw [if_pos (by omega)]
    rw [List.getElem?_map] at b
    rcases hq : b0.parts[p.prev.toNat]? with _ | q
    · rw [hq] at b
      exact absurd b.symm a
    · rw [hq] at b
      have hpy : pyGetI b0.parts p.prev = .ok q := by
        unfold pyGetI
        rw [if_pos (by omega)]
        exact pyGet_some hq
      rw [hpy, ← b]
      rfl

/-- C99 (partial), a whole run: it does not raise. Frames as read from new files (no links), one or two cameras, no adding; every
camera has a target in every frame; and every particle of a frame is trackable, whichever particle of the frame before (if any) it
is linked to. (In the last step there is no frame after next: the tracker looks at a frame it has seen before, `frameAfter`.) The
run then writes all frames, with mutual links. Missing: as in `C99_step_returns_partial`, and runs over fewer than four frames. -/
theorem C99_run_returns_partial (s : Setup) (hn : 1 ≤ s.cals.length ∧ s.cals.length ≤ 2) (hadd : s.add = false)
    (him : (s.ip.imx : ℝ) ≤ 10 ^ 19 ∧ (s.ip.imy : ℝ) ≤ 10 ^ 19) (disk : Int → Frame V3 ℝ (Img ℝ))
    (hd : ∀ n, ∀ p ∈ (disk n).parts, Unlinked p) (first : Int) (L : Nat) (hL : 3 ≤ L)
    (hseen : ∀ n, first ≤ n → n ≤ first + L → AllSeen s (disk n).img ∧ RaysOK s (disk n).img)
    (hc : ∀ n, first ≤ n → n < first + L → ∀ (h : Nat) (x1 : V3), ((disk n).parts.map Part.x)[h]? = some x1 →
      ∀ x0, (x0 = none ∨ first < n ∧ ∃ x ∈ (disk (n - 1)).parts.map Part.x, x0 = some x) →
      Trackable s (disk n).img h x0 x1 ((disk (n + 1)).parts.map Part.x) (disk (n + 1)).img
        ((disk (frameAfter (first + L) n)).parts.map Part.x) (disk (frameAfter (first + L) n)).img)
    (a b c d : Frame V3 ℝ (Img ℝ)) :
    ∃ r, forwardRun disk (trackBuf s.tracker) first (first + L) [a, b, c, d] = .ok r ∧
      (writesOf r.log).length = L + 1 ∧ LinkChain (writesOf r.log) := by
  have hg : SearchSane s.tracker := C81_search_sane s.cams _ him (by show s.cals.length ≤ 4; omega)
  obtain ⟨r, hr⟩ := total_run hg hadd hd (m := 7) (by decide) (first := first) (L := L) (by
    intro n h1 h2 h x1 hx x0 h0 b1 b2 b3 e1 e2 e3 e4
    obtain ⟨w1, -⟩ := hseen (n + 1) (by omega) (by omega)
    have hfa : first ≤ frameAfter (first + L) n ∧ frameAfter (first + L) n ≤ first + L := by
      unfold frameAfter
      split_ifs <;> omega
    obtain ⟨w2, w3⟩ := hseen _ hfa.1 hfa.2
    have ht := hc n h1 h2 h x1 hx x0 h0
    rw [← e1, ← e2, ← e3, ← e4] at ht
    exact calls_ok hn him (by rw [e2]; exact w1) (by rw [e4]; exact w2) (by rw [e4]; exact w3) ht) hL a b c d
  obtain ⟨h1, h2, -⟩ := C16_run_mutual s.tracker hg disk hd first L _ _ _ _ r hr
  exact ⟨r, hr, h1, h2⟩

/-! ### When it raises -/

theorem lookAhead_no_angle {g : Geo V3 (List (ℝ × ℝ)) (List Int) (Img ℝ) ℝ} {ctx : Ctx V3} {b3 : Frame V3 ℝ (Img ℝ)} {e : PyErr}
    (h0 : ctx.x0.isSome = true) (he : g.angleAcc ctx.x1 ctx.x2 ctx.x3 = .error e) : ∀ (l : List Found) (cur cur' : Part V3 ℝ),
    lookAhead g ctx b3 l cur = .ok cur' → cur' = cur
  | [], cur, cur', h => by simp [lookAhead] at h
  | fn :: l, cur, cur', h => by
    rw [lookAhead] at h
    split_ifs at h with hend
    · exact (Except.ok.inj h).symm
    obtain ⟨q, -, h⟩ := bind_ok h
    split_ifs at h with hb
    · obtain ⟨⟨angle1, acc1⟩, -, h⟩ := bind_ok h
      simp only [he] at h
      exact absurd h (by simp [bind, Except.bind])
    · exact lookAhead_no_angle h0 he l cur cur' h

theorem angleAcc_rest {a c : V3} (h : c ≠ a) : angleAcc a a c = .error .zeroDivision := by
  have h1 : (c - a) ≠ 0 := by
    intro e
    apply h
    have hx := congrArg V3.x e
    have hy := congrArg V3.y e
    have hz := congrArg V3.z e
    simp at hx hy hz
    ext <;> linarith
  unfold angleAcc
  have h0 : a - a = (0 : V3) := by ext <;> simp
  simp only [h0]
  rw [if_neg, if_neg, if_pos]
  · rw [V3.norm_eq_zero.2 rfl, zero_mul]
  · exact fun e => h1 (e.symm.trans h0)
  · intro e
    apply h1
    have hx := congrArg V3.x e
    have hy := congrArg V3.y e
    have hz := congrArg V3.z e
    simp [neg] at hx hy hz
    ext <;> simp <;> linarith

/-- C99 is false for a particle at rest: if a particle, the only one, does not move from one frame to the next and then does, within
the velocity limits, the step that would link it raises (the angle between the two motions does not exist). For every set-up with
1 to 4 cameras, whatever the frame after next. -/
theorem C99_rest_refuted (s : Setup) (hn : 1 ≤ s.cals.length ∧ s.cals.length ≤ 4) (b0 b1 b2 b3 : Frame V3 ℝ (Img ℝ))
    (p0 p r : Part V3 ℝ) (h0 : b0.parts = [p0]) (h1 : b1.parts = [p]) (h2 : b2.parts = [r]) (hprev : p.prev = 0)
    (i2 : LoneImage s b2.img) (i3 : LoneImage s b3.img) (hrest : p0.x = p.x) (hmoves : r.x ≠ p.x)
    (hv : Pos3dInBounds (r.x - p.x) s.vel) (hp : Projectable s p.x)
    (hp' : Projectable s (expectedThen (some p.x) p.x r.x)) (out) :
    stepFrames s.tracker b0 b1 b2 b3 ≠ .ok out := by
  intro h
  unfold stepFrames at h
  obtain ⟨⟨b1', b2', b3'⟩, h, -⟩ := bind_ok h
  rw [h1] at h
  rw [show List.range [p].length = [0] from rfl] at h
  rw [searchLoop] at h
  obtain ⟨y, h, -⟩ := bind_ok h
  unfold searchOne at h
  obtain ⟨p', hp0, h⟩ := bind_ok h
  rw [h1] at hp0
  cases hp0
  obtain ⟨x0, hx0, h⟩ := bind_ok h
  have : x0 = some p.x := by
    unfold prevPos at hx0
    rw [hprev, if_pos (by omega), h0] at hx0
    cases hx0
    rw [hrest]
  subst this
  have hcen : s.tracker.centre (some p.x) p.x = p.x := by
    show p.x.smul 2 - p.x = p.x
    ext <;> simp [V3.smul] <;> ring
  simp only [hcen] at h
  have hpr : s.tracker.centreProj (some p.x) b1 0 p.x = s.proj p.x := rfl
  rw [hpr, tracker_search_one hn hp (proj_length hp) i2] at h
  simp only [bind, Except.bind, List.length_cons, List.length_nil] at h
  rw [if_neg (by omega)] at h
  have hang : s.tracker.angleAcc p.x p.x r.x = .error .zeroDivision := angleAcc_rest hmoves
  have hcand : ∀ out, candLoop s.tracker (some p.x) p.x p.x b2 [⟨0, s.cals.length⟩, ⟨-1, 0⟩] { p with cands := [] } b3 ≠ .ok out := by
    intro out h
    rw [candLoop, if_neg (by simp [h2, TR_UNUSED])] at h
    obtain ⟨r', hr', h⟩ := bind_ok h
    rw [h2] at hr'
    cases hr'
    obtain ⟨⟨y1, y2⟩, h, -⟩ := bind_ok h
    unfold candOne at h
    have hx5 : s.tracker.ahead (some p.x) p.x r.x = expectedThen (some p.x) p.x r.x :=
      expectedThen_eq s (some p.x) p.x r.x
    simp only [hx5] at h
    obtain ⟨wn, -, h⟩ := bind_ok h
    obtain ⟨cur1, hc1, h⟩ := bind_ok h
    have hc : cur1 = { p with cands := [] } := by
      split_ifs at hc1 with hw
      · exact lookAhead_no_angle rfl hang wn _ _ hc1
      · exact (Except.ok.inj hc1).symm
    subst hc
    obtain ⟨⟨cur2, b3''⟩, hc2, h⟩ := bind_ok h
    obtain ⟨v, c, ha⟩ := assessNew_one s.cams _ b3.img.targets i3.1 (pix_ok hp')
    rw [tryNew_few (q := 0) (v := v) (c := c) ha (by omega)] at hc2
    cases hc2
    obtain ⟨cur3, hc3, -⟩ := bind_ok h
    unfold tryPlain at hc3
    simp only [if_true] at hc3
    have hib : s.tracker.inBounds (s.tracker.sub r.x p.x) = true := @decide_eq_true _ (Classical.propDecidable _) hv
    rw [if_pos hib, hang] at hc3
    cases hc3
  rcases hcl : candLoop s.tracker (some p.x) p.x p.x b2 [⟨0, s.cals.length⟩, ⟨-1, 0⟩] { p with cands := [] } b3 with e | out'
  · rw [hcl] at h
    cases h
  · exact hcand _ hcl

/-- C99 is false for a camera without targets: if the current frame has a particle, and some camera has no target in the next frame,
the step raises. For all cameras, all geometry. -/
theorem C99_empty_camera_refuted {P K D : Type} [Field K] [LinearOrder K] [IsStrictOrderedRing K] [Field D] [LinearOrder D]
    (c : Cams P K) (base : Geo P (List (K × K)) (List Int) (Img K) D) (him : c.imx ≤ 10 ^ 19 ∧ c.imy ≤ 10 ^ 19)
    (b0 b1 b2 b3 : Frame P D (Img K)) (hp : b1.parts ≠ []) (cam : Nat) (hcam : cam < c.num) (hempty : b2.img.targets[cam]? = some [])
    (out) : stepFrames (withCams c base) b0 b1 b2 b3 ≠ .ok out := by
  intro h
  unfold stepFrames at h
  obtain ⟨⟨b1', b2', b3'⟩, h, -⟩ := bind_ok h
  obtain ⟨p, ps, e⟩ := List.exists_cons_of_ne_nil hp
  rw [e, List.length_cons, List.range_succ_eq_map, searchLoop] at h
  obtain ⟨y, h, -⟩ := bind_ok h
  unfold searchOne at h
  obtain ⟨p', -, h⟩ := bind_ok h
  obtain ⟨x0, -, h⟩ := bind_ok h
  obtain ⟨w, h, -⟩ := bind_ok h
  simp only [withCams] at h
  obtain ⟨l, h, -⟩ := bind_ok h
  unfold sortedCandidates at h
  obtain ⟨as, -, h⟩ := bind_ok h
  obtain ⟨rows, h, -⟩ := bind_ok h
  have key : ∀ (cams : List Nat) (rows : List FP), cam ∈ cams → ∀ proj, registerCams c b2.img.targets proj as cams ≠ .ok rows := by
    intro cams
    induction cams with
    | nil => intro _ h; simp at h
    | cons c' cams ih =>
      intro rows hm proj h
      rw [registerCams] at h
      obtain ⟨reg, hreg, h⟩ := bind_ok h
      obtain ⟨rest, hrest, -⟩ := bind_ok h
      rcases List.mem_cons.1 hm with rfl | hm
      · unfold registerCam at hreg
        obtain ⟨ts, hts, hreg⟩ := bind_ok hreg
        rw [pyGet_some hempty] at hts
        cases hts
        obtain ⟨v, -, hreg⟩ := bind_ok hreg
        obtain ⟨a, -, hreg⟩ := bind_ok hreg
        unfold registerClosest at hreg
        obtain ⟨cs, hcs, hreg⟩ := bind_ok hreg
        obtain ⟨L, l1, l2, l3, -⟩ := Search.C12_nearest_sound ([] : List (Search.Tgt K)) v.1 v.2 a.left a.right a.up a.down c.imx c.imy him
        rw [l2] at hcs
        cases hcs
        have : L = [] := by
          cases L with
          | nil => rfl
          | cons i L =>
            obtain ⟨t, ht, -⟩ := l3 i (by simp)
            simp at ht
        subst this
        simp [registerLoop, PT_UNUSED, pyGetI, bind, Except.bind] at hreg
      · exact ih rest hm proj hrest
  exact key _ rows (List.mem_range.2 hcam) _ h

/-! Three and four cameras: small exact cases. All particles are at rest at 0; the cameras see them where the target lists say. -/

def stillCams (n : Nat) : Cams ℚ ℚ := ⟨n, 100, 100, fun _ _ => .ok (50, 50), fun _ _ => .ok ⟨5, 5, 5, 5⟩, fun _ p => p⟩

def stillGeo (n : Nat) : Geo ℚ (List (ℚ × ℚ)) (List Int) (Img ℚ) ℚ :=
  withCams (stillCams n)
  { predict := fun a b => 2 * b - a
    predict2 := fun x3 x1 x0 => (5 * x3 - 4 * x1 + x0) / 2
    sub := fun a b => a - b
    dist := fun a b => |a - b|
    proj := fun _ => List.replicate n (50, 50)
    projOwn := fun _ _ _ => List.replicate n (50, 50)
    search := fun _ _ _ => .error .other
    assess := fun _ _ => .error .other
    pointPos := fun _ => .ok 0
    inVolume := fun _ => true
    inBounds := fun x => decide (|x| < 2)
    angleAcc := fun _ b c => .ok (0, |b - c|)
    addImg := fun i _ _ => .ok i
    dacc := 5
    dangle := 100
    lmax := 1
    add := false }

/-- A frame with `k` particles and these targets. -/
def stillFrame (k : Nat) (ts : List (List (Search.Tgt ℚ))) (h : ∀ l ∈ ts, ∀ t ∈ l, -1 ≤ t.tnr) : Frame ℚ ℚ (Img ℚ) :=
  ⟨0, List.replicate k ⟨0, PREV_NONE, NEXT_NONE, [], 0⟩, ⟨ts, [], h⟩⟩

def threeCamTargets : List (List (Search.Tgt ℚ)) :=
  [[⟨50, 50, 1⟩, ⟨50, 51, 2⟩, ⟨50, 53, 0⟩], [⟨50, 20, 0⟩, ⟨50, 30, 1⟩, ⟨50, 50, 2⟩], [⟨50, 47, 2⟩, ⟨50, 48, 0⟩, ⟨50, 51, 1⟩]]

def fourCamTargets : List (List (Search.Tgt ℚ)) :=
  [[⟨50, 20, 1⟩, ⟨50, 50, 0⟩], [⟨50, 50, 0⟩, ⟨50, 51, 1⟩], [⟨50, 50, 0⟩, ⟨50, 51, 1⟩], [⟨50, 50, 0⟩, ⟨50, 51, 1⟩]]

def stillStep (n k : Nat) (ts : List (List (Search.Tgt ℚ))) (h : ∀ l ∈ ts, ∀ t ∈ l, -1 ≤ t.tnr) :
    Py (Frame ℚ ℚ (Img ℚ) × Frame ℚ ℚ (Img ℚ) × Frame ℚ ℚ (Img ℚ) × Nat) :=
  stepFrames (stillGeo n) (stillFrame k ts h) (stillFrame k ts h) (stillFrame k ts h) (stillFrame k ts h)

def errOf {α : Type} : Py α → Option PyErr
  | .ok _ => none
  | .error e => some e

/-- C99 is false for three cameras: three particles, each camera shows all three; the search finds the particles 1 and 2, no end
mark behind them, and the step raises. -/
theorem C99_no_end_refuted :
    errOf (stillStep 3 3 threeCamTargets (by decide +kernel)) = some .indexError ∧
      (∀ ts ∈ threeCamTargets, ∀ k ∈ [0, 1, 2], ∃ t ∈ ts, t.tnr = k) ∧
      ∃ l, sortedCandidates (stillCams 3) 0 (List.replicate 3 (50, 50)) threeCamTargets = .ok l ∧ ∀ r ∈ l, r.ftnr ≠ TR_UNUSED := by
  refine ⟨by decide +kernel, by decide +kernel, ?_⟩
  have : ∃ l, sortedCandidates (stillCams 3) 0 (List.replicate 3 (50, 50)) threeCamTargets = .ok l := by
    refine sortedCandidates_total _ _ _ _ (by norm_num [stillCams]) ?_ rfl (fun _ _ => ⟨_, rfl⟩)
    intro cam h
    have h : cam < 3 := h
    have : cam = 0 ∨ cam = 1 ∨ cam = 2 := by omega
    rcases this with rfl | rfl | rfl <;> exact ⟨_, rfl, by simp⟩
  obtain ⟨l, hl⟩ := this
  refine ⟨l, hl, ?_⟩
  have key : ((sortedCandidates (stillCams 3) 0 (List.replicate 3 (50, 50)) threeCamTargets).map fun l =>
      l.map fun r => r.ftnr) = .ok [2, 1, 1, 1, 1, 1, 1, 1, 1, 1, 1, 1] := by decide +kernel
  rw [hl] at key
  have key : (l.map fun r => r.ftnr) = [2, 1, 1, 1, 1, 1, 1, 1, 1, 1, 1, 1] := Except.ok.inj key
  intro r hr
  have : r.ftnr ∈ l.map fun r => r.ftnr := List.mem_map_of_mem hr
  rw [key] at this
  simp at this
  rcases this with h | h <;> rw [h] <;> decide

/-- C99 is false for four cameras: with two particles only, the search lists particle 1 thirteen times, in this frame and in the one
after; every pair of candidates is registered, more than 80 of them, and the step raises. -/
theorem C99_eighty_refuted : errOf (stillStep 4 2 fourCamTargets (by decide +kernel)) = some .indexError ∧
    ((sortedCandidates (stillCams 4) 0 (List.replicate 4 (50, 50)) fourCamTargets).map fun l =>
      l.map fun r => r.ftnr) = .ok (0 :: List.replicate 13 1 ++ [-1]) := by
  constructor <;> decide +kernel

/-! ### Examples -/

/-- The same two particles and two cameras: no error. -/
example : errOf (stillStep 2 2 (fourCamTargets.take 2) (by decide +kernel)) = none := by decide +kernel

theorem air_seen (x : Int → ℝ) (n : Int) : AllSeen airSetup (airDisk x n).img ∧ RaysOK airSetup (airDisk x n).img := by
  have hl := airImg_lone (x n)
  refine ⟨?_, ?_⟩
  · intro cam hc
    obtain ⟨t, h1, -⟩ := hl.1 cam hc
    exact ⟨[t], h1, by simp⟩
  · intro cam c ts t hc hts ht hnr
    have hlt := (List.getElem?_eq_some_iff.1 hc).1
    obtain ⟨t', h1, h2⟩ := hl.1 cam hlt
    have h1' : (airDisk x n).img.targets[cam]? = some [t'] := h1
    rw [h1'] at hts
    cases hts
    rw [List.mem_singleton] at ht
    rw [ht, h2] at hnr
    exact absurd hnr (by decide)

theorem air_no_new (x : Int → ℝ) (n : Int) (v : List (ℝ × ℝ)) : ¬ NewImages airSetup (airDisk x n).img v := by
  rintro ⟨-, -, c1, c2, h12, hc2, ⟨ts, t, h1, h2, h3, -⟩, -⟩
  obtain ⟨t', h4, h5⟩ := (airImg_lone (x n)).1 c1 (by omega)
  have h4' : (airDisk x n).img.targets[c1]? = some [t'] := h4
  rw [h4'] at h1
  cases h1
  rw [List.mem_singleton] at h2
  rw [h2, h5] at h3
  exact absurd h3 (by decide)

theorem curve3_ne {n m : Int} (hn : 0 ≤ n) (hm : 0 ≤ m) (h : n ≠ m) : curve3 n ≠ curve3 m := by
  intro e
  have := congrArg V3.x e
  simp only [curve3, curve] at this
  have h1 : (0 : ℝ) ≤ n := by exact_mod_cast hn
  have h2 : (0 : ℝ) ≤ m := by exact_mod_cast hm
  have h3 : ((n : ℝ) - m) * (1 + ((n : ℝ) + m) / 100) = 0 := by linarith
  rcases mul_eq_zero.1 h3 with h4 | h4
  · apply h
    have : (n : ℝ) = m := by linarith
    exact_mod_cast this
  · linarith

theorem curve_trackable (n : Int) (h0 : 0 ≤ n) (h5 : n < 5) (x0 : Option V3) (hx : x0 = none ∨ 0 < n ∧ x0 = some (curve3 (n - 1))) :
    Trackable airSetup (airDisk curve n).img 0 x0 (curve3 n) [curve3 (n + 1)] (airDisk curve (n + 1)).img
      [curve3 (frameAfter 5 n)] (airDisk curve (frameAfter 5 n)).img := by
  have hfa : 0 ≤ frameAfter 5 n ∧ frameAfter 5 n ≠ n + 1 := by
    unfold frameAfter
    split_ifs <;> omega
  have hthen : expectedThen x0 (curve3 n) (curve3 (n + 1)) ≠ curve3 (n + 1) := by
    intro e
    have := congrArg V3.x e
    rcases hx with rfl | ⟨h, rfl⟩
    · simp only [expectedThen, curve3, curve, V3.smul, V3.sub_x] at this
      have h1 : (0 : ℝ) ≤ n := by exact_mod_cast h0
      push_cast at this
      nlinarith
    · simp only [expectedThen, curve3, curve, V3.smul, V3.sub_x, V3.add_x] at this
      have h1 : (0 : ℝ) ≤ n := by exact_mod_cast h0
      push_cast at this
      nlinarith
  refine ⟨?_, ?_, ?_, ?_, ?_, ?_⟩
  · intro _
    refine ⟨⟨1, [0, 0]⟩, rfl, ?_⟩
    intro cam hc
    have : cam < 2 := hc
    have : cam = 0 ∨ cam = 1 := by omega
    rcases this with rfl | rfl <;> exact ⟨0, rfl, Or.inr ⟨0, _, rfl, rfl, by simp⟩⟩
  · rcases hx with rfl | ⟨h, rfl⟩ <;> exact airSetup_projectable (by norm_num [curve3, expectedNext, V3.smul])
  · intro x3 h3
    rw [List.mem_singleton] at h3
    subst h3
    rcases hx with rfl | ⟨h, rfl⟩ <;> exact airSetup_projectable (by norm_num [curve3, expectedThen, V3.smul])
  · intro x0' e x3 h3
    rw [List.mem_singleton] at h3
    subst h3
    rcases hx with rfl | ⟨h, rfl⟩
    · cases e
    · cases e
      exact ⟨fun e => absurd e (curve3_ne (by omega) h0 (by omega)), fun e => absurd e (curve3_ne (by omega) h0 (by omega))⟩
  · intro x3 h3 x4 h4
    rw [List.mem_singleton] at h3 h4
    subst h3 h4
    exact ⟨fun e => absurd e (curve3_ne hfa.1 (by omega) hfa.2), fun e => absurd e hthen⟩
  · intro x3 _ v x4 hv
    exact absurd hv (air_no_new _ _ _)

/-- The hypotheses of `C99_run_returns_partial` hold for the accelerated particle seen by two cameras. -/
example (a b c d : Frame V3 ℝ (Img ℝ)) :
    ∃ r, forwardRun (airDisk curve) (trackBuf airSetup.tracker) 0 (0 + (5 : ℕ)) [a, b, c, d] = .ok r ∧
      (writesOf r.log).length = 5 + 1 ∧ LinkChain (writesOf r.log) := by
  refine C99_run_returns_partial airSetup (by simp [airSetup]) rfl (by norm_num [airSetup]) _ ?_ 0 5 (by norm_num)
    (fun n _ _ => air_seen curve n) ?_ a b c d
  · intro n p hp
    simp only [airDisk, List.mem_singleton] at hp
    subst hp
    exact ⟨rfl, rfl⟩
  · intro n h1 h2 h x1 hx x0 h0
    have hh : h = 0 ∧ x1 = curve3 n := by
      cases h with
      | zero => simp [airDisk] at hx; exact ⟨rfl, by rw [← hx]; rfl⟩
      | succ h => simp [airDisk] at hx
    obtain ⟨rfl, rfl⟩ := hh
    refine curve_trackable n h1 (by push_cast at h2; omega) x0 ?_
    rcases h0 with h0 | ⟨h0, x, hx, rfl⟩
    · exact Or.inl h0
    · simp only [airDisk, List.map_cons, List.map_nil, List.mem_singleton] at hx
      exact Or.inr ⟨h0, by rw [hx]; rfl⟩

/-- and those of `C99_step_returns_partial`. -/
example : ∃ r, stepFrames airSetup.tracker (airDisk curve 0)
    { airDisk curve 1 with parts := [⟨curve3 1, 0, NEXT_NONE, [], 0⟩] } (airDisk curve 2) (airDisk curve 3) = .ok r := by
  refine C99_step_returns_partial airSetup (by simp [airSetup]) rfl (by norm_num [airSetup]) _ _ _ _ (air_seen _ _).1 (air_seen _ _).1
    (air_seen _ _).2 (by simp [airDisk]) ?_
  intro h p hp
  cases h with
  | succ h => simp at hp
  | zero =>
    simp at hp
    subst hp
    exact ⟨some (curve3 0), by simp [Predecessor, airDisk, curve3], curve_trackable 1 (by norm_num) (by norm_num) _ (Or.inr ⟨by norm_num, by norm_num⟩)⟩

/-- A particle at rest, then moving: all hypotheses of `C99_rest_refuted` hold. -/
example (out) : stepFrames airSetup.tracker (airDisk (fun _ => 0) 0)
    { airDisk (fun _ => 0) 1 with parts := [⟨⟨0, 0, 0⟩, 0, NEXT_NONE, [], 0⟩] } (airDisk (fun _ => 1) 2) (airDisk (fun _ => 2) 3)
    ≠ .ok out := by
  refine C99_rest_refuted airSetup (by simp [airSetup]) _ _ _ _ ⟨⟨0, 0, 0⟩, PREV_NONE, NEXT_NONE, [], 0⟩
    ⟨⟨0, 0, 0⟩, 0, NEXT_NONE, [], 0⟩ _ rfl rfl rfl rfl (airImg_lone _) (airImg_lone _) rfl ?_ ?_ ?_ ?_ out
  · intro e
    have := congrArg V3.x e
    norm_num at this
  · norm_num [Pos3dInBounds, airSetup]
  · exact airSetup_projectable (by norm_num)
  · exact airSetup_projectable (by norm_num [expectedThen, V3.smul])

/-- `C99_empty_camera_refuted`: the second of two cameras shows nothing. -/
example (out) : stepFrames (stillGeo 2) (stillFrame 1 [[⟨50, 50, 0⟩], []] (by decide +kernel))
    (stillFrame 1 [[⟨50, 50, 0⟩], []] (by decide +kernel)) (stillFrame 1 [[⟨50, 50, 0⟩], []] (by decide +kernel))
    (stillFrame 1 [[⟨50, 50, 0⟩], []] (by decide +kernel)) ≠ .ok out :=
  C99_empty_camera_refuted (stillCams 2) _ (by norm_num [stillCams]) _ _ _ _ (by simp [stillFrame]) 1 (by decide) rfl out

end Verif.Track
