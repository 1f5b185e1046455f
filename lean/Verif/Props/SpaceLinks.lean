/-
C105: the links of a tracking run with real cameras, in space.
-/
import Verif.Spec.SpaceLinks
import Verif.Props.Gates
import Verif.Props.Motion
import Verif.Props.NoRaiseAdd

namespace Verif.Track
open Verif.Track.Spec Verif.Geo

/-! ### Angles -/

theorem sub_ne_zero' {a b : V3} (h : a ≠ b) : a - b ≠ 0 := by
  intro e
  apply h
  have h1 := congrArg V3.x e
  have h2 := congrArg V3.y e
  have h3 := congrArg V3.z e
  simp at h1 h2 h3
  ext <;> linarith

theorem angleAcc_angleOf {a p c : V3} {φ x : ℝ} (h : angleAcc a p c = .ok (φ, x)) : AngleOf (p - a) (c - a) φ := by
  have hz : a - a = (0 : V3) := by ext <;> simp
  by_cases hp : p = a
  · by_cases hc : c = a
    · subst hp; subst hc
      rw [C47_rest_refuted] at h
      cases h
      exact Or.inr ⟨hz, hz, rfl⟩
    · subst hp
      rw [(C47_start_stop_refuted p c hc).1] at h
      cases h
  · by_cases hc : c = a
    · subst hc
      rw [(C47_start_stop_refuted c p hp).2] at h
      cases h
    · obtain ⟨φ', x', h1, h2, h3, h4, -⟩ := C47_angle_partial a p c (sub_ne_zero' hp) (sub_ne_zero' hc)
      rw [h1] at h
      cases h
      exact Or.inl ⟨sub_ne_zero' hp, sub_ne_zero' hc, h2, h3, h4⟩

theorem angleOf_comm {u v : V3} {φ : ℝ} (h : AngleOf u v φ) : AngleOf v u φ := by
  rcases h with ⟨a, b, c, d, e⟩ | ⟨a, b, c⟩
  · refine Or.inl ⟨b, a, c, d, ?_⟩
    rw [mul_comm v.norm, e]
    simp only [V3.dot]; ring
  · exact Or.inr ⟨b, a, c⟩

theorem diffNorm_eq (a b : V3) : V3.diffNorm a b = (b - a).norm := by
  unfold V3.diffNorm V3.norm
  congr 1
  simp only [V3.sub_x, V3.sub_y, V3.sub_z]
  ring

theorem v3_norm_comm (a b : V3) : (a - b).norm = (b - a).norm := by
  simp only [V3.norm, V3.sub_x, V3.sub_y, V3.sub_z]
  congr 1
  ring

theorem ahead_sub (y0 x1 : V3) : x1.smul 2 - y0 - x1 = x1 - y0 := by
  ext <;> simp <;> ring

theorem ahead_second (y0 x1 x3 : V3) : x3 - (x1.smul 2 - y0) = x3 - x1 - (x1 - y0) := by
  ext <;> simp <;> ring

/-! ### New positions -/

/-- Every target of `ts'` is one of `ts`, up to its number. -/
def SpotsOf (ts ts' : List (List (Search.Tgt ℝ))) : Prop :=
  ∀ (cam : ℕ) (a' : List (Search.Tgt ℝ)), ts'[cam]? = some a' → ∃ a, ts[cam]? = some a ∧ ∀ t' ∈ a', ∃ t ∈ a, t'.x = t.x ∧ t'.y = t.y

theorem SpotsOf.refl (ts : List (List (Search.Tgt ℝ))) : SpotsOf ts ts := fun _ a h => ⟨a, h, fun t ht => ⟨t, ht, rfl, rfl⟩⟩

theorem SpotsOf.trans {a b c : List (List (Search.Tgt ℝ))} (h : SpotsOf a b) (h' : SpotsOf b c) : SpotsOf a c := by
  intro cam x hx
  obtain ⟨y, hy, e⟩ := h' cam x hx
  obtain ⟨z, hz, f⟩ := h cam y hy
  refine ⟨z, hz, fun t ht => ?_⟩
  obtain ⟨t', ht', e1, e2⟩ := e t ht
  obtain ⟨t'', ht'', f1, f2⟩ := f t' ht'
  exact ⟨t'', ht'', e1.trans f1, e2.trans f2⟩

theorem renumber_spots (ts : List (List (Search.Tgt ℝ))) (ns : List (List Int)) : SpotsOf ts (renumber ts ns) := by
  intro cam a' h
  unfold renumber at h
  rw [List.getElem?_zipWith] at h
  split at h
  · next a b ha hb =>
    cases h
    refine ⟨a, ha, fun t ht => ?_⟩
    obtain ⟨j, hj⟩ := List.getElem?_of_mem ht
    rw [List.getElem?_zipWith] at hj
    split at hj
    · next t' n ht' hn =>
      cases hj
      exact ⟨t', List.mem_of_getElem? ht', rfl, rfl⟩
    · cases hj
  · cases h

theorem withAdded_spots {s : Setup} {i i' : Img ℝ} (h : WithAdded s.tracker i i') : SpotsOf i.targets i'.targets := by
  induction h with
  | same => exact .refl _
  | add c n _ h' ih =>
    refine ih.trans ?_
    have h' : Img.add _ c n = .ok _ := h'
    unfold Img.add at h'
    split at h'
    · next r hr =>
      cases h'
      unfold addImage at hr
      obtain ⟨r', -, hr⟩ := bind_ok hr
      cases hr
      exact renumber_spots _ _
    · cases h'

theorem rest_sound (ts : List (Search.Tgt ℝ)) (cx cy dl dr du dd imx imy : ℝ) (him : imx ≤ 10 ^ 19 ∧ imy ≤ 10 ^ 19) :
    ∃ r, Search.candsearchInPixRest ts cx cy dl dr du dd imx imy (-1) = .ok r ∧
      ((r.1 = 0) ∨ ∃ i : Nat, r.2 = i ∧ Search.Spec.InWindowFree ts cx cy dl dr du dd imx imy i) := by
  classical
  unfold Search.candsearchInPixRest
  simp only
  split_ifs with hc
  swap
  · exact ⟨_, rfl, Or.inl rfl⟩
  obtain ⟨j0, h1, h2, -⟩ := Search.startPoint_ok (ts.map Search.Tgt.y) (Search.clip cx cy dl dr du dd imx imy).ymin
  rw [List.length_map] at h1 h2
  simp only [h1, bind, Except.bind]
  obtain ⟨k, s', h3, -, h4, -⟩ := Search.restLoop_spec ts (Search.clip cx cy dl dr du dd imx imy) cx cy (-1)
    (List.range' j0 (ts.length - j0)) (by intro j hj; rw [List.mem_range'_1] at hj; omega)
    (by
      rintro j ⟨t, a, -, b⟩
      rw [Search.clip_eq] at b
      exact Search.inWindow_dist ts cx cy dl dr du dd imx imy j hc him ⟨t, a, b⟩) [] (Search.BIG, -1)
    (Or.inl ⟨rfl, rfl⟩)
  rw [h3]
  refine ⟨_, rfl, ?_⟩
  rw [List.nil_append] at h4
  rcases h4 with ⟨-, e⟩ | ⟨j, hj, e, -⟩
  · exact Or.inl (by rw [e]; simp)
  · right
    rw [List.mem_filter] at hj
    refine ⟨j, by rw [e], ?_⟩
    have := of_decide_eq_true hj.2
    rw [Search.clip_eq] at this
    exact this

theorem assessCam_sound {s : Setup} (him : (s.ip.imx : ℝ) ≤ 10 ^ 19 ∧ (s.ip.imy : ℝ) ≤ 10 ^ 19) {X : V3}
    {targets : List (List (Search.Tgt ℝ))} {cam : ℕ} {r : (ℝ × ℝ) × Int} (h : assessCam s.cams X targets cam = .ok r) :
    r.1 = (COORD_UNUSED, COORD_UNUSED) ∨
    (used r.1 = true ∧ ShowsNear s targets X cam (s.flat cam r.1)) := by
  unfold assessCam at h
  obtain ⟨px, hpx, h⟩ := bind_ok h
  obtain ⟨ts, hts, h⟩ := bind_ok h
  obtain ⟨r', h1, h2⟩ := rest_sound ts px.1 px.2 ADD_PART ADD_PART ADD_PART ADD_PART s.cams.imx s.cams.imy him
  rw [h1] at h
  simp only [bind, Except.bind] at h
  by_cases hr : r'.1 > 0
  swap
  · rw [if_neg hr] at h
    cases h
    exact Or.inl rfl
  right
  rw [if_pos hr] at h
  rcases h2 with e | ⟨i, e, hw⟩
  · omega
  obtain ⟨t, ht, -, ⟨w1, w2⟩, w3, w4⟩ := hw
  have hg : pyGetI ts r'.2 = .ok t := by rw [e]; simp [pyGetI, pyGet, ht]
  rw [hg] at h
  simp only at h
  cases h
  have a1 : px.1 - 3 < t.x := lt_of_le_of_lt (le_max_left _ _) w1
  have a2 : (0 : ℝ) < t.x := lt_of_le_of_lt (le_max_right _ _) w1
  have a3 : t.x < px.1 + 3 := lt_of_lt_of_le w2 (min_le_left _ _)
  have b1 : px.2 - 3 < t.y := lt_of_le_of_lt (le_max_left _ _) w3
  have b2 : (0 : ℝ) < t.y := lt_of_le_of_lt (le_max_right _ _) w3
  have b3 : t.y < px.2 + 3 := lt_of_lt_of_le w4 (min_le_left _ _)
  refine ⟨decide_eq_true ⟨?_, ?_⟩, ?_⟩
  · intro e; simp only [COORD_UNUSED] at e; linarith
  · intro e; simp only [COORD_UNUSED] at e; linarith
  have hpx : s.pix cam X = .ok px := hpx
  unfold Setup.pix at hpx
  split at hpx
  swap
  · cases hpx
  next c hc =>
  have hts : targets[cam]? = some ts := by
    unfold pyGet at hts
    split at hts
    · next h => cases hts; exact h
    · cases hts
  have hpp : pointToPixel X c.1 c.2 s.mm s.ip = some px := by
    unfold orRaise at hpx
    split at hpx
    · next h => cases hpx; exact h
    · cases hpx
  refine ⟨c, ts, t, px, hc, hts, List.mem_of_getElem? ht, hpp, ?_, ?_, ?_⟩
  · rw [abs_lt]; constructor <;> linarith
  · rw [abs_lt]; constructor <;> linarith
  · simp only [Setup.flat, hc]

theorem showsNear_spots {s : Setup} {ts ts' : List (List (Search.Tgt ℝ))} (h : SpotsOf ts ts') {X : V3} {cam : ℕ} {f : ℝ × ℝ}
    (hs : ShowsNear s ts' X cam f) : ShowsNear s ts X cam f := by
  obtain ⟨c, a', t', px, h1, h2, h3, h4, h5, h6, h7⟩ := hs
  obtain ⟨a, ha, e⟩ := h cam a' h2
  obtain ⟨t, ht, e1, e2⟩ := e t' h3
  exact ⟨c, a, t, px, h1, ha, ht, h4, by rw [← e1]; exact h5, by rw [← e2]; exact h6, by rw [← e1, ← e2]; exact h7⟩

theorem triangulated_new {s : Setup} (him : (s.ip.imx : ℝ) ≤ 10 ^ 19 ∧ (s.ip.imy : ℝ) ≤ 10 ^ 19) {i : Img ℝ} {X y : V3}
    (h : Triangulated s.tracker i X y) : NewAt s i.targets X y := by
  classical
  obtain ⟨⟨i', q, v, c, h1, h2, h3, h4⟩, h5⟩ := h
  have h5 : s.inVolume y = true := h5
  simp only [Setup.inVolume, decide_eq_true_eq] at h5
  refine ⟨h5, ?_⟩
  have h4 : s.position v = .ok y := h4
  obtain ⟨miss, hm⟩ : ∃ miss, pointPosition v s.cals.length s.mm (s.cals.map Prod.fst) = .ok (some (miss, y)) := by
    unfold Setup.position at h4
    split at h4
    · next r hr =>
      cases h4
      exact ⟨r.1, hr⟩
    · cases h4
      exact absurd h5.1.1 (lt_irrefl _)
    · cases h4
  have h2 : assessNew s.cams X i'.targets = .ok (q, v, c) := h2
  unfold assessNew at h2
  obtain ⟨l, e1, h2⟩ := bind_ok h2
  have h2 := Except.ok.inj h2
  simp only [Prod.mk.injEq] at h2
  obtain ⟨hq, hv, -⟩ := h2
  obtain ⟨l1, l2⟩ := assessCams_mem _ _ e1
  rw [List.length_range] at l1
  have hnum : s.cams.num = s.cals.length := rfl
  have cam_of : ∀ (cam : ℕ) (r : (ℝ × ℝ) × Int), l[cam]? = some r → assessCam s.cams X i'.targets cam = .ok r := by
    intro cam r hr
    have hlt := (List.getElem?_eq_some_iff.1 hr).1
    obtain ⟨r', a1, a2⟩ := l2 cam cam (List.getElem?_range (by omega))
    rw [hr] at a1
    cases a1
    exact a2
  refine ⟨v, miss, (Finset.range l.length).filter (fun cam => ∃ r, l[cam]? = some r ∧ used r.1 = true), hm, ?_, ?_, ?_⟩
  · have : ((Finset.range l.length).filter (fun cam => ∃ r, l[cam]? = some r ∧ used r.1 = true)).card = l.countP (fun r => used r.1) := by
      clear * -
      induction l using List.reverseRecOn with
      | nil => simp
      | append_singleton l r ih =>
        rw [List.countP_append, List.length_append, List.length_singleton, Finset.range_add_one, Finset.filter_insert]
        have e : (Finset.range l.length).filter (fun cam => ∃ r', (l ++ [r])[cam]? = some r' ∧ used r'.1 = true) =
            (Finset.range l.length).filter (fun cam => ∃ r', l[cam]? = some r' ∧ used r'.1 = true) := by
          apply Finset.filter_congr
          intro cam hc
          rw [Finset.mem_range] at hc
          rw [List.getElem?_append_left hc]
        rw [e]
        have e2 : (l ++ [r])[l.length]? = some r := by simp
        by_cases hu : used r.1 = true
        · rw [if_pos ⟨r, e2, hu⟩, Finset.card_insert_of_notMem (by simp), ih]
          simp [hu]
        · rw [if_neg (by rintro ⟨r', h1, h2⟩; rw [e2] at h1; cases h1; exact hu h2), ih]
          simp [hu]
    rw [this, hq]
    exact h3
  · rw [← hv]
    simp [flattenCams, l1, hnum]
  · intro cam f hf
    rw [← hv, flattenCams, List.getElem?_mapIdx, Option.map_eq_some_iff] at hf
    obtain ⟨r, hr, rfl⟩ := hf
    have hlt := (List.getElem?_eq_some_iff.1 hr).1
    rcases assessCam_sound him (cam_of cam r hr) with e | ⟨e, hs⟩
    · have hu : used r.1 = false := by rw [e]; simp [used]
      right
      refine ⟨?_, ?_⟩
      · simp only [Finset.mem_filter, Finset.mem_range, not_and, not_exists]
        rintro - r' h1 h2
        rw [hr] at h1
        cases h1
        rw [hu] at h2
        cases h2
      · rw [hu, if_neg (by simp), e]
        norm_num [COORD_UNUSED]
    · left
      refine ⟨?_, ?_⟩
      · simp only [Finset.mem_filter, Finset.mem_range]
        exact ⟨hlt, r, hr, e⟩
      · rw [if_pos e]
        exact showsNear_spots (withAdded_spots h1) hs

/-! ### The reasons -/

theorem reason_in_space {s : Setup} (him : (s.ip.imx : ℝ) ≤ 10 ^ 19 ∧ (s.ip.imy : ℝ) ≤ 10 ^ 19) {x0 : Option V3} {x1 x3 : V3}
    {i2 i3 : Img ℝ} {after : List V3} {d : ℝ} (h : Reason s.tracker x0 x1 x3 i2 i3 after d) :
    LinkReason s x0 x1 x3 i2.targets i3.targets after d := by
  have hexp : expected s.tracker x0 x1 = ahead x0 x1 := by
    cases x0 with
    | none => rfl
    | some y0 => rfl
  have hexp2 : expectedAfter s.tracker x0 x1 x3 = ahead2 x0 x1 x3 := by
    cases x0 with
    | none => rfl
    | some y0 =>
      show (x3.smul 5 - x1.smul 4 + y0).smul 0.5 = (x3.smul 5 - x1.smul 4 + y0).smul (1 / 2)
      norm_num
  have hbox : ∀ p, s.tracker.inBounds p = true → Pos3dInBounds p s.vel := by
    intro p hp
    exact @of_decide_eq_true _ (Classical.propDecidable _) hp
  have hdist : ∀ a b, s.tracker.dist a b = (b - a).norm := diffNorm_eq
  have hdist' : ∀ a b, s.tracker.dist a b = (a - b).norm := fun a b => by
    rw [hdist, v3_norm_comm]
  have hang : ∀ a p c φ x, s.tracker.angleAcc a p c = .ok (φ, x) → AngleOf (p - a) (c - a) φ ∧ x = (c - p).norm :=
    fun a p c φ x h => ⟨angleAcc_angleOf h, C47_acceleration a p c φ x h⟩
  have hplain : ∀ y0 φ a, x0 = some y0 → s.tracker.angleAcc x1 (expected s.tracker x0 x1) x3 = .ok (φ, a) →
      AngleOf (x1 - y0) (x3 - x1) φ ∧ a = (x3 - x1 - (x1 - y0)).norm := by
    intro y0 φ a e h
    subst e
    obtain ⟨h1, h2⟩ := hang _ _ _ _ _ h
    rw [hexp] at h1 h2
    simp only [ahead] at h1 h2
    rw [ahead_sub] at h1
    rw [ahead_second] at h2
    exact ⟨h1, h2⟩
  cases h with
  | continued x4 φ0 a0 φ1 a1 h4 hv h1 h0 hs hd =>
    rw [hexp2] at h1
    obtain ⟨g1, rfl⟩ := hang _ _ _ _ _ h1
    rw [v3_norm_comm] at h1 hs hd
    refine .continued x4 φ0 a0 φ1 h4 (hbox _ hv) g1 ?_ hs ?_
    · cases x0 with
      | none =>
        simp only [Option.isSome_none, Bool.false_eq_true, if_false, Prod.mk.injEq] at h0
        exact ⟨h0.1, by rw [h0.2, v3_norm_comm]⟩
      | some y0 =>
        simp only [Option.isSome_some, if_true] at h0
        exact hplain y0 _ _ rfl h0
    · rw [hdist x1 x3, hdist' x4 x3] at hd
      exact hd
  | continuedNew x4 φ a h4 hadd hv ha hs hd =>
    rw [hexp2] at h4 ha
    obtain ⟨g1, rfl⟩ := hang _ _ _ _ _ ha
    rw [v3_norm_comm] at hs hd
    refine .continuedNew x4 φ (triangulated_new him h4) hadd (hbox _ hv) g1 hs ?_
    rw [hdist x1 x3, hdist' x4 x3] at hd
    exact hd
  | plain y0 φ a h0 hv ha hs hd =>
    obtain ⟨g1, rfl⟩ := hplain y0 φ a h0 ha
    refine .plain y0 φ h0 (hbox _ hv) g1 hs ?_
    rw [hdist x1 x3, hdist y0 x1] at hd
    exact hd
  | added y0 φ a h0 hadd h3 hv ha hs hd =>
    obtain ⟨g1, rfl⟩ := hplain y0 φ a h0 ha
    rw [hexp] at h3 hv
    refine .added y0 φ h0 hadd (triangulated_new him h3) (hbox _ hv) g1 hs ?_
    rw [hdist x1 x3, hdist y0 x1] at hd
    exact hd

/-- C105: take any cameras (at most four), media and parameters, and any files without links. Every link of the files that a
forward tracking run writes has one of the four reasons of `LinkReason`, which speak of nothing but positions, displacements,
angles, the targets of the two frames and the limits of the run; its decision value is the one written. -/
theorem C105_links_in_space (s : Setup) (him : (s.ip.imx : ℝ) ≤ 10 ^ 19 ∧ (s.ip.imy : ℝ) ≤ 10 ^ 19) (h4 : s.cals.length ≤ 4)
    (disk : Int → Frame V3 ℝ (Img ℝ)) (hd : ∀ n, ∀ p ∈ (disk n).parts, p.prev = PREV_NONE ∧ p.next = NEXT_NONE)
    (first : Int) (L : ℕ) (a b c d : Frame V3 ℝ (Img ℝ)) (r : Run (Frame V3 ℝ (Img ℝ)))
    (h : forwardRun disk (trackBuf s.tracker) first (first + L) [a, b, c, d] = .ok r)
    (n : Int) (f : Frame V3 ℝ (Img ℝ)) (hw : (n, f) ∈ writesOf r.log) (i k : ℕ) (hl : PointsTo f.parts i k) :
    ∃ p x0 x3 before fnext after t3, f.parts[i]? = some p ∧ Predecessor before p x0 ∧
      (first < n → ∃ f', (n - 1, f') ∈ writesOf r.log ∧ f'.parts.map Part.x = before) ∧
      (n + 1, fnext) ∈ writesOf r.log ∧ (fnext.parts.map Part.x)[k]? = some x3 ∧
      (n + 2 ≤ first + L → (∃ f', (n + 2, f') ∈ writesOf r.log ∧ after <+: f'.parts.map Part.x) ∧ t3 = (disk (n + 2)).img.targets) ∧
      LinkReason s x0 p.x x3 (disk (n + 1)).img.targets t3 after p.final := by
  have hg : SearchSane s.tracker := C81_search_sane s.cams _ him h4
  obtain ⟨p, x0, x3, before, fnext, after, i3, h1, h2, h3, h4, h5, h6, h7⟩ :=
    C77_run s.tracker hg disk hd first L a b c d r h n f hw i k hl
  exact ⟨p, x0, x3, before, fnext, after, i3.targets, h1, h2, h3, h4, h5, fun hh => ⟨(h6 hh).1, by rw [(h6 hh).2]⟩,
    reason_in_space him h7⟩

/-- The run over the frames 0 .. 5 of the accelerated motion meets the hypotheses: its first file links particle 0 to particle 0
of the next, so there is a reason in space for this link. -/
example (c0 c1 c2 c3 : Frame V3 ℝ (Img ℝ)) : ∃ r f p x0 x3 t3 after,
    forwardRun (airDisk curve) (trackBuf airSetup.tracker) 0 (0 + (5 : ℕ)) [c0, c1, c2, c3] = .ok r ∧ (0, f) ∈ writesOf r.log ∧
      f.parts[0]? = some p ∧ LinkReason airSetup x0 p.x x3 (airDisk curve 1).img.targets t3 after p.final := by
  obtain ⟨r, r1, r2, r3⟩ := lone_run curve_hyp (by norm_num) c0 c1 c2 c3
  have hm : (0 : Int) ∈ (writesOf r.log).map Prod.fst := by
    rw [r2]
    decide
  rw [List.mem_map] at hm
  obtain ⟨⟨n, f⟩, hf, rfl⟩ := hm
  have e := r3 _ hf
  unfold LoneWritten at e
  have e0 := congrArg (fun l => l[0]?) e
  simp only [List.getElem?_map, List.getElem?_cons_zero, Option.map_eq_some_iff, Prod.mk.injEq] at e0
  obtain ⟨q, hq, -, -, hq2⟩ := e0
  obtain ⟨p, x0, x3, before, fnext, after, t3, h1, -, -, -, -, -, h7⟩ := C105_links_in_space airSetup (by norm_num [airSetup])
    (by simp [airSetup]) (airDisk curve) (by intro n p hp; simp [airDisk] at hp; subst hp; exact ⟨rfl, rfl⟩) 0 5 c0 c1 c2 c3 r r1 0 f hf
    0 0 ⟨q, hq, by rw [hq2]; norm_num⟩
  exact ⟨r, f, p, x0, x3, t3, after, r1, hf, h1, h7⟩

end Verif.Track
