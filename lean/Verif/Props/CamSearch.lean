/-
C80, C81: the searches over all cameras.
-/
import Verif.Spec.CamSearch
import Verif.Props.Search
import Verif.Props.Tracking
import Verif.Props.FrameData
import Verif.Props.Linking

set_option linter.unusedSectionVars false

set_option linter.unusedSectionVars false

namespace Verif.Track
open Verif.Track.Spec

section
variable {P : Type} {K : Type} [Field K] [LinearOrder K] [IsStrictOrderedRing K]

/-! ### C80 -/

theorem assessCams_ok {c : Cams P K} {pos : P} {targets : List (List (Search.Tgt K))} {f : Nat → (K × K) × Int} :
    ∀ cams : List Nat, (∀ cam ∈ cams, assessCam c pos targets cam = .ok (f cam)) →
      assessCams c pos targets cams = .ok (cams.map f)
  | [], _ => rfl
  | cam :: cams, h => by
    simp only [assessCams, h cam (by simp), assessCams_ok cams (fun x hx => h x (by simp [hx])), bind, Except.bind,
      List.map_cons]

theorem used_of_free {c : Cams P K} {targets : List (List (Search.Tgt K))} {px : K × K} {cam i : Nat} {t : Search.Tgt K}
    (h : NearestFree c targets px cam i t) : used (t.x, t.y) = true := by
  obtain ⟨⟨-, ts, h1, t', h2, -, ⟨h3, -⟩, h4, -⟩, ts', h5, h6, -⟩ := h
  rw [h1] at h5
  cases h5
  rw [h2] at h6
  cases h6
  have a : (0 : K) < t.x := lt_of_le_of_lt (le_max_right _ _) h3
  have b : (0 : K) < t.y := lt_of_le_of_lt (le_max_right _ _) h4
  refine decide_eq_true ⟨?_, ?_⟩ <;> intro e <;> simp only [COORD_UNUSED] at e <;> linarith

theorem assessCam_spec {c : Cams P K} {pos : P} {targets : List (List (Search.Tgt K))} {cam : Nat} {px : K × K}
    {ts : List (Search.Tgt K)} (him : c.imx ≤ 10 ^ 19 ∧ c.imy ≤ 10 ^ 19) (hpx : c.pix cam pos = .ok px)
    (hts : targets[cam]? = some ts) (hs : (ts.map Search.Tgt.y).Pairwise (· ≤ ·)) (hlen : ts.length < 8190) :
    ((∀ i, ¬ FreeNear c targets px cam i) ∧
      assessCam c pos targets cam = .ok ((COORD_UNUSED, COORD_UNUSED), -1)) ∨
    ∃ (i : Nat) (t : Search.Tgt K), NearestFree c targets px cam i t ∧
      assessCam c pos targets cam = .ok ((t.x, t.y), i) := by
  have hts' : pyGet targets cam = .ok ts := by simp [pyGet, hts]
  by_cases hc : 0 ≤ px.1 ∧ px.1 ≤ c.imx ∧ 0 ≤ px.2 ∧ px.2 ≤ c.imy
  swap
  · left
    refine ⟨fun i h => hc h.1, ?_⟩
    simp only [assessCam, hpx, hts', bind, Except.bind, Search.candsearchInPixRest]
    rw [if_neg hc]
    simp
  rcases Search.C13_rest_partial ts px.1 px.2 3 3 3 3 c.imx c.imy (-1) him hc hs hlen with ⟨h1, h2⟩ | ⟨i, h1, h2, h3⟩
  · left
    refine ⟨?_, ?_⟩
    · rintro i ⟨-, ts', e, h⟩
      rw [hts] at e
      cases e
      exact h1 i h
    · simp only [assessCam, hpx, hts', bind, Except.bind, ADD_PART, h2]
      simp
  · right
    obtain ⟨t, ht, q⟩ := id h2
    refine ⟨i, t, ⟨⟨hc, ts, hts, h2⟩, ts, hts, ht, ?_⟩, ?_⟩
    · rintro j t' ⟨-, ts', e, hj⟩ hj'
      rw [hts] at e
      cases e
      have := h3 j hj
      simp only [Search.Spec.distOf, ht, hj'] at this
      exact this
    · have : pyGetI ts (i : Int) = .ok t := by simp [pyGetI, pyGet, ht]
      simp only [assessCam, hpx, hts', bind, Except.bind, ADD_PART, h1]
      simp [this]

/-- C80 (partial): `assess_new_position` returns, for every camera, the nearest free target within 3 pixels of the
projection of the position (its index, and its position as flat metric coordinates), or the marks for "none"; and the
number of cameras that have one. Target lists are sorted by `y` and have fewer than 8190 entries. Missing: longer
lists (C13), and that the mark is one that `add_particle` understands (`C80_marker_refuted`). -/
theorem C80_assess_partial (c : Cams P K) (pos : P) (targets : List (List (Search.Tgt K)))
    (him : c.imx ≤ 10 ^ 19 ∧ c.imy ≤ 10 ^ 19) (hn : targets.length = c.num)
    (hs : ∀ ts ∈ targets, (ts.map Search.Tgt.y).Pairwise (· ≤ ·) ∧ ts.length < 8190)
    (px : Nat → K × K) (hpx : ∀ cam, cam < c.num → c.pix cam pos = .ok (px cam)) :
    ∃ q ps inds, assessNew c pos targets = .ok (q, ps, inds) ∧ ps.length = c.num ∧ inds.length = c.num ∧
      (∀ cam, cam < c.num →
        ((∀ i, ¬ FreeNear c targets (px cam) cam i) ∧ ps[cam]? = some (COORD_UNUSED, COORD_UNUSED) ∧
          inds[cam]? = some (-1)) ∨
        ∃ (i : Nat) (t : Search.Tgt K), NearestFree c targets (px cam) cam i t ∧
          ps[cam]? = some (c.flat cam (t.x, t.y)) ∧ inds[cam]? = some (i : Int)) ∧
      ∃ S : Finset Nat, q = S.card ∧ ∀ cam, cam ∈ S ↔ cam < c.num ∧ ∃ i, FreeNear c targets (px cam) cam i := by
  classical
  have key : ∀ cam, ∃ r, cam < c.num → assessCam c pos targets cam = .ok r ∧
      (((∀ i, ¬ FreeNear c targets (px cam) cam i) ∧ r = ((COORD_UNUSED, COORD_UNUSED), -1)) ∨
      ∃ (i : Nat) (t : Search.Tgt K), NearestFree c targets (px cam) cam i t ∧ r = ((t.x, t.y), (i : Int))) := by
    intro cam
    by_cases hc : cam < c.num
    swap
    · exact ⟨((0, 0), 0), fun h => absurd h hc⟩
    have hts : targets[cam]? = some targets[cam] := List.getElem?_eq_getElem (by omega)
    obtain ⟨h1, h2⟩ := hs _ (List.mem_of_getElem? hts)
    rcases assessCam_spec him (hpx cam hc) hts h1 h2 with ⟨a, b⟩ | ⟨i, t, a, b⟩
    · exact ⟨_, fun _ => ⟨b, Or.inl ⟨a, rfl⟩⟩⟩
    · exact ⟨_, fun _ => ⟨b, Or.inr ⟨i, t, a, rfl⟩⟩⟩
  choose f hf using key
  have hok := assessCams_ok (c := c) (pos := pos) (targets := targets) (f := f) (List.range c.num)
    (fun cam h => (hf cam (List.mem_range.1 h)).1)
  refine ⟨_, _, _, by simp only [assessNew, hok, bind, Except.bind]; rfl, by simp [flattenCams], by simp, ?_, ?_⟩
  · intro cam hc
    have e : ((List.range c.num).map f)[cam]? = some (f cam) := by
      rw [List.getElem?_map, List.getElem?_range hc]; rfl
    have e1 : (flattenCams c ((List.range c.num).map f))[cam]? =
        some (if used (f cam).1 then c.flat cam (f cam).1 else (f cam).1) := by
      rw [flattenCams, List.getElem?_mapIdx, e]; rfl
    have e2 : (((List.range c.num).map f).map Prod.snd)[cam]? = some (f cam).2 := by
      rw [List.getElem?_map, e]; rfl
    rw [e1, e2]
    rcases (hf cam hc).2 with ⟨a, b⟩ | ⟨i, t, a, b⟩
    · left
      rw [b]
      refine ⟨a, ?_, rfl⟩
      simp [used]
    · right
      refine ⟨i, t, a, ?_, by rw [b]⟩
      rw [b, if_pos (used_of_free a)]
  · refine ⟨(Finset.range c.num).filter (fun cam => ∃ i, FreeNear c targets (px cam) cam i), ?_, by simp⟩
    rw [List.countP_map, List.countP_eq_length_filter, Finset.card_def, Finset.filter_val, Finset.range_val,
      Multiset.range, Multiset.filter_coe, Multiset.coe_card]
    congr 1
    apply List.filter_congr
    intro cam hc
    rw [List.mem_range] at hc
    simp only [Function.comp]
    rcases (hf cam hc).2 with ⟨a, b⟩ | ⟨i, t, a, b⟩
    · rw [b]
      have : ¬ ∃ i, FreeNear c targets (px cam) cam i := fun ⟨i, h⟩ => a i h
      simp [used, this]
    · rw [b, used_of_free a]
      have : ∃ i, FreeNear c targets (px cam) cam i := ⟨i, a.1⟩
      simp [this]

/-- C80 is false as to the mark for a camera without target: that mark is -1, and `add_particle`, called with the
result, does not skip such a camera but gives the number of the new particle to the last target of the camera. For
every frame with at least as many particles as cameras and a target in every camera. -/
theorem C80_marker_refuted (c : Cams P K) (pos : P) (targets : List (List (Search.Tgt K)))
    (him : c.imx ≤ 10 ^ 19 ∧ c.imy ≤ 10 ^ 19) (hn : targets.length = c.num)
    (hs : ∀ ts ∈ targets, (ts.map Search.Tgt.y).Pairwise (· ≤ ·) ∧ ts.length < 8190) (hne : ∀ ts ∈ targets, ts ≠ [])
    (px : Nat → K × K) (hpx : ∀ cam, cam < c.num → c.pix cam pos = .ok (px cam))
    (f : AFrame P) (hf : f.tnr = targets.map fun ts => ts.map Search.Tgt.tnr) (hcorr : c.num ≤ f.corr.length)
    (h0 : 0 < f.corr.length) (cam : Nat) (hcam : cam < c.num) (hno : ∀ i, ¬ FreeNear c targets (px cam) cam i) :
    ∃ q ps inds f' ts', assessNew c pos targets = .ok (q, ps, inds) ∧ addParticleFull f pos inds = .ok f' ∧
      f'.tnr[cam]? = some ts' ∧ ts'.getLast? = some (f.pos.length : Int) := by
  obtain ⟨q, ps, inds, h1, h2, h3, h4, -⟩ := C80_assess_partial c pos targets him hn hs px hpx
  obtain ⟨r0, rest, hr⟩ : ∃ r0 rest, f.corr = r0 :: rest := by
    cases hc : f.corr with
    | nil => rw [hc] at h0; simp at h0
    | cons a l => exact ⟨a, l, rfl⟩
  have hcand : ∀ i, (h : i < inds.length) → inds[i] ≠ PT_UNUSED ∧
      ∃ ts, f.tnr[i]? = some ts ∧ ts ≠ [] ∧ -(ts.length : Int) ≤ inds[i] ∧ inds[i] < ts.length := by
    intro i hi
    have hts : targets[i]? = some targets[i] := List.getElem?_eq_getElem (by omega)
    have htn : f.tnr[i]? = some (targets[i].map Search.Tgt.tnr) := by
      rw [hf, List.getElem?_map, hts]; rfl
    have hnn := hne _ (List.mem_of_getElem? hts)
    have hpos : 0 < targets[i].length := List.length_pos_iff.2 hnn
    rcases h4 i (by omega) with ⟨-, -, e⟩ | ⟨j, t, ⟨-, ts, e1, e2, -⟩, -, e⟩
    · have e' : inds[i] = -1 := by rw [List.getElem?_eq_getElem hi] at e; exact Option.some.inj e
      refine ⟨by rw [e']; decide, _, htn, by simpa using hnn, ?_, ?_⟩ <;> simp only [e', List.length_map] <;> omega
    · have e' : inds[i] = j := by rw [List.getElem?_eq_getElem hi] at e; exact Option.some.inj e
      rw [hts] at e1
      cases e1
      have := (List.getElem?_eq_some_iff.1 e2).1
      refine ⟨by rw [e']; simp only [PT_UNUSED]; omega, _, htn, by simpa using hnn, ?_, ?_⟩ <;>
        simp only [e', List.length_map] <;> omega
  obtain ⟨f', g1, -, -, -, -, -, g7⟩ := C65_effect_partial f pos inds r0 rest hr (by omega) hcand
  have hts : targets[cam]? = some targets[cam] := List.getElem?_eq_getElem (by omega)
  have htn : f.tnr[cam]? = some (targets[cam].map Search.Tgt.tnr) := by
    rw [hf, List.getElem?_map, hts]; rfl
  have hpos : 0 < targets[cam].length := List.length_pos_iff.2 (hne _ (List.mem_of_getElem? hts))
  obtain ⟨ts', g8, g9⟩ := g7 cam (by omega) _ htn
  have e' : inds[cam]'(by omega) = -1 := by
    rcases h4 cam hcam with ⟨-, -, e⟩ | ⟨j, t, a, -, -⟩
    · rw [List.getElem?_eq_getElem (by omega)] at e; exact Option.some.inj e
    · exact absurd a.1 (hno j)
  refine ⟨q, ps, inds, f', ts', h1, g1, g9, ?_⟩
  rw [e'] at g8
  simp only [pySetI] at g8
  rw [if_neg (by omega), if_pos (by simp only [List.length_map]; omega)] at g8
  cases g8
  rw [List.getLast?_eq_getElem?, List.getElem?_set]
  simp only [List.length_set, List.length_map]
  rw [if_pos (by omega), if_pos (by omega)]

end

/-! Two cameras; the first has a free target next to the position, the second has none. -/

def twoCams : Cams Unit ℚ := ⟨2, 100, 100, fun _ _ => .ok (10, 10), fun _ _ => .ok ⟨5, 5, 5, 5⟩, fun _ p => p⟩

def twoTargets : List (List (Search.Tgt ℚ)) := [[⟨10, 11, -1⟩, ⟨50, 60, 1⟩], [⟨10, 10, 0⟩, ⟨20, 30, 1⟩]]

example : (∀ ts ∈ twoTargets, (ts.map Search.Tgt.y).Pairwise (· ≤ ·) ∧ ts.length < 8190 ∧ ts ≠ []) ∧
    twoTargets.length = twoCams.num ∧ (∀ cam, cam < twoCams.num → twoCams.pix cam () = .ok (10, 10)) := by
  refine ⟨by decide +kernel, rfl, fun _ _ => rfl⟩

example : FreeNear twoCams twoTargets (10, 10) 0 0 ∧ ∀ i, ¬ FreeNear twoCams twoTargets (10, 10) 1 i := by
  constructor
  · refine ⟨by decide +kernel, _, rfl, _, rfl, rfl, by decide +kernel, by decide +kernel⟩
  · rintro i ⟨-, ts, h, t, h1, h2, -⟩
    cases h
    match i with
    | 0 => cases h1; exact absurd h2 (by decide)
    | 1 => cases h1; exact absurd h2 (by decide)
    | i + 2 => simp at h1

section
variable {P : Type} {K : Type} [Field K] [LinearOrder K] [IsStrictOrderedRing K]

/-! ### C81 -/

theorem registerLoop_rows (tnrs : List Int) (cam : Nat) : ∀ (cs : List Int) (reg out : List FP),
    registerLoop tnrs cam cs reg = .ok out → ∀ r ∈ out, ∃ r0 ∈ reg, r.freq = r0.freq ∧
      (r.cams = r0.cams ∨ r.cams = r0.cams.set cam true)
  | [], reg, out, h => by cases h; simp
  | c :: cs, [], out, h => by cases h; simp
  | c :: cs, r0 :: rs, out, h => by
    unfold registerLoop at h
    split_ifs at h with hc
    · obtain ⟨rest, h1, h⟩ := bind_ok h
      cases h
      intro r hr
      rcases List.mem_cons.1 hr with rfl | hr
      · exact ⟨r0, by simp, rfl, Or.inl rfl⟩
      · obtain ⟨q, hq, a⟩ := registerLoop_rows tnrs cam cs rs rest h1 r hr
        exact ⟨q, by simp [hq], a⟩
    · obtain ⟨t, -, h⟩ := bind_ok h
      obtain ⟨rest, h1, h⟩ := bind_ok h
      cases h
      intro r hr
      rcases List.mem_cons.1 hr with rfl | hr
      · exact ⟨r0, by simp, rfl, Or.inr rfl⟩
      · obtain ⟨q, hq, a⟩ := registerLoop_rows tnrs cam cs rs rest h1 r hr
        exact ⟨q, by simp [hq], a⟩

/-- The four records of one camera. -/
structure Block (c : Cams P K) (targets : List (List (Search.Tgt K))) (proj : List (K × K)) (as : List (Rect K)) (cam : Nat)
    (b : List FP) : Prop where
  len : b.length = 4
  row : ∀ r ∈ b, r.freq = 0 ∧ r.cams.length = 4 ∧ ∀ j : Nat, r.cams[j]? = some true → j = cam
  src : ∃ v a, proj[cam]? = some v ∧ as[cam]? = some a ∧
    ∀ r ∈ b, InRect c targets v a cam r.ftnr ∨ IsLast targets cam r.ftnr

theorem registerCam_block {c : Cams P K} {targets : List (List (Search.Tgt K))} {proj : List (K × K)} {as : List (Rect K)}
    {cam : Nat} {b : List FP} (him : c.imx ≤ 10 ^ 19 ∧ c.imy ≤ 10 ^ 19)
    (h : registerCam c targets proj as cam = .ok b) : Block c targets proj as cam b := by
  unfold registerCam at h
  obtain ⟨ts, h1, h⟩ := bind_ok h
  obtain ⟨v, h2, h⟩ := bind_ok h
  obtain ⟨a, h3, h⟩ := bind_ok h
  have g1 : targets[cam]? = some ts := by
    unfold pyGet at h1; split at h1 <;> simp_all
  have g2 : proj[cam]? = some v := by
    unfold pyGet at h2; split at h2 <;> simp_all
  have g3 : as[cam]? = some a := by
    unfold pyGet at h3; split at h3 <;> simp_all
  obtain ⟨k1, k2⟩ := C14_registered_partial ts cam _ _ _ _ _ _ _ _ him _ _ (by simp) h
  refine ⟨k1, ?_, v, a, g2, g3, ?_⟩
  · unfold registerClosest at h
    obtain ⟨cs, -, h⟩ := bind_ok h
    intro r hr
    obtain ⟨r0, hr0, e1, e2⟩ := registerLoop_rows _ _ _ _ _ h r hr
    have := List.eq_of_mem_replicate hr0
    subst this
    refine ⟨e1, ?_, ?_⟩
    · rcases e2 with e | e <;> rw [e] <;> simp [FP.unused]
    · intro j hj
      rcases e2 with e | e
      · rw [e] at hj
        have := List.mem_of_getElem? hj
        simp [FP.unused] at this
      · rw [e, List.getElem?_set] at hj
        split_ifs at hj with q
        · exact q.symm
        · have := List.mem_of_getElem? hj
          simp [FP.unused] at this
  · intro r hr
    rcases k2 r hr with ⟨j, t, q1, q2, q3⟩ | ⟨t, q1, q2⟩
    · exact Or.inl ⟨ts, j, t, g1, q2, q3.symm, q1⟩
    · exact Or.inr ⟨ts, t, g1, q1, q2.symm⟩

theorem registerCams_blocks {c : Cams P K} {targets : List (List (Search.Tgt K))} {proj : List (K × K)} {as : List (Rect K)}
    (him : c.imx ≤ 10 ^ 19 ∧ c.imy ≤ 10 ^ 19) : ∀ (n cam : Nat) (rows : List FP),
    registerCams c targets proj as (List.range' cam n) = .ok rows →
    rows.length = 4 * n ∧ ∀ j, j < n → Block c targets proj as (cam + j) ((rows.drop (4 * j)).take 4)
  | 0, cam, rows, h => by cases h; simp
  | n + 1, cam, rows, h => by
    rw [List.range'_succ] at h
    unfold registerCams at h
    obtain ⟨b, h1, h⟩ := bind_ok h
    obtain ⟨rest, h2, h⟩ := bind_ok h
    cases h
    have hb := registerCam_block him h1
    obtain ⟨k1, k2⟩ := registerCams_blocks him n (cam + 1) rest h2
    refine ⟨by rw [List.length_append, hb.len, k1]; omega, ?_⟩
    intro j hj
    cases j with
    | zero =>
      simp only [Nat.mul_zero, List.drop_zero]
      rw [List.take_append_of_le_length (by rw [hb.len]), List.take_of_length_le (by rw [hb.len])]
      exact hb
    | succ j =>
      have e : 4 * (j + 1) = b.length + 4 * j := by rw [hb.len]; ring
      rw [e, List.drop_append]
      simp only [Nat.add_sub_cancel_left]
      rw [List.drop_eq_nil_of_le (by omega), List.nil_append]
      have := k2 j (by omega)
      rw [show cam + (j + 1) = cam + 1 + j by ring]
      exact this

theorem getElem?_block {rows : List FP} {j i : Nat} (hi : i < 4) :
    ((rows.drop (4 * j)).take 4)[i]? = rows[4 * j + i]? := by
  rw [List.getElem?_take_of_lt hi, List.getElem?_drop]

theorem fresh_of_blocks {c : Cams P K} {targets : List (List (Search.Tgt K))} {proj : List (K × K)} {as : List (Rect K)}
    {n : Nat} {rows : List FP} (hn : n ≤ 4) (hl : rows.length = 4 * n)
    (hb : ∀ j, j < n → Block c targets proj as j ((rows.drop (4 * j)).take 4)) : FreshRows rows n := by
  refine ⟨hl, hn, ?_⟩
  intro r hr
  obtain ⟨m, hm⟩ := List.getElem?_of_mem hr
  have hlt := (List.getElem?_eq_some_iff.1 hm).1
  have e : 4 * (m / 4) + m % 4 = m := by omega
  have hi : m % 4 < 4 := by omega
  have hm' : ((rows.drop (4 * (m / 4))).take 4)[m % 4]? = some r := by
    rw [getElem?_block hi, e, hm]
  obtain ⟨h1, h2, h3⟩ := (hb (m / 4) (by omega)).row r (List.mem_of_getElem? hm')
  refine ⟨h1, h2, ?_⟩
  intro j hj
  have := h3 j hj
  subst this
  exact ⟨m % 4, hi, by rw [e, hm]; rfl⟩

/-- C81 (partial): every candidate that `sorted_candidates_in_volume` offers is a number `k` with a count of at least
two cameras (one, if it is the only candidate), the counts do not increase along the list, and `k` is, in as many
cameras as counted, the number of a target in the search rectangle of the camera - or of the last target in the list of
that camera. Missing: without the last target (`C81_refuted`); that all such particles are offered (C15). -/
theorem C81_candidates_partial (c : Cams P K) (center : P) (proj : List (K × K)) (targets : List (List (Search.Tgt K)))
    (him : c.imx ≤ 10 ^ 19 ∧ c.imy ≤ 10 ^ 19) (hn : c.num ≤ 4) (l : List FP)
    (h : sortedCandidates c center proj targets = .ok l) :
    l.Pairwise (fun x y => y.freq ≤ x.freq) ∧
    ∃ as, areas c center (List.range c.num) = .ok as ∧ ∀ y ∈ l, y.ftnr ≠ TR_UNUSED →
      (2 ≤ y.freq ∨ ∀ z ∈ l, z.ftnr ≠ TR_UNUSED → z = y) ∧
      ∃ S : Finset Nat, S.card = y.freq ∧ ∀ cam ∈ S, cam < c.num ∧ ∃ v a, proj[cam]? = some v ∧ as[cam]? = some a ∧
        (InRect c targets v a cam y.ftnr ∨ IsLast targets cam y.ftnr) := by
  unfold sortedCandidates at h
  obtain ⟨as, h1, h⟩ := bind_ok h
  obtain ⟨rows, h2, h⟩ := bind_ok h
  cases h
  rw [List.range_eq_range'] at h2
  obtain ⟨k1, k2⟩ := registerCams_blocks him _ _ _ h2
  simp only [Nat.zero_add] at k2
  have hF := fresh_of_blocks hn k1 k2
  obtain ⟨s1, s2, s3, s4, s5, s6, s7⟩ := C15_sorted_partial rows c.num hF
  have hsub : ∀ y ∈ candidateList rows c.num, y.ftnr ≠ TR_UNUSED → y ∈ (sortByFreq rows c.num).1 := by
    intro y hy hne
    unfold candidateList at hy
    simp only at hy
    split_ifs at hy
    · exact List.mem_of_mem_take hy
    · rw [List.mem_singleton] at hy
      subst hy
      exact absurd rfl hne
  refine ⟨?_, as, h1, ?_⟩
  · unfold candidateList
    simp only
    split_ifs
    · exact s2.sublist (List.take_sublist _ _)
    · simp
  intro y hy hne
  have hy' := hsub y hy hne
  have hf : y.freq ≠ 0 := fun e => hne (s4 y hy' e)
  obtain ⟨-, t2, -⟩ := s3 y hy' hf
  constructor
  · rcases s7 with q | q
    · exact Or.inl (q y hy' hf)
    · right
      intro z hz hzn
      have hz' := hsub z hz hzn
      have hfz : z.freq ≠ 0 := fun e => hzn (s4 z hz' e)
      rw [s6] at q
      rw [List.countP_eq_length_filter] at q
      have my : y ∈ (sortByFreq rows c.num).1.filter (fun r => decide (r.freq ≠ 0)) :=
        List.mem_filter.2 ⟨hy', by simpa using hf⟩
      have mz : z ∈ (sortByFreq rows c.num).1.filter (fun r => decide (r.freq ≠ 0)) :=
        List.mem_filter.2 ⟨hz', by simpa using hfz⟩
      generalize (sortByFreq rows c.num).1.filter (fun r => decide (r.freq ≠ 0)) = l at q my mz
      match l, q with
      | [x], _ => rw [List.mem_singleton] at my mz; rw [my, mz]
      | [], _ => simp at my
  · refine ⟨((List.range c.num).filter (fun j => decide (SeenBy rows j y.ftnr))).toFinset, ?_, ?_⟩
    · rw [List.toFinset_card_of_nodup ((List.nodup_range).filter _), t2, camCount]
    · intro cam hcam
      simp only [List.mem_toFinset, List.mem_filter, List.mem_range, decide_eq_true_eq] at hcam
      obtain ⟨hc, i, hi, e⟩ := hcam
      refine ⟨hc, ?_⟩
      have hb := k2 cam hc
      obtain ⟨v, a, g1, g2, g3⟩ := hb.src
      refine ⟨v, a, g1, g2, ?_⟩
      rw [Option.map_eq_some_iff] at e
      obtain ⟨r, hr, er⟩ := e
      rw [← er]
      exact g3 r (List.mem_of_getElem? (by rw [getElem?_block hi]; exact hr))

theorem candidateList_unused {c : Cams P K} {center : P} {proj : List (K × K)}
    {targets : List (List (Search.Tgt K))} {l : List FP}
    (h : sortedCandidates c center proj targets = .ok l) (him : c.imx ≤ 10 ^ 19 ∧ c.imy ≤ 10 ^ 19) (hn : c.num ≤ 4) :
    ∀ y ∈ l, y.freq = 0 → y.ftnr = TR_UNUSED := by
  unfold sortedCandidates at h
  obtain ⟨as, h1, h⟩ := bind_ok h
  obtain ⟨rows, h2, h⟩ := bind_ok h
  cases h
  rw [List.range_eq_range'] at h2
  obtain ⟨k1, k2⟩ := registerCams_blocks him _ _ _ h2
  simp only [Nat.zero_add] at k2
  obtain ⟨-, -, -, s4, -⟩ := C15_sorted_partial rows c.num (fresh_of_blocks hn k1 k2)
  intro y hy e
  unfold candidateList at hy
  simp only at hy
  split_ifs at hy
  · exact s4 y (List.mem_of_mem_take hy) e
  · rw [List.mem_singleton] at hy
    rw [hy]; rfl

end

/-- Two cameras with two particles each: one at the centre of the search, one far outside the search rectangle. -/
def farTargets : List (List (Search.Tgt ℚ)) := [[⟨10, 10, 7⟩, ⟨90, 90, 9⟩], [⟨10, 10, 7⟩, ⟨90, 90, 9⟩]]

/-- C81 is false: particle 9, far outside the search rectangle of both cameras, is offered as a candidate that two
cameras support. -/
theorem C81_refuted :
    (match sortedCandidates twoCams () [(10, 10), (10, 10)] farTargets with
      | .ok l => some (l.map fun r => (r.ftnr, r.freq))
      | .error _ => none) = some [(7, 2), (9, 2), (-1, 0)] ∧
    ∀ cam, ¬ InRect twoCams farTargets (10, 10) ⟨5, 5, 5, 5⟩ cam 9 := by
  constructor
  · decide +kernel
  · rintro cam ⟨ts, j, t, h1, h2, h3, t', h4, -, ⟨-, h5⟩, -⟩
    rw [h2] at h4
    cases h4
    have hts : ts = [⟨10, 10, 7⟩, ⟨90, 90, 9⟩] := by
      match cam with
      | 0 => cases h1; rfl
      | 1 => cases h1; rfl
      | cam + 2 => simp [farTargets] at h1
    subst hts
    match j with
    | 0 => cases h2; exact absurd h3 (by decide)
    | 1 =>
      cases h2
      have := lt_of_lt_of_le h5 (min_le_left _ _)
      norm_num at this
    | j + 2 => simp at h2

section
variable {P : Type} {K : Type} [Field K] [LinearOrder K] [IsStrictOrderedRing K]

/-! #### The search meets what the theorems on runs assume -/

theorem pySetI_mem {α : Type} {xs ys : List α} {i : Int} {v : α} (h : pySetI xs i v = .ok ys) :
    ∀ y ∈ ys, y ∈ xs ∨ y = v := by
  unfold pySetI at h
  split_ifs at h
  all_goals
    cases h
    intro y hy
    exact List.mem_or_eq_of_mem_set hy

theorem addCams_tnr {m : Int} {Q : Int → Prop} (hm : Q m) : ∀ (cands : List Int) (cam : Nat) (c : List Corres)
    (t : List (List Int)) (r : List Corres × List (List Int)), addCams m cam cands c t = .ok r →
    (∀ ts ∈ t, ∀ n ∈ ts, Q n) → ∀ ts ∈ r.2, ∀ n ∈ ts, Q n
  | [], cam, c, t, r, h, ht => by cases h; exact ht
  | cand :: cands, cam, c, t, r, h, ht => by
    unfold addCams at h
    obtain ⟨⟨c1, t1⟩, h1, h⟩ := bind_ok h
    refine addCams_tnr hm cands (cam + 1) c1 t1 r h ?_
    unfold addCam at h1
    obtain ⟨c2, -, h1⟩ := bind_ok h1
    split_ifs at h1
    · obtain ⟨ts, g1, h1⟩ := bind_ok h1
      obtain ⟨ts', g2, h1⟩ := bind_ok h1
      obtain ⟨c3, -, h1⟩ := bind_ok h1
      cases h1
      have hmem : ts ∈ t := by
        unfold pyGet at g1
        split at g1
        · next x hx => cases g1; exact List.mem_of_getElem? hx
        · cases g1
      intro us hus n hn
      rcases List.mem_or_eq_of_mem_set hus with q | q
      · exact ht us q n hn
      · subst q
        rcases pySetI_mem g2 n hn with q | q
        · exact ht ts hmem n q
        · rw [q]; exact hm
    · cases h1; exact ht

theorem renumber_tnr {Q : Int → Prop} : ∀ (targets : List (List (Search.Tgt K))) (tnr : List (List Int)),
    (∀ ts ∈ tnr, ∀ n ∈ ts, Q n) → ∀ ts ∈ renumber targets tnr, ∀ t ∈ ts, Q t.tnr := by
  intro targets tnr h ts hts t ht
  unfold renumber at hts
  obtain ⟨i, hi⟩ := List.getElem?_of_mem hts
  rw [List.getElem?_zipWith] at hi
  split at hi
  · next a b ha hb =>
    cases hi
    obtain ⟨j, hj⟩ := List.getElem?_of_mem ht
    rw [List.getElem?_zipWith] at hj
    split at hj
    · next a' b' ha' hb' =>
      cases hj
      exact h b (List.mem_of_getElem? hb) b' (List.mem_of_getElem? hb')
    · cases hj
  · cases hi

theorem addImage_ok {targets : List (List (Search.Tgt K))} {corr : List Corres} {cands : List Int} {n : Nat}
    {r : List (List (Search.Tgt K)) × List Corres} (h : addImage targets corr cands n = .ok r)
    (ht : ∀ ts ∈ targets, ∀ t ∈ ts, -1 ≤ t.tnr) : ∀ ts ∈ r.1, ∀ t ∈ ts, -1 ≤ t.tnr := by
  unfold addImage at h
  obtain ⟨s, h1, h⟩ := bind_ok h
  cases h
  refine renumber_tnr _ _ (addCams_tnr (Q := fun n => -1 ≤ n) (by omega) _ _ _ _ _ h1 ?_)
  intro ts hts m hm
  rw [List.mem_map] at hts
  obtain ⟨us, hus, rfl⟩ := hts
  rw [List.mem_map] at hm
  obtain ⟨t, htm, rfl⟩ := hm
  exact ht us hus t htm

/-- `add_particle` on the image data of a frame (track.py:746-758). -/
def Img.add (i : Img K) (cands : List Int) (numParts : Nat) : Py (Img K) :=
  match h : addImage i.targets i.corr cands numParts with
  | .ok r => .ok ⟨r.1, r.2, addImage_ok h i.ok⟩
  | .error e => .error e

/-- The tracking step with the searches over the cameras `c`; what is left of `base` is the geometry in space. -/
def withCams {D : Type} (c : Cams P K) (base : Geo P (List (K × K)) (List Int) (Img K) D) :
    Geo P (List (K × K)) (List Int) (Img K) D :=
  { base with
    search := fun x v i => do
      let l ← sortedCandidates c x v i.targets
      .ok (l.map fun r => ⟨r.ftnr, r.freq⟩)
    assess := fun x i => assessNew c x i.targets
    addImg := Img.add }

/-- C81: the search of the tracker, on target lists whose numbers are -1 or particle numbers, only reports -1 or
particle numbers: the assumption of C16, C18, C20, C77, C78 about the search. -/
theorem C81_search_sane {D : Type} [Field D] [LinearOrder D] (c : Cams P K)
    (base : Geo P (List (K × K)) (List Int) (Img K) D) (him : c.imx ≤ 10 ^ 19 ∧ c.imy ≤ 10 ^ 19) (hn : c.num ≤ 4) :
    SearchSane (withCams c base) := by
  intro x v i w h f hf
  simp only [withCams] at h
  obtain ⟨l, h1, h⟩ := bind_ok h
  cases h
  rw [List.mem_map] at hf
  obtain ⟨y, hy, rfl⟩ := hf
  show -1 ≤ y.ftnr
  by_cases hne : y.ftnr = TR_UNUSED
  · rw [hne]; decide
  obtain ⟨-, as, -, q⟩ := C81_candidates_partial c x v i.targets him hn l h1
  obtain ⟨-, S, hS, q⟩ := q y hy hne
  have hpos : 0 < S.card := by
    rw [hS]
    by_contra hz
    have hz : y.freq = 0 := by omega
    exact hne (candidateList_unused h1 him hn y hy hz)
  obtain ⟨cam, hcam⟩ := Finset.card_pos.1 hpos
  obtain ⟨-, v2, a2, -, -, q2⟩ := q cam hcam
  rcases q2 with ⟨ts, j, t, g1, g2, g3, -⟩ | ⟨ts, t, g1, g2, g3⟩
  · rw [← g3]; exact i.ok ts (List.mem_of_getElem? g1) t (List.mem_of_getElem? g2)
  · rw [← g3]; exact i.ok ts (List.mem_of_getElem? g1) t (List.mem_of_getLast? g2)

/-- C16 for the tracker with its searches over the cameras: mutual links in the frames that a run writes. -/
theorem C81_run_mutual {D : Type} [Field D] [LinearOrder D] (c : Cams P K)
    (base : Geo P (List (K × K)) (List Int) (Img K) D) (him : c.imx ≤ 10 ^ 19 ∧ c.imy ≤ 10 ^ 19) (hn : c.num ≤ 4)
    (disk : Int → Frame P D (Img K))
    (hd : ∀ n, ∀ p ∈ (disk n).parts, p.prev = PREV_NONE ∧ p.next = NEXT_NONE) (first : Int) (L : Nat)
    (f0 f1 f2 f3 : Frame P D (Img K)) (r : Run (Frame P D (Img K)))
    (h : forwardRun disk (trackBuf (withCams c base)) first (first + L) [f0, f1, f2, f3] = .ok r) :
    (writesOf r.log).length = L + 1 ∧ LinkChain (writesOf r.log) := by
  obtain ⟨h1, h2, -⟩ := C16_run_mutual (withCams c base) (C81_search_sane c base him hn) disk hd first L _ _ _ _ r h
  exact ⟨h1, h2⟩

end

/-! A run with camera searches: two cameras look at particles on a line, two particles, moving right by 1. -/

def rowCams : Cams ℚ ℚ := ⟨2, 100, 100, fun _ x => .ok (x + 50, 50), fun _ _ => .ok ⟨5, 5, 5, 5⟩, fun _ p => p⟩

def rowGeo : Geo ℚ (List (ℚ × ℚ)) (List Int) (Img ℚ) ℚ :=
  withCams rowCams
  { predict := fun a b => 2 * b - a
    predict2 := fun x3 x1 x0 => (5 * x3 - 4 * x1 + x0) / 2
    sub := fun a b => a - b
    dist := fun a b => |a - b|
    proj := fun x => [(x + 50, 50), (x + 50, 50)]
    projOwn := fun _ _ x => [(x + 50, 50), (x + 50, 50)]
    search := fun _ _ _ => .ok []
    assess := fun _ _ => .ok (0, [], [])
    pointPos := fun _ => .ok 0
    inVolume := fun _ => true
    inBounds := fun x => decide (|x| < 2)
    angleAcc := fun _ b c => .ok (0, |b - c|)
    addImg := fun i _ _ => .ok i
    dacc := 5
    dangle := 100
    lmax := 1
    add := false }

/-- The image data of a frame with particles at `a` and `b`. -/
def rowImg (a b : ℚ) : Img ℚ :=
  ⟨List.replicate 2 [⟨a + 50, 50, 0⟩, ⟨b + 50, 50, 1⟩], [], by
    intro ts hts t ht
    rw [List.eq_of_mem_replicate hts] at ht
    simp only [List.mem_cons, List.not_mem_nil, or_false] at ht
    rcases ht with rfl | rfl <;> simp⟩

def rowDisk (n : Int) : Frame ℚ ℚ (Img ℚ) :=
  ⟨n, [⟨n, PREV_NONE, NEXT_NONE, [], 0⟩, ⟨n + 10, PREV_NONE, NEXT_NONE, [], 0⟩], rowImg n (n + 10)⟩

example : (match forwardRun rowDisk (trackBuf rowGeo) 10 (10 + (3 : Nat)) (List.replicate 4 (rowDisk 0)) with
    | .ok r => some ((writesOf r.log).map (fun w => (w.1, w.2.parts.map Part.next)))
    | .error _ => none) = some [(10, [0, 1]), (11, [0, 1]), (12, [0, 1]), (13, [-2, -2])] := by
  decide +kernel

end Verif.Track
