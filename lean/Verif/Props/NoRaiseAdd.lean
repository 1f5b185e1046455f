/-
C104: forward tracking that adds particles: when it does not raise.
-/
import Verif.Proofs.TotalAdd
import Verif.Props.NoRaise
import Verif.Props.NewPosition

set_option linter.unusedSectionVars false

namespace Verif.Track
open Verif.Track.Spec Verif.Geo Verif.Geo.Spec

/-! ### Specification -/

/-- A particle at `x` is in the frame, or the tracker could add it: two cameras at least show targets that belong to no
particle, and `x` is what `point_position` makes of them. -/
def CanBe (s : Setup) (f : Frame V3 ℝ (Img ℝ)) (x : V3) : Prop :=
  x ∈ f.parts.map Part.x ∨ ∃ v, NewImages s f.img v ∧ s.position v = .ok x

/-- What can be asked of the input so that the search for particle `h` at `x1`, which was at `x0`, does not raise, if particles may
be added to the next frame `f2` and to the one after, `f3`. -/
structure TrackableAdd (s : Setup) (i1 : Img ℝ) (h : Nat) (x0 : Option V3) (x1 : V3) (f2 f3 : Frame V3 ℝ (Img ℝ)) : Prop where
  own : x0 = none → Corresponds s i1 h
  next : Projectable s (expectedNext x0 x1)
  after : ∀ x3, CanBe s f2 x3 → Projectable s (expectedThen x0 x1 x3)
  angle : ∀ x0', x0 = some x0' → ∀ x3, CanBe s f2 x3 → (x0' = x1 ↔ x3 = x1)
  angleAfter : ∀ x3, CanBe s f2 x3 → ∀ x4, CanBe s f3 x4 → (x4 = x3 ↔ expectedThen x0 x1 x3 = x3)

/-! ### Adding to the images -/

/-- The same targets, some with the number `n` now. -/
def SameTargets (n : Int) (ts ts' : List (List (Search.Tgt ℝ))) : Prop :=
  ts'.length = ts.length ∧ ∀ (cam : Nat) (a : List (Search.Tgt ℝ)), ts[cam]? = some a → ∃ a', ts'[cam]? = some a' ∧ a'.length = a.length ∧
    ∀ (i : Nat) (t' : Search.Tgt ℝ), a'[i]? = some t' → ∃ t, a[i]? = some t ∧ t'.x = t.x ∧ t'.y = t.y ∧ (t'.tnr = n ∨ t'.tnr = t.tnr)

/-- The same numbers, some replaced by `n`. -/
def SameNumbers (n : Int) (t t' : List (List Int)) : Prop :=
  t'.length = t.length ∧ ∀ (cam : Nat) (a : List Int), t[cam]? = some a → ∃ a' : List Int, t'[cam]? = some a' ∧ a'.length = a.length ∧
    ∀ (i : Nat) (u : Int), a'[i]? = some u → u = n ∨ a[i]? = some u

theorem SameNumbers.refl (n : Int) (t : List (List Int)) : SameNumbers n t t :=
  ⟨rfl, fun _ a h => ⟨a, h, rfl, fun _ _ h => Or.inr h⟩⟩

theorem SameNumbers.trans {n : Int} {t t' t'' : List (List Int)} (h : SameNumbers n t t') (h' : SameNumbers n t' t'') :
    SameNumbers n t t'' := by
  refine ⟨h'.1.trans h.1, fun cam a ha => ?_⟩
  obtain ⟨a', a1, a2, a3⟩ := h.2 cam a ha
  obtain ⟨a'', b1, b2, b3⟩ := h'.2 cam a' a1
  refine ⟨a'', b1, b2.trans a2, fun i u hu => ?_⟩
  rcases b3 i u hu with h | h
  · exact Or.inl h
  · exact a3 i u h

theorem pySetI_ok {xs : List Int} {i v : Int} (h : -(xs.length : Int) ≤ i ∧ i < xs.length) :
    ∃ ys : List Int, pySetI xs i v = .ok ys ∧ ys.length = xs.length ∧ ∀ (j : Nat) (u : Int), ys[j]? = some u → u = v ∨ xs[j]? = some u := by
  have key : ∀ k : Nat, (xs.set k v).length = xs.length ∧ ∀ (j : Nat) (u : Int), (xs.set k v)[j]? = some u → u = v ∨ xs[j]? = some u := by
    intro k
    refine ⟨by simp, fun j u hu => ?_⟩
    rw [List.getElem?_set] at hu
    split_ifs at hu
    · exact Or.inl (Option.some.inj hu).symm
    · exact Or.inr hu
  unfold pySetI
  split_ifs with h1 h2 h3
  · exact ⟨_, rfl, key _⟩
  · omega
  · exact ⟨_, rfl, key _⟩
  · omega

theorem setRow_length {c : List Corres} {cam : Nat} (h : cam < c.length) (v : Int) :
    ∃ c' : List Corres, setRow c cam v = .ok c' ∧ c'.length = c.length := by
  unfold setRow
  rw [List.getElem?_eq_getElem h]
  exact ⟨_, rfl, by simp⟩

theorem addCam_total {n : Int} {cam : Nat} {cand : Int} {c : List Corres} {t : List (List Int)} (hc : cam < c.length)
    (ht : ∃ ts, t[cam]? = some ts ∧ -(ts.length : Int) ≤ cand ∧ cand < ts.length) :
    ∃ c' t', addCam n cam cand c t = .ok (c', t') ∧ c'.length = c.length ∧ SameNumbers n t t' := by
  obtain ⟨c1, e1, l1⟩ := setRow_length hc CORRES_NONE
  unfold addCam
  rw [e1]
  simp only [bind, Except.bind]
  by_cases hu : cand ≠ PT_UNUSED
  swap
  · rw [if_neg hu]
    exact ⟨_, _, rfl, l1, SameNumbers.refl _ _⟩
  rw [if_pos hu]
  obtain ⟨ts, h1, h2⟩ := ht
  obtain ⟨ys, y1, y2, y3⟩ := pySetI_ok (v := n) h2
  obtain ⟨c2, e2, l2⟩ := setRow_length (show cam < c1.length by omega) cand
  rw [pyGet_some h1]
  simp only
  rw [y1]
  simp only
  rw [e2]
  refine ⟨_, _, rfl, by simp [setNr, l1, l2], by simp, ?_⟩
  intro k a ha
  rw [List.getElem?_set]
  split_ifs with hk hlt
  · subst hk
    rw [h1] at ha
    cases ha
    exact ⟨ys, rfl, y2, y3⟩
  · exact absurd (List.getElem?_eq_some_iff.1 h1).1 (by omega)
  · exact ⟨a, ha, rfl, fun _ _ h => Or.inr h⟩

theorem addCams_total {n : Int} : ∀ (cands : List Int) (cam : Nat) (c : List Corres) (t : List (List Int)),
    cam + cands.length ≤ c.length →
    (∀ (j : Nat) (cand : Int), cands[j]? = some cand → ∃ ts, t[cam + j]? = some ts ∧ -(ts.length : Int) ≤ cand ∧ cand < ts.length) →
    ∃ c' t', addCams n cam cands c t = .ok (c', t') ∧ c'.length = c.length ∧ SameNumbers n t t'
  | [], cam, c, t, _, _ => ⟨c, t, rfl, rfl, SameNumbers.refl _ _⟩
  | cand :: cands, cam, c, t, hl, h => by
    rw [List.length_cons] at hl
    obtain ⟨c1, t1, e1, e2, e3⟩ := addCam_total (n := n) (cam := cam) (cand := cand) (c := c) (t := t) (by omega) (h 0 cand rfl)
    obtain ⟨c2, t2, f1, f2, f3⟩ := addCams_total (n := n) cands (cam + 1) c1 t1 (by omega) (by
      intro j cand' hj
      obtain ⟨ts, g1, g2⟩ := h (j + 1) cand' (by simpa using hj)
      obtain ⟨ts', g3, g4, -⟩ := e3.2 _ ts g1
      refine ⟨ts', by rw [← g3]; congr 1; omega, by rw [g4]; exact g2⟩)
    refine ⟨c2, t2, ?_, by omega, e3.trans f3⟩
    unfold addCams
    rw [e1]
    simp only [bind, Except.bind]
    rw [f1]

theorem renumber_same {n : Int} {targets : List (List (Search.Tgt ℝ))} {t' : List (List Int)}
    (h : SameNumbers n (targets.map fun ts => ts.map Search.Tgt.tnr) t') : SameTargets n targets (renumber targets t') := by
  obtain ⟨h1, h2⟩ := h
  rw [List.length_map] at h1
  refine ⟨by simp [renumber, h1], ?_⟩
  intro cam a ha
  obtain ⟨a', a1, a2, a3⟩ := h2 cam (a.map Search.Tgt.tnr) (by rw [List.getElem?_map, ha]; rfl)
  rw [List.length_map] at a2
  refine ⟨List.zipWith (fun (t : Search.Tgt ℝ) (n : Int) => { t with tnr := n }) a a', ?_, by simp [a2], ?_⟩
  · unfold renumber
    rw [List.getElem?_zipWith, ha, a1]
  · intro i u hu
    rw [List.getElem?_zipWith] at hu
    split at hu
    · next t m ht hm =>
      cases hu
      refine ⟨t, ht, rfl, rfl, ?_⟩
      rcases a3 i m hm with h | h
      · exact Or.inl h
      · rw [List.getElem?_map, ht] at h
        exact Or.inr (Option.some.inj h).symm
    · cases hu

theorem Img.add_total {i : Img ℝ} {cands : List Int} {n : Nat} (hc : cands.length ≤ i.corr.length + 1)
    (h : ∀ (j : Nat) (cand : Int), cands[j]? = some cand → ∃ ts, i.targets[j]? = some ts ∧ -(ts.length : Int) ≤ cand ∧ cand < ts.length) :
    ∃ i', Img.add i cands n = .ok i' ∧ i'.corr.length = i.corr.length + 1 ∧ SameTargets n i.targets i'.targets := by
  obtain ⟨c', t', e1, e2, e3⟩ := addCams_total (n := n) cands 0 (resizeCorr i.corr) (i.targets.map fun ts => ts.map Search.Tgt.tnr)
    (by simp [resizeCorr]; omega) (by
      intro j cand hj
      obtain ⟨ts, h1, h2⟩ := h j cand hj
      exact ⟨ts.map Search.Tgt.tnr, by rw [Nat.zero_add, List.getElem?_map, h1]; rfl, by simpa using h2⟩)
  have hok : addImage i.targets i.corr cands n = .ok (renumber i.targets t', c') := by
    unfold addImage
    rw [e1]
    rfl
  refine ⟨⟨renumber i.targets t', c', addImage_ok hok i.ok⟩, ?_, by simp [e2, resizeCorr], renumber_same e3⟩
  unfold Img.add
  split
  · next r hr =>
    rw [hok] at hr
    cases hr
    rfl
  · next e he =>
    rw [hok] at he
    cases he

/-! ### What `assess_new_position` returns can be added -/

theorem assessCams_mem {P K : Type} [Field K] [LinearOrder K] {c : Cams P K} {pos : P} {targets : List (List (Search.Tgt K))} :
    ∀ (cams : List Nat) (l : List ((K × K) × Int)), assessCams c pos targets cams = .ok l →
      l.length = cams.length ∧ ∀ (k : Nat) (cam : Nat), cams[k]? = some cam → ∃ r, l[k]? = some r ∧ assessCam c pos targets cam = .ok r
  | [], l, h => by cases h; exact ⟨rfl, by simp⟩
  | cam :: cams, l, h => by
    unfold assessCams at h
    obtain ⟨r, h1, h⟩ := bind_ok h
    obtain ⟨rest, h2, h⟩ := bind_ok h
    cases h
    obtain ⟨i1, i2⟩ := assessCams_mem cams rest h2
    refine ⟨by simp [i1], ?_⟩
    intro k c' hk
    cases k with
    | zero => simp at hk; subst hk; exact ⟨r, rfl, h1⟩
    | succ k => simpa using i2 k c' (by simpa using hk)

theorem rest_index (ts : List (Search.Tgt ℝ)) (cx cy dl dr du dd imx imy : ℝ) (him : imx ≤ 10 ^ 19 ∧ imy ≤ 10 ^ 19) :
    ∃ r, Search.candsearchInPixRest ts cx cy dl dr du dd imx imy (-1) = .ok r ∧
      (r.2 = -1 ∨ ∃ i : Nat, r.2 = i ∧ i < ts.length) := by
  classical
  unfold Search.candsearchInPixRest
  simp only
  split_ifs with hc
  swap
  · exact ⟨_, rfl, Or.inl rfl⟩
  obtain ⟨j0, h1, h2, -⟩ := Search.startPoint_ok (ts.map Search.Tgt.y) (Search.clip cx cy dl dr du dd imx imy).ymin
  rw [List.length_map] at h1 h2
  simp only [h1, bind, Except.bind]
  obtain ⟨k, s', h3, -, h4, -⟩ := Search.restLoop_spec ts (Search.clip cx cy dl dr du dd imx imy) cx cy (-1)
    (List.range' j0 (ts.length - j0)) (by intro j hj; rw [List.mem_range'_1] at hj; omega)
    (by
      rintro j ⟨t, a, -, b⟩
      rw [Search.clip_eq] at b
      exact Search.inWindow_dist ts cx cy dl dr du dd imx imy j hc him ⟨t, a, b⟩) [] (Search.BIG, -1)
    (Or.inl ⟨rfl, rfl⟩)
  rw [h3]
  refine ⟨_, rfl, ?_⟩
  rw [List.nil_append] at h4
  rcases h4 with ⟨-, e⟩ | ⟨j, hj, e, -⟩
  · exact Or.inl (by rw [e])
  · right
    rw [List.mem_filter] at hj
    have := List.mem_of_mem_take hj.1
    rw [List.mem_range'_1] at this
    exact ⟨j, by rw [e], by omega⟩

/-- The index for a camera is that of a target, or -1. -/
theorem assessCam_index {P : Type} {c : Cams P ℝ} (him : c.imx ≤ 10 ^ 19 ∧ c.imy ≤ 10 ^ 19) {pos : P}
    {targets : List (List (Search.Tgt ℝ))} {cam : Nat} {ts : List (Search.Tgt ℝ)} (hts : targets[cam]? = some ts) (hne : ts ≠ [])
    {r : (ℝ × ℝ) × Int} (h : assessCam c pos targets cam = .ok r) : -(ts.length : Int) ≤ r.2 ∧ r.2 < ts.length := by
  have hpos : 0 < ts.length := List.length_pos_iff.2 hne
  unfold assessCam at h
  obtain ⟨px, -, h⟩ := bind_ok h
  rw [pyGet_some hts] at h
  simp only [bind, Except.bind] at h
  obtain ⟨r', h1, h2⟩ := rest_index ts px.1 px.2 ADD_PART ADD_PART ADD_PART ADD_PART c.imx c.imy him
  rw [h1] at h
  simp only at h
  have key : r.2 = r'.2 := by
    split_ifs at h
    · obtain ⟨t, -, h⟩ := bind_ok h
      cases h
      rfl
    · cases h
      rfl
  rw [key]
  rcases h2 with e | ⟨i, e, hi⟩ <;> rw [e] <;> omega

/-- Adding what `assess_new_position` found does not raise. -/
theorem add_found {s : Setup} (him : (s.ip.imx : ℝ) ≤ 10 ^ 19 ∧ (s.ip.imy : ℝ) ≤ 10 ^ 19) {X : V3} {i : Img ℝ} (hi : AllSeen s i)
    (hcorr : s.cals.length ≤ i.corr.length + 1) {q : Nat} {v : List (ℝ × ℝ)} {c : List Int}
    (h : s.tracker.assess X i = .ok (q, v, c)) (n : Nat) :
    ∃ i', s.tracker.addImg i c n = .ok i' ∧ i'.corr.length = i.corr.length + 1 ∧ SameTargets n i.targets i'.targets := by
  have h : assessNew s.cams X i.targets = .ok (q, v, c) := h
  unfold assessNew at h
  obtain ⟨l, h1, h⟩ := bind_ok h
  cases h
  obtain ⟨l1, l2⟩ := assessCams_mem _ _ h1
  rw [List.length_range] at l1
  have hnum : s.cams.num = s.cals.length := rfl
  refine Img.add_total (by rw [List.length_map]; omega) ?_
  intro j cand hj
  rw [List.getElem?_map, Option.map_eq_some_iff] at hj
  obtain ⟨r, hr, rfl⟩ := hj
  have hlt := (List.getElem?_eq_some_iff.1 hr).1
  obtain ⟨r', a1, a2⟩ := l2 j j (List.getElem?_range (by omega))
  rw [hr] at a1
  cases a1
  obtain ⟨ts, t1, t2⟩ := hi j (by omega)
  exact ⟨ts, t1, assessCam_index (c := s.cams) him t1 t2 a2⟩

/-! ### Grown frames -/

/-- `b` is `b'` with particles added. -/
structure Grown (s : Setup) (b b' : Frame V3 ℝ (Img ℝ)) : Prop where
  len : b'.img.targets.length = b.img.targets.length
  tgt : ∀ (cam : Nat) (a : List (Search.Tgt ℝ)), b.img.targets[cam]? = some a → ∃ a', b'.img.targets[cam]? = some a' ∧ a'.length = a.length ∧
    ∀ (i : Nat) (t' : Search.Tgt ℝ), a'[i]? = some t' → ∃ t, a[i]? = some t ∧ t'.x = t.x ∧ t'.y = t.y ∧ (t'.tnr = -1 → t.tnr = -1)
  corr : b.img.corr.length ≤ b'.img.corr.length
  pos : ∀ p ∈ b'.parts, CanBe s b p.x
  prev : (∀ q ∈ b.parts, q.prev = PREV_NONE) → ∀ q ∈ b'.parts, q.prev = PREV_NONE

theorem Grown.refl (s : Setup) (b : Frame V3 ℝ (Img ℝ)) : Grown s b b :=
  ⟨rfl, fun _ a h => ⟨a, h, rfl, fun _ t h => ⟨t, h, rfl, rfl, id⟩⟩, le_refl _, fun _ hp => Or.inl (List.mem_map_of_mem hp), fun h => h⟩

theorem Grown.back {s : Setup} {b b' : Frame V3 ℝ (Img ℝ)} (h : Grown s b b') {cam : Nat} {a' : List (Search.Tgt ℝ)}
    (ha : b'.img.targets[cam]? = some a') : ∃ a, b.img.targets[cam]? = some a ∧ a'.length = a.length ∧
      ∀ (i : Nat) (t' : Search.Tgt ℝ), a'[i]? = some t' → ∃ t, a[i]? = some t ∧ t'.x = t.x ∧ t'.y = t.y ∧ (t'.tnr = -1 → t.tnr = -1) := by
  have hlt := (List.getElem?_eq_some_iff.1 ha).1
  rw [h.len] at hlt
  obtain ⟨a'', h1, h2⟩ := h.tgt cam _ (List.getElem?_eq_getElem hlt)
  rw [ha] at h1
  cases h1
  exact ⟨_, List.getElem?_eq_getElem hlt, h2⟩

theorem Grown.seen {s : Setup} {b b' : Frame V3 ℝ (Img ℝ)} (h : Grown s b b') (hs : AllSeen s b.img) : AllSeen s b'.img := by
  intro cam hc
  obtain ⟨ts, h1, h2⟩ := hs cam hc
  obtain ⟨ts', h3, h4, -⟩ := h.tgt cam ts h1
  refine ⟨ts', h3, fun e => h2 ?_⟩
  rw [e] at h4
  exact List.eq_nil_of_length_eq_zero (by simpa using h4.symm)

theorem Grown.free {s : Setup} {b b' : Frame V3 ℝ (Img ℝ)} (h : Grown s b b') {v : List (ℝ × ℝ)} {cam : Nat}
    (hf : FreeTargetIn s b'.img v cam) : FreeTargetIn s b.img v cam := by
  obtain ⟨ts, t, h1, h2, h3, h4⟩ := hf
  obtain ⟨a, a1, -, a2⟩ := h.back h1
  obtain ⟨i, hi⟩ := List.getElem?_of_mem h2
  obtain ⟨t0, e1, e2, e3, e4⟩ := a2 i t hi
  exact ⟨a, t0, a1, List.mem_of_getElem? e1, e4 h3, by rw [← e2, ← e3]; exact h4⟩

theorem Grown.images {s : Setup} {b b' : Frame V3 ℝ (Img ℝ)} (h : Grown s b b') {v : List (ℝ × ℝ)}
    (hv : NewImages s b'.img v) : NewImages s b.img v := by
  obtain ⟨h1, h2, c1, c2, h3, h4, h5, h6⟩ := hv
  exact ⟨h1, fun cam hc => (h2 cam hc).imp id h.free, c1, c2, h3, h4, h.free h5, h.free h6⟩

theorem Grown.rays {s : Setup} {b b' : Frame V3 ℝ (Img ℝ)} (h : Grown s b b') (hr : RaysOK s b.img) : RaysOK s b'.img := by
  intro cam c ts t hc hts ht hnr
  obtain ⟨a, a1, -, a2⟩ := h.back hts
  obtain ⟨i, hi⟩ := List.getElem?_of_mem ht
  obtain ⟨t0, e1, e2, e3, e4⟩ := a2 i t hi
  rw [e2, e3]
  exact hr cam c a t0 hc a1 (List.mem_of_getElem? e1) (e4 hnr)

theorem Grown.add {s : Setup} (him : (s.ip.imx : ℝ) ≤ 10 ^ 19 ∧ (s.ip.imy : ℝ) ≤ 10 ^ 19) {b b' : Frame V3 ℝ (Img ℝ)} (h : Grown s b b')
    (hs : AllSeen s b.img) (hcorr : s.cals.length ≤ b.img.corr.length + 1) {X : V3} (hX : Projectable s X) {q : Nat}
    {v : List (ℝ × ℝ)} {c : List Int} (ha : s.tracker.assess X b'.img = .ok (q, v, c)) (h2 : 2 ≤ q) {x : V3}
    (hx : s.position v = .ok x) : ∃ b'', addParticle s.tracker b' x c = .ok b'' ∧ Grown s b b'' := by
  have hc := h.corr
  obtain ⟨i', e1, e2, e3, e4⟩ := add_found him (h.seen hs) (by omega) ha b'.parts.length
  unfold addParticle
  rw [e1]
  refine ⟨_, rfl, ?_, ?_, ?_, ?_, ?_⟩
  · exact e3.trans h.len
  · intro cam a hcam
    obtain ⟨a', a1, a2, a3⟩ := h.tgt cam a hcam
    obtain ⟨a'', f1, f2, f3⟩ := e4 cam a' a1
    refine ⟨a'', f1, f2.trans a2, ?_⟩
    intro i t hi
    obtain ⟨t', g1, g2, g3, g4⟩ := f3 i t hi
    obtain ⟨t0, k1, k2, k3, k4⟩ := a3 i t' g1
    refine ⟨t0, k1, g2.trans k2, g3.trans k3, fun hm => k4 ?_⟩
    rcases g4 with g4 | g4
    · rw [hm] at g4
      omega
    · rw [← g4]; exact hm
  · show b.img.corr.length ≤ i'.corr.length
    omega
  · intro p hp
    rcases List.mem_append.1 hp with hp | hp
    · exact h.pos p hp
    · rw [List.mem_singleton] at hp
      subst hp
      right
      obtain ⟨q', v', c', g1, g2⟩ := assessNew_images him hX (h.seen hs)
      rw [ha] at g1
      cases g1
      exact ⟨v, h.images (g2 h2), hx⟩
  · intro hb p hp
    rcases List.mem_append.1 hp with hp | hp
    · exact h.prev hb p hp
    · rw [List.mem_singleton] at hp
      subst hp
      rfl

theorem trackable_grown {s : Setup} {i1 : Img ℝ} {h : Nat} {x0 : Option V3} {x1 : V3} {f2 f3 b2 b3 : Frame V3 ℝ (Img ℝ)}
    (ht : TrackableAdd s i1 h x0 x1 f2 f3) (h2 : Grown s f2 b2) (h3 : Grown s f3 b3) :
    Trackable s i1 h x0 x1 (b2.parts.map Part.x) b2.img (b3.parts.map Part.x) b3.img := by
  have p2 : ∀ x ∈ b2.parts.map Part.x, CanBe s f2 x := by
    intro x hx
    obtain ⟨p, hp, rfl⟩ := List.mem_map.1 hx
    exact h2.pos p hp
  have p3 : ∀ x ∈ b3.parts.map Part.x, CanBe s f3 x := by
    intro x hx
    obtain ⟨p, hp, rfl⟩ := List.mem_map.1 hx
    exact h3.pos p hp
  exact ⟨ht.own, ht.next, fun x hx => ht.after x (p2 x hx), fun x0' e x hx => ht.angle x0' e x (p2 x hx),
    fun x hx y hy => ht.angleAfter x (p2 x hx) y (p3 y hy),
    fun x hx v y hv hy => ht.angleAfter x (p2 x hx) y (Or.inr ⟨v, h3.images hv, hy⟩)⟩

/-- C104 (partial): a forward step does not raise when it may add particles: with one or two cameras, if every camera has a target in
the next frames and each of these frames has a correspondence, the frame to link to has no links, and every particle is trackable
whatever is added. Missing: more than two cameras and cameras without targets (C99), and later steps: adding destroys the
correspondences (C65), so that the next step may raise (`C104_run_refuted`). -/
theorem C104_step_returns_partial (s : Setup) (hn : 1 ≤ s.cals.length ∧ s.cals.length ≤ 2)
    (him : (s.ip.imx : ℝ) ≤ 10 ^ 19 ∧ (s.ip.imy : ℝ) ≤ 10 ^ 19) (b0 b1 b2 b3 : Frame V3 ℝ (Img ℝ))
    (h2 : AllSeen s b2.img ∧ RaysOK s b2.img ∧ b2.img.corr ≠ []) (h3 : AllSeen s b3.img ∧ RaysOK s b3.img ∧ b3.img.corr ≠ [])
    (hfree : ∀ q ∈ b2.parts, q.prev = PREV_NONE)
    (hc : ∀ h p, b1.parts[h]? = some p → ∃ x0, Predecessor (b0.parts.map Part.x) p x0 ∧ TrackableAdd s b1.img h x0 p.x b2 b3) :
    ∃ r, stepFrames s.tracker b0 b1 b2 b3 = .ok r := by
  have hg : SearchSane s.tracker := C81_search_sane s.cams _ him (by show s.cals.length ≤ 4; omega)
  have hl2 : s.cals.length ≤ b2.img.corr.length + 1 := by
    have := List.length_pos_iff.2 h2.2.2
    omega
  have hl3 : s.cals.length ≤ b3.img.corr.length + 1 := by
    have := List.length_pos_iff.2 h3.2.2
    omega
  suffices H : ∀ h p, b1.parts[h]? = some p → ∃ x0, prevPos b0 p = .ok x0 ∧
      AddCallsOK s.tracker b1 (Grown s b2) (Grown s b3) 7 h x0 p.x by
    obtain ⟨b1', b2a, b2', b3', k, h, -⟩ := stepFrames_grow hg (m := 7) (by decide) (fun b hb => hb.prev hfree) (Grown.refl s b2)
      (Grown.refl s b3) H
    exact ⟨_, h⟩
  intro h p hp
  obtain ⟨x0, e1, ht⟩ := hc h p hp
  refine ⟨x0, ?_, ?_⟩
  · unfold Predecessor at e1
    unfold prevPos
    split_ifs at e1 with hneg
    · rw [if_neg (by omega), e1]
    · obtain ⟨a, b⟩ := e1
      rw [if_pos (by omega)]
      rw [List.getElem?_map] at b
      rcases hq : b0.parts[p.prev.toNat]? with _ | q
      · rw [hq] at b
        exact absurd b.symm a
      · rw [hq] at b
        have hpy : pyGetI b0.parts p.prev = .ok q := by
          unfold pyGetI
          rw [if_pos (by omega)]
          exact pyGet_some hq
        rw [hpy, ← b]
        rfl
  · refine ⟨?_, ?_, ?_⟩
    · intro c2 c3 g2 g3
      exact calls_ok hn him (g2.seen h2.1) (g3.seen h3.1) (g3.rays h3.2.1) (trackable_grown ht g2 g3)
    · intro c2 c3 r g2 g3 hr n v c x4 ha hn2 hx _
      rw [expectedThen_eq] at ha
      exact g3.add him h3.1 hl3 (ht.after r.x (g2.pos r hr)) ha hn2 hx
    · intro hsome _ c2 g2
      rw [expectedNext_eq]
      obtain ⟨n, v, c, a1, a2⟩ := assessNew_images him ht.next (g2.seen h2.1)
      refine ⟨n, v, c, a1, fun hn2 => ?_⟩
      obtain ⟨x3, hx⟩ := position_total (g2.rays h2.2.1) (a2 hn2)
      refine ⟨x3, hx, fun _ _ => ⟨?_, g2.add him h2.1 hl2 ht.next a1 hn2 hx⟩⟩
      obtain ⟨y0, rfl⟩ := Option.isSome_iff_exists.1 hsome
      have hiff := ht.angle y0 rfl x3 (Or.inr ⟨v, g2.images (a2 hn2), hx⟩)
      obtain ⟨angle, h⟩ := angleAcc_ok (a := p.x) (b := expectedNext (some y0) p.x) (c := x3) (by
        rw [← hiff]
        constructor
        · intro e
          have hx := congrArg V3.x e
          have hy := congrArg V3.y e
          have hz := congrArg V3.z e
          simp [expectedNext, V3.smul] at hx hy hz
          ext <;> linarith
        · intro e
          rw [e]
          ext <;> simp [expectedNext, V3.smul] <;> ring)
      exact ⟨_, h⟩

/-! ### The step after adding -/

theorem setRow_get {c c' : List Corres} {cam : Nat} {v : Int} (h : setRow c cam v = .ok c') :
    (∃ r, c'[cam]? = some r ∧ r.p = [v, v, v, v]) ∧ ∀ k, k ≠ cam → c'[k]? = c[k]? := by
  unfold setRow at h
  split at h
  · cases h
  · next r hr =>
    cases h
    have := (List.getElem?_eq_some_iff.1 hr).1
    refine ⟨⟨{ r with p := [v, v, v, v] }, ?_, rfl⟩, ?_⟩
    · rw [List.getElem?_set]
      simp [this]
    · intro k hk
      rw [List.getElem?_set, if_neg (Ne.symm hk)]

theorem addCam_row {n : Int} {cam j : Nat} {c c' : List Corres} {t t' : List (List Int)}
    (h : addCam n cam j c t = .ok (c', t')) :
    (∃ r, c'[cam]? = some r ∧ r.p = [(j : Int), (j : Int), (j : Int), (j : Int)]) ∧
      ∀ k, k ≠ cam → ∀ r, c[k]? = some r → ∃ r', c'[k]? = some r' ∧ r'.p = r.p := by
  unfold addCam at h
  obtain ⟨c1, h1, h⟩ := bind_ok h
  rw [if_pos (by simp only [PT_UNUSED]; omega)] at h
  obtain ⟨ts, -, h⟩ := bind_ok h
  obtain ⟨ts', -, h⟩ := bind_ok h
  obtain ⟨c2, h2, h⟩ := bind_ok h
  cases h
  obtain ⟨-, e1⟩ := setRow_get h1
  obtain ⟨⟨r, f1, f2⟩, e2⟩ := setRow_get h2
  refine ⟨⟨{ r with nr := n }, by simp [setNr, f1], f2⟩, ?_⟩
  intro k hk r hr
  exact ⟨{ r with nr := n }, by simp [setNr, e2 k hk, e1 k hk, hr], rfl⟩

theorem addImg_rows {s : Setup} {i i' : Img ℝ} {j0 j1 n : Nat} (h : s.tracker.addImg i [(j0 : Int), (j1 : Int)] n = .ok i') :
    (∃ r, i'.corr[0]? = some r ∧ r.p = [(j0 : Int), (j0 : Int), (j0 : Int), (j0 : Int)]) ∧
      ∀ ts ts', i.targets[1]? = some ts → i'.targets[1]? = some ts' → ts'.length ≤ ts.length := by
  have h : Img.add i [(j0 : Int), (j1 : Int)] n = .ok i' := h
  unfold Img.add at h
  split at h
  swap
  · cases h
  next r hr =>
  cases h
  unfold addImage at hr
  obtain ⟨⟨c', t'⟩, h1, hr⟩ := bind_ok hr
  cases hr
  simp only
  constructor
  · rw [addCams] at h1
    obtain ⟨⟨c1, t1⟩, h2, h1⟩ := bind_ok h1
    rw [addCams] at h1
    obtain ⟨⟨c2, t2⟩, h3, h1⟩ := bind_ok h1
    rw [addCams] at h1
    cases h1
    obtain ⟨⟨r, e1, e2⟩, -⟩ := addCam_row h2
    obtain ⟨r', f1, f2⟩ := (addCam_row h3).2 0 (by omega) r e1
    exact ⟨r', f1, f2.trans e2⟩
  · intro ts ts' hts hts'
    unfold renumber at hts'
    rw [List.getElem?_zipWith, hts] at hts'
    split at hts'
    · next a b ha hb =>
      cases ha
      cases hts'
      simp
    · cases hts'

/-- C104 is false for the steps after one that adds: let a frame get a new particle, made from target `j0` of the first
of two cameras and `j1` of the second, where `j0` is not less than the number of targets of the second. If particle 0 of the
frame has no predecessor, then the step from this frame raises (IndexError: the correspondences of particle 0 have been
overwritten, its target in the second camera is `j0` now), whatever is in the other frames. -/
theorem C104_run_refuted (s : Setup) (hn : s.cals.length = 2) (f f' : Frame V3 ℝ (Img ℝ)) (x : V3) (j0 j1 : Nat)
    (hadd : addParticle s.tracker f x [(j0 : Int), (j1 : Int)] = .ok f') (ts : List (Search.Tgt ℝ)) (hts : f.img.targets[1]? = some ts)
    (hj : ts.length ≤ j0) (b0 b1 b2 b3 : Frame V3 ℝ (Img ℝ)) (himg : b1.img = f'.img) (p : Part V3 ℝ) (hp : b1.parts[0]? = some p)
    (hprev : p.prev < 0) (out) : stepFrames s.tracker b0 b1 b2 b3 ≠ .ok out := by
  intro h
  unfold addParticle at hadd
  obtain ⟨i', hi, hadd⟩ := bind_ok hadd
  cases hadd
  obtain ⟨⟨r, r1, r2⟩, t1⟩ := addImg_rows hi
  have hbad : ∀ v, s.ownPix b1.img 0 p.x 1 ≠ .ok v := by
    intro v hv
    rw [himg] at hv
    unfold Setup.ownPix at hv
    rw [pyGet_some (show ({ f with parts := f.parts ++ [⟨x, PREV_NONE, NEXT_NONE, [], 0⟩], img := i' } : Frame V3 ℝ (Img ℝ)).img.corr[0]?
      = some r from r1)] at hv
    obtain ⟨r', hr', hv⟩ := bind_ok hv
    cases hr'
    rw [r2] at hv
    obtain ⟨q, hq, hv⟩ := bind_ok hv
    simp [pyGet] at hq
    subst hq
    rw [if_neg (by omega)] at hv
    obtain ⟨ts', h1, hv⟩ := bind_ok hv
    obtain ⟨u, h2, -⟩ := bind_ok hv
    have h1' : i'.targets[1]? = some ts' := by
      unfold pyGet at h1
      split at h1
      · next y hy => cases h1; exact hy
      · cases h1
    have := t1 ts ts' hts h1'
    unfold pyGetI at h2
    rw [if_pos (by omega)] at h2
    simp only [Int.toNat_natCast] at h2
    unfold pyGet at h2
    rw [List.getElem?_eq_none (by omega)] at h2
    cases h2
  have hown : s.projOwn b1.img 0 p.x = [] := by
    unfold Setup.projOwn
    rw [hn]
    cases h1 : s.ownPix b1.img 0 p.x 1 with
    | ok v => exact absurd h1 (hbad v)
    | error e => simp [List.range_succ, Setup.allOk, h1]
  have hlen := (List.getElem?_eq_some_iff.1 hp).1
  unfold stepFrames at h
  obtain ⟨y, h, -⟩ := bind_ok h
  rw [List.range_eq_range', show b1.parts.length = (b1.parts.length - 1) + 1 by omega, List.range'_succ] at h
  simp only [searchLoop] at h
  obtain ⟨y, h, -⟩ := bind_ok h
  unfold searchOne at h
  rw [pyGet_some hp] at h
  obtain ⟨p', hp', h⟩ := bind_ok h
  cases hp'
  have hpp : prevPos b0 p = .ok none := by
    unfold prevPos
    rw [if_neg (by omega)]
  rw [hpp] at h
  obtain ⟨x0, hx0, h⟩ := bind_ok h
  cases hx0
  obtain ⟨w, h, -⟩ := bind_ok h
  have hproj : s.tracker.centreProj none b1 0 (s.tracker.centre none p.x) = [] := hown
  rw [hproj] at h
  have h : (sortedCandidates s.cams (s.tracker.centre none p.x) [] b2.img.targets).bind _ = .ok w := h
  obtain ⟨l, h, -⟩ := bind_ok h
  unfold sortedCandidates at h
  obtain ⟨as, -, h⟩ := bind_ok h
  obtain ⟨rows, h, -⟩ := bind_ok h
  have hnum : s.cams.num = 1 + 1 := hn
  rw [hnum, List.range_succ_eq_map] at h
  rw [registerCams] at h
  obtain ⟨reg, h, -⟩ := bind_ok h
  unfold registerCam at h
  obtain ⟨ts, -, h⟩ := bind_ok h
  obtain ⟨v, h, -⟩ := bind_ok h
  simp [pyGet] at h

/-! ### Examples -/

/-- The two cameras in air, with adding on. -/
noncomputable def addSetup : Setup := { airSetup with add := true, dacc := 20 }

/-- The next frame: a particle at `(2.5, 0, 0)`, and unmatched targets of one at `(2, 0, 0)`. -/
noncomputable def lostFrame : Frame V3 ℝ (Img ℝ) := ⟨2, [⟨⟨2.5, 0, 0⟩, PREV_NONE, NEXT_NONE, [], 0⟩], twoImg 2.5 2⟩

/-- The frame before, whose particle was at the origin: it is expected at `(2, 0, 0)` next. -/
noncomputable def beforeLost : Frame V3 ℝ (Img ℝ) := { airDisk (fun n => n) 1 with parts := [⟨⟨1, 0, 0⟩, 0, NEXT_NONE, [], 0⟩] }

theorem add_flat (p : ℝ) (hp : -1000 < p) (cam : Nat) (h : cam < airSetup.cals.length) : ∃ c, airSetup.cals[cam]? = some c ∧
    Sees c.1 ⟨p, 0, 0⟩ ∧ flatImageCoord ⟨p, 0, 0⟩ c.1 emptyLUT airSetup.mm = some (addSetup.flat cam (5 * (p - 10 * cam) + 500, 500)) ∧
    (addSetup.flat cam (5 * (p - 10 * cam) + 500, 500)).1 ≠ coordUnused ∧
    ∃ r, rayTracing (addSetup.flat cam (5 * (p - 10 * cam) + 500, 500)).1 (addSetup.flat cam (5 * (p - 10 * cam) + 500, 500)).2
      c.1 airSetup.mm = some r := by
  have hr := airSetup_rig p hp
  have hc := List.getElem?_eq_getElem h
  have he := hr.cams _ (List.getElem_mem h)
  have hf := flat_of_pix hr.pixels hc he (airSetup_pix p cam h)
  refine ⟨_, hc, he.sees, hf, he.mark _ hf, ?_⟩
  obtain ⟨t1, X, t2, -⟩ := trace_projection he.sees hr.media
  rw [t1] at hf
  have e := Option.some.inj hf
  have e' : addSetup.flat cam (5 * (p - 10 * cam) + 500, 500) = _ := e.symm
  rw [e']
  exact ⟨_, t2⟩

theorem add_air {X : V3} (hX : X.z ≤ 50) : ∀ c ∈ addSetup.cals, AirCam addSetup c.1 X := by
  intro c hc
  obtain ⟨a1, a2, a3, a4, a5, a6, a7⟩ := airSetup_air hX c hc
  exact ⟨a1, a2, a3, a4, a5, a6, a7⟩

theorem add_rig (p : ℝ) (hp : -1000 < p) : RigSees addSetup ⟨p, 0, 0⟩ := by
  obtain ⟨a1, a2, a3, a4⟩ := airSetup_rig p hp
  refine ⟨a1, a2, ?_, a4⟩
  intro c hc
  obtain ⟨b1, b2, b3, b4, b5, b6, b7, b8, b9, b10⟩ := a3 c hc
  exact ⟨b1, b2, b3, b4, b5, b6, b7, b8, b9, b10⟩

theorem lost_rays : RaysOK addSetup lostFrame.img := by
  intro cam c ts t hc hts ht hnr
  have hc' : airSetup.cals[cam]? = some c := hc
  have hlt : cam < airSetup.cals.length := (List.getElem?_eq_some_iff.1 hc').1
  have hts : (twoImg 2.5 2).targets[cam]? = some ts := hts
  rw [twoImg_targets _ _ cam hlt] at hts
  cases hts
  simp only [List.mem_cons, List.not_mem_nil, or_false] at ht
  rcases ht with rfl | rfl
  · simp at hnr
  · obtain ⟨c', h1, -, -, h2, h3⟩ := add_flat 2 (by norm_num) cam hlt
    rw [hc'] at h1
    cases h1
    exact ⟨h2, h3⟩

/-- The only particle that can be added to this frame is the one at `(2, 0, 0)`. -/
theorem lost_new {v : List (ℝ × ℝ)} {x : V3} (hv : NewImages addSetup lostFrame.img v) (hx : addSetup.position v = .ok x) :
    x = ⟨2, 0, 0⟩ := by
  obtain ⟨h1, -, c1, c2, h12, h2, f1, f2⟩ := hv
  have h2' : c2 < 2 := h2
  obtain ⟨rfl, rfl⟩ : c1 = 0 ∧ c2 = 1 := by omega
  have key : ∀ cam, cam < airSetup.cals.length → FreeTargetIn addSetup lostFrame.img v cam →
      v[cam]? = some (addSetup.flat cam (5 * (2 - 10 * cam) + 500, 500)) := by
    rintro cam hc ⟨ts, t, g1, g2, g3, g4⟩
    have g1 : (twoImg 2.5 2).targets[cam]? = some ts := g1
    rw [twoImg_targets _ _ cam hc] at g1
    cases g1
    simp only [List.mem_cons, List.not_mem_nil, or_false] at g2
    rcases g2 with rfl | rfl
    · simp at g3
    · exact g4
  have k0 := key 0 (by simp [airSetup]) f1
  have k1 := key 1 (by simp [airSetup]) f2
  have hr := airSetup_rig 2 (by norm_num)
  have hall : ∀ cam, cam < airSetup.cals.length → v[cam]? = some (addSetup.flat cam (5 * (2 - 10 * cam) + 500, 500)) := by
    intro cam hc
    have : cam < 2 := hc
    have : cam = 0 ∨ cam = 1 := by omega
    rcases this with rfl | rfl
    · exact k0
    · exact k1
  have hpos : pointPosition v airSetup.cals.length airSetup.mm (airSetup.cals.map Prod.fst) = .ok (some (0, ⟨2, 0, 0⟩)) := by
    refine C60_triangulation_recovers _ v _ _ _ (le_of_eq h1.symm) hr.media ?_ ?_ ?_
    · intro cam hc t ht _
      rw [hall cam hc] at ht
      cases ht
      obtain ⟨c, g1, g2, g3, -⟩ := add_flat 2 (by norm_num) cam hc
      exact ⟨c.1, by rw [List.getElem?_map, g1]; rfl, g2, g3⟩
    · intro i j ci cj hij hi hj hci hcj
      rw [List.getElem?_map, Option.map_eq_some_iff] at hci hcj
      obtain ⟨ci, hci, rfl⟩ := hci
      obtain ⟨cj, hcj, rfl⟩ := hcj
      exact getElem?_pairwise hr.apart hij hci hcj
    · refine Finset.one_lt_card.2 ⟨0, ?_, 1, ?_, by omega⟩
      · simp only [usedCams, Finset.mem_filter, Finset.mem_range]
        obtain ⟨c, -, -, -, g, -⟩ := add_flat 2 (by norm_num) 0 (by simp [airSetup])
        exact ⟨by simp [airSetup], _, hall 0 (by simp [airSetup]), g⟩
      · simp only [usedCams, Finset.mem_filter, Finset.mem_range]
        obtain ⟨c, -, -, -, g, -⟩ := add_flat 2 (by norm_num) 1 (by simp [airSetup])
        exact ⟨by simp [airSetup], _, hall 1 (by simp [airSetup]), g⟩
  have hx : (match pointPosition v airSetup.cals.length airSetup.mm (airSetup.cals.map Prod.fst) with
    | .ok (some r) => Except.ok r.2
    | .ok none => .ok airSetup.lo
    | .error e => .error e : Py V3) = .ok x := hx
  rw [hpos] at hx
  exact (Except.ok.inj hx).symm

theorem lost_canBe {x : V3} (h : CanBe addSetup lostFrame x) : x = ⟨2.5, 0, 0⟩ ∨ x = ⟨2, 0, 0⟩ := by
  rcases h with h | ⟨v, h1, h2⟩
  · simp only [lostFrame, List.map_cons, List.map_nil, List.mem_singleton] at h
    exact Or.inl h
  · exact Or.inr (lost_new h1 h2)

theorem lost_trackable : TrackableAdd addSetup beforeLost.img 0 (some ⟨0, 0, 0⟩) ⟨1, 0, 0⟩ lostFrame (airDisk (fun _ => 4) 3) := by
  have proj : ∀ X : V3, X.z ≤ 50 → Projectable addSetup X := fun X h => airSetup_projectable h
  have after : ∀ {x}, CanBe addSetup (airDisk (fun _ => 4) 3) x → x = ⟨4, 0, 0⟩ := by
    rintro x (h | ⟨v, h, -⟩)
    · simpa [airDisk] using h
    · exact absurd h (air_no_new _ _ v)
  refine ⟨fun h => (by cases h), proj _ (by norm_num [expectedNext, V3.smul]), ?_, ?_, ?_⟩
  · intro x hx
    apply proj
    rcases lost_canBe hx with rfl | rfl <;> norm_num [expectedThen, V3.smul]
  · intro x0 h0 x hx
    cases h0
    constructor
    · intro e
      have := congrArg V3.x e
      norm_num at this
    · intro e
      have := congrArg V3.x e
      rcases lost_canBe hx with rfl | rfl <;> norm_num at this
  · intro x hx y hy
    rw [after hy]
    constructor
    · intro e
      have := congrArg V3.x e
      rcases lost_canBe hx with rfl | rfl <;> norm_num at this
    · intro e
      have := congrArg V3.x e
      rcases lost_canBe hx with rfl | rfl <;> norm_num [expectedThen, V3.smul] at this

theorem lost_seen : AllSeen addSetup lostFrame.img := by
  intro cam hc
  exact ⟨_, twoImg_targets _ _ cam hc, by simp⟩

/-- C104: all hypotheses hold for the step that adds the particle at `(2, 0, 0)`. -/
theorem lost_step_returns : ∃ r, stepFrames addSetup.tracker (airDisk (fun n => n) 0) beforeLost lostFrame (airDisk (fun _ => 4) 3) = .ok r := by
  refine C104_step_returns_partial addSetup (by simp [addSetup, airSetup]) (by norm_num [addSetup, airSetup]) _ _ _ _
    ⟨lost_seen, lost_rays, by simp [lostFrame, twoImg]⟩
    ⟨(air_seen _ _).1, (air_seen _ _).2, by simp [airDisk, airImg]⟩ (by simp [lostFrame]) ?_
  intro h p hp
  cases h with
  | succ h => simp [beforeLost] at hp
  | zero =>
    simp [beforeLost] at hp
    subst hp
    exact ⟨some ⟨0, 0, 0⟩, by simp [Predecessor, airDisk], lost_trackable⟩

/-- C103 (and C94): all hypotheses hold for this step. -/
example : ∃ b1' b2' b3' cnt d, stepFrames addSetup.tracker (airDisk (fun n => n) 0) beforeLost lostFrame (airDisk (fun _ => 4) 3)
      = .ok (b1', b2', b3', cnt) ∧
    Served addSetup.tracker (some ⟨0, 0, 0⟩) ⟨1, 0, 0⟩ lostFrame.img (airDisk (fun _ => 4) 3).img b1'.parts b2'.parts b3'.parts 0 d := by
  obtain ⟨⟨b1', b2', b3', cnt⟩, h⟩ := lost_step_returns
  have him : (addSetup.ip.imx : ℝ) ≤ 10 ^ 19 ∧ (addSetup.ip.imy : ℝ) ≤ 10 ^ 19 := by norm_num [addSetup, airSetup]
  obtain ⟨b2c, b3a, ⟨⟨b1c, e1⟩, -⟩, key⟩ := C103_added_partial addSetup him (by simp [addSetup, airSetup]) _ _ _ _ _ _ _ _ h
    (by simp [beforeLost]) (by simp [lostFrame]) 0 ⟨⟨1, 0, 0⟩, 0, NEXT_NONE, [], 0⟩ ⟨0, 0, 0⟩ rfl (by simp [Predecessor, airDisk]) rfl
  simp only [List.range_zero, searchLoop, Except.ok.injEq, Prod.mk.injEq] at e1
  obtain ⟨-, rfl, rfl⟩ := e1
  have hexp : (⟨1, 0, 0⟩ : V3).smul 2 - ⟨0, 0, 0⟩ = ⟨2, 0, 0⟩ := by ext <;> norm_num [V3.smul]
  simp only [hexp] at key
  have hlists : ∀ ts ∈ lostFrame.img.targets, (ts.map Search.Tgt.y).Pairwise (· ≤ ·) ∧ ts.length < 8190 ∧
      ∀ t ∈ ts, t.tnr < lostFrame.parts.length := by
    intro ts hts
    simp only [lostFrame, twoImg, List.mem_cons, List.not_mem_nil, or_false] at hts
    rcases hts with rfl | rfl <;> simp [lostFrame]
  have hseen : SeenByAll addSetup.cams lostFrame ⟨2, 0, 0⟩ (addSetup.proj ⟨2, 0, 0⟩) 0 := by
    refine near_seen (Y := ⟨2.5, 0, 0⟩) ⟨rfl, hlists⟩ ?_ (add_air (by norm_num)) (by norm_num [InOpenBox, addSetup, airSetup])
    intro cam hc
    have hc' : cam = 0 ∨ cam = 1 := by
      have : cam < 2 := hc
      omega
    have shown : ∀ (q : ℝ), q = 10 * cam → (q = 0 ∨ q = 10) → addSetup.cals[cam]? = some (downCam q, emptyLUT) →
        ShownNear addSetup lostFrame.img.targets ⟨2, 0, 0⟩ ⟨2.5, 0, 0⟩ cam 0 := by
      intro q hqc hq h1
      refine ⟨_, _, 0, _, _, _, _, h1, airSetup_pixel _ _, ?_, airSetup_pixel _ _, ?_, twoImg_targets _ _ cam hc, ?_, ?_, ?_⟩
      · rcases hq with rfl | rfl <;> norm_num [addSetup, airSetup]
      · rcases hq with rfl | rfl <;> norm_num [addSetup, airSetup]
      · rw [hqc]; rfl
      · intro i t hi hn _
        match i with
        | 0 => rfl
        | 1 => simp at hi; subst hi; simp at hn
        | i + 2 => simp at hi
      · intro S hS
        have : S = ∅ := by
          rw [Finset.eq_empty_iff_forall_notMem]
          intro i hi
          obtain ⟨t, ht, hn, hlt⟩ := hS i hi
          match i with
          | 0 => simp at ht; subst ht; rw [hqc] at hlt; exact lt_irrefl _ hlt
          | 1 => simp at ht; subst ht; simp at hn
          | i + 2 => simp at ht
        rw [this]
        simp
    rcases hc' with rfl | rfl
    · exact shown 0 (by simp) (Or.inl rfl) rfl
    · exact shown 10 (by simp) (Or.inr rfl) rfl
  obtain ⟨w, w1, w2, -⟩ := search_offers addSetup.cams _ him (by simp [Setup.cams, addSetup, airSetup]) hseen
  obtain ⟨angle, hang⟩ := angleAcc_ok (a := (⟨1, 0, 0⟩ : V3)) (b := ⟨2, 0, 0⟩) (c := ⟨2, 0, 0⟩) Iff.rfl
  obtain ⟨d, hd⟩ := key w ⟨2, 0, 0⟩ angle _ w1 (by omega) rfl (fun ts hts => ⟨(hlists ts hts).1, (hlists ts hts).2.1⟩)
    (fun cam hc => ⟨_, airSetup_pix _ cam hc⟩) (add_rig 2 (by norm_num))
    ⟨(twoImg_show 2.5 2 2 (by norm_num) (by norm_num) (by norm_num)).shown, (twoImg_show 2.5 2 2 (by norm_num) (by norm_num) (by norm_num)).two⟩ (by norm_num [addSetup, airSetup])
    (by norm_num [Pos3dInBounds, addSetup, airSetup]) hang (by
      right
      have : (⟨2, 0, 0⟩ - ⟨1, 0, 0⟩ - (⟨2, 0, 0⟩ - ⟨1, 0, 0⟩) : V3) = ⟨0, 0, 0⟩ := by ext <;> norm_num
      rw [this, norm_axis]
      norm_num [Setup.tracker, withCams, addSetup, airSetup])
  exact ⟨_, _, _, _, d, h, hd⟩

/-- A frame whose particle is seen by the first camera only, and unmatched targets, number 1 of the first and 0 of the second. -/
noncomputable def shortFrame : Frame V3 ℝ (Img ℝ) :=
  ⟨1, [⟨⟨2.5, 0, 0⟩, PREV_NONE, NEXT_NONE, [], 0⟩], ⟨[[⟨512.5, 500, 0⟩, ⟨510, 500, -1⟩], [⟨460, 500, -1⟩]], [⟨1, [0, -1]⟩], by
    intro ts hts t ht
    simp only [List.mem_cons, List.not_mem_nil, or_false] at hts
    rcases hts with rfl | rfl <;> simp only [List.mem_cons, List.not_mem_nil, or_false] at ht <;> rcases ht with rfl | rfl <;> norm_num⟩⟩

/-- C104_run_refuted: a particle is added to this frame, then the step from it raises. -/
example : ∃ f', addParticle addSetup.tracker shortFrame ⟨2, 0, 0⟩ [((1 : ℕ) : Int), ((0 : ℕ) : Int)] = .ok f' ∧
    ∀ b0 b2 b3 out, stepFrames addSetup.tracker b0 f' b2 b3 ≠ .ok out := by
  obtain ⟨i', h1, -⟩ := Img.add_total (i := shortFrame.img) (cands := [((1 : ℕ) : Int), ((0 : ℕ) : Int)]) (n := shortFrame.parts.length)
    (by simp [shortFrame]) (by
      intro j cand hj
      match j with
      | 0 => simp at hj; subst hj; exact ⟨_, rfl, by simp, by simp⟩
      | 1 => simp at hj; subst hj; exact ⟨_, rfl, by simp, by simp⟩
      | j + 2 => simp at hj)
  have h2 : addParticle addSetup.tracker shortFrame ⟨2, 0, 0⟩ [((1 : ℕ) : Int), ((0 : ℕ) : Int)] =
      .ok { shortFrame with parts := shortFrame.parts ++ [⟨⟨2, 0, 0⟩, PREV_NONE, NEXT_NONE, [], 0⟩], img := i' } := by
    unfold addParticle
    rw [show addSetup.tracker.addImg shortFrame.img [((1 : ℕ) : Int), ((0 : ℕ) : Int)] shortFrame.parts.length = .ok i' from h1]
    rfl
  refine ⟨_, h2, ?_⟩
  intro b0 b2 b3 out
  exact C104_run_refuted addSetup rfl shortFrame _ ⟨2, 0, 0⟩ 1 0 h2 [⟨460, 500, -1⟩] rfl (by simp) b0 _ b2 b3 rfl
    ⟨⟨2.5, 0, 0⟩, PREV_NONE, NEXT_NONE, [], 0⟩ rfl (by norm_num [PREV_NONE]) out

end Verif.Track
