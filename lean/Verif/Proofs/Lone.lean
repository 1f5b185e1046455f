/-
One particle, one target per camera: the searches and one tracking step, computed.
-/
import Verif.Props.CamSearch
import Verif.Props.Complete
import Mathlib.Tactic.IntervalCases

set_option linter.unusedSectionVars false

namespace Verif.Track
open Verif.Track.Spec

/-! ### The search with one target per camera -/

section
variable {P : Type} {K : Type} [Field K] [LinearOrder K] [IsStrictOrderedRing K]

theorem startPoint_one (y thr : K) : Search.startPoint [y] 1 thr = .ok 0 := by
  unfold Search.startPoint
  rw [Search.startLoop]
  rfl

/-- Whatever the window, the result has only the target itself and empty slots. -/
theorem candsearch_one (t : Search.Tgt K) (cx cy dl dr du dd imx imy : K) :
    ∃ l, Search.candsearchInPix [t] cx cy dl dr du dd imx imy = .ok l ∧ l.length = 4 ∧ ∀ x ∈ l, x = 0 ∨ x = -1 := by
  unfold Search.candsearchInPix
  simp only
  split_ifs
  · simp only [List.map_cons, List.map_nil, List.length_cons, List.length_nil, Nat.zero_add, startPoint_one, bind, Except.bind,
      Nat.sub_zero]
    rw [show List.range' 0 1 = [0] from rfl]
    simp only [Search.pixLoop, pyGet, List.getElem?_cons_zero, bind, Except.bind, Search.Best.insert]
    split_ifs <;> exact ⟨_, rfl, rfl, by simp [Search.Best.init]⟩
  · exact ⟨_, rfl, rfl, by simp⟩

theorem registerLoop_one (cam : Nat) : ∀ (cs : List Int) (reg : List FP), cs.length = reg.length → (∀ x ∈ cs, x = 0 ∨ x = -1) →
    registerLoop [0] cam cs reg = .ok (reg.map fun r => { r with cams := r.cams.set cam true, ftnr := 0 })
  | [], reg, hl, _ => by
    have : reg = [] := List.length_eq_zero_iff.1 hl.symm
    subst this
    rfl
  | x :: cs, [], hl, _ => by simp at hl
  | x :: cs, r :: rs, hl, h => by
    have ih := registerLoop_one cam cs rs (by simpa using hl) (fun y hy => h y (by simp [hy]))
    simp only [registerLoop]
    rcases h x (by simp) with rfl | rfl <;> rw [if_neg (by decide), ih] <;> rfl

/-- Each camera registers the one target four times. -/
theorem registerCam_one {c : Cams P K} {targets : List (List (Search.Tgt K))} {proj : List (K × K)} {as : List (Rect K)}
    {cam : Nat} {v : K × K} {a : Rect K} {t : Search.Tgt K} (ht : targets[cam]? = some [t]) (h0 : t.tnr = 0)
    (hv : proj[cam]? = some v) (ha : as[cam]? = some a) :
    registerCam c targets proj as cam =
      .ok (List.replicate 4 { FP.unused with cams := FP.unused.cams.set cam true, ftnr := 0 }) := by
  unfold registerCam registerClosest
  rw [pyGet_some ht, pyGet_some hv, pyGet_some ha]
  obtain ⟨l, l1, l2, l3⟩ := candsearch_one t v.1 v.2 a.left a.right a.up a.down c.imx c.imy
  simp only [bind, Except.bind, l1, List.map_cons, List.map_nil, h0]
  rw [registerLoop_one cam l _ (by simp [l2]) l3, List.map_replicate]

theorem areas_of {c : Cams P K} {center : P} : ∀ cams : List Nat,
    (∀ cam ∈ cams, ∃ a, c.area cam center = .ok a) → ∃ as, areas c center cams = .ok as ∧ as.length = cams.length
  | [], _ => ⟨[], rfl, rfl⟩
  | cam :: cams, h => by
    obtain ⟨a, ha⟩ := h cam (by simp)
    obtain ⟨as, h1, h2⟩ := areas_of cams (fun x hx => h x (by simp [hx]))
    exact ⟨a :: as, by simp only [areas, ha, h1, bind, Except.bind], by simp [h2]⟩

/-- Every camera has one target, that of particle 0. -/
def OneTarget (c : Cams P K) (targets : List (List (Search.Tgt K))) : Prop :=
  ∀ cam, cam < c.num → ∃ t, targets[cam]? = some [t] ∧ t.tnr = 0

theorem registerCams_one {c : Cams P K} {targets : List (List (Search.Tgt K))} {proj : List (K × K)} {as : List (Rect K)} :
    ∀ cams : List Nat, (∀ cam ∈ cams, ∃ t v a, targets[cam]? = some [t] ∧ t.tnr = 0 ∧ proj[cam]? = some v ∧ as[cam]? = some a) →
    registerCams c targets proj as cams = .ok (cams.flatMap fun cam =>
      List.replicate 4 { FP.unused with cams := FP.unused.cams.set cam true, ftnr := 0 })
  | [], _ => rfl
  | cam :: cams, h => by
    obtain ⟨t, v, a, h1, h2, h3, h4⟩ := h cam (by simp)
    simp only [registerCams, registerCam_one h1 h2 h3 h4, registerCams_one cams (fun x hx => h x (by simp [hx])), bind, Except.bind,
      List.flatMap_cons]

/-- The search offers particle 0, with all cameras, and the end mark: nothing else. -/
theorem sortedCandidates_one (c : Cams P K) (center : P) (proj : List (K × K)) (targets : List (List (Search.Tgt K)))
    (hn : 1 ≤ c.num ∧ c.num ≤ 4) (ht : OneTarget c targets) (hp : proj.length = c.num)
    (ha : ∀ cam, cam < c.num → ∃ a, c.area cam center = .ok a) :
    ∃ l, sortedCandidates c center proj targets = .ok l ∧
      l.map (fun r => (⟨r.ftnr, r.freq⟩ : Found)) = [⟨0, c.num⟩, ⟨-1, 0⟩] := by
  obtain ⟨as, a1, a2⟩ := areas_of (c := c) (center := center) (List.range c.num) (fun cam h => ha cam (List.mem_range.1 h))
  rw [List.length_range] at a2
  refine ⟨candidateList ((List.range c.num).flatMap fun cam =>
      List.replicate 4 { FP.unused with cams := FP.unused.cams.set cam true, ftnr := 0 }) c.num, ?_, ?_⟩
  · unfold sortedCandidates
    rw [a1]
    simp only [bind, Except.bind]
    rw [registerCams_one]
    intro cam hcam
    rw [List.mem_range] at hcam
    obtain ⟨t, t1, t2⟩ := ht cam hcam
    exact ⟨t, proj[cam], as[cam], t1, t2, List.getElem?_eq_getElem (by omega), List.getElem?_eq_getElem (by omega)⟩
  · obtain ⟨h1, h2⟩ := hn
    revert h1 h2
    generalize c.num = n
    intro h1 h2
    interval_cases n <;> decide +kernel

/-- No target is free. -/
theorem rest_one (t : Search.Tgt K) (h0 : t.tnr = 0) (cx cy dl dr du dd imx imy : K) :
    Search.candsearchInPixRest [t] cx cy dl dr du dd imx imy (-1) = .ok (0, -1) := by
  unfold Search.candsearchInPixRest
  simp only
  split_ifs
  · simp only [List.map_cons, List.map_nil, List.length_cons, List.length_nil, Nat.zero_add, startPoint_one, bind, Except.bind,
      Nat.sub_zero]
    rw [show List.range' 0 1 = [0] from rfl]
    simp [Search.restLoop, pyGet, h0, bind, Except.bind]
  · rfl

theorem assessNew_one (c : Cams P K) (pos : P) (targets : List (List (Search.Tgt K))) (ht : OneTarget c targets)
    (hp : ∀ cam, cam < c.num → ∃ px, c.pix cam pos = .ok px) : ∃ v d, assessNew c pos targets = .ok (0, v, d) := by
  have key := assessCams_ok (c := c) (pos := pos) (targets := targets) (f := fun _ => ((COORD_UNUSED, COORD_UNUSED), -1))
    (List.range c.num) (by
      intro cam hcam
      rw [List.mem_range] at hcam
      obtain ⟨t, t1, t2⟩ := ht cam hcam
      obtain ⟨px, hpx⟩ := hp cam hcam
      unfold assessCam
      rw [hpx, pyGet_some t1]
      simp only [bind, Except.bind, rest_one t t2]
      rfl)
  refine ⟨flattenCams c ((List.range c.num).map fun _ => ((COORD_UNUSED, COORD_UNUSED), -1)),
    ((List.range c.num).map fun _ => (((COORD_UNUSED, COORD_UNUSED) : K × K), (-1 : Int))).map Prod.snd, ?_⟩
  · unfold assessNew
    rw [key]
    simp only [bind, Except.bind]
    congr 2
    rw [List.countP_eq_zero]
    intro r hr
    rw [List.mem_map] at hr
    obtain ⟨-, -, rfl⟩ := hr
    simp [used]

end

/-! ### One step -/

section
variable {P J C I D : Type} [Field D] [LinearOrder D] [IsStrictOrderedRing D]

/-- Candidates registered for particle 0 only. -/
def ZeroCands (l : List (D × Int)) : Prop := ∀ x ∈ l, x.2 = 0

theorem lookAhead_far {g : Geo P J C I D} {ctx : Ctx P} {b3 : Frame P D I} {fn : Found} {rest : List Found} {q cur : Part P D}
    (hr : ¬ (fn.ftnr = TR_UNUSED ∨ (b3.parts.length : Int) ≤ fn.ftnr)) (hq : pyGetI b3.parts fn.ftnr = .ok q)
    (hb : ¬ g.inBounds (g.sub q.x ctx.x3) = true) :
    lookAhead g ctx b3 (fn :: rest) cur = lookAhead g ctx b3 rest cur := by
  rw [lookAhead, if_neg hr, hq]
  simp only [bind, Except.bind]
  rw [if_neg hb]

theorem lookAhead_near {g : Geo P J C I D} {ctx : Ctx P} {b3 : Frame P D I} {fn : Found} {rest : List Found} {q cur : Part P D}
    {angle0 acc0 angle1 acc1 : D}
    (hr : ¬ (fn.ftnr = TR_UNUSED ∨ (b3.parts.length : Int) ≤ fn.ftnr)) (hq : pyGetI b3.parts fn.ftnr = .ok q)
    (hb : g.inBounds (g.sub q.x ctx.x3) = true) (h1 : g.angleAcc ctx.x3 q.x ctx.x5 = .ok (angle1, acc1))
    (h0 : (if ctx.x0.isSome = true then g.angleAcc ctx.x1 ctx.x2 ctx.x3 else .ok (angle1, acc1)) = .ok (angle0, acc0)) :
    lookAhead g ctx b3 (fn :: rest) cur =
      if g.gate ((acc0 + acc1) / 2) ((angle0 + angle1) / 2) = true then
        (cur.register (g.rr ((g.dist ctx.x1 ctx.x3 + g.dist q.x ctx.x3) / 2) ((acc0 + acc1) / 2) ((angle0 + angle1) / 2)
          (fn.freq + ctx.f.freq)) ctx.f.ftnr).bind (lookAhead g ctx b3 rest)
      else lookAhead g ctx b3 rest cur := by
  rw [lookAhead, if_neg hr, hq]
  simp only [bind, Except.bind]
  rw [if_pos hb, h1]
  simp only
  by_cases hs : ctx.x0.isSome = true
  · rw [if_pos hs] at h0 ⊢
    rw [h0]
  · rw [if_neg hs] at h0 ⊢
    cases h0
    rfl

theorem lookAhead_one {g : Geo P J C I D} {ctx : Ctx P} {b3 : Frame P D I} {q cur : Part P D} {n m : Nat}
    (hq : b3.parts = [q]) (hc : cur.cands = []) (hf : ctx.f.ftnr = 0)
    (h1 : g.inBounds (g.sub q.x ctx.x3) = true → ∃ a, g.angleAcc ctx.x3 q.x ctx.x5 = .ok a)
    (h0 : ctx.x0.isSome = true → ∃ a, g.angleAcc ctx.x1 ctx.x2 ctx.x3 = .ok a) :
    ∃ l, lookAhead g ctx b3 [⟨0, n⟩, ⟨-1, m⟩] cur = .ok { cur with cands := l } ∧ ZeroCands l ∧ l.length ≤ 1 ∧
      (ctx.x0 = none → g.inBounds (g.sub q.x ctx.x3) = true →
        (∃ angle acc, g.angleAcc ctx.x3 q.x ctx.x5 = .ok (angle, acc) ∧ Smooth g angle acc) → l ≠ []) := by
  have hend : ∀ cur : Part P D, lookAhead g ctx b3 [⟨-1, m⟩] cur = .ok cur := by
    intro cur
    simp [lookAhead, TR_UNUSED]
  have hget : pyGetI b3.parts 0 = .ok q := by rw [hq]; rfl
  have hr : ¬ ((0 : Int) = TR_UNUSED ∨ (b3.parts.length : Int) ≤ 0) := by simp [hq, TR_UNUSED]
  by_cases hb : g.inBounds (g.sub q.x ctx.x3) = true
  swap
  · rw [lookAhead_far hr hget hb, hend]
    refine ⟨[], ?_, by simp [ZeroCands], by simp, fun _ h => absurd h hb⟩
    rw [← hc]
  obtain ⟨⟨angle1, acc1⟩, ha⟩ := h1 hb
  have hx : ∃ angle0 acc0, (if ctx.x0.isSome = true then g.angleAcc ctx.x1 ctx.x2 ctx.x3 else .ok (angle1, acc1))
      = .ok (angle0, acc0) ∧ (ctx.x0 = none → angle0 = angle1 ∧ acc0 = acc1) := by
    by_cases hs : ctx.x0.isSome = true
    · obtain ⟨⟨angle0, acc0⟩, h⟩ := h0 hs
      exact ⟨angle0, acc0, by rw [if_pos hs, h], fun e => by simp [e] at hs⟩
    · exact ⟨angle1, acc1, by rw [if_neg hs], fun _ => ⟨rfl, rfl⟩⟩
  obtain ⟨angle0, acc0, hx, hx'⟩ := hx
  rw [lookAhead_near hr hget hb ha hx]
  by_cases hg : g.gate ((acc0 + acc1) / 2) ((angle0 + angle1) / 2) = true
  · rw [if_pos hg]
    simp only [Part.register, hc]
    refine ⟨[(g.rr ((g.dist ctx.x1 ctx.x3 + g.dist q.x ctx.x3) / 2) ((acc0 + acc1) / 2) ((angle0 + angle1) / 2) (n + ctx.f.freq), 0)],
      ?_, by simp [ZeroCands], by simp, by simp⟩
    simp [POSI, hf, Except.bind, hend]
  · rw [if_neg hg, hend]
    refine ⟨[], ?_, by simp [ZeroCands], by simp, ?_⟩
    · rw [← hc]
    · rintro e - ⟨angle, acc, e1, e2⟩
      rw [ha] at e1
      cases e1
      obtain ⟨rfl, rfl⟩ := hx' e
      exfalso
      apply hg
      simp only [Geo.gate]
      apply decide_eq_true
      rwa [add_self_div_two, add_self_div_two]

theorem tryNew_few {g : Geo P J C I D} {ctx : Ctx P} {cur : Part P D} {b3 : Frame P D I} {q : Nat} {v : J} {c : C}
    (h : g.assess ctx.x5 b3.img = .ok (q, v, c)) (hq : q < 2) : tryNew g ctx cur b3 = .ok (cur, b3) := by
  unfold tryNew
  rw [h]
  simp only [bind, Except.bind]
  rw [if_neg (by omega)]

theorem tryPlain_one {g : Geo P J C I D} {ctx : Ctx P} {cur : Part P D} (hf : ctx.f.ftnr = 0)
    (h0 : ctx.x0.isSome = true → ∃ a, g.angleAcc ctx.x1 ctx.x2 ctx.x3 = .ok a)
    (hz : ZeroCands cur.cands) (hl : cur.cands.length ≤ 1) :
    ∃ l, tryPlain g ctx cur = .ok { cur with cands := l } ∧ ZeroCands l ∧ l.length ≤ 1 ∧ (cur.cands ≠ [] → l ≠ []) ∧
      (ctx.x0.isSome = true → g.inBounds (g.sub ctx.x3 ctx.x1) = true →
        (∃ angle acc, g.angleAcc ctx.x1 ctx.x2 ctx.x3 = .ok (angle, acc) ∧ Smooth g angle acc) → l ≠ []) := by
  unfold tryPlain
  rcases hx : ctx.x0 with _ | x0
  · exact ⟨cur.cands, rfl, hz, hl, id, fun h => by simp at h⟩
  simp only
  by_cases hc : cur.cands = []
  swap
  · rw [if_neg hc]
    exact ⟨cur.cands, rfl, hz, hl, id, fun _ _ _ => hc⟩
  rw [if_pos hc]
  by_cases hb : g.inBounds (g.sub ctx.x3 ctx.x1) = true
  swap
  · rw [if_neg hb]
    exact ⟨cur.cands, rfl, hz, hl, id, fun _ h => absurd h hb⟩
  rw [if_pos hb]
  obtain ⟨⟨angle, acc⟩, ha⟩ := h0 (by rw [hx]; rfl)
  rw [ha]
  simp only [bind, Except.bind]
  by_cases hg : g.gate acc angle = true
  · rw [if_pos hg]
    refine ⟨[(g.rr ((g.dist ctx.x1 ctx.x3 + g.dist x0 ctx.x1) / 2) acc angle ctx.f.freq, 0)], ?_, by simp [ZeroCands], by simp,
      by simp, by simp⟩
    simp [Part.register, hc, POSI, hf]
  · rw [if_neg hg]
    refine ⟨cur.cands, rfl, hz, hl, id, ?_⟩
    rintro - - ⟨angle', acc', e1, e2⟩
    cases e1
    exfalso
    apply hg
    exact decide_eq_true e2

/-- What makes the one candidate acceptable: the step alone, or (without predecessor) the two steps. -/
def LoneOK (g : Geo P J C I D) (x0 : Option P) (x1 x3 x4 : P) : Prop :=
  (x0.isSome = true ∧ g.inBounds (g.sub x3 x1) = true ∧
    ∃ angle acc, g.angleAcc x1 (expected g x0 x1) x3 = .ok (angle, acc) ∧ Smooth g angle acc) ∨
  (x0 = none ∧ g.inBounds (g.sub x4 x3) = true ∧
    ∃ angle acc, g.angleAcc x3 x4 (expectedAfter g x0 x1 x3) = .ok (angle, acc) ∧ Smooth g angle acc)

/-- One step with one particle in each frame: it is linked. -/
theorem lone_step {g : Geo P J C I D} (hadd : g.add = false) {b0 b1 b2 b3 : Frame P D I} {p r q : Part P D}
    (hb1 : b1.parts = [p]) (hb2 : b2.parts = [r]) (hb3 : b3.parts = [q]) {x0 : Option P} (hx0 : prevPos b0 p = .ok x0)
    {n n' : Nat}
    (hw : g.search (expected g x0 p.x) (g.centreProj x0 b1 0 (expected g x0 p.x)) b2.img = .ok [⟨0, n⟩, ⟨-1, 0⟩])
    (hwn : g.search (expectedAfter g x0 p.x r.x) (g.proj (expectedAfter g x0 p.x r.x)) b3.img = .ok [⟨0, n'⟩, ⟨-1, 0⟩])
    (ha : ∃ v c, g.assess (expectedAfter g x0 p.x r.x) b3.img = .ok (0, v, c))
    (h1 : g.inBounds (g.sub q.x r.x) = true → ∃ a, g.angleAcc r.x q.x (expectedAfter g x0 p.x r.x) = .ok a)
    (h0 : x0.isSome = true → ∃ a, g.angleAcc p.x (expected g x0 p.x) r.x = .ok a)
    (hok : LoneOK g x0 p.x r.x q.x) (hr : r.prev = PREV_NONE) :
    ∃ cands final, stepFrames g b0 b1 b2 b3 = .ok ({ b1 with parts := [⟨p.x, p.prev, 0, cands, final⟩] },
      { b2 with parts := [{ r with prev := 0 }] }, b3, 1) := by
  -- the search
  have hcand : ∃ l, candOne g x0 p.x (expected g x0 p.x) ⟨0, n⟩ r { p with cands := [] } b3 = .ok ({ p with cands := l }, b3) ∧
      ZeroCands l ∧ l ≠ [] := by
    obtain ⟨l, e1, e2, e3, e4⟩ := lookAhead_one (g := g)
      (ctx := ⟨x0, p.x, expected g x0 p.x, r.x, expectedAfter g x0 p.x r.x, ⟨0, n⟩⟩) (b3 := b3) (q := q)
      (cur := { p with cands := [] }) (n := n') (m := 0) hb3 rfl rfl h1 h0
    obtain ⟨v, c, ha⟩ := ha
    obtain ⟨l', f1, f2, f3, f4, f5⟩ := tryPlain_one (g := g)
      (ctx := ⟨x0, p.x, expected g x0 p.x, r.x, expectedAfter g x0 p.x r.x, ⟨0, n⟩⟩)
      (cur := { p with cands := l }) rfl h0 e2 e3
    refine ⟨l', ?_, f2, ?_⟩
    · unfold candOne
      have hx5 : g.ahead x0 p.x r.x = expectedAfter g x0 p.x r.x := rfl
      simp only [hx5]
      rw [hwn]
      simp only [bind, Except.bind, List.length_cons, List.length_nil]
      rw [if_pos (by omega), e1]
      simp only
      rw [tryNew_few (q := 0) (v := v) (c := c) ha (by omega)]
      simp only
      rw [f1]
    · rcases hok with ⟨k1, k2, k3⟩ | ⟨k1, k2, k3⟩
      · exact f5 k1 k2 k3
      · exact f4 (e4 k1 k2 k3)
  obtain ⟨l, hl, hz, hne⟩ := hcand
  have hone : searchOne g b0 b1 0 b2 b3 = .ok ({ p with cands := l }, b2, b3) := by
    unfold searchOne
    have hp0 : pyGet b1.parts 0 = .ok p := by rw [hb1]; rfl
    rw [hp0]
    simp only [bind, Except.bind]
    rw [hx0]
    have hc : g.centre x0 p.x = expected g x0 p.x := rfl
    simp only [hc]
    rw [hw]
    simp only [List.length_cons, List.length_nil]
    rw [if_neg (by omega)]
    simp only [candLoop, TR_UNUSED]
    rw [if_neg (by simp [hb2])]
    have hr0 : pyGetI b2.parts 0 = .ok r := by rw [hb2]; rfl
    simp only [hr0, bind, Except.bind]
    rw [hl]
    simp only
    rw [if_pos (Or.inl trivial)]
    simp only
    have : tryAdd g x0 p.x (expected g x0 p.x) { p with cands := l } b2 = .ok ({ p with cands := l }, b2) := by
      unfold tryAdd
      cases x0 with
      | none => rfl
      | some x0 => simp only; rw [if_neg (by simp [hadd])]
    rw [this]
  have hloop : searchLoop g b0 (List.range b1.parts.length) b1 b2 b3 =
      .ok ({ b1 with parts := [{ p with cands := l }] }, b2, b3) := by
    rw [hb1]
    simp only [List.length_cons, List.length_nil, Nat.zero_add]
    rw [show List.range 1 = [0] from rfl]
    simp only [searchLoop, hone, bind, Except.bind, hb1, List.set_cons_zero]
  -- the linking phase
  have hlink : ∃ cands final, linkPhase [{ p with cands := l }] [r] =
      .ok ([⟨p.x, p.prev, 0, cands, final⟩], [{ r with prev := 0 }], 1) := by
    rcases hs : sortPairs l with _ | ⟨⟨d, k⟩, rest⟩
    · exfalso
      apply hne
      have := (List.perm_insertionSort pairLe l).length_eq
      unfold sortPairs at hs
      rw [hs] at this
      exact List.length_eq_zero_iff.1 this.symm
    · have hk : k = 0 := by
        have : (d, k) ∈ sortPairs l := by rw [hs]; simp
        exact hz _ ((List.perm_insertionSort pairLe l).mem_iff.1 this)
      subst hk
      refine ⟨(d, 0) :: rest, d, ?_⟩
      unfold linkPhase
      have hpre : prelim { p with cands := l } = ⟨p.x, p.prev, 0, (d, 0) :: rest, d⟩ := by
        simp only [prelim, hs]
      simp only [List.map_cons, List.map_nil, hpre, List.length_cons, List.length_nil]
      rw [show List.range (0 + 1) = [0] from rfl]
      simp [linkLoop, linkOne, pyGet, pyGetI, pySetI, hr, PREV_NONE, NEXT_NONE, bind, Except.bind]
  obtain ⟨cands, final, hlink⟩ := hlink
  refine ⟨cands, final, ?_⟩
  unfold stepFrames
  rw [hloop]
  simp only [bind, Except.bind]
  rw [hb2, hlink]

end

end Verif.Track
