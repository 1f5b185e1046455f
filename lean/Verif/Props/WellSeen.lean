/-
C95: a particle that all cameras see near the expected position is offered to the tracking step, and linked.
-/
import Verif.Props.CamSearch
import Verif.Props.Complete

set_option linter.unusedSectionVars false

namespace Verif.Track
open Verif.Track.Spec

section
variable {P : Type} {K : Type} [Field K] [LinearOrder K] [IsStrictOrderedRing K]

/-! ### Specification -/

/-- Camera `cam` clearly sees particle `k` in the search rectangle `a` around `v`: the target of `k` lies strictly inside,
`v` is in the image, no other particle's target in the rectangle is exactly as far from `v`, and fewer than four are nearer. -/
def ClearlySeen (c : Cams P K) (targets : List (List (Search.Tgt K))) (v : K × K) (a : Rect K) (cam : Nat) (k : Int) : Prop :=
  (0 ≤ v.1 ∧ v.1 ≤ c.imx ∧ 0 ≤ v.2 ∧ v.2 ≤ c.imy) ∧
  ∃ ts j t, targets[cam]? = some ts ∧ ts[j]? = some t ∧ t.tnr = k ∧
    Search.Spec.InWindow ts v.1 v.2 a.left a.right a.up a.down c.imx c.imy j ∧
    (∀ i, i ≠ j → Search.Spec.InWindow ts v.1 v.2 a.left a.right a.up a.down c.imx c.imy i →
      Search.Spec.distOf ts v.1 v.2 i ≠ Search.Spec.distOf ts v.1 v.2 j) ∧
    ∀ S : Finset Nat, (∀ i ∈ S, Search.Spec.InWindow ts v.1 v.2 a.left a.right a.up a.down c.imx c.imy i ∧
      Search.Spec.distOf ts v.1 v.2 i < Search.Spec.distOf ts v.1 v.2 j) → S.card < 4

/-- Target lists as the tracker reads them: one per camera, sorted by `y`, fewer than 8190 targets each. -/
def ListsOK (c : Cams P K) (targets : List (List (Search.Tgt K))) : Prop :=
  targets.length = c.num ∧ ∀ ts ∈ targets, (ts.map Search.Tgt.y).Pairwise (· ≤ ·) ∧ ts.length < 8190

/-! ### One camera -/

theorem registerLoop_hits (tnrs : List Int) (cam : Nat) (hne : tnrs ≠ []) : ∀ (cs : List Int) (reg : List FP),
    (∀ x ∈ cs, x ≠ PT_UNUSED ∧ -1 ≤ x ∧ x < tnrs.length) → cs.length = reg.length →
    ∃ out, registerLoop tnrs cam cs reg = .ok out ∧ ∀ (i : Nat) (k : Int), (i : Int) ∈ cs → tnrs[i]? = some k → ∃ r ∈ out, r.ftnr = k
  | [], reg, _, hl => by
    refine ⟨[], ?_, by simp⟩
    simp [registerLoop]
  | x :: cs, [], _, hl => by simp at hl
  | x :: cs, r :: rs, h, hl => by
    obtain ⟨h1, h2, h3⟩ := h x (by simp)
    obtain ⟨out, g1, g2⟩ := registerLoop_hits tnrs cam hne cs rs (fun y hy => h y (by simp [hy])) (by simpa using hl)
    have hpos : 0 < tnrs.length := List.length_pos_iff.2 hne
    have hget : ∃ t, pyGetI tnrs x = .ok t ∧ (0 ≤ x → tnrs[x.toNat]? = some t) := by
      unfold pyGetI
      by_cases h0 : 0 ≤ x
      · rw [if_pos h0]
        have hlt : x.toNat < tnrs.length := by omega
        exact ⟨tnrs[x.toNat], by simp [pyGet, List.getElem?_eq_getElem hlt], fun _ => List.getElem?_eq_getElem hlt⟩
      · have hx : x = -1 := by omega
        subst hx
        rw [if_neg h0]
        have hlt : tnrs.length - 1 < tnrs.length := by omega
        refine ⟨tnrs[tnrs.length - 1], ?_, fun h => absurd h h0⟩
        rw [if_pos (by omega), show (-1 + (tnrs.length : Int)).toNat = tnrs.length - 1 by omega]
        simp [pyGet, List.getElem?_eq_getElem hlt]
    obtain ⟨t, ht, ht'⟩ := hget
    refine ⟨{ r with cams := r.cams.set cam true, ftnr := t } :: out, ?_, ?_⟩
    · simp only [registerLoop]
      rw [if_neg h1, ht, g1]
      rfl
    · intro i k hi hk
      rcases List.mem_cons.1 hi with e | hi
      · refine ⟨_, List.mem_cons_self .., ?_⟩
        have := ht' (by omega)
        rw [← e] at this
        simp only [Int.toNat_natCast] at this
        rw [hk] at this
        simpa using this.symm
      · obtain ⟨r', hr', e⟩ := g2 i k hi hk
        exact ⟨r', List.mem_cons_of_mem _ hr', e⟩

theorem registerCam_seen {c : Cams P K} {targets : List (List (Search.Tgt K))} {proj : List (K × K)} {as : List (Rect K)}
    {cam : Nat} {k : Int} {v : K × K} {a : Rect K} (him : c.imx ≤ 10 ^ 19 ∧ c.imy ≤ 10 ^ 19)
    (hl : ListsOK c targets) (hv : proj[cam]? = some v) (ha : as[cam]? = some a) (hk : ClearlySeen c targets v a cam k) :
    ∃ b, registerCam c targets proj as cam = .ok b ∧ ∃ r ∈ b, r.ftnr = k := by
  obtain ⟨hc, ts, j, t, g1, g2, g3, g4, g5, g6⟩ := hk
  obtain ⟨s1, s2⟩ := hl.2 ts (List.mem_of_getElem? g1)
  obtain ⟨L, l1, l2, l3, l4, l5⟩ := Search.C13_nearest_complete_partial ts v.1 v.2 a.left a.right a.up a.down c.imx c.imy
    him hc s1 s2
  have hjL : j ∈ L := by
    rcases l5 j g4 with ⟨i, hi, e⟩ | ⟨e1, e2⟩
    · by_cases hij : i = j
      · rw [← hij]; exact hi
      · exact absurd e (g5 i hij (l3 i hi))
    · exfalso
      have hnd : L.Nodup := l4.imp (fun h => by rintro rfl; exact lt_irrefl _ h)
      have := g6 L.toFinset (by
        intro i hi
        rw [List.mem_toFinset] at hi
        exact ⟨l3 i hi, e2 i hi⟩)
      rw [List.toFinset_card_of_nodup hnd] at this
      omega
  have hjl : j < ts.length := (List.getElem?_eq_some_iff.1 g2).1
  obtain ⟨out, o1, o2⟩ := registerLoop_hits (ts.map Search.Tgt.tnr) cam (by
      intro e
      have := congrArg List.length e
      simp at this
      rw [this] at hjl
      simp at hjl) (L.map Int.ofNat ++ List.replicate (4 - L.length) (-1)) (List.replicate 4 FP.unused) (by
      intro x hx
      rw [List.mem_append] at hx
      rw [List.length_map]
      rcases hx with hx | hx
      · rw [List.mem_map] at hx
        obtain ⟨i, hi, rfl⟩ := hx
        obtain ⟨t', ht', -⟩ := l3 i hi
        have := (List.getElem?_eq_some_iff.1 ht').1
        simp only [PT_UNUSED, Int.ofNat_eq_natCast]
        omega
      · rw [List.eq_of_mem_replicate hx]
        simp only [PT_UNUSED]
        omega) (by simp; omega)
  refine ⟨out, ?_, ?_⟩
  · unfold registerCam registerClosest
    rw [pyGet_some g1, pyGet_some hv, pyGet_some ha]
    simp only [bind, Except.bind, l2]
    exact o1
  · refine o2 j k ?_ ?_
    · rw [List.mem_append]
      left
      rw [List.mem_map]
      exact ⟨j, hjL, rfl⟩
    · rw [List.getElem?_map, g2]
      simp [g3]

/-! ### All cameras -/

theorem areas_ok {c : Cams P K} {center : P} {f : Nat → Rect K} : ∀ cams : List Nat,
    (∀ cam ∈ cams, c.area cam center = .ok (f cam)) → areas c center cams = .ok (cams.map f)
  | [], _ => rfl
  | cam :: cams, h => by
    simp only [areas, h cam (by simp), areas_ok cams (fun x hx => h x (by simp [hx])), bind, Except.bind, List.map_cons]

theorem registerCams_seen {c : Cams P K} {targets : List (List (Search.Tgt K))} {proj : List (K × K)} {as : List (Rect K)}
    {k : Int} : ∀ (n cam : Nat), (∀ j, cam ≤ j → j < cam + n →
      ∃ b, registerCam c targets proj as j = .ok b ∧ b.length = 4 ∧ ∃ r ∈ b, r.ftnr = k) →
    ∃ rows, registerCams c targets proj as (List.range' cam n) = .ok rows ∧ ∀ j, j < n → SeenBy rows j k
  | 0, cam, _ => ⟨[], rfl, by simp⟩
  | n + 1, cam, h => by
    obtain ⟨b, b1, b2, r, hr, e⟩ := h cam (by omega) (by omega)
    obtain ⟨rows, r1, r2⟩ := registerCams_seen n (cam + 1) (fun j h1 h2 => h j (by omega) (by omega))
    refine ⟨b ++ rows, ?_, ?_⟩
    · rw [List.range'_succ]
      simp only [registerCams, b1, r1, bind, Except.bind]
    · intro j hj
      cases j with
      | zero =>
        obtain ⟨i, hi⟩ := List.getElem?_of_mem hr
        have hlt := (List.getElem?_eq_some_iff.1 hi).1
        refine ⟨i, by omega, ?_⟩
        rw [Nat.mul_zero, Nat.zero_add, List.getElem?_append_left hlt, hi]
        simp [e]
      | succ j =>
        obtain ⟨i, h4, hi⟩ := r2 j (by omega)
        refine ⟨i, h4, ?_⟩
        rw [List.getElem?_append_right (by omega), ← hi]
        congr 2
        omega

/-- The search offers a particle that all cameras clearly see, with all cameras counted. -/
theorem sortedCandidates_offers (c : Cams P K) (center : P) (proj : List (K × K)) (targets : List (List (Search.Tgt K)))
    (him : c.imx ≤ 10 ^ 19 ∧ c.imy ≤ 10 ^ 19) (hn : 2 ≤ c.num ∧ c.num ≤ 4) (hl : ListsOK c targets)
    (v : Nat → K × K) (a : Nat → Rect K) (k : Nat) (n : Nat)
    (hv : ∀ cam, cam < c.num → proj[cam]? = some (v cam) ∧ c.area cam center = .ok (a cam) ∧
      ClearlySeen c targets (v cam) (a cam) cam k)
    (ht : ∀ ts ∈ targets, ∀ t ∈ ts, t.tnr < n) :
    ∃ l, sortedCandidates c center proj targets = .ok l ∧ 2 ≤ l.length ∧
      (⟨k, c.num⟩ : Found) ∈ offered (l.map fun r => (⟨r.ftnr, r.freq⟩ : Found)) n := by
  have hA := areas_ok (c := c) (center := center) (f := a) (List.range c.num)
    (fun cam h => (hv cam (List.mem_range.1 h)).2.1)
  have has : ∀ cam, cam < c.num → ((List.range c.num).map a)[cam]? = some (a cam) := by
    intro cam h
    rw [List.getElem?_map, List.getElem?_range h]; rfl
  obtain ⟨rows, h1, h2⟩ := registerCams_seen (c := c) (targets := targets) (proj := proj)
    (as := (List.range c.num).map a) (k := k) c.num 0 (by
      intro j _ hj
      obtain ⟨e1, -, e3⟩ := hv j (by omega)
      obtain ⟨b, b1, b2⟩ := registerCam_seen him hl e1 (has j (by omega)) e3
      exact ⟨b, b1, (registerCam_block him b1).len, b2⟩)
  obtain ⟨k1, k2⟩ := registerCams_blocks him _ _ _ h1
  simp only [Nat.zero_add] at k2
  have hF := fresh_of_blocks hn.2 k1 k2
  have hcnt : camCount rows c.num k = c.num := by
    unfold camCount
    rw [List.filter_eq_self.2, List.length_range]
    intro j hj
    exact decide_eq_true (h2 j (List.mem_range.1 hj))
  have hle : ∀ m, camCount rows c.num m ≤ c.num := by
    intro m
    unfold camCount
    refine le_trans (List.length_filter_le _ _) ?_
    simp
  have hku : (k : Int) ≠ TR_UNUSED := by simp only [TR_UNUSED]; omega
  obtain ⟨y, y1, y2, y3⟩ := C15_no_loss_best_partial rows c.num hF k hku (by omega) (by
    intro r _ _
    rw [hcnt]; exact hle _)
  obtain ⟨s1, s2, s3, s4, s5, s6, s7⟩ := C15_sorted_partial rows c.num hF
  have hres : sortedCandidates c center proj targets = .ok (candidateList rows c.num) := by
    unfold sortedCandidates
    rw [hA]
    simp only [bind, Except.bind]
    rw [List.range_eq_range' (n := c.num)] at h1 ⊢
    rw [h1]
  have hyf : y.freq = c.num := y3.trans hcnt
  obtain ⟨i, hi⟩ := List.getElem?_of_mem y1
  have hil := (List.getElem?_eq_some_iff.1 hi).1
  -- everything before is used
  have hbef : ∀ (m : Nat) (z : FP), m ≤ i → (sortByFreq rows c.num).1[m]? = some z → z.freq ≠ 0 := by
    intro m z hm hz
    rcases Nat.lt_or_ge m i with q | q
    · have := List.pairwise_iff_getElem.1 s2 m i (by omega) hil q
      rw [(List.getElem?_eq_some_iff.1 hz).2, (List.getElem?_eq_some_iff.1 hi).2] at this
      omega
    · have : m = i := by omega
      subst this
      rw [hi] at hz
      cases hz
      omega
  have hcount : i + 1 ≤ (sortByFreq rows c.num).2 := by
    rw [s6]
    have : (sortByFreq rows c.num).1.countP (fun r => decide (r.freq ≠ 0)) ≥
        ((sortByFreq rows c.num).1.take (i + 1)).countP (fun r => decide (r.freq ≠ 0)) :=
      (List.take_sublist _ _).countP_le
    refine le_trans ?_ this
    rw [List.countP_eq_length.2]
    · rw [List.length_take]; omega
    · intro z hz
      obtain ⟨m, hm⟩ := List.getElem?_of_mem hz
      rw [List.getElem?_take] at hm
      split_ifs at hm with q
      exact decide_eq_true (hbef m z (by omega) hm)
  have hcl : candidateList rows c.num = (sortByFreq rows c.num).1.take ((sortByFreq rows c.num).2 + 1) := by
    unfold candidateList
    simp only
    rw [if_pos (by omega)]
  refine ⟨_, hres, ?_, ?_⟩
  · rw [hcl, List.length_take, s1, k1]
    omega
  · -- the entries up to `i` pass
    have hpass : ∀ (m : Nat) (z : FP), m ≤ i → (sortByFreq rows c.num).1[m]? = some z → z.ftnr ≠ -1 ∧ z.ftnr < n := by
      intro m z hm hz
      obtain ⟨q1, -, r, hr, q3⟩ := s3 z (List.mem_of_getElem? hz) (hbef m z hm hz)
      refine ⟨q1, ?_⟩
      rw [← q3]
      obtain ⟨p, hp⟩ := List.getElem?_of_mem hr
      have hpl := (List.getElem?_eq_some_iff.1 hp).1
      have e : 4 * (p / 4) + p % 4 = p := by omega
      have hp' : ((rows.drop (4 * (p / 4))).take 4)[p % 4]? = some r := by
        rw [getElem?_block (by omega), e, hp]
      obtain ⟨v', a', -, -, g3⟩ := (k2 (p / 4) (by omega)).src
      rcases g3 r (List.mem_of_getElem? hp') with ⟨ts, j, t, u1, u2, u3, -⟩ | ⟨ts, t, u1, u2, u3⟩
      · rw [← u3]; exact ht ts (List.mem_of_getElem? u1) t (List.mem_of_getElem? u2)
      · rw [← u3]; exact ht ts (List.mem_of_getElem? u1) t (List.mem_of_getLast? u2)
    rw [hcl]
    unfold offered
    have hsplit : (sortByFreq rows c.num).1.take ((sortByFreq rows c.num).2 + 1) =
        (sortByFreq rows c.num).1.take (i + 1) ++
          ((sortByFreq rows c.num).1.take ((sortByFreq rows c.num).2 + 1)).drop (i + 1) := by
      conv_lhs => rw [← List.take_append_drop (i + 1) ((sortByFreq rows c.num).1.take ((sortByFreq rows c.num).2 + 1))]
      rw [List.take_take, min_eq_left (by omega)]
    rw [hsplit, List.map_append, List.takeWhile_append_of_pos]
    · rw [List.mem_append]
      left
      rw [List.mem_map]
      refine ⟨y, ?_, by rw [y2, hyf]⟩
      exact List.mem_of_getElem? (i := i) (by rw [List.getElem?_take_of_lt (by omega)]; exact hi)
    · intro f hf
      rw [List.mem_map] at hf
      obtain ⟨z, hz, rfl⟩ := hf
      obtain ⟨m, hm⟩ := List.getElem?_of_mem hz
      rw [List.getElem?_take] at hm
      split_ifs at hm with q
      exact decide_eq_true (hpass m z (by omega) hm)

/-! ### The step -/

/-- Particle `k` of the frame `f` is clearly seen by every camera around the position `x`, searched from the pixel
positions `proj`. -/
def SeenByAll (c : Cams P K) (f : Frame P K (Img K)) (x : P) (proj : List (K × K)) (k : Nat) : Prop :=
  ListsOK c f.img.targets ∧ (∀ ts ∈ f.img.targets, ∀ t ∈ ts, t.tnr < f.parts.length) ∧
  ∃ (v : Nat → K × K) (a : Nat → Rect K), ∀ cam, cam < c.num → proj[cam]? = some (v cam) ∧ c.area cam x = .ok (a cam) ∧
    ClearlySeen c f.img.targets (v cam) (a cam) cam k

theorem search_offers (c : Cams P K) (base : Geo P (List (K × K)) (List Int) (Img K) K)
    (him : c.imx ≤ 10 ^ 19 ∧ c.imy ≤ 10 ^ 19) (hn : 2 ≤ c.num ∧ c.num ≤ 4) {f : Frame P K (Img K)} {x : P}
    {proj : List (K × K)} {k : Nat} (h : SeenByAll c f x proj k) :
    ∃ w, (withCams c base).search x proj f.img = .ok w ∧ 2 ≤ w.length ∧ (⟨k, c.num⟩ : Found) ∈ offered w f.parts.length := by
  obtain ⟨h1, h2, v, a, h3⟩ := h
  obtain ⟨l, l1, l2, l3⟩ := sortedCandidates_offers c x proj f.img.targets him hn h1 v a k f.parts.length h3 h2
  refine ⟨_, ?_, ?_, l3⟩
  · simp only [withCams, l1, bind, Except.bind]
  · simpa using l2

/-- C95: a clearly seen particle is tracked. With adding off: let particle `i` of the current frame have a predecessor, and
let particle `k` of the next frame be clearly seen by all two to four cameras around the position where `i` is expected, within the velocity
limits and smooth enough. Then `i` is linked, or what it prefers goes to another particle with a value at least as good. -/
theorem C95_seen_is_tracked (c : Cams P K) (base : Geo P (List (K × K)) (List Int) (Img K) K)
    (him : c.imx ≤ 10 ^ 19 ∧ c.imy ≤ 10 ^ 19) (hn : 2 ≤ c.num ∧ c.num ≤ 4) (hadd : base.add = false)
    (b0 b1 b2 b3 b1' b2' b3' : Frame P K (Img K)) (cnt : Nat)
    (hs : stepFrames (withCams c base) b0 b1 b2 b3 = .ok (b1', b2', b3', cnt))
    (hnx : ∀ p ∈ b1.parts, p.next = NEXT_NONE) (hp : ∀ q ∈ b2.parts, q.prev = PREV_NONE)
    (i : Nat) (p : Part P K) (x0 : Option P) (hpi : b1.parts[i]? = some p)
    (hx0 : Predecessor (b0.parts.map Part.x) p x0)
    (k : Nat) (r : Part P K) (hr : b2.parts[k]? = some r)
    (hseen : SeenByAll c b2 (expected (withCams c base) x0 p.x)
      ((withCams c base).centreProj x0 b1 i (expected (withCams c base) x0 p.x)) k)
    (hok : PlainAt (withCams c base) x0 p.x r.x) :
    ∃ d, Served (withCams c base) x0 p.x b2.img b3.img b1'.parts b2'.parts b3'.parts i d := by
  obtain ⟨b2c, b3a, a1, a3⟩ := C93_forward_complete (withCams c base) (C81_search_sane c base him hn.2) b0 b1 b2 b3 b1' b2' b3'
    cnt hs hnx hp i p x0 hpi hx0
  obtain ⟨rfl, rfl⟩ := a1.same hadd
  obtain ⟨w, w1, w2, w3⟩ := search_offers c base him hn hseen
  obtain ⟨b3c, -, -, e⟩ := a3 w w1 (by omega) _ w3 r (by simpa using hr)
  exact e hok

/-- C95, with the frame after next: let `k` of the next frame be clearly seen around the expected position, and `q` of the
frame after next around the position expected from there, with acceptable velocities, angles and accelerations over the three
(two, without predecessor) steps. Then `i`, with or without predecessor, is linked with a value at most that of this path over
`2 * num_cams`, or what it prefers goes to another particle with a value at least as good. -/
theorem C95_seen_twice_is_tracked (c : Cams P K) (base : Geo P (List (K × K)) (List Int) (Img K) K)
    (him : c.imx ≤ 10 ^ 19 ∧ c.imy ≤ 10 ^ 19) (hn : 2 ≤ c.num ∧ c.num ≤ 4) (hadd : base.add = false)
    (b0 b1 b2 b3 b1' b2' b3' : Frame P K (Img K)) (cnt : Nat)
    (hs : stepFrames (withCams c base) b0 b1 b2 b3 = .ok (b1', b2', b3', cnt))
    (hnx : ∀ p ∈ b1.parts, p.next = NEXT_NONE) (hp : ∀ q ∈ b2.parts, q.prev = PREV_NONE)
    (i : Nat) (p : Part P K) (x0 : Option P) (hpi : b1.parts[i]? = some p)
    (hx0 : Predecessor (b0.parts.map Part.x) p x0)
    (k : Nat) (r : Part P K) (hr : b2.parts[k]? = some r)
    (hseen : SeenByAll c b2 (expected (withCams c base) x0 p.x)
      ((withCams c base).centreProj x0 b1 i (expected (withCams c base) x0 p.x)) k)
    (m : Nat) (q : Part P K) (hq : b3.parts[m]? = some q)
    (hseen' : SeenByAll c b3 (expectedAfter (withCams c base) x0 p.x r.x)
      (base.proj (expectedAfter (withCams c base) x0 p.x r.x)) m)
    (hin : base.inBounds (base.sub q.x r.x) = true) (angle0 acc0 angle1 acc1 : K)
    (h1 : base.angleAcc r.x q.x (expectedAfter (withCams c base) x0 p.x r.x) = .ok (angle1, acc1))
    (h0 : if x0.isSome then base.angleAcc p.x (expected (withCams c base) x0 p.x) r.x = .ok (angle0, acc0)
      else (angle0, acc0) = (angle1, acc1))
    (hsm : Smooth (withCams c base) ((angle0 + angle1) / 2) ((acc0 + acc1) / 2)) :
    Served (withCams c base) x0 p.x b2.img b3.img b1'.parts b2'.parts b3'.parts i
      (((base.dist p.x r.x + base.dist q.x r.x) / 2 / base.lmax + (acc0 + acc1) / 2 / base.dacc +
        (angle0 + angle1) / 2 / base.dangle) / ((c.num + c.num : ℕ) : K)) := by
  obtain ⟨b2c, b3a, a1, a3⟩ := C93_forward_complete (withCams c base) (C81_search_sane c base him hn.2) b0 b1 b2 b3 b1' b2' b3'
    cnt hs hnx hp i p x0 hpi hx0
  obtain ⟨rfl, rfl⟩ := a1.same hadd
  obtain ⟨w, w1, w2, w3⟩ := search_offers c base him hn hseen
  obtain ⟨b3c, e2, e, -⟩ := a3 w w1 (by omega) _ w3 r (by simpa using hr)
  obtain rfl := e2.same hadd
  refine e _ (Or.inl ?_)
  obtain ⟨wn, n1, n2, n3⟩ := search_offers c base him hn hseen'
  exact ⟨wn, n1, by omega, _, n3, q, by simpa using hq, hin, angle0, acc0, angle1, acc1, h1, h0, hsm, rfl⟩

end

/-! ### An example -/

/-- A frame of `rowDisk` whose particles have the predecessors 0 and 1. -/
def rowLinked (n : Int) : Frame ℚ ℚ (Img ℚ) :=
  ⟨n, [⟨n, 0, NEXT_NONE, [], 0⟩, ⟨n + 10, 1, NEXT_NONE, [], 0⟩], rowImg n (n + 10)⟩

theorem row_seen : SeenByAll rowCams (rowDisk 11) 11 [(61, 50), (61, 50)] 0 := by
  refine ⟨⟨rfl, ?_⟩, ?_, fun _ => (61, 50), fun _ => ⟨5, 5, 5, 5⟩, ?_⟩
  · intro ts hts
    rw [List.eq_of_mem_replicate hts]
    exact ⟨by simp, by simp⟩
  · intro ts hts t ht
    rw [List.eq_of_mem_replicate hts] at ht
    simp only [List.mem_cons, List.not_mem_nil, or_false] at ht
    rcases ht with rfl | rfl <;> simp [rowDisk]
  · intro cam hcam
    have hc : cam = 0 ∨ cam = 1 := by
      have : cam < 2 := hcam
      omega
    refine ⟨by rcases hc with rfl | rfl <;> rfl, rfl, ?_⟩
    have hw : ∀ i, Search.Spec.InWindow [⟨11 + 50, 50, 0⟩, ⟨11 + 10 + 50, 50, 1⟩] (61 : ℚ) 50 5 5 5 5 100 100 i → i = 0 := by
      rintro i ⟨t, ht, -, h1, -⟩
      match i with
      | 0 => rfl
      | 1 =>
        simp only [List.getElem?_cons_succ, List.getElem?_cons_zero, Option.some.injEq] at ht
        subst ht
        norm_num at h1
      | n + 2 => simp at ht
    refine ⟨by norm_num [rowCams], [⟨11 + 50, 50, 0⟩, ⟨11 + 10 + 50, 50, 1⟩], 0, ⟨11 + 50, 50, 0⟩, ?_, rfl, rfl, ?_, ?_, ?_⟩
    · rcases hc with rfl | rfl <;> simp [rowDisk, rowImg]
    · exact ⟨_, rfl, by norm_num [rowCams]⟩
    · intro i hi h
      exact absurd (hw i h) hi
    · intro S hS
      have : S = ∅ := by
        rw [Finset.eq_empty_iff_forall_notMem]
        intro i hi
        obtain ⟨h1, h2⟩ := hS i hi
        rw [hw i h1] at h2
        exact lt_irrefl _ h2
      rw [this]
      simp

/-- The step does not raise, and all hypotheses of C95 hold. -/
example : ∃ b1' b2' b3' cnt d, stepFrames rowGeo (rowDisk 9) (rowLinked 10) (rowDisk 11) (rowDisk 12) = .ok (b1', b2', b3', cnt) ∧
    Served rowGeo (some 9) 10 (rowDisk 11).img (rowDisk 12).img b1'.parts b2'.parts b3'.parts 0 d := by
  have hok : (match stepFrames rowGeo (rowDisk 9) (rowLinked 10) (rowDisk 11) (rowDisk 12) with
    | .ok _ => true | .error _ => false) = true := by decide +kernel
  rcases h : stepFrames rowGeo (rowDisk 9) (rowLinked 10) (rowDisk 11) (rowDisk 12) with e | ⟨b1', b2', b3', cnt⟩
  · rw [h] at hok
    cases hok
  obtain ⟨d, hd⟩ := C95_seen_is_tracked rowCams _ (by norm_num [rowCams]) (by decide) rfl (rowDisk 9) (rowLinked 10) (rowDisk 11)
    (rowDisk 12) b1' b2' b3' cnt h (by simp [rowLinked]) (by simp [rowDisk]) 0 ⟨10, 0, NEXT_NONE, [], 0⟩ (some 9) (by simp [rowLinked])
    (by simp [Predecessor, rowDisk]) 0 ⟨11, PREV_NONE, NEXT_NONE, [], 0⟩ (by simp [rowDisk])
    (by
      have e : expected rowGeo (some 9) 10 = 11 := by norm_num [expected, rowGeo, withCams]
      show SeenByAll rowCams (rowDisk 11) (expected rowGeo (some 9) 10)
        (rowGeo.centreProj (some 9) (rowLinked 10) 0 (expected rowGeo (some 9) 10)) 0
      rw [e]
      have e2 : rowGeo.centreProj (some 9) (rowLinked 10) 0 11 = [(61, 50), (61, 50)] := by
        norm_num [Geo.centreProj, rowGeo, withCams]
      rw [e2]
      exact row_seen)
    (by
      refine ⟨rfl, by decide +kernel, 0, 0, ?_, Or.inr (by norm_num [withCams])⟩
      decide +kernel)
  exact ⟨b1', b2', b3', cnt, d, rfl, hd⟩

end Verif.Track
