/-
C125: links are short. C126: a particle that keeps away from the others is followed, whatever they do.
-/
import Verif.Spec.Crowd
import Verif.Proofs.Crowd
import Verif.Props.SpaceLinks
import Verif.Props.NoRaise

namespace Verif.Track
open Verif.Track.Spec Verif.Geo Verif.Geo.Spec V3

/-! ### C125 -/

theorem norm_sub_le' (a b : V3) : (a - b).norm ≤ a.norm + b.norm := by
  have h := norm_add_le' a (b.smul (-1))
  rw [V3.norm_smul] at h
  have e : a + b.smul (-1) = a - b := by ext <;> simp [V3.smul] <;> ring
  rw [e] at h
  simpa using h

theorem accepted_lt {s : Setup} (hdacc : 0 < s.dacc) {φ a : ℝ} (h : Accepted s φ a) : a < s.dacc := by
  rcases h with ⟨h, -⟩ | h
  · exact h
  · linarith

/-- How far a link may go. -/
theorem reason_short {s : Setup} (hadd : s.add = false) (hdacc : 0 < s.dacc) {B : ℝ} (hB : LongestStep s B) {x0 : Option V3} {x1 x3 : V3}
    {t2 t3 : List (List (Search.Tgt ℝ))} {after : List V3} {d : ℝ} (h : LinkReason s x0 x1 x3 t2 t3 after d)
    (h0 : ∀ y0, x0 = some y0 → (x1 - y0).norm < B + 2 * s.dacc) :
    (x3 - x1).norm < B + 2 * s.dacc ∧ (x0 = none → (x3 - x1).norm < B + s.dacc) := by
  have none_case : ∀ (x4 : V3), (x4 - x3).norm ≤ B → (x4 - (x3.smul 2 - x1)).norm < s.dacc → (x3 - x1).norm < B + s.dacc := by
    intro x4 h1 h2
    have e : x3 - x1 = (x4 - x3) - (x4 - (x3.smul 2 - x1)) := by ext <;> simp [V3.smul] <;> ring
    have := norm_sub_le' (x4 - x3) (x4 - (x3.smul 2 - x1))
    rw [← e] at this
    linarith
  cases h with
  | continued x4 φ0 a0 φ1 h4 hv h1 hc hs hd =>
    have hv' := hB _ hv
    have ha := accepted_lt hdacc hs
    cases x0 with
    | none =>
      simp only at hc
      simp only [ahead2] at hc ha
      have := none_case x4 hv' (by rw [hc.2] at ha; linarith)
      exact ⟨by linarith, fun _ => this⟩
    | some y0 =>
      simp only at hc
      rw [hc.2] at ha
      simp only [ahead2] at ha
      refine ⟨?_, fun e => by cases e⟩
      set u := (x3 - x1) - (x1 - y0) with hu
      set z := x4 - (x3.smul 5 - x1.smul 4 + y0).smul (1 / 2) with hz
      have e : x3 - x1 = ((x4 - x3) - z) - u.smul (1 / 2) := by
        rw [hu, hz]
        ext <;> simp [V3.smul] <;> ring
      have n1 := norm_sub_le' ((x4 - x3) - z) (u.smul (1 / 2))
      have n2 := norm_sub_le' (x4 - x3) z
      rw [← e, V3.norm_smul, abs_of_pos (by norm_num)] at n1
      have := V3.norm_nonneg u
      have := V3.norm_nonneg z
      linarith
  | continuedNew x4 φ h4 _ hv ha hs hd =>
    have hv' := hB _ hv
    rw [v3_norm_comm] at hv'
    have hac := accepted_lt hdacc hs
    cases x0 with
    | none =>
      simp only [ahead2] at hac
      have := none_case x4 hv' hac
      exact ⟨by linarith, fun _ => this⟩
    | some y0 =>
      simp only [ahead2] at hac
      refine ⟨?_, fun e => by cases e⟩
      have hy := h0 y0 rfl
      set z := x4 - (x3.smul 5 - x1.smul 4 + y0).smul (1 / 2) with hz
      have e : (x3 - x1).smul (3 / 2) = ((x4 - x3) - z) + (x1 - y0).smul (1 / 2) := by
        rw [hz]
        ext <;> simp [V3.smul] <;> ring
      have n1 := norm_add_le' ((x4 - x3) - z) ((x1 - y0).smul (1 / 2))
      have n2 := norm_sub_le' (x4 - x3) z
      rw [← e, V3.norm_smul, V3.norm_smul, abs_of_pos (by norm_num), abs_of_pos (by norm_num)] at n1
      linarith
  | plain y0 φ e hv ha hs hd =>
    have := hB _ hv
    refine ⟨by linarith, fun e' => ?_⟩
    rw [e'] at e
    cases e
  | added y0 φ e hadd' h3 hv ha hs hd =>
    rw [hadd] at hadd'
    cases hadd'

/-- The relation between the ends of a link (and the position before). -/
def ShortLink (s : Setup) (B : ℝ) (x0 : Option V3) (x1 x3 : V3) : Prop :=
  (x3 - x1).norm < B + 2 * s.dacc ∧ (x0 = none → (x3 - x1).norm < B + s.dacc)

theorem shortLink_of_reason {s : Setup} (him : (s.ip.imx : ℝ) ≤ 10 ^ 19 ∧ (s.ip.imy : ℝ) ≤ 10 ^ 19) (hadd : s.add = false)
    (hdacc : 0 < s.dacc) {B : ℝ} (hB : LongestStep s B) : ∀ (x0 : Option V3) (x1 x3 : V3) (i2 i3 : Img ℝ) (after : List V3) (d : ℝ),
    (∀ y0, x0 = some y0 → ∃ z, ShortLink s B z y0 x1) → Reason s.tracker x0 x1 x3 i2 i3 after d → ShortLink s B x0 x1 x3 := by
  intro x0 x1 x3 i2 i3 after d h0 h
  exact reason_short hadd hdacc hB (reason_in_space him h) (fun y0 hy => (h0 y0 hy).elim fun z hz => hz.1)

/-- C125: links are short. Adding off; frames as read from new files. Whatever the particles do, a link of a forward run joins
positions less than `B + 2 dacc` apart, where `B` is the longest displacement the velocity limits allow; for a particle without
predecessor less than `B + dacc`. -/
theorem C125_links_are_short (s : Setup) (h4 : s.cals.length ≤ 4) (hadd : s.add = false)
    (him : (s.ip.imx : ℝ) ≤ 10 ^ 19 ∧ (s.ip.imy : ℝ) ≤ 10 ^ 19) (hdacc : 0 < s.dacc) (B : ℝ) (hB : LongestStep s B)
    (disk : Int → Frame V3 ℝ (Img ℝ)) (hd : ∀ n, ∀ p ∈ (disk n).parts, p.prev = PREV_NONE ∧ p.next = NEXT_NONE)
    (first : Int) (L : ℕ) (a b c d : Frame V3 ℝ (Img ℝ)) (r : Run (Frame V3 ℝ (Img ℝ)))
    (h : forwardRun disk (trackBuf s.tracker) first (first + L) [a, b, c, d] = .ok r)
    (n : Int) (f f' : Frame V3 ℝ (Img ℝ)) (hf : (n, f) ∈ writesOf r.log) (hf' : (n + 1, f') ∈ writesOf r.log)
    (i k : ℕ) (p q : Part V3 ℝ) (hp : f.parts[i]? = some p) (hk : p.next = k) (hq : f'.parts[k]? = some q) :
    (q.x - p.x).norm < B + 2 * s.dacc ∧ (p.prev = -1 → (q.x - p.x).norm < B + s.dacc) := by
  have hg : SearchSane s.tracker := C81_search_sane s.cams _ him h4
  obtain ⟨w, w1, w2, w3, w4, w5, -⟩ := run_noadd hg hadd hd h
  have get : ∀ (n : Int) (f : Frame V3 ℝ (Img ℝ)), (n, f) ∈ writesOf r.log → ∃ j, j ≤ L ∧ n = first + (j : Int) ∧ f = w j := by
    intro n f hf
    rw [w1, List.mem_map] at hf
    obtain ⟨j, hj, e⟩ := hf
    rw [List.mem_range] at hj
    cases e
    exact ⟨j, by omega, rfl, rfl⟩
  obtain ⟨j, hj, rfl, rfl⟩ := get n f hf
  obtain ⟨j', hj', e, rfl⟩ := get _ f' hf'
  obtain rfl : j' = j + 1 := by omega
  obtain ⟨x0, h1, h2, h3⟩ := run_links hg hd w3 w5 (ShortLink s B) (shortLink_of_reason him hadd hdacc hB) j (by omega) i k p q hp hk hq
  refine ⟨h2, fun hm => h3 ?_⟩
  unfold Predecessor at h1
  rwa [if_pos (by rw [hm]; decide)] at h1

/-- The longest displacement the limits allow is at most the diagonal of the box they span with the origin. -/
theorem C125_longest_step (s : Setup) : LongestStep s
    (Real.sqrt (max (s.vel.lo.x ^ 2) (s.vel.hi.x ^ 2) + max (s.vel.lo.y ^ 2) (s.vel.hi.y ^ 2) + max (s.vel.lo.z ^ 2) (s.vel.hi.z ^ 2))) := by
  rintro v ⟨⟨h1, h2⟩, ⟨h3, h4⟩, h5, h6⟩
  have key : ∀ a x b : ℝ, a < x → x < b → x ^ 2 ≤ max (a ^ 2) (b ^ 2) := by
    intro a x b ha hb
    rcases le_total 0 x with h | h
    · exact le_max_of_le_right (by nlinarith)
    · exact le_max_of_le_left (by nlinarith)
  have k1 := key _ _ _ h1 h2
  have k2 := key _ _ _ h3 h4
  have k3 := key _ _ _ h5 h6
  have := V3.norm_mul_self v
  apply Real.le_sqrt_of_sq_le
  nlinarith

/-! ### C126 -/

theorem angleAcc_of_angleOf {a p c : V3} {φ : ℝ} (h : AngleOf (p - a) (c - a) φ) : angleAcc a p c = .ok (φ, (c - p).norm) := by
  have key : ∀ φ' x, angleAcc a p c = .ok (φ', x) → φ' = φ ∧ x = (c - p).norm := by
    intro φ' x e
    refine ⟨?_, C47_acceleration a p c φ' x e⟩
    have h' := angleAcc_angleOf e
    rcases h with ⟨u1, u2, u3, u4, u5⟩ | ⟨u1, u2, u3⟩
    · rcases h' with ⟨-, -, v3, v4, v5⟩ | ⟨v1, -, -⟩
      · have hpos : 0 < (p - a).norm * (c - a).norm := mul_pos (V3.norm_pos u1) (V3.norm_pos u2)
        have hcos : Real.cos (φ' * (Real.pi / 200)) = Real.cos (φ * (Real.pi / 200)) := by
          have := v5.trans u5.symm
          exact mul_right_cancel₀ hpos.ne' this
        have hpi := Real.pi_pos
        have := Real.injOn_cos (x₁ := φ' * (Real.pi / 200)) (x₂ := φ * (Real.pi / 200))
          ⟨by positivity, by nlinarith⟩ ⟨by positivity, by nlinarith⟩ hcos
        have hne : Real.pi / 200 ≠ 0 := by positivity
        exact mul_right_cancel₀ hne this
      · exact absurd v1 u1
    · rcases h' with ⟨v1, -⟩ | ⟨-, -, v3⟩
      · exact absurd u1 v1
      · rw [u3, v3]
  obtain ⟨angle, e⟩ := angleAcc_ok (a := a) (b := p) (c := c) (by
    have sub0 : ∀ u v : V3, u - v = 0 ↔ u = v := by
      intro u v
      constructor
      · intro e
        have h1 := congrArg V3.x e
        have h2 := congrArg V3.y e
        have h3 := congrArg V3.z e
        simp at h1 h2 h3
        ext <;> linarith
      · rintro rfl
        ext <;> simp
    rcases h with ⟨u1, u2, -⟩ | ⟨u1, u2, -⟩
    · rw [Ne, sub0] at u1 u2
      exact ⟨fun e => absurd e u1, fun e => absurd e u2⟩
    · rw [sub0] at u1 u2
      exact ⟨fun _ => u2, fun _ => u1⟩)
  obtain ⟨h1, h2⟩ := key _ _ e
  rw [e, h1, h2]

/-- C126: a particle that keeps its distance is followed, whatever the others do. Two to four cameras with any calibration, adding
off, frames as read from new files. The particle is number `num n` of frame `n`, at `y n`; its motion is smooth; it is clearly seen by
all cameras around the position where it is expected (at the start around its own images, and two frames ahead); and it keeps the
distance `B + 2 dacc` from the other particles, `B` being the longest displacement the velocity limits allow. If the run returns, it
has written the whole trajectory. -/
theorem C126_followed (s : Setup) (hn : 2 ≤ s.cals.length ∧ s.cals.length ≤ 4) (hadd : s.add = false)
    (him : (s.ip.imx : ℝ) ≤ 10 ^ 19 ∧ (s.ip.imy : ℝ) ≤ 10 ^ 19) (hdacc : 0 < s.dacc) (B : ℝ) (hB : LongestStep s B)
    (disk : Int → Frame V3 ℝ (Img ℝ)) (hd : ∀ n, ∀ p ∈ (disk n).parts, p.prev = PREV_NONE ∧ p.next = NEXT_NONE)
    (first : Int) (L : ℕ) (hL : 2 ≤ L) (y : Int → V3) (num : Int → ℕ)
    (hy : ∀ n, first ≤ n → n ≤ first + L → ((disk n).parts.map Part.x)[num n]? = some (y n))
    (haway : ∀ n, first ≤ n → n < first + L → KeepsAway disk y num (B + 2 * s.dacc) n)
    (hsmooth : ∀ n, first < n → n < first + L → SmoothAt s y n)
    (hseen0 : SeenByAll s.cams (disk (first + 1)) (y first) (s.projOwn (disk first).img (num first) (y first)) (num (first + 1)))
    (hseen : ∀ n, first < n → n < first + L →
      SeenByAll s.cams (disk (n + 1)) ((y n).smul 2 - y (n - 1)) (s.proj ((y n).smul 2 - y (n - 1))) (num (n + 1)))
    (a b c d : Frame V3 ℝ (Img ℝ)) (r : Run (Frame V3 ℝ (Img ℝ)))
    (h : forwardRun disk (trackBuf s.tracker) first (first + L) [a, b, c, d] = .ok r) :
    Followed y num first L (writesOf r.log) := by
  have hg : SearchSane s.tracker := C81_search_sane s.cams _ him hn.2
  obtain ⟨w, w1, w2, w3, w4, w5, -⟩ := run_noadd hg hadd hd h
  have hbox : ∀ v, Pos3dInBounds v s.vel → s.tracker.inBounds v = true := fun v hv => @decide_eq_true _ (Classical.propDecidable _) hv
  have key := run_follows hg hd w2 w3 w4 w5 (ShortLink s B) (shortLink_of_reason him hadd hdacc hB)
    (fun j => y (first + (j : Int))) (fun j => num (first + (j : Int))) (fun j hj => hy _ (by omega) (by omega))
    (by
      intro j hj k x hx ⟨z, hz⟩
      by_contra hne
      have := (haway (first + (j : Int)) (by omega) (by omega)).1 k x hx (by
        intro e
        apply hne
        rw [e]
        push_cast
        rw [add_assoc])
      linarith [hz.1])
    (by
      intro j hj k x hx ⟨z, hz⟩
      by_contra hne
      have := (haway (first + (j : Int)) (by omega) (by omega)).2 k x hx hne
      have h1 := hz.1
      push_cast at h1
      rw [← add_assoc] at h1
      linarith)
    (by
      intro j hj x0 hx0 b0 b1 b3 b1' b2' b3' cnt p hst himg hnx hb3 hpi hpx hpred
      have hr0 := hy (first + (j : Int) + 1) (by omega) (by omega)
      rw [List.getElem?_map, Option.map_eq_some_iff] at hr0
      obtain ⟨q, hq, hqx⟩ := hr0
      rcases Nat.eq_zero_or_pos j with rfl | hj0
      · rw [if_pos rfl] at hx0
        subst hx0
        simp only [Nat.cast_zero, add_zero] at *
        have hr2 := hy (first + 2) (by omega) (by omega)
        rw [List.getElem?_map, Option.map_eq_some_iff] at hr2
        obtain ⟨q2, hq2, hqx2⟩ := hr2
        obtain ⟨sm1, φ, sm2, sm3⟩ := hsmooth (first + 1) (by omega) (by omega)
        have hs1 := hseen (first + 1) (by omega) (by omega)
        simp only [show first + 1 + 1 = first + 2 by ring, show first + 1 - 1 = first by ring] at sm1 sm2 sm3 hs1
        have hb3' := hb3 hL
        subst hb3'
        have hexp : expectedAfter s.tracker none p.x q.x = (y (first + 1)).smul 2 - y first := by
          rw [hpx, hqx]
          rfl
        have e2 : (y (first + 1)).smul 2 - y first - y (first + 1) = y (first + 1) - y first := by
          ext <;> simp [V3.smul] <;> ring
        have e3 : (y (first + 1)).smul 2 - y first - y (first + 2) =
            (y (first + 1) - y first) - (y (first + 2) - y (first + 1)) := by
          ext <;> simp [V3.smul] <;> ring
        have hang : angleAcc q.x q2.x (expectedAfter s.tracker none p.x q.x) =
            .ok (φ, (y (first + 2) - y (first + 1) - (y (first + 1) - y first)).norm) := by
          rw [hexp, hqx, hqx2, angleAcc_of_angleOf (φ := φ) (by rw [e2]; exact angleOf_comm sm2), e3, v3_norm_comm]
        refine ⟨_, C95_seen_twice_is_tracked s.cams _ him hn hadd b0 b1 _ _ b1' b2' b3' cnt hst hnx (fun q hq => (hd _ q hq).1)
          (num first) p none hpi hpred (num (first + 1)) q hq ?_ (num (first + 2)) q2 hq2 ?_ ?_ φ
          ((y (first + 2) - y (first + 1) - (y (first + 1) - y first)).norm) φ
          ((y (first + 2) - y (first + 1) - (y (first + 1) - y first)).norm) hang ?_ ?_⟩
        · show SeenByAll s.cams _ p.x (s.projOwn b1.img (num first) p.x) _
          rw [hpx, himg]
          exact hseen0
        · show SeenByAll s.cams _ (expectedAfter s.tracker none p.x q.x) (s.proj (expectedAfter s.tracker none p.x q.x)) _
          rw [hexp]
          exact hs1
        · refine hbox _ ?_
          rw [hqx, hqx2]
          exact sm1
        · simp
        · rw [show (φ + φ) / 2 = φ by ring, show ∀ t : ℝ, (t + t) / 2 = t by intro t; ring]
          exact sm3
      · rw [if_neg (by omega)] at hx0
        have hcast : ((j - 1 : ℕ) : Int) = (j : Int) - 1 := by omega
        obtain ⟨sm1, φ, sm2, sm3⟩ := hsmooth (first + (j : Int)) (by omega) (by omega)
        have hs1 := hseen (first + (j : Int)) (by omega) (by omega)
        have e1 : first + ((j - 1 : ℕ) : Int) = first + (j : Int) - 1 := by rw [hcast]; ring
        rw [e1] at hx0
        subst hx0
        have hexp : expected s.tracker (some (y (first + (j : Int) - 1))) p.x =
            (y (first + (j : Int))).smul 2 - y (first + (j : Int) - 1) := by
          rw [hpx]
          rfl
        refine C95_seen_is_tracked s.cams _ him hn hadd b0 b1 _ b3 b1' b2' b3' cnt hst hnx (fun q hq => (hd _ q hq).1)
          _ p _ hpi hpred _ q hq ?_ ?_
        · show SeenByAll s.cams _ (expected s.tracker (some (y (first + (j : Int) - 1))) p.x)
            (s.proj (expected s.tracker (some (y (first + (j : Int) - 1))) p.x)) _
          rw [hexp]
          exact hs1
        · refine ⟨rfl, hbox _ (by rw [hpx, hqx]; exact sm1), φ, _, ?_, sm3⟩
          show angleAcc p.x (expected s.tracker (some (y (first + (j : Int) - 1))) p.x) q.x = _
          rw [hexp, hpx, hqx]
          have e2 : (y (first + (j : Int))).smul 2 - y (first + (j : Int) - 1) - y (first + (j : Int)) =
              y (first + (j : Int)) - y (first + (j : Int) - 1) := by
            ext <;> simp [V3.smul] <;> ring
          have e3 : y (first + (j : Int) + 1) - ((y (first + (j : Int))).smul 2 - y (first + (j : Int) - 1)) =
              (y (first + (j : Int) + 1) - y (first + (j : Int))) - (y (first + (j : Int)) - y (first + (j : Int) - 1)) := by
            ext <;> simp [V3.smul] <;> ring
          rw [angleAcc_of_angleOf (φ := φ) (by rw [e2]; exact sm2), e3])
  refine ⟨by rw [w1, List.map_map]; rfl, ?_⟩
  intro n f hf
  rw [w1, List.mem_map] at hf
  obtain ⟨j, hj, e⟩ := hf
  rw [List.mem_range] at hj
  cases e
  obtain ⟨p, p1, p2, p3, p4⟩ := key j (by omega)
  refine ⟨p, p1, p2, ?_, ?_⟩
  · rw [p3]
    by_cases h : j = 0
    · rw [if_pos h, if_pos (by rw [h]; simp)]
      rfl
    · rw [if_neg h, if_neg (by omega), show ((j - 1 : ℕ) : Int) = (j : Int) - 1 by omega, ← add_sub_assoc]
  · rw [p4]
    by_cases h : j = L
    · rw [if_pos h, if_pos (by rw [h])]
      rfl
    · rw [if_neg h, if_neg (by omega)]
      push_cast
      rw [add_assoc]

/-! ### C126 in air -/

/-- The images of particle `h` at `X`, as far as its correspondence has them, are exactly at the projections of `X`. -/
def OwnImages (s : Setup) (i : Img ℝ) (h : ℕ) (X : V3) : Prop :=
  ∃ r, i.corr[h]? = some r ∧ ∀ cam, cam < s.cals.length → ∃ p, r.p[cam]? = some p ∧
    (p = -1 ∨ ∃ (k : ℕ) (ts : List (Search.Tgt ℝ)) (t : Search.Tgt ℝ) (c : Cam × LUT), p = k ∧ i.targets[cam]? = some ts ∧ ts[k]? = some t ∧
      s.cals[cam]? = some c ∧ pointToPixel X c.1 c.2 s.mm s.ip = some (t.x, t.y))

theorem projOwn_eq {s : Setup} {i : Img ℝ} {h : ℕ} {X : V3} (hi : OwnImages s i h X) : s.projOwn i h X = s.proj X := by
  obtain ⟨r, h1, h2⟩ := hi
  unfold Setup.projOwn Setup.proj
  congr 1
  refine List.map_congr_left fun cam hc => ?_
  obtain ⟨p, hp, hp'⟩ := h2 cam (List.mem_range.1 hc)
  unfold Setup.ownPix
  rw [pyGet_some h1]
  simp only [bind, Except.bind]
  rw [pyGet_some hp]
  simp only
  rcases hp' with rfl | ⟨k, ts, t, c, rfl, h3, h4, h5, h6⟩
  · rw [if_pos rfl]
  · rw [if_neg (by omega), pyGet_some h3]
    simp only
    rw [pyGetI_nat h4]
    simp only [Setup.pix, h5, h6, orRaise]

/-- C126 for cameras that look through air, without distortion. Between two frames the particle stays in the velocity box around the
position where it is expected; all cameras show it there and are not too crowded. -/
theorem C126_followed_in_air (s : Setup) (hn : 2 ≤ s.cals.length ∧ s.cals.length ≤ 4) (hadd : s.add = false)
    (him : (s.ip.imx : ℝ) ≤ 10 ^ 19 ∧ (s.ip.imy : ℝ) ≤ 10 ^ 19) (hdacc : 0 < s.dacc) (B : ℝ) (hB : LongestStep s B)
    (disk : Int → Frame V3 ℝ (Img ℝ)) (hd : ∀ n, ∀ p ∈ (disk n).parts, p.prev = PREV_NONE ∧ p.next = NEXT_NONE)
    (hf : ∀ n, FrameOK s (disk n)) (first : Int) (L : ℕ) (hL : 2 ≤ L) (y : Int → V3) (num : Int → ℕ)
    (hy : ∀ n, first ≤ n → n ≤ first + L → ((disk n).parts.map Part.x)[num n]? = some (y n))
    (haway : ∀ n, first ≤ n → n < first + L → KeepsAway disk y num (B + 2 * s.dacc) n)
    (hsmooth : ∀ n, first < n → n < first + L → SmoothAt s y n)
    (hown : OwnImages s (disk first).img (num first) (y first))
    (hexp : ∀ n X, first ≤ n → n < first + L → X = (if n = first then y n else (y n).smul 2 - y (n - 1)) →
      (∀ c ∈ s.cals, AirCam s c.1 X) ∧ InOpenBox X s.vel.lo s.vel.hi (y (n + 1)) ∧
      ∀ cam, cam < s.cals.length → ShownNear s (disk (n + 1)).img.targets X (y (n + 1)) cam (num (n + 1)))
    (a b c d : Frame V3 ℝ (Img ℝ)) (r : Run (Frame V3 ℝ (Img ℝ)))
    (h : forwardRun disk (trackBuf s.tracker) first (first + L) [a, b, c, d] = .ok r) :
    Followed y num first L (writesOf r.log) := by
  refine C126_followed s hn hadd him hdacc B hB disk hd first L hL y num hy haway hsmooth ?_ ?_ a b c d r h
  · rw [projOwn_eq hown]
    obtain ⟨h1, h2, h3⟩ := hexp first (y first) (le_refl _) (by omega) (by rw [if_pos rfl])
    exact near_seen (hf _) h3 h1 h2
  · intro n h1 h2
    obtain ⟨h3, h4, h5⟩ := hexp n _ (by omega) h2 rfl
    rw [if_neg (by omega)] at h3 h4 h5
    exact near_seen (hf _) h5 h3 h4

/-! ### Example: two particles, 30 apart, on the x axis -/

/-- Images of particles at `(a, 0, 0)` and `(b, 0, 0)`. -/
noncomputable def twinImg (a b : ℝ) : Img ℝ :=
  ⟨[[⟨5 * (a - 0) + 500, 500, 0⟩, ⟨5 * (b - 0) + 500, 500, 1⟩], [⟨5 * (a - 10) + 500, 500, 0⟩, ⟨5 * (b - 10) + 500, 500, 1⟩]],
    [⟨1, [0, 0, -1, -1]⟩, ⟨2, [1, 1, -1, -1]⟩], by
    intro ts hts t ht
    simp only [List.mem_cons, List.not_mem_nil, or_false] at hts
    rcases hts with rfl | rfl <;> simp only [List.mem_cons, List.not_mem_nil, or_false] at ht <;> rcases ht with rfl | rfl <;> norm_num⟩

noncomputable def twin (i : ℕ) (n : Int) : V3 := ⟨n + 30 * i, 0, 0⟩

noncomputable def twinDisk (n : Int) : Frame V3 ℝ (Img ℝ) :=
  ⟨n, [⟨twin 0 n, PREV_NONE, NEXT_NONE, [], 1000000⟩, ⟨twin 1 n, PREV_NONE, NEXT_NONE, [], 1000000⟩], twinImg n (n + 30)⟩

theorem twin_parts (n : Int) : (twinDisk n).parts.map Part.x = [twin 0 n, twin 1 n] := rfl

theorem twin_get {n : Int} {k : ℕ} {x : V3} (h : ((twinDisk n).parts.map Part.x)[k]? = some x) : k < 2 ∧ x = twin k n := by
  rw [twin_parts] at h
  match k, h with
  | 0, h => simp at h; exact ⟨by norm_num, h.symm⟩
  | 1, h => simp at h; exact ⟨by norm_num, h.symm⟩
  | k + 2, h => simp at h

theorem twin_mem {n : Int} {x : V3} (h : x ∈ (twinDisk n).parts.map Part.x) : ∃ k : ℕ, k < 2 ∧ x = twin k n := by
  rw [twin_parts] at h
  simp only [List.mem_cons, List.not_mem_nil, or_false] at h
  rcases h with rfl | rfl
  · exact ⟨0, by norm_num, rfl⟩
  · exact ⟨1, by norm_num, rfl⟩

theorem twin_unlinked (n : Int) : ∀ p ∈ (twinDisk n).parts, Unlinked p := by
  intro p hp
  simp only [twinDisk, List.mem_cons, List.not_mem_nil, or_false] at hp
  rcases hp with rfl | rfl <;> exact ⟨rfl, rfl⟩

theorem twin_targets {n : Int} {cam : ℕ} {ts : List (Search.Tgt ℝ)} (h : (twinDisk n).img.targets[cam]? = some ts) :
    ∃ q : ℝ, (q = 0 ∨ q = 10) ∧ ts = [⟨5 * (n - q) + 500, 500, 0⟩, ⟨5 * (n + 30 - q) + 500, 500, 1⟩] := by
  match cam, h with
  | 0, h => simp [twinDisk, twinImg] at h; exact ⟨0, Or.inl rfl, by rw [← h]; simp⟩
  | 1, h => simp [twinDisk, twinImg] at h; exact ⟨10, Or.inr rfl, by rw [← h]⟩
  | k + 2, h => simp [twinDisk, twinImg] at h

theorem twin_numbered {n : Int} {cam : ℕ} {ts : List (Search.Tgt ℝ)} {t : Search.Tgt ℝ} (h : (twinDisk n).img.targets[cam]? = some ts)
    (ht : t ∈ ts) : t.tnr ≠ -1 := by
  obtain ⟨q, -, rfl⟩ := twin_targets h
  simp only [List.mem_cons, List.not_mem_nil, or_false] at ht
  rcases ht with rfl | rfl <;> norm_num

theorem twin_seen (n : Int) : AllSeen airSetup (twinDisk n).img ∧ RaysOK airSetup (twinDisk n).img := by
  refine ⟨?_, ?_⟩
  · intro cam hc
    have hc : cam < 2 := hc
    have : cam = 0 ∨ cam = 1 := by omega
    rcases this with rfl | rfl <;> exact ⟨_, rfl, by simp⟩
  · intro cam c ts t _ hts ht hnr
    exact absurd hnr (twin_numbered hts ht)

theorem twin_eq {i j : ℕ} {n m : Int} : twin i n = twin j m ↔ n + 30 * (i : Int) = m + 30 * (j : Int) := by
  constructor
  · intro e
    have := congrArg V3.x e
    simp only [twin] at this
    exact_mod_cast this
  · intro e
    have : (n : ℝ) + 30 * i = m + 30 * j := by exact_mod_cast e
    simp only [twin, this]

theorem twin_trackable (n : Int) (i : ℕ) (hi : i < 2) (x0 : Option V3)
    (hx : x0 = none ∨ 0 < n ∧ ∃ x ∈ (twinDisk (n - 1)).parts.map Part.x, x0 = some x) :
    Trackable airSetup (twinDisk n).img i x0 (twin i n) ((twinDisk (n + 1)).parts.map Part.x) (twinDisk (n + 1)).img
      ((twinDisk (frameAfter 5 n)).parts.map Part.x) (twinDisk (frameAfter 5 n)).img := by
  have hfa : (frameAfter 5 n = n + 2 ∨ frameAfter 5 n = n - 2) := by
    unfold frameAfter
    split_ifs <;> omega
  have hx' : x0 = none ∨ 0 < n ∧ ∃ j : ℕ, j < 2 ∧ x0 = some (twin j (n - 1)) := by
    rcases hx with h | ⟨h, x, hx, rfl⟩
    · exact Or.inl h
    · obtain ⟨k, hk, rfl⟩ := twin_mem hx
      exact Or.inr ⟨h, k, hk, rfl⟩
  have hthen : ∀ k : ℕ, k < 2 → expectedThen x0 (twin i n) (twin k (n + 1)) ≠ twin k (n + 1) := by
    intro k hk e
    have e := congrArg V3.x e
    rcases hx' with rfl | ⟨h, j, hj, rfl⟩
    · simp only [expectedThen, twin, V3.smul, V3.sub_x] at e
      have : ((n : ℝ) + 1) + 30 * k = n + 30 * i := by push_cast at e; linarith
      have : n + 1 + 30 * (k : Int) = n + 30 * (i : Int) := by exact_mod_cast this
      omega
    · simp only [expectedThen, twin, V3.smul, V3.sub_x, V3.add_x] at e
      have : 3 * (((n : ℝ) + 1) + 30 * k) + ((n : ℝ) - 1 + 30 * j) = 4 * (n + 30 * i) := by push_cast at e; linarith
      have : 3 * ((n + 1) + 30 * (k : Int)) + (n - 1 + 30 * (j : Int)) = 4 * (n + 30 * (i : Int)) := by exact_mod_cast this
      omega
  refine ⟨?_, ?_, ?_, ?_, ?_, ?_⟩
  · intro _
    have : i = 0 ∨ i = 1 := by omega
    rcases this with rfl | rfl
    · refine ⟨⟨1, [0, 0, -1, -1]⟩, rfl, ?_⟩
      intro cam hc
      have : cam < 2 := hc
      have : cam = 0 ∨ cam = 1 := by omega
      rcases this with rfl | rfl <;> exact ⟨0, rfl, Or.inr ⟨0, _, rfl, rfl, by simp⟩⟩
    · refine ⟨⟨2, [1, 1, -1, -1]⟩, rfl, ?_⟩
      intro cam hc
      have : cam < 2 := hc
      have : cam = 0 ∨ cam = 1 := by omega
      rcases this with rfl | rfl <;> exact ⟨1, rfl, Or.inr ⟨1, _, rfl, rfl, by simp⟩⟩
  · rcases hx' with rfl | ⟨h, j, hj, rfl⟩ <;> exact airSetup_projectable (by norm_num [twin, expectedNext, V3.smul])
  · intro x3 h3
    obtain ⟨k, hk, rfl⟩ := twin_mem h3
    rcases hx' with rfl | ⟨h, j, hj, rfl⟩ <;> exact airSetup_projectable (by norm_num [twin, expectedThen, V3.smul])
  · intro x0' e x3 h3
    obtain ⟨k, hk, rfl⟩ := twin_mem h3
    rcases hx' with rfl | ⟨h, j, hj, rfl⟩
    · cases e
    · cases e
      rw [twin_eq, twin_eq]
      omega
  · intro x3 h3 x4 h4
    obtain ⟨k, hk, rfl⟩ := twin_mem h3
    obtain ⟨l, hl, rfl⟩ := twin_mem h4
    refine ⟨fun e => ?_, fun e => absurd e (hthen k hk)⟩
    rw [twin_eq] at e
    omega
  · rintro x3 _ v x4 ⟨-, -, c1, c2, h12, hc2, ⟨ts, t, h1, h2, h3, -⟩, -⟩
    exact absurd h3 (twin_numbered h1 h2)

theorem twin_longest : LongestStep airSetup 4 := by
  intro v hv
  refine (C125_longest_step airSetup v hv).trans ?_
  rw [Real.sqrt_le_left (by norm_num)]
  norm_num [airSetup]

theorem twin_run (c0 c1 c2 c3 : Frame V3 ℝ (Img ℝ)) :
    ∃ r, forwardRun twinDisk (trackBuf airSetup.tracker) 0 (0 + (5 : ℕ)) [c0, c1, c2, c3] = .ok r := by
  obtain ⟨r, hr, -⟩ := C99_run_returns_partial airSetup (by simp [airSetup]) rfl (by norm_num [airSetup]) twinDisk twin_unlinked 0 5
    (by norm_num) (fun n _ _ => twin_seen n) (by
      intro n h1 h2 h x1 hx x0 h0
      obtain ⟨hh, rfl⟩ := twin_get hx
      exact twin_trackable n h hh x0 h0) c0 c1 c2 c3
  exact ⟨r, hr⟩

theorem twin_away (i : ℕ) (hi : i < 2) (n : Int) : KeepsAway twinDisk (twin i) (fun _ => i) (4 + 2 * airSetup.dacc) n := by
  constructor
  · intro k x hx hk
    obtain ⟨hk2, rfl⟩ := twin_get hx
    have e : twin k (n + 1) - twin i n = ⟨1 + 30 * ((k : ℝ) - i), 0, 0⟩ := by ext <;> simp [twin]; ring
    rw [e, norm_axis]
    have : (k = 0 ∧ i = 1) ∨ (k = 1 ∧ i = 0) := by
      simp only at hk
      omega
    rcases this with ⟨rfl, rfl⟩ | ⟨rfl, rfl⟩
    · rw [abs_of_neg (by norm_num)]; norm_num [airSetup]
    · rw [abs_of_pos (by norm_num)]; norm_num [airSetup]
  · intro k x hx hk
    obtain ⟨hk2, rfl⟩ := twin_get hx
    have e : twin i (n + 1) - twin k n = ⟨1 + 30 * ((i : ℝ) - k), 0, 0⟩ := by ext <;> simp [twin]; ring
    rw [e, norm_axis]
    have : (k = 0 ∧ i = 1) ∨ (k = 1 ∧ i = 0) := by
      simp only at hk
      omega
    rcases this with ⟨rfl, rfl⟩ | ⟨rfl, rfl⟩
    · rw [abs_of_pos (by norm_num)]; norm_num [airSetup]
    · rw [abs_of_neg (by norm_num)]; norm_num [airSetup]

theorem twin_step (i : ℕ) (n : Int) : twin i (n + 1) - twin i n = ⟨1, 0, 0⟩ := by
  ext <;> simp [twin]

theorem twin_smooth (i : ℕ) (n : Int) : SmoothAt airSetup (twin i) n := by
  have e2 : twin i n - twin i (n - 1) = ⟨1, 0, 0⟩ := by
    have := twin_step i (n - 1)
    rwa [sub_add_cancel] at this
  unfold SmoothAt
  rw [twin_step, e2]
  refine ⟨by norm_num [Pos3dInBounds, airSetup], 0, Or.inl ⟨?_, ?_, le_refl _, by norm_num, ?_⟩, ?_⟩
  · intro e
    have := congrArg V3.x e
    norm_num at this
  · intro e
    have := congrArg V3.x e
    norm_num at this
  · rw [norm_axis]
    simp [V3.dot]
  · right
    have : (⟨1, 0, 0⟩ - ⟨1, 0, 0⟩ : V3) = ⟨0, 0, 0⟩ := by ext <;> simp
    rw [this, norm_axis]
    norm_num [airSetup]

theorem twin_shown (i : ℕ) (hi : i < 2) (n m : Int) (h0 : 0 ≤ n) (h5 : n < 5) (hm : m = n ∨ m = n + 1) (cam : ℕ) (hcam : cam < airSetup.cals.length) :
    ShownNear airSetup (twinDisk (n + 1)).img.targets (twin i m) (twin i (n + 1)) cam i := by
  have hc : cam = 0 ∨ cam = 1 := by
    have : cam < 2 := hcam
    omega
  have hn0 : (0 : ℝ) ≤ n := by exact_mod_cast h0
  have hn5 : (n : ℝ) < 5 := by exact_mod_cast h5
  have hm' : (m : ℝ) = n ∨ (m : ℝ) = n + 1 := by
    rcases hm with rfl | rfl
    · exact Or.inl rfl
    · right; push_cast; rfl
  obtain ⟨q, c, hq, h1, h2⟩ : ∃ (q : ℝ) (c : Cam × LUT), (q = 0 ∨ q = 10) ∧ c = (downCam q, emptyLUT) ∧ airSetup.cals[cam]? = some c ∧
      (twinDisk (n + 1)).img.targets[cam]? = some [⟨5 * ((n + 1 : Int) - q) + 500, 500, 0⟩, ⟨5 * ((n + 1 : Int) + 30 - q) + 500, 500, 1⟩] := by
    rcases hc with rfl | rfl
    · exact ⟨0, _, Or.inl rfl, rfl, rfl, rfl⟩
    · exact ⟨10, _, Or.inr rfl, rfl, rfl, rfl⟩
  obtain ⟨h2, h3⟩ := h2
  subst h1
  have hii : i = 0 ∨ i = 1 := by omega
  refine ⟨_, _, i, _, _, _, _, h2, airSetup_pixel _ _, ?_, airSetup_pixel _ _, ?_, h3, ?_, ?_, ?_⟩
  · rcases hq with rfl | rfl <;> rcases hii with rfl | rfl <;> rcases hm' with e | e <;> rw [e] <;>
      refine ⟨?_, ?_, by norm_num, by norm_num [airSetup]⟩ <;> norm_num [airSetup] <;> linarith
  · push_cast
    rcases hq with rfl | rfl <;> rcases hii with rfl | rfl <;>
      refine ⟨?_, ?_, by norm_num, by norm_num [airSetup]⟩ <;> norm_num [airSetup] <;> linarith
  · rcases hii with rfl | rfl <;> simp
  · intro j t ht _ e
    match j, ht with
    | 0, ht =>
      simp at ht
      subst ht
      rcases hii with rfl | rfl
      · rfl
      · exfalso
        push_cast at e
        rcases hm' with h | h <;> rw [h] at e <;> nlinarith
    | 1, ht =>
      simp at ht
      subst ht
      rcases hii with rfl | rfl
      · exfalso
        push_cast at e
        rcases hm' with h | h <;> rw [h] at e <;> nlinarith
      · rfl
    | j + 2, ht => simp at ht
  · intro S hS
    have : S ⊆ {0, 1} := by
      intro j hj
      obtain ⟨t, ht, -⟩ := hS j hj
      match j, ht with
      | 0, _ => simp
      | 1, _ => simp
      | j + 2, ht => simp at ht
    have := Finset.card_le_card this
    have h2 : ({0, 1} : Finset ℕ).card = 2 := rfl
    omega

theorem twin_own (i : ℕ) (hi : i < 2) : OwnImages airSetup (twinDisk 0).img i (twin i 0) := by
  have hii : i = 0 ∨ i = 1 := by omega
  rcases hii with rfl | rfl
  · refine ⟨⟨1, [0, 0, -1, -1]⟩, rfl, fun cam hcam => ?_⟩
    have hc : cam = 0 ∨ cam = 1 := by
      have : cam < 2 := hcam
      omega
    rcases hc with rfl | rfl
    · refine ⟨0, rfl, Or.inr ⟨0, _, _, _, rfl, rfl, rfl, rfl, ?_⟩⟩
      simp only [twin]
      rw [airSetup_pixel]
      norm_num
    · refine ⟨0, rfl, Or.inr ⟨0, _, _, _, rfl, rfl, rfl, rfl, ?_⟩⟩
      simp only [twin]
      rw [airSetup_pixel]
      norm_num
  · refine ⟨⟨2, [1, 1, -1, -1]⟩, rfl, fun cam hcam => ?_⟩
    have hc : cam = 0 ∨ cam = 1 := by
      have : cam < 2 := hcam
      omega
    rcases hc with rfl | rfl
    · refine ⟨1, rfl, Or.inr ⟨1, _, _, _, rfl, rfl, rfl, rfl, ?_⟩⟩
      simp only [twin]
      rw [airSetup_pixel]
      norm_num
    · refine ⟨1, rfl, Or.inr ⟨1, _, _, _, rfl, rfl, rfl, rfl, ?_⟩⟩
      simp only [twin]
      rw [airSetup_pixel]
      norm_num

/-- The two particles meet all hypotheses of C126, for the run over the frames 0 .. 5; the run returns and writes both trajectories. -/
example (c0 c1 c2 c3 : Frame V3 ℝ (Img ℝ)) :
    ∃ r, forwardRun twinDisk (trackBuf airSetup.tracker) 0 (0 + (5 : ℕ)) [c0, c1, c2, c3] = .ok r ∧
      Followed (twin 0) (fun _ => 0) 0 5 (writesOf r.log) ∧ Followed (twin 1) (fun _ => 1) 0 5 (writesOf r.log) := by
  obtain ⟨r, hr⟩ := twin_run c0 c1 c2 c3
  have key : ∀ i : ℕ, i < 2 → Followed (twin i) (fun _ => i) 0 5 (writesOf r.log) := by
    intro i hi
    refine C126_followed_in_air airSetup (by simp [airSetup]) rfl (by norm_num [airSetup]) (by norm_num [airSetup]) 4 twin_longest twinDisk
      twin_unlinked ?_ 0 5 (by norm_num) (twin i) (fun _ => i) ?_ (fun n _ _ => twin_away i hi n) (fun n _ _ => twin_smooth i n)
      (twin_own i hi) ?_ c0 c1 c2 c3 r hr
    · intro n
      refine ⟨rfl, fun ts hts => ?_⟩
      obtain ⟨cam, hcam⟩ := List.getElem?_of_mem hts
      obtain ⟨q, -, rfl⟩ := twin_targets hcam
      simp [twinDisk]
    · intro n _ _
      rw [twin_parts]
      have hii : i = 0 ∨ i = 1 := by omega
      rcases hii with rfl | rfl <;> rfl
    · intro n X h1 h2 hX
      have hX' : ∃ m : Int, (m = n ∨ m = n + 1) ∧ X = twin i m := by
        split_ifs at hX with h
        · exact ⟨n, Or.inl rfl, hX⟩
        · refine ⟨n + 1, Or.inr rfl, ?_⟩
          rw [hX]
          ext <;> simp [twin, V3.smul]
          ring
      obtain ⟨m, hm, rfl⟩ := hX'
      refine ⟨airSetup_air (by norm_num [twin]), ?_, fun cam hcam => twin_shown i hi n m h1 (by push_cast at h2; omega) hm cam hcam⟩
      rcases hm with rfl | rfl
      · norm_num [InOpenBox, airSetup, twin]
        constructor <;> linarith
      · norm_num [InOpenBox, airSetup, twin]
  exact ⟨r, hr, key 0 (by norm_num), key 1 (by norm_num)⟩

/-- In this run the links are shorter than 6: C125 applies to all of them. -/
example (c0 c1 c2 c3 : Frame V3 ℝ (Img ℝ)) :
    ∃ r, forwardRun twinDisk (trackBuf airSetup.tracker) 0 (0 + (5 : ℕ)) [c0, c1, c2, c3] = .ok r ∧
      ∀ n f f', (n, f) ∈ writesOf r.log → (n + 1, f') ∈ writesOf r.log → ∀ (i k : ℕ) (p q : Part V3 ℝ), f.parts[i]? = some p →
        p.next = k → f'.parts[k]? = some q → (q.x - p.x).norm < 4 + 2 * airSetup.dacc := by
  obtain ⟨r, hr⟩ := twin_run c0 c1 c2 c3
  refine ⟨r, hr, fun n f f' hf hf' i k p q hp hk hq => ?_⟩
  exact (C125_links_are_short airSetup (by simp [airSetup]) rfl (by norm_num [airSetup]) (by norm_num [airSetup]) 4 twin_longest twinDisk
    twin_unlinked 0 5 c0 c1 c2 c3 r hr n f f' hf hf' i k p q hp hk hq).1

/-! ### C79: the velocity limits themselves are not kept -/

/-- Positions 0, 1.9, 3.8, 6.4, 8.3, 10.2: one step is longer than the others. -/
noncomputable def jump (n : Int) : ℝ := if n ≤ 2 then 19 / 10 * n else 19 / 10 * n + 7 / 10
noncomputable def jump3 (n : Int) : V3 := ⟨jump n, 0, 0⟩

theorem air_shown (x : Int → ℝ) (n : Int) (a : ℝ) (ha : -20 ≤ a ∧ a ≤ 20) (hx : -20 ≤ x n ∧ x n ≤ 20) (cam : ℕ)
    (hcam : cam < airSetup.cals.length) : ShownNear airSetup (airDisk x n).img.targets ⟨a, 0, 0⟩ ⟨x n, 0, 0⟩ cam 0 := by
  have hc : cam = 0 ∨ cam = 1 := by
    have : cam < 2 := hcam
    omega
  obtain ⟨q, c, hq, h1, h2, h3⟩ : ∃ (q : ℝ) (c : Cam × LUT), (q = 0 ∨ q = 10) ∧ c = (downCam q, emptyLUT) ∧ airSetup.cals[cam]? = some c ∧
      (airDisk x n).img.targets[cam]? = some [⟨5 * (x n - q) + 500, 500, 0⟩] := by
    rcases hc with rfl | rfl
    · exact ⟨0, _, Or.inl rfl, rfl, rfl, rfl⟩
    · exact ⟨10, _, Or.inr rfl, rfl, rfl, rfl⟩
  subst h1
  obtain ⟨a1, a2⟩ := ha
  obtain ⟨x1, x2⟩ := hx
  refine ⟨_, _, 0, _, _, _, _, h2, airSetup_pixel _ _, ?_, airSetup_pixel _ _, ?_, h3, rfl, ?_, ?_⟩
  · rcases hq with rfl | rfl <;> refine ⟨?_, ?_, by norm_num, by norm_num [airSetup]⟩ <;> norm_num [airSetup] <;> linarith
  · rcases hq with rfl | rfl <;> refine ⟨?_, ?_, by norm_num, by norm_num [airSetup]⟩ <;> norm_num [airSetup] <;> linarith
  · intro j t ht _ _
    match j, ht with
    | 0, _ => rfl
    | j + 1, ht => simp at ht
  · intro S hS
    have : S ⊆ {0} := by
      intro j hj
      obtain ⟨t, ht, -⟩ := hS j hj
      match j, ht with
      | 0, _ => simp
      | j + 1, ht => simp at ht
    have := Finset.card_le_card this
    have h2 : ({0} : Finset ℕ).card = 1 := rfl
    omega

theorem air_sees (x : Int → ℝ) (n : Int) (a : ℝ) (ha : -20 ≤ a ∧ a ≤ 20) (hx : -20 ≤ x n ∧ x n ≤ 20) (hb : |x n - a| < 2) :
    SeenByAll airSetup.cams (airDisk x n) ⟨a, 0, 0⟩ (airSetup.proj ⟨a, 0, 0⟩) 0 := by
  refine near_seen (air_frameOK x n) (air_shown x n a ha hx) (airSetup_air (by norm_num)) ?_
  rw [abs_lt] at hb
  norm_num [InOpenBox, airSetup]
  constructor <;> linarith

theorem angleAcc_axis {a b c : ℝ} (h1 : a < b) (h2 : a < c) :
    angleAcc ⟨a, 0, 0⟩ ⟨b, 0, 0⟩ ⟨c, 0, 0⟩ = .ok (0, |c - b|) := by
  have e1 : (⟨b, 0, 0⟩ - ⟨a, 0, 0⟩ : V3) = ⟨b - a, 0, 0⟩ := by ext <;> simp
  have e2 : (⟨c, 0, 0⟩ - ⟨a, 0, 0⟩ : V3) = ⟨c - a, 0, 0⟩ := by ext <;> simp
  have e3 : (⟨c, 0, 0⟩ - ⟨b, 0, 0⟩ : V3) = ⟨c - b, 0, 0⟩ := by ext <;> simp
  rw [angleAcc_of_angleOf (φ := 0), e3, norm_axis]
  rw [e1, e2]
  refine Or.inl ⟨?_, ?_, le_refl _, by norm_num, ?_⟩
  · intro e
    have := congrArg V3.x e
    simp at this
    linarith
  · intro e
    have := congrArg V3.x e
    simp at this
    linarith
  · rw [norm_axis, norm_axis, abs_of_pos (by linarith), abs_of_pos (by linarith)]
    simp [V3.dot]

theorem jump_lt {n m : Int} (h : n < m) : jump n < jump m := by
  have h' : (n : ℝ) < m := by exact_mod_cast h
  unfold jump
  split_ifs <;> linarith

theorem jump_step (n : Int) : jump (n + 1) - jump n = 19 / 10 ∨ (n = 2 ∧ jump (n + 1) - jump n = 26 / 10) := by
  unfold jump
  by_cases h : n = 2
  · right
    subst h
    norm_num
  · left
    split_ifs <;> first | (exfalso; omega) | (push_cast; ring)

theorem jump_trackable (n : Int) (x0 : Option V3) (hx : x0 = none ∨ 0 < n ∧ x0 = some (jump3 (n - 1))) :
    Trackable airSetup (airDisk jump n).img 0 x0 (jump3 n) [jump3 (n + 1)] (airDisk jump (n + 1)).img
      [jump3 (frameAfter 5 n)] (airDisk jump (frameAfter 5 n)).img := by
  have hne : ∀ a b : Int, a ≠ b → jump3 a ≠ jump3 b := by
    intro a b h e
    have := congrArg V3.x e
    rcases lt_or_gt_of_ne h with h | h
    · exact absurd this (jump_lt h).ne
    · exact absurd this (jump_lt h).ne'
  have hfa : (frameAfter 5 n = n + 2 ∨ frameAfter 5 n = n - 2) := by
    unfold frameAfter
    split_ifs <;> omega
  have hthen : expectedThen x0 (jump3 n) (jump3 (n + 1)) ≠ jump3 (n + 1) := by
    intro e
    have e := congrArg V3.x e
    have s1 := jump_step n
    rcases hx with rfl | ⟨h, rfl⟩
    · simp only [expectedThen, jump3, V3.smul, V3.sub_x] at e
      rcases s1 with h | ⟨-, h⟩ <;> linarith
    · have s2 := jump_step (n - 1)
      rw [sub_add_cancel] at s2
      simp only [expectedThen, jump3, V3.smul, V3.sub_x, V3.add_x] at e
      rcases s1 with h1 | ⟨-, h1⟩ <;> rcases s2 with h2 | ⟨-, h2⟩ <;> linarith
  refine ⟨?_, ?_, ?_, ?_, ?_, ?_⟩
  · intro _
    refine ⟨⟨1, [0, 0]⟩, rfl, ?_⟩
    intro cam hc
    have : cam < 2 := hc
    have : cam = 0 ∨ cam = 1 := by omega
    rcases this with rfl | rfl <;> exact ⟨0, rfl, Or.inr ⟨0, _, rfl, rfl, by simp⟩⟩
  · rcases hx with rfl | ⟨h, rfl⟩ <;> exact airSetup_projectable (by norm_num [jump3, expectedNext, V3.smul])
  · intro x3 h3
    rw [List.mem_singleton] at h3
    subst h3
    rcases hx with rfl | ⟨h, rfl⟩ <;> exact airSetup_projectable (by norm_num [jump3, expectedThen, V3.smul])
  · intro x0' e x3 h3
    rw [List.mem_singleton] at h3
    subst h3
    rcases hx with rfl | ⟨h, rfl⟩
    · cases e
    · cases e
      exact ⟨fun e => absurd e (hne _ _ (by omega)), fun e => absurd e (hne _ _ (by omega))⟩
  · intro x3 h3 x4 h4
    rw [List.mem_singleton] at h3 h4
    subst h3 h4
    exact ⟨fun e => absurd e (hne _ _ (by omega)), fun e => absurd e hthen⟩
  · intro x3 _ v x4 hv
    exact absurd hv (air_no_new _ _ _)

theorem jump_run (c0 c1 c2 c3 : Frame V3 ℝ (Img ℝ)) :
    ∃ r, forwardRun (airDisk jump) (trackBuf airSetup.tracker) 0 (0 + (5 : ℕ)) [c0, c1, c2, c3] = .ok r := by
  obtain ⟨r, hr, -⟩ := C99_run_returns_partial airSetup (by simp [airSetup]) rfl (by norm_num [airSetup]) (airDisk jump) (by
      intro n p hp
      simp only [airDisk, List.mem_singleton] at hp
      subst hp
      exact ⟨rfl, rfl⟩) 0 5 (by norm_num) (fun n _ _ => air_seen jump n) (by
      intro n h1 h2 h x1 hx x0 h0
      have hh : h = 0 ∧ x1 = jump3 n := by
        cases h with
        | zero => simp [airDisk] at hx; exact ⟨rfl, by rw [← hx]; rfl⟩
        | succ h => simp [airDisk] at hx
      obtain ⟨rfl, rfl⟩ := hh
      refine jump_trackable n x0 ?_
      rcases h0 with h0 | ⟨h0, x, hx, rfl⟩
      · exact Or.inl h0
      · simp only [airDisk, List.map_cons, List.map_nil, List.mem_singleton] at hx
        exact Or.inr ⟨h0, by rw [hx]; rfl⟩) c0 c1 c2 c3
  exact ⟨r, hr⟩

theorem jump_get {n : Int} {k : ℕ} {x : V3} (h : ((airDisk jump n).parts.map Part.x)[k]? = some x) : k = 0 ∧ x = jump3 n := by
  cases k with
  | zero => simp [airDisk] at h; exact ⟨rfl, by rw [← h]; rfl⟩
  | succ k => simp [airDisk] at h

theorem jump_seen {n : Int} (h0 : 0 ≤ n) (h5 : n ≤ 5) {X : V3} {a : ℝ} (hX : X = ⟨a, 0, 0⟩) (hb : |jump n - a| < 2) :
    SeenByAll airSetup.cams (airDisk jump n) X (airSetup.proj X) 0 := by
  have h1 : (0 : ℝ) ≤ n := by exact_mod_cast h0
  have h2 : (n : ℝ) ≤ 5 := by exact_mod_cast h5
  have hj : 0 ≤ jump n ∧ jump n ≤ 11 := by
    unfold jump
    split_ifs <;> constructor <;> linarith
  have hb' := abs_lt.1 hb
  rw [hX]
  exact air_sees jump n a ⟨by linarith, by linarith⟩ ⟨by linarith, by linarith⟩ hb

/-- C79 fails also with cameras: a link may break the velocity limits. The limits allow no displacement beyond 2 along the x axis; the particle moves on
this axis by 1.9, 1.9, 2.6, 1.9, 1.9, and the run links it all the way. -/
theorem C79_cameras_refuted (c0 c1 c2 c3 : Frame V3 ℝ (Img ℝ)) :
    ∃ r f f' p q, forwardRun (airDisk jump) (trackBuf airSetup.tracker) 0 (0 + (5 : ℕ)) [c0, c1, c2, c3] = .ok r ∧
      (2, f) ∈ writesOf r.log ∧ (3, f') ∈ writesOf r.log ∧ f.parts[0]? = some p ∧ p.next = 0 ∧ f'.parts[0]? = some q ∧
      q.x - p.x = ⟨2.6, 0, 0⟩ ∧ airSetup.vel = ⟨⟨-2, -2, -2⟩, ⟨2, 2, 2⟩⟩ ∧ ¬ Pos3dInBounds (q.x - p.x) airSetup.vel := by
  have him : ((airSetup.ip.imx : ℝ) ≤ 10 ^ 19 ∧ (airSetup.ip.imy : ℝ) ≤ 10 ^ 19) := by norm_num [airSetup]
  have hn : 2 ≤ airSetup.cals.length ∧ airSetup.cals.length ≤ 4 := by simp [airSetup]
  obtain ⟨r, hr⟩ := jump_run c0 c1 c2 c3
  have hg : SearchSane airSetup.tracker := C81_search_sane airSetup.cams _ him (by show airSetup.cals.length ≤ 4; simp [airSetup])
  have hd : ∀ n, ∀ p ∈ (airDisk jump n).parts, Unlinked p := by
    intro n p hp
    simp only [airDisk, List.mem_singleton] at hp
    subst hp
    exact ⟨rfl, rfl⟩
  obtain ⟨w, w1, w2, w3, w4, w5, -⟩ := run_noadd hg rfl hd hr
  have hbox : ∀ v, Pos3dInBounds v airSetup.vel → airSetup.tracker.inBounds v = true :=
    fun v hv => @decide_eq_true _ (Classical.propDecidable _) hv
  have j0 : jump 0 = 0 := by norm_num [jump]
  have j1 : jump 1 = 1.9 := by norm_num [jump]
  have j2 : jump 2 = 3.8 := by norm_num [jump]
  have j3 : jump 3 = 6.4 := by norm_num [jump]
  have j4 : jump 4 = 8.3 := by norm_num [jump]
  have j5 : jump 5 = 10.2 := by norm_num [jump]
  have key := run_follows hg hd w2 w3 w4 w5 (fun _ _ _ => True) (fun _ _ _ _ _ _ _ _ _ => trivial)
    (fun j => jump3 (0 + (j : Int))) (fun _ => 0) (fun j hj => rfl) (fun j hj k x hx _ => (jump_get hx).1)
    (fun j hj k x hx _ => (jump_get hx).1)
    (by
      intro j hj x0 hx0 b0 b1 b3 b1' b2' b3' cnt p hst himg hnx hb3 hpi hpx hpred
      have hq : (airDisk jump (0 + (j : Int) + 1)).parts[0]? = some ⟨jump3 (0 + (j : Int) + 1), PREV_NONE, NEXT_NONE, [], 0⟩ := rfl
      simp only [zero_add] at hst himg hb3 hpx hx0 hq ⊢
      -- from here on `j` is one of 0 .. 4
      have plain : ∀ x, x0 = some x → SeenByAll airSetup.cams (airDisk jump ((j : Int) + 1)) (p.x.smul 2 - x)
            (airSetup.proj (p.x.smul 2 - x)) 0 → Pos3dInBounds (jump3 ((j : Int) + 1) - p.x) airSetup.vel →
          (∃ acc, angleAcc p.x (p.x.smul 2 - x) (jump3 ((j : Int) + 1)) = .ok (0, acc) ∧ acc < 1) →
          ∃ d, Served airSetup.tracker x0 p.x (airDisk jump ((j : Int) + 1)).img b3.img b1'.parts b2'.parts b3'.parts 0 d := by
        rintro x rfl hs hv ⟨acc, ha, hacc⟩
        refine C95_seen_is_tracked airSetup.cams _ him hn rfl b0 b1 _ b3 b1' b2' b3' cnt hst hnx (fun q hq => (hd _ q hq).1)
          0 p _ hpi hpred 0 _ hq hs ⟨rfl, hbox _ hv, 0, acc, ha, Or.inl ⟨hacc, ?_⟩⟩
        show (0 : ℝ) < 100
        norm_num
      have caseJ : j = 0 ∨ j = 1 ∨ j = 2 ∨ j = 3 ∨ j = 4 := by omega
      rcases caseJ with rfl | rfl | rfl | rfl | rfl
      · simp only [if_true] at hx0
        subst hx0
        have hb3' := hb3 (by norm_num)
        subst hb3'
        simp only [Nat.cast_zero, zero_add] at *
        refine ⟨_, C95_seen_twice_is_tracked airSetup.cams _ him hn rfl b0 b1 _ _ b1' b2' b3' cnt hst hnx (fun q hq => (hd _ q hq).1)
          0 p none hpi hpred 0 _ hq ?_ 0 ⟨jump3 2, PREV_NONE, NEXT_NONE, [], 0⟩ rfl ?_ ?_ 0 0 0 0 ?_ ?_ ?_⟩
        · show SeenByAll airSetup.cams _ p.x (airSetup.projOwn b1.img 0 p.x) 0
          rw [hpx, himg, projOwn_eq (X := jump3 0)]
          · exact jump_seen (n := 1) (by norm_num) (by norm_num) (a := 0) (by rw [jump3, j0])
              (by rw [j1]; norm_num [abs_lt])
          · refine ⟨⟨1, [0, 0]⟩, rfl, fun cam hcam => ?_⟩
            have hc : cam = 0 ∨ cam = 1 := by
              have : cam < 2 := hcam
              omega
            rcases hc with rfl | rfl
            · exact ⟨0, rfl, Or.inr ⟨0, _, _, _, rfl, rfl, rfl, rfl, airSetup_pixel _ _⟩⟩
            · exact ⟨0, rfl, Or.inr ⟨0, _, _, _, rfl, rfl, rfl, rfl, airSetup_pixel _ _⟩⟩
        · refine jump_seen (n := 2) (by norm_num) (by norm_num) (a := 3.8) ?_ (by rw [j2]; norm_num)
          show (jump3 1).smul 2 - p.x = _
          rw [hpx, jump3, jump3, j0, j1]
          ext <;> norm_num [V3.smul]
        · refine hbox _ ?_
          simp only [jump3, j2, j1]
          norm_num [Pos3dInBounds, airSetup]
        · show angleAcc (jump3 1) (jump3 2) ((jump3 1).smul 2 - p.x) = _
          have : (jump3 1).smul 2 - p.x = ⟨3.8, 0, 0⟩ := by
            rw [hpx, jump3, jump3, j0, j1]
            ext <;> norm_num [V3.smul]
          rw [this, jump3, jump3, j1, j2, angleAcc_axis (by norm_num) (by norm_num)]
          norm_num
        · simp
        · right
          show ((0 : ℝ) + 0) / 2 < 1 / 10
          norm_num
      · simp only [one_ne_zero, if_false, Nat.cast_one, Nat.sub_self, Nat.cast_zero] at *
        have e : p.x.smul 2 - jump3 0 = ⟨3.8, 0, 0⟩ := by
          rw [hpx, jump3, jump3, j0, j1]
          ext <;> norm_num [V3.smul]
        refine plain _ hx0 ?_ ?_ ⟨0, ?_, by norm_num⟩
        · exact jump_seen (n := 2) (by norm_num) (by norm_num) (a := 3.8) e (by rw [j2]; norm_num)
        · show Pos3dInBounds (jump3 2 - p.x) airSetup.vel
          rw [hpx, jump3, jump3, j1, j2]
          norm_num [Pos3dInBounds, airSetup]
        · show angleAcc p.x (p.x.smul 2 - jump3 0) (jump3 2) = _
          rw [e, hpx, jump3, jump3, j1, j2, angleAcc_axis (by norm_num) (by norm_num)]
          norm_num
      · -- the long step
        simp only [OfNat.ofNat_ne_zero, if_false, Nat.cast_ofNat, Nat.add_one_sub_one, Nat.cast_one] at *
        have hb3' := hb3 (by norm_num)
        subst hb3'
        subst hx0
        have e : p.x.smul 2 - jump3 1 = ⟨5.7, 0, 0⟩ := by
          rw [hpx, jump3, jump3, j1, j2]
          ext <;> norm_num [V3.smul]
        have e' : ((jump3 3).smul 5 - p.x.smul 4 + jump3 1).smul 0.5 = ⟨9.35, 0, 0⟩ := by
          rw [hpx, jump3, jump3, jump3, j1, j2, j3]
          ext <;> norm_num [V3.smul]
        refine ⟨_, C95_seen_twice_is_tracked airSetup.cams _ him hn rfl b0 b1 _ _ b1' b2' b3' cnt hst hnx (fun q hq => (hd _ q hq).1)
          0 p _ hpi hpred 0 _ hq ?_ 0 ⟨jump3 4, PREV_NONE, NEXT_NONE, [], 0⟩ rfl ?_ ?_ 0 0.7 0 1.05 ?_ ?_ ?_⟩
        · exact jump_seen (n := 3) (by norm_num) (by norm_num) (a := 5.7) e (by rw [j3]; norm_num [abs_lt])
        · exact jump_seen (n := 4) (by norm_num) (by norm_num) (a := 9.35) e' (by rw [j4]; norm_num [abs_lt])
        · refine hbox _ ?_
          show Pos3dInBounds (jump3 4 - jump3 3) airSetup.vel
          simp only [jump3, j4, j3]
          norm_num [Pos3dInBounds, airSetup]
        · show angleAcc (jump3 3) (jump3 4) (((jump3 3).smul 5 - p.x.smul 4 + jump3 1).smul 0.5) = _
          rw [e', jump3, jump3, j3, j4, angleAcc_axis (by norm_num) (by norm_num), abs_of_pos (by norm_num)]
          norm_num
        · show angleAcc p.x (p.x.smul 2 - jump3 1) (jump3 3) = _
          rw [e, hpx, jump3, jump3, j2, j3, angleAcc_axis (by norm_num) (by norm_num), abs_of_pos (by norm_num)]
          norm_num
        · left
          constructor
          · show ((0.7 : ℝ) + 1.05) / 2 < 1
            norm_num
          · show ((0 : ℝ) + 0) / 2 < 100
            norm_num
      · simp only [OfNat.ofNat_ne_zero, if_false, Nat.cast_ofNat, Nat.add_one_sub_one] at *
        have e : p.x.smul 2 - jump3 2 = ⟨9, 0, 0⟩ := by
          rw [hpx, jump3, jump3, j2, j3]
          ext <;> norm_num [V3.smul]
        refine plain _ hx0 ?_ ?_ ⟨0.7, ?_, by norm_num⟩
        · exact jump_seen (n := 4) (by norm_num) (by norm_num) (a := 9) e (by rw [j4]; norm_num [abs_lt])
        · show Pos3dInBounds (jump3 4 - p.x) airSetup.vel
          rw [hpx, jump3, jump3, j3, j4]
          norm_num [Pos3dInBounds, airSetup]
        · show angleAcc p.x (p.x.smul 2 - jump3 2) (jump3 4) = _
          rw [e, hpx, jump3, jump3, j3, j4, angleAcc_axis (by norm_num) (by norm_num), abs_of_neg (by norm_num)]
          norm_num
      · simp only [OfNat.ofNat_ne_zero, if_false, Nat.cast_ofNat, Nat.add_one_sub_one] at *
        have e : p.x.smul 2 - jump3 3 = ⟨10.2, 0, 0⟩ := by
          rw [hpx, jump3, jump3, j3, j4]
          ext <;> norm_num [V3.smul]
        refine plain _ hx0 ?_ ?_ ⟨0, ?_, by norm_num⟩
        · exact jump_seen (n := 5) (by norm_num) (by norm_num) (a := 10.2) e (by rw [j5]; norm_num)
        · show Pos3dInBounds (jump3 5 - p.x) airSetup.vel
          rw [hpx, jump3, jump3, j4, j5]
          norm_num [Pos3dInBounds, airSetup]
        · show angleAcc p.x (p.x.smul 2 - jump3 3) (jump3 5) = _
          rw [e, hpx, jump3, jump3, j4, j5, angleAcc_axis (by norm_num) (by norm_num)]
          norm_num)
  obtain ⟨p, p1, p2, -, p3⟩ := key 2 (by norm_num)
  obtain ⟨q, q1, q2, -, -⟩ := key 3 (by norm_num)
  have hdiff : q.x - p.x = ⟨2.6, 0, 0⟩ := by
    rw [p2, q2]
    show jump3 3 - jump3 2 = _
    rw [jump3, jump3, j2, j3]
    ext <;> norm_num
  refine ⟨r, w 2, w 3, p, q, hr, ?_, ?_, p1, ?_, q1, hdiff, rfl, ?_⟩
  · rw [w1, List.mem_map]
    exact ⟨2, by simp, rfl⟩
  · rw [w1, List.mem_map]
    exact ⟨3, by simp, rfl⟩
  · simpa using p3
  · rw [hdiff]
    norm_num [Pos3dInBounds, airSetup]

end Verif.Track
