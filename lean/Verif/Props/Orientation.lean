/-
C30: skew_midpoint. C31: point_position. C32: the dumbbell measure. C36: batch triangulation.
-/
import Verif.Model.Orientation
import Verif.Spec.Orientation
import Verif.Props.Projection

namespace Verif.Geo
open V3 Spec

/-! ### C30 -/

theorem cross_dot_self (a b : V3) :
    dot (cross a b) (cross a b) = dot a a * dot b b - dot a b ^ 2 := by
  simp only [dot, cross]; ring

theorem notParallel_iff (a b : V3) : NotParallel a b ↔ dot (cross a b) (cross a b) ≠ 0 := by
  constructor
  · intro h e
    have hc : cross a b = 0 := dot_self_eq_zero.1 e
    have hx := congrArg V3.x hc
    have hy := congrArg V3.y hc
    have hz := congrArg V3.z hc
    simp only [cross, zero_x, zero_y, zero_z] at hx hy hz
    -- (b·b) a = (a·b) b
    have k := h (dot b b) (dot a b) (by
      ext <;> simp only [smul_x, smul_y, smul_z, dot]
      · linear_combination (b.y) * hz - b.z * hy
      · linear_combination (b.z) * hx - b.x * hz
      · linear_combination (b.x) * hy - b.y * hx)
    have hb : b = 0 := dot_self_eq_zero.1 k.1
    have := h 0 1 (by rw [hb]; ext <;> simp)
    exact one_ne_zero this.2
  · intro h s t e
    have hx := congrArg V3.x e
    have hy := congrArg V3.y e
    have hz := congrArg V3.z e
    simp only [smul_x, smul_y, smul_z] at hx hy hz
    have e1 : (cross a b).smul s = 0 := by
      ext <;> simp only [smul_x, smul_y, smul_z, cross, zero_x, zero_y, zero_z]
      · linear_combination b.z * hy - b.y * hz
      · linear_combination b.x * hz - b.z * hx
      · linear_combination b.y * hx - b.x * hy
    have e2 : (cross a b).smul t = 0 := by
      ext <;> simp only [smul_x, smul_y, smul_z, cross, zero_x, zero_y, zero_z]
      · linear_combination a.z * hy - a.y * hz
      · linear_combination a.x * hz - a.z * hx
      · linear_combination a.y * hx - a.x * hy
    have f : ∀ k : ℝ, (cross a b).smul k = 0 → k = 0 := by
      intro k hk
      by_contra hne
      apply h
      rw [dot_self_eq_zero]
      have hx := congrArg V3.x hk
      have hy := congrArg V3.y hk
      have hz := congrArg V3.z hk
      simp only [smul_x, smul_y, smul_z, zero_x, zero_y, zero_z, mul_eq_zero, hne, or_false]
        at hx hy hz
      ext <;> assumption
    exact ⟨f s e1, f t e2⟩

/-- The difference of the two feet is perpendicular to both directions. -/
theorem skew_feet {v1 a1 v2 a2 : V3} (h : NotParallel a1 a2) :
    ∃ p q s t, skewMidpoint (v1, a1) (v2, a2) = some ((p - q).norm, (p + q).smul 0.5) ∧
      p = v1 + a1.smul s ∧ q = v2 + a2.smul t ∧ dot (p - q) a1 = 0 ∧ dot (p - q) a2 = 0 := by
  have hS := (notParallel_iff a1 a2).1 h
  refine ⟨_, _, dot (cross a1 a2) (cross (v2 - v1) a2) * (1 / dot (cross a1 a2) (cross a1 a2)),
    dot (cross a1 a2) (cross (v2 - v1) a1) * (1 / dot (cross a1 a2) (cross a1 a2)), ?_, rfl, rfl,
    ?_, ?_⟩
  · simp only [skewMidpoint, if_neg hS]
    have : ∀ (a : V3) s t, (a.smul s).smul t = a.smul (s * t) := by
      intro a s t; ext <;> simp <;> ring
    simp only [this]
  all_goals
    have hk : dot (cross a1 a2) (cross a1 a2) * (1 / dot (cross a1 a2) (cross a1 a2)) = 1 := by
      field_simp
    generalize 1 / dot (cross a1 a2) (cross a1 a2) = k at *
    simp only [dot, sub_x, sub_y, sub_z, add_x, add_y, add_z, smul_x, smul_y, smul_z, cross] at hk ⊢
  · linear_combination ((v2.x - v1.x) * a1.x + (v2.y - v1.y) * a1.y + (v2.z - v1.z) * a1.z) * hk
  · linear_combination ((v2.x - v1.x) * a2.x + (v2.y - v1.y) * a2.y + (v2.z - v1.z) * a2.z) * hk

theorem norm_le_of_dot {a b : V3} (h : dot a a ≤ dot b b) : a.norm ≤ b.norm := by
  rw [V3.norm, V3.norm]; exact Real.sqrt_le_sqrt h

/-- C30: for two lines that are not parallel, `skew_midpoint` returns the distance of the lines and the
midpoint of a shortest connection, and that connection is perpendicular to both lines. -/
theorem C30_closest (v1 a1 v2 a2 : V3) (h : NotParallel a1 a2) :
    ∃ D M, skewMidpoint (v1, a1) (v2, a2) = some (D, M) ∧ ShortestConnection v1 a1 v2 a2 D M ∧
      ∃ p q, OnLine v1 a1 p ∧ OnLine v2 a2 q ∧ M + M = p + q ∧ D = (p - q).norm ∧
        dot (p - q) a1 = 0 ∧ dot (p - q) a2 = 0 := by
  obtain ⟨p, q, s, t, e, hp, hq, o1, o2⟩ := skew_feet (v1 := v1) (v2 := v2) h
  have hM : (p + q).smul 0.5 + (p + q).smul 0.5 = p + q := by
    ext <;> simp <;> ring
  refine ⟨_, _, e, ⟨p, q, ⟨s, hp⟩, ⟨t, hq⟩, rfl, hM, ?_⟩, p, q, ⟨s, hp⟩, ⟨t, hq⟩, hM, rfl, o1, o2⟩
  rintro p' q' ⟨s', hp'⟩ ⟨t', hq'⟩
  apply norm_le_of_dot
  have : p' - q' = (p - q) + (a1.smul (s' - s) - a2.smul (t' - t)) := by
    rw [hp', hq', hp, hq]; ext <;> simp <;> ring
  rw [this]
  have e : dot (p - q + (a1.smul (s' - s) - a2.smul (t' - t)))
      (p - q + (a1.smul (s' - s) - a2.smul (t' - t)))
      = dot (p - q) (p - q) + 2 * (s' - s) * dot (p - q) a1 - 2 * (t' - t) * dot (p - q) a2
        + dot (a1.smul (s' - s) - a2.smul (t' - t)) (a1.smul (s' - s) - a2.smul (t' - t)) := by
    simp only [dot, sub_x, sub_y, sub_z, add_x, add_y, add_z, smul_x, smul_y, smul_z]; ring
  rw [e, o1, o2]
  have := dot_self_nonneg (a1.smul (s' - s) - a2.smul (t' - t))
  linarith

/-- C30: the shortest connection is unique, so the returned values are the only ones that fit. -/
theorem C30_unique (v1 a1 v2 a2 : V3) (h : NotParallel a1 a2) (D : ℝ) (M : V3)
    (hs : ShortestConnection v1 a1 v2 a2 D M) : skewMidpoint (v1, a1) (v2, a2) = some (D, M) := by
  obtain ⟨p, q, s, t, e, hp, hq, o1, o2⟩ := skew_feet (v1 := v1) (v2 := v2) h
  obtain ⟨p', q', ⟨s', hp'⟩, ⟨t', hq'⟩, hD, hM, hmin⟩ := hs
  have hle := hmin p q ⟨s, hp⟩ ⟨t, hq⟩
  have hd : p' - q' = (p - q) + (a1.smul (s' - s) - a2.smul (t' - t)) := by
    rw [hp', hq', hp, hq]; ext <;> simp <;> ring
  have e2 : dot (p - q + (a1.smul (s' - s) - a2.smul (t' - t)))
      (p - q + (a1.smul (s' - s) - a2.smul (t' - t)))
      = dot (p - q) (p - q) + 2 * (s' - s) * dot (p - q) a1 - 2 * (t' - t) * dot (p - q) a2
        + dot (a1.smul (s' - s) - a2.smul (t' - t)) (a1.smul (s' - s) - a2.smul (t' - t)) := by
    simp only [dot, sub_x, sub_y, sub_z, add_x, add_y, add_z, smul_x, smul_y, smul_z]; ring
  have hsq : dot (p' - q') (p' - q') ≤ dot (p - q) (p - q) := by
    rw [← norm_sq, ← norm_sq]
    have := norm_nonneg (p' - q')
    rw [← hD] at *
    nlinarith
  rw [hd, e2, o1, o2] at hsq
  have hz : a1.smul (s' - s) - a2.smul (t' - t) = 0 := by
    apply dot_self_eq_zero.1
    have := dot_self_nonneg (a1.smul (s' - s) - a2.smul (t' - t))
    linarith
  have hst := h (s' - s) (t' - t) (by
    have hx := congrArg V3.x hz
    have hy := congrArg V3.y hz
    have hz := congrArg V3.z hz
    simp only [sub_x, sub_y, sub_z, smul_x, smul_y, smul_z, zero_x, zero_y, zero_z] at hx hy hz
    ext <;> simp only [smul_x, smul_y, smul_z] <;> linarith)
  have es : s' = s := by linarith [hst.1]
  have et : t' = t := by linarith [hst.2]
  subst es et
  rw [e, hD, hp', hq', hp, hq]
  rw [hp', hq'] at hM
  congr 2
  have hx := congrArg V3.x hM
  have hy := congrArg V3.y hM
  have hz := congrArg V3.z hM
  simp only [add_x, add_y, add_z, smul_x, smul_y, smul_z] at hx hy hz
  ext <;> simp only [add_x, add_y, add_z, smul_x, smul_y, smul_z] <;> norm_num <;> linarith

theorem norm_sub_comm (a b : V3) : (a - b).norm = (b - a).norm := by
  rw [V3.norm, V3.norm]; congr 1; simp only [sub_x, sub_y, sub_z]; ring

/-- C30: the result does not depend on the order of the two rays. -/
theorem C30_symmetric (r1 r2 : Ray) : skewMidpoint r1 r2 = skewMidpoint r2 r1 := by
  obtain ⟨v1, a1⟩ := r1
  obtain ⟨v2, a2⟩ := r2
  by_cases hS : dot (cross a1 a2) (cross a1 a2) = 0
  · have hS' : dot (cross a2 a1) (cross a2 a1) = 0 := by
      rw [← hS]; simp only [dot, cross]; ring
    simp [skewMidpoint, hS, hS']
  · obtain ⟨D, M, e, ⟨p, q, hp, hq, hD, hM, hmin⟩, -⟩ :=
      C30_closest v1 a1 v2 a2 ((notParallel_iff _ _).2 hS)
    rw [e]
    symm
    apply C30_unique
    · apply (notParallel_iff _ _).2
      intro h; apply hS; rw [← h]; simp only [dot, cross]; ring
    · refine ⟨q, p, hq, hp, by rw [hD, norm_sub_comm], ?_, ?_⟩
      · rw [hM]; ext <;> simp <;> ring
      · intro p' q' h1 h2
        rw [norm_sub_comm]; exact hmin q' p' h2 h1

/-- C30: two rays that meet in `P` give distance 0 and the point `P`. -/
theorem C30_meeting (v1 a1 v2 a2 P : V3) (h : NotParallel a1 a2) (h1 : OnLine v1 a1 P)
    (h2 : OnLine v2 a2 P) : skewMidpoint (v1, a1) (v2, a2) = some (0, P) := by
  apply C30_unique _ _ _ _ h
  refine ⟨P, P, h1, h2, ?_, rfl, fun p q _ _ => norm_nonneg _⟩
  symm; rw [V3.norm_eq_zero]; ext <;> simp

example : NotParallel ⟨1, 0, 0⟩ ⟨0, 1, 0⟩ ∧
    skewMidpoint (⟨0, 0, 0⟩, ⟨1, 0, 0⟩) (⟨5, 3, 4⟩, ⟨0, 1, 0⟩) = some (4, ⟨5, 0, 2⟩) := by
  have h : NotParallel ⟨1, 0, 0⟩ ⟨0, 1, 0⟩ := (notParallel_iff _ _).2 (by norm_num [dot, cross])
  refine ⟨h, C30_unique _ _ _ _ h _ _ ⟨⟨5, 0, 0⟩, ⟨5, 0, 4⟩, ⟨5, ?_⟩, ⟨-3, ?_⟩, ?_, ?_, ?_⟩⟩
  · ext <;> norm_num
  · ext <;> norm_num
  · rw [V3.norm]
    norm_num
    rw [show (16 : ℝ) = 4 ^ 2 by norm_num, Real.sqrt_sq (by norm_num)]
  · ext <;> norm_num
  · rintro p q ⟨s, rfl⟩ ⟨t, rfl⟩
    rw [V3.norm]
    apply Real.le_sqrt_of_sq_le
    norm_num
    nlinarith [sq_nonneg (s - 5), sq_nonneg (3 + t)]

/-! ### C31 -/

/-- The loop's sum over the pairs of a list of camera numbers. -/
noncomputable def pairSum (used : ℕ → Bool) (f : ℕ → ℕ → ℝ) : List ℕ → ℝ
  | [] => 0
  | i :: l => (if used i then ((l.filter used).map (f i)).sum else 0) + pairSum used f l

theorem pairSum_eq (used : ℕ → Bool) (f : ℕ → ℕ → ℝ) (l : List ℕ) (hl : l.Pairwise (· < ·)) :
    pairSum used f l = ∑ p ∈ pairsOf (l.filter used).toFinset, f p.1 p.2 := by
  rw [pairsOf, Finset.sum_filter, Finset.sum_product]
  induction l with
  | nil => simp [pairSum]
  | cons i l ih =>
    obtain ⟨hi, hl⟩ := List.pairwise_cons.1 hl
    rw [pairSum, ih hl]
    by_cases hu : used i
    · rw [List.filter_cons_of_pos hu, List.toFinset_cons, if_pos hu]
      have hni : i ∉ (l.filter used).toFinset := by
        simp only [List.mem_toFinset, List.mem_filter, not_and]
        intro h; exact absurd (hi i h) (lt_irrefl _)
      have hnd : (l.filter used).Nodup := (hl.imp (fun h => ne_of_lt h)).filter _
      rw [Finset.sum_insert hni]
      congr 1
      · rw [Finset.sum_insert hni, if_neg (lt_irrefl _), zero_add, List.sum_toFinset _ hnd]
        congr 1
        apply List.map_congr_left
        intro j hj
        rw [if_pos (hi j (List.mem_of_mem_filter hj))]
      · apply Finset.sum_congr rfl
        intro j hj
        rw [Finset.sum_insert hni, if_neg, zero_add]
        simp only [List.mem_toFinset] at hj
        exact not_lt.2 (hi j (List.mem_of_mem_filter hj)).le
    · rw [List.filter_cons_of_neg hu, if_neg hu, zero_add]

theorem inner_loop (used : ℕ → Bool) (ray : ℕ → Ray) (D : ℕ → ℕ → ℝ) (M : ℕ → ℕ → V3) (i : ℕ)
    (l : List ℕ) (h : ∀ j ∈ l, used j → skewMidpoint (ray i) (ray j) = some (D i j, M i j))
    (n : ℕ) (d : ℝ) (p : V3) :
    (l.map fun j => if used j then some (ray j) else none).foldl (addPairOpt (ray i)) ⟨n, some (d, p)⟩
    = ⟨n + (l.filter used).length, some (d + ((l.filter used).map (D i)).sum,
      ⟨p.x + ((l.filter used).map fun j => (M i j).x).sum,
       p.y + ((l.filter used).map fun j => (M i j).y).sum,
       p.z + ((l.filter used).map fun j => (M i j).z).sum⟩)⟩ := by
  induction l generalizing n d p with
  | nil => simp
  | cons j l ih =>
    by_cases hu : used j
    · simp only [List.map_cons, List.foldl_cons, hu, if_true, List.filter_cons_of_pos]
      rw [show addPairOpt (ray i) ⟨n, some (d, p)⟩ (some (ray j)) = ⟨n + 1, some (d + D i j, p + M i j)⟩ by
        simp [addPairOpt, addPair, h j (by simp) hu]]
      rw [ih (fun k hk => h k (by simp [hk]))]
      simp only [List.length_cons, List.sum_cons, add_x, add_y, add_z]
      exact congrArg₂ PPAcc.mk (by ring) (congrArg some (Prod.ext (by simp only; ring)
        (by ext <;> simp only <;> ring)))
    · simp only [List.map_cons, List.foldl_cons, hu, Bool.false_eq_true, if_false]
      rw [show addPairOpt (ray i) ⟨n, some (d, p)⟩ none = ⟨n, some (d, p)⟩ from rfl]
      rw [ih (fun k hk => h k (by simp [hk])), List.filter_cons_of_neg hu]

theorem pairLoop_eq (used : ℕ → Bool) (ray : ℕ → Ray) (D : ℕ → ℕ → ℝ) (M : ℕ → ℕ → V3)
    (l : List ℕ) (hl : l.Pairwise (· < ·))
    (h : ∀ i ∈ l, ∀ j ∈ l, used i → used j → i < j →
      skewMidpoint (ray i) (ray j) = some (D i j, M i j)) (n : ℕ) (d : ℝ) (p : V3) :
    ∃ k : ℕ, (k : ℝ) = pairSum used (fun _ _ => 1) l ∧
      pairLoop (l.map fun j => if used j then some (ray j) else none) ⟨n, some (d, p)⟩
      = ⟨n + k, some (d + pairSum used D l, ⟨p.x + pairSum used (fun i j => (M i j).x) l,
          p.y + pairSum used (fun i j => (M i j).y) l,
          p.z + pairSum used (fun i j => (M i j).z) l⟩)⟩ := by
  induction l generalizing n d p with
  | nil => exact ⟨0, by simp [pairSum], by simp [pairLoop, pairSum]⟩
  | cons i l ih =>
    obtain ⟨hi, hl⟩ := List.pairwise_cons.1 hl
    have ih' := ih hl (fun a ha b hb => h a (by simp [ha]) b (by simp [hb]))
    by_cases hu : used i
    · simp only [List.map_cons, hu, if_true, pairLoop, pairSum]
      rw [inner_loop used ray D M i l fun j hj hj' => h i (by simp) j (by simp [hj]) hu hj' (hi j hj)]
      obtain ⟨k, hk, e⟩ := ih' (n + (l.filter used).length) (d + ((l.filter used).map (D i)).sum)
        ⟨p.x + ((l.filter used).map fun j => (M i j).x).sum,
         p.y + ((l.filter used).map fun j => (M i j).y).sum,
         p.z + ((l.filter used).map fun j => (M i j).z).sum⟩
      refine ⟨(l.filter used).length + k, ?_, ?_⟩
      · push_cast; rw [hk]; simp
      · rw [e]
        exact congrArg₂ PPAcc.mk (by ring) (congrArg some (Prod.ext (by simp only; ring)
          (by ext <;> simp only <;> ring)))
    · simp only [List.map_cons, hu, Bool.false_eq_true, if_false, pairLoop, pairSum, zero_add]
      exact ih' n d p

/-- Camera `cam`'s coordinate is a measured one. -/
def IsUsed (targets : List (ℝ × ℝ)) (cam : ℕ) : Prop :=
  ∃ t, targets[cam]? = some t ∧ t.1 ≠ coordUnused

/-- The used cameras, as a set of camera numbers. -/
noncomputable def usedCams (targets : List (ℝ × ℝ)) (numCams : ℕ) : Finset ℕ :=
  open Classical in (Finset.range numCams).filter (IsUsed targets)

/-- Every used camera has a calibration, and `ray_tracing` gives it the ray `ray cam`. -/
def RaysAre (targets : List (ℝ × ℝ)) (numCams : ℕ) (mm : MM) (cals : List Cam) (ray : ℕ → Ray) :
    Prop :=
  ∀ cam < numCams, ∀ t, targets[cam]? = some t → t.1 ≠ coordUnused →
    ∃ c, cals[cam]? = some c ∧ rayTracing t.1 t.2 c mm = some (ray cam)

theorem camRays_eq (targets : List (ℝ × ℝ)) (numCams : ℕ) (mm : MM) (cals : List Cam)
    (ray : ℕ → Ray) (hlen : numCams ≤ targets.length) (h : RaysAre targets numCams mm cals ray)
    (used : ℕ → Bool) (hu : ∀ c, used c = true ↔ IsUsed targets c) (l : List ℕ)
    (hl : ∀ c ∈ l, c < numCams) :
    camRays targets cals mm l = .ok (l.map fun j => if used j then some (ray j) else none) := by
  induction l with
  | nil => rfl
  | cons c l ih =>
    have hc := hl c (by simp)
    have ht : targets[c]? = some (targets[c]'(by omega)) := List.getElem?_eq_getElem _
    generalize targets[c]'(by omega) = t at ht
    have hr : camRay targets cals mm c = .ok (if used c then some (ray c) else none) := by
      simp only [camRay, pyGet, ht]
      by_cases he : t.1 = coordUnused
      · have : ¬ used c = true := by
          rw [hu]; rintro ⟨t', ht', hne⟩
          rw [ht] at ht'; cases ht'; exact hne he
        simp [he, this]
      · have hused : used c = true := (hu c).2 ⟨t, ht, he⟩
        obtain ⟨cl, h1, h2⟩ := h c hc t ht he
        simp [he, hused, h1, h2]
    simp only [camRays, hr, ih (fun a ha => hl a (by simp [ha])), List.map_cons]

theorem card_pairsOf (U : Finset ℕ) : (pairsOf U).card = 0 ↔ U.card < 2 := by
  rw [Finset.card_eq_zero]
  constructor
  · intro h
    by_contra hlt
    push Not at hlt
    obtain ⟨a, ha, b, hb, hne⟩ := Finset.one_lt_card.1 (by omega : 1 < U.card)
    rcases lt_or_gt_of_ne hne with hl | hl
    · exact Finset.notMem_empty _ (h ▸ (by simp [pairsOf, ha, hb, hl] : (a, b) ∈ pairsOf U))
    · exact Finset.notMem_empty _ (h ▸ (by simp [pairsOf, ha, hb, hl] : (b, a) ∈ pairsOf U))
  · intro h
    rw [Finset.eq_empty_iff_forall_notMem]
    rintro ⟨a, b⟩ hab
    simp only [pairsOf, Finset.mem_filter, Finset.mem_product] at hab
    have := Finset.one_lt_card.2 ⟨a, hab.1.1, b, hab.1.2, ne_of_lt hab.2⟩
    omega

/-- C31: with at least two used cameras whose rays are pairwise not parallel, `point_position` returns
the mean over all pairs of used cameras of the distance of their rays, and the mean of the midpoints of
their shortest connections. Nothing depends on unused cameras. -/
theorem C31_mean (targets : List (ℝ × ℝ)) (numCams : ℕ) (mm : MM) (cals : List Cam)
    (ray : ℕ → Ray) (hlen : numCams ≤ targets.length) (h : RaysAre targets numCams mm cals ray)
    (D : ℕ → ℕ → ℝ) (M : ℕ → ℕ → V3)
    (hpar : ∀ p ∈ pairsOf (usedCams targets numCams), NotParallel (ray p.1).2 (ray p.2).2)
    (hDM : ∀ p ∈ pairsOf (usedCams targets numCams),
      ShortestConnection (ray p.1).1 (ray p.1).2 (ray p.2).1 (ray p.2).2 (D p.1 p.2) (M p.1 p.2))
    (htwo : 2 ≤ (usedCams targets numCams).card) :
    let S := pairsOf (usedCams targets numCams)
    pointPosition targets numCams mm cals = .ok (some ((∑ p ∈ S, D p.1 p.2) / S.card,
      ⟨(∑ p ∈ S, (M p.1 p.2).x) / S.card, (∑ p ∈ S, (M p.1 p.2).y) / S.card,
       (∑ p ∈ S, (M p.1 p.2).z) / S.card⟩)) := by
  classical
  intro S
  set used : ℕ → Bool := fun c => decide (IsUsed targets c) with hused
  have hset : ((List.range numCams).filter used).toFinset = usedCams targets numCams := by
    ext c; simp [usedCams, hused]
  have hsort : (List.range numCams).Pairwise (· < ·) := List.pairwise_lt_range
  have hmem : ∀ i ∈ List.range numCams, used i → i ∈ usedCams targets numCams := by
    intro i hi hu; rw [← hset]; simp [hu]; simpa using hi
  obtain ⟨k, hk, e⟩ := pairLoop_eq used ray D M (List.range numCams) hsort (by
    intro i hi j hj hui huj hij
    have hp : (i, j) ∈ pairsOf (usedCams targets numCams) := by
      simp [pairsOf, hmem i hi hui, hmem j hj huj, hij]
    exact C30_unique _ _ _ _ (hpar _ hp) _ _ (hDM _ hp)) 0 0 0
  have hcard : k = S.card := by
    rw [pairSum_eq _ _ _ hsort, hset] at hk
    simp only [Finset.sum_const, nsmul_eq_mul, mul_one] at hk
    exact_mod_cast hk
  have hS0 : S.card ≠ 0 := by
    intro h0; have := (card_pairsOf _).1 h0; omega
  have hcr := camRays_eq targets numCams mm cals ray hlen h used (fun c => by simp [hused])
    (List.range numCams) (fun c hc => by simpa using hc)
  simp only [pointPosition, hcr, e, pairSum_eq _ _ _ hsort, hset, hcard, Nat.zero_add]
  rw [if_neg hS0]
  simp only [Option.map_some, zero_add, zero_x, zero_y, zero_z, smul, mul_one_div]
  rfl

/-- C31: with fewer than two used cameras the call raises ZeroDivisionError. -/
theorem C31_no_pair (targets : List (ℝ × ℝ)) (numCams : ℕ) (mm : MM) (cals : List Cam)
    (ray : ℕ → Ray) (hlen : numCams ≤ targets.length) (h : RaysAre targets numCams mm cals ray)
    (hfew : (usedCams targets numCams).card < 2) :
    pointPosition targets numCams mm cals = .error .zeroDivision := by
  classical
  set used : ℕ → Bool := fun c => decide (IsUsed targets c) with hused
  have hset : ((List.range numCams).filter used).toFinset = usedCams targets numCams := by
    ext c; simp [usedCams, hused]
  have hsort : (List.range numCams).Pairwise (· < ·) := List.pairwise_lt_range
  have hmem : ∀ i ∈ List.range numCams, used i → i ∈ usedCams targets numCams := by
    intro i hi hu; rw [← hset]; simp [hu]; simpa using hi
  have h0 := (card_pairsOf (usedCams targets numCams)).2 hfew
  have h0' := Finset.card_eq_zero.1 h0
  obtain ⟨k, hk, e⟩ := pairLoop_eq used ray (fun _ _ => 0) (fun _ _ => 0) (List.range numCams) hsort
    (by
      intro i hi j hj hui huj hij
      have hp : (i, j) ∈ pairsOf (usedCams targets numCams) := by
        simp [pairsOf, hmem i hi hui, hmem j hj huj, hij]
      rw [h0'] at hp; exact absurd hp (Finset.notMem_empty _)) 0 0 0
  have hcard : k = 0 := by
    rw [pairSum_eq _ _ _ hsort, hset, h0'] at hk
    simp at hk; exact hk
  have hcr := camRays_eq targets numCams mm cals ray hlen h used (fun c => by simp [hused])
    (List.range numCams) (fun c hc => by simpa using hc)
  simp only [pointPosition, hcr, e, hcard, Nat.zero_add, if_true]

/-- C31: when the rays of all used cameras (at least two, pairwise not parallel) go through one point,
`point_position` returns exactly that point with error 0. -/
theorem C31_exact (targets : List (ℝ × ℝ)) (numCams : ℕ) (mm : MM) (cals : List Cam)
    (ray : ℕ → Ray) (hlen : numCams ≤ targets.length) (h : RaysAre targets numCams mm cals ray)
    (P : V3)
    (hpar : ∀ p ∈ pairsOf (usedCams targets numCams), NotParallel (ray p.1).2 (ray p.2).2)
    (hP : ∀ c ∈ usedCams targets numCams, OnLine (ray c).1 (ray c).2 P)
    (htwo : 2 ≤ (usedCams targets numCams).card) :
    pointPosition targets numCams mm cals = .ok (some (0, P)) := by
  have hS0 : ((pairsOf (usedCams targets numCams)).card : ℝ) ≠ 0 := by
    intro h0; have := (card_pairsOf _).1 (by exact_mod_cast h0); omega
  have := C31_mean targets numCams mm cals ray hlen h (fun _ _ => 0) (fun _ _ => P) hpar (by
    rintro ⟨i, j⟩ hij
    have hij' := hij
    simp only [pairsOf, Finset.mem_filter, Finset.mem_product] at hij
    refine ⟨P, P, hP i hij.1.1, hP j hij.1.2, ?_, rfl, fun p q _ _ => norm_nonneg _⟩
    symm; rw [V3.norm_eq_zero]; ext <;> simp) htwo
  rw [this]
  simp only [Finset.sum_const, nsmul_eq_mul, mul_zero, zero_div, mul_div_assoc]
  congr 3
  ext <;> simp only <;> field_simp

/-! ### C60 -/

theorem rot_forth (omega phi kappa : ℝ) (v : V3) :
    let m := rotationMatrix omega phi kappa
    m.mulVec ⟨m.c0.dot v, m.c1.dot v, m.c2.dot v⟩ = v := by
  intro m
  have ho := Real.sin_sq_add_cos_sq omega
  have hp := Real.sin_sq_add_cos_sq phi
  have hk := Real.sin_sq_add_cos_sq kappa
  simp only [m, M3.c0, M3.c1, M3.c2, dot, rotationMatrix, M3.mulVec]
  generalize Real.sin omega = so at *
  generalize Real.cos omega = co at *
  generalize Real.sin phi = sp at *
  generalize Real.cos phi = cp at *
  generalize Real.sin kappa = sk at *
  generalize Real.cos kappa = ck at *
  have e1 : so ^ 2 = 1 - co ^ 2 := by linarith
  have e2 : sp ^ 2 = 1 - cp ^ 2 := by linarith
  have e3 : sk ^ 2 = 1 - ck ^ 2 := by linarith
  ext <;> simp only <;> (ring_nf; simp only [e1, e2, e3]; ring)

/-- The camera is a rotated pinhole in front of its glass plate, and `P` is in view: in front of the camera and in the glass' direction. -/
structure Sees (c : Cam) (P : V3) : Prop where
  rot : ∃ omega phi kappa, c.dm = rotationMatrix omega phi kappa
  cc : c.cc ≠ 0
  glass : c.glass ≠ 0
  front : c.cc * dot c.dm.c2 (P - c.pos) < 0
  toGlass : dot (P - c.pos) c.glass < 0

/-- All media have the same refractive index, as many layers as thicknesses. -/
structure OneIndex (mm : MM) : Prop where
  pos : 0 < mm.n1
  n2 : ∃ ns, mm.n2 = mm.n1 :: ns
  n3 : mm.n3 = mm.n1
  d : mm.d ≠ []
  lay : mm.d.length ≤ mm.nlay

theorem trace_projection {c : Cam} {mm : MM} {P : V3} (h : Sees c P) (hmm : OneIndex mm) :
    flatImageCoord P c emptyLUT mm = some (pinhole c.pos c.dm c.cc P) ∧
    ∃ X, rayTracing (pinhole c.pos c.dm c.cc P).1 (pinhole c.pos c.dm c.cc P).2 c mm
      = some (X, (P - c.pos).unit) ∧ OnLine X (P - c.pos).unit P := by
  obtain ⟨ns, hn2⟩ := hmm.n2
  obtain ⟨d, ds, hd⟩ := List.exists_cons_of_ne_nil hmm.d
  have hden : dot c.dm.c2 (P - c.pos) ≠ 0 := fun e => by
    have := h.front; rw [e, mul_zero] at this; exact lt_irrefl _ this
  refine ⟨C27_no_refraction c emptyLUT mm P mm.n1 ns hmm.lay hmm.d hmm.pos.ne' rfl hn2 hmm.n3
    (Or.inr ⟨rfl, h.toGlass.ne⟩) h.glass hden, ?_⟩
  obtain ⟨omega, phi, kappa, hdm⟩ := h.rot
  set v := P - c.pos with hv
  have hv0 : v ≠ 0 := fun e => hden (by rw [e]; simp [dot])
  have hvp := V3.norm_pos hv0
  have hgp := V3.norm_pos h.glass
  have hratio : 0 < -c.cc / dot c.dm.c2 v := by
    rcases lt_or_gt_of_ne hden with hl | hl
    · apply div_pos_of_neg_of_neg _ hl
      nlinarith [h.front]
    · apply div_pos _ hl
      nlinarith [h.front]
  have hs : 0 < v.norm * (-c.cc / dot c.dm.c2 v) := mul_pos hvp hratio
  have hdir : c.dm.mulVec ⟨(pinhole c.pos c.dm c.cc P).1, (pinhole c.pos c.dm c.cc P).2, -c.cc⟩
      = v.unit.smul (v.norm * (-c.cc / dot c.dm.c2 v)) := by
    have hf := rot_forth omega phi kappa v
    rw [← hdm] at hf
    have e : (⟨(pinhole c.pos c.dm c.cc P).1, (pinhole c.pos c.dm c.cc P).2, -c.cc⟩ : V3)
        = (⟨c.dm.c0.dot v, c.dm.c1.dot v, c.dm.c2.dot v⟩ : V3).smul (-c.cc / dot c.dm.c2 v) := by
      have hden' := hden
      simp only [pinhole, ← hv]
      simp only [dot, M3.c0, M3.c1, M3.c2] at hden' ⊢
      ext <;> simp only [smul_x, smul_y, smul_z] <;> field_simp
    rw [e, mulVec_smul, hf, unit_of_ne hv0]
    ext <;> simp only [smul_x, smul_y, smul_z] <;> field_simp
  have hneg : v.unit.dot c.glass.unit < 0 := by
    have := h.toGlass
    rw [unit_of_ne hv0, unit_of_ne h.glass]
    have e : (v.smul (1 / v.norm)).dot (c.glass.smul (1 / c.glass.norm))
        = v.dot c.glass * (1 / v.norm * (1 / c.glass.norm)) := by
      simp only [dot, smul_x, smul_y, smul_z]; ring
    rw [e]
    exact mul_neg_of_neg_of_pos this (by positivity)
  obtain ⟨X, e1, ⟨t, e2⟩, -⟩ := C26_straight _ _ omega phi kappa c.glass.norm c mm d mm.n1 ds ns
    c.glass.unit v.unit _ hd hn2 hdm hgp (V3.norm_unit h.glass)
    (by rw [unit_of_ne h.glass]; ext <;> simp only [smul_x, smul_y, smul_z] <;> field_simp)
    hs (V3.norm_unit hv0) hdir hneg hmm.pos rfl hmm.n3
  refine ⟨X, e1, v.norm - t, ?_⟩
  have hP : P = c.pos + v.unit.smul v.norm := by
    rw [unit_of_ne hv0, hv]
    ext <;> simp only [add_x, add_y, add_z, smul_x, smul_y, smul_z, sub_x, sub_y, sub_z] <;>
      (rw [mul_assoc, one_div, inv_mul_cancel₀ hvp.ne']; ring)
  rw [e2]
  conv_lhs => rw [hP]
  ext <;> simp <;> ring

theorem unit_notParallel {a b : V3} (ha : a ≠ 0) (hb : b ≠ 0) (h : NotParallel a b) :
    NotParallel a.unit b.unit := by
  have hap := V3.norm_pos ha
  have hbp := V3.norm_pos hb
  intro s t e
  rw [unit_of_ne ha, unit_of_ne hb] at e
  have := h (1 / a.norm * s) (1 / b.norm * t) (by
    have hx := congrArg V3.x e
    have hy := congrArg V3.y e
    have hz := congrArg V3.z e
    simp only [smul_x, smul_y, smul_z] at hx hy hz
    ext <;> simp only [smul_x, smul_y, smul_z] <;> linarith)
  constructor
  · have := this.1; field_simp at this; simpa using this
  · have := this.2; field_simp at this; simpa using this

/-- C60: take any point `P`, any number of cameras, and let every coordinate handed to
`point_position` be either `COORD_UNUSED` or the `flat_image_coord` of `P` in that camera. If at least two
are used, the media have one refractive index, the used cameras see `P`, and no two of them are on one
line with `P`, then `point_position` returns exactly `P`, with error 0. -/
theorem C60_triangulation_recovers (P : V3) (targets : List (ℝ × ℝ)) (numCams : ℕ) (mm : MM)
    (cals : List Cam) (hlen : numCams ≤ targets.length) (hmm : OneIndex mm)
    (hproj : ∀ cam < numCams, ∀ t, targets[cam]? = some t → t.1 ≠ coordUnused →
      ∃ c, cals[cam]? = some c ∧ Sees c P ∧ flatImageCoord P c emptyLUT mm = some t)
    (hnp : ∀ i j ci cj, i < j → i ∈ usedCams targets numCams → j ∈ usedCams targets numCams →
      cals[i]? = some ci → cals[j]? = some cj → NotParallel (P - ci.pos) (P - cj.pos))
    (htwo : 2 ≤ (usedCams targets numCams).card) :
    pointPosition targets numCams mm cals = .ok (some (0, P)) := by
  classical
  have key : ∀ cam, ∃ r : Ray, cam ∈ usedCams targets numCams →
      ∃ t c, targets[cam]? = some t ∧ cals[cam]? = some c ∧ rayTracing t.1 t.2 c mm = some r ∧
        OnLine r.1 r.2 P ∧ r.2 = (P - c.pos).unit ∧ P - c.pos ≠ 0 := by
    intro cam
    by_cases hu : cam ∈ usedCams targets numCams
    · have hu' := hu
      simp only [usedCams, Finset.mem_filter, Finset.mem_range] at hu'
      obtain ⟨hlt, t, ht, hne⟩ := hu'
      obtain ⟨c, hc, hsee, hf⟩ := hproj cam hlt t ht hne
      obtain ⟨h1, X, h2, h3⟩ := trace_projection hsee hmm
      rw [hf] at h1
      rw [← Option.some.inj h1] at h2
      refine ⟨_, fun _ => ⟨t, c, ht, hc, h2, h3, rfl, ?_⟩⟩
      intro e
      have := hsee.front
      rw [e] at this
      simp [dot] at this
    · exact ⟨(0, 0), fun h => absurd h hu⟩
  choose ray hray using key
  refine C31_exact targets numCams mm cals ray hlen ?_ P ?_ ?_ htwo
  · intro cam hlt t ht hne
    obtain ⟨t', c, ht', hc, hr, -⟩ := hray cam (by
      simp only [usedCams, Finset.mem_filter, Finset.mem_range]; exact ⟨hlt, t, ht, hne⟩)
    rw [ht] at ht'; cases ht'
    exact ⟨c, hc, hr⟩
  · rintro ⟨i, j⟩ hij
    simp only [pairsOf, Finset.mem_filter, Finset.mem_product] at hij
    obtain ⟨_, ci, _, hci, _, _, ei, ni⟩ := hray i hij.1.1
    obtain ⟨_, cj, _, hcj, _, _, ej, nj⟩ := hray j hij.1.2
    rw [ei, ej]
    exact unit_notParallel ni nj (hnp i j ci cj hij.2 hij.1.1 hij.1.2 hci hcj)
  · intro cam hu
    obtain ⟨_, c, _, _, _, h, _⟩ := hray cam hu
    exact h

/-- Three cameras, the second one without a measurement. -/
noncomputable def exCam (x : ℝ) : Cam :=
  ⟨⟨x, 0, 10⟩, rotationMatrix 0 0 0, 1, 0, 0, ⟨0, 0, 0, 0, 0, 1, 0⟩, ⟨0, 0, 1⟩⟩

theorem exCam_sees (x a : ℝ) : Sees (exCam x) ⟨a, 0, 0⟩ where
  rot := ⟨0, 0, 0, rfl⟩
  cc := by simp [exCam]
  glass := fun e => by have := congrArg V3.z e; simp [exCam] at this
  front := by norm_num [exCam, dot, M3.c2, rotationMatrix]
  toGlass := by norm_num [exCam, dot]

theorem exMM : OneIndex ⟨1, 1, [1], 1, [2]⟩ := ⟨by norm_num, ⟨[], rfl⟩, rfl, by simp, by simp⟩

theorem exCam_proj (x a : ℝ) : flatImageCoord ⟨a, 0, 0⟩ (exCam x) emptyLUT ⟨1, 1, [1], 1, [2]⟩
    = some ((a - x) / 10, 0) := by
  rw [(trace_projection (exCam_sees x a) exMM).1]
  simp [pinhole, exCam, rotationMatrix]
  ring

theorem ex_used : usedCams [(1 / 2, 0), (coordUnused, 0), (-1 / 2, 0)] 3 = {0, 2} := by
  classical
  ext c
  simp only [usedCams, Finset.mem_filter, Finset.mem_range, IsUsed, Finset.mem_insert,
    Finset.mem_singleton]
  constructor
  · rintro ⟨hlt, t, ht, hne⟩
    match c, hlt with
    | 0, _ => simp
    | 1, _ => simp at ht; subst ht; exact absurd rfl hne
    | 2, _ => simp
  · rintro (rfl | rfl)
    · exact ⟨by norm_num, _, rfl, by norm_num [coordUnused]⟩
    · exact ⟨by norm_num, _, rfl, by norm_num [coordUnused]⟩

theorem ex_position : pointPosition [(1 / 2, 0), (coordUnused, 0), (-1 / 2, 0)] 3
    ⟨1, 1, [1], 1, [2]⟩ [exCam 0, exCam 0, exCam 10] = .ok (some (0, ⟨5, 0, 0⟩)) := by
  apply C60_triangulation_recovers ⟨5, 0, 0⟩ _ _ _ _ (by simp) exMM
  · intro cam hlt t ht hne
    match cam, hlt with
    | 0, _ =>
      simp at ht; subst ht
      exact ⟨exCam 0, rfl, exCam_sees _ _, by rw [exCam_proj]; norm_num⟩
    | 1, _ => simp at ht; subst ht; exact absurd rfl hne
    | 2, _ =>
      simp at ht; subst ht
      exact ⟨exCam 10, rfl, exCam_sees _ _, by rw [exCam_proj]; norm_num⟩
  · intro i j ci cj hij hi hj hci hcj
    rw [ex_used] at hi hj
    simp only [Finset.mem_insert, Finset.mem_singleton] at hi hj
    rcases hi with rfl | rfl <;> rcases hj with rfl | rfl <;> try omega
    simp at hci hcj
    subst hci hcj
    rw [notParallel_iff]
    norm_num [exCam, dot, cross]
  · rw [ex_used]; rfl

end Verif.Geo
