/-
C32: the dumbbell measure. C36: batch triangulation.
-/
import Verif.Props.Orientation

namespace Verif.Geo
open V3 Spec

/-! ### C32 -/

/-- Specification: relative error of a length `x` against the nominal length `L`: one minus the ratio of
the smaller to the larger. -/
noncomputable def Spec.relErr (L x : ℝ) : ℝ := 1 - min x L / max x L

theorem lenErr_eq {L : ℝ} (p q : V3) : lenErr L p q = relErr L (p - q).norm := by
  simp only [lenErr, relErr]
  split_ifs with h
  · rw [min_eq_right (le_of_lt h), max_eq_left (le_of_lt h)]
  · rw [min_eq_left (not_lt.1 h), max_eq_right (not_lt.1 h)]

theorem relErr_nonneg {L x : ℝ} (hL : 0 < L) : 0 ≤ relErr L x := by
  have hm : 0 < max x L := lt_of_lt_of_le hL (le_max_right _ _)
  have : min x L / max x L ≤ 1 := by rw [div_le_one hm]; exact min_le_max
  simp only [relErr]; linarith

theorem relErr_eq_zero {L x : ℝ} (hL : 0 < L) : relErr L x = 0 ↔ x = L := by
  have hm : 0 < max x L := lt_of_lt_of_le hL (le_max_right _ _)
  simp only [relErr]
  rw [sub_eq_zero, eq_comm, div_eq_one_iff_eq hm.ne']
  constructor
  · intro h
    rcases le_total x L with hl | hl
    · rw [min_eq_left hl, max_eq_right hl] at h; exact h
    · rw [min_eq_right hl, max_eq_left hl] at h; exact h.symm
  · rintro rfl; simp

theorem dumbbellLoop_eq (L : ℝ) : ∀ (n : ℕ) (d : ℕ → ℝ) (p : ℕ → V3) (s : ℝ × ℝ),
    dumbbellLoop L ((List.range n).map fun i => (d i, p i)) s
      = (s.1 + ∑ i ∈ Finset.range n, d i,
         s.2 + ∑ k ∈ Finset.range (n / 2), relErr L (p (2 * k) - p (2 * k + 1)).norm)
  | 0, d, p, s => by simp [dumbbellLoop]
  | 1, d, p, s => by simp [dumbbellLoop]
  | n + 2, d, p, s => by
    rw [List.range_succ_eq_map, List.range_succ_eq_map]
    simp only [List.map_cons, List.map_map, dumbbellLoop]
    have := dumbbellLoop_eq L n (fun i => d (i + 2)) (fun i => p (i + 2))
      (s.1 + d 0 + d 1, s.2 + lenErr L (p 0) (p 1))
    have e : ((fun i => (d i, p i)) ∘ Nat.succ) ∘ Nat.succ = fun i => (d (i + 2), p (i + 2)) := by
      funext i; rfl
    rw [show (List.map ((fun i => (d i, p i)) ∘ Nat.succ ∘ Nat.succ) (List.range n))
      = (List.range n).map fun i => (d (i + 2), p (i + 2)) from rfl]
    simp only [Nat.succ_eq_add_one, zero_add]
    rw [this, Finset.sum_range_succ', Finset.sum_range_succ',
      show (n + 2) / 2 = n / 2 + 1 by omega, Finset.sum_range_succ', lenErr_eq]
    refine Prod.ext ?_ ?_
    · simp only [zero_add]; ring
    · simp only [mul_zero, zero_add, mul_add, mul_one]
      have : ∀ k, 2 * k + 1 + 2 = 2 * k + 2 + 1 := by intro k; ring
      simp only [this]
      ring

theorem allSome_map_some {α : Type} (l : List α) : allSome (l.map some) = some l := by
  induction l with
  | nil => rfl
  | cons a l ih => simp [allSome, ih]

theorem allPositions_eq (numCams : ℕ) (mm : MM) (cals : List Cam) :
    ∀ (targets : List (List (ℝ × ℝ))) (r : ℕ → Option (ℝ × V3)),
    (∀ i t, targets[i]? = some t → pointPosition t numCams mm cals = .ok (r i)) →
    allPositions targets numCams mm cals = .ok ((List.range targets.length).map r)
  | [], r, _ => by simp [allPositions]
  | t :: ts, r, h => by
    have h0 := h 0 t rfl
    have ih := allPositions_eq numCams mm cals ts (fun i => r (i + 1)) (fun i t ht => h (i + 1) t ht)
    simp only [allPositions, h0, ih, List.length_cons]
    rw [List.range_succ_eq_map]
    simp only [List.map_cons, List.map_map]
    rfl

/-- C32, the measure itself: when `point_position` gives every point `i` the error `d i` and the position
`p i`, the result is the mean of the `d i` plus the weight times the mean relative length error of the
dumbbells, i.e. of the pairs of points `(0, 1), (2, 3), …`. -/
theorem C32_formula (targets : List (List (ℝ × ℝ))) (numCams : ℕ) (mm : MM) (cals : List Cam)
    (L w : ℝ) (d : ℕ → ℝ) (p : ℕ → V3) (hne : targets ≠ [])
    (h : ∀ i t, targets[i]? = some t →
      pointPosition t numCams mm cals = .ok (some (d i, p i))) :
    weightedDumbbell targets numCams mm cals L w = .ok (some (
      (∑ i ∈ Finset.range targets.length, d i) / targets.length
      + w * ((∑ k ∈ Finset.range (targets.length / 2), relErr L (p (2 * k) - p (2 * k + 1)).norm)
          / (targets.length / 2)))) := by
  have hl : targets.length ≠ 0 := by simpa using hne
  have e : (List.range targets.length).map (fun i => some (d i, p i))
      = ((List.range targets.length).map fun i => (d i, p i)).map some := by
    rw [List.map_map]; rfl
  simp only [weightedDumbbell, allPositions_eq numCams mm cals targets _ h, if_neg hl, e,
    allSome_map_some, Option.map_some, dumbbellLoop_eq, zero_add]
  congr 3
  have : (0.5 : ℝ) * targets.length = targets.length / 2 := by norm_num; ring
  rw [this, mul_div_assoc]

theorem addPair_nonneg {a : PPAcc} {r q : Ray} (h : ∀ t, a.tot = some t → 0 ≤ t.1) :
    ∀ t, (addPair a r q).tot = some t → 0 ≤ t.1 := by
  intro t ht
  simp only [addPair, Option.bind_eq_bind, Option.bind_eq_some_iff] at ht
  obtain ⟨t0, h0, m, hm, ht⟩ := ht
  have hm1 : 0 ≤ m.1 := by
    simp only [skewMidpoint] at hm
    split_ifs at hm
    cases hm
    exact norm_nonneg _
  have := h t0 h0
  cases ht
  simp only
  linarith

theorem fold_nonneg (r : Ray) : ∀ (l : List (Option Ray)) (a : PPAcc),
    (∀ t, a.tot = some t → 0 ≤ t.1) → ∀ t, (l.foldl (addPairOpt r) a).tot = some t → 0 ≤ t.1
  | [], _, h => h
  | none :: l, _, h => fold_nonneg r l _ h
  | some q :: l, a, h => fold_nonneg r l (addPair a r q) (addPair_nonneg h)

theorem pairLoop_nonneg : ∀ (l : List (Option Ray)) (a : PPAcc),
    (∀ t, a.tot = some t → 0 ≤ t.1) → ∀ t, (pairLoop l a).tot = some t → 0 ≤ t.1
  | [], _, h => h
  | none :: l, a, h => pairLoop_nonneg l a h
  | some r :: l, a, h => pairLoop_nonneg l _ (fold_nonneg r l a h)

/-- The error returned by `point_position` is never negative. -/
theorem pointPosition_nonneg {targets : List (ℝ × ℝ)} {numCams : ℕ} {mm : MM} {cals : List Cam}
    {d : ℝ} {p : V3} (h : pointPosition targets numCams mm cals = .ok (some (d, p))) : 0 ≤ d := by
  simp only [pointPosition] at h
  split at h
  · cases h
  · split_ifs at h with h0
    rw [Except.ok.injEq, Option.map_eq_some_iff] at h
    obtain ⟨t, ht, he⟩ := h
    have := pairLoop_nonneg _ _ (by simp) t ht
    rw [Prod.mk.injEq] at he
    rw [← he.1]
    positivity

theorem allPositions_inv (numCams : ℕ) (mm : MM) (cals : List Cam) :
    ∀ (targets : List (List (ℝ × ℝ))) (rs : List (Option (ℝ × V3))) (ps : List (ℝ × V3)),
    allPositions targets numCams mm cals = .ok rs → allSome rs = some ps →
    ps.length = targets.length ∧ ∀ (i : ℕ) (t : List (ℝ × ℝ)), targets[i]? = some t → ∃ q, ps[i]? = some q ∧
      pointPosition t numCams mm cals = .ok (some q)
  | [], rs, ps, h, h' => by
    simp only [allPositions, Except.ok.injEq] at h
    subst h
    simp [allSome] at h'
    subst h'
    simp
  | t :: ts, rs, ps, h, h' => by
    simp only [allPositions] at h
    split at h
    · cases h
    · rename_i r hr
      split at h
      · cases h
      · rename_i rs' hrs
        rw [Except.ok.injEq] at h
        subst h
        cases r with
        | none => simp [allSome] at h'
        | some q =>
          simp only [allSome, Option.map_eq_some_iff] at h'
          obtain ⟨ps', hps, rfl⟩ := h'
          obtain ⟨e1, e2⟩ := allPositions_inv numCams mm cals ts rs' ps' hrs hps
          refine ⟨by simp [e1], ?_⟩
          intro i t' ht'
          cases i with
          | zero => simp at ht'; subst ht'; exact ⟨q, rfl, hr⟩
          | succ i => exact e2 i t' (by simpa using ht')

/-- Every numeric result of the measure comes from numeric results of all its points. -/
theorem weightedDumbbell_inv {targets : List (List (ℝ × ℝ))} {numCams : ℕ} {mm : MM}
    {cals : List Cam} {L w m : ℝ}
    (h : weightedDumbbell targets numCams mm cals L w = .ok (some m)) :
    targets ≠ [] ∧ ∃ (d : ℕ → ℝ) (p : ℕ → V3), ∀ i t, targets[i]? = some t →
      pointPosition t numCams mm cals = .ok (some (d i, p i)) := by
  simp only [weightedDumbbell] at h
  split at h
  · cases h
  · rename_i rs hrs
    split_ifs at h with h0
    rw [Except.ok.injEq, Option.map_eq_some_iff] at h
    obtain ⟨ps, hps, -⟩ := h
    refine ⟨by intro e; simp [e] at h0, fun i => (ps[i]?.getD (0, 0)).1,
      fun i => (ps[i]?.getD (0, 0)).2, ?_⟩
    intro i t ht
    obtain ⟨q, h1, h2⟩ := (allPositions_inv numCams mm cals targets rs ps hrs hps).2 i t ht
    simp only [h1, Option.getD_some]
    exact h2

/-- C32: the measure is never negative, for every set of targets and calibrations, every positive
dumbbell length and every non-negative weight. -/
theorem C32_nonneg (targets : List (List (ℝ × ℝ))) (numCams : ℕ) (mm : MM) (cals : List Cam)
    (L w m : ℝ) (hL : 0 < L) (hw : 0 ≤ w)
    (h : weightedDumbbell targets numCams mm cals L w = .ok (some m)) : 0 ≤ m := by
  obtain ⟨hne, d, p, hp⟩ := weightedDumbbell_inv h
  rw [C32_formula targets numCams mm cals L w d p hne hp] at h
  simp only [Except.ok.injEq, Option.some.injEq] at h
  rw [← h]
  have h1 : 0 ≤ ∑ i ∈ Finset.range targets.length, d i := by
    apply Finset.sum_nonneg
    intro i hi
    have hi' : i < targets.length := by simpa using hi
    exact pointPosition_nonneg (hp i targets[i] (List.getElem?_eq_getElem hi'))
  have h2 : 0 ≤ ∑ k ∈ Finset.range (targets.length / 2),
      relErr L (p (2 * k) - p (2 * k + 1)).norm :=
    Finset.sum_nonneg fun k _ => relErr_nonneg hL
  positivity

/-- C32: with a positive weight the measure is 0 exactly when every point's rays meet (error 0) and
every dumbbell has the nominal length. -/
theorem C32_zero_iff (targets : List (List (ℝ × ℝ))) (numCams : ℕ) (mm : MM) (cals : List Cam)
    (L w : ℝ) (hL : 0 < L) (hw : 0 < w) (d : ℕ → ℝ) (p : ℕ → V3) (hne : targets ≠ [])
    (h : ∀ i t, targets[i]? = some t →
      pointPosition t numCams mm cals = .ok (some (d i, p i))) :
    weightedDumbbell targets numCams mm cals L w = .ok (some 0) ↔
      (∀ i < targets.length, d i = 0) ∧
      (∀ k, 2 * k + 1 < targets.length → (p (2 * k) - p (2 * k + 1)).norm = L) := by
  rw [C32_formula targets numCams mm cals L w d p hne h]
  simp only [Except.ok.injEq, Option.some.injEq]
  have hl : (0 : ℝ) < targets.length := by
    have : 0 < targets.length := List.length_pos_of_ne_nil hne
    exact_mod_cast this
  have hd0 : ∀ i ∈ Finset.range targets.length, 0 ≤ d i := by
    intro i hi
    have hi' : i < targets.length := by simpa using hi
    exact pointPosition_nonneg (h i targets[i] (List.getElem?_eq_getElem hi'))
  have hr0 : ∀ k ∈ Finset.range (targets.length / 2),
      0 ≤ relErr L (p (2 * k) - p (2 * k + 1)).norm := fun k _ => relErr_nonneg hL
  have h1 := Finset.sum_nonneg hd0
  have h2 := Finset.sum_nonneg hr0
  set A := ∑ i ∈ Finset.range targets.length, d i with hA
  set B := ∑ k ∈ Finset.range (targets.length / 2), relErr L (p (2 * k) - p (2 * k + 1)).norm with hB
  have e : A / targets.length + w * (B / (targets.length / 2)) = 0 ↔ A = 0 ∧ B = 0 := by
    constructor
    · intro he
      have a1 : 0 ≤ A / (targets.length : ℝ) := by positivity
      have a2 : 0 ≤ w * (B / ((targets.length : ℝ) / 2)) := by positivity
      have b1 : A / (targets.length : ℝ) = 0 := by linarith
      have b2 : w * (B / ((targets.length : ℝ) / 2)) = 0 := by linarith
      constructor
      · rcases div_eq_zero_iff.1 b1 with h | h
        · exact h
        · exact absurd h hl.ne'
      · rcases mul_eq_zero.1 b2 with h | h
        · exact absurd h hw.ne'
        · rcases div_eq_zero_iff.1 h with h | h
          · exact h
          · exact absurd h (by positivity)
    · rintro ⟨e1, e2⟩; rw [e1, e2]; simp
  rw [e, hA, hB, Finset.sum_eq_zero_iff_of_nonneg hd0, Finset.sum_eq_zero_iff_of_nonneg hr0]
  simp only [Finset.mem_range, relErr_eq_zero hL]
  constructor
  · rintro ⟨a, b⟩; exact ⟨a, fun k hk => b k (by omega)⟩
  · rintro ⟨a, b⟩; exact ⟨a, fun k hk => b k (by omega)⟩

/-- C32: the measure does not decrease when the weight grows. -/
theorem C32_weight_mono (targets : List (List (ℝ × ℝ))) (numCams : ℕ) (mm : MM) (cals : List Cam)
    (L w w' m m' : ℝ) (hL : 0 < L) (hw : w ≤ w')
    (h : weightedDumbbell targets numCams mm cals L w = .ok (some m))
    (h' : weightedDumbbell targets numCams mm cals L w' = .ok (some m')) : m ≤ m' := by
  obtain ⟨hne, d, p, hp⟩ := weightedDumbbell_inv h
  rw [C32_formula targets numCams mm cals L _ d p hne hp] at h h'
  simp only [Except.ok.injEq, Option.some.injEq] at h h'
  rw [← h, ← h']
  have h2 : 0 ≤ (∑ k ∈ Finset.range (targets.length / 2),
      relErr L (p (2 * k) - p (2 * k + 1)).norm) / ((targets.length : ℝ) / 2) :=
    div_nonneg (Finset.sum_nonneg fun k _ => relErr_nonneg hL) (by positivity)
  nlinarith

/-- C32: without points the call raises. -/
theorem C32_no_points (numCams : ℕ) (mm : MM) (cals : List Cam) (L w : ℝ) :
    weightedDumbbell [] numCams mm cals L w = .error .zeroDivision := by
  simp [weightedDumbbell, allPositions]

/-- A dumbbell of length 5 seen at length 0: the measure is the full weight. -/
example : weightedDumbbell [[(1 / 2, 0), (coordUnused, 0), (-1 / 2, 0)],
    [(1 / 2, 0), (coordUnused, 0), (-1 / 2, 0)]] 3 ⟨1, 1, [1], 1, [2]⟩
    [exCam 0, exCam 0, exCam 10] 5 7 = .ok (some 7) := by
  rw [C32_formula _ _ _ _ _ _ (fun _ => 0) (fun _ => ⟨5, 0, 0⟩) (by simp)]
  · have : ((⟨5, 0, 0⟩ : V3) - ⟨5, 0, 0⟩).norm = 0 := by
      rw [V3.norm_eq_zero]; ext <;> simp
    simp [this, relErr]
  · intro i t ht
    match i with
    | 0 => simp at ht; subst ht; simpa using ex_position
    | 1 => simp at ht; subst ht; simpa using ex_position
    | n + 2 => simp at ht

/-! ### C36 -/

theorem multiLoop_eq (numCams : ℕ) (mm : MM) (cals : List Cam) :
    ∀ (ts : List (List (ℝ × ℝ))) (r : ℕ → Option (ℝ × V3)) (b : Batch) (rcm : List (Option ℝ)),
    (∀ i t, ts[i]? = some t → pointPosition t numCams mm cals = .ok (r i)) →
    multiLoop numCams mm cals ts b rcm = .ok
      (if ts = [] then b else .single ((r (ts.length - 1)).map Prod.snd),
       rcm ++ (List.range ts.length).map fun i => (r i).map Prod.fst)
  | [], r, b, rcm, _ => by simp [multiLoop]
  | t :: ts, r, b, rcm, h => by
    have h0 := h 0 t rfl
    have ih := multiLoop_eq numCams mm cals ts (fun i => r (i + 1)) (.single ((r 0).map Prod.snd))
      (rcm ++ [(r 0).map Prod.fst]) (fun i t ht => h (i + 1) t ht)
    simp only [multiLoop, h0, ih]
    congr 2
    · cases ts with
      | nil => simp
      | cons t' ts => simp
    · rw [List.length_cons, List.range_succ_eq_map]
      simp [List.map_map, Function.comp_def]

/-- C36, what the code does: the returned errors are those of `point_position` point by point, but the
returned "positions" are the position of the last point only (of shape (3,)). -/
theorem C36_last_position_partial (targets : List (List (ℝ × ℝ))) (numCams : ℕ) (mm : MM)
    (cals : List Cam) (r : ℕ → Option (ℝ × V3)) (hne : targets ≠ [])
    (h : ∀ i t, targets[i]? = some t → pointPosition t numCams mm cals = .ok (r i)) :
    multiCamPointPositions targets numCams mm cals = .ok
      (.single ((r (targets.length - 1)).map Prod.snd),
       (List.range targets.length).map fun i => (r i).map Prod.fst) := by
  rw [multiCamPointPositions, multiLoop_eq numCams mm cals targets r _ _ h]
  simp [hne]

/-- C36 is false: on every non-empty input the call either raises or does not return an array with one
position per point. -/
theorem C36_refuted (targets : List (List (ℝ × ℝ))) (numCams : ℕ) (mm : MM) (cals : List Cam)
    (hne : targets ≠ []) (rows : List (Option V3)) (rcm : List (Option ℝ)) :
    multiCamPointPositions targets numCams mm cals ≠ .ok (.rows rows, rcm) := by
  have key : ∀ (ts : List (List (ℝ × ℝ))) (b : Batch) (acc : List (Option ℝ)),
      (∃ p, b = .single p) → multiLoop numCams mm cals ts b acc ≠ .ok (.rows rows, rcm) := by
    intro ts
    induction ts with
    | nil =>
      rintro b acc ⟨p, rfl⟩ h
      simp [multiLoop] at h
    | cons t ts ih =>
      intro b acc _ h
      simp only [multiLoop] at h
      split at h
      · cases h
      · exact ih _ _ ⟨_, rfl⟩ h
  obtain ⟨t, ts, rfl⟩ := List.exists_cons_of_ne_nil hne
  simp only [multiCamPointPositions, multiLoop]
  split
  · simp
  · exact key _ _ _ ⟨_, rfl⟩

/-- C36 for a single camera holds: one position per point, the one `epi_mm_2D` gives for the point's
coordinates, with error 0. -/
theorem C36_single_camera (targets : List (List (ℝ × ℝ))) (mm : MM) (cals : List Cam) (v : VPar)
    (ps : List V3) (rcm : List ℝ)
    (h : singleCamPointPositions targets mm cals v = .ok (ps, rcm)) :
    ps.length = targets.length ∧ rcm = List.replicate targets.length 0 ∧
    ∀ (i : ℕ) (t : List (ℝ × ℝ)), targets[i]? = some t → ∃ (xy : ℝ × ℝ) (c : Cam) (p : V3), t[0]? = some xy ∧ cals[0]? = some c ∧
      ps[i]? = some p ∧ epiMM2D xy.1 xy.2 c mm v = some p := by
  induction targets generalizing ps rcm with
  | nil =>
    simp only [singleCamPointPositions, Except.ok.injEq, Prod.mk.injEq] at h
    obtain ⟨rfl, rfl⟩ := h
    simp
  | cons t ts ih =>
    simp only [singleCamPointPositions] at h
    split at h
    · rename_i xy c hxy hc
      split at h
      · cases h
      · rename_i p hp
        split at h
        · cases h
        · rename_i ps' rc hps
          simp only [Except.ok.injEq, Prod.mk.injEq] at h
          obtain ⟨rfl, rfl⟩ := h
          obtain ⟨a, b, c'⟩ := ih ps' rc hps
          refine ⟨by simp [a], by simp [b, List.replicate_succ], ?_⟩
          intro i t' ht'
          cases i with
          | zero =>
            simp at ht'; subst ht'
            refine ⟨xy, c, p, ?_, ?_, rfl, hp⟩
            · simp only [pyGet] at hxy; split at hxy <;> simp_all
            · simp only [pyGet] at hc; split at hc <;> simp_all
          | succ i => exact c' i t' (by simpa using ht')
    · cases h

/-- Two points, of which only the last one's position comes back. -/
example : multiCamPointPositions [[(1 / 2, 0), (coordUnused, 0), (-1 / 2, 0)],
    [(1 / 2, 0), (coordUnused, 0), (-1 / 2, 0)]] 3 ⟨1, 1, [1], 1, [2]⟩
    [exCam 0, exCam 0, exCam 10] = .ok (.single (some ⟨5, 0, 0⟩), [some 0, some 0]) := by
  rw [C36_last_position_partial _ _ _ _ (fun _ => some (0, ⟨5, 0, 0⟩)) (by simp)]
  · simp [List.range_succ]
  · intro i t ht
    match i with
    | 0 => simp at ht; subst ht; simpa using ex_position
    | 1 => simp at ht; subst ht; simpa using ex_position
    | n + 2 => simp at ht

end Verif.Geo
