/-
C37, C38: matching detections to reference points (sortgrid.py).
-/
import Verif.Model.SortGrid
import Verif.Spec.SortGrid

namespace Verif.Geo
open Spec

/-- Positions of the detections. -/
def xys (pix : List Det) : List (ℝ × ℝ) := pix.map fun t => (t.x, t.y)

/-! ### C37 -/

theorem inWindow_iff (x y eps : ℝ) (t : Det) :
    ((y - eps < t.y ∧ t.y < y + eps) ∧ (x - eps < t.x ∧ t.x < x + eps)) ↔ InWindow eps (x, y) (t.x, t.y) := by
  simp only [InWindow, abs_lt]
  constructor
  · rintro ⟨⟨h1, h2⟩, h3, h4⟩
    exact ⟨⟨by linarith, by linarith⟩, by linarith, by linarith⟩
  · rintro ⟨⟨h1, h2⟩, h3, h4⟩
    exact ⟨⟨by linarith, by linarith⟩, by linarith, by linarith⟩

theorem planeDist_lt {eps : ℝ} {c p : ℝ × ℝ} (heps : eps ≤ 10 ^ 19) (h : InWindow eps c p) :
    planeDist c p < 10 ^ 20 := by
  obtain ⟨h1, h2⟩ := h
  rw [abs_lt] at h1 h2
  rw [planeDist, Real.sqrt_lt' (by norm_num)]
  have e1 : (c.1 - p.1) ^ 2 < (10 ^ 19) ^ 2 := by nlinarith
  have e2 : (c.2 - p.2) ^ 2 < (10 ^ 19) ^ 2 := by nlinarith
  have : (2 : ℝ) * (10 ^ 19) ^ 2 ≤ (10 ^ 20) ^ 2 := by norm_num
  linarith

/-- What `nearestLoop` has found after reading `done` detections. -/
def Found (eps : ℝ) (c : ℝ × ℝ) (ps : List (ℝ × ℝ)) (b : ℤ × ℝ) : Prop :=
  (b = (-999, 10 ^ 20) ∧ ∀ p ∈ ps, ¬ InWindow eps c p) ∨
  ∃ k : ℕ, b.1 = k ∧ IsNearest eps c ps k ∧ ∃ p, ps[k]? = some p ∧ b.2 = planeDist c p

theorem nearestStep_found {x y eps : ℝ} (heps : eps ≤ 10 ^ 19) {done : List Det} {t : Det} {b : ℤ × ℝ}
    (h : Found eps (x, y) (xys done) b) :
    Found eps (x, y) (xys (done ++ [t])) (nearestStep x y eps done.length t b) := by
  have hx : xys (done ++ [t]) = xys done ++ [(t.x, t.y)] := by simp [xys]
  have hl : (xys done).length = done.length := by simp [xys]
  have hlast : (xys done ++ [(t.x, t.y)])[done.length]? = some (t.x, t.y) := by simp [← hl]
  have hold : ∀ (k : ℕ) (p : ℝ × ℝ), (xys done)[k]? = some p → (xys done ++ [(t.x, t.y)])[k]? = some p := by
    intro k p hk
    rw [List.getElem?_append_left (List.getElem?_eq_some_iff.1 hk).1]; exact hk
  have hnew : ∀ (k : ℕ) (p : ℝ × ℝ), (xys done ++ [(t.x, t.y)])[k]? = some p →
      ((xys done)[k]? = some p ∧ k < done.length) ∨ (k = done.length ∧ p = (t.x, t.y)) := by
    intro k p hk
    rcases Nat.lt_trichotomy k done.length with h | h | h
    · left; exact ⟨by rw [← hk, List.getElem?_append_left (by omega)], h⟩
    · right
      subst h
      rw [hlast] at hk
      exact ⟨rfl, (Option.some.inj hk).symm⟩
    · rw [List.getElem?_eq_none (by simp [hl]; omega)] at hk
      simp at hk
  rw [hx]
  unfold nearestStep
  by_cases hw : (y - eps < t.y ∧ t.y < y + eps) ∧ (x - eps < t.x ∧ t.x < x + eps)
  · rw [if_pos hw]
    have hwin := (inWindow_iff x y eps t).1 hw
    have hd : Real.sqrt ((x - t.x) ^ 2 + (y - t.y) ^ 2) = planeDist (x, y) (t.x, t.y) := rfl
    rw [hd]
    by_cases hlt : planeDist (x, y) (t.x, t.y) < b.2
    · rw [if_pos hlt]
      refine Or.inr ⟨done.length, rfl, ⟨_, hlast, hwin, ?_⟩, _, hlast, rfl⟩
      intro k' p' hk' hp'
      rcases hnew k' p' hk' with ⟨ho, hlt'⟩ | ⟨rfl, rfl⟩
      · rcases h with ⟨-, hno⟩ | ⟨k, -, ⟨q, hq, _, hmin⟩, q', hq', hb⟩
        · exact absurd hp' (hno p' (List.mem_of_getElem? ho))
        · rw [hq] at hq'
          obtain rfl := Option.some.inj hq'
          have := (hmin k' p' ho hp').1
          rw [hb] at hlt
          exact ⟨(hlt.trans_le this).le, fun _ => hlt.trans_le this⟩
      · exact ⟨le_refl _, fun h => absurd h (lt_irrefl _)⟩
    · rw [if_neg hlt]
      rcases h with ⟨rfl, hno⟩ | ⟨k, hk, ⟨q, hq, hqw, hmin⟩, q', hq', hb⟩
      · exact absurd (planeDist_lt heps hwin) hlt
      · rw [hq] at hq'
        obtain rfl := Option.some.inj hq'
        have hkl : k < done.length := by rw [← hl]; exact (List.getElem?_eq_some_iff.1 hq).1
        refine Or.inr ⟨k, hk, ⟨q, hold _ _ hq, hqw, ?_⟩, q, hold _ _ hq, hb⟩
        intro k' p' hk' hp'
        rcases hnew k' p' hk' with ⟨ho, -⟩ | ⟨rfl, rfl⟩
        · exact hmin k' p' ho hp'
        · rw [hb] at hlt
          exact ⟨not_lt.1 hlt, fun h => by omega⟩
  · rw [if_neg hw]
    have hwin : ¬ InWindow eps (x, y) (t.x, t.y) := fun h => hw ((inWindow_iff x y eps t).2 h)
    rcases h with ⟨rfl, hno⟩ | ⟨k, hk, ⟨q, hq, hqw, hmin⟩, q', hq', hb⟩
    · left
      refine ⟨rfl, ?_⟩
      intro p hp
      rcases List.mem_append.1 hp with hp | hp
      · exact hno p hp
      · rw [List.mem_singleton] at hp; rw [hp]; exact hwin
    · refine Or.inr ⟨k, hk, ⟨q, hold _ _ hq, hqw, ?_⟩, q', hold _ _ hq', hb⟩
      intro k' p' hk' hp'
      rcases hnew k' p' hk' with ⟨ho, -⟩ | ⟨rfl, rfl⟩
      · exact hmin k' p' ho hp'
      · exact absurd hp' hwin

theorem nearestLoop_found {x y eps : ℝ} (heps : eps ≤ 10 ^ 19) : ∀ (ts done : List Det) (b : ℤ × ℝ),
    Found eps (x, y) (xys done) b → Found eps (x, y) (xys (done ++ ts)) (nearestLoop x y eps done.length ts b)
  | [], done, b, h => by simpa [nearestLoop] using h
  | t :: ts, done, b, h => by
    have := nearestLoop_found heps ts (done ++ [t]) _ (nearestStep_found heps (t := t) h)
    simpa [nearestLoop] using this

theorem nearestPix_found (pix : List Det) (x y eps : ℝ) (heps : eps ≤ 10 ^ 19) :
    ∃ d, Found eps (x, y) (xys pix) (nearestPix pix x y eps, d) := by
  have := nearestLoop_found (x := x) (y := y) heps pix [] (-999, 10 ^ 20)
    (Or.inl ⟨rfl, by simp [xys]⟩)
  exact ⟨(nearestLoop x y eps 0 pix (-999, 10 ^ 20)).2, by simpa [nearestPix] using this⟩

theorem isNearest_unique {eps : ℝ} {c : ℝ × ℝ} {ps : List (ℝ × ℝ)} {j k : ℕ} (hj : IsNearest eps c ps j)
    (hk : IsNearest eps c ps k) : j = k := by
  obtain ⟨p, hp, hpw, hpm⟩ := hj
  obtain ⟨q, hq, hqw, hqm⟩ := hk
  rcases Nat.lt_trichotomy j k with h | h | h
  · have := (hqm j p hp hpw).2 h
    have := (hpm k q hq hqw).1
    linarith
  · exact h
  · have := (hpm k q hq hqw).2 h
    have := (hqm j p hp hpw).1
    linarith

/-- C37: `nearest_neighbour_pix` returns `k` exactly if detection `k` is the (first) nearest one strictly
inside the window. (Radii up to 1e19 pixels: 1e20 is the code's initial distance.) -/
theorem C37_nearest (pix : List Det) (x y eps : ℝ) (heps : eps ≤ 10 ^ 19) (k : ℕ) :
    nearestPix pix x y eps = k ↔ IsNearest eps (x, y) (pix.map fun t => (t.x, t.y)) k := by
  obtain ⟨d, ⟨h, hno⟩ | ⟨k', h1, h2, -⟩⟩ := nearestPix_found pix x y eps heps
  · simp only [Prod.mk.injEq] at h
    rw [h.1]
    constructor
    · intro e; omega
    · rintro ⟨p, hp, hw, -⟩
      exact absurd hw (hno p (List.mem_of_getElem? hp))
  · simp only at h1
    rw [h1]
    constructor
    · intro e
      have : k' = k := by omega
      rw [← this]; exact h2
    · intro h; exact_mod_cast isNearest_unique h2 h

/-- C37: it returns the not-found value exactly if there is no detection in the window; and it returns
nothing else. -/
theorem C37_not_found (pix : List Det) (x y eps : ℝ) (heps : eps ≤ 10 ^ 19) :
    (nearestPix pix x y eps = -999 ↔ ∀ t ∈ pix, ¬ InWindow eps (x, y) (t.x, t.y)) ∧
    (nearestPix pix x y eps = -999 ∨ ∃ k : ℕ, k < pix.length ∧ nearestPix pix x y eps = k) := by
  obtain ⟨d, ⟨h, hno⟩ | ⟨k', h1, h2, -⟩⟩ := nearestPix_found pix x y eps heps
  · simp only [Prod.mk.injEq] at h
    refine ⟨⟨fun _ t ht => hno _ (List.mem_map.2 ⟨t, ht, rfl⟩), fun _ => h.1⟩, Or.inl h.1⟩
  · simp only at h1
    obtain ⟨p, hp, hw, -⟩ := h2
    refine ⟨⟨fun e => by omega, fun hn => ?_⟩, Or.inr ⟨k', ?_, h1⟩⟩
    · obtain ⟨t, ht, rfl⟩ := List.mem_map.1 (List.mem_of_getElem? hp)
      exact absurd hw (hn t ht)
    · simpa [xys] using (List.getElem?_eq_some_iff.1 hp).1

/-- Two detections equally far from the position, one outside the window: the first is taken. -/
example : nearestPix [⟨7, 9, 5⟩, ⟨-1, 5, 6⟩, ⟨3, 6, 5⟩] 5 5 3 = 1 := by
  refine (C37_nearest _ 5 5 3 (by norm_num) 1).2 ⟨(5, 6), rfl, by norm_num [InWindow], ?_⟩
  intro k' p' hk hw
  match k', hk with
  | 0, hk =>
    simp at hk; subst hk; norm_num [InWindow] at hw
  | 1, hk => simp at hk; subst hk; simp
  | 2, hk => simp at hk; subst hk; norm_num [planeDist]
  | n + 3, hk => simp at hk

/-! ### C38 -/

section
variable {F : Type} (proj : F → Option (ℝ × ℝ)) (imx imy : ℕ) (fix : List F) (eps : ℝ) (pix : List Det)

/-- What place `k` of the result must be: fresh if the projection of reference point `k` is outside the
extended image or has no detection in its window, else a reference to the nearest detection. -/
def EntryOK (k : ℕ) (e : Option ℕ) : Prop :=
  ∃ f c, fix[k]? = some f ∧ proj f = some c ∧
    ((e = none ∧ (¬ NearImage imx imy eps c ∨ ∀ t ∈ pix, ¬ InWindow eps c (t.x, t.y))) ∨
     ∃ j, e = some j ∧ NearImage imx imy eps c ∧ IsNearest eps c (pix.map fun t => (t.x, t.y)) j)

/-- The state of `sortgrid` after `i` reference points. -/
structure SortInv (nfix i : ℕ) (s : Sorting) : Prop where
  pos : s.pix.map (fun t => (t.x, t.y)) = pix.map fun t => (t.x, t.y)
  len : s.out.length = nfix
  done : ∀ k : ℕ, k < i → ∃ e, s.out[k]? = some e ∧ EntryOK proj imx imy fix eps pix k e
  todo : ∀ k : ℕ, i ≤ k → k < nfix → s.out[k]? = some none
  pnr : ∀ (j : ℕ) (t : Det), s.pix[j]? = some t →
    (∃ k : ℕ, k < i ∧ s.out[k]? = some (some j) ∧ t.pnr = (k : ℤ) ∧ ∀ k' : ℕ, s.out[k']? = some (some j) → k' ≤ k) ∨
    ((∀ k : ℕ, s.out[k]? ≠ some (some j)) ∧ pix[j]? = some t)

end

theorem nearImage_iff {imx imy : ℕ} {eps : ℝ} {c : ℝ × ℝ} :
    nearImage imx imy eps c = true ↔ NearImage imx imy eps c := by
  simp only [nearImage, decide_eq_true_eq, NearImage]
  tauto

theorem sortPoint_inv {F : Type} {proj : F → Option (ℝ × ℝ)} {imx imy : ℕ} {fix : List F} {eps : ℝ}
    {pix : List Det} {nfix i : ℕ} {s s' : Sorting} {f : F} (heps : eps ≤ 10 ^ 19) (hi : i < nfix)
    (hf : fix[i]? = some f) (inv : SortInv proj imx imy fix eps pix nfix i s)
    (h : sortPoint proj imx imy eps i f s = some s') : SortInv proj imx imy fix eps pix nfix (i + 1) s' := by
  simp only [sortPoint, Option.map_eq_some_iff] at h
  obtain ⟨c, hc, h⟩ := h
  have hwin : (∀ t ∈ s.pix, ¬ InWindow eps c (t.x, t.y)) → ∀ t ∈ pix, ¬ InWindow eps c (t.x, t.y) := by
    intro h t ht hw
    have : (t.x, t.y) ∈ s.pix.map fun t => (t.x, t.y) := by
      rw [inv.pos]; exact List.mem_map.2 ⟨t, ht, rfl⟩
    obtain ⟨t', ht', e⟩ := List.mem_map.1 this
    rw [← e] at hw
    exact h t' ht' hw
  have keep : EntryOK proj imx imy fix eps pix i none → s = s' →
      SortInv proj imx imy fix eps pix nfix (i + 1) s' := by
    rintro ho rfl
    refine ⟨inv.pos, inv.len, ?_, fun k hk => inv.todo k (by omega), ?_⟩
    · intro k hk
      rcases Nat.lt_succ_iff_lt_or_eq.1 hk with hk | rfl
      · exact inv.done k hk
      · exact ⟨none, inv.todo k (le_refl _) hi, ho⟩
    · intro j t ht
      rcases inv.pnr j t ht with ⟨k, h1, h2⟩ | h
      · exact Or.inl ⟨k, by omega, h2⟩
      · exact Or.inr h
  by_cases hn : nearImage imx imy eps c = true
  · rw [if_pos hn] at h
    rcases (C37_not_found s.pix c.1 c.2 eps heps).2 with hj | ⟨j, hjl, hj⟩
    · rw [hj] at h
      simp only [ne_eq, not_true_eq_false, if_false] at h
      exact keep ⟨f, c, hf, hc, Or.inl ⟨rfl, Or.inr (hwin ((C37_not_found s.pix c.1 c.2 eps heps).1.1 hj))⟩⟩ h
    · rw [hj, if_pos (by omega : (j : ℤ) ≠ -999)] at h
      simp only [Int.toNat_natCast] at h
      have hnear := (C37_nearest s.pix c.1 c.2 eps heps j).1 hj
      rw [inv.pos] at hnear
      subst h
      have hset : ∀ k, (s.out.set i (some j))[k]? = if k = i then some (some j) else s.out[k]? := by
        intro k
        rw [List.getElem?_set]
        by_cases e : i = k
        · subst e; simp [inv.len, hi]
        · simp [e, Ne.symm e]
      refine ⟨?_, by simp [inv.len], ?_, ?_, ?_⟩
      · rw [← inv.pos]
        apply List.ext_getElem?
        intro m
        simp only [List.getElem?_map, List.getElem?_modify]
        cases s.pix[m]? with
        | none => simp
        | some t => by_cases e : j = m <;> simp [e]
      · intro k hk
        rw [hset]
        by_cases e : k = i
        · subst e
          rw [if_pos rfl]
          exact ⟨some j, rfl, f, c, hf, hc, Or.inr ⟨j, rfl, nearImage_iff.1 hn, hnear⟩⟩
        · rw [if_neg e]; exact inv.done k (by omega)
      · intro k hk hkn
        rw [hset, if_neg (by omega)]; exact inv.todo k (by omega) hkn
      · intro m t ht
        simp only [List.getElem?_modify] at ht
        by_cases e : j = m
        · subst e
          left
          refine ⟨i, by omega, by rw [hset, if_pos rfl], ?_, ?_⟩
          · cases hm : s.pix[j]? with
            | none => simp [hm] at ht
            | some u => simp [hm] at ht; rw [← ht]
          · intro k' hk'
            rw [hset] at hk'
            by_cases e : k' = i
            · omega
            · rw [if_neg e] at hk'
              by_contra hgt
              have hlt : k' < nfix := by
                rw [← inv.len]; exact (List.getElem?_eq_some_iff.1 hk').1
              rw [inv.todo k' (by omega) hlt] at hk'
              simp at hk'
        · simp only [e, if_false] at ht
          have ht' : s.pix[m]? = some t := by simpa using ht
          have hk : ∀ k : ℕ, (s.out.set i (some j))[k]? = some (some m) ↔ s.out[k]? = some (some m) := by
            intro k
            rw [hset]
            by_cases ek : k = i
            · subst ek
              rw [if_pos rfl, inv.todo k (le_refl _) hi]
              simp [e]
            · rw [if_neg ek]
          rcases inv.pnr m t ht' with ⟨k, h1, h2, h3, h4⟩ | ⟨h1, h2⟩
          · exact Or.inl ⟨k, by omega, (hk k).2 h2, h3, fun k' h => h4 k' ((hk k').1 h)⟩
          · exact Or.inr ⟨fun k h => h1 k ((hk k).1 h), h2⟩
  · rw [if_neg hn] at h
    exact keep ⟨f, c, hf, hc, Or.inl ⟨rfl, Or.inl fun hni => hn (nearImage_iff.2 hni)⟩⟩ h

theorem sortLoop_inv {F : Type} {proj : F → Option (ℝ × ℝ)} {imx imy : ℕ} {fix : List F} {eps : ℝ}
    {pix : List Det} {nfix : ℕ} {s' : Sorting} (heps : eps ≤ 10 ^ 19) :
    ∀ (n i : ℕ) (fs : List F) (s : Sorting), i + n = nfix → fix.drop i = fs →
      SortInv proj imx imy fix eps pix nfix i s → sortLoop proj imx imy eps n i fs s = some s' →
      SortInv proj imx imy fix eps pix nfix nfix s'
  | 0, i, fs, s, hn, _, inv, h => by
    simp only [sortLoop, Option.some.injEq] at h
    simp only [Nat.add_zero] at hn
    rw [← h, ← hn]; rw [← hn] at inv; exact inv
  | n + 1, i, [], s, _, _, _, h => by simp [sortLoop] at h
  | n + 1, i, f :: fs, s, hn, hd, inv, h => by
    simp only [sortLoop, Option.bind_eq_bind, Option.bind_eq_some_iff] at h
    obtain ⟨s1, h1, h2⟩ := h
    have hf : fix[i]? = some f := by
      have := congrArg (fun l => l[0]?) hd
      simpa using this
    have hd' : fix.drop (i + 1) = fs := by
      rw [← List.tail_drop, hd]; rfl
    exact sortLoop_inv heps n (i + 1) fs s1 (by omega) hd' (sortPoint_inv heps (by omega) hf inv h1) h2

theorem sortgrid_inv {F : Type} {proj : F → Option (ℝ × ℝ)} {imx imy : ℕ} {fix : List F} {eps : ℝ}
    {pix : List Det} {nfix : ℕ} {s : Sorting} (heps : eps ≤ 10 ^ 19)
    (h : sortgrid proj imx imy nfix fix eps pix = some s) : SortInv proj imx imy fix eps pix nfix nfix s := by
  refine sortLoop_inv heps nfix 0 fix _ (by omega) rfl ⟨rfl, by simp, by omega, ?_, ?_⟩ h
  · intro k _ hk
    simp [hk]
  · intro j t ht
    right
    refine ⟨?_, ht⟩
    intro k hk
    have := List.mem_of_getElem? hk
    simp at this

/-- C38, the entries: `sortgrid` returns one entry per reference point. Entry `i` is a fresh, unused target
exactly if the projection of reference point `i` is off the image by `eps` or more or has no detection
strictly inside its window; otherwise it is (the object of) the nearest detection. The detections keep
their positions. -/
theorem C38_entries {F : Type} (proj : F → Option (ℝ × ℝ)) (imx imy nfix : ℕ) (fix : List F) (eps : ℝ)
    (pix : List Det) (heps : eps ≤ 10 ^ 19) (s : Sorting) (h : sortgrid proj imx imy nfix fix eps pix = some s) :
    s.out.length = nfix ∧
    s.pix.map (fun t => (t.x, t.y)) = pix.map (fun t => (t.x, t.y)) ∧
    ∀ i, i < nfix → ∃ e f c, s.out[i]? = some e ∧ fix[i]? = some f ∧ proj f = some c ∧
      (e = none ↔ ¬ NearImage imx imy eps c ∨ ∀ t ∈ pix, ¬ InWindow eps c (t.x, t.y)) ∧
      (∀ j, e = some j ↔ NearImage imx imy eps c ∧ IsNearest eps c (pix.map fun t => (t.x, t.y)) j) := by
  have inv := sortgrid_inv heps h
  refine ⟨inv.len, inv.pos, ?_⟩
  intro i hi
  obtain ⟨e, he, f, c, hf, hc, ho⟩ := inv.done i hi
  refine ⟨e, f, c, he, hf, hc, ?_⟩
  have hnw : ∀ j, IsNearest eps c (pix.map fun t => (t.x, t.y)) j → ¬ ∀ t ∈ pix, ¬ InWindow eps c (t.x, t.y) := by
    rintro j ⟨p, hp, hw, -⟩ hno
    obtain ⟨t, ht, rfl⟩ := List.mem_map.1 (List.mem_of_getElem? hp)
    exact hno t ht hw
  rcases ho with ⟨rfl, ho⟩ | ⟨j, rfl, hn, hj⟩
  · refine ⟨⟨fun _ => ho, fun _ => rfl⟩, fun j => ⟨fun h => by simp at h, ?_⟩⟩
    rintro ⟨h1, h2⟩
    rcases ho with ho | ho
    · exact absurd h1 ho
    · exact absurd ho (hnw j h2)
  · refine ⟨⟨fun h => by simp at h, ?_⟩, fun j' => ⟨?_, ?_⟩⟩
    · rintro (ho | ho)
      · exact absurd hn ho
      · exact absurd ho (hnw j hj)
    · rintro h
      obtain rfl := Option.some.inj h
      exact ⟨hn, hj⟩
    · rintro ⟨-, h2⟩
      rw [isNearest_unique hj h2]

/-- C38, the claims: a returned entry `i` is claimed if its `pnr` is `i`. No detection is claimed by two
reference points; of several reference points with the same nearest detection the last one claims it;
entries without detection are never claimed; and a detection that is nearest to no reference point is
left untouched. -/
theorem C38_claims {F : Type} (proj : F → Option (ℝ × ℝ)) (imx imy nfix : ℕ) (fix : List F) (eps : ℝ)
    (pix : List Det) (heps : eps ≤ 10 ^ 19) (s : Sorting) (h : sortgrid proj imx imy nfix fix eps pix = some s) :
    (∀ (i i' j : ℕ) t, s.out[i]? = some (some j) → s.out[i']? = some (some j) → s.pix[j]? = some t →
      t.pnr = i → t.pnr = i' → i = i') ∧
    (∀ (i j : ℕ) t, s.out[i]? = some (some j) → s.pix[j]? = some t →
      (t.pnr = i ↔ ∀ i', s.out[i']? = some (some j) → i' ≤ i)) ∧
    (∀ (i : ℕ) d, s.out[i]? = some none → s.entry none = some d → d.pnr ≠ i) ∧
    (∀ (j : ℕ), (∀ i : ℕ, s.out[i]? ≠ some (some j)) → s.pix[j]? = pix[j]?) := by
  have inv := sortgrid_inv heps h
  have hlen : s.pix.length = pix.length := by
    have := congrArg List.length inv.pos
    simpa using this
  refine ⟨fun i i' j t _ _ _ h1 h2 => by omega, ?_, ?_, ?_⟩
  · intro i j t ho ht
    rcases inv.pnr j t ht with ⟨k, h1, h2, h3, h4⟩ | ⟨h1, -⟩
    · constructor
      · intro hp i' hi'
        have : k = i := by omega
        rw [← this]; exact h4 i' hi'
      · intro hall
        have := hall k h2
        have := h4 i ho
        omega
    · exact absurd ho (h1 i)
  · intro i d _ hd
    simp only [Sorting.entry, Option.some.injEq] at hd
    rw [← hd]
    simp [freshDet]
  · intro j hno
    cases hp : s.pix[j]? with
    | none =>
      have := List.getElem?_eq_none_iff.1 hp
      rw [List.getElem?_eq_none (by omega)]
    | some t =>
      rcases inv.pnr j t hp with ⟨k, _, h2, _⟩ | ⟨-, h2⟩
      · exact absurd h2 (hno k)
      · exact h2.symm

/-- C38, when the call succeeds: exactly if there are at least `nfix` reference points and each of the first
`nfix` can be projected. -/
theorem C38_total {F : Type} (proj : F → Option (ℝ × ℝ)) (imx imy nfix : ℕ) (fix : List F) (eps : ℝ)
    (pix : List Det) : (∃ s, sortgrid proj imx imy nfix fix eps pix = some s) ↔
      nfix ≤ fix.length ∧ ∀ f ∈ fix.take nfix, ∃ c, proj f = some c := by
  have key : ∀ (n i : ℕ) (fs : List F) (s : Sorting), (∃ s', sortLoop proj imx imy eps n i fs s = some s') ↔
      n ≤ fs.length ∧ ∀ f ∈ fs.take n, ∃ c, proj f = some c := by
    intro n
    induction n with
    | zero => intro i fs s; simp [sortLoop]
    | succ n ih =>
      intro i fs s
      cases fs with
      | nil => simp [sortLoop]
      | cons f fs =>
        simp only [sortLoop, Option.bind_eq_bind, Option.bind_eq_some_iff, List.length_cons, List.take_succ_cons,
          List.mem_cons, forall_eq_or_imp, Nat.add_le_add_iff_right]
        constructor
        · rintro ⟨s', s1, h1, h2⟩
          obtain ⟨k1, k2⟩ := (ih (i + 1) fs s1).1 ⟨s', h2⟩
          simp only [sortPoint, Option.map_eq_some_iff] at h1
          obtain ⟨c, hc, -⟩ := h1
          exact ⟨k1, ⟨c, hc⟩, k2⟩
        · rintro ⟨k1, ⟨c, hc⟩, k2⟩
          have h1 : ∃ s1, sortPoint proj imx imy eps i f s = some s1 := by
            rw [← Option.isSome_iff_exists]
            simp [sortPoint, hc]
          obtain ⟨s1, h1⟩ := h1
          obtain ⟨s', h2⟩ := (ih (i + 1) fs s1).2 ⟨k1, k2⟩
          exact ⟨s', s1, h1, h2⟩
  exact key nfix 0 fix _

/-! ### C71 -/

/-- C71 (the documentation of `match_detection_to_ref`: "each target's pnr attribute is set to the index of
the target in the array"), the part that holds: an entry with a detection has `pnr` equal to its place if
no later reference point has the same nearest detection. For every projection. -/
theorem C71_pnr_is_index_partial {F : Type} (proj : F → Option (ℝ × ℝ)) (imx imy nfix : ℕ) (fix : List F)
    (eps : ℝ) (pix : List Det) (heps : eps ≤ 10 ^ 19) (s : Sorting)
    (h : sortgrid proj imx imy nfix fix eps pix = some s) (i j : ℕ) (t : Det)
    (ho : s.out[i]? = some (some j)) (ht : s.pix[j]? = some t)
    (hno : ∀ (i' : ℕ) (f : F) (c : ℝ × ℝ), i < i' → i' < nfix → fix[i']? = some f → proj f = some c →
      ¬ IsNearest eps c (pix.map fun t => (t.x, t.y)) j) : t.pnr = i := by
  obtain ⟨h1, h2, h3⟩ := C38_entries _ imx imy nfix fix eps pix heps s h
  refine ((C38_claims _ imx imy nfix fix eps pix heps s h).2.1 i j t ho ht).2 ?_
  intro i' hi'
  by_contra hgt
  have hl : i' < nfix := by rw [← h1]; exact (List.getElem?_eq_some_iff.1 hi').1
  obtain ⟨e, f, c, e1, e2, e3, -, e5⟩ := h3 i' hl
  rw [hi', Option.some.injEq] at e1
  exact hno i' f c (by omega) hl e2 e3 ((e5 j).1 e1.symm).2

/-- `match_detection_to_ref` is `sortgrid` with the camera's own projection, so C38 and C71 apply to it. -/
theorem C71_match_detection (cal : Cam) (lut : LUT) (mm : MM) (ip : ImgPar) (imx imy : ℕ) (refs : List V3)
    (pix : List Det) (eps : ℝ) (heps : eps ≤ 10 ^ 19) (s : Sorting)
    (h : matchDetectionToRef cal lut mm ip imx imy refs pix eps = some s) (i : ℕ) (P : V3) (c m : ℝ × ℝ)
    (hP : refs[i]? = some P) (hm : imgCoord P cal lut mm = some m) (hc : metricToPixel m.1 m.2 ip = c) :
    ∃ e, s.out[i]? = some e ∧
      (∀ j, e = some j ↔ NearImage imx imy eps c ∧ IsNearest eps c (pix.map fun t => (t.x, t.y)) j) := by
  obtain ⟨h1, h2, h3⟩ := C38_entries _ imx imy refs.length refs eps pix heps s h
  obtain ⟨e, P', c', e1, e2, e3, -, e5⟩ := h3 i (List.getElem?_eq_some_iff.1 hP).1
  rw [hP] at e2
  obtain rfl := Option.some.inj e2
  have : c' = c := by
    simp only [pointToPixel, hm, Option.map_some, Option.some.injEq] at e3
    rw [← e3, hc]
  exact ⟨e, e1, by rw [← this]; exact e5⟩

/-- C71 is false in general (and the hypotheses of C38 can be met): two reference points that project next to
the only detection in reach (place 1), a third one without any. The first two entries are both detection 1,
which is claimed by the last of them (`pnr = 1`), so the entry at place 0 has the wrong number and the first
reference point loses its match; the third entry is fresh. -/
theorem C71_refuted : ∃ s, sortgrid (fun c : ℝ × ℝ => some c) 100 100 3 [(10, 10), (11, 10), (50, 50)] 5
      [⟨0, 80, 80⟩, ⟨1, 10, 11⟩] = some s ∧
    s.out[0]? = some (some 1) ∧ s.out[1]? = some (some 1) ∧ s.out[2]? = some none ∧
    ∀ t, s.pix[1]? = some t → t.pnr = 1 := by
  obtain ⟨s, hs⟩ := (C38_total (fun c : ℝ × ℝ => some c) 100 100 3 [(10, 10), (11, 10), (50, 50)] 5
    [⟨0, 80, 80⟩, ⟨1, 10, 11⟩]).2 ⟨by simp, fun f _ => ⟨f, rfl⟩⟩
  obtain ⟨h1, h2, h3⟩ := C38_entries _ _ _ _ _ _ _ (by norm_num) s hs
  have near : ∀ c : ℝ × ℝ, c = (10, 10) ∨ c = (11, 10) →
      IsNearest 5 c ([⟨0, 80, 80⟩, ⟨1, 10, 11⟩].map fun t : Det => (t.x, t.y)) 1 := by
    intro c hc
    refine ⟨(10, 11), rfl, by rcases hc with rfl | rfl <;> norm_num [InWindow], ?_⟩
    intro k' p' hk hw
    match k', hk with
    | 0, hk => simp at hk; subst hk; rcases hc with rfl | rfl <;> norm_num [InWindow, abs_lt] at hw
    | 1, hk => simp at hk; subst hk; simp
    | n + 2, hk => simp at hk
  have o0 : s.out[0]? = some (some 1) := by
    obtain ⟨e, f, c, e1, e2, e3, -, e5⟩ := h3 0 (by norm_num)
    simp at e2 e3; subst e2; subst e3
    rw [e1, (e5 1).2 ⟨by norm_num [NearImage], near _ (Or.inl rfl)⟩]
  have o1 : s.out[1]? = some (some 1) := by
    obtain ⟨e, f, c, e1, e2, e3, -, e5⟩ := h3 1 (by norm_num)
    simp at e2 e3; subst e2; subst e3
    rw [e1, (e5 1).2 ⟨by norm_num [NearImage], near _ (Or.inr rfl)⟩]
  have o2 : s.out[2]? = some none := by
    obtain ⟨e, f, c, e1, e2, e3, e4, -⟩ := h3 2 (by norm_num)
    simp at e2 e3; subst e2; subst e3
    rw [e1, e4.2 (Or.inr (by
      intro t ht
      simp at ht
      rcases ht with rfl | rfl <;> norm_num [InWindow, abs_lt]))]
  refine ⟨s, hs, o0, o1, o2, ?_⟩
  intro t ht
  refine C71_pnr_is_index_partial _ _ _ _ _ _ _ (by norm_num) s hs 1 1 t o1 ht ?_
  intro i' f c h1 h2 h3 h4
  have : i' = 2 := by omega
  subst this
  simp at h3 h4
  subst h3; subst h4
  rintro ⟨p, hp, hw, -⟩
  simp at hp
  subst hp
  norm_num [InWindow, abs_lt] at hw

end Verif.Geo
