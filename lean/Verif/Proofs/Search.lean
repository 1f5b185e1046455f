import Verif.Spec.Search
import Verif.Proofs.TakeBest
import Mathlib.Tactic.Linarith
import Mathlib.Tactic.FieldSimp
import Mathlib.Tactic.Ring
import Mathlib.Tactic.Positivity
import Mathlib.Data.List.Sort

set_option linter.unusedSectionVars false

namespace Verif.Search
open Verif.Search.Spec
open Verif.Corr (pyGet_eq_ok pyGet_lt)

/-! ### start point -/

/-- number of one bits -/
def popc (n : Nat) : Nat := if _h : n = 0 then 0 else n % 2 + popc (n / 2)
termination_by n
decreasing_by omega

theorem popc_eq (n : Nat) : popc n = n % 2 + popc (n / 2) := by
  conv_lhs => unfold popc
  split_ifs with h
  · subst h; simp [popc]
  · rfl

theorem popc_le {n k : Nat} (h : n < 2 ^ k) : popc n ≤ k := by
  induction k generalizing n with
  | zero => have : n = 0 := by simpa using h
            subst this; simp [popc]
  | succ k ih =>
    rw [popc_eq]
    have := ih (n := n / 2) (by rw [pow_succ] at h; omega)
    omega

theorem popc_lt {n k : Nat} (h : n + 1 < 2 ^ (k + 1)) : popc n ≤ k := by
  induction k generalizing n with
  | zero => have : n = 0 := by simpa using h
            subst this; simp [popc]
  | succ k ih =>
    rw [popc_eq]
    rw [pow_succ] at h
    rcases Nat.mod_two_eq_zero_or_one n with h0 | h1
    · have := popc_le (n := n / 2) (k := k + 1) (by omega)
      omega
    · have := ih (n := n / 2) (by omega)
      omega

variable {α : Type} [LinearOrder α]

theorem startLoop_ok (xs : List α) (thr : α) (j0 dj : Nat) (h1 : 2 * dj ≤ j0)
    (h2 : j0 + 2 * dj ≤ xs.length) :
    ∃ r, startLoop xs thr j0 dj = .ok r ∧ r ≤ xs.length := by
  induction dj using Nat.strong_induction_on generalizing j0 with
  | _ dj ih =>
    unfold startLoop
    split_ifs with hd
    · rw [pyGet_lt (by omega)]
      simp only [bind, Except.bind]
      split_ifs
      · exact ih _ (by omega) _ (by omega) (by omega)
      · exact ih _ (by omega) _ (by omega) (by omega)
    · exact ⟨j0, rfl, by omega⟩

theorem startLoop_overshoot (xs : List α) (thr : α) (f : Nat)
    (hf : ∀ (j : Nat) v, xs[j]? = some v → v < thr → j < f) (j0 dj e r : Nat) (h1 : 2 * dj ≤ j0)
    (h : j0 ≤ f + 2 * dj + e) (hr : startLoop xs thr j0 dj = .ok r) :
    r ≤ f + e + popc dj + 1 := by
  induction dj using Nat.strong_induction_on generalizing j0 e with
  | _ dj ih =>
    unfold startLoop at hr
    have hp := popc_eq dj
    split_ifs at hr with hd
    · cases hv : pyGet xs j0 with
      | error e => simp [hv, bind, Except.bind] at hr
      | ok v =>
        simp only [hv, bind, Except.bind] at hr
        split_ifs at hr with hlt
        · have := hf j0 v (pyGet_eq_ok.1 hv) hlt
          have := ih (dj / 2) (by omega) (j0 + dj) (e + dj % 2) (by omega) (by omega) hr
          omega
        · have := ih (dj / 2) (by omega) (j0 - dj) (e + dj % 2) (by omega) (by omega) hr
          omega
    · have : r = j0 := by simpa using hr.symm
      subst this
      rcases Nat.lt_or_ge dj 1 with h0 | h0
      · have : dj = 0 := by omega
        subst this; omega
      · have : dj = 1 := by omega
        subst this
        simp at hp
        omega

theorem startPoint_ok (xs : List α) (thr : α) :
    ∃ r, startPoint xs xs.length thr = .ok r ∧ r ≤ xs.length ∧ (0 < xs.length → r < xs.length) := by
  obtain ⟨r, h, hr⟩ := startLoop_ok xs thr (xs.length / 2) (xs.length / 4) (by omega) (by omega)
  refine ⟨r - 12, ?_, by omega, by omega⟩
  simp [startPoint, h, bind, Except.bind]

theorem startPoint_le (xs : List α) (thr : α) (hp : popc (xs.length / 2) ≤ 11) (f : Nat)
    (hf : ∀ (j : Nat) v, xs[j]? = some v → v < thr → j < f) (r : Nat)
    (hr : startPoint xs xs.length thr = .ok r) : r ≤ f := by
  unfold startPoint at hr
  cases hv : startLoop xs thr (xs.length / 2) (xs.length / 4) with
  | error e => simp [hv, bind, Except.bind] at hr
  | ok j =>
    simp [hv, bind, Except.bind] at hr
    have := startLoop_overshoot xs thr f hf (xs.length / 2) (xs.length / 4)
      ((xs.length / 2) % 2) j (by omega) (by omega) hv
    have h2 := popc_eq (xs.length / 2)
    have h3 : xs.length / 2 / 2 = xs.length / 4 := by omega
    rw [h3] at h2
    omega

/-- For a sorted list, everything before the start point is below the threshold. -/
theorem startPoint_complete (xs : List α) (thr : α) (hp : popc (xs.length / 2) ≤ 11)
    (hs : xs.Pairwise (· ≤ ·)) (r : Nat) (hr : startPoint xs xs.length thr = .ok r)
    (j : Nat) (hj : j < r) (v : α) (hv : xs[j]? = some v) : v < thr := by
  by_contra hlt
  have := startPoint_le xs thr hp j (by
    intro i w hw hwlt
    by_contra hij
    obtain ⟨l1, e1⟩ := List.getElem?_eq_some_iff.1 hv
    obtain ⟨l2, e2⟩ := List.getElem?_eq_some_iff.1 hw
    have hle : xs[j] ≤ xs[i] := by
      rcases Nat.lt_or_ge j i with h | h
      · exact List.pairwise_iff_getElem.1 hs j i l1 l2 h
      · have : j = i := by omega
        subst this; exact le_refl _
    rw [e1, e2] at hle
    exact hlt (lt_of_le_of_lt hle hwlt)) r hr
  omega

/-- All-down run of the halving loop. -/
def down (j0 dj : Nat) : Nat := if _h : dj > 1 then down (j0 - dj) (dj / 2) else j0
termination_by dj
decreasing_by omega

theorem startLoop_down (xs : List α) (thr : α) (hall : ∀ v ∈ xs, ¬ v < thr) (j0 dj : Nat)
    (h1 : 2 * dj ≤ j0) (h2 : j0 + 2 * dj ≤ xs.length) :
    startLoop xs thr j0 dj = .ok (down j0 dj) := by
  induction dj using Nat.strong_induction_on generalizing j0 with
  | _ dj ih =>
    unfold startLoop down
    split_ifs with hd
    · rw [pyGet_lt (by omega)]
      simp only [bind, Except.bind]
      rw [if_neg (hall _ (List.getElem_mem _))]
      exact ih _ (by omega) _ (by omega) (by omega)
    · rfl

theorem startPoint_8190 (xs : List α) (thr : α) (hlen : xs.length = 8190)
    (hall : ∀ v ∈ xs, ¬ v < thr) : startPoint xs xs.length thr = .ok 1 := by
  unfold startPoint
  rw [startLoop_down xs thr hall _ _ (by omega) (by omega), hlen]
  have : down (8190 / 2) (8190 / 4) = 13 := by
    repeat (unfold down; simp)
  rw [this]; rfl

/-! ### line distance -/

theorem tilt_ne (xa xb : ℝ) : tilt xa xb - xa ≠ 0 := by
  unfold tilt
  split_ifs with h
  · subst h; norm_num
  · intro h'; exact h (by linarith)

theorem mkWindow_eq (xa ya xb yb : ℝ) :
    (mkWindow xa ya xb yb).xa = min xa (tilt xa xb) ∧ (mkWindow xa ya xb yb).xb = max xa (tilt xa xb) ∧
    (mkWindow xa ya xb yb).ya = min ya yb ∧ (mkWindow xa ya xb yb).yb = max ya yb ∧
    (mkWindow xa ya xb yb).m = (yb - ya) / (tilt xa xb - xa) ∧
    (mkWindow xa ya xb yb).b = ya - (yb - ya) / (tilt xa xb - xa) * xa := by
  have e : ∀ a b : ℝ, (if a > b then (b, a) else (a, b)) = (min a b, max a b) := by
    intro a b
    split_ifs with h
    · rw [min_eq_right (le_of_lt h), max_eq_left (le_of_lt h)]
    · rw [min_eq_left (not_lt.1 h), max_eq_right (not_lt.1 h)]
  simp only [mkWindow, e, tilt, and_self]

/-- The recorded tolerance squared is the least squared distance to a point of the line. -/
theorem lineDist_sq (xa ya xb yb x y : ℝ) :
    (∀ t, lineDist (mkWindow xa ya xb yb) x y ^ 2 ≤ distToLinePt xa ya (tilt xa xb) yb x y t) ∧
    ∃ t, distToLinePt xa ya (tilt xa xb) yb x y t = lineDist (mkWindow xa ya xb yb) x y ^ 2 := by
  obtain ⟨-, -, -, -, hm, hb⟩ := mkWindow_eq xa ya xb yb
  have hne := tilt_ne xa xb
  unfold lineDist
  rw [sq_abs, hm, hb]
  generalize htb : tilt xa xb = xt at hne ⊢
  obtain ⟨dx, hdx⟩ : ∃ dx, dx = xt - xa := ⟨_, rfl⟩
  obtain ⟨dy, hdy⟩ : ∃ dy, dy = yb - ya := ⟨_, rfl⟩
  have hx : xt = xa + dx := by linarith
  have hy : yb = ya + dy := by linarith
  subst hx hy
  have hdx0 : dx ≠ 0 := by simpa using hne
  have hpos : (0 : ℝ) < (dy / dx) * (dy / dx) + 1 := by
    have := mul_self_nonneg (dy / dx); linarith
  have e1 : ya + dy - ya = dy := by ring
  have e2 : xa + dx - xa = dx := by ring
  rw [e1, e2, div_pow, Real.sq_sqrt (le_of_lt hpos)]
  have hS : 0 < dx ^ 2 + dy ^ 2 := by positivity
  have key : (y - dy / dx * x - (ya - dy / dx * xa)) ^ 2 / (dy / dx * (dy / dx) + 1) =
      ((y - ya) * dx - dy * (x - xa)) ^ 2 / (dx ^ 2 + dy ^ 2) := by
    rw [div_eq_div_iff (ne_of_gt hpos) (ne_of_gt hS)]
    field_simp
    ring
  rw [key]
  constructor
  · intro t
    unfold distToLinePt
    rw [div_le_iff₀ hS, e1, e2]
    nlinarith [sq_nonneg ((x - xa) * dx + (y - ya) * dy - t * (dx ^ 2 + dy ^ 2))]
  · refine ⟨((x - xa) * dx + (y - ya) * dy) / (dx ^ 2 + dy ^ 2), ?_⟩
    unfold distToLinePt
    rw [e1, e2]
    field_simp
    ring

theorem lineDist_nonneg (w : Window) (x y : ℝ) : 0 ≤ lineDist w x y := abs_nonneg _

theorem lineDist_lt_iff (xa ya xb yb x y eps : ℝ) (heps : 0 < eps) :
    lineDist (mkWindow xa ya xb yb) x y < eps ↔
    ∃ t, distToLinePt xa ya (tilt xa xb) yb x y t < eps ^ 2 := by
  obtain ⟨h1, t0, h2⟩ := lineDist_sq xa ya xb yb x y
  have h0 := lineDist_nonneg (mkWindow xa ya xb yb) x y
  constructor
  · intro h
    refine ⟨t0, ?_⟩
    rw [h2]
    exact pow_lt_pow_left₀ h h0 (by norm_num)
  · rintro ⟨t, ht⟩
    have := lt_of_le_of_lt (h1 t) ht
    exact lt_of_pow_lt_pow_left₀ 2 (le_of_lt heps) this

theorem qualityRatio_ok {a b : ℝ} (ha : 0 ≤ a) (hb : 0 ≤ b) : qualityRatio a b = .ok (ratio a b) := by
  unfold qualityRatio ratio
  split_ifs with h1 h2
  · rfl
  · exfalso
    apply h1
    have h3 : a ≤ 0 := by rw [← h2]; exact le_max_left _ _
    have h4 : b ≤ 0 := by rw [← h2]; exact le_max_right _ _
    exact ⟨le_antisymm h3 ha, le_antisymm h4 hb⟩
  · rfl

/-! ### candidate loop -/

/-- The candidate record made for index `j`. -/
noncomputable def mkCand (w : Window) (s : Shape) (crd : List Coord) (pix : List Shape) (j : Nat) :
    Cand :=
  match crd[j]? with
  | none => ⟨j, 0, 0⟩
  | some c =>
    match pix[c.pnr]? with
    | none => ⟨j, 0, 0⟩
    | some t => ⟨j, lineDist w c.x c.y,
        (4 * ratio s.sumg t.sumg + 2 * ratio s.n t.n + ratio s.nx t.nx + ratio s.ny t.ny) *
          (s.sumg + t.sumg)⟩

theorem mkCand_pnr (w : Window) (s : Shape) (crd : List Coord) (pix : List Shape) (j : Nat) :
    (mkCand w s crd pix j).pnr = j := by
  unfold mkCand; split
  · rfl
  · split <;> rfl

/-- Acceptance in terms of the window. -/
def AccW (w : Window) (v : VPar) (s : Shape) (crd : List Coord) (pix : List Shape) (j : Nat) : Prop :=
  ∃ c t, crd[j]? = some c ∧ pix[c.pnr]? = some t ∧
    (w.xa - v.eps0 < c.x ∧ c.x < w.xb + v.eps0) ∧
    (w.ya - v.eps0 < c.y ∧ c.y < w.yb + v.eps0) ∧
    lineDist w c.x c.y < v.eps0 ∧
    v.cn ≤ ratio s.n t.n ∧ v.cnx ≤ ratio s.nx t.nx ∧ v.cny ≤ ratio s.ny t.ny ∧
    v.csumg < ratio s.sumg t.sumg

theorem accW_iff (v : VPar) (s : Shape) (crd : List Coord) (pix : List Shape)
    (xa ya xb yb : ℝ) (heps : 0 < v.eps0) (j : Nat) :
    AccW (mkWindow xa ya xb yb) v s crd pix j ↔ Acceptable v s crd pix xa ya xb yb j := by
  obtain ⟨h1, h2, h3, h4, -, -⟩ := mkWindow_eq xa ya xb yb
  unfold AccW Acceptable
  simp only [h1, h2, h3, h4, lineDist_lt_iff _ _ _ _ _ _ _ heps]

open Classical in
theorem candLoop_spec (w : Window) (v : VPar) (s : Shape) (crd : List Coord) (pix : List Shape)
    (hd : DataOK s crd pix) (js : List Nat) (hjs : ∀ j ∈ js, j < crd.length) (acc : List Cand) :
    ∃ k r, candLoop w v s crd pix js acc = .ok r ∧ k ≤ js.length ∧
      r = acc ++ (((js.take k).filter (fun j => AccW w v s crd pix j)).map (mkCand w s crd pix)) ∧
      (acc.length ≤ MAXCAND → r.length ≤ MAXCAND) ∧
      (k = js.length ∨ MAXCAND ≤ r.length ∨
        ∃ j c, js[k]? = some j ∧ crd[j]? = some c ∧ c.x > w.xb + v.eps0) := by
  induction js generalizing acc with
  | nil => exact ⟨0, acc, rfl, by simp, by simp, id, Or.inl rfl⟩
  | cons j js ih =>
    have hj := hjs j (by simp)
    have hjs' : ∀ i ∈ js, i < crd.length := fun i hi => hjs i (by simp [hi])
    have hcj : crd[j]? = some crd[j] := by simp [hj]
    obtain ⟨⟨sn, snx, sny, ssg⟩, hpn, hpix⟩ := hd
    have hpj := hpn crd[j] (List.getElem_mem hj)
    have htj : pix[crd[j].pnr]? = some pix[crd[j].pnr] := by simp [hpj]
    obtain ⟨tn, tnx, tny, tsg⟩ := hpix pix[crd[j].pnr] (List.getElem_mem hpj)
    -- what to conclude when j is skipped
    have skip : ¬ AccW w v s crd pix j →
        candLoop w v s crd pix (j :: js) acc = candLoop w v s crd pix js acc →
        ∃ k r, candLoop w v s crd pix (j :: js) acc = .ok r ∧ k ≤ (j :: js).length ∧
        r = acc ++ ((((j :: js).take k).filter (fun j => AccW w v s crd pix j)).map
          (mkCand w s crd pix)) ∧
        (acc.length ≤ MAXCAND → r.length ≤ MAXCAND) ∧
        (k = (j :: js).length ∨ MAXCAND ≤ r.length ∨
          ∃ i c, (j :: js)[k]? = some i ∧ crd[i]? = some c ∧ c.x > w.xb + v.eps0) := by
      intro hna he
      obtain ⟨k, r, h1, h2, h3, h4, h5⟩ := ih hjs' acc
      refine ⟨k + 1, r, by rw [he, h1], by simp; omega, ?_, h4, ?_⟩
      · rw [List.take_succ_cons, List.filter_cons_of_neg (by simpa using hna)]; exact h3
      · rcases h5 with h | h | h
        · exact Or.inl (by simp [h])
        · exact Or.inr (Or.inl h)
        · exact Or.inr (Or.inr (by simpa using h))
    have notAcc : ∀ P : Prop, (AccW w v s crd pix j → P) → ¬ P → ¬ AccW w v s crd pix j :=
      fun P h hP ha => hP (h ha)
    have accElim : AccW w v s crd pix j →
        ((w.xa - v.eps0 < crd[j].x ∧ crd[j].x < w.xb + v.eps0) ∧
        (w.ya - v.eps0 < crd[j].y ∧ crd[j].y < w.yb + v.eps0) ∧
        lineDist w crd[j].x crd[j].y < v.eps0 ∧
        v.cn ≤ ratio s.n pix[crd[j].pnr].n ∧ v.cnx ≤ ratio s.nx pix[crd[j].pnr].nx ∧
        v.cny ≤ ratio s.ny pix[crd[j].pnr].ny ∧
        v.csumg < ratio s.sumg pix[crd[j].pnr].sumg) := by
      rintro ⟨c, t, h1, h2, h3⟩
      rw [hcj] at h1
      have := Option.some.inj h1; subst this
      rw [htj] at h2
      have := Option.some.inj h2; subst this
      exact h3
    by_cases hbreak : crd[j].x > w.xb + v.eps0
    · refine ⟨0, acc, ?_, by simp, by simp, id, Or.inr (Or.inr ⟨j, crd[j], by simp, hcj, hbreak⟩)⟩
      unfold candLoop
      rw [pyGet_lt hj]; simp only [bind, Except.bind]; rw [if_pos hbreak]
    by_cases hy : crd[j].y ≤ w.ya - v.eps0 ∨ crd[j].y ≥ w.yb + v.eps0
    · refine skip ?_ ?_
      · intro ha; obtain ⟨-, ⟨a, b⟩, -⟩ := accElim ha
        rcases hy with h | h <;> linarith
      · conv_lhs => unfold candLoop
        rw [pyGet_lt hj]; simp only [bind, Except.bind]; rw [if_neg hbreak, if_pos hy]
    by_cases hx : crd[j].x ≤ w.xa - v.eps0 ∨ crd[j].x ≥ w.xb + v.eps0
    · refine skip ?_ ?_
      · intro ha; obtain ⟨⟨a, b⟩, -⟩ := accElim ha
        rcases hx with h | h <;> linarith
      · conv_lhs => unfold candLoop
        rw [pyGet_lt hj]; simp only [bind, Except.bind]; rw [if_neg hbreak, if_neg hy, if_pos hx]
    by_cases hdd : lineDist w crd[j].x crd[j].y ≥ v.eps0
    · refine skip ?_ ?_
      · intro ha; obtain ⟨-, -, a, -⟩ := accElim ha; linarith
      · conv_lhs => unfold candLoop
        rw [pyGet_lt hj]; simp only [bind, Except.bind]
        rw [if_neg hbreak, if_neg hy, if_neg hx, if_pos hdd]
    have unf : candLoop w v s crd pix (j :: js) acc =
        if ratio s.n pix[crd[j].pnr].n < v.cn ∨ ratio s.nx pix[crd[j].pnr].nx < v.cnx ∨
          ratio s.ny pix[crd[j].pnr].ny < v.cny ∨ ratio s.sumg pix[crd[j].pnr].sumg ≤ v.csumg then
          candLoop w v s crd pix js acc
        else if acc.length ≥ MAXCAND then .ok acc
        else candLoop w v s crd pix js (acc ++ [⟨j, lineDist w crd[j].x crd[j].y,
          (4 * ratio s.sumg pix[crd[j].pnr].sumg + 2 * ratio s.n pix[crd[j].pnr].n +
            ratio s.nx pix[crd[j].pnr].nx + ratio s.ny pix[crd[j].pnr].ny) *
            (s.sumg + pix[crd[j].pnr].sumg)⟩]) := by
      conv_lhs => unfold candLoop
      rw [pyGet_lt hj]; simp only [bind, Except.bind]
      rw [if_neg hbreak, if_neg hy, if_neg hx, if_neg hdd, pyGet_lt hpj]
      simp only [qualityRatio_ok sn tn, qualityRatio_ok snx tnx, qualityRatio_ok sny tny,
        qualityRatio_ok ssg tsg]
    by_cases hq : ratio s.n pix[crd[j].pnr].n < v.cn ∨ ratio s.nx pix[crd[j].pnr].nx < v.cnx ∨
          ratio s.ny pix[crd[j].pnr].ny < v.cny ∨ ratio s.sumg pix[crd[j].pnr].sumg ≤ v.csumg
    · refine skip ?_ ?_
      · intro ha; obtain ⟨-, -, -, a, b, c, d⟩ := accElim ha
        rcases hq with h | h | h | h <;> linarith
      · rw [unf, if_pos hq]
    rw [unf, if_neg hq]
    by_cases hm : acc.length ≥ MAXCAND
    · rw [if_pos hm]
      exact ⟨0, acc, rfl, by simp, by simp, id, Or.inr (Or.inl hm)⟩
    rw [if_neg hm]
    have hacc : AccW w v s crd pix j := by
      simp only [not_or, not_le, not_lt, ge_iff_le] at hy hx hdd hq
      exact ⟨crd[j], pix[crd[j].pnr], hcj, htj, ⟨hx.1, hx.2⟩, ⟨hy.1, hy.2⟩, hdd,
        hq.1, hq.2.1, hq.2.2.1, hq.2.2.2⟩
    have hmk : mkCand w s crd pix j = ⟨j, lineDist w crd[j].x crd[j].y,
          (4 * ratio s.sumg pix[crd[j].pnr].sumg + 2 * ratio s.n pix[crd[j].pnr].n +
            ratio s.nx pix[crd[j].pnr].nx + ratio s.ny pix[crd[j].pnr].ny) *
            (s.sumg + pix[crd[j].pnr].sumg)⟩ := by
      simp only [mkCand, hcj, htj]
    rw [← hmk]
    obtain ⟨k, r, h1, h2, h3, h4, h5⟩ := ih hjs' (acc ++ [mkCand w s crd pix j])
    refine ⟨k + 1, r, h1, by simp; omega, ?_, ?_, ?_⟩
    · rw [List.take_succ_cons, List.filter_cons_of_pos (by simpa using hacc)]
      rw [h3]; simp
    · intro _; apply h4; simp; omega
    · rcases h5 with h | h | h
      · exact Or.inl (by simp [h])
      · exact Or.inr (Or.inl h)
      · exact Or.inr (Or.inr (by simpa using h))

/-! ### pixel loops -/

section
variable {K : Type} [Field K] [LinearOrder K] [IsStrictOrderedRing K]

/-- Passing targets of the window search. -/
def PassW (ts : List (Tgt K)) (w : Win K) (j : Nat) : Prop :=
  ∃ t, ts[j]? = some t ∧ t.tnr ≠ -1 ∧ (w.xmin < t.x ∧ t.x < w.xmax) ∧ (w.ymin < t.y ∧ t.y < w.ymax)

open Classical in
theorem pixLoop_spec (ts : List (Tgt K)) (w : Win K) (cx cy : K) (js : List Nat)
    (hjs : ∀ j ∈ js, j < ts.length) (s : Best K) :
    ∃ k s', pixLoop ts w cx cy js s = .ok s' ∧ k ≤ js.length ∧
      s' = ((js.take k).filter (fun j => PassW ts w j)).foldl
        (fun s j => s.insert j (distOf ts cx cy j)) s ∧
      (k = js.length ∨ ∃ j t, js[k]? = some j ∧ ts[j]? = some t ∧ t.y > w.ymax) := by
  induction js generalizing s with
  | nil => exact ⟨0, s, rfl, by simp, by simp, Or.inl rfl⟩
  | cons j js ih =>
    have hj := hjs j (by simp)
    have hjs' : ∀ i ∈ js, i < ts.length := fun i hi => hjs i (by simp [hi])
    have htj : ts[j]? = some ts[j] := by simp [hj]
    have hdist : distOf ts cx cy j = dist2 cx cy ts[j] := by simp [distOf, htj, dist2]
    have elim : PassW ts w j → ts[j].tnr ≠ -1 ∧ (w.xmin < ts[j].x ∧ ts[j].x < w.xmax) ∧
        (w.ymin < ts[j].y ∧ ts[j].y < w.ymax) := by
      rintro ⟨t, h1, h2⟩
      rw [htj] at h1; have := Option.some.inj h1; subst this; exact h2
    have skip : ¬ PassW ts w j → pixLoop ts w cx cy (j :: js) s = pixLoop ts w cx cy js s →
        ∃ k s', pixLoop ts w cx cy (j :: js) s = .ok s' ∧ k ≤ (j :: js).length ∧
        s' = (((j :: js).take k).filter (fun j => PassW ts w j)).foldl
          (fun s j => s.insert j (distOf ts cx cy j)) s ∧
        (k = (j :: js).length ∨ ∃ i t, (j :: js)[k]? = some i ∧ ts[i]? = some t ∧ t.y > w.ymax) := by
      intro hn he
      obtain ⟨k, s', h1, h2, h3, h4⟩ := ih hjs' s
      refine ⟨k + 1, s', by rw [he, h1], by simp; omega, ?_, ?_⟩
      · rw [List.take_succ_cons, List.filter_cons_of_neg (by simpa using hn)]; exact h3
      · rcases h4 with h | h
        · exact Or.inl (by simp [h])
        · exact Or.inr (by simpa using h)
    by_cases htn : ts[j].tnr = -1
    · refine skip (fun h => (elim h).1 htn) ?_
      conv_lhs => unfold pixLoop
      rw [pyGet_lt hj]; simp only [bind, Except.bind]; rw [if_neg (by simpa using htn)]
    by_cases hy : ts[j].y > w.ymax
    · refine ⟨0, s, ?_, by simp, by simp, Or.inr ⟨j, ts[j], by simp, htj, hy⟩⟩
      unfold pixLoop
      rw [pyGet_lt hj]; simp only [bind, Except.bind]; rw [if_pos htn, if_pos hy]
    by_cases hw : (w.xmin < ts[j].x ∧ ts[j].x < w.xmax) ∧ (w.ymin < ts[j].y ∧ ts[j].y < w.ymax)
    · have hp : PassW ts w j := ⟨ts[j], htj, htn, hw.1, hw.2⟩
      obtain ⟨k, s', h1, h2, h3, h4⟩ := ih hjs' (s.insert j (dist2 cx cy ts[j]))
      refine ⟨k + 1, s', ?_, by simp; omega, ?_, ?_⟩
      · conv_lhs => unfold pixLoop
        rw [pyGet_lt hj]; simp only [bind, Except.bind]
        rw [if_pos htn, if_neg hy, if_pos hw]; exact h1
      · rw [List.take_succ_cons, List.filter_cons_of_pos (by simpa using hp), List.foldl_cons, hdist]
        exact h3
      · rcases h4 with h | h
        · exact Or.inl (by simp [h])
        · exact Or.inr (by simpa using h)
    · refine skip (fun h => hw (elim h).2) ?_
      conv_lhs => unfold pixLoop
      rw [pyGet_lt hj]; simp only [bind, Except.bind]; rw [if_pos htn, if_neg hy, if_neg hw]

/-- A slot is empty or holds a visited target with its distance. -/
def SlotOK (D : Nat → K) (V : List Nat) (p : Int) (d : K) : Prop :=
  (p = -1 ∧ d = BIG) ∨ ∃ j ∈ V, p = (j : Int) ∧ d = D j

/-- Invariant of the four slots after visiting `V`. -/
structure BestInv (D : Nat → K) (V : List Nat) (s : Best K) : Prop where
  s1 : SlotOK D V s.p1 s.d1
  s2 : SlotOK D V s.p2 s.d2
  s3 : SlotOK D V s.p3 s.d3
  s4 : SlotOK D V s.p4 s.d4
  o1 : s.d1 < s.d2 ∨ s.d2 = BIG
  o2 : s.d2 < s.d3 ∨ s.d3 = BIG
  o3 : s.d3 < s.d4 ∨ s.d4 = BIG
  cover : ∀ j ∈ V, D j = s.d1 ∨ D j = s.d2 ∨ D j = s.d3 ∨ D j = s.d4 ∨ s.d4 < D j

theorem SlotOK.mono {D : Nat → K} {V : List Nat} {p : Int} {d : K} (h : SlotOK D V p d) (j : Nat) :
    SlotOK D (V ++ [j]) p d := by
  rcases h with h | ⟨i, h1, h2⟩
  · exact Or.inl h
  · exact Or.inr ⟨i, by simp [h1], h2⟩

theorem SlotOK.le {D : Nat → K} {V : List Nat} (hV : ∀ j ∈ V, D j < BIG) {p : Int} {d : K}
    (h : SlotOK D V p d) : d ≤ BIG := by
  rcases h with h | ⟨i, h1, h2⟩
  · exact le_of_eq h.2
  · rw [h2.2]; exact le_of_lt (hV i h1)

theorem BestInv.insert {D : Nat → K} {V : List Nat} {s : Best K} (h : BestInv D V s)
    (hV : ∀ j ∈ V, D j < BIG) (j : Nat) (hj : D j < BIG) :
    BestInv D (V ++ [j]) (s.insert j (D j)) := by
  have new : SlotOK D (V ++ [j]) (j : Int) (D j) := Or.inr ⟨j, by simp, rfl, rfl⟩
  have cov : ∀ P : Nat → Prop, (∀ i ∈ V, P i) → P j → ∀ i ∈ V ++ [j], P i := by
    intro P h1 h2 i hi
    rcases List.mem_append.1 hi with h | h
    · exact h1 i h
    · simp at h; subst h; exact h2
  have l1 := h.s1.le hV; have l2 := h.s2.le hV; have l3 := h.s3.le hV; have l4 := h.s4.le hV
  have o1 := h.o1; have o2 := h.o2; have o3 := h.o3
  have le12 : s.d1 ≤ s.d2 := by rcases o1 with h | h <;> linarith
  have le23 : s.d2 ≤ s.d3 := by rcases o2 with h | h <;> linarith
  have le34 : s.d3 ≤ s.d4 := by rcases o3 with h | h <;> linarith
  unfold Best.insert
  split_ifs with c1 c2 c3 c4
  · refine ⟨new, h.s1.mono j, h.s2.mono j, h.s3.mono j, Or.inl c1, o1, o2, cov _ ?_ (by simp)⟩
    intro i hi
    rcases h.cover i hi with e | e | e | e | e
    · simp [e]
    · simp [e]
    · simp [e]
    · simp only; rcases o3 with h3 | h3
      · right; right; right; right; linarith
      · have := hV i hi; rw [e, h3] at this; exact absurd this (lt_irrefl _)
    · simp only; right; right; right; right; linarith
  · refine ⟨h.s1.mono j, new, h.s2.mono j, h.s3.mono j, Or.inl c2.1, Or.inl c2.2, o2, cov _ ?_ (by simp)⟩
    intro i hi
    rcases h.cover i hi with e | e | e | e | e
    · simp [e]
    · simp [e]
    · simp [e]
    · simp only; rcases o3 with h3 | h3
      · right; right; right; right; linarith
      · have := hV i hi; rw [e, h3] at this; exact absurd this (lt_irrefl _)
    · simp only; right; right; right; right; linarith
  · refine ⟨h.s1.mono j, h.s2.mono j, new, h.s3.mono j, o1, Or.inl c3.1, Or.inl c3.2, cov _ ?_ (by simp)⟩
    intro i hi
    rcases h.cover i hi with e | e | e | e | e
    · simp [e]
    · simp [e]
    · simp [e]
    · simp only; rcases o3 with h3 | h3
      · right; right; right; right; linarith
      · have := hV i hi; rw [e, h3] at this; exact absurd this (lt_irrefl _)
    · simp only; right; right; right; right; linarith
  · refine ⟨h.s1.mono j, h.s2.mono j, h.s3.mono j, new, o1, o2, Or.inl c4.1, cov _ ?_ (by simp)⟩
    intro i hi
    rcases h.cover i hi with e | e | e | e | e
    · simp [e]
    · simp [e]
    · simp [e]
    · simp only; right; right; right; right; linarith [c4.2]
    · simp only; right; right; right; right; linarith [c4.2]
  · refine ⟨h.s1.mono j, h.s2.mono j, h.s3.mono j, h.s4.mono j, o1, o2, o3, cov _ h.cover ?_⟩
    simp only [not_lt, not_and_or] at c1 c2 c3 c4
    rcases eq_or_lt_of_le c1 with e | e
    · exact Or.inl e.symm
    rcases c2 with c2 | c2
    · linarith
    rcases eq_or_lt_of_le c2 with e | e
    · exact Or.inr (Or.inl e.symm)
    rcases c3 with c3 | c3
    · linarith
    rcases eq_or_lt_of_le c3 with e | e
    · exact Or.inr (Or.inr (Or.inl e.symm))
    rcases c4 with c4 | c4
    · linarith
    rcases eq_or_lt_of_le c4 with e | e
    · exact Or.inr (Or.inr (Or.inr (Or.inl e.symm)))
    · exact Or.inr (Or.inr (Or.inr (Or.inr e)))

theorem BestInv.init (D : Nat → K) : BestInv D [] Best.init :=
  ⟨Or.inl ⟨rfl, rfl⟩, Or.inl ⟨rfl, rfl⟩, Or.inl ⟨rfl, rfl⟩, Or.inl ⟨rfl, rfl⟩, Or.inr rfl, Or.inr rfl,
    Or.inr rfl, by simp⟩

theorem BestInv.foldl {D : Nat → K} {V W : List Nat} {s : Best K} (h : BestInv D V s)
    (hV : ∀ j ∈ V, D j < BIG) (hW : ∀ j ∈ W, D j < BIG) :
    BestInv D (V ++ W) (W.foldl (fun s j => s.insert j (D j)) s) := by
  induction W generalizing V s with
  | nil => simpa using h
  | cons j W ih =>
    have := ih (h.insert hV j (hW j (by simp))) (by
      intro i hi
      rcases List.mem_append.1 hi with h | h
      · exact hV i h
      · simp at h; subst h; exact hW i (by simp)) (fun i hi => hW i (by simp [hi]))
    simpa using this

/-- The slots as a list of found targets followed by empty marks. -/
theorem BestInv.list {D : Nat → K} {V : List Nat} {s : Best K} (h : BestInv D V s)
    (hV : ∀ j ∈ V, D j < BIG) :
    ∃ L : List Nat, L.length ≤ 4 ∧
      [s.p1, s.p2, s.p3, s.p4] = L.map Int.ofNat ++ List.replicate (4 - L.length) (-1) ∧
      (∀ j ∈ L, j ∈ V) ∧ L.Pairwise (fun i j => D i < D j) ∧
      ∀ j ∈ V, (∃ i ∈ L, D i = D j) ∨ (L.length = 4 ∧ ∀ i ∈ L, D i < D j) := by
  obtain ⟨s1, s2, s3, s4, o1, o2, o3, cov⟩ := h
  have nb : ∀ j ∈ V, D j ≠ BIG := fun j hj => ne_of_lt (hV j hj)
  rcases s1 with ⟨e1, f1⟩ | ⟨j1, m1, e1, f1⟩
  · -- first empty: all empty
    have f2 : s.d2 = BIG := by
      rcases o1 with h | h
      · rcases s2 with ⟨-, g⟩ | ⟨j, mj, -, g⟩
        · exact g
        · have := hV j mj; rw [f1, g] at h; linarith
      · exact h
    have f3 : s.d3 = BIG := by
      rcases o2 with h | h
      · rcases s3 with ⟨-, g⟩ | ⟨j, mj, -, g⟩
        · exact g
        · have := hV j mj; rw [f2, g] at h; linarith
      · exact h
    have f4 : s.d4 = BIG := by
      rcases o3 with h | h
      · rcases s4 with ⟨-, g⟩ | ⟨j, mj, -, g⟩
        · exact g
        · have := hV j mj; rw [f3, g] at h; linarith
      · exact h
    have e2 : s.p2 = -1 := by
      rcases s2 with ⟨e, -⟩ | ⟨j, mj, -, g⟩
      · exact e
      · exact absurd (g.symm.trans f2) (nb j mj)
    have e3 : s.p3 = -1 := by
      rcases s3 with ⟨e, -⟩ | ⟨j, mj, -, g⟩
      · exact e
      · exact absurd (g.symm.trans f3) (nb j mj)
    have e4 : s.p4 = -1 := by
      rcases s4 with ⟨e, -⟩ | ⟨j, mj, -, g⟩
      · exact e
      · exact absurd (g.symm.trans f4) (nb j mj)
    refine ⟨[], by simp, by simp [e1, e2, e3, e4, List.replicate], by simp, by simp, ?_⟩
    intro j hj
    exfalso
    have := hV j hj
    rcases cov j hj with h | h | h | h | h <;> linarith
  rcases s2 with ⟨e2, f2⟩ | ⟨j2, m2, e2, f2⟩
  · have f3 : s.d3 = BIG := by
      rcases o2 with h | h
      · rcases s3 with ⟨-, g⟩ | ⟨j, mj, -, g⟩
        · exact g
        · have := hV j mj; rw [f2, g] at h; linarith
      · exact h
    have f4 : s.d4 = BIG := by
      rcases o3 with h | h
      · rcases s4 with ⟨-, g⟩ | ⟨j, mj, -, g⟩
        · exact g
        · have := hV j mj; rw [f3, g] at h; linarith
      · exact h
    have e3 : s.p3 = -1 := by
      rcases s3 with ⟨e, -⟩ | ⟨j, mj, -, g⟩
      · exact e
      · exact absurd (g.symm.trans f3) (nb j mj)
    have e4 : s.p4 = -1 := by
      rcases s4 with ⟨e, -⟩ | ⟨j, mj, -, g⟩
      · exact e
      · exact absurd (g.symm.trans f4) (nb j mj)
    refine ⟨[j1], by simp, by simp [e1, e2, e3, e4, List.replicate], by simpa using m1, by simp, ?_⟩
    intro j hj
    have := hV j hj
    rcases cov j hj with h | h | h | h | h
    · exact Or.inl ⟨j1, by simp, by rw [h, f1]⟩
    all_goals (exfalso; linarith)
  have lt12 : D j1 < D j2 := by
    rcases o1 with h | h
    · rwa [f1, f2] at h
    · exact absurd (f2.symm.trans h) (nb j2 m2)
  rcases s3 with ⟨e3, f3⟩ | ⟨j3, m3, e3, f3⟩
  · have f4 : s.d4 = BIG := by
      rcases o3 with h | h
      · rcases s4 with ⟨-, g⟩ | ⟨j, mj, -, g⟩
        · exact g
        · have := hV j mj; rw [f3, g] at h; linarith
      · exact h
    have e4 : s.p4 = -1 := by
      rcases s4 with ⟨e, -⟩ | ⟨j, mj, -, g⟩
      · exact e
      · exact absurd (g.symm.trans f4) (nb j mj)
    refine ⟨[j1, j2], by simp, by simp [e1, e2, e3, e4, List.replicate], ?_, by simpa using lt12, ?_⟩
    · intro j hj; simp at hj; rcases hj with rfl | rfl <;> assumption
    intro j hj
    have := hV j hj
    rcases cov j hj with h | h | h | h | h
    · exact Or.inl ⟨j1, by simp, by rw [h, f1]⟩
    · exact Or.inl ⟨j2, by simp, by rw [h, f2]⟩
    all_goals (exfalso; linarith)
  have lt23 : D j2 < D j3 := by
    rcases o2 with h | h
    · rwa [f2, f3] at h
    · exact absurd (f3.symm.trans h) (nb j3 m3)
  rcases s4 with ⟨e4, f4⟩ | ⟨j4, m4, e4, f4⟩
  · refine ⟨[j1, j2, j3], by simp, by simp [e1, e2, e3, e4], ?_, ?_, ?_⟩
    · intro j hj; simp at hj; rcases hj with rfl | rfl | rfl <;> assumption
    · simp; exact ⟨⟨lt12, lt_trans lt12 lt23⟩, lt23⟩
    intro j hj
    have := hV j hj
    rcases cov j hj with h | h | h | h | h
    · exact Or.inl ⟨j1, by simp, by rw [h, f1]⟩
    · exact Or.inl ⟨j2, by simp, by rw [h, f2]⟩
    · exact Or.inl ⟨j3, by simp, by rw [h, f3]⟩
    all_goals (exfalso; linarith)
  have lt34 : D j3 < D j4 := by
    rcases o3 with h | h
    · rwa [f3, f4] at h
    · exact absurd (f4.symm.trans h) (nb j4 m4)
  refine ⟨[j1, j2, j3, j4], by simp, by simp [e1, e2, e3, e4], ?_, ?_, ?_⟩
  · intro j hj; simp at hj; rcases hj with rfl | rfl | rfl | rfl <;> assumption
  · simp
    exact ⟨⟨lt12, lt_trans lt12 lt23, lt_trans lt12 (lt_trans lt23 lt34)⟩,
      ⟨lt23, lt_trans lt23 lt34⟩, lt34⟩
  intro j hj
  rcases cov j hj with h | h | h | h | h
  · exact Or.inl ⟨j1, by simp, by rw [h, f1]⟩
  · exact Or.inl ⟨j2, by simp, by rw [h, f2]⟩
  · exact Or.inl ⟨j3, by simp, by rw [h, f3]⟩
  · exact Or.inl ⟨j4, by simp, by rw [h, f4]⟩
  · refine Or.inr ⟨rfl, ?_⟩
    rw [f4] at h
    intro i hi; simp at hi
    rcases hi with rfl | rfl | rfl | rfl <;> linarith

/-! ### search among unmatched targets -/

/-- Passing targets of the search among unmatched targets. -/
def PassFree (ts : List (Tgt K)) (w : Win K) (j : Nat) : Prop :=
  ∃ t, ts[j]? = some t ∧ t.tnr = -1 ∧ (w.xmin < t.x ∧ t.x < w.xmax) ∧ (w.ymin < t.y ∧ t.y < w.ymax)

/-- What the running minimum means after visiting `V`. -/
def RestInv (D : Nat → K) (V : List Nat) (p0 : Int) (s : K × Int) : Prop :=
  (V = [] ∧ s = (BIG, p0)) ∨ ∃ j ∈ V, s = (D j, (j : Int)) ∧ ∀ i ∈ V, D j ≤ D i

open Classical in
theorem restLoop_spec (ts : List (Tgt K)) (w : Win K) (cx cy : K) (p0 : Int) (js : List Nat)
    (hjs : ∀ j ∈ js, j < ts.length)
    (hbig : ∀ j, PassFree ts w j → distOf ts cx cy j < BIG) (V : List Nat) (s : K × Int)
    (hinv : RestInv (distOf ts cx cy) V p0 s) :
    ∃ k s', restLoop ts w cx cy js s = .ok s' ∧ k ≤ js.length ∧
      RestInv (distOf ts cx cy) (V ++ (js.take k).filter (fun j => PassFree ts w j)) p0 s' ∧
      (k = js.length ∨ ∃ j t, js[k]? = some j ∧ ts[j]? = some t ∧ t.y > w.ymax) := by
  induction js generalizing s V with
  | nil => exact ⟨0, s, rfl, by simp, by simpa using hinv, Or.inl rfl⟩
  | cons j js ih =>
    have hj := hjs j (by simp)
    have hjs' : ∀ i ∈ js, i < ts.length := fun i hi => hjs i (by simp [hi])
    have htj : ts[j]? = some ts[j] := by simp [hj]
    have hdist : distOf ts cx cy j = dist2 cx cy ts[j] := by simp [distOf, htj, dist2]
    have elim : PassFree ts w j → ts[j].tnr = -1 ∧ (w.xmin < ts[j].x ∧ ts[j].x < w.xmax) ∧
        (w.ymin < ts[j].y ∧ ts[j].y < w.ymax) := by
      rintro ⟨t, h1, h2⟩
      rw [htj] at h1; have := Option.some.inj h1; subst this; exact h2
    have go : ∀ (V1 : List Nat) (s1 : K × Int), RestInv (distOf ts cx cy) V1 p0 s1 →
        V1 = V ++ ([j].filter (fun j => PassFree ts w j)) →
        restLoop ts w cx cy (j :: js) s = restLoop ts w cx cy js s1 →
        ∃ k s', restLoop ts w cx cy (j :: js) s = .ok s' ∧ k ≤ (j :: js).length ∧
        RestInv (distOf ts cx cy) (V ++ ((j :: js).take k).filter (fun j => PassFree ts w j)) p0 s' ∧
        (k = (j :: js).length ∨ ∃ i t, (j :: js)[k]? = some i ∧ ts[i]? = some t ∧ t.y > w.ymax) := by
      intro V1 s1 hi hV he
      obtain ⟨k, s', h1, h2, h3, h4⟩ := ih hjs' V1 s1 hi
      refine ⟨k + 1, s', by rw [he, h1], by simp; omega, ?_, ?_⟩
      · rw [List.take_succ_cons]
        have : V ++ List.filter (fun j => decide (PassFree ts w j)) (j :: js.take k) =
            V1 ++ List.filter (fun j => decide (PassFree ts w j)) (js.take k) := by
          rw [hV, List.append_assoc, ← List.filter_append]; rfl
        rw [this]; exact h3
      · rcases h4 with h | h
        · exact Or.inl (by simp [h])
        · exact Or.inr (by simpa using h)
    by_cases htn : ts[j].tnr = -1
    swap
    · refine go V s hinv ?_ ?_
      · have : ¬ PassFree ts w j := fun h => htn (elim h).1
        simp [this]
      · conv_lhs => unfold restLoop
        rw [pyGet_lt hj]; simp only [bind, Except.bind]; rw [if_neg htn]
    by_cases hy : ts[j].y > w.ymax
    · refine ⟨0, s, ?_, by simp, by simpa using hinv, Or.inr ⟨j, ts[j], by simp, htj, hy⟩⟩
      unfold restLoop
      rw [pyGet_lt hj]; simp only [bind, Except.bind]; rw [if_pos htn, if_pos hy]
    by_cases hw : (w.xmin < ts[j].x ∧ ts[j].x < w.xmax) ∧ (w.ymin < ts[j].y ∧ ts[j].y < w.ymax)
    · have hp : PassFree ts w j := ⟨ts[j], htj, htn, hw.1, hw.2⟩
      have hf : [j].filter (fun j => decide (PassFree ts w j)) = [j] := by simp [hp]
      by_cases hlt : dist2 cx cy ts[j] < s.1
      · refine go (V ++ [j]) (dist2 cx cy ts[j], j) ?_ (by rw [hf]) ?_
        · right
          refine ⟨j, by simp, by rw [hdist], ?_⟩
          intro i hi
          rcases List.mem_append.1 hi with h | h
          · rcases hinv with ⟨rfl, -⟩ | ⟨i0, -, rfl, h3⟩
            · simp at h
            · rw [hdist]; exact le_trans (le_of_lt hlt) (h3 i h)
          · simp at h; subst h; exact le_refl _
        · conv_lhs => unfold restLoop
          rw [pyGet_lt hj]; simp only [bind, Except.bind]
          rw [if_pos htn, if_neg hy, if_pos ⟨hw.1, hw.2, hlt⟩]
      · refine go (V ++ [j]) s ?_ (by rw [hf]) ?_
        · rcases hinv with ⟨rfl, rfl⟩ | ⟨i0, h2, rfl, h3⟩
          · exact absurd (by rw [← hdist]; exact hbig j hp) hlt
          · right
            refine ⟨i0, by simp [h2], rfl, ?_⟩
            intro i hi
            rcases List.mem_append.1 hi with h | h
            · exact h3 i h
            · simp at h; subst h; rw [hdist]; exact not_lt.1 hlt
        · conv_lhs => unfold restLoop
          rw [pyGet_lt hj]; simp only [bind, Except.bind]
          rw [if_pos htn, if_neg hy, if_neg (fun h => hlt h.2.2)]
    · refine go V s hinv ?_ ?_
      · have : ¬ PassFree ts w j := fun h => hw (elim h).2
        simp [this]
      · conv_lhs => unfold restLoop
        rw [pyGet_lt hj]; simp only [bind, Except.bind]
        rw [if_pos htn, if_neg hy, if_neg (fun h => hw ⟨h.1, h.2.1⟩)]

end

end Verif.Search
