/-
C102, C103: what `full_calibration` and `external_calibration` return.
-/
import Verif.Model.Calibrate
import Verif.Props.Orient

namespace Verif.Geo
open V3 Spec

/-! ### Specification -/

/-- The misfit of a detection: its corrected position in the image minus the image of the reference point, in millimetres. -/
def Spec.Misfit (I : OInput) (k : ℕ) (e : Calib) (m : ℝ × ℝ) : Prop :=
  ∃ (proj : Cam → Option (ℝ × ℝ)) (o : Obs) (p : ℝ × ℝ), I.projs[k]? = some proj ∧ I.pix[k]? = some o ∧
    proj (placed e.cam e.ext) = some p ∧
    m = (let q := pixelToMetric o.x o.y I.ip
         let f := correctBrownAffine q.1 q.2 e.cam.ap I.tol
         (f.1 - p.1, f.2 - p.2))

/-- `r` is the residual of point `k` for the change `b` of the parameters: the change of its image, by the derivatives at `e`
(the two rows of the design matrix), minus its misfit. -/
def Spec.Residual (I : OInput) (env : OEnv) (e : Calib) (b : Beta) (k : ℕ) (r : ℝ × ℝ) : Prop :=
  ∃ (proj : Cam → Option (ℝ × ℝ)) (o : Obs) (e' : Calib) (rows : Rows) (m : ℝ × ℝ), I.projs[k]? = some proj ∧
    I.pix[k]? = some o ∧ pointRows proj I.ip I.tol I.dm I.drad env o e = some (e', rows) ∧ Misfit I k e m ∧
    r = (∑ j ∈ Finset.range env.numbers, rows.rx.getD j 0 * b j - m.1,
      ∑ j ∈ Finset.range env.numbers, rows.ry.getD j 0 * b j - m.2)

/-- The points that take part: detected (their `pnr` is their index) and selected by the use flag. -/
def Spec.Used (I : OInput) (k : ℕ) : Prop := k < I.projs.length ∧ ∃ o, I.pix[k]? = some o ∧ ¬ Excluded I.fl.use k o

/-- The changes of the ten inner parameters, in the order of the identities. -/
def Spec.changes (c c' : Calib) : List ℝ :=
  [c'.cam.cc - c.cam.cc, c'.cam.xh - c.cam.xh, c'.cam.yh - c.cam.yh, c'.cam.ap.k1 - c.cam.ap.k1, c'.cam.ap.k2 - c.cam.ap.k2,
   c'.cam.ap.k3 - c.cam.ap.k3, c'.cam.ap.p1 - c.cam.ap.p1, c'.cam.ap.p2 - c.cam.ap.p2, c'.cam.ap.scx - c.cam.ap.scx,
   c'.cam.ap.she - c.cam.ap.she]

/-- The indices of the used points, in order. -/
def usedIdx (fl : OFlags) : ℕ → List Obs → ℕ → List ℕ
  | 0, _, _ => []
  | _ + 1, [], _ => []
  | n + 1, o :: os, i => if usePoint fl i o then i :: usedIdx fl n os (i + 1) else usedIdx fl n os (i + 1)

/-! ### The loop with residuals is the loop -/

theorem orientIterR_eq (I : OInput) (env : OEnv) (c : Calib) :
    orientIter I env c = (orientIterR I env c).map fun r => (r.1, r.2.1) := by
  simp only [orientIter, orientIterR, Option.bind_eq_bind]
  cases pointsLoop I.ip I.tol I.dm I.drad I.fl env I.projs I.pix 0 c <;> rfl

theorem orientLoopR_eq (I : OInput) (env : OEnv) : ∀ (fuel : ℕ) (c : Calib),
    (orientLoop I env fuel c).map (fun r => (r.1, r.2.1)) = (orientLoopR I env fuel c).map fun r => (r.1, r.2.isSome)
  | 0, c => rfl
  | fuel + 1, c => by
    simp only [orientLoop, orientLoopR, orientIterR_eq, Option.bind_eq_bind]
    cases orientIterR I env c with
    | none => rfl
    | some r =>
      simp only [Option.map_some, Option.bind_some]
      split_ifs
      · rfl
      · rw [← orientLoopR_eq I env fuel r.1]
        cases orientLoop I env fuel r.1 <;> rfl

/-- `orientResi` is `orient` with the residuals. -/
theorem orientResi_eq (I : OInput) (c : Calib) :
    (orient I c).map (fun r => (r.1, r.2.1)) = (orientResi I c).map fun r => (r.1, r.2.isSome) := by
  have h := orientLoopR_eq I (mkEnv I.fl c) numIter c
  simp only [orient, orientResi, Option.bind_eq_bind]
  cases h1 : orientLoop I (mkEnv I.fl c) numIter c with
  | none =>
    rw [h1] at h
    cases h2 : orientLoopR I (mkEnv I.fl c) numIter c with
    | none => rfl
    | some r => rw [h2] at h; cases h
  | some s =>
    rw [h1] at h
    cases h2 : orientLoopR I (mkEnv I.fl c) numIter c with
    | none => rw [h2] at h; cases h
    | some r =>
      rw [h2] at h
      simp only [Option.map_some, Option.some.injEq, Prod.mk.injEq] at h
      obtain ⟨r1, r2⟩ := r
      obtain ⟨s1, s2, s3⟩ := s
      simp only at h
      obtain ⟨rfl, rfl⟩ := h
      cases r2 <;> rfl

/-! ### The rows -/

theorem usedIdx_mem (fl : OFlags) : ∀ (n : ℕ) (os : List Obs) (i k : ℕ),
    k ∈ usedIdx fl n os i ↔ i ≤ k ∧ k < i + n ∧ ∃ o, os[k - i]? = some o ∧ usePoint fl k o = true
  | 0, os, i, k => by simp [usedIdx]; omega
  | n + 1, [], i, k => by simp [usedIdx]
  | n + 1, o :: os, i, k => by
    have ih := usedIdx_mem fl n os (i + 1) k
    have hsplit : (i ≤ k ∧ k < i + (n + 1) ∧ ∃ o', (o :: os)[k - i]? = some o' ∧ usePoint fl k o' = true) ↔
        (k = i ∧ usePoint fl i o = true) ∨
        (i + 1 ≤ k ∧ k < i + 1 + n ∧ ∃ o', os[k - (i + 1)]? = some o' ∧ usePoint fl k o' = true) := by
      rcases Nat.lt_trichotomy k i with hk | rfl | hk
      · constructor
        · rintro ⟨h, -⟩; omega
        · rintro (⟨h, -⟩ | ⟨h, -⟩) <;> omega
      · simp
      · obtain ⟨m, rfl⟩ : ∃ m, k = i + 1 + m := ⟨k - (i + 1), by omega⟩
        have e1 : i + 1 + m - i = m + 1 := by omega
        have e2 : i + 1 + m - (i + 1) = m := by omega
        rw [e1, e2, List.getElem?_cons_succ]
        constructor
        · rintro ⟨-, h2, h3⟩
          exact Or.inr ⟨by omega, by omega, h3⟩
        · rintro (⟨h, -⟩ | ⟨h1, h2, h3⟩)
          · omega
          · exact ⟨by omega, by omega, h3⟩
    rw [hsplit, ← ih]
    simp only [usedIdx]
    split_ifs with hu
    · simp [hu]
    · simp [hu]

theorem usedIdx_sorted (fl : OFlags) : ∀ (n : ℕ) (os : List Obs) (i : ℕ), (usedIdx fl n os i).Pairwise (· < ·)
  | 0, os, i => List.Pairwise.nil
  | n + 1, [], i => List.Pairwise.nil
  | n + 1, o :: os, i => by
    simp only [usedIdx]
    split_ifs
    · refine List.pairwise_cons.2 ⟨?_, usedIdx_sorted fl n os (i + 1)⟩
      intro k hk
      have := ((usedIdx_mem fl n os (i + 1) k).1 hk).1
      omega
    · exact usedIdx_sorted fl n os (i + 1)

theorem pointsLoop_rows {ip : ImgPar} {tol dm drad : ℝ} {fl : OFlags} {env : OEnv} :
    ∀ (fs : List (Cam → Option (ℝ × ℝ))) (os : List Obs) (i : ℕ) (c c' : Calib) (rs : List Rows),
    pointsLoop ip tol dm drad fl env fs os i c = some (c', rs) →
    fs.length ≤ os.length ∧ (usedIdx fl fs.length os i).length = rs.length ∧
    ∀ (j k : ℕ) (r : Rows), (usedIdx fl fs.length os i)[j]? = some k → rs[j]? = some r →
      ∃ proj o e e', fs[k - i]? = some proj ∧ os[k - i]? = some o ∧ i ≤ k ∧ (e = c ∨ e = c.upd.setGlass env.safety) ∧
        pointRows proj ip tol dm drad env o e = some (e', r)
  | [], os, i, c, c', rs, h => by
    simp only [pointsLoop, Option.some.injEq, Prod.mk.injEq] at h
    obtain ⟨-, rfl⟩ := h
    exact ⟨Nat.zero_le _, rfl, by intro j k r h; simp [usedIdx] at h⟩
  | _ :: _, [], i, c, c', rs, h => by simp [pointsLoop] at h
  | f :: fs, o :: os, i, c, c', rs, h => by
    simp only [pointsLoop] at h
    simp only [List.length_cons, usedIdx]
    have shift : ∀ {α : Type} (x : α) (xs : List α) (k : ℕ), i + 1 ≤ k → (x :: xs)[k - i]? = xs[k - (i + 1)]? := by
      intro α x xs k hk
      have : k - i = k - (i + 1) + 1 := by omega
      rw [this, List.getElem?_cons_succ]
    split_ifs at h with hu
    · simp only [Option.bind_eq_bind, Option.bind_eq_some_iff] at h
      obtain ⟨r, hr, s, hs, h⟩ := h
      rw [Option.some.injEq, Prod.mk.injEq] at h
      obtain ⟨-, rfl⟩ := h
      obtain ⟨hl, hn, hrows⟩ := pointsLoop_rows fs os (i + 1) r.1 s.1 s.2 hs
      rw [if_pos hu]
      refine ⟨by omega, by simp [hn], ?_⟩
      intro j k q hj hq
      cases j with
      | zero =>
        simp only [List.getElem?_cons_zero, Option.some.injEq] at hj hq
        subst hj
        refine ⟨f, o, c, r.1, by simp, by simp, le_refl _, Or.inl rfl, ?_⟩
        rw [hr, ← hq]
      | succ j =>
        simp only [List.getElem?_cons_succ] at hj hq
        obtain ⟨proj, o', e, e', g1, g2, g3, g4, g5⟩ := hrows j k q hj hq
        refine ⟨proj, o', e, e', by rw [shift _ _ _ g3, g1], by rw [shift _ _ _ g3, g2], by omega, ?_, g5⟩
        have h1 := pointRows_cal hr
        rcases g4 with g4 | g4
        · exact Or.inr (by rw [g4, h1])
        · exact Or.inr (by rw [g4, h1]; rfl)
    · obtain ⟨hl, hn, hrows⟩ := pointsLoop_rows fs os (i + 1) c c' rs h
      rw [if_neg hu]
      refine ⟨by omega, hn, ?_⟩
      intro j k q hj hq
      obtain ⟨proj, o', e, e', g1, g2, g3, g4, g5⟩ := hrows j k q hj hq
      exact ⟨proj, o', e, e', by rw [shift _ _ _ g3, g1], by rw [shift _ _ _ g3, g2], by omega, g4, g5⟩

theorem pointRows_misfit {proj : Cam → Option (ℝ × ℝ)} {ip : ImgPar} {tol dm drad : ℝ} {env : OEnv} {o : Obs} {c c' : Calib}
    {r : Rows} (h : pointRows proj ip tol dm drad env o c = some (c', r)) :
    ∃ p, proj (placed c.cam c.ext) = some p ∧ (r.yx, r.yy) =
      (let q := pixelToMetric o.x o.y ip
       let f := correctBrownAffine q.1 q.2 c.cam.ap tol
       (f.1 - p.1, f.2 - p.2)) := by
  simp only [pointRows, Option.bind_eq_bind, Option.bind_eq_some_iff] at h
  obtain ⟨p, hp, der, hder, pc, -, pa, -, pb, -, pg, -, h⟩ := h
  rw [Option.some.injEq, Prod.mk.injEq] at h
  refine ⟨p, hp, ?_⟩
  rw [← h.2]

theorem pairs_getElem? {α β : Type} (f g : α → β) : ∀ (l : List α) (j : ℕ),
    (l.flatMap fun r => [f r, g r])[2 * j]? = l[j]?.map f ∧ (l.flatMap fun r => [f r, g r])[2 * j + 1]? = l[j]?.map g
  | [], j => by simp
  | a :: l, 0 => by simp
  | a :: l, j + 1 => by
    obtain ⟨h1, h2⟩ := pairs_getElem? f g l j
    have e : 2 * (j + 1) = 2 * j + 1 + 1 := by ring
    rw [e]
    simpa using ⟨h1, h2⟩

theorem pairs_length {α β : Type} (f g : α → β) : ∀ (l : List α), (l.flatMap fun r => [f r, g r]).length = 2 * l.length
  | [] => rfl
  | a :: l => by simp [pairs_length f g l]; ring

theorem rowDot_unit (n k : ℕ) (hk : 6 + k < n) (b : Beta) :
    rowDot n ((List.range n).map fun j => if j = 6 + k then 1 else 0) b = b (6 + k) := by
  unfold rowDot
  rw [Finset.sum_eq_single (6 + k)]
  · simp [List.getD_eq_getElem?_getD, hk]
  · intro j hj hne
    rw [Finset.mem_range] at hj
    simp [List.getD_eq_getElem?_getD, hj, hne]
  · intro h
    exact absurd (Finset.mem_range.2 hk) h

/-- The residuals of the identities are the changes of the parameters. -/
theorem ident_residuals (fl : OFlags) (env : OEnv) (c0 d : Calib) (b : Beta) (hn : 16 ≤ env.numbers) (hi : env.ident = c0.cam) :
    ((identObs env d).zipIdx.map fun t =>
      rowDot env.numbers ((List.range env.numbers).map fun j => if j = 6 + t.2 then 1 else 0) b - t.1)
    = changes c0 (applyBeta fl env b d) := by
  simp only [identObs, List.zipIdx_cons, List.zipIdx_nil, List.map_cons, List.map_nil, changes, applyBeta, hi]
  rw [rowDot_unit _ 0 (by omega), rowDot_unit _ (0 + 1) (by omega), rowDot_unit _ (0 + 1 + 1) (by omega),
    rowDot_unit _ (0 + 1 + 1 + 1) (by omega), rowDot_unit _ (0 + 1 + 1 + 1 + 1) (by omega),
    rowDot_unit _ (0 + 1 + 1 + 1 + 1 + 1) (by omega), rowDot_unit _ (0 + 1 + 1 + 1 + 1 + 1 + 1) (by omega),
    rowDot_unit _ (0 + 1 + 1 + 1 + 1 + 1 + 1 + 1) (by omega), rowDot_unit _ (0 + 1 + 1 + 1 + 1 + 1 + 1 + 1 + 1) (by omega),
    rowDot_unit _ (0 + 1 + 1 + 1 + 1 + 1 + 1 + 1 + 1 + 1) (by omega)]
  simp only [List.cons.injEq, and_true]
  refine ⟨?_, ?_, ?_, ?_, ?_, ?_, ?_, ?_, ?_, ?_⟩ <;> ring

theorem orientLoopR_pass {I : OInput} {env : OEnv} : ∀ (fuel : ℕ) (c c' : Calib) (p : Pass),
    orientLoopR I env fuel c = some (c', some p) → ∃ d b, orientIterR I env d = some (c', b, p) ∧ Small env.numbers convergence b
  | 0, c, c', p, h => by simp [orientLoopR] at h
  | fuel + 1, c, c', p, h => by
    simp only [orientLoopR, Option.bind_eq_bind, Option.bind_eq_some_iff] at h
    obtain ⟨r, hr, h⟩ := h
    split_ifs at h with hs
    · simp only [Option.some.injEq, Prod.mk.injEq] at h
      obtain ⟨r1, r2, r3⟩ := r
      simp only at h hs
      obtain ⟨rfl, rfl⟩ := h
      exact ⟨c, r2, hr, hs⟩
    · exact orientLoopR_pass fuel _ _ _ h

theorem resiRows_spec {resi : List ℝ} : ∀ (os : List Obs) (ix : ℕ) (ret : List (ℝ × ℝ)), resiRows resi os ix = some ret →
    ret.length = os.length ∧ ∀ j : ℕ, j < os.length → ret[j]? = resiAt resi (ix + j)
  | [], ix, ret, h => by
    simp only [resiRows, Option.some.injEq] at h
    subst h
    exact ⟨rfl, by intro j hj; simp at hj⟩
  | _ :: os, ix, ret, h => by
    simp only [resiRows, Option.bind_eq_bind, Option.bind_eq_some_iff, Option.some.injEq] at h
    obtain ⟨r, hr, rs, hrs, rfl⟩ := h
    obtain ⟨h1, h2⟩ := resiRows_spec os (ix + 1) rs hrs
    refine ⟨by simp [h1], ?_⟩
    intro j hj
    cases j with
    | zero => simp [hr]
    | succ j =>
      rw [List.getElem?_cons_succ, h2 j (by simpa using hj)]
      congr 1
      ring

theorem resiAt_append {a b : List ℝ} {n j : ℕ} (ha : a.length = 2 * n) (hj : n ≤ j) : resiAt (a ++ b) j = resiAt b (j - n) := by
  unfold resiAt
  have e1 : 2 * j - a.length = 2 * (j - n) := by omega
  have e2 : 2 * j + 1 - a.length = 2 * (j - n) + 1 := by omega
  rw [List.getElem?_append_right (by omega), List.getElem?_append_right (by omega), e1, e2]

theorem resiAt_left {a b : List ℝ} {n j : ℕ} (ha : a.length = 2 * n) (hj : j < n) : resiAt (a ++ b) j = resiAt a j := by
  unfold resiAt
  rw [List.getElem?_append_left (by omega), List.getElem?_append_left (by omega)]

/-- A successful calibration ends with a pass whose changes are small. -/
theorem full_pass {I : OInput} {c c' : Calib} {ret : List (ℝ × ℝ)} {used : List ℤ}
    (h : fullCalibration I c = some (c', some (ret, used))) :
    ∃ d c1 b0 p, orientIterR I (mkEnv I.fl c) d = some (c1, b0, p) ∧ Small (mkEnv I.fl c).numbers convergence b0 ∧
      c' = c1.upd ∧ resiRows (residuals (mkEnv I.fl c) I.projs.length p) I.pix 0 = some ret ∧ used = I.pix.map Obs.pnr := by
  simp only [fullCalibration, orientResi, Option.bind_eq_bind, Option.bind_eq_some_iff] at h
  obtain ⟨⟨c1, o1⟩, ⟨⟨c2, o2⟩, hl, h1⟩, h⟩ := h
  cases o2 with
  | none =>
    simp only [Option.some.injEq, Prod.mk.injEq] at h1
    obtain ⟨rfl, rfl⟩ := h1
    simp at h
  | some p =>
    simp only [Option.some.injEq, Prod.mk.injEq] at h1
    obtain ⟨rfl, rfl⟩ := h1
    simp only [Option.bind_eq_some_iff, Option.some.injEq, Prod.mk.injEq] at h
    obtain ⟨ret', hr, rfl, rfl, rfl⟩ := h
    obtain ⟨d, b0, hp, hs⟩ := orientLoopR_pass _ _ _ _ hl
    exact ⟨d, c2, b0, p, hp, hs, rfl, hr, rfl⟩

/-- What the rows are, for one pass. -/
theorem pass_rows {I : OInput} {c d c1 : Calib} {b0 : Beta} {p : Pass} {ret : List (ℝ × ℝ)}
    (hp : orientIterR I (mkEnv I.fl c) d = some (c1, b0, p))
    (hr : resiRows (residuals (mkEnv I.fl c) I.projs.length p) I.pix 0 = some ret) :
    ret.length = I.pix.length ∧ I.projs.length ≤ I.pix.length ∧
    (∀ (j k : ℕ), (usedIdx I.fl I.projs.length I.pix 0)[j]? = some k → ∃ e r, (e = d ∨ e = d.upd.setGlass c.cam.glass) ∧
      ret[j]? = some r ∧ Residual I (mkEnv I.fl c) e (maskBeta I.fl b0) k r) ∧
    (∀ j : ℕ, j < I.pix.length → (usedIdx I.fl I.projs.length I.pix 0).length ≤ j →
      ret[j]? = resiAt (changes c c1 ++ List.replicate (2 * I.projs.length - 2 * (usedIdx I.fl I.projs.length I.pix 0).length) 0)
        (j - (usedIdx I.fl I.projs.length I.pix 0).length)) := by
  obtain ⟨hlen, hget⟩ := resiRows_spec _ _ _ hr
  simp only [orientIterR, Option.bind_eq_bind, Option.bind_eq_some_iff, Option.some.injEq, Prod.mk.injEq] at hp
  obtain ⟨⟨d1, rows⟩, hpl, rfl, rfl, rfl⟩ := hp
  obtain ⟨k1, k2, k3⟩ := pointsLoop_rows _ _ _ _ _ _ hpl
  set env := mkEnv I.fl c with henv
  set b0 := I.solve (system I.fl env d1 rows) with hb0
  have hnum : 16 ≤ env.numbers := by
    rw [henv]; simp only [mkEnv]; split <;> norm_num
  have hres : residuals env I.projs.length ⟨rows, d1, maskBeta I.fl b0⟩ =
      (rows.flatMap fun r => [rowDot env.numbers r.rx (maskBeta I.fl b0) - r.yx,
        rowDot env.numbers r.ry (maskBeta I.fl b0) - r.yy]) ++
      (changes c (applyBeta I.fl env (maskBeta I.fl b0) d1) ++ List.replicate (2 * I.projs.length - 2 * rows.length) 0) := by
    unfold residuals
    rw [ident_residuals I.fl env c d1 _ hnum rfl, List.append_assoc]
  have hplen := pairs_length (fun r : Rows => rowDot env.numbers r.rx (maskBeta I.fl b0) - r.yx)
    (fun r : Rows => rowDot env.numbers r.ry (maskBeta I.fl b0) - r.yy) rows
  refine ⟨hlen, k1, ?_, ?_⟩
  · intro j k hj
    have hjlt : j < rows.length := by
      rw [← k2]; exact (List.getElem?_eq_some_iff.1 hj).1
    obtain ⟨proj, o, e, e', g1, g2, -, g4, g5⟩ := k3 j k rows[j] hj (List.getElem?_eq_getElem hjlt)
    obtain ⟨q, hq, hm⟩ := pointRows_misfit g5
    have hjp : j < I.pix.length := by
      have : (usedIdx I.fl I.projs.length I.pix 0).length ≤ I.projs.length := by
        have hsub : usedIdx I.fl I.projs.length I.pix 0 ⊆ List.range I.projs.length := by
          intro x hx
          have := (usedIdx_mem I.fl _ _ _ _).1 hx
          simp only [List.mem_range]; omega
        have hnd : (usedIdx I.fl I.projs.length I.pix 0).Nodup :=
          (usedIdx_sorted I.fl _ _ _).imp (fun h => Nat.ne_of_lt h)
        simpa using (hnd.subperm hsub).length_le
      omega
    obtain ⟨p1, p2⟩ := pairs_getElem? (fun r : Rows => rowDot env.numbers r.rx (maskBeta I.fl b0) - r.yx)
      (fun r : Rows => rowDot env.numbers r.ry (maskBeta I.fl b0) - r.yy) rows j
    refine ⟨e, _, g4, ?_, proj, o, e', rows[j], (rows[j].yx, rows[j].yy), by simpa using g1, by simpa using g2, g5,
      ⟨proj, o, q, by simpa using g1, by simpa using g2, hq, hm⟩, rfl⟩
    rw [hget j hjp, hres, Nat.zero_add, resiAt_left hplen hjlt]
    unfold resiAt
    rw [p1, p2, List.getElem?_eq_getElem hjlt]
    rfl
  · intro j hj hge
    rw [k2] at hge ⊢
    rw [hget j hj, hres, Nat.zero_add, resiAt_append hplen hge]

theorem changes_upd (c c' : Calib) : changes c c'.upd = changes c c' := rfl

theorem usePoint_true (fl : OFlags) (k : ℕ) (o : Obs) : usePoint fl k o = true ↔ ¬ Excluded fl.use k o := by
  rw [← usePoint_iff]
  simp

theorem used_iff (I : OInput) (k : ℕ) : k ∈ usedIdx I.fl I.projs.length I.pix 0 ↔ Used I k := by
  rw [usedIdx_mem]
  constructor
  · rintro ⟨-, h2, o, h3, h4⟩
    exact ⟨by omega, o, by simpa using h3, (usePoint_true I.fl k o).1 h4⟩
  · rintro ⟨h2, o, h3, h4⟩
    exact ⟨Nat.zero_le _, by omega, o, by simpa using h3, (usePoint_true I.fl k o).2 h4⟩

theorem usedIdx_all (fl : OFlags) : ∀ (n : ℕ) (os : List Obs) (i : ℕ),
    (∀ k < n, ∃ o, os[k]? = some o ∧ usePoint fl (i + k) o = true) → usedIdx fl n os i = List.range' i n
  | 0, os, i, h => rfl
  | n + 1, [], i, h => by obtain ⟨o, h1, -⟩ := h 0 (by omega); simp at h1
  | n + 1, o :: os, i, h => by
    obtain ⟨o', h1, h2⟩ := h 0 (by omega)
    simp only [List.getElem?_cons_zero, Option.some.injEq] at h1
    subst h1
    simp only [usedIdx]
    rw [if_pos (by simpa using h2), List.range'_succ, usedIdx_all fl n os (i + 1)]
    intro k hk
    obtain ⟨o'', h3, h4⟩ := h (k + 1) (by omega)
    exact ⟨o'', by simpa using h3, by convert h4 using 2; omega⟩

/-! ### C102 -/

/-- C102 (partial): what a successful `full_calibration` returns. `used` holds the `pnr` of every target; the rows of `ret` are, in
this order: the residuals of the points that take part, in increasing order; then the changes of the ten inner parameters, two
per row; then zeros. Missing: that the row of a target is its residual (false as soon as a target does not take part:
`C102_shift_refuted`). -/
theorem C102_rows_partial (I : OInput) (c c' : Calib) (ret : List (ℝ × ℝ)) (used : List ℤ)
    (h : fullCalibration I c = some (c', some (ret, used))) :
    used = I.pix.map Obs.pnr ∧ ret.length = I.pix.length ∧
    ∃ (pts : List ℕ) (d : Calib) (b : Beta), pts.Pairwise (· < ·) ∧ (∀ k, k ∈ pts ↔ Used I k) ∧
      c'.ext = ⟨d.ext.x0 + b 0, d.ext.y0 + b 1, d.ext.z0 + b 2, d.ext.omega + b 3, d.ext.phi + b 4, d.ext.kappa + b 5⟩ ∧
      (∀ (j k : ℕ), pts[j]? = some k → ∃ e r, (e = d ∨ e = d.upd.setGlass c.cam.glass) ∧ ret[j]? = some r ∧
        Residual I (mkEnv I.fl c) e b k r) ∧
      (∀ j : ℕ, j < I.pix.length → pts.length ≤ j → ret[j]? =
        resiAt (changes c c' ++ List.replicate (2 * I.projs.length - 2 * pts.length) 0) (j - pts.length)) := by
  obtain ⟨d, c1, b0, p, hp, hs, rfl, hr, rfl⟩ := full_pass h
  obtain ⟨h1, h2, h3, h4⟩ := pass_rows hp hr
  refine ⟨rfl, h1, usedIdx I.fl I.projs.length I.pix 0, d, maskBeta I.fl b0, usedIdx_sorted _ _ _ _, used_iff I, ?_, h3, ?_⟩
  · have he := orientIterR_eq I (mkEnv I.fl c) d
    rw [hp] at he
    have hx := orientIter_ext he
    exact hx
  · intro j hj hge
    rw [changes_upd]
    exact h4 j hj hge

/-- If every target belongs to its point and is selected, row `k` of `ret` is the residual of point `k`, and `used` counts up. -/
theorem C102_all_used_partial (I : OInput) (c c' : Calib) (ret : List (ℝ × ℝ)) (used : List ℤ)
    (h : fullCalibration I c = some (c', some (ret, used))) (hl : I.pix.length = I.projs.length)
    (hall : ∀ k < I.pix.length, Used I k) : ∃ d b, ∀ k < I.pix.length, used[k]? = some (k : ℤ) ∧
      ∃ e r, (e = d ∨ e = d.upd.setGlass c.cam.glass) ∧ ret[k]? = some r ∧ Residual I (mkEnv I.fl c) e b k r := by
  obtain ⟨d, c1, b0, p, hp, hs, rfl, hr, rfl⟩ := full_pass h
  obtain ⟨h1, h2, h3, h4⟩ := pass_rows hp hr
  have hidx : usedIdx I.fl I.projs.length I.pix 0 = List.range' 0 I.projs.length := by
    apply usedIdx_all
    intro k hk
    obtain ⟨-, o, g1, g2⟩ := hall k (by omega)
    exact ⟨o, g1, by simpa using (usePoint_true I.fl k o).2 g2⟩
  refine ⟨d, maskBeta I.fl b0, ?_⟩
  intro k hk
  obtain ⟨-, o, g1, g2⟩ := hall k hk
  refine ⟨?_, h3 k k ?_⟩
  · rw [List.getElem?_map, g1, Option.map_some, Option.some.injEq]
    by_contra hne
    exact g2 (Or.inl hne)
  · rw [hidx]
    simp [show k < I.projs.length by omega]

/-- C102 is false: whenever the first target does not take part and the second does, the first row of `ret` is the residual of
the second point; and whenever some target does not take part, the row after the last residual is not a residual at all but the
changes of the principal distance and of the principal point. -/
theorem C102_shift_refuted (I : OInput) (c c' : Calib) (ret : List (ℝ × ℝ)) (used : List ℤ)
    (h : fullCalibration I c = some (c', some (ret, used))) :
    (¬ Used I 0 → Used I 1 → ∃ d b e r, (e = d ∨ e = d.upd.setGlass c.cam.glass) ∧ ret[0]? = some r ∧
      Residual I (mkEnv I.fl c) e b 1 r) ∧
    (∀ k < I.pix.length, ¬ Used I k → ∃ n < I.pix.length, ret[n]? = some (c'.cam.cc - c.cam.cc, c'.cam.xh - c.cam.xh)) := by
  obtain ⟨-, h1, pts, d, b, hs, hm, -, h3, h4⟩ := C102_rows_partial I c c' ret used h
  constructor
  · intro hn0 hu1
    have h1m := (hm 1).2 hu1
    have h0m : 0 ∉ pts := fun hh => hn0 ((hm 0).1 hh)
    cases pts with
    | nil => simp at h1m
    | cons a as =>
      have ha : a = 1 := by
        have ha0 : a ≠ 0 := by rintro rfl; exact h0m (by simp)
        rcases List.mem_cons.1 h1m with e | e
        · exact e.symm
        · have := (List.pairwise_cons.1 hs).1 1 e
          omega
      subst ha
      obtain ⟨e, r, g1, g2, g3⟩ := h3 0 1 (by simp)
      exact ⟨d, b, e, r, g1, g2, g3⟩
  · intro k hk hnu
    have hlt : pts.length < I.pix.length := by
      have hnd : (k :: pts).Nodup := by
        refine List.nodup_cons.2 ⟨fun hh => hnu ((hm k).1 hh), hs.imp (fun h => Nat.ne_of_lt h)⟩
      have hsub : k :: pts ⊆ List.range I.pix.length := by
        intro x hx
        rw [List.mem_range]
        rcases List.mem_cons.1 hx with rfl | hx
        · exact hk
        · obtain ⟨-, o, g, -⟩ := (hm x).1 hx
          exact (List.getElem?_eq_some_iff.1 g).1
      have := (hnd.subperm hsub).length_le
      simp at this
      omega
    refine ⟨pts.length, hlt, ?_⟩
    rw [h4 _ hlt (le_refl _), Nat.sub_self]
    rfl

/-- With pixel positions given as an array, one per reference point, and no selection, every row belongs to its point. -/
theorem C102_array_partial (I : OInput) (pts : List (ℝ × ℝ)) (c c' : Calib) (ret : List (ℝ × ℝ)) (used : List ℤ)
    (hu : I.fl.use = 0) (hl : pts.length = I.projs.length)
    (h : fullCalibration { I with pix := targetsOfArray pts } c = some (c', some (ret, used))) :
    ∃ d b, ∀ k < pts.length, used[k]? = some (k : ℤ) ∧ ∃ e r, (e = d ∨ e = d.upd.setGlass c.cam.glass) ∧ ret[k]? = some r ∧
      Residual { I with pix := targetsOfArray pts } (mkEnv I.fl c) e b k r := by
  have hlen : (targetsOfArray pts).length = pts.length := by simp [targetsOfArray]
  have := C102_all_used_partial { I with pix := targetsOfArray pts } c c' ret used h (by simpa [hlen] using hl) (by
    intro k hk
    simp only [hlen] at hk
    refine ⟨by simp only; omega, ⟨(k : ℤ), pts[k].1, pts[k].2⟩, by simp [targetsOfArray, hk], ?_⟩
    simp [Excluded, hu])
  simpa only [hlen] using this

/-! ### A calibration that meets the hypotheses -/

/-- Two reference points, of which the first was not found; the second was found 1 mm beside its image. -/
noncomputable def shiftInput : OInput :=
  ⟨⟨0, 0, 1, 1⟩, 0.00001, 0.0001, 0.0001, witFlags, [fun c => imgCoord ⟨2, 0, 0⟩ c emptyLUT witMM,
    fun c => imgCoord ⟨1, 0, 0⟩ c emptyLUT witMM], [⟨-999, 0, 0⟩, ⟨1, 3 / 2, 0⟩], fun _ _ => 0⟩

theorem small_zero (n : ℕ) : Small n convergence (fun _ => 0) := by
  intro i _
  norm_num [convergence]

/-- With a solver that changes nothing the calibration succeeds after the first pass. -/
theorem full_zero (I : OInput) (c d1 : Calib) (rows : List Rows) (hs : I.solve = fun _ _ => 0)
    (hl : I.pix.length ≤ I.projs.length)
    (hpl : pointsLoop I.ip I.tol I.dm I.drad I.fl (mkEnv I.fl c) I.projs I.pix 0 c = some (d1, rows)) :
    ∃ c1 ret p, fullCalibration I c = some (c1.upd, some (ret, I.pix.map Obs.pnr)) ∧
      orientIterR I (mkEnv I.fl c) c = some (c1, (fun _ => 0), p) ∧
      resiRows (residuals (mkEnv I.fl c) I.projs.length p) I.pix 0 = some ret := by
  have hi : orientIterR I (mkEnv I.fl c) c = some (applyBeta I.fl (mkEnv I.fl c) (maskBeta I.fl fun _ => 0) d1, (fun _ => 0),
      ⟨rows, d1, maskBeta I.fl fun _ => 0⟩) := by
    simp only [orientIterR, hpl, Option.bind_eq_bind, Option.bind_some, hs]
  have hres : ∀ (resi : List ℝ) (os : List Obs) (ix : ℕ), 2 * (ix + os.length) ≤ resi.length → ∃ ret, resiRows resi os ix = some ret := by
    intro resi os
    induction os with
    | nil => intro ix _; exact ⟨[], rfl⟩
    | cons o os ih =>
      intro ix hle
      simp only [List.length_cons] at hle
      obtain ⟨rs, hrs⟩ := ih (ix + 1) (by omega)
      refine ⟨(resi[2 * ix], resi[2 * ix + 1]) :: rs, ?_⟩
      simp only [resiRows, resiAt, List.getElem?_eq_getElem (show 2 * ix < resi.length by omega),
        List.getElem?_eq_getElem (show 2 * ix + 1 < resi.length by omega), hrs, Option.bind_eq_bind, Option.bind_some]
  obtain ⟨k1, k2, -⟩ := pointsLoop_rows _ _ _ _ _ _ hpl
  have hlen : (residuals (mkEnv I.fl c) I.projs.length ⟨rows, d1, maskBeta I.fl fun _ => 0⟩).length
      = 2 * rows.length + 10 + (2 * I.projs.length - 2 * rows.length) := by
    unfold residuals
    simp only [List.length_append, List.length_replicate, List.length_map, List.length_zipIdx]
    rw [pairs_length]
    rfl
  obtain ⟨ret, hret⟩ := hres (residuals (mkEnv I.fl c) I.projs.length ⟨rows, d1, maskBeta I.fl fun _ => 0⟩) I.pix 0
    (by rw [hlen]; omega)
  refine ⟨applyBeta I.fl (mkEnv I.fl c) (maskBeta I.fl fun _ => 0) d1, ret, _, ?_, hi, hret⟩
  have hloop : orientLoopR I (mkEnv I.fl c) numIter c = some (applyBeta I.fl (mkEnv I.fl c) (maskBeta I.fl fun _ => 0) d1,
      some ⟨rows, d1, maskBeta I.fl fun _ => 0⟩) := by
    rw [show numIter = 79 + 1 from rfl, orientLoopR, hi, Option.bind_eq_bind, Option.bind_some, if_pos (small_zero _)]
  simp only [fullCalibration, orientResi, hloop, Option.bind_eq_bind, Option.bind_some, hret]

/-- Two targets: one not found, one 1 mm off. The calibration succeeds; the row of the first target is (-1, 0), which is the
residual of the second. -/
example : ∃ c' ret, fullCalibration shiftInput (witCal 1) = some (c', some (ret, [-999, 1])) ∧ ¬ Used shiftInput 0 ∧
    Used shiftInput 1 ∧ ret[0]? = some ((-1 : ℝ), (0 : ℝ)) := by
  have ht : ∀ f ∈ shiftInput.projs, Total f := by
    intro f hf
    simp only [shiftInput, List.mem_cons, List.not_mem_nil, or_false] at hf
    rcases hf with rfl | rfl <;> exact imgCoord_total _ witMM 2 1 [] [] rfl rfl
  obtain ⟨⟨d1, rows⟩, hpl⟩ := pointsLoop_total (ip := shiftInput.ip) (tol := shiftInput.tol) (fl := shiftInput.fl)
    (env := mkEnv shiftInput.fl (witCal 1)) (dm := shiftInput.dm) (drad := shiftInput.drad)
    (by norm_num [shiftInput]) (by norm_num [shiftInput]) shiftInput.projs shiftInput.pix 0 (witCal 1) ht (by simp [shiftInput])
  obtain ⟨c1, ret, p, h, hi, hr⟩ := full_zero shiftInput (witCal 1) d1 rows rfl (by simp [shiftInput]) hpl
  refine ⟨_, ret, h, ?_, ?_, ?_⟩
  · rintro ⟨-, o, ho, hn⟩
    simp only [shiftInput, List.getElem?_cons_zero, Option.some.injEq] at ho
    subst ho
    exact hn (Or.inl (by norm_num))
  · exact ⟨by simp [shiftInput], ⟨1, 3 / 2, 0⟩, by simp [shiftInput], by simp [Excluded, shiftInput, witFlags]⟩
  · have hidx : usedIdx shiftInput.fl shiftInput.projs.length shiftInput.pix 0 = [1] := by
      simp [shiftInput, usedIdx, usePoint, witFlags]
    obtain ⟨e, r, he, hr0, proj, o, e', rows', m, -, -, -, ⟨proj', o', q, g1, g2, g3, g4⟩, hres⟩ :=
      (pass_rows hi hr).2.2.1 0 1 (by rw [hidx]; rfl)
    have hplaced : placed e.cam e.ext = (witCal 1).cam := by
      rcases he with rfl | rfl
      · rfl
      · rfl
    have hap : e.cam.ap = defaultAddPar := by
      rcases he with rfl | rfl
      · rfl
      · rfl
    simp only [shiftInput, List.getElem?_cons_succ, List.getElem?_cons_zero, Option.some.injEq] at g1 g2
    subst g1
    subst g2
    simp only [hplaced, witCal_image] at g3
    have hq := Option.some.inj g3
    have hd0 : ∀ (n : ℕ) (row : List ℝ), ∑ j ∈ Finset.range n, row.getD j 0 * maskBeta shiftInput.fl (fun _ => 0) j = 0 := by
      intro n row
      apply Finset.sum_eq_zero
      intro j _
      have : maskBeta shiftInput.fl (fun _ => (0 : ℝ)) j = 0 := by
        unfold maskBeta
        split <;> simp
      rw [this, mul_zero]
    have hpm : pixelToMetric (3 / 2) 0 shiftInput.ip = (3 / 2, 0) := by norm_num [pixelToMetric, shiftInput]
    simp only [hpm, hap, (C24_default_identity _ _ _).2] at g4
    rw [hr0, hres, hd0, hd0, g4, ← hq]
    norm_num

/-! ### The wrappers -/

/-- C35: `full_calibration` raises its error exactly if `orient` does not converge, and then it leaves the calibration as `orient`
left it. -/
theorem C35_full_calibration_partial (I : OInput) (c c' : Calib) :
    fullCalibration I c = some (c', none) ↔ ∃ tr, orient I c = some (c', false, tr) := by
  have h := orientResi_eq I c
  constructor
  · intro hf
    simp only [fullCalibration, Option.bind_eq_bind, Option.bind_eq_some_iff] at hf
    obtain ⟨⟨d, o⟩, hr, hf⟩ := hf
    cases o with
    | some resi =>
      simp only [Option.bind_eq_some_iff] at hf
      obtain ⟨a, -, hf⟩ := hf
      simp at hf
    | none =>
      simp only [Option.some.injEq, Prod.mk.injEq, and_true] at hf
      subst hf
      rw [hr] at h
      simp only [Option.map_some, Option.map_eq_some_iff, Prod.mk.injEq] at h
      obtain ⟨⟨d', ok, tr⟩, ho, h1, h2⟩ := h
      simp only at h1 h2
      subst h1
      simp only [Option.isSome_none] at h2
      subst h2
      exact ⟨tr, ho⟩
  · rintro ⟨tr, ho⟩
    rw [ho] at h
    simp only [Option.map_some] at h
    have h := h.symm
    simp only [Option.map_eq_some_iff, Prod.mk.injEq] at h
    obtain ⟨⟨d, o⟩, hr, h1, h2⟩ := h
    simp only at h1 h2
    subst h1
    cases o with
    | some resi => simp at h2
    | none => simp only [fullCalibration, hr, Option.bind_eq_bind, Option.bind_some]

/-- C35: the failure happens. -/
example (fl : OFlags) (ip : ImgPar) (tol dm drad : ℝ) (c : Calib) :
    ∃ c', fullCalibration ⟨ip, tol, dm, drad, fl, [], [], fun _ => moveX⟩ c = some (c', none) := by
  obtain ⟨c', tr, h, -⟩ := C35_refuted fl ip tol dm drad c
  exact ⟨c', (C35_full_calibration_partial _ c c').2 ⟨tr, h⟩⟩

/-- C63: `external_calibration` leaves a camera without distortion as it is (with the rotation matrix of its angles) and returns True if
every reference point projects exactly to the pixel position given for it. -/
theorem C63_external_calibration (I : OInput) (hs : Homogeneous I.solve) (pts : List (ℝ × ℝ)) (c c' : Calib) (ok : Bool)
    (hap : c.cam.ap = defaultAddPar)
    (hp : ∀ (k : ℕ) proj (x y : ℝ), I.projs[k]? = some proj → pts[k]? = some (x, y) →
      proj c.upd.cam = some (pixelToMetric x y I.ip))
    (h : externalCalibration I pts c = some (c', ok)) : ok = true ∧ c' = c.upd := by
  simp only [externalCalibration, Option.map_eq_some_iff, Prod.mk.injEq] at h
  obtain ⟨⟨d, ok', tr⟩, hr, rfl, rfl⟩ := h
  have := C63_raw_fixed_point { I with pix := pts.map fun p => ⟨-999, p.1, p.2⟩ } hs c _ _ _ hap (by
    intro fo hfo
    obtain ⟨k, hk, he⟩ := List.mem_iff_getElem.1 hfo
    simp only [List.length_zip, List.length_map, lt_inf_iff] at hk
    simp only [List.getElem_zip, List.getElem_map] at he
    subst he
    exact hp k _ _ _ (List.getElem?_eq_getElem hk.1) (List.getElem?_eq_getElem hk.2)) hr
  exact ⟨this.1, this.2.2⟩

/-- C34: `external_calibration` does not change the interior parameters or the glass vector; it resets the distortion parameters. -/
theorem C34_external_calibration (I : OInput) (pts : List (ℝ × ℝ)) (c c' : Calib) (ok : Bool)
    (h : externalCalibration I pts c = some (c', ok)) :
    c'.cam.cc = c.cam.cc ∧ c'.cam.xh = c.cam.xh ∧ c'.cam.yh = c.cam.yh ∧ c'.cam.glass = c.cam.glass ∧
      c'.cam.ap = defaultAddPar := by
  simp only [externalCalibration, Option.map_eq_some_iff, Prod.mk.injEq] at h
  obtain ⟨⟨d, ok', tr⟩, hr, rfl, rfl⟩ := h
  exact C34_raw_orient _ _ _ _ _ hr

theorem rawLoop_total {ip : ImgPar} {dm drad : ℝ} (hm : dm ≠ 0) (hd : drad ≠ 0) : ∀ (fs : List (Cam → Option (ℝ × ℝ)))
    (os : List Obs) (c : Calib), (∀ f ∈ fs, Total f) → fs.length ≤ os.length → ∃ r, rawLoop ip dm drad fs os c = some r
  | [], os, c, _, _ => ⟨_, rfl⟩
  | f :: fs, [], c, _, h => by simp at h
  | f :: fs, o :: os, c, ht, hl => by
    obtain ⟨p, hp⟩ := ht f (by simp) c.upd.cam
    obtain ⟨der, hder⟩ := numDeriv_total (ht f (by simp)) hm hd c.upd
    obtain ⟨rs, hrs⟩ := rawLoop_total (ip := ip) hm hd fs os der.1 (fun g hg => ht g (by simp [hg])) (by simpa using hl)
    simp only [rawLoop, rawRows, hp, hder, Option.bind_eq_bind, Option.bind_some, hrs]
    exact ⟨_, rfl⟩

/-- A real camera and a reference point given by its exact pixel position: the call returns True. -/
example : externalCalibration (witInput 7 fun _ _ => 0) [(1 / 2, 0)] (witCal 1) = some ((witCal 1).upd, true) := by
  have ht : ∀ f ∈ (witInput 7 fun _ _ => 0).projs, Total f := by
    intro f hf
    simp only [witInput, List.mem_singleton] at hf
    rw [hf]; exact imgCoord_total ⟨1, 0, 0⟩ witMM 2 1 [] [] rfl rfl
  set I : OInput := { witInput 7 (fun _ _ => 0) with pix := [(1 / 2, 0)].map fun p : ℝ × ℝ => ⟨-999, p.1, p.2⟩ } with hI
  obtain ⟨r, hr⟩ := rawLoop_total (ip := I.ip) (dm := I.dm) (drad := I.drad) (by norm_num [hI, witInput]) (by norm_num [hI, witInput])
    I.projs I.pix (witCal 1) ht (by simp [hI, witInput])
  have hex : ∃ c' ok, externalCalibration (witInput 7 fun _ _ => 0) [(1 / 2, 0)] (witCal 1) = some (c', ok) := by
    have hw : ({ witCal 1 with cam := { (witCal 1).cam with ap := ⟨0, 0, 0, 0, 0, 1, 0⟩ } } : Calib) = witCal 1 := rfl
    simp only [externalCalibration, rawOrient, Option.bind_eq_bind, hw]
    rw [← hI, rawOrientLoop, rawIter, hr]
    simp only [Option.bind_eq_bind, Option.bind_some]
    have hsm : Small 6 0.1 (I.solve (r.2.flatMap fun r => [(r.rx, r.yx), (r.ry, r.yy)])) := by
      intro i _
      norm_num [hI, witInput]
    rw [if_pos hsm]
    exact ⟨_, _, rfl⟩
  obtain ⟨c', ok, h⟩ := hex
  obtain ⟨rfl, rfl⟩ := C63_external_calibration _ (fun _ _ _ => rfl) _ _ _ _ rfl (by
    intro k proj x y h1 h2
    cases k with
    | succ k => simp at h2
    | zero =>
      simp only [List.getElem?_cons_zero, Option.some.injEq, Prod.mk.injEq, witInput] at h1 h2
      obtain ⟨rfl, rfl⟩ := h2
      subst h1
      show imgCoord ⟨1, 0, 0⟩ (witCal 1).cam emptyLUT witMM = _
      rw [witCal_image]
      simp [pixelToMetric, witInput]) h
  exact h

end Verif.Geo
