/-
C123: the passes of `orient` and `raw_orient` are steps of least squares. C124: the columns of the lens parameters.
-/
import Verif.Props.Calibrate
import Mathlib.Tactic.IntervalCases
import Mathlib.Analysis.InnerProductSpace.Projection.Minimal
import Mathlib.Analysis.InnerProductSpace.PiL2
import Mathlib.Topology.Algebra.Module.FiniteDimension
import Mathlib.LinearAlgebra.Matrix.ToLin
import Mathlib.Analysis.SpecialFunctions.Trigonometric.Deriv

set_option linter.unusedSimpArgs false

namespace Verif.Geo
open V3 Verif.Geo.Spec

/-! ### Specification -/

/-- A calibration with all parameters changed: 0-5 position and angles, 6-8 principal distance and principal point, 9-15 the lens
parameters k1, k2, k3, p1, p2, x scale, shear. -/
noncomputable def Spec.change (c : Calib) (b : ℕ → ℝ) : Calib :=
  { cam := { c.cam with
      pos := ⟨c.cam.pos.x + b 0, c.cam.pos.y + b 1, c.cam.pos.z + b 2⟩
      cc := c.cam.cc + b 6, xh := c.cam.xh + b 7, yh := c.cam.yh + b 8
      ap := ⟨c.cam.ap.k1 + b 9, c.cam.ap.k2 + b 10, c.cam.ap.k3 + b 11, c.cam.ap.p1 + b 12, c.cam.ap.p2 + b 13,
        c.cam.ap.scx + b 14, c.cam.ap.she + b 15⟩ }
    omega := c.omega + b 3, phi := c.phi + b 4, kappa := c.kappa + b 5 }

/-- A change of one parameter. -/
def Spec.only (j : ℕ) (s : ℝ) : ℕ → ℝ := fun i => if i = j then s else 0

/-- The camera with the rotation matrix of its angles. -/
noncomputable def Spec.camOf (c : Calib) : Cam := placed c.cam c.ext

/-- The difference quotient of the image for parameter `j` and step `s`. -/
def Spec.Quotient (proj : Cam → Option (ℝ × ℝ)) (c : Calib) (j : ℕ) (s : ℝ) (v : ℝ × ℝ) : Prop :=
  ∃ p q, proj (camOf c) = some p ∧ proj (camOf (change c (only j s))) = some q ∧ v = ((q.1 - p.1) / s, (q.2 - p.2) / s)

/-- The derivatives of an image over the lens parameters (from xh to the shear) that the adjustment uses. -/
noncomputable def Spec.lensColumn (ap : AddPar) (p : ℝ × ℝ) (j : ℕ) : ℝ × ℝ :=
  let x := p.1
  let y := p.2
  let r2 := x ^ 2 + y ^ 2
  match j with
  | 7 => (ap.scx, Real.sin ap.she)
  | 8 => (0, 1)
  | 9 => (ap.scx * (x * r2), y * r2)
  | 10 => (ap.scx * (x * r2 ^ 2), y * r2 ^ 2)
  | 11 => (ap.scx * (x * r2 ^ 3), y * r2 ^ 3)
  | 12 => (ap.scx * (r2 + 2 * x ^ 2), 2 * x * y)
  | 13 => (ap.scx * (2 * x * y), r2 + 2 * y ^ 2)
  | 14 => (x * (1 + ap.k1 * r2 + ap.k2 * r2 ^ 2 + ap.k3 * r2 ^ 3) + ap.p1 * (r2 + 2 * x ^ 2) + 2 * ap.p2 * x * y, 0)
  | 15 => (-Real.cos ap.she * y, -Real.sin ap.she * y)
  | _ => (0, 0)

/-- `J` are the derivatives and `m` is the misfit of point `k` for the calibration `d`. -/
structure Spec.Linearised (I : OInput) (k : ℕ) (d : Calib) (J : ℕ → ℝ × ℝ) (m : ℝ × ℝ) : Prop where
  misfit : Misfit I k d m
  outer : ∃ proj, I.projs[k]? = some proj ∧ (∀ j, j = 0 ∨ j = 1 ∨ j = 2 ∨ j = 6 → Quotient proj d j I.dm (J j)) ∧
    (∀ j, j = 3 ∨ j = 4 ∨ j = 5 → Quotient proj d j I.drad (J j)) ∧
    ∃ p, proj (camOf d) = some p ∧ ∀ j, 7 ≤ j → j ≤ 15 → J j = lensColumn d.cam.ap p j

/-- The ten inner parameters. -/
def Spec.innerPar (c : Calib) (i : ℕ) : ℝ :=
  match i with
  | 0 => c.cam.cc
  | 1 => c.cam.xh
  | 2 => c.cam.yh
  | 3 => c.cam.ap.k1
  | 4 => c.cam.ap.k2
  | 5 => c.cam.ap.k3
  | 6 => c.cam.ap.p1
  | 7 => c.cam.ap.p2
  | 8 => c.cam.ap.scx
  | 9 => c.cam.ap.she
  | _ => 0

/-- Which of them may be adjusted. -/
def Spec.adjustable (fl : OFlags) (i : ℕ) : Bool :=
  match i with
  | 0 => fl.cc
  | 1 => fl.xh
  | 2 => fl.yh
  | 3 => fl.k1
  | 4 => fl.k2
  | 5 => fl.k3
  | 6 => fl.p1
  | 7 => fl.p2
  | 8 => fl.scx
  | 9 => fl.she
  | _ => false

/-- The weight of the wish that an inner parameter stays at its initial value. -/
noncomputable def Spec.weight (fl : OFlags) (i : ℕ) : ℝ := if adjustable fl i then 1 else 10 ^ 20

open Classical in
/-- What a pass minimises: the squared misfits of the used points after the linear change `b`, plus the weighted squared distances
of the inner parameters from their values `c0` at the start. -/
noncomputable def Spec.objective (I : OInput) (c0 d : Calib) (J : ℕ → ℕ → ℝ × ℝ) (m : ℕ → ℝ × ℝ) (b : ℕ → ℝ) : ℝ :=
  (∑ k ∈ (Finset.range I.projs.length).filter (Used I), ((∑ j ∈ Finset.range 16, (J k j).1 * b j - (m k).1) ^ 2 +
    (∑ j ∈ Finset.range 16, (J k j).2 * b j - (m k).2) ^ 2)) +
  ∑ i ∈ Finset.range 10, weight I.fl i * (innerPar d i + b (6 + i) - innerPar c0 i) ^ 2

/-- The changes that are carried out: those of inner parameters that may not be adjusted are dropped. -/
def Spec.carriedOut (fl : OFlags) (b : ℕ → ℝ) (j : ℕ) : ℝ :=
  if 6 ≤ j ∧ j < 16 ∧ adjustable fl (j - 6) = false then 0 else b j

/-- One pass from `d` to `d'` with the changes `b`, in an adjustment that started at `c0`. -/
def Spec.AdjustStep (I : OInput) (c0 d d' : Calib) (b : ℕ → ℝ) : Prop :=
  ∃ (J : ℕ → ℕ → ℝ × ℝ) (m : ℕ → ℝ × ℝ), (∀ k, Used I k → Linearised I k d (J k) (m k)) ∧
    (∀ b', objective I c0 d J m b ≤ objective I c0 d J m b') ∧
    camOf d' = camOf (change d (carriedOut I.fl b)) ∧ d'.ext = (change d (carriedOut I.fl b)).ext

/-- The sum of the squared errors of a system for the answer `b`. -/
noncomputable def Spec.errors (s : List Eqn) (n : ℕ) (b : ℕ → ℝ) : ℝ :=
  (s.map fun e => (∑ j ∈ Finset.range n, e.1.getD j 0 * b j - e.2) ^ 2).sum

/-- A solver of linear systems in the sense of least squares. -/
def Spec.LeastSquares (solve : Solver) : Prop := ∀ (s : List Eqn) (n : ℕ), (∀ e ∈ s, e.1.length = n) →
  ∀ b, errors s n (solve s) ≤ errors s n b

/-! ### The rows -/

/-- `num_deriv_exterior`, when it returns: six difference quotients. -/
theorem numDeriv_quotients {proj : Cam → Option (ℝ × ℝ)} {dpos dang : ℝ} {c c' : Calib} {ders : List (ℝ × ℝ)}
    (h : numDerivExterior proj dpos dang c = some (c', ders)) : ders.length = 6 ∧
    ∀ k : Fin 6, ∃ v, ders[(k : ℕ)]? = some v ∧ Quotient proj c k (stepSize dpos dang k) v := by
  have hb : ∀ (k : Fin 6) (s : ℝ), placed c.cam (bump c.ext k s) = camOf (change c (only k s)) := by
    intro k s
    fin_cases k <;> simp [bump, camOf, change, only, placed, Calib.ext]
  have hnz : dpos ≠ 0 ∧ dang ≠ 0 := by
    by_contra hc
    rw [not_and_or, not_not, not_not] at hc
    simp only [numDerivExterior, if_pos hc] at h
    cases h
  have hstep : ∀ (d : Calib) (k : Fin 6) (xy v : ℝ × ℝ) (d' : Calib), d.cam.dm = c.upd.cam.dm ∨ k > 2 → (∃ m, d = withDm c m) →
      derivStep proj xy (stepOf dpos dang k) d k = some (d', v) →
      (∃ q, proj (placed c.cam (bump c.ext k (stepOf dpos dang k))) = some q) ∧ (∃ m, d' = withDm c m) ∧
        (k ≤ 2 → d'.cam.dm = c.upd.cam.dm) := by
    rintro d k xy v d' hdm ⟨m, rfl⟩ hd
    simp only [derivStep, Option.map_eq_some_iff, Prod.mk.injEq] at hd
    obtain ⟨p, hp, rfl, -⟩ := hd
    set s := stepOf dpos dang k with hs
    set d0 : Calib := withDm c m with hd0
    have hcam : (if k > 2 then (d0.inc k s).upd else d0.inc k s).cam = placed c.cam (bump c.ext k s) := by
      rcases hdm with hdm | hk
      · have : m = c.upd.cam.dm := hdm
        subst this
        fin_cases k <;> rfl
      · rw [if_pos hk]
        fin_cases k <;> rfl
    refine ⟨⟨p, by rw [← hcam]; exact hp⟩, ⟨(if k > 2 then (d0.inc k s).upd else d0.inc k s).cam.dm, ?_⟩, ?_⟩
    · fin_cases k <;> simp [Calib.inc, Calib.upd, hd0, withDm]
    · intro hk
      have hk' : ¬ k > 2 := not_lt.2 hk
      rw [if_neg hk']
      rcases hdm with hdm | h
      · fin_cases k <;> exact hdm
      · exact absurd h hk'
  have hex : (∃ p, proj (placed c.cam c.ext) = some p) ∧
      ∀ k : Fin 6, ∃ q, proj (placed c.cam (bump c.ext k (stepOf dpos dang k))) = some q := by
    have h' := h
    simp only [numDerivExterior] at h'
    split_ifs at h' with hz
    simp only [Option.bind_eq_bind, Option.bind_eq_some_iff] at h'
    obtain ⟨xy, hxy, ⟨c0, v0⟩, g0, ⟨c1, v1⟩, g1, ⟨c2, v2⟩, g2, ⟨c3, v3⟩, g3, ⟨c4, v4⟩, g4, ⟨c5, v5⟩, g5, -⟩ := h'
    obtain ⟨q0, m0, e0⟩ := hstep _ 0 _ _ _ (Or.inl rfl) ⟨_, rfl⟩ g0
    obtain ⟨q1, m1, e1⟩ := hstep _ 1 _ _ _ (Or.inl (e0 (by decide))) m0 g1
    obtain ⟨q2, m2, e2⟩ := hstep _ 2 _ _ _ (Or.inl (e1 (by decide))) m1 g2
    obtain ⟨q3, m3, -⟩ := hstep _ 3 _ _ _ (Or.inr (by decide)) m2 g3
    obtain ⟨q4, m4, -⟩ := hstep _ 4 _ _ _ (Or.inr (by decide)) m3 g4
    obtain ⟨q5, m5, -⟩ := hstep _ 5 _ _ _ (Or.inr (by decide)) m4 g5
    refine ⟨⟨xy, hxy⟩, ?_⟩
    intro k
    fin_cases k
    · exact q0
    · exact q1
    · exact q2
    · exact q3
    · exact q4
    · exact q5
  obtain ⟨⟨p, hp⟩, hq⟩ := hex
  obtain ⟨ders', h1, h2, h3⟩ := C33_derivatives proj dpos dang c hnz.1 hnz.2 (fun e => (proj (placed c.cam e)).getD (0, 0))
    (by rw [hp]; rfl) (by
      intro k
      obtain ⟨q, hq⟩ := hq k
      rw [stepOf_eq] at hq
      rw [hq]; rfl)
  rw [h, Option.some.injEq, Prod.mk.injEq] at h1
  obtain ⟨-, rfl⟩ := h1
  refine ⟨h2, ?_⟩
  intro k
  obtain ⟨q, hq⟩ := hq k
  rw [stepOf_eq] at hq
  refine ⟨_, h3 k, p, q, hp, by rw [← hb]; exact hq, ?_⟩
  simp only [hp, hq, Option.getD_some]

theorem sqrt_pow_two (x y : ℝ) : Real.sqrt (x * x + y * y) * Real.sqrt (x * x + y * y) = x ^ 2 + y ^ 2 ∧
    Real.sqrt (x * x + y * y) ^ 4 = (x ^ 2 + y ^ 2) ^ 2 ∧ Real.sqrt (x * x + y * y) ^ 6 = (x ^ 2 + y ^ 2) ^ 3 := by
  have h : 0 ≤ x * x + y * y := by nlinarith [sq_nonneg x, sq_nonneg y]
  have h2 : Real.sqrt (x * x + y * y) ^ 2 = x ^ 2 + y ^ 2 := by rw [Real.sq_sqrt h]; ring
  refine ⟨by rw [← h2]; ring, by rw [← h2]; ring, by rw [← h2]; ring⟩

/-- The rows of one point. -/
theorem pointRows_linearised {proj : Cam → Option (ℝ × ℝ)} {ip : ImgPar} {tol dm drad : ℝ} {env : OEnv} {o : Obs} {e e' : Calib}
    {r : Rows} (h : pointRows proj ip tol dm drad env o e = some (e', r)) :
    r.rx.length = 19 ∧ r.ry.length = 19 ∧
    (∀ j : ℕ, j = 0 ∨ j = 1 ∨ j = 2 ∨ j = 6 → Quotient proj e j dm (r.rx.getD j 0, r.ry.getD j 0)) ∧
    (∀ j : ℕ, j = 3 ∨ j = 4 ∨ j = 5 → Quotient proj e j drad (r.rx.getD j 0, r.ry.getD j 0)) ∧
    ∃ p, proj (camOf e) = some p ∧ ∀ j : ℕ, 7 ≤ j → j ≤ 15 → (r.rx.getD j 0, r.ry.getD j 0) = lensColumn e.cam.ap p j := by
  simp only [pointRows, Option.bind_eq_bind, Option.bind_eq_some_iff] at h
  obtain ⟨p, hp, ⟨d1, ders⟩, hder, pc, hpc, pa, -, pb, -, pg, -, h⟩ := h
  rw [Option.some.injEq, Prod.mk.injEq] at h
  obtain ⟨-, hr⟩ := h
  obtain ⟨hl, hq⟩ := numDeriv_quotients hder
  have hd1 := (C33_unchanged _ _ _ _ _ _ hder).1
  have hq' : ∀ k : Fin 6, ∃ v, ders[(k : ℕ)]? = some v ∧ Quotient proj e k (stepSize dm drad k) v := hq
  obtain ⟨a0, a1, a2, a3, a4, a5, rfl⟩ : ∃ a0 a1 a2 a3 a4 a5, ders = [a0, a1, a2, a3, a4, a5] := by
    match ders, hl with
    | [a0, a1, a2, a3, a4, a5], _ => exact ⟨a0, a1, a2, a3, a4, a5, rfl⟩
  have k0 := hq' 0
  have k1 := hq' 1
  have k2 := hq' 2
  have k3 := hq' 3
  have k4 := hq' 4
  have k5 := hq' 5
  obtain ⟨s1, s2, s3⟩ := sqrt_pow_two p.1 p.2
  simp only [List.map_cons, List.map_nil, List.cons_append, List.nil_append] at hr
  rw [← hr]
  simp at k0 k1 k2 k3 k4 k5
  refine ⟨rfl, rfl, ?_, ?_, p, hp, ?_⟩
  · rintro j (rfl | rfl | rfl | rfl)
    · simpa [stepSize] using k0
    · simpa [stepSize] using k1
    · simpa [stepSize] using k2
    · refine ⟨p, pc, hp, ?_, by simp⟩
      rw [← hpc]
      rw [hd1]
      congr 1
      simp [camOf, change, only, placed, Calib.ext, Calib.upd]
  · rintro j (rfl | rfl | rfl)
    · simpa [stepSize] using k3
    · simpa [stepSize] using k4
    · simpa [stepSize] using k5
  · intro j h7 h15
    interval_cases j <;> simp only [List.getD_cons_succ, List.getD_cons_zero, lensColumn, Prod.mk.injEq, mul_assoc, s1, s2, s3,
      and_true, true_and, List.getD_eq_getElem?_getD] <;> simp [mul_assoc, s1, s2, s3] <;> ring_nf <;> simp

/-! ### The system -/

theorem errors_append (s t : List Eqn) (n : ℕ) (b : ℕ → ℝ) : errors (s ++ t) n b = errors s n b + errors t n b := by
  simp [errors]

theorem errors_points (n : ℕ) (b : ℕ → ℝ) : ∀ rows : List Rows,
    errors (rows.flatMap fun r => [(r.rx.take n, r.yx), (r.ry.take n, r.yy)]) n b =
      (rows.map fun r => (∑ j ∈ Finset.range n, r.rx.getD j 0 * b j - r.yx) ^ 2 +
        (∑ j ∈ Finset.range n, r.ry.getD j 0 * b j - r.yy) ^ 2).sum
  | [] => by simp [errors]
  | r :: rows => by
    have ht : ∀ l : List ℝ, ∑ j ∈ Finset.range n, (l.take n).getD j 0 * b j = ∑ j ∈ Finset.range n, l.getD j 0 * b j := by
      intro l
      refine Finset.sum_congr rfl ?_
      intro j hj
      rw [Finset.mem_range] at hj
      simp [List.getD_eq_getElem?_getD, List.getElem?_take, hj]
    have ih := errors_points n b rows
    rw [List.flatMap_cons, errors_append, ih, List.map_cons, List.sum_cons]
    congr 1
    simp only [errors, List.map_cons, List.map_nil, List.sum_cons, List.sum_nil, ht, add_zero]

theorem weight_row (n k : ℕ) (hk : 6 + k < n) (w z : ℝ) (hw : 0 ≤ w) (b : ℕ → ℝ) :
    (∑ j ∈ Finset.range n, ((List.range n).map fun j => Real.sqrt w * (if j = 6 + k then 1 else 0)).getD j 0 * b j
      - Real.sqrt w * z) ^ 2 = w * (b (6 + k) - z) ^ 2 := by
  have : ∑ j ∈ Finset.range n, ((List.range n).map fun j => Real.sqrt w * (if j = 6 + k then 1 else 0)).getD j 0 * b j
      = Real.sqrt w * b (6 + k) := by
    rw [Finset.sum_eq_single (6 + k)]
    · simp [List.getD_eq_getElem?_getD, hk]
    · intro j hj hne
      rw [Finset.mem_range] at hj
      simp [List.getD_eq_getElem?_getD, hj, hne]
    · intro h
      exact absurd (Finset.mem_range.2 hk) h
  rw [this, ← mul_sub, mul_pow, Real.sq_sqrt hw]

theorem errors_ids (fl : OFlags) (env : OEnv) (c0 d : Calib) (hn : env.numbers = 16) (hi : env.ident = c0.cam) (b : ℕ → ℝ) :
    errors (((identObs env d).zip (identWeights fl)).zipIdx.map fun t =>
      ((List.range env.numbers).map fun j => Real.sqrt t.1.2 * (if j = 6 + t.2 then 1 else 0), Real.sqrt t.1.2 * t.1.1)) 16 b =
    ∑ i ∈ Finset.range 10, weight fl i * (innerPar d i + b (6 + i) - innerPar c0 i) ^ 2 := by
  rw [hn]
  have hw : ∀ f : Bool, (0 : ℝ) ≤ if f = true then 1 else posInf := by
    intro f
    split_ifs <;> norm_num [posInf]
  have hp : posInf = 10 ^ 20 := by norm_num [posInf]
  simp only [identObs, identWeights, List.map_cons, List.map_nil, List.zip_cons_cons, List.zip_nil_left, List.zipIdx_cons,
    List.zipIdx_nil, errors, List.sum_cons, List.sum_nil, hi]
  rw [weight_row 16 0 (by norm_num) _ _ (hw _), weight_row 16 (0 + 1) (by norm_num) _ _ (hw _),
    weight_row 16 (0 + 1 + 1) (by norm_num) _ _ (hw _), weight_row 16 (0 + 1 + 1 + 1) (by norm_num) _ _ (hw _),
    weight_row 16 (0 + 1 + 1 + 1 + 1) (by norm_num) _ _ (hw _), weight_row 16 (0 + 1 + 1 + 1 + 1 + 1) (by norm_num) _ _ (hw _),
    weight_row 16 (0 + 1 + 1 + 1 + 1 + 1 + 1) (by norm_num) _ _ (hw _),
    weight_row 16 (0 + 1 + 1 + 1 + 1 + 1 + 1 + 1) (by norm_num) _ _ (hw _),
    weight_row 16 (0 + 1 + 1 + 1 + 1 + 1 + 1 + 1 + 1) (by norm_num) _ _ (hw _),
    weight_row 16 (0 + 1 + 1 + 1 + 1 + 1 + 1 + 1 + 1 + 1) (by norm_num) _ _ (hw _)]
  simp only [Finset.sum_range_succ, Finset.sum_range_zero, weight, adjustable, innerPar, hp]
  ring

theorem sum_used (I : OInput) (f : ℕ → ℝ) [DecidablePred (Used I)] :
    ∑ k ∈ (Finset.range I.projs.length).filter (Used I), f k = ((usedIdx I.fl I.projs.length I.pix 0).map f).sum := by
  rw [← List.sum_toFinset f ((usedIdx_sorted I.fl _ _ _).imp fun h => Nat.ne_of_lt h)]
  refine Finset.sum_congr ?_ fun _ _ => rfl
  ext k
  simp only [Finset.mem_filter, Finset.mem_range, List.mem_toFinset, used_iff]
  exact ⟨fun h => h.2, fun h => ⟨h.1, h⟩⟩

theorem upd_fields {e d : Calib} (h : e.upd = d.upd) : e.cam.pos = d.cam.pos ∧ e.cam.cc = d.cam.cc ∧ e.cam.xh = d.cam.xh ∧
    e.cam.yh = d.cam.yh ∧ e.omega = d.omega ∧ e.phi = d.phi ∧ e.kappa = d.kappa :=
  ⟨show e.upd.cam.pos = d.upd.cam.pos by rw [h], show e.upd.cam.cc = d.upd.cam.cc by rw [h],
    show e.upd.cam.xh = d.upd.cam.xh by rw [h], show e.upd.cam.yh = d.upd.cam.yh by rw [h],
    show e.upd.omega = d.upd.omega by rw [h], show e.upd.phi = d.upd.phi by rw [h], show e.upd.kappa = d.upd.kappa by rw [h]⟩

theorem camOf_eq {d e : Calib} (h : e.upd = d.upd) : camOf e = camOf d := by
  show e.upd.cam = d.upd.cam
  rw [h]

theorem quotient_eq {proj : Cam → Option (ℝ × ℝ)} {d e : Calib} (h : e.upd = d.upd) {j : ℕ} {s : ℝ} {v : ℝ × ℝ}
    (hq : Quotient proj e j s v) : Quotient proj d j s v := by
  obtain ⟨p, q, h1, h2, h3⟩ := hq
  refine ⟨p, q, by rw [← camOf_eq h]; exact h1, ?_, h3⟩
  rw [← h2]
  congr 1
  have hx : (change d (only j s)).upd = (change e (only j s)).upd := by
    obtain ⟨dc, d1, d2, d3⟩ := d
    obtain ⟨ec, e1, e2, e3⟩ := e
    simp only [Calib.upd, Calib.mk.injEq] at h
    obtain ⟨hc, rfl, rfl, rfl⟩ := h
    obtain ⟨dp, dm', dcc, dxh, dyh, dap, dg⟩ := dc
    obtain ⟨ep, em', ecc, exh, eyh, eap, eg⟩ := ec
    simp only [Cam.mk.injEq] at hc
    obtain ⟨rfl, -, rfl, rfl, rfl, rfl, rfl⟩ := hc
    rfl
  exact congrArg Calib.cam hx

theorem misfit_eq {I : OInput} {k : ℕ} {d e : Calib} (h : e.upd = d.upd) {m : ℝ × ℝ} (hm : Misfit I k e m) : Misfit I k d m := by
  obtain ⟨proj, o, p, h1, h2, h3, h4⟩ := hm
  have hap : e.cam.ap = d.cam.ap := by
    have : e.upd.cam.ap = d.upd.cam.ap := by rw [h]
    exact this
  refine ⟨proj, o, p, h1, h2, ?_, by rw [h4, hap]⟩
  have := camOf_eq h
  simp only [camOf] at this
  rw [← this]; exact h3

theorem maskBeta_eq (fl : OFlags) (b : Beta) (i : ℕ) : maskBeta fl b i = carriedOut fl b i := by
  by_cases h16 : i < 16
  · interval_cases i <;> simp only [maskBeta, carriedOut, adjustable] <;> norm_num <;> split_ifs <;> simp_all
  · have : ¬ (6 ≤ i ∧ i < 16 ∧ adjustable fl (i - 6) = false) := by omega
    simp only [carriedOut, if_neg this]
    unfold maskBeta
    split <;> first | omega | rfl

/-- A pass with the glass as it was at the start. -/
theorem orientIter_step {I : OInput} (hs : LeastSquares I.solve) (hi : I.fl.interf = false) {c0 d d' : Calib} {b : Beta}
    (hg : d.cam.glass = c0.cam.glass) (h : orientIter I (mkEnv I.fl c0) d = some (d', b)) :
    AdjustStep I c0 d d' b ∧ d'.cam.glass = c0.cam.glass := by
  simp only [orientIter, Option.bind_eq_bind, Option.bind_eq_some_iff] at h
  obtain ⟨⟨d1, rows⟩, hpl, h⟩ := h
  rw [Option.some.injEq, Prod.mk.injEq] at h
  obtain ⟨rfl, rfl⟩ := h
  have hn : (mkEnv I.fl c0).numbers = 16 := by simp [mkEnv, hi]
  have hsafe : (mkEnv I.fl c0).safety = c0.cam.glass := rfl
  have hupd : ∀ e : Calib, e = d ∨ e = d.upd.setGlass (mkEnv I.fl c0).safety → e.upd = d.upd := by
    rintro e (rfl | rfl)
    · rfl
    · rw [hsafe, ← hg]; rfl
  have hd1 : d1.upd = d.upd ∧ d1.cam.glass = c0.cam.glass ∧ d1.cam.ap = d.cam.ap ∧ (∀ i, innerPar d1 i = innerPar d i) := by
    rcases pointsLoop_cal _ _ _ _ _ _ hpl with ⟨-, e⟩ | ⟨-, e⟩
    · rw [e]; exact ⟨rfl, hg, rfl, fun _ => rfl⟩
    · rw [e]
      exact ⟨hupd _ (Or.inr rfl), rfl, rfl, fun i => rfl⟩
  obtain ⟨g1, g2, g3⟩ := pointsLoop_rows _ _ _ _ _ _ hpl
  set us := usedIdx I.fl I.projs.length I.pix 0 with hus
  have hnd : us.Nodup := (usedIdx_sorted I.fl _ _ _).imp fun h => Nat.ne_of_lt h
  set row : ℕ → Rows := fun k => rows.getD (us.idxOf k) ⟨[], [], 0, 0⟩ with hrow
  set J : ℕ → ℕ → ℝ × ℝ := fun k j => ((row k).rx.getD j 0, (row k).ry.getD j 0) with hJ
  set m : ℕ → ℝ × ℝ := fun k => ((row k).yx, (row k).yy) with hm
  have hrows : us.map row = rows := by
    apply List.ext_getElem (by simp [g2])
    intro j h1 h2
    rw [List.getElem_map]
    simp only [hrow]
    rw [hnd.idxOf_getElem, List.getD_eq_getElem?_getD, List.getElem?_eq_getElem h2, Option.getD_some]
  have hlin : ∀ k, Used I k → Linearised I k d (J k) (m k) := by
    intro k hk
    have hku : k ∈ us := (used_iff I k).2 hk
    have hlt := List.idxOf_lt_length_of_mem hku
    have hge : us[us.idxOf k]? = some k := by
      rw [List.getElem?_eq_getElem hlt, List.getElem_idxOf]
    have hr : rows[us.idxOf k]? = some (row k) := by
      simp only [hrow]
      rw [List.getD_eq_getElem?_getD, List.getElem?_eq_getElem (by rw [← g2]; exact hlt), Option.getD_some]
    obtain ⟨proj, o, e, e', q1, q2, -, q4, q5⟩ := g3 _ k (row k) hge hr
    simp only [Nat.sub_zero] at q1 q2
    obtain ⟨-, -, l1, l2, p, l3, l4⟩ := pointRows_linearised q5
    have heu := hupd e q4
    have hap : e.cam.ap = d.cam.ap := by
      have : e.upd.cam.ap = d.upd.cam.ap := by rw [heu]
      exact this
    obtain ⟨p', hp', hmis⟩ := pointRows_misfit q5
    refine ⟨misfit_eq heu ⟨proj, o, p', q1, q2, hp', hmis⟩, proj, q1, ?_, ?_, p, by rw [← camOf_eq heu]; exact l3, ?_⟩
    · exact fun j hj => quotient_eq heu (l1 j hj)
    · exact fun j hj => quotient_eq heu (l2 j hj)
    · intro j h7 h15
      rw [← hap]; exact l4 j h7 h15
  have hobj : ∀ b', objective I c0 d J m b' = errors (system I.fl (mkEnv I.fl c0) d1 rows) 16 b' := by
    intro b'
    classical
    unfold system objective
    rw [errors_append, errors_ids I.fl (mkEnv I.fl c0) c0 d1 hn rfl, hn, errors_points]
    congr 1
    · rw [show (fun a => Classical.propDecidable (Used I a)) = (fun a => Classical.propDecidable (Used I a)) from rfl]
      rw [sum_used, ← hus]
      conv_rhs => rw [← hrows, List.map_map]
      rfl
    · refine Finset.sum_congr rfl fun i _ => ?_
      rw [hd1.2.2.2 i]
  have hlen : ∀ e ∈ system I.fl (mkEnv I.fl c0) d1 rows, e.1.length = 16 := by
    intro e he
    simp only [system, List.mem_append] at he
    rcases he with he | he
    · obtain ⟨r, hr1, hr2⟩ := List.mem_flatMap.1 he
      obtain ⟨j, hj⟩ := List.getElem?_of_mem hr1
      have hjl : j < us.length := by rw [g2]; exact (List.getElem?_eq_some_iff.1 hj).1
      obtain ⟨proj, o, e1, e', -, -, -, -, q5⟩ := g3 j us[j] r (List.getElem?_eq_getElem hjl) hj
      obtain ⟨l1, l2, -⟩ := pointRows_linearised q5
      simp only [List.mem_cons, List.not_mem_nil, or_false] at hr2
      rcases hr2 with rfl | rfl <;> simp [hn, l1, l2]
    · obtain ⟨t, -, rfl⟩ := List.mem_map.1 he
      simp [hn]
  have hmask := maskBeta_eq I.fl
  refine ⟨⟨J, m, hlin, ?_, ?_, ?_⟩, ?_⟩
  · intro b'
    rw [hobj, hobj]
    exact hs _ 16 hlen b'
  · obtain ⟨q1, q2, q3, -⟩ := hd1
    obtain ⟨z1, z2, z3, z4, z5, z6, z7⟩ := upd_fields q1
    simp only [camOf, placed, applyBeta, change, Calib.ext, hmask, hi, q2, q3, z1, z2, z3, z4, z5, z6, z7, hg]
    simp
  · obtain ⟨q1, q2, q3, -⟩ := hd1
    obtain ⟨z1, z2, z3, z4, z5, z6, z7⟩ := upd_fields q1
    simp only [applyBeta, change, Calib.ext, hmask, z1, z5, z6, z7]
  · simp [applyBeta, hi, hd1.2.1]

theorem orientLoop_chain {I : OInput} (hs : LeastSquares I.solve) (hi : I.fl.interf = false) {c0 : Calib} :
    ∀ (fuel : ℕ) (c c' : Calib) (ok : Bool) (tr : List Beta), c.cam.glass = c0.cam.glass →
    orientLoop I (mkEnv I.fl c0) fuel c = some (c', ok, tr) →
    ∃ ds : List Calib, ds.length = tr.length + 1 ∧ ds[0]? = some c ∧ ds[tr.length]? = some c' ∧
      ∀ (i : ℕ) b d d', tr[i]? = some b → ds[i]? = some d → ds[i + 1]? = some d' → AdjustStep I c0 d d' b
  | 0, c, c', ok, tr, hg, h => by
    simp only [orientLoop, Option.some.injEq, Prod.mk.injEq] at h
    obtain ⟨rfl, rfl, rfl⟩ := h
    exact ⟨[c], rfl, rfl, rfl, by intro i b d d' h; simp at h⟩
  | fuel + 1, c, c', ok, tr, hg, h => by
    simp only [orientLoop, Option.bind_eq_bind, Option.bind_eq_some_iff] at h
    obtain ⟨⟨r1, b1⟩, hr, h⟩ := h
    obtain ⟨st, hg'⟩ := orientIter_step hs hi hg hr
    split_ifs at h with hsm
    · simp only [Option.some.injEq, Prod.mk.injEq] at h
      obtain ⟨rfl, rfl, rfl⟩ := h
      refine ⟨[c, r1], rfl, rfl, rfl, ?_⟩
      intro i b d d' h1 h2 h3
      cases i with
      | zero =>
        simp only [List.getElem?_cons_zero, List.getElem?_cons_succ, Option.some.injEq] at h1 h2 h3
        subst h1 h2 h3
        exact st
      | succ i => simp at h1
    · simp only [Option.bind_eq_some_iff] at h
      obtain ⟨⟨s1, s2, s3⟩, hs', h⟩ := h
      simp only [Option.some.injEq, Prod.mk.injEq] at h
      obtain ⟨rfl, rfl, rfl⟩ := h
      obtain ⟨ds, k1, k2, k3, k4⟩ := orientLoop_chain hs hi fuel r1 s1 s2 s3 hg' hs'
      refine ⟨c :: ds, by simp [k1], rfl, by simpa using k3, ?_⟩
      intro i b d d' h1 h2 h3
      cases i with
      | zero =>
        simp only [List.getElem?_cons_zero, List.getElem?_cons_succ, Option.some.injEq] at h1 h2 h3
        rw [k2, Option.some.injEq] at h3
        subst h1 h2 h3
        exact st
      | succ i => exact k4 i b d d' (by simpa using h1) (by simpa using h2) (by simpa using h3)

/-- C123 (partial): without adjustment of the glass, `orient` with a least-squares solver is a sequence of least-squares steps.
There are calibrations `ds`, the first the given one and the last the one returned, such that every pass minimises the objective of
the specification (misfits of the used points, linearised at the present calibration, and weighted distances of the inner
parameters from the given ones) and carries out the changes of the parameters that may be adjusted; the passes end after the first
in which no change is larger than 0.0001 (success), or after 80. Missing: adjustment of the glass (`interfflag`), for which the
derivatives of later passes are wrong (`C123_glass_refuted`), and which loses its changes (C61). -/
theorem C123_steps_partial (I : OInput) (hs : LeastSquares I.solve) (hi : I.fl.interf = false) (c c' : Calib) (ok : Bool)
    (tr : List Beta) (h : orient I c = some (c', ok, tr)) :
    ∃ (ds : List Calib) (last : Calib), ds.length = tr.length + 1 ∧ ds[0]? = some c ∧ ds[tr.length]? = some last ∧
      c'.ext = last.ext ∧ camOf c' = camOf last ∧
      (∀ (i : ℕ) b d d', tr[i]? = some b → ds[i]? = some d → ds[i + 1]? = some d' → AdjustStep I c d d' b) ∧
      (ok = true → ∃ init b, tr = init ++ [b] ∧ (∀ j < 16, |b j| ≤ (0.0001 : ℝ)) ∧ ∀ b ∈ init, ∃ j < 16, (0.0001 : ℝ) < |b j|) ∧
      (ok = false → tr.length = 80 ∧ ∀ b ∈ tr, ∃ j < 16, (0.0001 : ℝ) < |b j|) := by
  have hsucc : ok = true → ∃ init b, tr = init ++ [b] ∧ (∀ j < 16, |b j| ≤ (0.0001 : ℝ)) ∧
      ∀ b ∈ init, ∃ j < 16, (0.0001 : ℝ) < |b j| := by
    rintro rfl
    have := (C35_success I c c' tr h).2.1
    simpa only [hi, Bool.false_eq_true, if_false] using this
  have hfail : ok = false → tr.length = 80 ∧ ∀ b ∈ tr, ∃ j < 16, (0.0001 : ℝ) < |b j| := by
    rintro rfl
    obtain ⟨h1, h2, -⟩ := C35_failure_partial I c c' tr h
    exact ⟨h1, by simpa only [hi, Bool.false_eq_true, if_false] using h2⟩
  simp only [orient, Option.bind_eq_bind, Option.bind_eq_some_iff] at h
  obtain ⟨⟨r1, r2, r3⟩, hr, h⟩ := h
  simp only [Option.some.injEq, Prod.mk.injEq] at h
  obtain ⟨rfl, rfl, rfl⟩ := h
  obtain ⟨ds, k1, k2, k3, k4⟩ := orientLoop_chain hs hi _ c r1 r2 r3 rfl hr
  refine ⟨ds, r1, k1, k2, k3, ?_, ?_, k4, hsucc, hfail⟩
  · split_ifs <;> rfl
  · split_ifs <;> rfl

/-- The second direction in which the glass is turned: the derivative that the adjustment uses is the difference of an image with
the glass of the *beginning* (turned by the step) and an image with the *present* glass. For every projection and every pass, the
first used point included in which the glass is not the one of the beginning. -/
theorem C123_glass_refuted (proj : Cam → Option (ℝ × ℝ)) (ip : ImgPar) (tol dm drad : ℝ) (fl : OFlags) (c0 e e' : Calib) (o : Obs)
    (r : Rows) (h : pointRows proj ip tol dm drad (mkEnv fl c0) o e = some (e', r)) :
    ∃ p q, proj (camOf e) = some p ∧
      proj { camOf e with glass := c0.cam.glass + (glassE2 c0.cam.glass).unit.smul (c0.cam.glass.norm * dm) } = some q ∧
      r.rx[17]? = some ((q.1 - p.1) / dm) ∧ r.ry[17]? = some ((q.2 - p.2) / dm) := by
  simp only [pointRows, Option.bind_eq_bind, Option.bind_eq_some_iff] at h
  obtain ⟨p, hp, ⟨d1, ders⟩, hder, pc, hpc, pa, hpa, pb, hpb, pg, -, h⟩ := h
  rw [Option.some.injEq, Prod.mk.injEq] at h
  obtain ⟨-, hr⟩ := h
  obtain ⟨hl, -⟩ := numDeriv_quotients hder
  have hd1 := (C33_unchanged _ _ _ _ _ _ hder).1
  refine ⟨p, pb, hp, ?_, ?_, ?_⟩
  · rw [← hpb, hd1]
    congr 1
    simp [camOf, placed, Calib.ext, Calib.upd, Calib.setGlass, mkEnv]
  · rw [← hr]; simp [List.getElem?_append, hl]
  · rw [← hr]; simp [List.getElem?_append, hl]

/-- An image that is the x component of the glass vector: turning the glass in the second direction `t` changes it by `t.x` per
unit, but with the glass of the beginning at (0, 0, 1) and the present one at (1, 0, 1) the adjustment uses `t.x - 10000`. -/
example : ∃ e' r, pointRows (fun c => some (c.glass.x, 0)) ⟨0, 0, 1, 1⟩ 0.00001 0.0001 0.0001 (mkEnv witFlags ⟨⟨⟨0, 0, 10⟩,
      rotationMatrix 0 0 0, 5, 0, 0, defaultAddPar, ⟨0, 0, 1⟩⟩, 0, 0, 0⟩) ⟨0, 0, 0⟩
      ⟨⟨⟨0, 0, 10⟩, rotationMatrix 0 0 0, 5, 0, 0, defaultAddPar, ⟨1, 0, 1⟩⟩, 0, 0, 0⟩ = some (e', r) ∧
    r.rx[17]? = some ((glassE2 ⟨0, 0, 1⟩).unit.x - 10000 : ℝ) := by
  obtain ⟨⟨der1, der2⟩, hder⟩ : ∃ x, numDerivExterior (fun c => some (c.glass.x, 0)) 0.0001 0.0001
      (Calib.upd ⟨⟨⟨0, 0, 10⟩, rotationMatrix 0 0 0, 5, 0, 0, defaultAddPar, ⟨1, 0, 1⟩⟩, 0, 0, 0⟩) = some x :=
    numDeriv_total (fun c => ⟨_, rfl⟩) (by norm_num) (by norm_num) _
  have hex : ∃ x, pointRows (fun c => some (c.glass.x, 0)) ⟨0, 0, 1, 1⟩ 0.00001 0.0001 0.0001 (mkEnv witFlags ⟨⟨⟨0, 0, 10⟩,
      rotationMatrix 0 0 0, 5, 0, 0, defaultAddPar, ⟨0, 0, 1⟩⟩, 0, 0, 0⟩) ⟨0, 0, 0⟩
      ⟨⟨⟨0, 0, 10⟩, rotationMatrix 0 0 0, 5, 0, 0, defaultAddPar, ⟨1, 0, 1⟩⟩, 0, 0, 0⟩ = some x := by
    simp only [pointRows, hder, Option.bind_eq_bind, Option.bind_some]
    exact ⟨_, rfl⟩
  obtain ⟨⟨e', r⟩, h⟩ := hex
  obtain ⟨p, q, h1, h2, h3, -⟩ := C123_glass_refuted _ _ _ _ _ _ _ _ _ _ _ h
  refine ⟨e', r, h, ?_⟩
  simp only [camOf, placed, Option.some.injEq] at h1 h2
  rw [h3, ← h1, ← h2]
  simp [V3.norm, smul]
  ring

/-! ### raw_orient -/

/-- Derivatives and misfit of point `k` for `raw_orient`: six difference quotients; the detection is not corrected. -/
def Spec.RawLinearised (I : OInput) (k : ℕ) (d : Calib) (J : ℕ → ℝ × ℝ) (m : ℝ × ℝ) : Prop :=
  ∃ proj o p, I.projs[k]? = some proj ∧ I.pix[k]? = some o ∧ proj (camOf d) = some p ∧
    m = ((o.x - (I.ip.imx : ℝ) / 2) * I.ip.pixX - p.1, ((I.ip.imy : ℝ) / 2 - o.y) * I.ip.pixY - p.2) ∧
    (∀ j < 3, Quotient proj d j I.dm (J j)) ∧ ∀ j, 3 ≤ j → j < 6 → Quotient proj d j I.drad (J j)

/-- One pass of `raw_orient`. -/
def Spec.RawStep (I : OInput) (d d' : Calib) (b : ℕ → ℝ) : Prop :=
  ∃ (J : ℕ → ℕ → ℝ × ℝ) (m : ℕ → ℝ × ℝ), (∀ k < I.projs.length, RawLinearised I k d (J k) (m k)) ∧
    (∀ b' : ℕ → ℝ, ∑ k ∈ Finset.range I.projs.length, ((∑ j ∈ Finset.range 6, (J k j).1 * b j - (m k).1) ^ 2 +
        (∑ j ∈ Finset.range 6, (J k j).2 * b j - (m k).2) ^ 2) ≤
      ∑ k ∈ Finset.range I.projs.length, ((∑ j ∈ Finset.range 6, (J k j).1 * b' j - (m k).1) ^ 2 +
        (∑ j ∈ Finset.range 6, (J k j).2 * b' j - (m k).2) ^ 2)) ∧
    camOf d' = camOf (change d fun j => if j < 6 then b j else 0) ∧ d'.ext = (change d fun j => if j < 6 then b j else 0).ext

theorem rawLoop_rows {ip : ImgPar} {dm drad : ℝ} : ∀ (fs : List (Cam → Option (ℝ × ℝ))) (os : List Obs) (c c' : Calib)
    (rs : List Rows), rawLoop ip dm drad fs os c = some (c', rs) → c'.upd = c.upd ∧ (c' = c ∨ c' = c.upd) ∧ rs.length = fs.length ∧
    ∀ (k : ℕ) r, rs[k]? = some r → ∃ proj o e e', fs[k]? = some proj ∧ os[k]? = some o ∧ e.upd = c.upd ∧
      rawRows proj ip dm drad o e = some (e', r)
  | [], os, c, c', rs, h => by
    simp only [rawLoop, Option.some.injEq, Prod.mk.injEq] at h
    obtain ⟨rfl, rfl⟩ := h
    exact ⟨rfl, Or.inl rfl, rfl, by intro k r h; simp at h⟩
  | _ :: _, [], c, c', rs, h => by simp [rawLoop] at h
  | f :: fs, o :: os, c, c', rs, h => by
    simp only [rawLoop, Option.bind_eq_bind, Option.bind_eq_some_iff] at h
    obtain ⟨⟨c1, r1⟩, hr, ⟨c2, rs2⟩, hs, h⟩ := h
    simp only [Option.some.injEq, Prod.mk.injEq] at h
    obtain ⟨rfl, rfl⟩ := h
    have hc1 : c1 = c.upd := by
      have hr' := hr
      simp only [rawRows, Option.bind_eq_bind, Option.bind_eq_some_iff] at hr'
      obtain ⟨p, -, ⟨d1, ders⟩, hder, hr'⟩ := hr'
      simp only [Option.some.injEq, Prod.mk.injEq] at hr'
      rw [← hr'.1, (C33_unchanged _ _ _ _ _ _ hder).1, upd_upd]
    obtain ⟨i0, i1, i2, i3⟩ := rawLoop_rows fs os c1 c2 rs2 hs
    refine ⟨by rw [i0, hc1, upd_upd], ?_, by simp [i2], ?_⟩
    · rcases i1 with i1 | i1
      · exact Or.inr (by rw [i1, hc1])
      · exact Or.inr (by rw [i1, hc1, upd_upd])
    · intro k r hk
      cases k with
      | zero =>
        simp only [List.getElem?_cons_zero, Option.some.injEq] at hk
        subst hk
        exact ⟨f, o, c, c1, by simp, by simp, rfl, hr⟩
      | succ k =>
        obtain ⟨proj, o', e, e', q1, q2, q3, q4⟩ := i3 k r (by simpa using hk)
        exact ⟨proj, o', e, e', by simpa using q1, by simpa using q2, by rw [q3, hc1, upd_upd], q4⟩

theorem errors_all (n : ℕ) (b : ℕ → ℝ) : ∀ rows : List Rows,
    errors (rows.flatMap fun r => [(r.rx, r.yx), (r.ry, r.yy)]) n b =
      (rows.map fun r => (∑ j ∈ Finset.range n, r.rx.getD j 0 * b j - r.yx) ^ 2 +
        (∑ j ∈ Finset.range n, r.ry.getD j 0 * b j - r.yy) ^ 2).sum
  | [] => by simp [errors]
  | r :: rows => by
    have ih := errors_all n b rows
    rw [List.flatMap_cons, errors_append, ih, List.map_cons, List.sum_cons]
    congr 1
    simp only [errors, List.map_cons, List.map_nil, List.sum_cons, List.sum_nil, add_zero]

theorem rawRows_linearised {proj : Cam → Option (ℝ × ℝ)} {ip : ImgPar} {dm drad : ℝ} {o : Obs} {e e' : Calib} {r : Rows}
    (h : rawRows proj ip dm drad o e = some (e', r)) : r.rx.length = 6 ∧ r.ry.length = 6 ∧
    (∀ j : ℕ, j < 3 → Quotient proj e j dm (r.rx.getD j 0, r.ry.getD j 0)) ∧
    (∀ j : ℕ, 3 ≤ j → j < 6 → Quotient proj e j drad (r.rx.getD j 0, r.ry.getD j 0)) ∧
    ∃ p, proj (camOf e) = some p ∧
      (r.yx, r.yy) = ((o.x - (ip.imx : ℝ) / 2) * ip.pixX - p.1, ((ip.imy : ℝ) / 2 - o.y) * ip.pixY - p.2) := by
  simp only [rawRows, Option.bind_eq_bind, Option.bind_eq_some_iff] at h
  obtain ⟨p, hp, ⟨d1, ders⟩, hder, h⟩ := h
  simp only [Option.some.injEq, Prod.mk.injEq] at h
  obtain ⟨-, rfl⟩ := h
  obtain ⟨hl, hq⟩ := numDeriv_quotients hder
  have hq' : ∀ k : Fin 6, ∃ v, ders[(k : ℕ)]? = some v ∧ Quotient proj e k (stepSize dm drad k) v := hq
  obtain ⟨a0, a1, a2, a3, a4, a5, rfl⟩ : ∃ a0 a1 a2 a3 a4 a5, ders = [a0, a1, a2, a3, a4, a5] := by
    match ders, hl with
    | [a0, a1, a2, a3, a4, a5], _ => exact ⟨a0, a1, a2, a3, a4, a5, rfl⟩
  have k0 := hq' 0
  have k1 := hq' 1
  have k2 := hq' 2
  have k3 := hq' 3
  have k4 := hq' 4
  have k5 := hq' 5
  simp at k0 k1 k2 k3 k4 k5
  refine ⟨rfl, rfl, ?_, ?_, p, hp, rfl⟩
  · intro j hj
    interval_cases j
    · simpa [stepSize] using k0
    · simpa [stepSize] using k1
    · simpa [stepSize] using k2
  · intro j h3 h6
    interval_cases j
    · simpa [stepSize] using k3
    · simpa [stepSize] using k4
    · simpa [stepSize] using k5

theorem rawIter_step {I : OInput} (hs : LeastSquares I.solve) {d d' : Calib} {b : Beta} (h : rawIter I d = some (d', b)) :
    RawStep I d d' b := by
  simp only [rawIter, Option.bind_eq_bind, Option.bind_eq_some_iff] at h
  obtain ⟨⟨d1, rows⟩, hrl, h⟩ := h
  simp only [Option.some.injEq, Prod.mk.injEq] at h
  obtain ⟨rfl, rfl⟩ := h
  obtain ⟨hu, hd1, hlen, hrow⟩ := rawLoop_rows _ _ _ _ _ hrl
  have hrows : ∀ f : Rows → ℝ, (rows.map f).sum = ∑ k ∈ Finset.range I.projs.length, f (rows.getD k ⟨[], [], 0, 0⟩) := by
    intro f
    rw [← hlen, Finset.sum_range, ← Fin.sum_univ_getElem (rows.map f)]
    refine Fintype.sum_equiv (finCongr (by simp)) _ _ ?_
    intro i
    have hi : (i : ℕ) < rows.length := by simpa using i.2
    simp only [List.getElem_map, finCongr_apply, Fin.val_cast, List.getD_eq_getElem?_getD, Fin.getElem_fin]
    rw [List.getElem?_eq_getElem hi, Option.getD_some]
  refine ⟨fun k j => ((rows.getD k ⟨[], [], 0, 0⟩).rx.getD j 0, (rows.getD k ⟨[], [], 0, 0⟩).ry.getD j 0),
    fun k => ((rows.getD k ⟨[], [], 0, 0⟩).yx, (rows.getD k ⟨[], [], 0, 0⟩).yy), ?_, ?_, ?_, ?_⟩
  · intro k hk
    have hr : rows[k]? = some (rows.getD k ⟨[], [], 0, 0⟩) := by
      rw [List.getD_eq_getElem?_getD, List.getElem?_eq_getElem (by omega), Option.getD_some]
    obtain ⟨proj, o, e, e', q1, q2, q3, q4⟩ := hrow k _ hr
    obtain ⟨-, -, l1, l2, p, l3, l4⟩ := rawRows_linearised q4
    exact ⟨proj, o, p, q1, q2, by rw [← camOf_eq q3]; exact l3, l4, fun j hj => quotient_eq q3 (l1 j hj),
      fun j h3 h6 => quotient_eq q3 (l2 j h3 h6)⟩
  · intro b'
    have hl6 : ∀ e ∈ rows.flatMap fun r => [(r.rx, r.yx), (r.ry, r.yy)], e.1.length = 6 := by
      intro e he
      obtain ⟨r, hr1, hr2⟩ := List.mem_flatMap.1 he
      obtain ⟨j, hj⟩ := List.getElem?_of_mem hr1
      obtain ⟨proj, o, e1, e', -, -, -, q4⟩ := hrow j r hj
      obtain ⟨l1, l2, -⟩ := rawRows_linearised q4
      simp only [List.mem_cons, List.not_mem_nil, or_false] at hr2
      rcases hr2 with rfl | rfl
      · exact l1
      · exact l2
    have := hs _ 6 hl6 b'
    rw [errors_all, errors_all, hrows, hrows] at this
    exact this
  · rcases hd1 with rfl | rfl <;> simp [applyExt, camOf, placed, change, Calib.ext, Calib.upd]
  · rcases hd1 with rfl | rfl <;> simp [applyExt, change, Calib.ext, Calib.upd]

theorem rawLoop_chain {I : OInput} (hs : LeastSquares I.solve) :
    ∀ (fuel : ℕ) (c c' : Calib) (ok : Bool) (tr : List Beta), rawOrientLoop I fuel c = some (c', ok, tr) →
    (∃ ds : List Calib, ds.length = tr.length + 1 ∧ ds[0]? = some c ∧ ds[tr.length]? = some c' ∧
      ∀ (i : ℕ) b d d', tr[i]? = some b → ds[i]? = some d → ds[i + 1]? = some d' → RawStep I d d' b) ∧
    (ok = true → tr.length ≤ fuel ∧ ∃ init b, tr = init ++ [b] ∧ (∀ j < 6, |b j| ≤ (0.1 : ℝ)) ∧
      ∀ b ∈ init, ∃ j < 6, (0.1 : ℝ) < |b j|) ∧
    (ok = false → tr.length = fuel ∧ ∀ b ∈ tr, ∃ j < 6, (0.1 : ℝ) < |b j|)
  | 0, c, c', ok, tr, h => by
    simp only [rawOrientLoop, Option.some.injEq, Prod.mk.injEq] at h
    obtain ⟨rfl, rfl, rfl⟩ := h
    exact ⟨⟨[c], rfl, rfl, rfl, by intro i b d d' h; simp at h⟩, by simp, by simp⟩
  | fuel + 1, c, c', ok, tr, h => by
    simp only [rawOrientLoop, Option.bind_eq_bind, Option.bind_eq_some_iff] at h
    obtain ⟨⟨r1, b1⟩, hr, h⟩ := h
    have st := rawIter_step hs hr
    split_ifs at h with hsm
    · simp only [Option.some.injEq, Prod.mk.injEq] at h
      obtain ⟨rfl, rfl, rfl⟩ := h
      refine ⟨⟨[c, r1], rfl, rfl, rfl, ?_⟩, fun _ => ⟨by simp, [], b1, rfl, hsm, by simp⟩, by simp⟩
      intro i b d d' h1 h2 h3
      cases i with
      | zero =>
        simp only [List.getElem?_cons_zero, List.getElem?_cons_succ, Option.some.injEq] at h1 h2 h3
        subst h1 h2 h3
        exact st
      | succ i => simp at h1
    · simp only [Option.bind_eq_some_iff] at h
      obtain ⟨⟨s1, s2, s3⟩, hs', h⟩ := h
      simp only [Option.some.injEq, Prod.mk.injEq] at h
      obtain ⟨rfl, rfl, rfl⟩ := h
      obtain ⟨⟨ds, k1, k2, k3, k4⟩, k5, k6⟩ := rawLoop_chain hs fuel r1 s1 s2 s3 hs'
      refine ⟨⟨c :: ds, by simp [k1], rfl, by simpa using k3, ?_⟩, ?_, ?_⟩
      · intro i b d d' h1 h2 h3
        cases i with
        | zero =>
          simp only [List.getElem?_cons_zero, List.getElem?_cons_succ, Option.some.injEq] at h1 h2 h3
          rw [k2, Option.some.injEq] at h3
          subst h1 h2 h3
          exact st
        | succ i => exact k4 i b d d' (by simpa using h1) (by simpa using h2) (by simpa using h3)
      · intro hok
        obtain ⟨e0, init, b, e1, e2, e3⟩ := k5 hok
        refine ⟨by simpa using e0, b1 :: init, b, by simp [e1], e2, ?_⟩
        intro b' hb
        rcases List.mem_cons.1 hb with rfl | hb
        · exact not_small_iff.1 hsm
        · exact e3 b' hb
      · intro hok
        obtain ⟨e0, e1⟩ := k6 hok
        refine ⟨by simp [e0], ?_⟩
        intro b' hb
        rcases List.mem_cons.1 hb with rfl | hb
        · exact not_small_iff.1 hsm
        · exact e1 b' hb

/-- C123 for `raw_orient`: a sequence of least-squares steps for the exterior orientation, which starts at the given calibration
without lens distortion, over all points, and ends after the first pass in which no change is larger than 0.1 (success), or
after 20. -/
theorem C123_raw_steps (I : OInput) (hs : LeastSquares I.solve) (c c' : Calib) (ok : Bool) (tr : List Beta)
    (h : rawOrient I c = some (c', ok, tr)) :
    ∃ (ds : List Calib) (last : Calib), ds.length = tr.length + 1 ∧
      ds[0]? = some { c with cam := { c.cam with ap := ⟨0, 0, 0, 0, 0, 1, 0⟩ } } ∧ ds[tr.length]? = some last ∧
      c'.ext = last.ext ∧ camOf c' = camOf last ∧
      (∀ (i : ℕ) b d d', tr[i]? = some b → ds[i]? = some d → ds[i + 1]? = some d' → RawStep I d d' b) ∧
      (ok = true → tr.length ≤ 20 ∧ ∃ init b, tr = init ++ [b] ∧ (∀ j < 6, |b j| ≤ (0.1 : ℝ)) ∧
        ∀ b ∈ init, ∃ j < 6, (0.1 : ℝ) < |b j|) ∧
      (ok = false → tr.length = 20 ∧ ∀ b ∈ tr, ∃ j < 6, (0.1 : ℝ) < |b j|) := by
  simp only [rawOrient, Option.bind_eq_bind, Option.bind_eq_some_iff] at h
  obtain ⟨⟨r1, r2, r3⟩, hr, h⟩ := h
  simp only [Option.some.injEq, Prod.mk.injEq] at h
  obtain ⟨rfl, rfl, rfl⟩ := h
  obtain ⟨⟨ds, k1, k2, k3, k4⟩, k5, k6⟩ := rawLoop_chain hs _ _ r1 r2 r3 hr
  refine ⟨ds, r1, k1, k2, k3, ?_, ?_, k4, k5, k6⟩
  · split_ifs <;> rfl
  · split_ifs <;> rfl

/-! ### Non-vacuity -/

theorem exists_minimum {m n : ℕ} (M : Fin m → Fin n → ℝ) (y : Fin m → ℝ) :
    ∃ a : Fin n → ℝ, ∀ a' : Fin n → ℝ, ∑ k, (∑ j, M k j * a j - y k) ^ 2 ≤ ∑ k, (∑ j, M k j * a' j - y k) ^ 2 := by
  let A : (Fin n → ℝ) →ₗ[ℝ] EuclideanSpace ℝ (Fin m) :=
    (WithLp.linearEquiv 2 ℝ (Fin m → ℝ)).symm.toLinearMap ∘ₗ Matrix.mulVecLin (Matrix.of M)
  have herr : ∀ a : Fin n → ℝ, ∑ k, (∑ j, M k j * a j - y k) ^ 2 = ‖WithLp.toLp 2 y - A a‖ ^ 2 := by
    intro a
    rw [EuclideanSpace.norm_sq_eq]
    refine Finset.sum_congr rfl fun k _ => ?_
    have : A a k = ∑ j, M k j * a j := by
      simp [A, Matrix.mulVec, dotProduct]
    rw [Real.norm_eq_abs, sq_abs, PiLp.sub_apply, this]
    ring
  have hc : IsComplete ((LinearMap.range A : Submodule ℝ (EuclideanSpace ℝ (Fin m))) : Set (EuclideanSpace ℝ (Fin m))) :=
    (Submodule.closed_of_finiteDimensional _).isComplete
  obtain ⟨v, ⟨a, rfl⟩, hv⟩ := (LinearMap.range A).exists_norm_eq_iInf_of_complete_subspace hc (WithLp.toLp 2 y)
  refine ⟨a, fun a' => ?_⟩
  rw [herr, herr]
  have : ‖WithLp.toLp 2 y - A a‖ ≤ ‖WithLp.toLp 2 y - A a'‖ := by
    rw [hv]
    exact ciInf_le ⟨0, by rintro _ ⟨w, rfl⟩; exact norm_nonneg _⟩
      (⟨A a', ⟨_, rfl⟩⟩ : ((LinearMap.range A : Submodule ℝ (EuclideanSpace ℝ (Fin m))) : Set (EuclideanSpace ℝ (Fin m))))
  gcongr

theorem errors_minimum (s : List Eqn) (n : ℕ) : ∃ b, ∀ b', errors s n b ≤ errors s n b' := by
  have herr : ∀ b : ℕ → ℝ, errors s n b =
      ∑ k : Fin s.length, (∑ j : Fin n, (s.get k).1.getD j 0 * (fun j : Fin n => b j) j - (s.get k).2) ^ 2 := by
    intro b
    rw [errors, ← Fin.sum_univ_getElem]
    refine Fintype.sum_equiv (finCongr (by simp)) _ _ ?_
    intro k
    simp only [List.getElem_map, Finset.sum_range, finCongr_apply, List.get_eq_getElem, Fin.val_cast, Fin.getElem_fin]
  obtain ⟨a, ha⟩ := exists_minimum (fun (k : Fin s.length) (j : Fin n) => (s.get k).1.getD j 0) (fun k => (s.get k).2)
  refine ⟨fun j => if h : j < n then a ⟨j, h⟩ else 0, fun b' => ?_⟩
  have haj : (fun j : Fin n => if h : (j : ℕ) < n then a ⟨j, h⟩ else 0) = a := by
    funext j
    rw [dif_pos j.2]
  rw [herr, herr, haj]
  exact ha _

/-- There are solvers in the sense of least squares. -/
theorem exists_leastSquares : ∃ solve, LeastSquares solve := by
  refine ⟨fun s => (errors_minimum s ((s.head?.map fun e => e.1.length).getD 0)).choose, ?_⟩
  intro s n hn b
  cases s with
  | nil => simp [errors]
  | cons e s =>
    have he : (((e :: s).head?.map fun e => e.1.length).getD 0) = n := by simpa using hn e (by simp)
    have := (errors_minimum (e :: s) (((e :: s).head?.map fun e => e.1.length).getD 0)).choose_spec b
    rw [show (fun s : List Eqn => (errors_minimum s ((s.head?.map fun e => e.1.length).getD 0)).choose) (e :: s) =
      (errors_minimum (e :: s) (((e :: s).head?.map fun e => e.1.length).getD 0)).choose from rfl]
    subst he
    exact this

theorem rawOrient_total (I : OInput) (hm : I.dm ≠ 0) (hr : I.drad ≠ 0) (ht : ∀ f ∈ I.projs, Total f)
    (hl : I.projs.length ≤ I.pix.length) (c : Calib) : ∃ r, rawOrient I c = some r := by
  have rows : ∀ (fs : List (Cam → Option (ℝ × ℝ))) (os : List Obs) (d : Calib), (∀ f ∈ fs, Total f) → fs.length ≤ os.length →
      ∃ r, rawLoop I.ip I.dm I.drad fs os d = some r := by
    intro fs
    induction fs with
    | nil => intro os d _ _; exact ⟨_, rfl⟩
    | cons f fs ih =>
      intro os d hf hl
      cases os with
      | nil => simp at hl
      | cons o os =>
        obtain ⟨p, hp⟩ := hf f (by simp) d.upd.cam
        obtain ⟨ders, hd⟩ := numDeriv_total (hf f (by simp)) hm hr d.upd
        obtain ⟨r, hr'⟩ : ∃ r, rawRows f I.ip I.dm I.drad o d = some r :=
          ⟨_, by simp only [rawRows, hp, hd, Option.bind_eq_bind, Option.bind_some]; rfl⟩
        obtain ⟨s, hs⟩ := ih os r.1 (fun g hg => hf g (by simp [hg])) (by simpa using hl)
        exact ⟨_, by simp only [rawLoop, hr', hs, Option.bind_eq_bind, Option.bind_some]; rfl⟩
  have loop : ∀ fuel d, ∃ r, rawOrientLoop I fuel d = some r := by
    intro fuel
    induction fuel with
    | zero => intro d; exact ⟨_, rfl⟩
    | succ fuel ih =>
      intro d
      obtain ⟨r, h⟩ : ∃ r, rawIter I d = some r := by
        obtain ⟨r, h⟩ := rows I.projs I.pix d ht hl
        exact ⟨_, by simp only [rawIter, h, Option.bind_eq_bind, Option.bind_some]; rfl⟩
      obtain ⟨s, h'⟩ := ih r.1
      rw [rawOrientLoop]
      simp only [h, Option.bind_eq_bind, Option.bind_some]
      split_ifs
      · exact ⟨_, rfl⟩
      · rw [h']; exact ⟨_, rfl⟩
  simp only [rawOrient]
  obtain ⟨r, h⟩ := loop 20 _
  rw [h]
  exact ⟨_, rfl⟩

/-- Non-vacuity of C123: a camera, one point whose image is not where it was detected, adjustment of all parameters but the glass,
with a least-squares solver. -/
example : ∃ solve c' ok tr, LeastSquares solve ∧
    orient { witInput 1 solve with fl := { witFlags with interf := false } } (witCal 1) = some (c', ok, tr) := by
  obtain ⟨solve, hs⟩ := exists_leastSquares
  obtain ⟨⟨c', ok, tr⟩, h⟩ := orient_total { witInput 1 solve with fl := { witFlags with interf := false } }
    (by norm_num [witInput]) (by norm_num [witInput]) (by
      intro f hf
      simp only [witInput, List.mem_singleton] at hf
      rw [hf]; exact imgCoord_total ⟨1, 0, 0⟩ witMM 2 1 [] [] rfl rfl) (by simp [witInput]) (witCal 1)
  exact ⟨solve, c', ok, tr, hs, h⟩

/-- And for `raw_orient`. -/
example : ∃ solve c' ok tr, LeastSquares solve ∧ rawOrient (witInput 1 solve) (witCal 1) = some (c', ok, tr) := by
  obtain ⟨solve, hs⟩ := exists_leastSquares
  obtain ⟨⟨c', ok, tr⟩, h⟩ := rawOrient_total (witInput 1 solve) (by norm_num [witInput]) (by norm_num [witInput]) (by
      intro f hf
      simp only [witInput, List.mem_singleton] at hf
      rw [hf]; exact imgCoord_total ⟨1, 0, 0⟩ witMM 2 1 [] [] rfl rfl) (by simp [witInput]) (witCal 1)
  exact ⟨solve, c', ok, tr, hs, h⟩

/-! ### C124: the columns of the lens parameters -/

/-- The formula of the distortion, without the case of the origin. -/
theorem distort_formula (x y : ℝ) (ap : AddPar) : distortBrownAffine x y ap =
    (ap.scx * (x + (x * (ap.k1 * (x ^ 2 + y ^ 2) + ap.k2 * (x ^ 2 + y ^ 2) ^ 2 + ap.k3 * (x ^ 2 + y ^ 2) ^ 3)
        + ap.p1 * (x ^ 2 + y ^ 2 + 2 * x ^ 2) + 2 * ap.p2 * x * y)) - Real.sin ap.she *
      (y + (y * (ap.k1 * (x ^ 2 + y ^ 2) + ap.k2 * (x ^ 2 + y ^ 2) ^ 2 + ap.k3 * (x ^ 2 + y ^ 2) ^ 3)
        + ap.p2 * (x ^ 2 + y ^ 2 + 2 * y ^ 2) + 2 * ap.p1 * (x + (x * (ap.k1 * (x ^ 2 + y ^ 2) + ap.k2 * (x ^ 2 + y ^ 2) ^ 2 +
          ap.k3 * (x ^ 2 + y ^ 2) ^ 3) + ap.p1 * (x ^ 2 + y ^ 2 + 2 * x ^ 2) + 2 * ap.p2 * x * y)) * y)),
     Real.cos ap.she *
      (y + (y * (ap.k1 * (x ^ 2 + y ^ 2) + ap.k2 * (x ^ 2 + y ^ 2) ^ 2 + ap.k3 * (x ^ 2 + y ^ 2) ^ 3)
        + ap.p2 * (x ^ 2 + y ^ 2 + 2 * y ^ 2) + 2 * ap.p1 * (x + (x * (ap.k1 * (x ^ 2 + y ^ 2) + ap.k2 * (x ^ 2 + y ^ 2) ^ 2 +
          ap.k3 * (x ^ 2 + y ^ 2) ^ 3) + ap.p1 * (x ^ 2 + y ^ 2 + 2 * x ^ 2) + 2 * ap.p2 * x * y)) * y))) := by
  unfold distortBrownAffine
  split_ifs with h
  · obtain ⟨rfl, rfl⟩ := h
    simp
  · have h2 : Real.sqrt (x ^ 2 + y ^ 2) ^ 2 = x ^ 2 + y ^ 2 := Real.sq_sqrt (by positivity)
    have h4 : Real.sqrt (x ^ 2 + y ^ 2) ^ 4 = (x ^ 2 + y ^ 2) ^ 2 := by
      calc _ = (Real.sqrt (x ^ 2 + y ^ 2) ^ 2) ^ 2 := by ring
        _ = _ := by rw [h2]
    have h6 : Real.sqrt (x ^ 2 + y ^ 2) ^ 6 = (x ^ 2 + y ^ 2) ^ 3 := by
      calc _ = (Real.sqrt (x ^ 2 + y ^ 2) ^ 2) ^ 3 := by ring
        _ = _ := by rw [h2]
    simp only [h2, h4, h6]

theorem deriv_quadratic {f : ℝ → ℝ} {a b c : ℝ} (h : ∀ t, f t = a + b * t + c * t ^ 2) {b' : ℝ} (hb : b' = b) : HasDerivAt f b' 0 := by
  subst hb
  have e : f = fun t => a + b' * t + c * t ^ 2 := funext h
  rw [e]
  have h1 : HasDerivAt (fun t : ℝ => a + b' * t + c * t ^ 2) (b' * 1 + c * (2 * (0 : ℝ) ^ 1)) 0 := by
    have := (((hasDerivAt_id (0 : ℝ)).const_mul b').const_add a).add ((hasDerivAt_pow 2 (0 : ℝ)).const_mul c)
    exact this.congr_deriv (by norm_num)
  simpa using h1

/-- The lens parameters do not enter before the last step of the projection. -/
theorem imgCoord_lens (P : V3) (lut : LUT) (mm : MM) (c : Calib) (b : ℕ → ℝ) (hb : ∀ j < 7, b j = 0) :
    imgCoord P (camOf (change c b)) lut mm = (flatImageCoord P (camOf c) lut mm).map fun f =>
      flatToDist f.1 f.2 (c.cam.xh + b 7) (c.cam.yh + b 8) (change c b).cam.ap := by
  have hf : flatImageCoord P (camOf (change c b)) lut mm = flatImageCoord P (camOf c) lut mm := by
    have e : camOf (change c b) = { camOf c with xh := c.cam.xh + b 7, yh := c.cam.yh + b 8, ap := (change c b).cam.ap } := by
      simp [camOf, change, placed, Calib.ext, hb]
    rw [e]; rfl
  rw [imgCoord, hf]
  cases flatImageCoord P (camOf c) lut mm <;> rfl

/-- C124: for a calibration without lens distortion, the entries of the linear system for the principal point, the distortion
coefficients, the x scale and the shear are the exact derivatives of the image over these parameters. -/
theorem C124_lens_derivatives_partial (P : V3) (lut : LUT) (mm : MM) (ip : ImgPar) (tol dm drad : ℝ) (env : OEnv) (o : Obs)
    (c c' : Calib) (r : Rows) (hap : c.cam.ap = ⟨0, 0, 0, 0, 0, 1, 0⟩)
    (h : pointRows (fun cam => imgCoord P cam lut mm) ip tol dm drad env o c = some (c', r)) (j : ℕ) (h7 : 7 ≤ j) (h15 : j ≤ 15) :
    ∃ (X Y : ℝ → ℝ) (dx dy : ℝ), (∀ t, imgCoord P (camOf (change c (only j t))) lut mm = some (X t, Y t)) ∧
      r.rx[j]? = some dx ∧ r.ry[j]? = some dy ∧ HasDerivAt X dx 0 ∧ HasDerivAt Y dy 0 := by
  obtain ⟨l1, l2, -, -, p, hp, hcol⟩ := pointRows_linearised h
  have hpj := hcol j h7 h15
  obtain ⟨f, hf⟩ : ∃ f, flatImageCoord P (camOf c) lut mm = some f := by
    simp only [imgCoord, Option.bind_eq_bind, Option.bind_eq_some_iff] at hp
    obtain ⟨f, hf, -⟩ := hp
    exact ⟨f, hf⟩
  have hpe : p = (f.1 + c.cam.xh, f.2 + c.cam.yh) := by
    simp only [imgCoord, hf, Option.bind_eq_bind, Option.bind_some, Option.some.injEq] at hp
    rw [← hp]
    simp [flatToDist, distort_formula, camOf, placed, hap]
  have hlens : ∀ t, imgCoord P (camOf (change c (only j t))) lut mm =
      some (flatToDist f.1 f.2 (c.cam.xh + only j t 7) (c.cam.yh + only j t 8) (change c (only j t)).cam.ap) := by
    intro t
    rw [imgCoord_lens P lut mm c _ (by intro i hi; simp only [only]; rw [if_neg (by omega)]), hf]
    rfl
  refine ⟨fun t => (flatToDist f.1 f.2 (c.cam.xh + only j t 7) (c.cam.yh + only j t 8) (change c (only j t)).cam.ap).1,
    fun t => (flatToDist f.1 f.2 (c.cam.xh + only j t 7) (c.cam.yh + only j t 8) (change c (only j t)).cam.ap).2,
    r.rx.getD j 0, r.ry.getD j 0, hlens, ?_, ?_, ?_⟩
  · rw [List.getD_eq_getElem?_getD, List.getElem?_eq_getElem (by omega), Option.getD_some]
  · rw [List.getD_eq_getElem?_getD, List.getElem?_eq_getElem (by omega), Option.getD_some]
  rw [Prod.ext_iff] at hpj
  simp only at hpj
  rw [hpj.1, hpj.2, hap, hpe]
  generalize f.1 = x
  generalize f.2 = y
  simp only [flatToDist, distort_formula, change, hap]
  clear hpj hcol hp h hlens hf hpe
  generalize c.cam.xh = xh
  generalize c.cam.yh = yh
  interval_cases j <;> simp only [only, lensColumn]
  · exact ⟨deriv_quadratic (a := x + xh) (b := 1) (c := 0) (by intro t; norm_num; ring) (by simp),
      deriv_quadratic (a := y + yh) (b := 0) (c := 0) (by intro t; norm_num) (by simp)⟩
  · exact ⟨deriv_quadratic (a := x + xh) (b := 0) (c := 0) (by intro t; norm_num) (by simp),
      deriv_quadratic (a := y + yh) (b := 1) (c := 0) (by intro t; norm_num; ring) (by simp)⟩
  · exact ⟨deriv_quadratic (a := x + xh) (b := (x + xh) * ((x + xh) ^ 2 + (y + yh) ^ 2)) (c := 0) (by intro t; norm_num; ring)
        (by simp),
      deriv_quadratic (a := y + yh) (b := (y + yh) * ((x + xh) ^ 2 + (y + yh) ^ 2)) (c := 0) (by intro t; norm_num; ring) (by simp)⟩
  · exact ⟨deriv_quadratic (a := x + xh) (b := (x + xh) * ((x + xh) ^ 2 + (y + yh) ^ 2) ^ 2) (c := 0)
        (by intro t; norm_num; ring) (by simp),
      deriv_quadratic (a := y + yh) (b := (y + yh) * ((x + xh) ^ 2 + (y + yh) ^ 2) ^ 2) (c := 0)
        (by intro t; norm_num; ring) (by simp)⟩
  · exact ⟨deriv_quadratic (a := x + xh) (b := (x + xh) * ((x + xh) ^ 2 + (y + yh) ^ 2) ^ 3) (c := 0)
        (by intro t; norm_num; ring) (by simp),
      deriv_quadratic (a := y + yh) (b := (y + yh) * ((x + xh) ^ 2 + (y + yh) ^ 2) ^ 3) (c := 0)
        (by intro t; norm_num; ring) (by simp)⟩
  · exact ⟨deriv_quadratic (a := x + xh) (b := (x + xh) ^ 2 + (y + yh) ^ 2 + 2 * (x + xh) ^ 2) (c := 0)
        (by intro t; norm_num; ring) (by simp),
      deriv_quadratic (a := y + yh) (b := 2 * (x + xh) * (y + yh))
        (c := 2 * ((x + xh) ^ 2 + (y + yh) ^ 2 + 2 * (x + xh) ^ 2) * (y + yh)) (by intro t; norm_num; ring) (by simp)⟩
  · exact ⟨deriv_quadratic (a := x + xh) (b := 2 * (x + xh) * (y + yh)) (c := 0) (by intro t; norm_num; ring) (by simp),
      deriv_quadratic (a := y + yh) (b := (x + xh) ^ 2 + (y + yh) ^ 2 + 2 * (y + yh) ^ 2) (c := 0)
        (by intro t; norm_num; ring) (by simp)⟩
  · exact ⟨deriv_quadratic (a := x + xh) (b := x + xh) (c := 0) (by intro t; norm_num; ring) (by simp),
      deriv_quadratic (a := y + yh) (b := 0) (c := 0) (by intro t; norm_num) (by simp)⟩
  · constructor
    · have := ((Real.hasDerivAt_sin 0).mul_const (y + yh)).const_sub (x + xh)
      norm_num
      simpa using this
    · have := (Real.hasDerivAt_cos 0).mul_const (y + yh)
      norm_num
      simpa using this

/-- The restriction is needed: with an x scale of 2 (nothing else), the entry for the x scale is twice the derivative of the
image over it, for every point. -/
theorem C124_scale_refuted (P : V3) (lut : LUT) (mm : MM) (ip : ImgPar) (tol dm drad : ℝ) (env : OEnv) (o : Obs)
    (c c' : Calib) (r : Rows) (hap : c.cam.ap = ⟨0, 0, 0, 0, 0, 2, 0⟩)
    (h : pointRows (fun cam => imgCoord P cam lut mm) ip tol dm drad env o c = some (c', r)) :
    ∃ (X Y : ℝ → ℝ) (d : ℝ), (∀ t, imgCoord P (camOf (change c (only 14 t))) lut mm = some (X t, Y t)) ∧
      HasDerivAt X d 0 ∧ r.rx[14]? = some (2 * d) := by
  obtain ⟨l1, l2, -, -, p, hp, hcol⟩ := pointRows_linearised h
  have hpj := hcol 14 (by norm_num) (by norm_num)
  obtain ⟨f, hf⟩ : ∃ f, flatImageCoord P (camOf c) lut mm = some f := by
    simp only [imgCoord, Option.bind_eq_bind, Option.bind_eq_some_iff] at hp
    obtain ⟨f, hf, -⟩ := hp
    exact ⟨f, hf⟩
  have hpe : p = (2 * (f.1 + c.cam.xh), f.2 + c.cam.yh) := by
    simp only [imgCoord, hf, Option.bind_eq_bind, Option.bind_some, Option.some.injEq] at hp
    rw [← hp]
    simp [flatToDist, distort_formula, camOf, placed, hap]
  refine ⟨fun t => (2 + t) * (f.1 + c.cam.xh), fun t => f.2 + c.cam.yh, f.1 + c.cam.xh, ?_, ?_, ?_⟩
  · intro t
    rw [imgCoord_lens P lut mm c _ (by intro i hi; simp only [only]; rw [if_neg (by omega)]), hf]
    simp [flatToDist, distort_formula, change, only, hap]
  · exact deriv_quadratic (a := 2 * (f.1 + c.cam.xh)) (b := f.1 + c.cam.xh) (c := 0) (by intro t; ring) rfl
  · rw [Prod.ext_iff] at hpj
    have hx := hpj.1
    simp only [lensColumn, hap, hpe] at hx
    rw [List.getD_eq_getElem?_getD, List.getElem?_eq_getElem (by omega), Option.getD_some] at hx
    rw [List.getElem?_eq_getElem (by omega), hx]
    congr 1
    ring

/-- With a shear `s` (nothing else), the second entry for `xh` is `sin s`, though the second image coordinate does not depend on
`xh`. -/
theorem C124_shear_refuted (P : V3) (lut : LUT) (mm : MM) (ip : ImgPar) (tol dm drad s : ℝ) (env : OEnv) (o : Obs)
    (c c' : Calib) (r : Rows) (hap : c.cam.ap = ⟨0, 0, 0, 0, 0, 1, s⟩)
    (h : pointRows (fun cam => imgCoord P cam lut mm) ip tol dm drad env o c = some (c', r)) :
    ∃ (X : ℝ → ℝ) (Y : ℝ), (∀ t, imgCoord P (camOf (change c (only 7 t))) lut mm = some (X t, Y)) ∧
      r.ry[7]? = some (Real.sin s) := by
  obtain ⟨l1, l2, -, -, p, hp, hcol⟩ := pointRows_linearised h
  have hpj := hcol 7 (by norm_num) (by norm_num)
  obtain ⟨f, hf⟩ : ∃ f, flatImageCoord P (camOf c) lut mm = some f := by
    simp only [imgCoord, Option.bind_eq_bind, Option.bind_eq_some_iff] at hp
    obtain ⟨f, hf, -⟩ := hp
    exact ⟨f, hf⟩
  refine ⟨fun t => f.1 + (c.cam.xh + t) - Real.sin s * (f.2 + c.cam.yh), Real.cos s * (f.2 + c.cam.yh), ?_, ?_⟩
  · intro t
    rw [imgCoord_lens P lut mm c _ (by intro i hi; simp only [only]; rw [if_neg (by omega)]), hf]
    simp [flatToDist, distort_formula, change, only, hap]
  · rw [Prod.ext_iff] at hpj
    have hx := hpj.2
    simp only [lensColumn, hap] at hx
    rw [List.getD_eq_getElem?_getD, List.getElem?_eq_getElem (by omega), Option.getD_some] at hx
    rw [List.getElem?_eq_getElem (by omega), hx]

/-- Non-vacuity of C124 and its restrictions: the rows of the witness point exist, for every x scale and shear. -/
example (scx s : ℝ) : ∃ c' r, pointRows (fun cam => imgCoord ⟨1, 0, 0⟩ cam emptyLUT witMM) ⟨0, 0, 1, 1⟩ 0.00001 0.0001 0.0001
    (mkEnv witFlags ⟨⟨⟨0, 0, 10⟩, rotationMatrix 0 0 0, 5, 0, 0, ⟨0, 0, 0, 0, 0, scx, s⟩, ⟨0, 0, 1⟩⟩, 0, 0, 0⟩) ⟨0, 1, 0⟩
    ⟨⟨⟨0, 0, 10⟩, rotationMatrix 0 0 0, 5, 0, 0, ⟨0, 0, 0, 0, 0, scx, s⟩, ⟨0, 0, 1⟩⟩, 0, 0, 0⟩ = some (c', r) := by
  obtain ⟨⟨c', r⟩, h⟩ := pointRows_total (imgCoord_total ⟨1, 0, 0⟩ witMM 2 1 [] [] rfl rfl) (dm := 0.0001) (drad := 0.0001)
    (by norm_num) (by norm_num) ⟨0, 0, 1, 1⟩ 0.00001 (mkEnv witFlags ⟨⟨⟨0, 0, 10⟩, rotationMatrix 0 0 0, 5, 0, 0, ⟨0, 0, 0, 0, 0, scx, s⟩, ⟨0, 0, 1⟩⟩, 0, 0, 0⟩)
    ⟨0, 1, 0⟩ ⟨⟨⟨0, 0, 10⟩, rotationMatrix 0 0 0, 5, 0, 0, ⟨0, 0, 0, 0, 0, scx, s⟩, ⟨0, 0, 1⟩⟩, 0, 0, 0⟩
  exact ⟨c', r, h⟩

end Verif.Geo
