/-
Model of openptv_python/orientation.py, part 2: numerical derivatives, orient and raw_orient.
The least-squares solver (scipy.linalg.lstsq) is a parameter: an arbitrary function of the system it
is given. The error estimates `sigmabeta` and the returned residual values are not modelled.
-/
import Verif.Model.Orientation
import Verif.Model.Multimed

namespace Verif.Geo
open V3

/-- A calibration as `orient` uses it: the camera together with its rotation angles (whose matrix is
`cam.dm` once `update_rotation_matrix` has been called). -/
structure Calib where
  cam : Cam
  omega : ℝ
  phi : ℝ
  kappa : ℝ

/-- calibration.py:218-220 `update_rotation_matrix`. -/
noncomputable def Calib.upd (c : Calib) : Calib :=
  { c with cam := { c.cam with dm := rotationMatrix c.omega c.phi c.kappa } }

/-- calibration.py:202-216 `increment_attribute` for the names
`["x0", "y0", "z0", "omega", "phi", "kappa"]` (orientation.py:164), by index. -/
noncomputable def Calib.inc (c : Calib) (k : Fin 6) (s : ℝ) : Calib :=
  match k with
  | 0 => { c with cam := { c.cam with pos := { c.cam.pos with x := c.cam.pos.x + s } } }
  | 1 => { c with cam := { c.cam with pos := { c.cam.pos with y := c.cam.pos.y + s } } }
  | 2 => { c with cam := { c.cam with pos := { c.cam.pos with z := c.cam.pos.z + s } } }
  | 3 => { c with omega := c.omega + s }
  | 4 => { c with phi := c.phi + s }
  | 5 => { c with kappa := c.kappa + s }

/-- orientation.py:176-190, the pass of the loop for parameter `k`; `xy` is the unperturbed image. -/
noncomputable def derivStep (proj : Cam → Option (ℝ × ℝ)) (xy : ℝ × ℝ) (s : ℝ) (c : Calib)
    (k : Fin 6) : Option (Calib × (ℝ × ℝ)) :=
  let c1 := c.inc k s
  let c2 := if k > 2 then c1.upd else c1
  (proj c2.cam).map fun p => (c2.inc k (-s), ((p.1 - xy.1) / s, (p.2 - xy.2) / s))

/-- orientation.py:169, the step of parameter `k`. -/
noncomputable def stepOf (dpos dang : ℝ) (k : Fin 6) : ℝ := if k > 2 then dang else dpos

/-- orientation.py:142-193 `num_deriv_exterior`, with `proj c = img_coord(pos, c, cpar.mm)`. Returns the
changed calibration and the derivatives of x and y. `none`: an exception (a projection that raises, or a
zero step). -/
noncomputable def numDerivExterior (proj : Cam → Option (ℝ × ℝ)) (dpos dang : ℝ) (c : Calib) :
    Option (Calib × List (ℝ × ℝ)) :=
  if dpos = 0 ∨ dang = 0 then none else do
  let c := c.upd
  let xy ← proj c.cam
  let r0 ← derivStep proj xy (stepOf dpos dang 0) c 0
  let r1 ← derivStep proj xy (stepOf dpos dang 1) r0.1 1
  let r2 ← derivStep proj xy (stepOf dpos dang 2) r1.1 2
  let r3 ← derivStep proj xy (stepOf dpos dang 3) r2.1 3
  let r4 ← derivStep proj xy (stepOf dpos dang 4) r3.1 4
  let r5 ← derivStep proj xy (stepOf dpos dang 5) r4.1 5
  some (r5.1.upd, [r0.2, r1.2, r2.2, r3.2, r4.2, r5.2])

/-- parameters.py:714-728 `OrientPar`; the flags are used by truth value, except `useflag`. -/
structure OFlags where
  use : ℤ
  cc : Bool
  xh : Bool
  yh : Bool
  k1 : Bool
  k2 : Bool
  k3 : Bool
  p1 : Bool
  p2 : Bool
  scx : Bool
  she : Bool
  interf : Bool

/-- A detected point as `orient` uses it. -/
structure Obs where
  pnr : ℤ
  x : ℝ
  y : ℝ

/-- constants.py: `CONVERGENCE`, `POS_INF`, `NUM_ITER`. -/
noncomputable def convergence : ℝ := 0.0001
noncomputable def posInf : ℝ := 1e20
def numIter : ℕ := 80

/-- orientation.py:278-280 (before normalisation). -/
def glassE1 (g : V3) : V3 := ⟨2 * g.z - 3 * g.x, 3 * g.x - 1 * g.z, 1 * g.y - 2 * g.y⟩

/-- orientation.py:284-286 (before normalisation), from the unnormalised first vector. -/
def glassE2 (g : V3) : V3 :=
  ⟨(glassE1 g).y * g.z - (glassE1 g).z * g.x, (glassE1 g).z * g.x - (glassE1 g).x * g.z,
   (glassE1 g).x * g.y - (glassE1 g).y * g.y⟩

/-- The quantities `orient` computes once, before its loop (orientation.py:275-319). -/
structure OEnv where
  e1 : V3
  e2 : V3
  nGl : ℝ
  safety : V3
  ident : Cam
  numbers : ℕ

noncomputable def mkEnv (fl : OFlags) (c : Calib) : OEnv :=
  ⟨(glassE1 c.cam.glass).unit, (glassE2 c.cam.glass).unit, c.cam.glass.norm, c.cam.glass, c.cam,
   if fl.interf then 18 else 16⟩

/-- Replace the glass vector. -/
def Calib.setGlass (c : Calib) (g : V3) : Calib := { c with cam := { c.cam with glass := g } }

/-- orientation.py:331-340: is point `i` used? -/
def usePoint (fl : OFlags) (i : ℕ) (o : Obs) : Bool :=
  (o.pnr == (i : ℤ)) && !(fl.use == 1 && i % 2 == 0) && !(fl.use == 2 && i % 2 != 0)
    && !(fl.use == 3 && i % 3 == 0)

/-- Two rows of the design matrix (19 columns) with the two observations. -/
structure Rows where
  rx : List ℝ
  ry : List ℝ
  yx : ℝ
  yy : ℝ

/-- orientation.py:342-446: the rows of one used point, with all changes of the calibration made on the
way. `proj` is `img_coord(fix[i], ·, cpar.mm)`. -/
noncomputable def pointRows (proj : Cam → Option (ℝ × ℝ)) (ip : ImgPar) (tol dm drad : ℝ) (env : OEnv)
    (o : Obs) (c : Calib) : Option (Calib × Rows) := do
  let m := pixelToMetric o.x o.y ip
  let ap := c.cam.ap
  let obs := correctBrownAffine m.1 m.2 ap tol
  let c := c.upd
  let p ← proj c.cam
  let xp := p.1
  let yp := p.2
  let r := Real.sqrt (xp * xp + yp * yp)
  let qq := ap.k1 * r * r + ap.k2 * r ^ 4 + ap.k3 * r ^ 6 + 1
  let der ← numDerivExterior proj dm drad c
  let c := der.1
  -- derivative over cc
  let c := { c with cam := { c.cam with cc := c.cam.cc + dm } }
  let c := c.upd
  let pc ← proj c.cam
  let c := { c with cam := { c.cam with cc := c.cam.cc - dm } }
  -- derivatives over the glass vector
  let c := c.setGlass (c.cam.glass + env.e1.smul (env.nGl * dm))
  let pa ← proj c.cam
  let c := c.setGlass env.safety
  let c := c.setGlass (c.cam.glass + env.e2.smul (env.nGl * dm))
  let pb ← proj c.cam
  let c := c.setGlass env.safety
  let c := c.setGlass (c.cam.glass + c.cam.glass.smul (env.nGl * dm))
  let pg ← proj c.cam
  let c := c.setGlass env.safety
  some (c, {
    rx := der.2.map Prod.fst ++ [(pc.1 - xp) / dm, ap.scx, 0, ap.scx * xp * r * r,
      ap.scx * xp * r ^ 4, ap.scx * xp * r ^ 6, ap.scx * (2 * xp * xp + r * r),
      2 * ap.scx * xp * yp,
      xp * qq + ap.p1 * (r * r + 2 * xp * xp) + 2 * ap.p2 * xp * yp,
      -Real.cos ap.she * yp, (pa.1 - xp) / dm, (pb.1 - xp) / dm, (pg.1 - xp) / dm]
    ry := der.2.map Prod.snd ++ [(pc.2 - yp) / dm, Real.sin ap.she, 1, yp * r * r, yp * r ^ 4,
      yp * r ^ 6, 2 * xp * yp, 2 * yp * yp + r * r, 0, -Real.sin ap.she * yp,
      (pa.2 - yp) / dm, (pb.2 - yp) / dm, (pg.2 - yp) / dm]
    yx := obs.1 - xp
    yy := obs.2 - yp })

/-- orientation.py:330-448 `for i in range(nfix)`: all used points, in order. The reference positions are
given as projections `proj`, one per point; `none` also when there are fewer detections than reference
points (IndexError). -/
noncomputable def pointsLoop (ip : ImgPar) (tol dm drad : ℝ) (fl : OFlags) (env : OEnv) :
    List (Cam → Option (ℝ × ℝ)) → List Obs → ℕ → Calib → Option (Calib × List Rows)
  | [], _, _, c => some (c, [])
  | _ :: _, [], _, _ => none
  | proj :: fs, o :: os, i, c =>
    if usePoint fl i o then do
      let r ← pointRows proj ip tol dm drad env o c
      let rs ← pointsLoop ip tol dm drad fl env fs os (i + 1) r.1
      some (rs.1, r.2 :: rs.2)
    else pointsLoop ip tol dm drad fl env fs os (i + 1) c

/-- orientation.py:456-465: the identity observations. -/
def identObs (env : OEnv) (c : Calib) : List ℝ :=
  [env.ident.cc - c.cam.cc, env.ident.xh - c.cam.xh, env.ident.yh - c.cam.yh,
   env.ident.ap.k1 - c.cam.ap.k1, env.ident.ap.k2 - c.cam.ap.k2, env.ident.ap.k3 - c.cam.ap.k3,
   env.ident.ap.p1 - c.cam.ap.p1, env.ident.ap.p2 - c.cam.ap.p2, env.ident.ap.scx - c.cam.ap.scx,
   env.ident.ap.she - c.cam.ap.she]

/-- orientation.py:471-480: the weights of the identity observations. -/
noncomputable def identWeights (fl : OFlags) : List ℝ :=
  [fl.cc, fl.xh, fl.yh, fl.k1, fl.k2, fl.k3, fl.p1, fl.p2, fl.scx, fl.she].map
    fun f => if f then 1 else posInf

/-- One weighted equation handed to the solver: the row (of `numbers` columns) and the right-hand side. -/
abbrev Eqn := List ℝ × ℝ

/-- orientation.py:451-492: the homogenised system `Xh[:, :numbers], yh`. (The arrays' unused zero rows at
the end are left out.) -/
noncomputable def system (fl : OFlags) (env : OEnv) (c : Calib) (rows : List Rows) : List Eqn :=
  let pts : List Eqn := rows.flatMap fun r =>
    [(r.rx.take env.numbers, r.yx), (r.ry.take env.numbers, r.yy)]
  let ids : List Eqn := ((identObs env c).zip (identWeights fl)).zipIdx.map fun t =>
    ((List.range env.numbers).map fun j => Real.sqrt t.1.2 * (if j = 6 + t.2 then 1 else 0),
     Real.sqrt t.1.2 * t.1.1)
  pts ++ ids

/-- A parameter change: `beta[i]`, meaningful for `i < numbers`. -/
abbrev Beta := ℕ → ℝ

/-- The solver: any function of the system. -/
abbrev Solver := List Eqn → Beta

/-- orientation.py:517-520: `stopflag`. -/
def Small (numbers : ℕ) (tol : ℝ) (b : Beta) : Prop := ∀ i < numbers, |b i| ≤ tol

noncomputable instance (numbers : ℕ) (tol : ℝ) (b : Beta) : Decidable (Small numbers tol b) :=
  Classical.propDecidable _

/-- orientation.py:523-542: changes of parameters whose flag is off are set to 0. -/
def maskBeta (fl : OFlags) (b : Beta) : Beta := fun i =>
  match i with
  | 6 => if fl.cc then b 6 else 0
  | 7 => if fl.xh then b 7 else 0
  | 8 => if fl.yh then b 8 else 0
  | 9 => if fl.k1 then b 9 else 0
  | 10 => if fl.k2 then b 10 else 0
  | 11 => if fl.k3 then b 11 else 0
  | 12 => if fl.p1 then b 12 else 0
  | 13 => if fl.p2 then b 13 else 0
  | 14 => if fl.scx then b 14 else 0
  | 15 => if fl.she then b 15 else 0
  | i => b i

/-- orientation.py:544-567: apply the changes. -/
noncomputable def applyBeta (fl : OFlags) (env : OEnv) (b : Beta) (c : Calib) : Calib :=
  let cam := c.cam
  let glass := if fl.interf then
      cam.glass + env.e1.smul (env.nGl * b 16) + env.e2.smul (env.nGl * b 17)
    else cam.glass
  { cam := { cam with
      pos := ⟨cam.pos.x + b 0, cam.pos.y + b 1, cam.pos.z + b 2⟩
      cc := cam.cc + b 6, xh := cam.xh + b 7, yh := cam.yh + b 8
      ap := ⟨cam.ap.k1 + b 9, cam.ap.k2 + b 10, cam.ap.k3 + b 11, cam.ap.p1 + b 12,
        cam.ap.p2 + b 13, cam.ap.scx + b 14, cam.ap.she + b 15⟩
      glass := glass }
    omega := c.omega + b 3, phi := c.phi + b 4, kappa := c.kappa + b 5 }

/-- The inputs of `orient` that do not change: image parameters, steps, flags, the projections of the
reference points and the detections, and the solver. -/
structure OInput where
  ip : ImgPar
  tol : ℝ
  dm : ℝ
  drad : ℝ
  fl : OFlags
  projs : List (Cam → Option (ℝ × ℝ))
  pix : List Obs
  solve : Solver

/-- orientation.py:326-567: one pass of the `while` loop; returns the new calibration and the solver's
answer. -/
noncomputable def orientIter (I : OInput) (env : OEnv) (c : Calib) : Option (Calib × Beta) := do
  let r ← pointsLoop I.ip I.tol I.dm I.drad I.fl env I.projs I.pix 0 c
  let b := I.solve (system I.fl env r.1 r.2)
  some (applyBeta I.fl env (maskBeta I.fl b) r.1, b)

/-- orientation.py:326 `while not (stopflag or itnum >= NUM_ITER)`, with `fuel` passes left. Besides the
calibration and `stopflag` it returns (as a ghost value) the solver's answers, in order. -/
noncomputable def orientLoop (I : OInput) (env : OEnv) : ℕ → Calib → Option (Calib × Bool × List Beta)
  | 0, c => some (c, false, [])
  | fuel + 1, c => do
    let r ← orientIter I env c
    if Small env.numbers convergence r.2 then some (r.1, true, [r.2])
    else do
      let s ← orientLoop I env fuel r.1
      some (s.1, s.2.1, r.2 :: s.2.2)

/-- orientation.py:196-612 `orient`. Returns the calibration object's final contents, whether residuals
(`true`) or `None` (`false`) are returned, and the ghost list of solver answers. `none`: an exception. -/
noncomputable def orient (I : OInput) (c : Calib) : Option (Calib × Bool × List Beta) := do
  let r ← orientLoop I (mkEnv I.fl c) numIter c
  some (if r.2.1 then r.1.upd else r.1, r.2)

/-- orientation.py:655-664: the rows of one point in `raw_orient`. -/
noncomputable def rawRows (proj : Cam → Option (ℝ × ℝ)) (ip : ImgPar) (dm drad : ℝ) (o : Obs)
    (c : Calib) : Option (Calib × Rows) := do
  let m := pixelToMetric o.x o.y ip
  let c := c.upd
  let p ← proj c.cam
  let der ← numDerivExterior proj dm drad c
  some (der.1, { rx := der.2.map Prod.fst, ry := der.2.map Prod.snd,
                 yx := m.1 - p.1, yy := m.2 - p.2 })

/-- orientation.py:654-664 `for i in range(nfix)`. -/
noncomputable def rawLoop (ip : ImgPar) (dm drad : ℝ) :
    List (Cam → Option (ℝ × ℝ)) → List Obs → Calib → Option (Calib × List Rows)
  | [], _, c => some (c, [])
  | _ :: _, [], _ => none
  | proj :: fs, o :: os, c => do
    let r ← rawRows proj ip dm drad o c
    let rs ← rawLoop ip dm drad fs os r.1
    some (rs.1, r.2 :: rs.2)

/-- orientation.py:686-691. -/
noncomputable def applyExt (b : Beta) (c : Calib) : Calib :=
  { cam := { c.cam with pos := ⟨c.cam.pos.x + b 0, c.cam.pos.y + b 1, c.cam.pos.z + b 2⟩ }
    omega := c.omega + b 3, phi := c.phi + b 4, kappa := c.kappa + b 5 }

/-- orientation.py:651-691: one pass. -/
noncomputable def rawIter (I : OInput) (c : Calib) : Option (Calib × Beta) := do
  let r ← rawLoop I.ip I.dm I.drad I.projs I.pix c
  let b := I.solve (r.2.flatMap fun r => [(r.rx, r.yx), (r.ry, r.yy)])
  some (applyExt b r.1, b)

/-- orientation.py:651 `while stopflag == 0 and itnum < 20`. -/
noncomputable def rawOrientLoop (I : OInput) : ℕ → Calib → Option (Calib × Bool × List Beta)
  | 0, c => some (c, false, [])
  | fuel + 1, c => do
    let r ← rawIter I c
    if Small 6 0.1 r.2 then some (r.1, true, [r.2])
    else do
      let s ← rawOrientLoop I fuel r.1
      some (s.1, s.2.1, r.2 :: s.2.2)

/-- orientation.py:615-697 `raw_orient`. -/
noncomputable def rawOrient (I : OInput) (c : Calib) : Option (Calib × Bool × List Beta) := do
  let c := { c with cam := { c.cam with ap := ⟨0, 0, 0, 0, 0, 1, 0⟩ } }
  let r ← rawOrientLoop I 20 c
  some (if r.2.1 then r.1.upd else r.1, r.2)

end Verif.Geo
