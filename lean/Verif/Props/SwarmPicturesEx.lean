/-
C149 and C99 (four cameras): an example. Two particles at (n, 2, -5) and (n, -20, -5) in the frames n = 0 .. 5, the four cameras of C109; the targets
are not where the particles are imaged, but where points up to 0.0003 away are.
-/
import Verif.Props.SwarmPictures
import Verif.Props.NoRaiseFour

namespace Verif.FullCorr

open Verif.Geo Verif.Geo.V3 Verif.Geo.Spec Verif.Search Verif.Search.Spec Verif.Corr Verif.Corr.Spec

/-- The height of particle `k`. -/
noncomputable def duoY (k : Fin 2) : ℝ := 2 - 22 * (k.val : ℝ)

/-- Particle `k`, when it has come to `a`. -/
noncomputable def duoAt (k : Fin 2) (a : ℝ) : V3 := ⟨a, duoY k, -5⟩

/-- Its target in camera `c`, which is a little off. -/
noncomputable def duoDet (a : ℝ) (k : Fin 2) (c : Fin 4) : Det :=
  ⟨500 + 500 * (a - 10 * (c.val : ℝ)) / 105, 500 - 500 * (duoY k + (c.val : ℝ) / 10000) / 105, ⟨4, 2, 2, 100⟩, -1⟩

noncomputable def duoPic (a : ℝ) (c : Fin 4) : Pic := ⟨(rowCam c).1, (rowCam c).2, [duoDet a 0 c, duoDet a 1 c]⟩

noncomputable def duoCrd (a : ℝ) (c : Fin 4) : List Search.Coord :=
  [⟨0, 50 * (a - 10 * (c.val : ℝ)) / 105, 50 * (duoY 0 + (c.val : ℝ) / 10000) / 105⟩,
   ⟨1, 50 * (a - 10 * (c.val : ℝ)) / 105, 50 * (duoY 1 + (c.val : ℝ) / 10000) / 105⟩]

theorem duo_flat (a : ℝ) (k : Fin 2) (c : Fin 4) (tol : ℝ) : flatPos exPars.ip tol (rowCam c).1 (duoDet a k c) =
    (50 * (a - 10 * (c.val : ℝ)) / 105, 50 * (duoY k + (c.val : ℝ) / 10000) / 105) := by
  have hb' := fun x y => (C24_default_identity tol x y).2
  simp only [flatPos, distToFlat, rowCam, exRow, hb', pixelToMetric, exPars, duoDet]
  norm_num
  constructor <;> ring

theorem duo_unsorted (a tol : ℝ) (c : Fin 4) : (duoPic a c).unsorted exPars.ip tol =
    { rowWith c (duoCrd a c) with
      tnr := [-1, -1], xy := [((duoDet a 0 c).x, (duoDet a 0 c).y), ((duoDet a 1 c).x, (duoDet a 1 c).y)] } := by
  have hf := fun k => duo_flat a k c tol
  have hd : (duoPic a c).dets = [duoDet a 0 c, duoDet a 1 c] := rfl
  have hc : (duoPic a c).cal = (rowCam c).1 := rfl
  simp only [Pic.unsorted, hd, hc, List.mapIdx_cons, List.mapIdx_nil, hf]
  rfl

theorem duoCrd_get (a : ℝ) (c : Fin 4) (k : Fin 2) : (duoCrd a c)[k.val]? =
    some ⟨k.val, 50 * (a - 10 * (c.val : ℝ)) / 105, 50 * (duoY k + (c.val : ℝ) / 10000) / 105⟩ := by
  fin_cases k <;> rfl

theorem fin4_bounds (c : Fin 4) : (0 : ℝ) ≤ c.val ∧ (c.val : ℝ) ≤ 3 :=
  ⟨Nat.cast_nonneg _, by exact_mod_cast Nat.le_of_lt_succ c.isLt⟩

theorem duoY_bounds (k : Fin 2) : -20 ≤ duoY k ∧ duoY k ≤ 2 := by
  fin_cases k <;> norm_num [duoY]

theorem duo_with (a : ℝ) {c1 c2 : Fin 4} (h : c1 < c2) (k : Fin 2) :
    FitsWith exPars (rowWith c1 (duoCrd a c1)) (rowWith c2 (duoCrd a c2)) k.val k.val (50 * (((c2.val : ℝ) - c1.val) / 10000) / 105) 1600 := by
  have h12 : (c1.val : ℝ) < c2.val := by exact_mod_cast h
  obtain ⟨b1, b2⟩ := fin4_bounds c1
  obtain ⟨b3, b4⟩ := fin4_bounds c2
  have e : |50 * (duoY k + (c2.val : ℝ) / 10000) / 105 - 50 * (duoY k + (c1.val : ℝ) / 10000) / 105| =
      50 * (((c2.val : ℝ) - c1.val) / 10000) / 105 := by
    rw [abs_of_nonneg]
    · ring
    · linarith
  have := row_with h (duoCrd_get a c1 k) (duoCrd_get a c2 k) k.isLt k.isLt
    (by simp only; rw [e]; linarith) (by simp only; linarith) (by simp only; linarith)
  simp only at this
  rwa [e] at this

theorem duo_meets {a : ℝ} (ha : 0 ≤ a ∧ a ≤ 10) {c1 c2 : Fin 4} (h : c1 < c2) (k : Fin 2) :
    MeetsSensor exPars (rowWith c1 (duoCrd a c1)) (rowWith c2 (duoCrd a c2)) k.val := by
  intro e he
  have h12 : (c1.val : ℝ) < c2.val := by exact_mod_cast h
  obtain ⟨b1, b2⟩ := fin4_bounds c1
  obtain ⟨b3, b4⟩ := fin4_bounds c2
  obtain ⟨y1, y2⟩ := duoY_bounds k
  obtain ⟨q, hq, rfl⟩ := row_epi' he
  rw [duoCrd_get] at hq
  cases hq
  have hap : (rowWith c2 (duoCrd a c2)).cal.ap = defaultAddPar := rfl
  have hxh : (rowWith c2 (duoCrd a c2)).cal.xh = 0 := rfl
  have hyh : (rowWith c2 (duoCrd a c2)).cal.yh = 0 := rfl
  unfold SegmentOff
  simp only [sensorOf, hap, (C24_default_identity _ _ _).2, hxh, hyh]
  rw [tilt, if_neg (by intro hcon; linarith)]
  clear he
  norm_num [exPars]
  refine ⟨fun hcon => ?_, fun hcon => ?_, ?_, ?_⟩ <;> linarith

theorem duo_only {a : ℝ} {c1 c2 : Fin 4} (k l : Fin 2)
    (h : Fits exPars (rowWith c1 (duoCrd a c1)) (rowWith c2 (duoCrd a c2)) k.val l.val) : k = l := by
  obtain ⟨b1, b2⟩ := fin4_bounds c1
  obtain ⟨b3, b4⟩ := fin4_bounds c2
  obtain ⟨q, q', h1, h2, hy⟩ := row_fits h
  rw [duoCrd_get] at h1 h2
  cases h1
  cases h2
  rw [abs_lt] at hy
  simp only at hy
  obtain ⟨hy1, hy2⟩ := hy
  have e0 : duoY 0 = 2 := by norm_num [duoY]
  have e1 : duoY 1 = -20 := by norm_num [duoY]
  clear h
  fin_cases k <;> fin_cases l
  · rfl
  · exfalso
    simp only [Fin.zero_eta, Fin.mk_one, e0, e1] at hy1 hy2
    linarith
  · exfalso
    simp only [Fin.zero_eta, Fin.mk_one, e0, e1] at hy1 hy2
    linarith
  · rfl

/-- Where the target of particle `k` in camera `c` would be exact. -/
noncomputable def duoOff (a : ℝ) (k : Fin 2) (c : Fin 4) : V3 := ⟨a, duoY k + (c.val : ℝ) / 10000, -5⟩

theorem duo_ray (a tol : ℝ) (k : Fin 2) (c : Fin 4) : ∃ r : Ray, rayTracing (flatPos exPars.ip tol (rowCam c).1 (duoDet a k c)).1
    (flatPos exPars.ip tol (rowCam c).1 (duoDet a k c)).2 (rowCam c).1 exPars.mm = some r ∧ OnLine r.1 r.2 (duoOff a k c) ∧
    r.2 = (duoOff a k c - (rowCam c).1.pos).unit := by
  have hone : OneIndex exPars.mm := ⟨by norm_num [exPars], ⟨[], rfl⟩, rfl, by simp [exPars], by simp [exPars]⟩
  have hl := row_looks a c
  have hsee : Sees (exRow c).cal (duoOff a k c) := ⟨hl.rot, hl.cc.ne', hl.glass, by
    norm_num [duoOff, exRow, dot, M3.c2, rotationMatrix], by norm_num [duoOff, exRow, dot]⟩
  obtain ⟨hp, X, hr, hon⟩ := trace_projection hsee hone
  have hlut : (exRow c).lut = emptyLUT := rfl
  rw [← hlut, exRow_flat c _ (by norm_num [duoOff])] at hp
  rw [← Option.some.inj hp] at hr
  refine ⟨(X, (duoOff a k c - (exRow c).cal.pos).unit), ?_, hon, rfl⟩
  rw [duo_flat]
  rw [← hr]
  simp only [duoOff, rowCam]
  congr 1 <;> ring

theorem unit_dot_sq {u v : V3} (hu : u ≠ 0) (hv : v ≠ 0) {σ : ℝ} (h : dot u v ^ 2 ≤ (1 - σ ^ 2) * (dot u u * dot v v)) :
    Crossing u.unit v.unit σ := by
  have h1 := V3.norm_pos hu
  have h2 := V3.norm_pos hv
  have e1 : u.unit.norm = 1 := norm_unit hu
  have e2 : v.unit.norm = 1 := norm_unit hv
  refine ⟨fun e => ?_, fun e => ?_, ?_⟩
  · rw [e] at e1
    norm_num [V3.norm_eq_zero.2] at e1
  · rw [e] at e2
    norm_num [V3.norm_eq_zero.2] at e2
  · rw [e1, e2, unit_of_ne hu, unit_of_ne hv]
    have e3 : dot (u.smul (1 / u.norm)) (v.smul (1 / v.norm)) = dot u v / (u.norm * v.norm) := by
      simp only [dot, V3.smul_x, V3.smul_y, V3.smul_z]
      field_simp
    have e4 : dot u u = u.norm ^ 2 := (norm_sq u).symm
    have e5 : dot v v = v.norm ^ 2 := (norm_sq v).symm
    rw [e3, div_pow, div_le_iff₀ (by positivity)]
    rw [e4, e5] at h
    nlinarith

theorem duo_cross_num {a y b1 b2 : ℝ} (ha : 0 ≤ a ∧ a ≤ 10) (hy : -20 ≤ y ∧ y ≤ 2) (h1 : 0 ≤ b1) (h2 : b1 + 1 ≤ b2) (h3 : b2 ≤ 3) :
    ((a - 10 * b1) * (a - 10 * b2) + (y + b1 / 10000) * (y + b2 / 10000) + 105 * 105) ^ 2 ≤
      (1 - (8 / 100 : ℝ) ^ 2) * (((a - 10 * b1) ^ 2 + (y + b1 / 10000) ^ 2 + 105 ^ 2) * ((a - 10 * b2) ^ 2 + (y + b2 / 10000) ^ 2 + 105 ^ 2)) := by
  generalize hu : a - 10 * b1 = u
  generalize hv : a - 10 * b2 = v
  generalize hp : y + b1 / 10000 = p
  generalize hq : y + b2 / 10000 = q
  have huv : 10 ≤ u - v := by linarith
  have u1 : -30 ≤ u ∧ u ≤ 30 := by constructor <;> linarith
  have v1 : -30 ≤ v ∧ v ≤ 30 := by constructor <;> linarith
  have p1 : -21 ≤ p ∧ p ≤ 21 := by constructor <;> linarith
  have q1 : -21 ≤ q ∧ q ≤ 21 := by constructor <;> linarith
  have su : u ^ 2 ≤ 900 := by nlinarith [u1.1, u1.2]
  have sv : v ^ 2 ≤ 900 := by nlinarith [v1.1, v1.2]
  have sp : p ^ 2 ≤ 441 := by nlinarith [p1.1, p1.2]
  have sq : q ^ 2 ≤ 441 := by nlinarith [q1.1, q1.2]
  have hA : u ^ 2 + p ^ 2 + 105 ^ 2 ≤ 12366 := by linarith
  have hB : v ^ 2 + q ^ 2 + 105 ^ 2 ≤ 12366 := by linarith
  have hAB : (u ^ 2 + p ^ 2 + 105 ^ 2) * (v ^ 2 + q ^ 2 + 105 ^ 2) ≤ 12366 * 12366 :=
    mul_le_mul hA hB (by positivity) (by norm_num)
  have hL : (u ^ 2 + p ^ 2 + 105 ^ 2) * (v ^ 2 + q ^ 2 + 105 ^ 2) - (u * v + p * q + 105 * 105) ^ 2 =
      (u * q - p * v) ^ 2 + (105 * (u - v)) ^ 2 + (105 * (p - q)) ^ 2 := by ring
  have hs : (1050 : ℝ) ^ 2 ≤ (105 * (u - v)) ^ 2 := by
    apply pow_le_pow_left₀ (by norm_num)
    linarith
  nlinarith [sq_nonneg (u * q - p * v), sq_nonneg (105 * (p - q))]

/-- The two particles, pictured by the four cameras with errors. -/
theorem duo_cloud (a tol : ℝ) (ha : 0 ≤ a ∧ a ≤ 10) (ray : Fin 2 → Fin 4 → Ray)
    (hray : ∀ k c, rayTracing (flatPos exPars.ip tol (rowCam c).1 (duoDet a k c)).1
      (flatPos exPars.ip tol (rowCam c).1 (duoDet a k c)).2 (rowCam c).1 exPars.mm = some (ray k c) ∧
      OnLine (ray k c).1 (ray k c).2 (duoOff a k c) ∧ (ray k c).2 = (duoOff a k c - (rowCam c).1.pos).unit) :
    PicturedCloud exPars tol (duoPic a) 2 (fun k => duoAt k a) (fun k _ => k.val) (duoDet a)
      (fun _ c1 c2 => 50 * (((c2.val : ℝ) - c1.val) / 10000) / 105) (fun _ _ _ => 1600) 33 (3 / 10000) (8 / 100) ray where
  fine c := ⟨by simp [duoPic], by simp [duoPic], by
    intro t ht
    simp only [duoPic, List.mem_cons, List.not_mem_nil, or_false] at ht
    rcases ht with rfl | rfl <;> norm_num [duoDet]⟩
  target k c := by fin_cases k <;> rfl
  all c i hi := by
    have : i < 2 := by simpa [duoPic] using hi
    exact ⟨⟨i, this⟩, rfl⟩
  once n m c e := Fin.ext e
  fit k c1 c2 h := by
    rw [duo_unsorted, duo_unsorted]
    exact duo_with a h k
  meets k c1 c2 h := by
    rw [duo_unsorted, duo_unsorted]
    exact duo_meets ha h k
  score k := by norm_num [six]
  only k l c1 c2 h hf := by
    rw [duo_unsorted, duo_unsorted] at hf
    exact duo_only k l hf
  sight k c := (hray k c).1
  near k c := by
    refine ⟨_, (hray k c).2.1, ?_⟩
    obtain ⟨b1, b2⟩ := fin4_bounds c
    have : duoAt k a - duoOff a k c = (⟨0, 1, 0⟩ : V3).smul (-((c.val : ℝ) / 10000)) := by
      ext <;> simp [duoAt, duoOff]
    rw [this, V3.norm_smul, abs_neg, abs_of_nonneg (by positivity)]
    have : (⟨0, 1, 0⟩ : V3).norm = 1 := by rw [V3.norm]; norm_num
    rw [this]
    linarith
  cross k c1 c2 h := by
    obtain ⟨b1, b2⟩ := fin4_bounds c1
    obtain ⟨b3, b4⟩ := fin4_bounds c2
    have h12 : (c1.val : ℝ) + 1 ≤ c2.val := by exact_mod_cast h
    rw [(hray k c1).2.2, (hray k c2).2.2]
    refine unit_dot_sq (fun e => ?_) (fun e => ?_) ?_
    · have := congrArg V3.z e
      norm_num [duoOff, rowCam, exRow] at this
    · have := congrArg V3.z e
      norm_num [duoOff, rowCam, exRow] at this
    · have := duo_cross_num ha (duoY_bounds k) b1 h12 b4
      simp only [dot, V3.sub_x, V3.sub_y, V3.sub_z, duoOff, rowCam, exRow, sub_zero]
      convert this using 1 <;> ring
  mark k c := by
    obtain ⟨b1, b2⟩ := fin4_bounds c
    have : (duoPic a c).cal = (rowCam c).1 := rfl
    rw [this, duo_flat]
    simp only
    intro h
    norm_num at h
    linarith

/-- Two particles in inexact pictures: the frame holds them, and nothing else, 0.0078 from where they are at most. -/
example (srt : NpSort ℝ) (tol : ℝ) : ∃ o, pyCorrespondences srt exPars (fun c => (duoPic 1 c).data exPars.ip tol) = .ok o ∧
    (∃ f, Recorded exPars tol (duoPic 1) o f) ∧ ∀ f, Recorded exPars tol (duoPic 1) o f →
      ∃ pos, HoldsCloud f 2 (fun k => duoAt k 1) (fun k _ => k.val) (duoDet 1) (78 / 10000) pos := by
  choose ray hray using fun k c => duo_ray 1 tol k c
  have := C149_frame srt (by norm_num [exPars]) (by norm_num [exPars]) (cm := 33) rfl (by norm_num)
    (duo_cloud 1 tol (by norm_num) ray hray)
  norm_num at this ⊢
  exact this

end Verif.FullCorr

namespace Verif.Track
open Verif.Track.Spec Verif.Geo Verif.Geo.Spec V3
open Verif.FullCorr Verif.Search.Spec Verif.Corr Verif.Corr.Spec

theorem row_air (c : Fin 4) {Y : V3} (hY : Y.z ≤ 50) : AirCam rowSetup (rowCam c).1 Y := by
  refine ⟨⟨rfl, rfl, ⟨[], rfl⟩, rfl, rfl⟩, rfl, ?_, ?_, ?_, ?_, ?_⟩
  · intro e
    have := congrArg V3.z e
    norm_num [rowCam, exRow] at this
  · norm_num [rowCam, exRow]
  · norm_num [rowSetup, exPars]
  · norm_num [rowCam, exRow, rotationMatrix]
  · intro bx b_y bz
    rw [rowCam_depth]
    cases bz <;> simp only [boxCorner, rowSetup] <;> norm_num <;> linarith

/-- Where camera `c` of the row shows `Y`. -/
theorem row_pixel (c : Fin 4) {Y : V3} (hY : Y.z < 100) : pointToPixel Y (rowCam c).1 (rowCam c).2 rowSetup.mm rowSetup.ip =
    some (500 + 500 * ((Y.x - 10 * (c.val : ℝ)) / (100 - Y.z)), 500 - 500 * (Y.y / (100 - Y.z))) := by
  have hf := exRow_flat c Y hY
  have hne : (100 : ℝ) - Y.z ≠ 0 := by linarith
  have hne' : Y.z - 100 ≠ 0 := by linarith
  have e : imgCoord Y (rowCam c).1 (rowCam c).2 rowSetup.mm =
      some (-50 * ((Y.x - 10 * (c.val : ℝ)) / (Y.z - 100)), -50 * (Y.y / (Y.z - 100))) := by
    show imgCoord _ (exRow c).cal (exRow c).lut exPars.mm = _
    rw [imgCoord, hf]
    have hap : (exRow c).cal.ap = defaultAddPar := rfl
    have hxh : (exRow c).cal.xh = 0 := rfl
    have hyh : (exRow c).cal.yh = 0 := rfl
    show some (flatToDist _ _ (exRow c).cal.xh (exRow c).cal.yh (exRow c).cal.ap) = _
    rw [hap, hxh, hyh, flatToDist, (C24_default_identity 0 _ _).1]
    norm_num
  rw [pointToPixel, e, Option.map_some]
  simp only [metricToPixel, rowSetup, exPars]
  rw [show Y.z - 100 = -(100 - Y.z) by ring]
  norm_num
  constructor
  · field_simp
    ring
  · field_simp
    ring

theorem near_comp {X P : V3} {ρ : ℝ} (h : (X - P).norm ≤ ρ) : (P.x - ρ ≤ X.x ∧ X.x ≤ P.x + ρ) ∧ (P.y - ρ ≤ X.y ∧ X.y ≤ P.y + ρ) ∧
    (P.z - ρ ≤ X.z ∧ X.z ≤ P.z + ρ) := by
  obtain ⟨h1, h2, h3⟩ := comp_le_norm (X - P)
  have h1 := abs_le.1 (h1.trans h)
  have h2 := abs_le.1 (h2.trans h)
  have h3 := abs_le.1 (h3.trans h)
  simp only [V3.sub_x, V3.sub_y, V3.sub_z] at h1 h2 h3
  refine ⟨⟨?_, ?_⟩, ⟨?_, ?_⟩, ?_, ?_⟩ <;> linarith [h1.1, h1.2, h2.1, h2.2, h3.1, h3.2]

theorem duo_other {k l : Fin 2} (h : l ≠ k) : 22 ≤ |duoY l - duoY k| := by
  fin_cases k <;> fin_cases l <;> first | exact absurd rfl h | norm_num [duoY]

theorem duo_nearest (a : ℝ) (k : Fin 2) (c : Fin 4) {v : ℝ × ℝ} (h2 : |v.2 - (duoDet a k c).y| ≤ 10) :
    NearestOf (fun l => duoDet a l c) v k := by
  intro l hl
  have h3 := duo_other hl
  have e : (duoDet a l c).x = (duoDet a k c).x := rfl
  have e2 : v.2 - (duoDet a l c).y = (v.2 - (duoDet a k c).y) + 500 * (duoY l - duoY k) / 105 := by
    simp only [duoDet]
    ring
  simp only
  rw [e, e2]
  generalize v.2 - (duoDet a k c).y = w at h2
  generalize duoY l - duoY k = g at h3
  have h4 := abs_le.1 h2
  rcases le_abs.1 h3 with h | h <;> nlinarith [h4.1, h4.2]

theorem duo_inside {a : ℝ} (ha : 0 ≤ a ∧ a ≤ 10) (k : Fin 2) (c : Fin 4) : InsideImage rowSetup ((duoDet a k c).x, (duoDet a k c).y) := by
  obtain ⟨b1, b2⟩ := fin4_bounds c
  obtain ⟨y1, y2⟩ := duoY_bounds k
  refine ⟨?_, ?_, ?_, ?_⟩ <;> simp only [duoDet, rowSetup, exPars] <;> norm_num <;> linarith

theorem duo_first {k : Fin 2} {a : ℝ} (ha : 0 ≤ a ∧ a ≤ 5) (c : Fin 4) {X : V3} (hX : (X - duoAt k a).norm ≤ 78 / 10000) :
    Findable rowSetup (rowCam c) X ((duoDet a k c).x, (duoDet a k c).y) ((duoDet (a + 1) k c).x, (duoDet (a + 1) k c).y) := by
  obtain ⟨b1, b2⟩ := fin4_bounds c
  obtain ⟨y1, y2⟩ := duoY_bounds k
  obtain ⟨⟨x1, x2⟩, ⟨p1, p2⟩, z1, z2⟩ := near_comp hX
  simp only [duoAt] at x1 x2 p1 p2 z1 z2
  have hD : 0 < 100 - X.z := by linarith
  refine ⟨row_air c (by linarith), duo_inside ⟨ha.1, by linarith⟩ k c, duo_inside ⟨by linarith, by linarith⟩ k c, _, _,
    ⟨X.x + (100 - X.z) / 105, X.y, X.z⟩, row_pixel c (by linarith), ?_, row_pixel c (by simp only; linarith), ?_, ?_, ?_⟩
  · simp only [InOpenBox, rowSetup]
    refine ⟨⟨?_, ?_⟩, ⟨?_, ?_⟩, ?_, ?_⟩ <;> linarith
  · have e1 : (X.x + (100 - X.z) / 105 - 10 * (c.val : ℝ)) / (100 - X.z) ≤ 1 / 2 := by
      rw [div_le_iff₀ hD]
      linarith
    have e2 : -(1 / 2) ≤ (X.x + (100 - X.z) / 105 - 10 * (c.val : ℝ)) / (100 - X.z) := by
      rw [le_div_iff₀ hD]
      linarith
    have e3 : X.y / (100 - X.z) ≤ 1 / 2 := by
      rw [div_le_iff₀ hD]
      linarith
    have e4 : -(1 / 2) ≤ X.y / (100 - X.z) := by
      rw [le_div_iff₀ hD]
      linarith
    simp only [InsideImage, rowSetup, exPars]
    push_cast
    refine ⟨?_, ?_, ?_, ?_⟩ <;> linarith
  · simp only [duoDet]
    field_simp
    ring
  · simp only [duoDet]
    ring

theorem duo_next {k : Fin 2} {a : ℝ} (ha : 0 ≤ a ∧ a ≤ 6) (c : Fin 4) {X : V3} (hX : (X - duoAt k a).norm ≤ 3 * (78 / 10000)) :
    ∃ v, pointToPixel X (rowCam c).1 (rowCam c).2 rowSetup.mm rowSetup.ip = some v ∧
      Findable rowSetup (rowCam c) X v ((duoDet a k c).x, (duoDet a k c).y) ∧ NearestOf (fun l => duoDet a l c) v k := by
  obtain ⟨b1, b2⟩ := fin4_bounds c
  obtain ⟨y1, y2⟩ := duoY_bounds k
  obtain ⟨⟨x1, x2⟩, ⟨p1, p2⟩, z1, z2⟩ := near_comp hX
  simp only [duoAt] at x1 x2 p1 p2 z1 z2
  set D := 100 - X.z with hDd
  have hD1 : 104 ≤ D := by linarith
  have hD2 : D ≤ 106 := by linarith
  have hD : 0 < D := by linarith
  have hgx : |(X.x - 10 * (c.val : ℝ)) / D - (a - 10 * (c.val : ℝ)) / 105| ≤ 1 / 1000 := by
    rw [div_sub_div _ _ hD.ne' (by norm_num), abs_le]
    constructor
    · rw [le_div_iff₀ (by positivity)]
      nlinarith
    · rw [div_le_iff₀ (by positivity)]
      nlinarith
  have hgy : |X.y / D - (duoY k + (c.val : ℝ) / 10000) / 105| ≤ 1 / 1000 := by
    rw [div_sub_div _ _ hD.ne' (by norm_num), abs_le]
    constructor
    · rw [le_div_iff₀ (by positivity)]
      nlinarith
    · rw [div_le_iff₀ (by positivity)]
      nlinarith
  have gx := abs_le.1 hgx
  have gy := abs_le.1 hgy
  refine ⟨_, row_pixel c (by linarith), ?_, ?_⟩
  · refine ⟨row_air c (by linarith), ?_, duo_inside ⟨ha.1, by linarith⟩ k c, _, _,
      ⟨10 * (c.val : ℝ) + (a - 10 * (c.val : ℝ)) * (D / 105), (duoY k + (c.val : ℝ) / 10000) * (D / 105), X.z⟩,
      row_pixel c (by linarith), ?_, row_pixel c (by simp only; linarith), ?_, ?_, ?_⟩
    · simp only [InsideImage, rowSetup, exPars, ← hDd]
      push_cast
      refine ⟨?_, ?_, ?_, ?_⟩ <;> linarith [gx.1, gx.2, gy.1, gy.2]
    · simp only [InOpenBox, rowSetup]
      refine ⟨⟨?_, ?_⟩, ⟨?_, ?_⟩, ?_, ?_⟩ <;> nlinarith
    · have e1 : (10 * (c.val : ℝ) + (a - 10 * (c.val : ℝ)) * (D / 105) - 10 * (c.val : ℝ)) / D = (a - 10 * (c.val : ℝ)) / 105 := by
        field_simp
        ring
      have e2 : (duoY k + (c.val : ℝ) / 10000) * (D / 105) / D = (duoY k + (c.val : ℝ) / 10000) / 105 := by
        field_simp
      simp only [InsideImage, rowSetup, exPars, ← hDd]
      rw [e1, e2]
      push_cast
      refine ⟨?_, ?_, ?_, ?_⟩ <;> linarith
    · simp only [duoDet, ← hDd]
      field_simp
      ring
    · simp only [duoDet, ← hDd]
      field_simp
  · refine duo_nearest a k c ?_
    · simp only [duoDet, ← hDd]
      rw [abs_le]
      constructor <;> linarith [gy.1, gy.2]

theorem duo_film (tol : ℝ) (ray : Int → Fin 2 → Fin 4 → Ray)
    (hray : ∀ n k c, rayTracing (flatPos exPars.ip tol (rowCam c).1 (duoDet (n : Int) k c)).1
      (flatPos exPars.ip tol (rowCam c).1 (duoDet (n : Int) k c)).2 (rowCam c).1 exPars.mm = some (ray n k c) ∧
      OnLine (ray n k c).1 (ray n k c).2 (duoOff (n : Int) k c) ∧ (ray n k c).2 = (duoOff (n : Int) k c - (rowCam c).1.pos).unit) :
    FilmedSwarm rowSetup exPars tol (fun n => duoPic n) 2 (fun k n => duoAt k n) (fun _ k _ => k.val) (fun n => duoDet n)
      (fun _ _ c1 c2 => 50 * (((c2.val : ℝ) - c1.val) / 10000) / 105) (fun _ _ _ _ => 1600) 33 (3 / 10000) (8 / 100) ray 0 5 4 (78 / 10000) where
  pictured n h1 h2 := duo_cloud n tol ⟨by exact_mod_cast h1, by
    have : n ≤ 10 := by push_cast at h2; omega
    exact_mod_cast this⟩ (ray n) (hray n)
  error := by norm_num
  cals n _ _ := rfl
  sorted n c _ _ := by
    obtain ⟨b1, b2⟩ := fin4_bounds c
    simp only [duoPic, List.map_cons, List.map_nil, duoDet]
    refine List.pairwise_pair.2 ?_
    have e0 : duoY 0 = 2 := by norm_num [duoY]
    have e1 : duoY 1 = -20 := by norm_num [duoY]
    rw [e0, e1]
    linarith
  apart k l n hkl _ _ := by
    have h1 := duo_other (Ne.symm hkl)
    have h2 := (comp_le_norm (duoAt l ((n + 1 : Int) : ℝ) - duoAt k (n : ℝ))).2.1
    simp only [V3.sub_y, duoAt] at h2
    simp only [rowSetup, duoAt]
    linarith
  moves k n _ _ := by
    have h2 := (comp_le_norm (duoAt k ((n + 1 : Int) : ℝ) - duoAt k (n : ℝ))).1
    simp only [V3.sub_x, duoAt] at h2
    push_cast at h2
    rw [show ((n : ℝ) + 1 - n) = 1 by ring, abs_one] at h2
    simp only [duoAt]
    push_cast
    linarith
  steps k n _ _ := by
    simp only [InBoundsBy, rowSetup, duoAt, V3.sub_x, V3.sub_y, V3.sub_z]
    push_cast
    refine ⟨⟨?_, ?_⟩, ⟨?_, ?_⟩, ?_, ?_⟩ <;> linarith
  smooth k n _ _ := by
    have e : (duoAt k ((n + 1 : Int) : ℝ) - duoAt k (n : ℝ)) - (duoAt k (n : ℝ) - duoAt k ((n - 1 : Int) : ℝ)) = 0 := by
      ext <;> simp [duoAt]
    rw [e, V3.norm_eq_zero.2 rfl]
    norm_num [rowSetup]
  seenFirst k c cal X hc hX := by
    have : cal = rowCam c := by
      have h := finRange_get rowCam c
      have h' : rowSetup.cals[c.val]? = some (rowCam c) := h
      rw [hc] at h'
      exact Option.some.inj h'
    subst this
    have h1 := duo_first (k := k) (a := 0) (by norm_num) c (X := X) (by simpa using hX)
    simp only [Int.cast_zero, zero_add, Int.cast_one] at h1 ⊢
    refine ⟨h1, duo_nearest 1 k c ?_⟩
    simp only [duoDet, sub_self, abs_zero]
    norm_num
  seen k n c cal X h1 h2 hc hX := by
    have : cal = rowCam c := by
      have h := finRange_get rowCam c
      have h' : rowSetup.cals[c.val]? = some (rowCam c) := h
      rw [hc] at h'
      exact Option.some.inj h'
    subst this
    have e : (duoAt k (n : ℝ)).smul 2 - duoAt k ((n - 1 : Int) : ℝ) = duoAt k ((n + 1 : Int) : ℝ) := by
      ext <;> simp [duoAt] <;> ring
    rw [e] at hX
    refine duo_next ⟨?_, ?_⟩ c hX
    · have : 0 ≤ n + 1 := by omega
      exact_mod_cast this
    · have : n + 1 ≤ 6 := by push_cast at h2; omega
      exact_mod_cast this

theorem row_longest : LongestStep rowSetup 4 := by
  intro v ⟨⟨a1, a2⟩, ⟨b1, b2⟩, c1, c2⟩
  simp only [rowSetup] at a1 a2 b1 b2 c1 c2
  rw [V3.norm]
  refine Real.sqrt_le_iff.2 ⟨by norm_num, ?_⟩
  nlinarith

/-- Frames 0 .. 5 of the two particles: the inexact pictures can be recorded, and the tracker returns and finds both trajectories. -/
example (srt : NpSort ℝ) (tol : ℝ) (c0 c1 c2 c3 : Frame V3 ℝ (Img ℝ)) :
    ∃ disk : Int → Frame V3 ℝ (Img ℝ),
      (∀ n : Int, 0 ≤ n → n ≤ 0 + (5 : ℕ) → ∃ o, pyCorrespondences srt exPars (fun c => (duoPic n c).data exPars.ip tol) = .ok o ∧
        Recorded exPars tol (duoPic n) o (disk n)) ∧
      ∃ r, forwardRun disk (trackBuf rowSetup.tracker) 0 (0 + (5 : ℕ)) [c0, c1, c2, c3] = .ok r ∧
        ∃ num : Fin 2 → Int → ℕ, (∀ n : Int, 0 ≤ n → n ≤ 0 + (5 : ℕ) → Function.Injective fun k => num k n) ∧
          (writesOf r.log).map Prod.fst = (List.range 6).map (fun j : ℕ => 0 + (j : Int)) ∧
          ∀ n f, (n, f) ∈ writesOf r.log → f.parts.length = 2 ∧
            TrueLinks (fun x y => (y - x).norm ≤ 78 / 10000) (fun k n => duoAt k n) num 0 5 n f.parts := by
  choose ray hray using fun (n : Int) k c => duo_ray (n : ℝ) tol k c
  have hfilm := duo_film tol ray hray
  have heps : 0 < exPars.crit.eps0 := by norm_num [exPars]
  have hcs : 0 ≤ exPars.crit.csumg := by norm_num [exPars]
  have him : (rowSetup.ip.imx : ℝ) ≤ 10 ^ 19 ∧ (rowSetup.ip.imy : ℝ) ≤ 10 ^ 19 := by norm_num [rowSetup, exPars]
  have hex : ∀ n : Int, ∃ f : Frame V3 ℝ (Img ℝ), (0 ≤ n → n ≤ 0 + (5 : ℕ) → ∃ o,
      pyCorrespondences srt exPars (fun c => (duoPic n c).data exPars.ip tol) = .ok o ∧ Recorded exPars tol (duoPic n) o f) ∧
      (¬ (0 ≤ n ∧ n ≤ 0 + (5 : ℕ)) → f.parts = []) := by
    intro n
    by_cases hn : 0 ≤ n ∧ n ≤ 0 + (5 : ℕ)
    · obtain ⟨o, ho, ⟨f, hf⟩, -⟩ := C149_frame srt heps hcs (cm := 33) rfl (by norm_num) (hfilm.pictured n hn.1 hn.2)
      exact ⟨f, fun _ _ => ⟨o, ho, hf⟩, fun h => absurd hn h⟩
    · exact ⟨⟨0, [], c0.img⟩, fun h1 h2 => absurd ⟨h1, h2⟩ hn, fun _ => rfl⟩
  choose disk hdisk hempty using hex
  have hold : ∀ n : Int, 0 ≤ n → n ≤ 0 + (5 : ℕ) → ∃ pos : Fin 2 → ℕ,
      HoldsCloud (disk n) 2 (fun k => duoAt k n) (fun k _ => k.val) (duoDet n) (78 / 10000) pos := by
    intro n h1 h2
    obtain ⟨o, ho, hrec⟩ := hdisk n h1 h2
    obtain ⟨o', ho', -, hall⟩ := C149_frame srt heps hcs (cm := 33) rfl (by norm_num) (hfilm.pictured n h1 h2)
    rw [ho] at ho'
    cases ho'
    have := hall _ hrec
    norm_num at this ⊢
    exact this
  -- positions
  have hpos : ∀ n : Int, 0 ≤ n → n ≤ 0 + (5 : ℕ) → ∀ q ∈ (disk n).parts, q.prev = -1 ∧ q.next = -2 ∧ ∃ k, (q.x - duoAt k n).norm ≤ 78 / 10000 := by
    intro n h1 h2 q hq
    obtain ⟨pos, hh⟩ := hold n h1 h2
    have hlt : ∀ k, pos k < 2 := by
      intro k
      obtain ⟨q, hq, -⟩ := hh.part k
      rw [← hh.count]
      exact (List.getElem?_eq_some_iff.1 hq).1
    obtain ⟨i, hi⟩ := List.mem_iff_getElem?.1 hq
    have hs : Function.Surjective (fun k : Fin 2 => (⟨pos k, hlt k⟩ : Fin 2)) :=
      Finite.surjective_of_injective fun a b e => hh.once (by simpa using e)
    obtain ⟨k, hk⟩ := hs ⟨i, by rw [← hh.count]; exact (List.getElem?_eq_some_iff.1 hi).1⟩
    have hk : pos k = i := by simpa using congrArg Fin.val hk
    obtain ⟨q', g1, g2, g3, g4⟩ := hh.part k
    rw [hk, hi] at g1
    cases g1
    exact ⟨g2, g3, k, g4⟩
  have hx : ∀ n : Int, 0 ≤ n → n ≤ 0 + (5 : ℕ) → ∀ x ∈ (disk n).parts.map Part.x,
      ((n : ℝ) - 78 / 10000 ≤ x.x ∧ x.x ≤ n + 78 / 10000) ∧ (-5 - 78 / 10000 ≤ x.z ∧ x.z ≤ -5 + 78 / 10000) := by
    intro n h1 h2 x hx
    obtain ⟨q, hq, rfl⟩ := List.mem_map.1 hx
    obtain ⟨-, -, k, hk⟩ := hpos n h1 h2 q hq
    obtain ⟨a, -, c⟩ := near_comp hk
    exact ⟨a, c⟩
  have hunl : ∀ n, ∀ q ∈ (disk n).parts, q.prev = -1 ∧ q.next = -2 := by
    intro n q hq
    by_cases hn : 0 ≤ n ∧ n ≤ 0 + (5 : ℕ)
    · obtain ⟨h1, h2, -⟩ := hpos n hn.1 hn.2 q hq
      exact ⟨h1, h2⟩
    · rw [hempty n hn] at hq
      simp at hq
  have hlen4 : rowSetup.cals.length = 4 := by simp [rowSetup]
  have hts : ∀ n : Int, 0 ≤ n → n ≤ 0 + (5 : ℕ) → ∃ pos : Fin 2 → ℕ, (disk n).img.targets.length = 4 ∧ ∀ (cam : ℕ) ts,
      (disk n).img.targets[cam]? = some ts → ts.length = 2 ∧ (∀ u ∈ ts, 0 ≤ u.tnr) ∧ ∃ t, ts.getLast? = some t ∧ t.tnr = pos 1 := by
    intro n h1 h2
    obtain ⟨pos, hh⟩ := hold n h1 h2
    refine ⟨pos, hh.cams, fun cam ts hts => ?_⟩
    have hc : cam < 4 := by rw [← hh.cams]; exact (List.getElem?_eq_some_iff.1 hts).1
    obtain ⟨g1, g2⟩ := hh.target ⟨cam, hc⟩ ts hts
    have g20 := g2 0
    have g21 := g2 1
    simp only [Fin.val_zero, Fin.val_one] at g20 g21
    refine ⟨g1, ?_, _, by rw [List.getLast?_eq_getElem?, g1]; exact g21, rfl⟩
    intro u hu
    obtain ⟨i, hi⟩ := List.mem_iff_getElem?.1 hu
    have hi2 : i < 2 := by rw [← g1]; exact (List.getElem?_eq_some_iff.1 hi).1
    have : i = 0 ∨ i = 1 := by omega
    rcases this with rfl | rfl
    · rw [g20] at hi
      cases hi
      exact Int.natCast_nonneg _
    · rw [g21] at hi
      cases hi
      exact Int.natCast_nonneg _
  have hfew : ∀ n : Int, 0 ≤ n → n ≤ 0 + (5 : ℕ) → ∀ X v, FewIn rowSetup X v (disk n).img := by
    intro n h1 h2 X v cam _ p a ts _ _ hts' S hS
    obtain ⟨pos, -, h3⟩ := hts n h1 h2
    obtain ⟨g1, -⟩ := h3 cam ts hts'
    have : S ⊆ Finset.range 2 := by
      intro j hj
      obtain ⟨u, hu, -⟩ := hS j hj
      rw [Finset.mem_range, ← g1]
      exact (List.getElem?_eq_some_iff.1 hu).1
    have := Finset.card_le_card this
    rw [Finset.card_range] at this
    omega
  have hrun : ∃ r, forwardRun disk (trackBuf rowSetup.tracker) 0 (0 + (5 : ℕ)) [c0, c1, c2, c3] = .ok r := by
    obtain ⟨r, hr, -⟩ := C99_run_four_partial rowSetup (by rw [hlen4]; omega) rfl him disk (fun n p hp => hunl n p hp) 0 5 (by norm_num)
      (by
        intro n h1 h2
        obtain ⟨pos, h3, h4⟩ := hts n h1 h2
        constructor
        · refine ⟨(pos 1 : ℕ), by omega, fun cam hc => ?_⟩
          rw [hlen4, ← h3] at hc
          obtain ⟨-, -, t, g1, g2⟩ := h4 cam _ (List.getElem?_eq_getElem hc)
          exact ⟨_, t, List.getElem?_eq_getElem hc, g1, g2⟩
        · intro cam c ts t _ hts' ht hneg
          have := (h4 cam ts hts').2.1 t ht
          omega)
      (by
        intro n h1 h2 h x1 hx1 x0 h0
        have hfa : 0 ≤ frameAfter (0 + (5 : ℕ)) n ∧ frameAfter (0 + (5 : ℕ)) n ≤ 0 + (5 : ℕ) ∧ frameAfter (0 + (5 : ℕ)) n ≠ n + 1 := by
          unfold frameAfter
          split_ifs <;> omega
        have hn1 := hx n h1 (by omega) x1 (List.mem_of_getElem? hx1)
        have hn3 := hx (n + 1) (by omega) (by omega)
        have hx0 : ∀ x, x0 = some x → ((n : ℝ) - 1 - 78 / 10000 ≤ x.x ∧ x.x ≤ n - 1 + 78 / 10000) ∧
            (-5 - 78 / 10000 ≤ x.z ∧ x.z ≤ -5 + 78 / 10000) := by
          rintro x rfl
          rcases h0 with h0 | ⟨hf, y, hy, e⟩
          · cases h0
          · cases e
            have := hx (n - 1) (by omega) (by omega) x hy
            push_cast at this
            exact this
        push_cast at hn3
        have hthen : ∀ x3 ∈ (disk (n + 1)).parts.map Part.x, expectedThen x0 x1 x3 ≠ x3 := by
          intro x3 h3 e
          have := congrArg V3.x e
          obtain ⟨⟨a1, a2⟩, -⟩ := hn1
          obtain ⟨⟨a3, a4⟩, -⟩ := hn3 x3 h3
          cases x0 with
          | none =>
            simp only [expectedThen, V3.smul, V3.sub_x] at this
            linarith
          | some x =>
            obtain ⟨⟨a5, a6⟩, -⟩ := hx0 x rfl
            simp only [expectedThen, V3.smul, V3.sub_x, V3.add_x] at this
            linarith
        refine ⟨⟨?_, ?_, ?_, ?_, ?_, ?_⟩, hfew _ (by omega) (by omega) _ _, fun x3 _ => hfew _ hfa.1 hfa.2.1 _ _⟩
        · intro _
          obtain ⟨pos, hh⟩ := hold n h1 (by omega)
          have hlt : ∀ k, pos k < 2 := by
            intro k
            obtain ⟨q, hq, -⟩ := hh.part k
            rw [← hh.count]
            exact (List.getElem?_eq_some_iff.1 hq).1
          have hs : Function.Surjective (fun k : Fin 2 => (⟨pos k, hlt k⟩ : Fin 2)) :=
            Finite.surjective_of_injective fun a b e => hh.once (by simpa using e)
          have hl := (List.getElem?_eq_some_iff.1 hx1).1
          rw [List.length_map, hh.count] at hl
          obtain ⟨k, hk⟩ := hs ⟨h, hl⟩
          have hk : pos k = h := by simpa using congrArg Fin.val hk
          obtain ⟨r, r1, r2⟩ := hh.row k
          rw [hk] at r1
          refine ⟨r, r1, fun cam hc => ⟨(k.val : Int), ?_, Or.inr ⟨k.val, ?_⟩⟩⟩
          · rw [hlen4] at hc
            rw [r2]
            exact finRange_get (fun _ => (k.val : Int)) ⟨cam, hc⟩
          · rw [hlen4, ← hh.cams] at hc
            refine ⟨_, rfl, List.getElem?_eq_getElem hc, ?_⟩
            have := (hh.target ⟨cam, by rw [← hh.cams]; exact hc⟩ _ (List.getElem?_eq_getElem hc)).1
            rw [this]
            exact k.isLt
        · obtain ⟨-, a3, a4⟩ := hn1
          cases x0 with
          | none => exact rowSetup_projectable (by simp only [expectedNext]; linarith)
          | some x =>
            obtain ⟨-, a5, a6⟩ := hx0 x rfl
            exact rowSetup_projectable (by simp only [expectedNext, V3.smul, V3.sub_z]; linarith)
        · intro x3 h3
          obtain ⟨-, a3, a4⟩ := hn1
          obtain ⟨-, a7, a8⟩ := hn3 x3 h3
          cases x0 with
          | none => exact rowSetup_projectable (by simp only [expectedThen, V3.smul, V3.sub_z]; linarith)
          | some x =>
            obtain ⟨-, a5, a6⟩ := hx0 x rfl
            exact rowSetup_projectable (by simp only [expectedThen, V3.smul, V3.sub_z, V3.add_z]; linarith)
        · intro x e x3 h3
          obtain ⟨⟨a1, a2⟩, -⟩ := hn1
          obtain ⟨⟨a3, a4⟩, -⟩ := hn3 x3 h3
          obtain ⟨⟨a5, a6⟩, -⟩ := hx0 x e
          constructor <;> intro e' <;> exfalso <;> have e'' := congrArg V3.x e' <;> linarith
        · intro x3 h3 x4 h4
          obtain ⟨⟨a3, a4⟩, -⟩ := hn3 x3 h3
          obtain ⟨⟨a5, a6⟩, -⟩ := hx _ hfa.1 hfa.2.1 x4 h4
          refine ⟨fun e => ?_, fun e => absurd e (hthen x3 h3)⟩
          exfalso
          have hx4 := congrArg V3.x e
          have hfa3 := hfa.2.2
          generalize frameAfter (0 + ((5 : ℕ) : Int)) n = m at a5 a6 hx4 hfa3
          have h7 : (m : ℝ) < n + 2 := by linarith
          have h8 : (n : ℝ) < m := by linarith
          have h7' : m < n + 2 := by exact_mod_cast h7
          have h8' : n < m := by exact_mod_cast h8
          omega
        · rintro x3 _ v x4 ⟨-, -, cam, _, _, _, ⟨ts, t, g1, g2, g3, -⟩, -⟩
          exfalso
          obtain ⟨pos, -, h4⟩ := hts _ hfa.1 hfa.2.1
          have := (h4 cam ts g1).2.1 t g2
          omega)
      c0 c1 c2 c3
    exact ⟨r, hr⟩
  obtain ⟨r, hr⟩ := hrun
  refine ⟨disk, hdisk, r, hr, ?_⟩
  exact C149_swarm srt rowSetup rfl him (by norm_num [rowSetup]) 4 row_longest exPars tol heps hcs 33 rfl (3 / 10000) (8 / 100) (78 / 10000)
    (by norm_num) (fun n => duoPic n) 2 (fun k n => duoAt k n) (fun _ k _ => k.val) (fun n => duoDet n) _ _ ray 0 5 (by norm_num) hfilm disk hdisk
    (fun n _ => hunl n) c0 c1 c2 c3 r hr

end Verif.Track
