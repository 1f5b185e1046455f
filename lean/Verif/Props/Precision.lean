import Verif.Props.Orientation
import Verif.Props.LoneTrack
import Verif.Props.Crowd
import Verif.Spec.Precision

/-!
C128: how far a triangulated position can be from the true one, if the image positions have errors.
-/

namespace Verif.Geo
open V3 Verif.Geo.Spec
open Verif.Track (norm_sub_le' norm_add_le' v3_norm_comm)

/-- The lower bound for the length of a combination of two directions. -/
theorem crossing_bound {a b : V3} {σ : ℝ} (h : Crossing a b σ) (s t : ℝ) :
    (a.smul s).norm * σ ≤ (a.smul s - b.smul t).norm := by
  have hb := V3.norm_pos h.right
  have e1 : (a.smul s - b.smul t).norm ^ 2 = s ^ 2 * a.norm ^ 2 + t ^ 2 * b.norm ^ 2 - 2 * s * t * dot a b := by
    rw [norm_sq, norm_sq, norm_sq]
    simp only [dot, sub_x, sub_y, sub_z, smul_x, smul_y, smul_z]; ring
  have e2 : ((a.smul s).norm * σ) ^ 2 = s ^ 2 * a.norm ^ 2 * σ ^ 2 := by
    rw [mul_pow, norm_sq, norm_sq]
    simp only [dot, smul_x, smul_y, smul_z]; ring
  apply le_of_sq_le_sq _ (norm_nonneg _)
  rw [e1, e2]
  -- multiply by |b|²
  have hb2 : 0 < b.norm ^ 2 := by positivity
  have key : s ^ 2 * a.norm ^ 2 * σ ^ 2 * b.norm ^ 2 ≤
      (s ^ 2 * a.norm ^ 2 + t ^ 2 * b.norm ^ 2 - 2 * s * t * dot a b) * b.norm ^ 2 := by
    have h1 := mul_le_mul_of_nonneg_left h.angle (sq_nonneg s)
    nlinarith [sq_nonneg (t * b.norm ^ 2 - s * dot a b)]
  exact le_of_mul_le_mul_right key hb2

theorem crossing_symm {a b : V3} {σ : ℝ} (h : Crossing a b σ) : Crossing b a σ := by
  refine ⟨h.right, h.left, ?_⟩
  have e : dot b a = dot a b := by simp only [dot]; ring
  rw [e, mul_comm (b.norm ^ 2)]; exact h.angle

theorem crossing_notParallel {a b : V3} {σ : ℝ} (hσ : 0 < σ) (h : Crossing a b σ) : NotParallel a b := by
  intro s t e
  have hz : ∀ {u v : V3} {s t : ℝ}, Crossing u v σ → u.smul s = v.smul t → s = 0 := by
    intro u v s t h e
    have h1 := crossing_bound h s t
    have h0 : (u.smul s - v.smul t).norm = 0 := by rw [V3.norm_eq_zero, e]; ext <;> simp
    rw [h0, V3.norm_smul] at h1
    have hu := V3.norm_pos h.left
    by_contra hs
    have : 0 < u.norm * |s| * σ := by positivity
    linarith
  exact ⟨hz h e, hz (crossing_symm h) e.symm⟩

/-- One pair of rays. -/
theorem pair_precision {v1 a1 v2 a2 P : V3} {δ σ : ℝ} (hσ : 0 < σ) (h : Crossing a1 a2 σ)
    (h1 : NearLine v1 a1 P δ) (h2 : NearLine v2 a2 P δ) :
    ∃ D M, skewMidpoint (v1, a1) (v2, a2) = some (D, M) ∧ ShortestConnection v1 a1 v2 a2 D M ∧ D ≤ 2 * δ ∧
      (M - P).norm ≤ δ * (1 + 2 / σ) := by
  obtain ⟨D, M, e, hs, p, q, ⟨s, hp⟩, ⟨t, hq⟩, hM, hD, o1, o2⟩ := C30_closest v1 a1 v2 a2 (crossing_notParallel hσ h)
  obtain ⟨x1, ⟨s', hx1⟩, d1⟩ := h1
  obtain ⟨x2, ⟨t', hx2⟩, d2⟩ := h2
  have hw : (x1 - x2).norm ≤ 2 * δ := by
    have e : x1 - x2 = (P - x2) - (P - x1) := by ext <;> simp
    rw [e]
    have := norm_sub_le' (P - x2) (P - x1)
    linarith
  have hmin : D ≤ 2 * δ := by
    obtain ⟨_, _, _, _, _, _, hmin⟩ := hs
    exact (hmin x1 x2 ⟨s', hx1⟩ ⟨t', hx2⟩).trans hw
  -- z = s a1 - t a2
  set z : V3 := a1.smul (s - s') - a2.smul (t - t') with hz
  have ep : p = x1 + a1.smul (s - s') := by rw [hp, hx1]; ext <;> simp <;> ring
  have eq' : q = x2 + a2.smul (t - t') := by rw [hq, hx2]; ext <;> simp <;> ring
  have hzn : z.norm ≤ 2 * δ := by
    have hd : dot (p - q) z = 0 := by
      have : dot (p - q) z = (s - s') * dot (p - q) a1 - (t - t') * dot (p - q) a2 := by
        simp only [hz, dot, sub_x, sub_y, sub_z, smul_x, smul_y, smul_z]; ring
      rw [this, o1, o2]; ring
    have hpq : p - q = (x1 - x2) + z := by rw [ep, eq', hz]; ext <;> simp <;> ring
    have e0 : z.norm ^ 2 = - dot (x1 - x2) z := by
      rw [hpq] at hd
      rw [norm_sq]
      simp only [dot, add_x, add_y, add_z] at hd ⊢
      linarith
    have hc := abs_dot_le (x1 - x2) z
    have hc' := (abs_le.1 hc).1
    have hz0 := norm_nonneg z
    by_contra hlt
    push Not at hlt
    have : z.norm * z.norm ≤ (x1 - x2).norm * z.norm := by nlinarith
    have hzp : 0 < z.norm := lt_of_le_of_lt ((V3.norm_nonneg _).trans hw) hlt
    have := le_of_mul_le_mul_right this hzp
    linarith
  have b1 : (a1.smul (s - s')).norm ≤ 2 * δ / σ := by
    rw [le_div_iff₀ hσ]
    exact (crossing_bound h _ _).trans hzn
  have b2 : (a2.smul (t - t')).norm ≤ 2 * δ / σ := by
    rw [le_div_iff₀ hσ]
    refine (crossing_bound (crossing_symm h) (t - t') (s - s')).trans ?_
    rw [v3_norm_comm]; exact hzn
  have c1 : (p - P).norm ≤ δ + 2 * δ / σ := by
    have e : p - P = a1.smul (s - s') - (P - x1) := by rw [ep]; ext <;> simp <;> ring
    rw [e]
    have := norm_sub_le' (a1.smul (s - s')) (P - x1)
    linarith
  have c2 : (q - P).norm ≤ δ + 2 * δ / σ := by
    have e : q - P = a2.smul (t - t') - (P - x2) := by rw [eq']; ext <;> simp <;> ring
    rw [e]
    have := norm_sub_le' (a2.smul (t - t')) (P - x2)
    linarith
  refine ⟨D, M, e, hs, hmin, ?_⟩
  have eM : M - P = ((p - P) + (q - P)).smul (1 / 2) := by
    have hx := congrArg V3.x hM
    have hy := congrArg V3.y hM
    have hz := congrArg V3.z hM
    simp only [add_x, add_y, add_z] at hx hy hz
    ext <;> simp only [sub_x, sub_y, sub_z, add_x, add_y, add_z, smul_x, smul_y, smul_z] <;> linarith
  rw [eM, V3.norm_smul, abs_of_pos (by norm_num)]
  have := norm_add_le' (p - P) (q - P)
  have e : δ * (1 + 2 / σ) = δ + 2 * δ / σ := by ring
  rw [e]; linarith

theorem norm_sum_le {ι : Type} (S : Finset ι) (M : ι → V3) :
    (⟨∑ p ∈ S, (M p).x, ∑ p ∈ S, (M p).y, ∑ p ∈ S, (M p).z⟩ : V3).norm ≤ ∑ p ∈ S, (M p).norm := by
  classical
  induction S using Finset.induction_on with
  | empty => simp [V3.norm]
  | insert a S ha ih =>
    rw [Finset.sum_insert ha, Finset.sum_insert ha, Finset.sum_insert ha, Finset.sum_insert ha]
    have e : (⟨(M a).x + ∑ p ∈ S, (M p).x, (M a).y + ∑ p ∈ S, (M p).y, (M a).z + ∑ p ∈ S, (M p).z⟩ : V3) =
        M a + ⟨∑ p ∈ S, (M p).x, ∑ p ∈ S, (M p).y, ∑ p ∈ S, (M p).z⟩ := by ext <;> simp
    rw [e]
    exact (norm_add_le' _ _).trans (by linarith)

/-- C128: if the rays of all used cameras (at least two) pass a point `P` at a distance of at most `δ`, and any two of them cross
with an angle of sine at least `σ`, the position is within `δ (1 + 2/σ)` of `P`, and the reported ray distance is at most `2 δ`.
For all cameras, media and calibrations. -/
theorem C128_position_error (targets : List (ℝ × ℝ)) (numCams : ℕ) (mm : MM) (cals : List Cam) (ray : ℕ → Ray)
    (hlen : numCams ≤ targets.length) (h : RaysAre targets numCams mm cals ray) (P : V3) (δ σ : ℝ) (hσ : 0 < σ)
    (hnear : ∀ c ∈ usedCams targets numCams, NearLine (ray c).1 (ray c).2 P δ)
    (hcross : ∀ p ∈ pairsOf (usedCams targets numCams), Crossing (ray p.1).2 (ray p.2).2 σ)
    (htwo : 2 ≤ (usedCams targets numCams).card) :
    ∃ d M, pointPosition targets numCams mm cals = .ok (some (d, M)) ∧ 0 ≤ d ∧ d ≤ 2 * δ ∧
      (M - P).norm ≤ δ * (1 + 2 / σ) := by
  have hS0 : ((pairsOf (usedCams targets numCams)).card : ℝ) ≠ 0 := by
    intro h0; have := (card_pairsOf _).1 (by exact_mod_cast h0); omega
  have hSp : 0 < ((pairsOf (usedCams targets numCams)).card : ℝ) := lt_of_le_of_ne (by positivity) (Ne.symm hS0)
  have key : ∀ p : ℕ × ℕ, ∃ DM : ℝ × V3, p ∈ pairsOf (usedCams targets numCams) →
      ShortestConnection (ray p.1).1 (ray p.1).2 (ray p.2).1 (ray p.2).2 DM.1 DM.2 ∧ DM.1 ≤ 2 * δ ∧
      (DM.2 - P).norm ≤ δ * (1 + 2 / σ) := by
    intro p
    by_cases hp : p ∈ pairsOf (usedCams targets numCams)
    · have hp' := hp
      simp only [pairsOf, Finset.mem_filter, Finset.mem_product] at hp'
      obtain ⟨D, M, -, h1, h2, h3⟩ := pair_precision hσ (hcross p hp) (hnear _ hp'.1.1) (hnear _ hp'.1.2)
      exact ⟨(D, M), fun _ => ⟨h1, h2, h3⟩⟩
    · exact ⟨(0, 0), fun h => absurd h hp⟩
  choose DM hDM using key
  have := C31_mean targets numCams mm cals ray hlen h (fun i j => (DM (i, j)).1) (fun i j => (DM (i, j)).2)
    (fun p hp => crossing_notParallel hσ (hcross p hp)) (fun p hp => (hDM p hp).1) htwo
  simp only [Prod.mk.eta] at this
  set S := pairsOf (usedCams targets numCams) with hS
  refine ⟨_, _, this, ?_, ?_, ?_⟩
  · apply div_nonneg _ hSp.le
    apply Finset.sum_nonneg
    intro p hp
    obtain ⟨p', q', _, _, e, _⟩ := (hDM p hp).1
    rw [e]; exact V3.norm_nonneg _
  · rw [div_le_iff₀ hSp]
    calc ∑ p ∈ S, (DM p).1 ≤ ∑ _p ∈ S, 2 * δ := Finset.sum_le_sum fun p hp => (hDM p hp).2.1
      _ = 2 * δ * S.card := by rw [Finset.sum_const, nsmul_eq_mul]; ring
  · have e : (⟨(∑ p ∈ S, (DM p).2.x) / S.card, (∑ p ∈ S, (DM p).2.y) / S.card, (∑ p ∈ S, (DM p).2.z) / S.card⟩ : V3) - P =
        (⟨∑ p ∈ S, ((DM p).2 - P).x, ∑ p ∈ S, ((DM p).2 - P).y, ∑ p ∈ S, ((DM p).2 - P).z⟩ : V3).smul (1 / S.card) := by
      ext <;> simp only [sub_x, sub_y, sub_z, smul_x, smul_y, smul_z, Finset.sum_sub_distrib, Finset.sum_const, nsmul_eq_mul] <;>
        field_simp
    rw [e, V3.norm_smul, abs_of_pos (by positivity), mul_one_div, div_le_iff₀ hSp]
    refine (norm_sum_le S fun p => (DM p).2 - P).trans ?_
    calc ∑ p ∈ S, ((DM p).2 - P).norm ≤ ∑ _p ∈ S, δ * (1 + 2 / σ) := Finset.sum_le_sum fun p hp => (hDM p hp).2.2
      _ = δ * (1 + 2 / σ) * S.card := by rw [Finset.sum_const, nsmul_eq_mul]; ring

/-! ### In the images -/

theorem mulVec_sub (m : M3) (a b : V3) : m.mulVec a - m.mulVec b = m.mulVec (a - b) := by
  ext <;> simp only [M3.mulVec, dot, sub_x, sub_y, sub_z] <;> ring

/-- The point at the depth of `P` whose image is `t`. -/
theorem exists_shifted {c : Cam} {P : V3} (h : Sees c P) (t : ℝ × ℝ) :
    ∃ Q, pinhole c.pos c.dm c.cc Q = t ∧ dot c.dm.c2 (Q - c.pos) = dot c.dm.c2 (P - c.pos) ∧
      (P - Q).norm = |dot c.dm.c2 (P - c.pos)| / |c.cc| * imageDist (pinhole c.pos c.dm c.cc P) t := by
  obtain ⟨omega, phi, kappa, hdm⟩ := h.rot
  have hcc := h.cc
  have hz0 : dot c.dm.c2 (P - c.pos) ≠ 0 := fun e => by
    have := h.front; rw [e, mul_zero] at this; exact lt_irrefl _ this
  set z := dot c.dm.c2 (P - c.pos) with hz
  set k := -z / c.cc with hk
  have hf := rot_forth omega phi kappa (P - c.pos)
  obtain ⟨b0, b1, b2⟩ := rot_back omega phi kappa ⟨t.1 * k, t.2 * k, z⟩
  rw [← hdm] at hf b0 b1 b2
  set w : V3 := ⟨t.1 * k, t.2 * k, z⟩ with hw
  have eQ : c.pos + c.dm.mulVec w - c.pos = c.dm.mulVec w := by ext <;> simp
  have pin : ∀ R : V3, pinhole c.pos c.dm c.cc R =
      (-c.cc * (dot c.dm.c0 (R - c.pos) / dot c.dm.c2 (R - c.pos)), -c.cc * (dot c.dm.c1 (R - c.pos) / dot c.dm.c2 (R - c.pos))) :=
    fun R => rfl
  refine ⟨c.pos + c.dm.mulVec w, ?_, ?_, ?_⟩
  · rw [pin, eQ, b0, b1, b2]
    ext <;> simp only [hw, hk] <;> field_simp
  · rw [eQ, b2]
  · have e1 : P - (c.pos + c.dm.mulVec w) =
        c.dm.mulVec (⟨dot c.dm.c0 (P - c.pos), dot c.dm.c1 (P - c.pos), z⟩ - w) := by
      rw [← mulVec_sub]
      have hf' : c.dm.mulVec ⟨dot c.dm.c0 (P - c.pos), dot c.dm.c1 (P - c.pos), z⟩ = P - c.pos := hf
      rw [hf']
      ext <;> simp only [sub_x, sub_y, sub_z, add_x, add_y, add_z] <;> ring
    have iso : ∀ v, (c.dm.mulVec v).norm = v.norm := by
      intro v; rw [hdm]; exact C25_isometry omega phi kappa v
    rw [e1, iso, pin, imageDist]
    simp only [← hz]
    have ek : |z| / |c.cc| = |k| := by rw [hk, abs_div, abs_neg]
    rw [ek, ← Real.sqrt_sq_eq_abs, ← Real.sqrt_mul (sq_nonneg _), V3.norm]
    congr 1
    simp only [hw, sub_x, sub_y, sub_z, hk]
    field_simp
    ring

/-- The measured position of one camera: within `ε` of the exact image of `P`, where `depth / |cc| · ε ≤ δ`, the depth being the
distance of `P` from the camera's image plane direction; and every point within `δ` of `P` is on the glass side. -/
structure MeasuredWithin (c : Cam) (P : V3) (t : ℝ × ℝ) (δ : ℝ) : Prop where
  sees : Sees c P
  error : |dot c.dm.c2 (P - c.pos)| / |c.cc| * imageDist (pinhole c.pos c.dm c.cc P) t ≤ δ
  around : ∀ Q : V3, (P - Q).norm ≤ δ → dot (Q - c.pos) c.glass < 0

theorem measured_ray {c : Cam} {mm : MM} {P : V3} {t : ℝ × ℝ} {δ : ℝ} (hmm : OneIndex mm) (h : MeasuredWithin c P t δ) :
    ∃ X Q, rayTracing t.1 t.2 c mm = some (X, (Q - c.pos).unit) ∧ OnLine X (Q - c.pos).unit Q ∧ (P - Q).norm ≤ δ ∧
      Q - c.pos ≠ 0 := by
  obtain ⟨Q, e1, e2, e3⟩ := exists_shifted h.sees t
  have hQ : Sees c Q := ⟨h.sees.rot, h.sees.cc, h.sees.glass, by rw [e2]; exact h.sees.front,
    h.around Q (by rw [e3]; exact h.error)⟩
  obtain ⟨-, X, h2, h3⟩ := trace_projection hQ hmm
  rw [e1] at h2
  refine ⟨X, Q, h2, h3, by rw [e3]; exact h.error, ?_⟩
  intro e
  have := hQ.front
  rw [e] at this
  simp [dot] at this

theorem crossing_unit {a b : V3} {σ : ℝ} (h : Crossing a b σ) : Crossing a.unit b.unit σ := by
  have ha := V3.norm_pos h.left
  have hb := V3.norm_pos h.right
  have na := V3.norm_unit h.left
  have nb := V3.norm_unit h.right
  refine ⟨fun e => ?_, fun e => ?_, ?_⟩
  · rw [e, V3.norm_eq_zero.2 rfl] at na; exact zero_ne_one na
  · rw [e, V3.norm_eq_zero.2 rfl] at nb; exact zero_ne_one nb
  · rw [na, nb]
    have e : dot a.unit b.unit = dot a b * (1 / (a.norm * b.norm)) := by
      rw [unit_of_ne h.left, unit_of_ne h.right]
      simp only [dot, smul_x, smul_y, smul_z]
      field_simp
    rw [e]
    have := h.angle
    rw [mul_pow, div_pow, one_pow, mul_one_div, div_le_iff₀ (by positivity)]
    linarith

/-- C128: in air (one refractive index). If every used camera (at least two) measured the image of `P` with an error that is at
most `δ` at the depth of `P`, and the lines from any two of the cameras to points within `δ` of `P` cross with an angle of sine at
least `σ`, then `point_position` is within `δ (1 + 2/σ)` of `P`, and the reported ray distance is at most `2 δ`. -/
theorem C128_measured (P : V3) (targets : List (ℝ × ℝ)) (numCams : ℕ) (mm : MM) (cals : List Cam)
    (hlen : numCams ≤ targets.length) (hmm : OneIndex mm) (δ σ : ℝ) (hσ : 0 < σ)
    (hmeas : ∀ cam < numCams, ∀ t, targets[cam]? = some t → t.1 ≠ coordUnused →
      ∃ c, cals[cam]? = some c ∧ MeasuredWithin c P t δ)
    (hcross : ∀ i j ci cj, i < j → cals[i]? = some ci → cals[j]? = some cj → i ∈ usedCams targets numCams →
      j ∈ usedCams targets numCams → ∀ Q R, (P - Q).norm ≤ δ → (P - R).norm ≤ δ → Crossing (Q - ci.pos) (R - cj.pos) σ)
    (htwo : 2 ≤ (usedCams targets numCams).card) :
    ∃ d M, pointPosition targets numCams mm cals = .ok (some (d, M)) ∧ 0 ≤ d ∧ d ≤ 2 * δ ∧
      (M - P).norm ≤ δ * (1 + 2 / σ) := by
  classical
  have key : ∀ cam, ∃ r : Ray, cam ∈ usedCams targets numCams →
      ∃ t c Q, targets[cam]? = some t ∧ cals[cam]? = some c ∧ rayTracing t.1 t.2 c mm = some r ∧
        OnLine r.1 r.2 Q ∧ r.2 = (Q - c.pos).unit ∧ (P - Q).norm ≤ δ := by
    intro cam
    by_cases hu : cam ∈ usedCams targets numCams
    · have hu' := hu
      simp only [usedCams, Finset.mem_filter, Finset.mem_range] at hu'
      obtain ⟨hlt, t, ht, hne⟩ := hu'
      obtain ⟨c, hc, hm⟩ := hmeas cam hlt t ht hne
      obtain ⟨X, Q, h1, h2, h3, -⟩ := measured_ray hmm hm
      exact ⟨_, fun _ => ⟨t, c, Q, ht, hc, h1, h2, rfl, h3⟩⟩
    · exact ⟨(0, 0), fun h => absurd h hu⟩
  choose ray hray using key
  refine C128_position_error targets numCams mm cals ray hlen ?_ P δ σ hσ ?_ ?_ htwo
  · intro cam hlt t ht hne
    obtain ⟨t', c, _, ht', hc, hr, -⟩ := hray cam (by
      simp only [usedCams, Finset.mem_filter, Finset.mem_range]; exact ⟨hlt, t, ht, hne⟩)
    rw [ht] at ht'; cases ht'
    exact ⟨c, hc, hr⟩
  · intro cam hu
    obtain ⟨_, _, Q, _, _, _, h, _, hd⟩ := hray cam hu
    exact ⟨Q, h, hd⟩
  · rintro ⟨i, j⟩ hij
    simp only [pairsOf, Finset.mem_filter, Finset.mem_product] at hij
    obtain ⟨_, ci, Q, _, hci, _, _, ei, ni⟩ := hray i hij.1.1
    obtain ⟨_, cj, R, _, hcj, _, _, ej, nj⟩ := hray j hij.1.2
    rw [ei, ej]
    exact crossing_unit (hcross i j ci cj hij.2 hci hcj hij.1.1 hij.1.2 Q R ni nj)

/-! Two cameras ten units above and ten apart, an image error of a thousandth in one of them. -/

theorem comp_le_norm (v : V3) : |v.x| ≤ v.norm ∧ |v.y| ≤ v.norm ∧ |v.z| ≤ v.norm := by
  have h := V3.norm_mul_self v
  have h0 := V3.norm_nonneg v
  refine ⟨abs_le_of_sq_le_sq ?_ h0, abs_le_of_sq_le_sq ?_ h0, abs_le_of_sq_le_sq ?_ h0⟩ <;> nlinarith [sq_nonneg v.x, sq_nonneg v.y, sq_nonneg v.z]

theorem ex_crossing {Q R : V3} (hQ : ((⟨5, 0, 0⟩ : V3) - Q).norm ≤ 1 / 100) (hR : ((⟨5, 0, 0⟩ : V3) - R).norm ≤ 1 / 100) :
    Crossing (Q - (exCam 0).pos) (R - (exCam 10).pos) (1 / 2) := by
  obtain ⟨q1, q2, q3⟩ := comp_le_norm ((⟨5, 0, 0⟩ : V3) - Q)
  obtain ⟨r1, r2, r3⟩ := comp_le_norm ((⟨5, 0, 0⟩ : V3) - R)
  simp only [sub_x, sub_y, sub_z] at q1 q2 q3 r1 r2 r3
  replace q1 := abs_le.1 (q1.trans hQ)
  replace q2 := abs_le.1 (q2.trans hQ)
  replace q3 := abs_le.1 (q3.trans hQ)
  replace r1 := abs_le.1 (r1.trans hR)
  replace r2 := abs_le.1 (r2.trans hR)
  replace r3 := abs_le.1 (r3.trans hR)
  refine ⟨fun e => ?_, fun e => ?_, ?_⟩
  · have := congrArg V3.z e
    simp [exCam] at this
    linarith [q3.1]
  · have := congrArg V3.z e
    simp [exCam] at this
    linarith [r3.1]
  · rw [norm_sq, norm_sq]
    have d1 : |dot (Q - (exCam 0).pos) (R - (exCam 10).pos)| ≤ 80 := by
      rw [abs_le]
      simp only [dot, exCam, sub_x, sub_y, sub_z]
      constructor <;> nlinarith
    have a1 : 120 ≤ dot (Q - (exCam 0).pos) (Q - (exCam 0).pos) := by
      simp only [dot, exCam, sub_x, sub_y, sub_z]; nlinarith [sq_nonneg Q.y]
    have b1 : 120 ≤ dot (R - (exCam 10).pos) (R - (exCam 10).pos) := by
      simp only [dot, exCam, sub_x, sub_y, sub_z]; nlinarith [sq_nonneg R.y]
    have := sq_le_sq' (by linarith [(abs_le.1 d1).1]) (abs_le.1 d1).2
    nlinarith

theorem ex_measured (x e : ℝ) (he : |e| ≤ 1 / 1000) : MeasuredWithin (exCam x) ⟨5, 0, 0⟩ ((5 - x) / 10 + e, 0) (1 / 100) where
  sees := exCam_sees x 5
  error := by
    have h := (trace_projection (exCam_sees x 5) exMM).1
    rw [exCam_proj] at h
    rw [← Option.some.inj h, imageDist]
    have e1 : (((5 - x) / 10 : ℝ) - ((5 - x) / 10 + e)) ^ 2 + (0 - 0) ^ 2 = e ^ 2 := by ring
    simp only [e1, Real.sqrt_sq_eq_abs]
    have e2 : |dot (exCam x).dm.c2 ((⟨5, 0, 0⟩ : V3) - (exCam x).pos)| / |(exCam x).cc| = 10 := by
      norm_num [exCam, dot, M3.c2, rotationMatrix]
    rw [e2]; linarith
  around := by
    intro Q hQ
    obtain ⟨-, -, q3⟩ := comp_le_norm ((⟨5, 0, 0⟩ : V3) - Q)
    simp only [sub_z] at q3
    replace q3 := abs_le.1 (q3.trans hQ)
    simp only [dot, exCam, sub_x, sub_y, sub_z]
    linarith [q3.1]

example : ∃ d M, pointPosition [(1 / 2 + 1 / 1000, 0), (coordUnused, 0), (-1 / 2, 0)] 3
    ⟨1, 1, [1], 1, [2]⟩ [exCam 0, exCam 0, exCam 10] = .ok (some (d, M)) ∧ 0 ≤ d ∧ d ≤ 2 * (1 / 100) ∧
      (M - ⟨5, 0, 0⟩).norm ≤ 1 / 100 * (1 + 2 / (1 / 2)) := by
  have hused : usedCams [(1 / 2 + 1 / 1000, 0), (coordUnused, 0), (-1 / 2, 0)] 3 = {0, 2} := by
    classical
    ext c
    simp only [usedCams, Finset.mem_filter, Finset.mem_range, IsUsed, Finset.mem_insert,
      Finset.mem_singleton]
    constructor
    · rintro ⟨hlt, t, ht, hne⟩
      match c, hlt with
      | 0, _ => simp
      | 1, _ => simp at ht; subst ht; exact absurd rfl hne
      | 2, _ => simp
    · rintro (rfl | rfl)
      · exact ⟨by norm_num, _, rfl, by norm_num [coordUnused]⟩
      · exact ⟨by norm_num, _, rfl, by norm_num [coordUnused]⟩
  refine C128_measured ⟨5, 0, 0⟩ _ _ _ _ (by simp) exMM _ _ (by norm_num) ?_ ?_ (by rw [hused]; rfl)
  · intro cam hlt t ht hne
    match cam, hlt with
    | 0, _ =>
      simp only [List.getElem?_cons_zero, Option.some.injEq] at ht; subst ht
      refine ⟨exCam 0, rfl, ?_⟩
      have := ex_measured 0 (1 / 1000) (by norm_num [abs_of_pos])
      norm_num at this ⊢; exact this
    | 1, _ => simp at ht; subst ht; exact absurd rfl hne
    | 2, _ =>
      simp only [List.getElem?_cons_succ, List.getElem?_cons_zero, Option.some.injEq] at ht; subst ht
      refine ⟨exCam 10, rfl, ?_⟩
      have := ex_measured 10 0 (by norm_num)
      norm_num at this ⊢; exact this
  · intro i j ci cj hij hci hcj hi hj Q R hQ hR
    rw [hused] at hi hj
    simp only [Finset.mem_insert, Finset.mem_singleton] at hi hj
    rcases hi with rfl | rfl <;> rcases hj with rfl | rfl <;> try omega
    simp at hci hcj
    subst hci hcj
    exact ex_crossing hQ hR

end Verif.Geo
