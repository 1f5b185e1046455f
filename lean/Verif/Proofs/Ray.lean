import Verif.Model.RayTracing
import Verif.Spec.Ray
import Mathlib.Tactic.NormNum
import Mathlib.Tactic.LinearCombination

namespace Verif.Geo
open V3 Spec

theorem V3.norm_eq_one {a : V3} : a.norm = 1 ↔ a.dot a = 1 := by
  rw [← norm_sq]
  constructor
  · intro h; rw [h]; norm_num
  · intro h
    have := norm_nonneg a
    nlinarith

/-- `unit w` scaled by the length of `w` is `w`, also for `w = 0`. -/
theorem unit_smul_norm (w : V3) (k : ℝ) : smul (unit w) (w.norm * k) = smul w k := by
  by_cases h : w = 0
  · subst h; rw [unit_zero, V3.norm_eq_zero.2 rfl]; ext <;> simp
  · have := norm_pos h
    rw [unit_of_ne h]
    ext <;> simp <;> field_simp

theorem tangential_dot {g a : V3} (hg : g.dot g = 1) : (tangential g a).dot g = 0 := by
  simp only [tangential, dot, sub_x, sub_y, sub_z, smul_x, smul_y, smul_z] at *
  linear_combination -(a.x * g.x + a.y * g.y + a.z * g.z) * hg

theorem tangential_norm_sq {g a : V3} (hg : g.dot g = 1) (ha : a.dot a = 1) :
    (tangential g a).norm ^ 2 = 1 - (a.dot g) ^ 2 := by
  rw [norm_sq]
  simp only [tangential, dot, sub_x, sub_y, sub_z, smul_x, smul_y, smul_z] at *
  linear_combination ha + (a.x * g.x + a.y * g.y + a.z * g.z) ^ 2 * hg

/-- The refraction step: it is the vector form of Snell's law, and the new direction points against
the glass normal. -/
theorem refractDir_spec {g u : V3} {na nb : ℝ} (hg : g.dot g = 1) (hu : u.dot u = 1)
    (hb : 0 < nb) (hna : 0 ≤ na) (hno : (tangential g u).norm * na ≤ nb) :
    let r := refractDir g (tangential g u) (u.dot g) na nb
    Snell g na nb u r.1 ∧ r.1.dot g = r.2 ∧ r.2 ≤ 0 ∧
      r.2 ^ 2 = 1 - ((tangential g u).norm * na / nb) ^ 2 ∧
      tangential g r.1 = smul (tangential g u) (na / nb) := by
  intro r
  set w := tangential g u with hw
  have hwg : w.dot g = 0 := tangential_dot hg
  have hsq : Real.sqrt (1 - (u.dot g) ^ 2) = w.norm := by
    rw [← tangential_norm_sq hg hu, Real.sqrt_sq (norm_nonneg _)]
  have hr : r = (smul w (na / nb) + smul g (-Real.sqrt (1 - (w.norm * na / nb) ^ 2)),
      -Real.sqrt (1 - (w.norm * na / nb) ^ 2)) := by
    simp only [r, refractDir, hsq]
    rw [show w.norm * na / nb = w.norm * (na / nb) by ring, unit_smul_norm]
  have hp : (w.norm * na / nb) ^ 2 ≤ 1 := by
    have h0 : 0 ≤ w.norm * na / nb := div_nonneg (mul_nonneg (norm_nonneg _) hna) hb.le
    have h1 : w.norm * na / nb ≤ 1 := by rw [div_le_one hb]; exact hno
    nlinarith
  set q := Real.sqrt (1 - (w.norm * na / nb) ^ 2) with hq
  have hqq : q ^ 2 = 1 - (w.norm * na / nb) ^ 2 := Real.sq_sqrt (by linarith)
  have hq0 : 0 ≤ q := Real.sqrt_nonneg _
  have hdot : r.1.dot g = -q := by
    rw [hr]
    simp only [dot, add_x, add_y, add_z, smul_x, smul_y, smul_z] at *
    linear_combination (na / nb) * hwg - q * hg
  have htan : tangential g r.1 = smul w (na / nb) := by
    rw [tangential, hdot, hr]; ext <;> simp
  refine ⟨⟨V3.norm_eq_one.2 hu, ?_, ?_⟩, by rw [hdot, hr], by rw [hr]; simp [hq0], ?_, htan⟩
  · rw [V3.norm_eq_one, hr]
    have hww : w.dot w = w.norm ^ 2 := (norm_sq w).symm
    simp only [dot, add_x, add_y, add_z, smul_x, smul_y, smul_z] at *
    have : q ^ 2 = 1 - w.norm ^ 2 * (na / nb) ^ 2 := by rw [hqq]; ring
    linear_combination (na / nb) ^ 2 * hww + q ^ 2 * hg + this - 2 * q * (na / nb) * hwg
  · rw [htan, ← hw]
    ext <;> simp only [smul_x, smul_y, smul_z] <;> field_simp
  · rw [hr]; simp only [neg_sq, hqq]

/-- With equal indices a ray towards the glass is not bent. -/
theorem refractDir_same {g u : V3} {n : ℝ} (hg : g.dot g = 1) (hu : u.dot u = 1) (hn : 0 < n)
    (hdir : u.dot g ≤ 0) : (refractDir g (tangential g u) (u.dot g) n n).1 = u := by
  have hwle : (tangential g u).norm ≤ 1 := by
    have h1 := tangential_norm_sq hg hu
    have := norm_nonneg (tangential g u)
    nlinarith [sq_nonneg (u.dot g)]
  obtain ⟨-, h2, h3, h4, h5⟩ := refractDir_spec (na := n) (nb := n) hg hu hn hn.le
    (by nlinarith)
  set r := refractDir g (tangential g u) (u.dot g) n n
  have e : r.1.dot g = u.dot g := by
    rw [h2]
    have : r.2 ^ 2 = (u.dot g) ^ 2 := by
      rw [h4]
      have h1 := tangential_norm_sq hg hu
      rw [mul_div_assoc, div_self hn.ne', mul_one, h1]; ring
    nlinarith
  have h6 : tangential g r.1 = tangential g u := by
    rw [h5, div_self hn.ne']; ext <;> simp
  rw [tangential, tangential, e] at h6
  have hx := congrArg V3.x h6
  have hy := congrArg V3.y h6
  have hz := congrArg V3.z h6
  simp only [sub_x, sub_y, sub_z, smul_x, smul_y, smul_z] at hx hy hz
  ext <;> linarith

/-- The unit vector along `v` is determined by being a unit vector and a positive multiple. -/
theorem unit_unique {v g : V3} {L : ℝ} (hL : 0 < L) (hg : g.norm = 1) (h : v = g.smul L) :
    v.unit = g ∧ v.norm = L := by
  have hn : v.norm = L := by rw [h, norm_smul, hg, abs_of_pos hL, one_mul]
  have hne : v ≠ 0 := fun e => by
    rw [e, V3.norm_eq_zero.2 rfl] at hn; linarith
  refine ⟨?_, hn⟩
  rw [unit_of_ne hne, hn, h]
  ext <;> simp <;> field_simp

theorem mulVec_smul (m : M3) (v : V3) (s : ℝ) : m.mulVec (v.smul s) = (m.mulVec v).smul s := by
  ext <;> simp [M3.mulVec, dot] <;> ring

/-- Everything about `fast_ray_tracing` for a ray that is not parallel to the glass. -/
theorem fastRayTracing_spec {i : V3} {dm : M3} {pos glass g dir : V3} {d n1 n2 n3 L : ℝ}
    (hL : 0 < L) (hg : g.norm = 1) (hglass : glass = g.smul L)
    (hdir : dm.mulVec i.unit = dir) (hdirn : dir.norm = 1) (hnp : dir.dot g ≠ 0)
    (h1 : 0 < n1) (h2 : 0 < n2) (h3 : 0 < n3)
    (ht2 : (tangential g dir).norm * n1 < n2) (ht3 : (tangential g dir).norm * n1 < n3) :
    ∃ Xb a2 X out, fastRayTracing i dm pos glass d n1 n2 n3 = (X, out) ∧
      Xb = pos + dir.smul ((L + d - pos.dot g) / dir.dot g) ∧ Xb.dot g = L + d ∧
      Snell g n1 n2 dir a2 ∧ a2.dot g < 0 ∧
      X = Xb + a2.smul (d / -a2.dot g) ∧ X.dot g = L ∧
      Snell g n2 n3 a2 out ∧ out.dot g < 0 ∧
      a2 = (refractDir g (tangential g dir) (dir.dot g) n1 n2).1 ∧
      out = (refractDir g (tangential g a2) (a2.dot g) n2 n3).1 := by
  have hgg := V3.norm_eq_one.1 hg
  have hdd := V3.norm_eq_one.1 hdirn
  obtain ⟨hu, hn⟩ := unit_unique hL hg hglass
  obtain ⟨q1, q2, q3, q4, q5⟩ := refractDir_spec (na := n1) (nb := n2) hgg hdd h2 h1.le ht2.le
  set r := refractDir g (tangential g dir) (dir.dot g) n1 n2 with hr
  have hlt : r.1.dot g < 0 := by
    rw [q2]
    refine lt_of_le_of_ne q3 (fun e => ?_)
    rw [e] at q4
    have h0 : 0 ≤ (tangential g dir).norm * n1 / n2 :=
      div_nonneg (mul_nonneg (norm_nonneg _) h1.le) h2.le
    have : (tangential g dir).norm * n1 / n2 < 1 := by rw [div_lt_one h2]; exact ht2
    nlinarith
  have haa := V3.norm_eq_one.1 q1.2.1
  have htn : (tangential g r.1).norm * n2 = (tangential g dir).norm * n1 := by
    rw [q5, norm_smul, abs_of_pos (div_pos h1 h2)]; field_simp
  obtain ⟨p1, p2, p3, p4, p5⟩ := refractDir_spec (na := n2) (nb := n3) hgg haa h3 h2.le
    (by rw [htn]; exact ht3.le)
  set o := refractDir g (tangential g r.1) (r.1.dot g) n2 n3 with ho
  have holt : o.1.dot g < 0 := by
    rw [p2]
    refine lt_of_le_of_ne p3 (fun e => ?_)
    rw [e, htn] at p4
    have h0 : 0 ≤ (tangential g dir).norm * n1 / n3 :=
      div_nonneg (mul_nonneg (norm_nonneg _) h1.le) h3.le
    have : (tangential g dir).norm * n1 / n3 < 1 := by rw [div_lt_one h3]; exact ht3
    nlinarith
  have hXb : (pos + dir.smul ((L + d - pos.dot g) / dir.dot g)).dot g = L + d := by
    have : ∀ t, (pos + dir.smul t).dot g = pos.dot g + t * dir.dot g := by
      intro t; simp only [dot, add_x, add_y, add_z, smul_x, smul_y, smul_z]; ring
    rw [this]; field_simp; ring
  refine ⟨pos + dir.smul ((L + d - pos.dot g) / dir.dot g), r.1, _, o.1, ?_, rfl, hXb, q1, hlt,
    rfl, ?_, p1, holt, rfl, rfl⟩
  · simp only [fastRayTracing, hdir, hu, hn]
    rw [dot_comm g dir, dot_comm g pos, if_neg hnp]
    rw [show dir - smul g (dir.dot g) = tangential g dir from rfl, ← hr, dot_comm g r.1,
      if_neg (by simpa using hlt.ne), abs_of_neg hlt, ← q2,
      show r.1 - smul g (r.1.dot g) = tangential g r.1 from rfl, ← ho]
    congr 4
    ring
  · have : ∀ (P : V3) t, (P + r.1.smul t).dot g = P.dot g + t * r.1.dot g := by
      intro P t; simp only [dot, add_x, add_y, add_z, smul_x, smul_y, smul_z]; ring
    rw [this, hXb]
    have := hlt.ne
    field_simp; ring

end Verif.Geo
