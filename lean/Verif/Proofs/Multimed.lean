import Verif.Model.Multimed
import Verif.Spec.Multimed
import Verif.Proofs.Ray

namespace Verif.Geo
open V3 Spec

/-- `trans_cam_point` in terms of the unit normal and the glass distance. -/
theorem transCamPoint_eq {C glass P g : V3} {d L : ℝ} (hL : 0 < L) (hg : g.norm = 1)
    (hglass : glass = g.smul L) :
    transCamPoint C d glass P =
      (⟨((P - g.smul (P.dot g)) - (C - g.smul (C.dot g))).norm, 0, P.dot g - L⟩,
        P - g.smul (P.dot g - L), C - g.smul (C.dot g - L - d), C.dot g - L) := by
  obtain ⟨-, hn⟩ := unit_unique hL hg hglass
  have hdot : ∀ Q : V3, Q.dot glass / L = Q.dot g := by
    intro Q; rw [hglass]; simp only [dot, smul_x, smul_y, smul_z]; field_simp
  have hsm : ∀ a, smul glass (a / L) = smul g a := by
    intro a; rw [hglass]; ext <;> simp <;> field_simp
  simp only [transCamPoint, hn, if_neg hL.ne', hdot, hsm]
  refine Prod.ext ?_ (Prod.ext rfl (Prod.ext rfl ?_))
  · ext
    · simp only
      congr 1
      ext <;> simp <;> ring
    · rfl
    · rfl
  · simp

theorem backTransPoint_eq {glass g crossC crossP : V3} {d L R y Z : ℝ} (hL : 0 < L)
    (hg : g.norm = 1) (hglass : glass = g.smul L) :
    backTransPoint glass d crossC crossP ⟨R, y, Z⟩ =
      crossC - g.smul d + g.smul Z +
        (crossP - (crossC - g.smul d)).smul (R / (crossP - (crossC - g.smul d)).norm) := by
  obtain ⟨-, hn⟩ := unit_unique hL hg hglass
  have hsm : ∀ a, smul glass (a / L) = smul g a := by
    intro a; rw [hglass]; ext <;> simp <;> field_simp
  simp only [backTransPoint, hn, hsm]
  set t := crossP - (crossC - g.smul d)
  split_ifs with h
  · ext <;> simp <;> ring
  · have : t.norm = 0 := le_antisymm (not_lt.1 h) (norm_nonneg _)
    rw [this]
    have := V3.norm_eq_zero.1 this
    rw [this]
    ext <;> simp

end Verif.Geo
