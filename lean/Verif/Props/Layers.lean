/-
C134: several layers of glass.
-/
import Verif.Model.Layers
import Verif.Spec.Layers
import Verif.Props.Projection

namespace Verif.Geo
open V3 Spec

theorem rBeta_stack (n1 n2 n3 : ℝ) (a : ℝ) (l : List ℝ) (z0 Z zdiff rq : ℝ) :
    rBeta n1 n2 n3 (a :: l) z0 (Z + l.sum) zdiff rq
      = rBeta n1 n2 n3 [a + l.sum] (z0 + l.sum) (Z + l.sum) zdiff rq := by
  have h : ∀ (l : List ℝ) (t : ℝ), (l.map (· * t)).sum = l.sum * t := by
    intro l t
    induction l with
    | nil => simp
    | cons x l ih => simp only [List.map_cons, List.sum_cons, ih]; ring
  simp only [rBeta, List.headD_cons, h, List.sum_cons, List.sum_nil]
  ring

theorem radialLoop_stack (n1 n2 n3 : ℝ) (a : ℝ) (l : List ℝ) (z0 Z zdiff r : ℝ) (k : ℕ) (rq rdiff : ℝ) :
    radialLoop n1 n2 n3 (a :: l) z0 (Z + l.sum) zdiff r k rq rdiff
      = radialLoop n1 n2 n3 [a + l.sum] (z0 + l.sum) (Z + l.sum) zdiff r k rq rdiff := by
  induction k generalizing rq rdiff with
  | zero => rfl
  | succ k ih => simp only [radialLoop, rBeta_stack, ih]

/-- The shift through a stack of one index is the shift through one plate of the total thickness, heights counted from the inner
face of the stack. -/
theorem fastMultimed_stack (n1 n2 n3 : ℝ) (a : ℝ) (l : List ℝ) (x0 y0 z0 : ℝ) (x y Z : ℝ) :
    fastMultimedRNlay (l.length + 1) n1 n2 n3 (a :: l) x0 y0 z0 ⟨x, y, Z⟩
      = fastMultimedRNlay 1 n1 n2 n3 [a + l.sum] x0 y0 (z0 + l.sum) ⟨x, y, Z + l.sum⟩ := by
  have hz : z0 + l.sum - (Z + l.sum) = z0 - Z := by ring
  simp only [fastMultimedRNlay, List.tail_cons, Nat.add_sub_cancel, List.take_length, List.take_nil, List.sum_nil, add_zero, hz,
    radialLoop_stack]

/-- C134, the part that holds: through any number of layers of one refractive index, with the number of layers stated rightly, the
radius that comes out of the iteration is the exact apparent radius, up to the accuracy of C58. -/
theorem C134_stack_accuracy_partial (n1 n2 n3 : ℝ) (ds : List ℝ) (x0 y0 z0 r rs : ℝ) (pos : V3) (h1 : 0 < n1) (h12 : n1 ≤ n2)
    (h13 : n1 ≤ n3) (hne : ds ≠ []) (hd : ∀ d ∈ ds, 0 ≤ d) (hZ : pos.z + ds.tail.sum ≤ 0) (hz0 : ds.headD 0 < z0)
    (hr : r = Real.sqrt ((pos.x - x0) ^ 2 + (pos.y - y0) ^ 2))
    (hrs : ApparentStack n1 (ds.map fun d => (n2, d)) n3 z0 pos.z r rs) :
    |r * fastMultimedRNlay ds.length n1 n2 n3 ds x0 y0 z0 pos - rs|
      ≤ (ds.headD 0 - pos.z) / (z0 - ds.headD 0) * max 0.001 (((ds.headD 0 - pos.z) / (z0 - pos.z)) ^ 40 * r) := by
  obtain ⟨a, l, rfl⟩ := List.exists_cons_of_ne_nil hne
  obtain ⟨tn, htn, hsn, hrad, happ⟩ := hrs
  have hsum : ∀ (l : List ℝ), ((l.map fun d => (n2, d)).map fun p : ℝ × ℝ => p.2 * tn p.1).sum = l.sum * tn n2 := by
    intro l
    induction l with
    | nil => simp
    | cons x l ih => simp only [List.map_cons, List.sum_cons, ih]; ring
  have hsnd : ∀ l : List ℝ, (l.map fun d => (n2, d)).map Prod.snd = l := by
    intro l; simp [List.map_map, Function.comp_def]
  rw [hsum, hsnd] at hrad
  simp only [List.headD_cons, List.tail_cons, List.sum_cons] at hrad hZ hz0 ⊢
  have hl : 0 ≤ l.sum := List.sum_nonneg fun d h => hd d (List.mem_cons_of_mem _ h)
  have ha : 0 ≤ a := hd a (List.mem_cons_self ..)
  have hA : ApparentRadius n1 n2 n3 (a + l.sum) (z0 + l.sum) (pos.z + l.sum) r rs :=
    ⟨tn n1, tn n2, tn n3, htn _, htn _, htn _, hsn n2 (by simp), hsn n3 (by simp), by rw [hrad]; ring, by rw [happ]; ring⟩
  have := C58_radial_accuracy n1 n2 n3 (a + l.sum) x0 y0 (z0 + l.sum) r rs ⟨pos.x, pos.y, pos.z + l.sum⟩ h1 h12 h13
    (by linarith) hZ (by linarith) hr hA
  have hcong := fastMultimed_stack n1 n2 n3 a l x0 y0 z0 pos.x pos.y pos.z
  rw [← hcong] at this
  simp only [show a + l.sum - (pos.z + l.sum) = a - pos.z by ring, show z0 + l.sum - (a + l.sum) = z0 - a by ring,
    show z0 + l.sum - (pos.z + l.sum) = z0 - pos.z by ring] at this
  exact this

/-- A stack of two plates of 4 and 8 mm, index 4/3, between air and air: a point 73 mm off the axis appears at 80 mm. -/
theorem twoPlates_apparent : ApparentStack 1 ([4, 8].map fun d => (4 / 3, d)) 1 34 (-26) 73 80 := by
  have hs1 : Real.sqrt (1 + (4 / 3) ^ 2) = 5 / 3 := by
    rw [show (1 : ℝ) + (4 / 3) ^ 2 = (5 / 3) ^ 2 by norm_num, Real.sqrt_sq (by norm_num)]
  have hs2 : Real.sqrt (1 + (3 / 4) ^ 2) = 5 / 4 := by
    rw [show (1 : ℝ) + (3 / 4) ^ 2 = (5 / 4) ^ 2 by norm_num, Real.sqrt_sq (by norm_num)]
  have h43 : (4 / 3 : ℝ) ≠ 1 := by norm_num
  refine ⟨fun n => if n = 1 then 4 / 3 else 3 / 4, ?_, ?_, ?_, ?_⟩
  · intro n
    show (0 : ℝ) ≤ if n = 1 then 4 / 3 else 3 / 4
    split_ifs <;> norm_num
  · intro n hn
    simp only [List.map_cons, List.map_nil, List.mem_cons, List.not_mem_nil, or_false] at hn
    rcases hn with rfl | rfl | rfl
    · rfl
    · simp only [if_true, if_neg h43, hs1, hs2]; norm_num
    · simp only [if_true, if_neg h43, hs1, hs2]; norm_num
  · simp only [List.map_cons, List.map_nil, List.headD_cons, List.tail_cons, List.sum_cons, List.sum_nil, if_true, if_neg h43]
    norm_num
  · simp only [if_true]; norm_num

example : |73 * fastMultimedRNlay 2 1 (4 / 3) 1 [4, 8] 0 0 34 ⟨73, 0, -26⟩ - 80| ≤ 0.001 := by
  have := C134_stack_accuracy_partial 1 (4 / 3) 1 [4, 8] 0 0 34 73 80 ⟨73, 0, -26⟩ (by norm_num) (by norm_num) (by norm_num)
    (by simp) (by simp) (by norm_num) (by norm_num)
    (by norm_num; rw [show (5329 : ℝ) = 73 ^ 2 by norm_num, Real.sqrt_sq (by norm_num)]) twoPlates_apparent
  refine this.trans ?_
  have h : max (0.001 : ℝ) (((([4, 8] : List ℝ).headD 0 - -26) / (34 - -26)) ^ 40 * 73) = 0.001 := by
    apply max_eq_left
    norm_num
  rw [h]
  norm_num

/-- The glass vector of a window that is `T` nearer to the origin. -/
noncomputable def nearer (glass : V3) (T : ℝ) : V3 := smul glass ((V3.norm glass - T) / V3.norm glass)

theorem nearer_norm (g : V3) (T : ℝ) (h : T < V3.norm g) (h0 : 0 ≤ T) : V3.norm (nearer g T) = V3.norm g - T := by
  have hg : 0 < V3.norm g := lt_of_le_of_lt h0 h
  rw [nearer, V3.norm_smul, abs_of_pos (div_pos (by linarith) hg)]
  field_simp

theorem nearer_dot (p g : V3) (T : ℝ) (h : T < V3.norm g) (h0 : 0 ≤ T) :
    dot p (nearer g T) / (V3.norm g - T) = dot p g / V3.norm g := by
  have hg : 0 < V3.norm g := lt_of_le_of_lt h0 h
  have hT : V3.norm g - T ≠ 0 := by linarith
  simp only [nearer, dot, smul_x, smul_y, smul_z]
  field_simp

theorem nearer_smul (g : V3) (T k : ℝ) (h : T < V3.norm g) (h0 : 0 ≤ T) :
    smul (nearer g T) (k / (V3.norm g - T)) = smul g (k / V3.norm g) := by
  have hg : 0 < V3.norm g := lt_of_le_of_lt h0 h
  have hT : V3.norm g - T ≠ 0 := by linarith
  ext <;> simp only [nearer, smul_x, smul_y, smul_z] <;> field_simp

theorem trans_stack (p pos g : V3) (a T : ℝ) (h : T < V3.norm g) (h0 : 0 ≤ T) :
    transCamPoint p (a + T) (nearer g T) pos =
      let t := transCamPoint p a g pos
      (⟨t.1.x, 0, t.1.z + T⟩, t.2.1 - smul g (T / V3.norm g), t.2.2.1, t.2.2.2 + T) := by
  have hg : 0 < V3.norm g := lt_of_le_of_lt h0 h
  have hT : V3.norm g - T ≠ 0 := by linarith
  have e1 : dot p g / V3.norm g - (V3.norm g - T) - (a + T) = dot p g / V3.norm g - V3.norm g - a := by ring
  have e2 : dot pos g / V3.norm g - (V3.norm g - T) = dot pos g / V3.norm g - V3.norm g + T := by ring
  simp only [transCamPoint, nearer_norm g T h h0, if_neg hT, if_neg hg.ne', nearer_dot _ g T h h0, nearer_smul g T _ h h0, e1, e2]
  have e3 : ∀ k : ℝ, pos - smul g ((k + T) / V3.norm g) = pos - smul g (k / V3.norm g) - smul g (T / V3.norm g) := by
    intro k; ext <;> simp <;> ring
  have e4 : ∀ u v : V3, u - smul g (T / V3.norm g) - (v - smul g ((a + T) / V3.norm g)) = u - (v - smul g (a / V3.norm g)) := by
    intro u v; ext <;> simp <;> ring
  rw [e3, e4]
  refine Prod.ext rfl (Prod.ext rfl (Prod.ext rfl ?_))
  ring

theorem back_stack (g crossC crossP : V3) (a T x Z : ℝ) (h : T < V3.norm g) (h0 : 0 ≤ T) :
    backTransPoint (nearer g T) (a + T) crossC (crossP - smul g (T / V3.norm g)) ⟨x, 0, Z + T⟩
      = backTransPoint g a crossC crossP ⟨x, 0, Z⟩ := by
  have e4 : crossP - smul g (T / V3.norm g) - (crossC - smul g ((a + T) / V3.norm g)) = crossP - (crossC - smul g (a / V3.norm g)) := by
    ext <;> simp <;> ring
  have e5 : crossC - smul g ((a + T) / V3.norm g) - smul g (-(Z + T) / V3.norm g)
      = crossC - smul g (a / V3.norm g) - smul g (-Z / V3.norm g) := by ext <;> simp <;> ring
  simp only [backTransPoint, nearer_norm g T h h0, nearer_smul g T _ h h0, e4, e5]

/-- C134, the part that holds, for images: through any number of layers of one refractive index (not all media air), number of
layers stated rightly, a camera without table sees every point where it sees it through one window of the total thickness, whose
inner face is the inner face of the last layer. -/
theorem C134_one_window_partial (n1 n2 n3 a : ℝ) (ds l : List ℝ) (pos : V3) (cal : Cam) (hd : 0 ≤ ds.sum)
    (hg : ds.sum < V3.norm cal.glass) (hn : ¬ (n1 = 1 ∧ n2 = 1 ∧ n3 = 1)) :
    imgCoord pos cal emptyLUT ⟨ds.length + 1, n1, n2 :: l, n3, a :: ds⟩
      = imgCoord pos { cal with glass := smul cal.glass ((V3.norm cal.glass - ds.sum) / V3.norm cal.glass) } emptyLUT
          ⟨1, n1, [n2], n3, [a + ds.sum]⟩ := by
  have hy : (transCamPoint cal.pos a cal.glass pos).1.y = 0 := rfl
  have ht := trans_stack cal.pos pos cal.glass a ds.sum hg hd
  rw [nearer] at ht
  have hf : flatImageCoord pos cal emptyLUT ⟨ds.length + 1, n1, n2 :: l, n3, a :: ds⟩
      = flatImageCoord pos { cal with glass := smul cal.glass ((V3.norm cal.glass - ds.sum) / V3.norm cal.glass) } emptyLUT
          ⟨1, n1, [n2], n3, [a + ds.sum]⟩ := by
    have hn1 : ¬ (n1 = 1 ∧ ds.length + 1 = 1 ∧ n2 = 1 ∧ n3 = 1) := fun h => hn ⟨h.1, h.2.2⟩
    have hn2 : ¬ (n1 = 1 ∧ True ∧ n2 = 1 ∧ n3 = 1) := fun h => hn ⟨h.1, h.2.2⟩
    simp only [flatImageCoord, ht, multimedNlay, multimedRNlay, projLUT, emptyLUT, if_neg hn1]
    simp only [if_neg hn2, and_self, not_true, if_false, Option.bind_eq_bind, Option.bind_some, sub_zero, zero_add, zero_mul, hy]
    have hs := fastMultimed_stack n1 n2 n3 a ds 0 0 (transCamPoint cal.pos a cal.glass pos).2.2.2
      (transCamPoint cal.pos a cal.glass pos).1.x 0 (transCamPoint cal.pos a cal.glass pos).1.z
    rw [← hs]
    have hb := back_stack cal.glass (transCamPoint cal.pos a cal.glass pos).2.2.1 (transCamPoint cal.pos a cal.glass pos).2.1 a ds.sum
      ((transCamPoint cal.pos a cal.glass pos).1.x * fastMultimedRNlay (ds.length + 1) n1 n2 n3 (a :: ds) 0 0
        (transCamPoint cal.pos a cal.glass pos).2.2.2
        ⟨(transCamPoint cal.pos a cal.glass pos).1.x, 0, (transCamPoint cal.pos a cal.glass pos).1.z⟩)
      (transCamPoint cal.pos a cal.glass pos).1.z hg hd
    rw [nearer] at hb
    rw [hb]
    rfl
  simp only [imgCoord, hf]

/-- Two panes of 6 mm in front of water, 100 mm from the origin. -/
example : (0 : ℝ) ≤ [6].sum ∧ [6].sum < V3.norm ⟨0, 0, 100⟩ ∧ ¬ ((1 : ℝ) = 1 ∧ (1.5 : ℝ) = 1 ∧ (1.33 : ℝ) = 1) := by
  have : V3.norm ⟨0, 0, 100⟩ = 100 := by
    rw [V3.norm, show (0 * 0 + 0 * 0 + 100 * 100 : ℝ) = 100 * 100 by norm_num, Real.sqrt_mul_self (by norm_num)]
  rw [this]
  norm_num

/-! ### Setting layers -/

/-- C134: after `set_layers` the getters return what was set and what was there before; lists of different lengths are refused.
The number of layers is not among what is set: see `C134_number_refuted`. -/
theorem C134_set_layers_partial (mm : MM) (refr thick : List ℝ) :
    (refr.length = thick.length → ∃ mm', mm.setLayers refr thick = .ok mm' ∧
      mm'.getters = (mm.nlay, mm.n1, refr, mm.n3, thick)) ∧
    (refr.length ≠ thick.length → mm.setLayers refr thick = .error .valueError) :=
  ⟨fun h => ⟨⟨mm.nlay, mm.n1, refr, mm.n3, thick⟩, by simp [MM.setLayers, h], rfl⟩, fun h => by simp [MM.setLayers, h]⟩

/-- C134: the constructor keeps what it is given and refuses lists of different lengths; without arguments there is one layer of
thickness 0 and index 1, between media of index 1. -/
theorem C134_constructor (nlay : ℕ) (n1 n3 : ℝ) (n2 d : List ℝ) :
    (n2.length = d.length → ∃ mm, MM.new nlay n1 n2 d n3 = .ok mm ∧ mm.getters = (nlay, n1, n2, n3, d)) ∧
    (n2.length ≠ d.length → MM.new nlay n1 n2 d n3 = .error .valueError) ∧
    MM.default.getters = (1, 1, [1], 1, [0]) :=
  ⟨fun h => ⟨⟨nlay, n1, n2, n3, d⟩, by simp [MM.new, h], rfl⟩, fun h => by simp [MM.new, h], rfl⟩

/-- `set_n1`, `set_n3` set one value each. -/
theorem C134_set_indices (mm : MM) (x : ℝ) : (mm.setN1 x).getters = (mm.nlay, x, mm.n2, mm.n3, mm.d) ∧
    (mm.setN3 x).getters = (mm.nlay, mm.n1, mm.n2, x, mm.d) := ⟨rfl, rfl⟩

/-- C134 is false for the number of layers: whatever is set, `get_nlay` answers what it answered before. -/
theorem C134_number_refuted (mm mm' : MM) (refr thick : List ℝ) (hne : refr.length ≠ mm.nlay)
    (h : mm.setLayers refr thick = .ok mm') : mm'.getters.1 ≠ mm'.getters.2.2.1.length := by
  simp only [MM.setLayers] at h
  split_ifs at h with hl
  obtain rfl := Except.ok.inj h
  exact fun hh => hne hh.symm

example : ∃ mm', MM.default.setLayers [1.5, 1.3] [6, 2] = .ok mm' ∧ mm'.getters.1 = 1 ∧ mm'.getters.2.2.1.length = 2 :=
  ⟨⟨1, 1, [1.5, 1.3], 1, [6, 2]⟩, by simp [MM.setLayers, MM.default], rfl, rfl⟩

/-- In particular, plates set on default parameters, the first one with index 1, are not seen at all: every point is imaged as in
air, whatever the other plates are. -/
theorem C134_unseen_refuted (mm' : MM) (refr thick : List ℝ) (h : MM.default.setLayers (1 :: refr) thick = .ok mm')
    (pos : V3) (cal : Cam) (lut : LUT) :
    imgCoord pos cal lut mm' = imgCoord pos cal lut ⟨1, 1, [1], 1, thick⟩ ∧
    ∀ x0 y0 z0 p, multimedRNlay lut x0 y0 z0 mm' p = some 1 := by
  simp only [MM.setLayers] at h
  split_ifs at h with hl
  obtain rfl := Except.ok.inj h
  exact ⟨rfl, fun x0 y0 z0 p => by simp [multimedRNlay, MM.default]⟩

/-! ### What the further layers do -/

/-- C134 is false for layers of different index: the image of a point does not depend on the index of any layer but the first. -/
theorem C134_index_ignored_refuted (nlay : ℕ) (n1 a n3 : ℝ) (l l' d : List ℝ) (pos : V3) (cal : Cam) (lut : LUT) :
    imgCoord pos cal lut ⟨nlay, n1, a :: l, n3, d⟩ = imgCoord pos cal lut ⟨nlay, n1, a :: l', n3, d⟩ := rfl

/-- A plate of 4 mm that refracts like air and one of 8 mm with index 4/3: a point 75.33 mm off the axis
appears at 80 mm; what the program computes is 75.33 mm, as without any glass. -/
theorem C134_index_refuted : ApparentStack 1 [(1, 4), (4 / 3, 8)] 1 34 (-26) (226 / 3) 80 ∧
    (226 / 3) * fastMultimedRNlay 2 1 1 1 [4, 8] 0 0 34 ⟨226 / 3, 0, -26⟩ = 226 / 3 := by
  have hs1 : Real.sqrt (1 + (4 / 3) ^ 2) = 5 / 3 := by
    rw [show (1 : ℝ) + (4 / 3) ^ 2 = (5 / 3) ^ 2 by norm_num, Real.sqrt_sq (by norm_num)]
  have hs2 : Real.sqrt (1 + (3 / 4) ^ 2) = 5 / 4 := by
    rw [show (1 : ℝ) + (3 / 4) ^ 2 = (5 / 4) ^ 2 by norm_num, Real.sqrt_sq (by norm_num)]
  have h43 : (4 / 3 : ℝ) ≠ 1 := by norm_num
  constructor
  · refine ⟨fun n => if n = 1 then 4 / 3 else 3 / 4, ?_, ?_, ?_, ?_⟩
    · intro n
      show (0 : ℝ) ≤ if n = 1 then 4 / 3 else 3 / 4
      split_ifs <;> norm_num
    · intro n hn
      simp only [List.map_cons, List.map_nil, List.mem_cons, List.not_mem_nil, or_false] at hn
      rcases hn with rfl | rfl | rfl
      · rfl
      · rfl
      · simp only [if_true, if_neg h43, hs1, hs2]; norm_num
    · simp only [List.map_cons, List.map_nil, List.headD_cons, List.tail_cons, List.sum_cons, List.sum_nil, if_true, if_neg h43]
      norm_num
    · simp only [if_true]; norm_num
  · have hn : norm2 (226 / 3 - 0) (0 - 0) = 226 / 3 := by
      rw [norm2, sub_zero, sub_zero, mul_zero, add_zero, Real.sqrt_mul_self (by norm_num)]
    have hb : rBeta 1 1 1 [4, 8] 34 (-26 + 8) 60 (226 / 3) = 226 / 3 := by
      have h1 := Real.neg_pi_div_two_lt_arctan (226 / 3 / 60)
      have h2 := Real.arctan_lt_pi_div_two (226 / 3 / 60)
      simp only [rBeta, mul_one, div_one, Real.arcsin_sin h1.le h2.le, Real.tan_arctan, List.headD_cons, List.map_cons,
        List.map_nil, List.sum_cons, List.sum_nil]
      norm_num
    have hl : radialLoop 1 1 1 [4, 8] 34 (-26 + 8) 60 (226 / 3) 40 (226 / 3) 0.1 = 226 / 3 := by
      rw [radialLoop, if_pos (by norm_num [abs_of_pos])]
      simp only [hb, sub_self, add_zero]
      rw [radialLoop, if_neg (by norm_num)]
    have hz : (34 - -26 : ℝ) = 60 := by norm_num
    simp only [fastMultimedRNlay, hn, hz, List.tail_cons, Nat.add_one_sub_one, List.take_succ_cons, List.take_zero,
      List.sum_cons, List.sum_nil, add_zero]
    rw [if_neg (by norm_num)]
    norm_num at hl ⊢
    rw [hl]
    norm_num

/-- The line of sight does not depend on any layer but the first one, nor on the number of layers. -/
theorem C134_sight_ignores_refuted (nlay nlay' : ℕ) (n1 a n3 d : ℝ) (l ds : List ℝ) (x y : ℝ) (cal : Cam) :
    rayTracing x y cal ⟨nlay, n1, a :: l, n3, d :: ds⟩ = rayTracing x y cal ⟨nlay', n1, [a], n3, [d]⟩ := rfl

theorem nrm_x (x : ℝ) : V3.norm ⟨x, 0, 0⟩ = |x| := by
  rw [V3.norm, mul_zero, add_zero, add_zero, Real.sqrt_mul_self_eq_abs]

theorem nrm_z (x : ℝ) : V3.norm ⟨0, 0, x⟩ = |x| := by
  rw [V3.norm, mul_zero, zero_add, zero_add, Real.sqrt_mul_self_eq_abs]

/-- A camera 35 mm above the origin that looks down through two plates above the plane `z = 1`. -/
noncomputable def plateCam : Cam := ⟨⟨0, 0, 35⟩, rotationMatrix 0 0 0, 3, 0, 0, defaultAddPar, ⟨0, 0, 1⟩⟩

/-- The two plates of `twoPlates_apparent`. -/
noncomputable def plates : MM := ⟨2, 1, [4 / 3, 4 / 3], 1, [4, 8]⟩

/-- C134 is false for the line of sight: with two plates of the same index, number of layers right, the point (73, 0, -25) is imaged
at (4, 0) up to 0.0001 mm, but the line of sight of the image point (4, 0) passes that depth at x = 77.67 mm. -/
theorem C134_sight_refuted :
    (∃ q, flatImageCoord ⟨73, 0, -25⟩ plateCam emptyLUT plates = some q ∧ |q.1 - 4| ≤ 0.0001 ∧ q.2 = 0) ∧
    ∃ pv, rayTracing 4 0 plateCam plates = some pv ∧ (moveAlongRay (-25) pv.1 pv.2).1 = ⟨233 / 3, 0, -25⟩ := by
  have hsq : ∀ x : ℝ, 0 ≤ x → Real.sqrt (x * x) = x := fun x hx => Real.sqrt_mul_self hx
  constructor
  · have h := C134_stack_accuracy_partial 1 (4 / 3) 1 [4, 8] 0 0 34 73 80 ⟨73, 0, -26⟩ (by norm_num) (by norm_num) (by norm_num)
      (by simp) (by simp) (by norm_num) (by norm_num)
      (by norm_num; rw [show (5329 : ℝ) = 73 ^ 2 by norm_num, Real.sqrt_sq (by norm_num)]) twoPlates_apparent
    have hm : max (0.001 : ℝ) (((([4, 8] : List ℝ).headD 0 - -26) / (34 - -26)) ^ 40 * 73) = 0.001 := by
      apply max_eq_left
      norm_num
    rw [hm] at h
    set s := fastMultimedRNlay 2 1 (4 / 3) 1 [4, 8] 0 0 34 ⟨73, 0, -26⟩ with hs
    have ht : transCamPoint ⟨0, 0, 35⟩ 4 ⟨0, 0, 1⟩ ⟨73, 0, -25⟩ = (⟨73, 0, -26⟩, ⟨73, 0, 1⟩, ⟨0, 0, 5⟩, 34) := by
      have e2 : (⟨73, 0, 1⟩ - (⟨0, 0, 5⟩ - smul ⟨0, 0, 1⟩ (4 / 1)) : V3) = ⟨73, 0, 0⟩ := by ext <;> simp <;> norm_num
      have e3 : (⟨73, 0, -25⟩ - smul ⟨0, 0, 1⟩ (-26 / 1) : V3) = ⟨73, 0, 1⟩ := by ext <;> simp <;> norm_num
      have e4 : (⟨0, 0, 35⟩ - smul ⟨0, 0, 1⟩ (30 / 1) : V3) = ⟨0, 0, 5⟩ := by ext <;> simp <;> norm_num
      have d1 : (dot ⟨0, 0, 35⟩ ⟨0, 0, 1⟩ / 1 - 1 - 4 : ℝ) = 30 := by simp only [dot]; norm_num
      have d2 : (dot ⟨73, 0, -25⟩ ⟨0, 0, 1⟩ / 1 - 1 : ℝ) = -26 := by simp only [dot]; norm_num
      simp only [transCamPoint, nrm_z, abs_one, one_ne_zero, if_false, d1, d2, e3, e4, e2, nrm_x]
      norm_num
    have hb : backTransPoint ⟨0, 0, 1⟩ 4 ⟨0, 0, 5⟩ ⟨73, 0, 1⟩ ⟨73 * s, 0, -26⟩ = ⟨73 * s, 0, -25⟩ := by
      have e1 : (⟨0, 0, 5⟩ - smul ⟨0, 0, 1⟩ (4 / 1) : V3) = ⟨0, 0, 1⟩ := by ext <;> simp <;> norm_num
      have e2 : (⟨73, 0, 1⟩ - ⟨0, 0, 1⟩ : V3) = ⟨73, 0, 0⟩ := by ext <;> simp
      simp only [backTransPoint, nrm_z, abs_one, e1, e2, nrm_x]
      rw [if_pos (by norm_num), abs_of_pos (by norm_num : (0 : ℝ) < 73)]
      ext
      · simp; field_simp
      · simp
      · simp; norm_num
    refine ⟨(73 * s / 20, 0), ?_, ?_, rfl⟩
    · simp only [flatImageCoord, plates, plateCam, ht, multimedNlay, multimedRNlay, projLUT, emptyLUT]
      simp only [OfNat.ofNat_ne_one, false_and, and_false, if_false, and_self, not_true, Option.bind_eq_bind,
        Option.bind_some, ← hs, zero_add, sub_zero, zero_mul, hb, collinear]
      have e : (⟨73 * s, 0, -25⟩ - ⟨0, 0, 35⟩ : V3) = ⟨73 * s, 0, -60⟩ := by ext <;> simp; norm_num
      simp only [e, dot, M3.c0, M3.c1, M3.c2, rotationMatrix, Real.sin_zero, Real.cos_zero]
      norm_num
      ring
    · have : |73 * s - 80| ≤ 0.001 := h.trans (by norm_num)
      rw [abs_le] at this ⊢
      constructor <;> linarith [this.1, this.2]
  · have hu : V3.unit ⟨4, 0, -3⟩ = ⟨4 / 5, 0, -3 / 5⟩ := by
      have : V3.norm ⟨4, 0, -3⟩ = 5 := by
        rw [V3.norm, show (4 * 4 + 0 * 0 + -3 * -3 : ℝ) = 5 * 5 by norm_num, hsq 5 (by norm_num)]
      rw [V3.unit, this, if_neg (by norm_num)]
      norm_num
    have hg : V3.unit ⟨0, 0, 1⟩ = ⟨0, 0, 1⟩ := by rw [V3.unit, nrm_z]; norm_num
    have hx : ∀ x : ℝ, 0 < x → V3.unit ⟨x, 0, 0⟩ = ⟨1, 0, 0⟩ := by
      intro x hx
      rw [V3.unit, nrm_x, abs_of_pos hx, if_neg hx.ne', div_self hx.ne']
      norm_num
    have q1 : Real.sqrt (1 - (-3 / 5) ^ 2) = 4 / 5 := by
      rw [show (1 - (-3 / 5) ^ 2 : ℝ) = 4 / 5 * (4 / 5) by norm_num, hsq _ (by norm_num)]
    have q2 : Real.sqrt (1 - (4 / 5 * 1 / (4 / 3)) ^ 2) = 4 / 5 := by
      rw [show (1 - (4 / 5 * 1 / (4 / 3)) ^ 2 : ℝ) = 4 / 5 * (4 / 5) by norm_num, hsq _ (by norm_num)]
    have q3 : Real.sqrt (1 - (-(4 / 5)) ^ 2) = 3 / 5 := by
      rw [show (1 - (-(4 / 5)) ^ 2 : ℝ) = 3 / 5 * (3 / 5) by norm_num, hsq _ (by norm_num)]
    have q4 : Real.sqrt (1 - (3 / 5 * (4 / 3) / 1) ^ 2) = 3 / 5 := by
      rw [show (1 - (3 / 5 * (4 / 3) / 1) ^ 2 : ℝ) = 3 / 5 * (3 / 5) by norm_num, hsq _ (by norm_num)]
    have hdm : (rotationMatrix 0 0 0).mulVec ⟨4 / 5, 0, -3 / 5⟩ = ⟨4 / 5, 0, -3 / 5⟩ := by
      simp [rotationMatrix, M3.mulVec, dot]
    have r1 : refractDir ⟨0, 0, 1⟩ ⟨4 / 5, 0, 0⟩ (-3 / 5) 1 (4 / 3) = (⟨3 / 5, 0, -(4 / 5)⟩, -(4 / 5)) := by
      simp only [refractDir, hx (4 / 5) (by norm_num), q1, q2]
      refine Prod.ext ?_ rfl
      ext <;> simp <;> norm_num
    have r2 : refractDir ⟨0, 0, 1⟩ ⟨3 / 5, 0, 0⟩ (-(4 / 5)) (4 / 3) 1 = (⟨4 / 5, 0, -(3 / 5)⟩, -(3 / 5)) := by
      simp only [refractDir, hx (3 / 5) (by norm_num), q3, q4]
      refine Prod.ext ?_ rfl
      ext <;> simp <;> norm_num
    have p1 : (⟨4 / 5, 0, -3 / 5⟩ - smul ⟨0, 0, 1⟩ (-3 / 5) : V3) = ⟨4 / 5, 0, 0⟩ := by ext <;> simp
    have p2 : (⟨3 / 5, 0, -(4 / 5)⟩ - smul ⟨0, 0, 1⟩ (-(4 / 5)) : V3) = ⟨3 / 5, 0, 0⟩ := by ext <;> simp
    have t1 : dot ⟨0, 0, 1⟩ ⟨4 / 5, 0, -3 / 5⟩ = -3 / 5 := by simp [dot]
    have t2 : dot ⟨4 / 5, 0, -3 / 5⟩ ⟨0, 0, 1⟩ = -3 / 5 := by simp [dot]
    have t3 : dot ⟨0, 0, 1⟩ ⟨3 / 5, 0, -(4 / 5)⟩ = -(4 / 5) := by simp [dot]
    have t4 : dot ⟨3 / 5, 0, -(4 / 5)⟩ ⟨0, 0, 1⟩ = -(4 / 5) := by simp [dot]
    have t5 : dot ⟨0, 0, 1⟩ ⟨0, 0, 35⟩ - (1 + 4) = 30 := by simp [dot]; norm_num
    have n1 : (-3 / 5 : ℝ) ≠ 0 := by norm_num
    have n2 : |(-(4 / 5) : ℝ)| = 4 / 5 := by norm_num [abs_of_pos]
    have n3 : (4 / 5 : ℝ) ≠ 0 := by norm_num
    refine ⟨(⟨43, 0, 1⟩, ⟨4 / 5, 0, -(3 / 5)⟩), ?_, ?_⟩
    · simp only [rayTracing, plates, plateCam, fastRayTracing, hu, hdm, hg, nrm_z, abs_one, t1, t2, t5, if_neg n1, p1, r1, t3, t4, n2,
        if_neg n3, p2, r2]
      refine congrArg some (Prod.ext ?_ rfl)
      ext <;> simp <;> norm_num
    · simp only [moveAlongRay]
      rw [if_neg (by norm_num)]
      ext <;> norm_num

end Verif.Geo
