/-
C120: the rows of the box blur under every schedule of the threads.
-/
import Verif.Model.BoxBlurPar
import Verif.Props.BoxBlur

namespace Verif.Blur

/-- Row `i` of the sums over lines. -/
private def row (src : ℤ → ℤ) (span imx i : ℕ) : List ℤ := rowAccum (fun j => src ((i : ℤ) * imx + j)) span imx

theorem cell_unique {w i j p q : ℕ} (hj : j < w) (hq : q < w) (h : i * w + j = p * w + q) : i = p ∧ j = q := by
  have h1 : (i * w + j) / w = i := by
    rw [Nat.mul_comm, Nat.mul_add_div (by omega), Nat.div_eq_of_lt hj, Nat.add_zero]
  have h2 : (p * w + q) / w = p := by
    rw [Nat.mul_comm, Nat.mul_add_div (by omega), Nat.div_eq_of_lt hq, Nat.add_zero]
  have : i = p := by rw [← h1, ← h2, h]
  subst this
  exact ⟨rfl, by omega⟩

theorem runRows_inv (src : ℤ → ℤ) (span imx : ℕ) (h : 2 * span < imx) (sched : List ℕ) :
    ∀ (s : RowState), (∀ i, s.stored i ≤ imx) → (∀ i j, j < s.stored i → (row src span imx i)[j]? = some (s.cell (i * imx + j))) →
    (∀ i, min imx (s.stored i + sched.count i) ≤ (sched.foldl (rowStep src span imx) s).stored i) ∧
    (∀ i, (sched.foldl (rowStep src span imx) s).stored i ≤ imx) ∧
    (∀ i j, j < (sched.foldl (rowStep src span imx) s).stored i →
      (row src span imx i)[j]? = some ((sched.foldl (rowStep src span imx) s).cell (i * imx + j))) := by
  induction sched with
  | nil => intro s h1 h2; exact ⟨fun i => by simp, h1, h2⟩
  | cons a t ih =>
    intro s h1 h2
    rw [List.foldl_cons]
    have hlen : (row src span imx a).length = imx := rowAccum_length _ span imx h
    by_cases ha : s.stored a < imx
    · obtain ⟨v, hv⟩ : ∃ v, (row src span imx a)[s.stored a]? = some v := ⟨_, List.getElem?_eq_getElem (by omega)⟩
      have hstep : rowStep src span imx s a =
          ⟨fun p => if p = a * imx + s.stored a then v else s.cell p, fun q => if q = a then s.stored a + 1 else s.stored q⟩ := by
        unfold row at hv
        rw [rowStep, hv]
      rw [hstep]
      obtain ⟨g1, g2, g3⟩ := ih ⟨fun p => if p = a * imx + s.stored a then v else s.cell p, fun q => if q = a then s.stored a + 1 else s.stored q⟩
        (fun i => by
          show (if i = a then s.stored a + 1 else s.stored i) ≤ imx
          have := h1 i
          split <;> omega)
        (fun i j hj => by
          change j < (if i = a then s.stored a + 1 else s.stored i) at hj
          show _ = some (if i * imx + j = a * imx + s.stored a then v else s.cell (i * imx + j))
          by_cases e : i = a ∧ j = s.stored a
          · rw [e.1, e.2, if_pos rfl]; exact hv
          · have hji : j < s.stored i := by
              split at hj
              · rename_i e1
                subst e1
                have : j ≠ s.stored i := fun e2 => e ⟨rfl, e2⟩
                omega
              · exact hj
            rw [if_neg (fun e3 => e (cell_unique (lt_of_lt_of_le hji (h1 i)) ha e3))]
            exact h2 i j hji)
      refine ⟨fun i => le_trans ?_ (g1 i), g2, g3⟩
      show min imx (s.stored i + (a :: t).count i) ≤ min imx ((if i = a then s.stored a + 1 else s.stored i) + t.count i)
      rw [List.count_cons]
      by_cases e : i = a
      · subst e; simp only [beq_self_eq_true, if_true]; omega
      · have e2 : (a == i) = false := by simpa using Ne.symm e
        rw [if_neg e, e2]; simp
    · have hstep : rowStep src span imx s a = s := by
        have : (row src span imx a)[s.stored a]? = none := List.getElem?_eq_none (by omega)
        unfold row at this
        rw [rowStep, this]
      rw [hstep]
      obtain ⟨g1, g2, g3⟩ := ih s h1 h2
      refine ⟨fun i => le_trans ?_ (g1 i), g2, g3⟩
      rw [List.count_cons]
      by_cases e : i = a
      · subst e; have := h1 i; omega
      · have e2 : (a == i) = false := by simpa using Ne.symm e
        rw [e2]; simp

/-- C120: however the steps of the threads are interleaved, provided every row comes to its end, the parallel function does what the
function does that goes through the rows one after the other. -/
theorem C120_any_schedule (src : ℤ → ℤ) (span imx imy : ℕ) (h : 2 * span < imx) (sched : List ℕ) (hs : ∀ i < imy, imx ≤ sched.count i) :
    fastBoxBlurPar src span imx imy sched = fastBoxBlur src span imx imy := by
  obtain ⟨g1, g2, g3⟩ := runRows_inv src span imx h sched rowStart (fun i => Nat.zero_le _) (fun i j hj => absurd hj (Nat.not_lt_zero _))
  have key : (List.range (imy * imx)).map (runRows src span imx sched).cell = rowsAccum src span imx imy := by
    have : ∀ m ≤ imy, (List.range (m * imx)).map (runRows src span imx sched).cell = rowsAccum src span imx m := by
      intro m
      induction m with
      | zero => intro _; simp [rowsAccum]
      | succ m ih =>
        intro hm
        rw [rowsAccum, List.range_succ, List.flatMap_append, Nat.succ_mul, List.range_add, List.map_append]
        rw [← rowsAccum, ih (by omega)]
        congr 1
        simp only [List.flatMap_cons, List.flatMap_nil, List.append_nil, List.map_map]
        have hlen : (row src span imx m).length = imx := rowAccum_length _ span imx h
        change _ = row src span imx m
        apply List.ext_getElem?
        intro j
        by_cases hj : j < imx
        · have g1m := g1 m
          have := hs m (by omega)
          change min imx (0 + sched.count m) ≤ _ at g1m
          rw [g3 m j (by omega)]
          rw [List.getElem?_map, List.getElem?_range hj]
          rfl
        · rw [List.getElem?_eq_none (by simpa using hj), List.getElem?_eq_none (by omega)]
    exact this imy le_rfl
  rw [fastBoxBlurPar, key]
  rfl

/-- Two threads in step on an image of two rows of three pixels, half width 0; half width 1 raises under every schedule. -/
example : fastBoxBlurPar (fun k => k) 0 3 2 [0, 1, 1, 0, 0, 1] = .ok [0, 1, 2, 3, 4, 5] ∧
    fastBoxBlurPar (fun k => k) 1 3 2 [1, 0, 1, 0, 1, 0] = .error .valueError := by
  rw [C120_any_schedule _ _ _ _ (by decide) _ (by decide), C120_any_schedule _ _ _ _ (by decide) _ (by decide)]
  decide

end Verif.Blur
