/-
C153: the parallel matrix product does not depend on the schedule of the threads.
-/
import Verif.Model.MatMul
import Mathlib.Data.Matrix.Mul
import Mathlib.Algebra.BigOperators.Fin

namespace Verif.MatMul

variable {α : Type} [Add α] [Mul α] [Zero α]

/-- The scalar product of row `i` and column `j`, summed in the order of the indices, from 0 on. -/
def rowTimesColumn (B C : ℕ → ℕ → α) (i j : ℕ) : ℕ → α
  | 0 => 0
  | l + 1 => rowTimesColumn B C i j l + B i l * C l j

structure Inv (a b c m n k : ℕ) (h : Heap α) (s : State α) : Prop where
  other : ∀ x i j, x ≠ a → s.heap x i j = h x i j
  result : ∀ i j, s.heap a i j = if i < m ∧ j < (s.thread i).j then rowTimesColumn (h b) (h c) i j n else h a i j
  column : ∀ i, (s.thread i).j ≤ k
  round : ∀ i, (s.thread i).l ≤ n
  sum : ∀ i, (s.thread i).temp = rowTimesColumn (h b) (h c) i (s.thread i).j (s.thread i).l

theorem Inv.start (a b c m n k : ℕ) (h : Heap α) : Inv a b c m n k h (start h) where
  other _ _ _ _ := rfl
  result i j := by simp [MatMul.start]
  column _ := Nat.zero_le _
  round _ := Nat.zero_le _
  sum _ := rfl

theorem Inv.step {a b c m n k : ℕ} {h : Heap α} {s : State α} (hb : b ≠ a) (hc : c ≠ a) (v : Inv a b c m n k h s) {i : ℕ} (hi : i < m) :
    Inv a b c m n k h (step a b c n k s i) := by
  have vs := v.sum i
  rw [MatMul.step]
  by_cases h1 : (s.thread i).j < k
  · by_cases h2 : (s.thread i).l < n
    · simp only [if_pos h1, if_pos h2]
      refine ⟨v.other, ?_, ?_, ?_, ?_⟩
      · intro p q
        rw [v.result p q]
        by_cases e : p = i
        · subst e; simp only [if_true]
        · simp only [if_neg e]
      · intro q
        by_cases e : q = i
        · subst e; simpa only [if_true] using v.column q
        · simpa only [if_neg e] using v.column q
      · intro q
        by_cases e : q = i
        · subst e; simp only [if_true]; omega
        · simpa only [if_neg e] using v.round q
      · intro q
        by_cases e : q = i
        · subst e
          simp only [if_true, rowTimesColumn, vs, v.other b _ _ hb, v.other c _ _ hc]
        · simpa only [if_neg e] using v.sum q
    · have hl : (s.thread i).l = n := le_antisymm (v.round i) (not_lt.1 h2)
      rw [hl] at vs
      simp only [if_pos h1, if_neg h2]
      refine ⟨?_, ?_, ?_, ?_, ?_⟩
      · intro x p q hx
        simp only [hx, false_and, if_false]
        exact v.other x p q hx
      · intro p q
        have vr := v.result p q
        by_cases e : p = i
        · subst e
          by_cases eq : q = (s.thread p).j
          · subst eq
            simp only [if_true, hi, Nat.lt_succ_self, and_self, vs]
          · simp only [true_and, eq, if_false, if_true, vr, hi]
            have : q < (s.thread p).j + 1 ↔ q < (s.thread p).j := by omega
            simp only [this]
        · simp only [e, false_and, and_false, if_false, vr]
      · intro q
        by_cases e : q = i
        · subst e; simp only [if_true]; omega
        · simpa only [if_neg e] using v.column q
      · intro q
        by_cases e : q = i
        · subst e; simp only [if_true, Nat.zero_le]
        · simpa only [if_neg e] using v.round q
      · intro q
        by_cases e : q = i
        · subst e; simp only [if_true, rowTimesColumn]
        · simpa only [if_neg e] using v.sum q
  · simp only [if_neg h1]
    exact v

theorem Inv.steps {a b c m n k : ℕ} {h : Heap α} (hb : b ≠ a) (hc : c ≠ a) (sched : List ℕ) (hs : ∀ i ∈ sched, i < m) (s : State α)
    (v : Inv a b c m n k h s) : Inv a b c m n k h (sched.foldl (MatMul.step a b c n k) s) := by
  induction sched generalizing s with
  | nil => exact v
  | cons i t ih => exact ih (fun q hq => hs q (List.mem_cons_of_mem _ hq)) _ (v.step hb hc (hs i (List.mem_cons_self)))

/-- C153: if the result array is another array than the two factors, then after the parallel loop, however the steps of the threads were
interleaved, the first `m` rows and `k` columns of the result are the scalar products of rows and columns, every one summed in the order
of the indices (so that not even rounding depends on the schedule: nothing is assumed of addition and multiplication), and no other
entry of any array has changed. -/
theorem C153_any_schedule (a b c m n k : ℕ) (h : Heap α) (hb : b ≠ a) (hc : c ≠ a) (sched : List ℕ) (hs : ∀ i ∈ sched, i < m)
    (hf : Finished m k (run a b c n k h sched)) :
    (∀ i < m, ∀ j < k, (run a b c n k h sched).heap a i j = rowTimesColumn (h b) (h c) i j n) ∧
    (∀ x i j, x ≠ a ∨ m ≤ i ∨ k ≤ j → (run a b c n k h sched).heap x i j = h x i j) := by
  have v := Inv.steps hb hc sched hs _ (Inv.start a b c m n k h)
  change Inv a b c m n k h (run a b c n k h sched) at v
  generalize run a b c n k h sched = s at *
  refine ⟨fun i hi j hj => ?_, fun x i j hx => ?_⟩
  · rw [v.result, if_pos ⟨hi, lt_of_lt_of_le hj (hf i hi)⟩]
  · by_cases e : x = a
    · subst e
      rw [v.result, if_neg]
      rintro ⟨h1, h2⟩
      have := v.column i
      rcases hx with hx | hx | hx
      · exact hx rfl
      · omega
      · omega
    · exact v.other x i j e

/-- The work a thread has done. -/
def done (n : ℕ) (t : Thread α) : ℕ := t.j * (n + 1) + t.l

theorem done_step (a b c n k : ℕ) (s : State α) (i q : ℕ) (hl : ∀ p, (s.thread p).l ≤ n) :
    (∀ p, ((step a b c n k s i).thread p).l ≤ n) ∧
    (k ≤ (s.thread q).j → k ≤ ((step a b c n k s i).thread q).j) ∧
    (done n (s.thread q) + (if i = q then 1 else 0) ≤ done n ((step a b c n k s i).thread q) ∨ k ≤ ((step a b c n k s i).thread q).j) := by
  have hli := hl i
  rw [step]
  by_cases h1 : (s.thread i).j < k
  · by_cases h2 : (s.thread i).l < n
    · simp only [if_pos h1, if_pos h2]
      refine ⟨fun p => ?_, ?_, ?_⟩
      · by_cases e : p = i
        · subst e; simp only [if_true]; omega
        · simpa only [if_neg e] using hl p
      · by_cases e : q = i
        · subst e; simp only [if_true]; exact id
        · simp only [if_neg e]; exact id
      · by_cases e : q = i
        · subst e; simp only [if_true, done]; left; omega
        · simp only [if_neg e, if_neg (Ne.symm e)]; left; omega
    · simp only [if_pos h1, if_neg h2]
      refine ⟨fun p => ?_, ?_, ?_⟩
      · by_cases e : p = i
        · subst e; simp only [if_true, Nat.zero_le]
        · simpa only [if_neg e] using hl p
      · by_cases e : q = i
        · subst e; simp only [if_true]; omega
        · simp only [if_neg e]; exact id
      · by_cases e : q = i
        · subst e
          simp only [if_true, done]
          left
          have : ((s.thread q).j + 1) * (n + 1) = (s.thread q).j * (n + 1) + (n + 1) := by ring
          omega
        · simp only [if_neg e, if_neg (Ne.symm e)]; left; omega
  · simp only [if_neg h1]
    refine ⟨hl, id, ?_⟩
    by_cases e : i = q
    · subst e; right; omega
    · left; rw [if_neg e]; omega

theorem done_steps (a b c n k q : ℕ) (sched : List ℕ) (s : State α) (hl : ∀ p, (s.thread p).l ≤ n) :
    (∀ p, ((sched.foldl (step a b c n k) s).thread p).l ≤ n) ∧
    (k ≤ (s.thread q).j → k ≤ ((sched.foldl (step a b c n k) s).thread q).j) ∧
    (done n (s.thread q) + sched.count q ≤ done n ((sched.foldl (step a b c n k) s).thread q) ∨
      k ≤ ((sched.foldl (step a b c n k) s).thread q).j) := by
  induction sched generalizing s with
  | nil => exact ⟨hl, id, Or.inl le_rfl⟩
  | cons i t ih =>
    obtain ⟨g1, g2, g3⟩ := done_step a b c n k s i q hl
    obtain ⟨i1, i2, i3⟩ := ih _ g1
    refine ⟨i1, fun h => i2 (g2 h), ?_⟩
    rcases g3 with g3 | g3
    · rcases i3 with i3 | i3
      · left
        rw [List.foldl_cons, List.count_cons]
        by_cases e : i = q
        · subst e; simp only [if_true, beq_self_eq_true] at *; omega
        · simp only [if_neg e, beq_iff_eq] at *; omega
      · exact Or.inr i3
    · exact Or.inr (i2 g3)

/-- C153: the parallel loop comes to its end: every schedule in which every thread takes `k * (n + 1)` steps is one. -/
theorem C153_finishes (a b c m n k : ℕ) (h : Heap α) (sched : List ℕ) (hs : ∀ i < m, k * (n + 1) ≤ sched.count i) :
    Finished m k (run a b c n k h sched) := by
  intro i hi
  obtain ⟨h1, -, h3⟩ := done_steps a b c n k i sched (start h) (fun _ => Nat.zero_le _)
  rcases h3 with h3 | h3
  · have := hs i hi
    have e : done n ((start h).thread i) = 0 := by simp [done, start]
    rw [e, zero_add] at h3
    have h4 := h1 i
    change k ≤ ((sched.foldl (step a b c n k) (start h)).thread i).j
    generalize (sched.foldl (step a b c n k) (start h)).thread i = t at *
    rw [done] at h3
    by_contra hc
    have : (t.j + 1) * (n + 1) ≤ k * (n + 1) := Nat.mul_le_mul_right _ (by omega)
    have e2 : (t.j + 1) * (n + 1) = t.j * (n + 1) + (n + 1) := by ring
    omega
  · exact h3

/-- C153 for numbers of a ring: the result is the product of the matrices, for every schedule in which every thread takes all its steps. -/
theorem C153_product {R : Type} [CommRing R] (a b c m n k : ℕ) (h : Heap R) (hb : b ≠ a) (hc : c ≠ a) (sched : List ℕ)
    (hs : ∀ i ∈ sched, i < m) (hf : ∀ i < m, k * (n + 1) ≤ sched.count i) :
    (Matrix.of fun (i : Fin m) (j : Fin k) => (run a b c n k h sched).heap a i j) =
      (Matrix.of fun (i : Fin m) (l : Fin n) => h b i l) * (Matrix.of fun (l : Fin n) (j : Fin k) => h c l j) := by
  have e : ∀ i j n, rowTimesColumn (h b) (h c) i j n = ∑ l : Fin n, h b i l * h c l j := by
    intro i j n
    induction n with
    | zero => rfl
    | succ n ih => rw [Fin.sum_univ_castSucc, rowTimesColumn, ih]; rfl
  ext i j
  rw [Matrix.mul_apply, Matrix.of_apply,
    (C153_any_schedule a b c m n k h hb hc sched hs (C153_finishes a b c m n k h sched hf)).1 i i.2 j j.2, e]
  rfl

/-- The memory of the next theorem: array 1 exchanges the rows, array 2 is the column (7, 9). -/
def swapHeap : Heap ℤ := fun x i j =>
  if x = 1 then (if i + j = 1 then 1 else 0) else if j = 0 then (if i = 0 then 7 else 9) else 0

/-- C153 is false if the result is stored into one of the factors: the rows of the column (7, 9) are to be exchanged, with result (9, 7).
One thread after the other gives (9, 9), in the opposite order (7, 7), and in step (9, 7). -/
theorem C153_in_place_refuted :
    Finished 2 1 (run 2 1 2 2 1 swapHeap [0, 0, 0, 1, 1, 1]) ∧ Finished 2 1 (run 2 1 2 2 1 swapHeap [1, 1, 1, 0, 0, 0]) ∧
    Finished 2 1 (run 2 1 2 2 1 swapHeap [0, 1, 0, 1, 0, 1]) ∧
    (rowTimesColumn (swapHeap 1) (swapHeap 2) 0 0 2 = 9 ∧ rowTimesColumn (swapHeap 1) (swapHeap 2) 1 0 2 = 7) ∧
    ((run 2 1 2 2 1 swapHeap [0, 0, 0, 1, 1, 1]).heap 2 0 0 = 9 ∧ (run 2 1 2 2 1 swapHeap [0, 0, 0, 1, 1, 1]).heap 2 1 0 = 9) ∧
    ((run 2 1 2 2 1 swapHeap [1, 1, 1, 0, 0, 0]).heap 2 0 0 = 7 ∧ (run 2 1 2 2 1 swapHeap [1, 1, 1, 0, 0, 0]).heap 2 1 0 = 7) ∧
    ((run 2 1 2 2 1 swapHeap [0, 1, 0, 1, 0, 1]).heap 2 0 0 = 9 ∧ (run 2 1 2 2 1 swapHeap [0, 1, 0, 1, 0, 1]).heap 2 1 0 = 7) := by
  refine ⟨?_, ?_, ?_, by decide +kernel⟩
  all_goals exact C153_finishes _ _ _ _ _ _ _ _ (by decide)

/-- The hypotheses are met: the same factors with another result array, under any of the three schedules. -/
example : (run 0 1 2 2 1 swapHeap [0, 1, 0, 1, 0, 1]).heap 0 0 0 = 9 := by
  rw [(C153_any_schedule 0 1 2 2 2 1 swapHeap (by decide) (by decide) [0, 1, 0, 1, 0, 1] (by decide)
    (C153_finishes _ _ _ _ _ _ _ _ (by decide))).1 0 (by decide) 0 (by decide)]
  decide +kernel

end Verif.MatMul
