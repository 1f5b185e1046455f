/-
C14-C22, C54, C55, C57: tracking properties.
-/
import Verif.Proofs.Back
import Verif.Proofs.Freq
import Verif.Props.Search

namespace Verif.Track
open Verif.Track.Spec

/-! ### C14 -/

/-- C14 (partial): whenever register_closest_neighbs returns, every registered number is the number
of a target inside the search window, or TR_UNUSED, or - the case the full property excludes - the
number of the *last* target of the list. -/
theorem C14_registered_partial {K : Type} [Field K] [LinearOrder K] [IsStrictOrderedRing K] (ts : List (Search.Tgt K))
    (cam : Nat) (cx cy dl dr du dd imx imy : K)
    (him : imx ≤ 10 ^ 19 ∧ imy ≤ 10 ^ 19) (reg out : List FP) (hreg : reg.length = 4)
    (h : registerClosest ts cam cx cy dl dr du dd imx imy reg = .ok out) :
    out.length = 4 ∧ ∀ r ∈ out,
      (∃ j t, Search.Spec.InWindow ts cx cy dl dr du dd imx imy j ∧ ts[j]? = some t ∧
        r.ftnr = t.tnr) ∨
      (∃ t, ts.getLast? = some t ∧ r.ftnr = t.tnr) := by
  obtain ⟨L, hL, hs, hw, -⟩ := Search.C12_nearest_sound ts cx cy dl dr du dd imx imy him
  unfold registerClosest at h
  rw [hs] at h
  simp only [bind, Except.bind] at h
  have key : ∀ (cs : List Int) (reg out : List FP), cs.length ≤ reg.length →
      (∀ c ∈ cs, c = -1 ∨ ∃ j : Nat, c = j ∧ Search.Spec.InWindow ts cx cy dl dr du dd imx imy j) →
      registerLoop (ts.map Search.Tgt.tnr) cam cs reg = .ok out → out.length = cs.length ∧ ∀ r ∈ out,
      (∃ j t, Search.Spec.InWindow ts cx cy dl dr du dd imx imy j ∧ ts[j]? = some t ∧
        r.ftnr = t.tnr) ∨
      (∃ t, ts.getLast? = some t ∧ r.ftnr = t.tnr) := by
    intro cs
    induction cs with
    | nil => intro reg out _ _ h; cases h; simp
    | cons c cs ih =>
      intro reg out hl hc h
      match reg, hl with
      | r0 :: rs, hl =>
        unfold registerLoop at h
        have hne : c ≠ PT_UNUSED := by
          rcases hc c (by simp) with h | ⟨j, h, -⟩ <;> rw [h] <;> simp only [PT_UNUSED] <;> omega
        rw [if_neg hne] at h
        obtain ⟨t, ht, h⟩ := bind_ok h
        obtain ⟨rest, hrest, h⟩ := bind_ok h
        cases h
        obtain ⟨i1, i2⟩ := ih rs rest (by simpa using hl) (fun c' hc' => hc c' (by simp [hc'])) hrest
        refine ⟨by simp [i1], ?_⟩
        intro r hr
        rw [List.mem_cons] at hr
        rcases hr with rfl | hr
        · rcases hc c (by simp) with rfl | ⟨j, rfl, hj⟩
          · right
            unfold pyGetI at ht
            rw [if_neg (by omega)] at ht
            split_ifs at ht with hp
            have hg := pyGet_ok ht
            rw [List.getElem?_map, Option.map_eq_some_iff] at hg
            obtain ⟨x, hx, hxt⟩ := hg
            refine ⟨x, ?_, hxt.symm⟩
            rw [List.getLast?_eq_getElem?, ← hx]
            congr 1
            simp only [List.length_map]; omega
          · left
            have hg := pyGetI_nonneg (by omega) ht
            rw [Int.toNat_natCast, List.getElem?_map, Option.map_eq_some_iff] at hg
            obtain ⟨x, hx, hxt⟩ := hg
            exact ⟨j, x, hj, hx, hxt.symm⟩
        · exact i2 r hr
  have hcs : (L.map Int.ofNat ++ List.replicate (4 - L.length) (-1)).length = 4 := by simp; omega
  obtain ⟨h1, h2⟩ := key _ reg out (by rw [hcs, hreg]) (by
    intro c hc
    rw [List.mem_append] at hc
    rcases hc with hc | hc
    · rw [List.mem_map] at hc
      obtain ⟨j, hj, rfl⟩ := hc
      exact Or.inr ⟨j, rfl, hw j hj⟩
    · exact Or.inl (List.eq_of_mem_replicate hc)) h
  exact ⟨by rw [h1, hcs], h2⟩

/-- The three targets of the witnesses: only the first lies in the window around (10,10). -/
def wTgts : List (Search.Tgt ℚ) := [⟨10, 10, 7⟩, ⟨50, 50, 8⟩, ⟨90, 90, 9⟩]

/-- C14 is false: with one target in the window the three empty result slots (-1) are not
recognised as unused (-999), and the number of the last target, far outside the window, is
registered three times. -/
theorem C14_refuted :
    registerClosest wTgts 0 10 10 5 5 5 5 100 100 (List.replicate 4 FP.unused) =
      .ok (⟨7, 0, [true, false, false, false]⟩ ::
        List.replicate 3 ⟨9, 0, [true, false, false, false]⟩) ∧
    ¬ Search.Spec.InWindow wTgts 10 10 5 5 5 5 100 100 2 := by
  constructor
  · unfold registerClosest Search.candsearchInPix
    have hst : Search.startPoint (wTgts.map Search.Tgt.y) wTgts.length
        (Search.clip 10 10 5 5 5 5 100 100).ymin = .ok 0 := by
      decide +kernel
    simp only
    rw [if_pos (by norm_num), hst]
    decide +kernel
  · rintro ⟨t, h1, -, ⟨-, h2⟩, -⟩
    simp [wTgts] at h1
    subst h1
    norm_num at h2

/-- C14 is false in a second way: a camera without any target makes the registration raise. -/
theorem C14_refuted_empty :
    registerClosest (K := ℚ) [] 0 10 10 5 5 5 5 100 100 (List.replicate 4 FP.unused) =
      .error .indexError := by
  decide +kernel

/-! ### C15, C57 -/

/-- C15 (partial): the sorted records keep their number, their frequencies do not increase, every
record that is not marked unused carries a registered number together with the exact number of
cameras that found it, the first record is one found by the most cameras, the returned count is
the number of used records, and numbers found by a single camera are reported only as the sole
result. Missing: that no number is lost and none repeated (see C15_refuted). -/
theorem C15_sorted_partial (a : List FP) (numCams : Nat) (h : FreshRows a numCams) :
    (sortByFreq a numCams).1.length = a.length ∧
    (sortByFreq a numCams).1.Pairwise (fun x y => y.freq ≤ x.freq) ∧
    (∀ y ∈ (sortByFreq a numCams).1, y.freq ≠ 0 →
      y.ftnr ≠ TR_UNUSED ∧ y.freq = camCount a numCams y.ftnr ∧ ∃ r ∈ a, r.ftnr = y.ftnr) ∧
    (∀ y ∈ (sortByFreq a numCams).1, y.freq = 0 → y.ftnr = TR_UNUSED) ∧
    (∀ x ∈ (sortByFreq a numCams).1.head?, ∀ z ∈ a, z.ftnr ≠ TR_UNUSED →
      camCount a numCams z.ftnr ≤ x.freq) ∧
    (sortByFreq a numCams).2 = (sortByFreq a numCams).1.countP (fun r => r.freq ≠ 0) ∧
    ((∀ y ∈ (sortByFreq a numCams).1, y.freq ≠ 0 → 2 ≤ y.freq) ∨ (sortByFreq a numCams).2 ≤ 1) := by
  obtain ⟨h1, h2, h3, h4⟩ := sortByFreq_spec a numCams (camCount a numCams) (countRow_ok h)
  refine ⟨h1, h2, ?_, ?_, h4, rfl, sortByFreq_two a numCams⟩
  · intro y hy hne
    obtain ⟨q, q'⟩ := h3 y hy
    rcases q with ⟨-, q⟩ | ⟨q1, q2, -⟩
    · exact absurd q hne
    · exact ⟨q1, q2, q' q1⟩
  · intro y hy he
    rcases (h3 y hy).1 with ⟨q, -⟩ | ⟨-, -, q⟩
    · exact q
    · exact absurd he q

/-- C15 (partial): if the used records already come in non-increasing order of their camera counts,
every number found by at least two cameras is reported. -/
theorem C15_no_loss_ordered_partial (a : List FP) (numCams : Nat) (h : FreshRows a numCams)
    (ho : a.Pairwise (fun x y => x.ftnr ≠ TR_UNUSED → y.ftnr ≠ TR_UNUSED →
      camCount a numCams y.ftnr ≤ camCount a numCams x.ftnr)) (k : Int) (hk : k ≠ TR_UNUSED)
    (h2 : 2 ≤ camCount a numCams k) :
    ∃ y ∈ (sortByFreq a numCams).1, y.ftnr = k ∧ y.freq = camCount a numCams k := by
  obtain ⟨y, hy, e⟩ := sortByFreq_keeps h ho k hk h2
  refine ⟨y, hy, e, ?_⟩
  rcases ((sortByFreq_spec a numCams (camCount a numCams) (countRow_ok h)).2.2.1 y hy).1 with
    ⟨q, -⟩ | ⟨-, q, -⟩
  · rw [e] at q; exact absurd q hk
  · rw [q, e]

/-- C15 (partial): a number that was found by at least two cameras, and by as many as any other number, is never lost. -/
theorem C15_no_loss_best_partial (a : List FP) (numCams : Nat) (h : FreshRows a numCams) (k : Int) (hk : k ≠ TR_UNUSED)
    (h2 : 2 ≤ camCount a numCams k)
    (hmax : ∀ r ∈ a, r.ftnr ≠ TR_UNUSED → camCount a numCams r.ftnr ≤ camCount a numCams k) :
    ∃ y ∈ (sortByFreq a numCams).1, y.ftnr = k ∧ y.freq = camCount a numCams k := by
  obtain ⟨y, hy, e⟩ := sortByFreq_keeps_max h k hk h2 hmax
  refine ⟨y, hy, e, ?_⟩
  rcases ((sortByFreq_spec a numCams (camCount a numCams) (countRow_ok h)).2.2.1 y hy).1 with
    ⟨q, -⟩ | ⟨-, q, -⟩
  · rw [e] at q; exact absurd q hk
  · rw [q, e]

/-- A used record of the witness arrays, found in camera `j`. -/
def fpIn (k : Int) (j : Nat) : FP := ⟨k, 0, [false, false, false, false].set j true⟩

/-- Three cameras: number 5 was found by the first two, number 6 by all. -/
def wRows : List FP :=
  [fpIn 5 0, fpIn 6 0, FP.unused, FP.unused, fpIn 5 1, fpIn 6 1, FP.unused, FP.unused,
   fpIn 6 2, FP.unused, FP.unused, FP.unused]

theorem wRows_fresh : FreshRows wRows 3 := by
  refine ⟨rfl, by omega, ?_⟩
  intro r hr
  have : ∀ r ∈ wRows, r.freq = 0 ∧ r.cams.length = 4 ∧
      ∀ j, j < 4 → r.cams[j]? = some true → SeenBy wRows j r.ftnr := by decide +kernel
  obtain ⟨h1, h2, h3⟩ := this r hr
  refine ⟨h1, h2, fun j hj => h3 j ?_ hj⟩
  have := (List.getElem?_eq_some_iff.1 hj).1
  omega

example : camCount wRows 3 6 = 3 ∧
    ∀ r ∈ wRows, r.ftnr ≠ TR_UNUSED → camCount wRows 3 r.ftnr ≤ camCount wRows 3 6 := by decide +kernel

/-- Three cameras: number 5 found by all, number 6 by the first and the last (last slot). -/
def wFull : List FP :=
  [fpIn 5 0, FP.unused, FP.unused, fpIn 6 0, fpIn 5 1, FP.unused, FP.unused, FP.unused,
   FP.unused, FP.unused, fpIn 5 2, fpIn 6 2]

theorem wFull_fresh : FreshRows wFull 3 := by
  refine ⟨rfl, by omega, ?_⟩
  intro r hr
  have : ∀ r ∈ wFull, r.freq = 0 ∧ r.cams.length = 4 ∧
      ∀ j, j < 4 → r.cams[j]? = some true → SeenBy wFull j r.ftnr := by decide +kernel
  obtain ⟨h1, h2, h3⟩ := this r hr
  refine ⟨h1, h2, fun j hj => h3 j ?_ hj⟩
  have := (List.getElem?_eq_some_iff.1 hj).1
  omega

/-- Three cameras with the used records in order: numbers 6 and 5, each found by two. -/
def wOrdered : List FP :=
  [fpIn 6 0, FP.unused, FP.unused, FP.unused, fpIn 6 1, FP.unused, fpIn 5 1, FP.unused,
   FP.unused, fpIn 5 2, FP.unused, FP.unused]

example : wOrdered.Pairwise (fun x y => x.ftnr ≠ TR_UNUSED → y.ftnr ≠ TR_UNUSED →
      camCount wOrdered 3 y.ftnr ≤ camCount wOrdered 3 x.ftnr) ∧
    (∀ r ∈ wOrdered, r.freq = 0 ∧ r.cams.length = 4 ∧
      ∀ j, j < 4 → r.cams[j]? = some true → SeenBy wOrdered j r.ftnr) ∧
    camCount wOrdered 3 5 = 2 := by decide +kernel

/-- C15 is false: swapping two numpy records copies one over the other. A number found by two of
three cameras is lost (first array), and a number is reported eleven times (second array). -/
theorem C15_refuted :
    (FreshRows wRows 3 ∧ camCount wRows 3 5 = 2 ∧ (sortByFreq wRows 3).2 = 1 ∧
      ∀ y ∈ (sortByFreq wRows 3).1, y.ftnr ≠ 5) ∧
    (FreshRows wFull 3 ∧ (sortByFreq wFull 3).1.countP (fun y => y.ftnr = 6) = 11) := by
  refine ⟨⟨wRows_fresh, ?_, ?_, ?_⟩, wFull_fresh, ?_⟩ <;> decide +kernel

/-- C57 (partial): the candidate list that sorted_candidates_in_volume returns is never empty, and
it ends with an unused record - the terminator that every reader of the list relies on - unless
every one of the 4 * num_cams records is used. -/
theorem C57_terminated_partial (a : List FP) (numCams : Nat) (h : FreshRows a numCams)
    (hn : (sortByFreq a numCams).2 < 4 * numCams) :
    ∃ l r, candidateList a numCams = l ++ [r] ∧ r.ftnr = TR_UNUSED ∧
      ∀ x ∈ l, x.ftnr ≠ TR_UNUSED := by
  obtain ⟨h1, h2, h3, h4⟩ := sortByFreq_spec a numCams (camCount a numCams) (countRow_ok h)
  have hlen := h.1
  have hcnt : (sortByFreq a numCams).2 = (sortByFreq a numCams).1.countP (fun r => r.freq ≠ 0) := rfl
  unfold candidateList
  simp only
  generalize (sortByFreq a numCams).1 = b at *
  generalize (sortByFreq a numCams).2 = n at *
  -- a sorted list starts with its non-zero entries
  have key : ∀ (b : List FP) (n : Nat), b.Pairwise (fun x y => y.freq ≤ x.freq) →
      n = b.countP (fun r => r.freq ≠ 0) →
      (∀ x ∈ b.take n, x.freq ≠ 0) ∧ (∀ x ∈ b.drop n, x.freq = 0) := by
    intro b
    induction b with
    | nil => simp
    | cons x xs ih =>
      intro n hp hn
      rw [List.pairwise_cons] at hp
      by_cases hx : x.freq = 0
      · have hz : ∀ y ∈ xs, y.freq = 0 := fun y hy => by have := hp.1 y hy; omega
        have : n = 0 := by
          rw [hn, List.countP_eq_zero]
          intro y hy
          rcases List.mem_cons.1 hy with rfl | hy
          · simp [hx]
          · simp [hz y hy]
        subst this
        simp only [List.take_zero, List.not_mem_nil, false_implies, implies_true, List.drop_zero,
          List.mem_cons, forall_eq_or_imp, true_and]
        exact ⟨hx, hz⟩
      · rw [List.countP_cons_of_pos (by simp [hx])] at hn
        obtain ⟨i1, i2⟩ := ih (n - 1) hp.2 (by omega)
        obtain ⟨n', rfl⟩ : ∃ n', n = n' + 1 := ⟨n - 1, by omega⟩
        simp only [Nat.add_sub_cancel] at i1 i2
        simp only [List.take_succ_cons, List.mem_cons, forall_eq_or_imp, List.drop_succ_cons]
        exact ⟨⟨hx, i1⟩, i2⟩
  obtain ⟨k1, k2⟩ := key b n h2 hcnt
  split_ifs with hpos
  · obtain ⟨r, hr⟩ : ∃ r, b[n]? = some r := ⟨_, List.getElem?_eq_getElem (by omega)⟩
    refine ⟨b.take n, r, ?_, ?_, ?_⟩
    · rw [List.take_add_one, hr]; rfl
    · have hmem : r ∈ b.drop n := by
        rw [List.mem_iff_getElem?]; exact ⟨0, by rw [List.getElem?_drop]; exact hr⟩
      rcases (h3 r (List.mem_of_getElem? hr)).1 with ⟨q, -⟩ | ⟨-, -, q⟩
      · exact q
      · exact absurd (k2 r hmem) q
    · intro x hx
      rcases (h3 x (List.mem_of_mem_take hx)).1 with ⟨-, q⟩ | ⟨q, -, -⟩
      · exact absurd q (k1 x hx)
      · exact q
  · exact ⟨[], FP.unused, rfl, rfl, by simp⟩

example : (sortByFreq wRows 3).2 < 4 * 3 := by decide +kernel

/-- C57 is false: number 6 sits in the last slot of the last camera and is copied over every unused
record in front of it; the list has no terminator. -/
theorem C57_refuted : FreshRows wFull 3 ∧ (∀ y ∈ candidateList wFull 3, y.ftnr ≠ TR_UNUSED) := by
  refine ⟨wFull_fresh, ?_⟩
  decide +kernel

end Verif.Track
