/-
C01-C07, C56: correspondence properties. Statements use only the model's API functions and the
vocabulary of Verif/Spec/Correspondences.lean.
-/
import Verif.Proofs.Pipeline

namespace Verif.Corr
open Verif.Corr.Spec

set_option linter.unusedSectionVars false
variable {K : Type} [Field K] [LinearOrder K]

/-! ### A concrete sort, used only to show that hypotheses can be met -/

/-- Insertion sort by `corr`: one admissible behaviour of `numpy.sort`. -/
def exampleSort : NpSort K where
  run xs := xs.insertionSort (fun a b => a.corr ≤ b.corr)
  perm xs := List.perm_insertionSort _ xs
  sorted xs := by
    have : Std.Total (fun a b : NTuple K => a.corr ≤ b.corr) := ⟨fun a b => le_total a.corr b.corr⟩
    have : IsTrans (NTuple K) (fun a b : NTuple K => a.corr ≤ b.corr) := ⟨fun _ _ _ => le_trans⟩
    exact List.pairwise_insertionSort _ xs

/-! ### C01 -/

/-- C01: the tuples taken are pairwise disjoint in every camera, none contains an already used
target, and the usage table afterwards counts exactly the taken tuples in addition. -/
theorem C01_targets_never_reused (srt : NpSort K) (src src' T : List (NTuple K)) (n : Nat)
    (u u' : Usage) (h : takeBest srt src n u = .ok (src', T, u')) :
    T.Pairwise (fun a b => ¬ Share n a b) ∧ (∀ t ∈ T, ¬ Taken n u t) ∧
    ∀ c k, mark u' c k = mark u c k + useCount n T c k := by
  obtain ⟨-, hl⟩ := takeBest_inv h
  obtain ⟨-, b, c, -, e, -⟩ := takeLoop_spec hl
  exact ⟨c, b, e⟩

/-- C01: the call raises no exception when every target number fits the usage table. -/
theorem C01_no_exception (srt : NpSort K) (src : List (NTuple K)) (n : Nat) (u : Usage)
    (h : ∀ t ∈ src, InTable n u t) : ∃ r, takeBest srt src n u = .ok r :=
  takeBest_total h

/-- C01: with nothing used before, each target occurs in at most one taken tuple. -/
theorem C01_used_at_most_once (srt : NpSort K) (src src' T : List (NTuple K)) (n nmax : Nat)
    (u' : Usage) (h : takeBest srt src n (Usage.empty nmax) = .ok (src', T, u')) (c : Fin 4)
    (k : Nat) : mark u' c k ≤ 1 := by
  obtain ⟨hpw, -, hm⟩ := C01_targets_never_reused srt src src' T n _ _ h
  rw [hm, mark_empty, Nat.zero_add]
  clear h hm
  induction T with
  | nil => simp [useCount]
  | cons t T ih =>
    have hp := List.pairwise_cons.1 hpw
    simp only [useCount, List.countP_cons, decide_eq_true_eq]
    split_ifs with hu
    · have : T.countP (fun t => decide (Uses n t c k)) = 0 := by
        rw [List.countP_eq_zero]
        intro t' ht' hu'
        exact hp.1 t' ht' ⟨c, k, hu, by simpa using hu'⟩
      omega
    · exact ih hp.2

/-- Three conflicting candidates; the best two that fit together are taken. -/
example : (takeBest (K := ℚ) exampleSort
    [⟨![0, 1, -2, -2], .fin 1⟩, ⟨![0, 0, 0, 0], .fin 3⟩, ⟨![1, -2, 1, -2], .fin 2⟩] 4
    (Usage.empty 3)).map (fun r => r.2.1) =
    .ok [⟨![0, 0, 0, 0], .fin 3⟩, ⟨![1, -2, 1, -2], .fin 2⟩] := by decide +kernel

/-! ### C02 -/

/-- C02: only input tuples are returned (with multiplicity), in non-increasing correlation, and
every input tuple not returned contains an already used target or shares a target with a returned
tuple of at least its correlation. -/
theorem C02_greedy_maximal (srt : NpSort K) (src src' T : List (NTuple K)) (n : Nat)
    (u u' : Usage) (h : takeBest srt src n u = .ok (src', T, u')) :
    T.Subperm src ∧ T.Pairwise (fun a b => b.corr ≤ a.corr) ∧
    ∀ x ∈ src, x ∈ T ∨ Taken n u x ∨ ∃ t ∈ T, Share n t x ∧ x.corr ≤ t.corr := by
  obtain ⟨hs, hl⟩ := takeBest_inv h
  obtain ⟨a, -, -, -, -, f⟩ := takeLoop_spec hl
  subst hs
  refine ⟨a.subperm.trans (perm_desc srt src).subperm,
    List.Pairwise.sublist a (sorted_desc srt src), ?_⟩
  intro x hx
  exact f (sorted_desc srt src) x ((perm_desc srt src).mem_iff.2 hx)

/-- C02: the source array is only reordered (best first), nothing is lost from it. -/
theorem C02_source_reordered (srt : NpSort K) (src src' T : List (NTuple K)) (n : Nat)
    (u u' : Usage) (h : takeBest srt src n u = .ok (src', T, u')) :
    src'.Perm src ∧ src'.Pairwise (fun a b => b.corr ≤ a.corr) := by
  obtain ⟨rfl, -⟩ := takeBest_inv h
  exact ⟨perm_desc srt src, sorted_desc srt src⟩

/-- C02: running the selection again on the same candidates takes nothing that has a target. -/
theorem C02_second_run_takes_nothing (srt : NpSort K) (src src' T src2 T2 : List (NTuple K)) (n : Nat)
    (u u' u2 : Usage) (h : takeBest srt src n u = .ok (src', T, u'))
    (h2 : takeBest srt src' n u' = .ok (src2, T2, u2)) :
    ∀ t ∈ T2, ¬ ∃ c k, Uses n t c k := by
  intro t ht hu
  obtain ⟨hsub, -⟩ := C02_greedy_maximal srt src' src2 T2 n u' u2 h2
  exact (C01_targets_never_reused srt src' src2 T2 n u' u2 h2).2.1 t ht
    (takeBest_blocks h t (hsub.subset ht) hu)

/-! ### C04 -/

/-- The comparison with the acceptance threshold is numpy's `<=`: false as soon as a nan is involved. -/
theorem C04_numpy_comparison (a b : Fl K) : a.npLe b = true ↔ a ≠ .nan ∧ b ≠ .nan ∧
    (a = .ninf ∨ b = .pinf ∨ ∃ x y : K, a = .fin x ∧ b = .fin y ∧ x ≤ y) := by
  have hlt : ∀ a b : Fl K, a ≤ b ↔ a.key ≤ b.key := fun _ _ => Iff.rfl
  cases a <;> cases b <;> simp [Fl.npLe, hlt, Fl.key, Prod.Lex.le_iff]

/-- C04: every tuple found is a consistent quadruplet; and every consistent quadruplet is found
unless the scratch array was filled. -/
theorem C04_quadruplets_exact (A : Adj K) (nt : Fin 4 → Nat) (accept : Fl K) (size : Nat)
    (hA : WF A nt) :
    (∀ t ∈ fourCameraMatching A (nt 0) accept size, IsQuad A (nt 0) accept t) ∧
    ((fourCameraMatching A (nt 0) accept size).length < size →
      ∀ t, IsQuad A (nt 0) accept t → t ∈ fourCameraMatching A (nt 0) accept size) := by
  constructor
  · intro t ht
    have ht := List.mem_of_mem_take ht
    rw [List.mem_flatMap] at ht
    obtain ⟨i, hi, ht⟩ := ht
    rw [List.mem_range] at hi
    rw [mem_fourOf] at ht
    obtain ⟨s12, s13, s14, s23, s24, s34, l12, l13, l14, l23, e23, l24, e24, l34, e34, hle, rfl⟩ := ht
    refine ⟨i, s12.p2, s13.p2, s14.p2, s12, s13, s14, s23, s24, s34, hi, ?_, ⟨l12, rfl⟩, ⟨l13, rfl⟩,
      ⟨l14, rfl⟩, ⟨l23, e23⟩, ⟨l24, e24⟩, ⟨l34, e34⟩, rfl, hle⟩
    rw [(hA 0 1 (by decide) i hi).1]
  · intro hlen t ht
    obtain ⟨p1, p2, p3, p4, s12, s13, s14, s23, s24, s34, hi, hp, ⟨l12, rfl⟩, ⟨l13, rfl⟩,
      ⟨l14, rfl⟩, ⟨l23, e23⟩, ⟨l24, e24⟩, ⟨l34, e34⟩, hcorr, hle⟩ := ht
    unfold fourCameraMatching at hlen ⊢
    rw [List.length_take] at hlen
    rw [List.take_of_length_le (by omega)]
    rw [List.mem_flatMap]
    refine ⟨p1, List.mem_range.2 hi, ?_⟩
    rw [mem_fourOf]
    refine ⟨s12, s13, s14, s23, s24, s34, l12, l13, l14, l23, e23, l24, e24, l34, e34, ?_, ?_⟩
    · rw [← hcorr]; exact hle
    · obtain ⟨p, corr⟩ := t
      simp only at hp hcorr
      rw [(hA 0 1 (by decide) p1 hi).1]
      subst hp; subst hcorr; rfl

/-- Adjacency lists of one target per camera, all mutually linked. -/
def exampleAdj : Adj ℚ := matchPairs (fun _ => 1) (fun _ _ _ => [⟨0, 6, 1⟩])

theorem exampleAdj_wf : WF exampleAdj (fun _ => 1) :=
  matchPairs_wf _ _ (by intro c1 c2 i s hs; simp at hs; simp [hs])

example : WF exampleAdj (fun _ => 1) ∧
    fourCameraMatching exampleAdj 1 (.fin 5) 40000 = [⟨![0, 0, 0, 0], .fin 6⟩] :=
  ⟨exampleAdj_wf, by decide +kernel⟩

/-- C04: the adjacency lists that match_pairs builds have the assumed shape, whenever
find_candidate returns existing targets (which is C08). -/
theorem C04_adjacency_wellformed (nt : Fin 4 → Nat) (find : Fin 4 → Fin 4 → Nat → List (Slot K))
    (hf : ∀ c1 c2 i, ∀ s ∈ find c1 c2 i, s.p2 < nt c2) : WF (matchPairs nt find) nt :=
  matchPairs_wf nt find hf

/-! ### C05 -/

/-- The slot found for `p3` is a valid link unless it is a stale zero slot. -/
theorem findSlot_valid {A : Adj K} {nt : Fin 4 → Nat} (hA : WF A nt) {c2 c3 : Fin 4} (h : c2 < c3)
    {p2 p3 : Nat} (hp2 : p2 < nt c2) (hp3 : p3 ≠ 0) {s : Slot K}
    (hf : findSlot (A c2 c3 p2) p3 = some s) : Link A c2 c3 p2 s ∧ s.p2 = p3 := by
  obtain ⟨-, -, -, -, hz⟩ := hA c2 c3 h p2 hp2
  have h1 := List.find?_some hf
  have h2 := List.mem_of_find?_eq_some hf
  have h1 : s.p2 = p3 := by simpa using h1
  refine ⟨?_, h1⟩
  rw [← List.take_append_drop (A c2 c3 p2).n (A c2 c3 p2).slots, List.mem_append] at h2
  rcases h2 with h2 | h2
  · exact h2
  · have := hz s h2
    subst this
    exact absurd h1.symm hp3

/-- C05 (part that holds): every triplet reported whose highest-numbered camera does not use
target number 0 is a consistent triplet of unused, mutually linked targets. Missing: triplets
that use target 0 there, see `C05_refuted`. -/
theorem C05_triplets_sound_partial (A : Adj K) (nt : Fin 4 → Nat) (accept : Fl K) (size nmax : Nat)
    (u : Usage) (hA : WF A nt) (hnt : ∀ c, nt c ≤ nmax) (hu : ∀ c, (u c).length = nmax) :
    ∃ r, threeCameraMatching nmax A nt accept size u = .ok r ∧
      ∀ t ∈ r, IsTriplet A nt accept u t ∨
        ∃ c1 c2 c3 : Fin 4, c1 < c2 ∧ c2 < c3 ∧ 0 ≤ t.p c1 ∧ 0 ≤ t.p c2 ∧ t.p c3 = 0 := by
  refine ⟨(threePure A nt accept u).take size, ?_, ?_⟩
  · unfold threeCameraMatching; rw [threeAll_ok hA hnt hu]; rfl
  intro t ht
  have ht := List.mem_of_mem_take ht
  rw [mem_threePure] at ht
  obtain ⟨c1, c2, c3, i, s12, s13, s23, h12, h23, hi, m1, l12, m2, l13, m3, hf, hle, rfl⟩ := ht
  obtain ⟨hp1, -, -, hs12, -⟩ := hA c1 c2 h12 i hi
  have b12 := hs12 _ l12
  obtain ⟨e1, e2, e3, e4, e5⟩ := mkTuple3 h12 h23 (A c1 c2 i).p1 s12.p2 s13.p2
    (Fl.npDiv (s12.corr + s13.corr + s23.corr) (s12.dist + s13.dist + s23.dist))
  by_cases hz : s13.p2 = 0
  · right
    exact ⟨c1, c2, c3, h12, h23, by rw [e1, hp1]; omega, by rw [e2]; omega, by rw [e3, hz]; rfl⟩
  · left
    obtain ⟨l23, e23⟩ := findSlot_valid hA h23 b12 hz hf
    refine ⟨c1, c2, c3, i, s12.p2, s13.p2, s12, s13, s23, h12, h23, hi, by rw [e1, hp1], e2, e3, e4,
      ?_, m2, m3, ⟨l12, rfl⟩, ⟨l13, rfl⟩, ⟨l23, e23⟩, e5, ?_⟩
    · rw [hp1] at m1; simpa using m1
    · rw [e5]; exact hle

/-- C05: conversely, when candidate rows have no repeated target and the scratch array was not
filled, every consistent triplet is reported. -/
theorem C05_triplets_complete (A : Adj K) (nt : Fin 4 → Nat) (accept : Fl K) (size nmax : Nat)
    (u : Usage) (hA : WF A nt) (hnt : ∀ c, nt c ≤ nmax) (hu : ∀ c, (u c).length = nmax)
    (hnd : ∀ c1 c2 i, ((A c1 c2 i).valid.map Slot.p2).Nodup) (r : List (NTuple K))
    (hr : threeCameraMatching nmax A nt accept size u = .ok r) (hlen : r.length < size) :
    ∀ t, IsTriplet A nt accept u t → t ∈ r := by
  have hr' : (threePure A nt accept u).take size = r := by
    unfold threeCameraMatching at hr; rw [threeAll_ok hA hnt hu] at hr
    simpa [bind, Except.bind] using hr
  subst hr'
  rintro t ⟨c1, c2, c3, p1, p2, p3, s12, s13, s23, h12, h23, hi, t1, t2, t3, t4, m1, m2, m3,
    ⟨l12, rfl⟩, ⟨l13, rfl⟩, ⟨l23, e23⟩, hcorr, hle⟩
  rw [List.length_take] at hlen
  rw [List.take_of_length_le (by omega), mem_threePure]
  have hp1 := (hA c1 c2 h12 p1 hi).1
  have hfind : findSlot (A c2 c3 s12.p2) s13.p2 = some s23 := by
    unfold findSlot
    rw [← List.take_append_drop (A c2 c3 s12.p2).n (A c2 c3 s12.p2).slots, List.find?_append]
    have : ((A c2 c3 s12.p2).slots.take (A c2 c3 s12.p2).n).find? (fun s => decide (s.p2 = s13.p2))
        = some s23 := by
      have hnd' := hnd c2 c3 s12.p2
      unfold Link Row.valid at l23
      unfold Row.valid at hnd'
      generalize (A c2 c3 s12.p2).slots.take (A c2 c3 s12.p2).n = L at l23 hnd'
      induction L with
      | nil => simp at l23
      | cons a L ih =>
        rw [List.map_cons, List.nodup_cons] at hnd'
        rcases List.mem_cons.1 l23 with rfl | h
        · simp [e23]
        · have : a.p2 ≠ s13.p2 := by
            intro h'
            exact hnd'.1 (by rw [h', ← e23]; exact List.mem_map_of_mem h)
          rw [List.find?_cons]; simp [this]
          simpa using ih h hnd'.2
    rw [this]; rfl
  refine ⟨c1, c2, c3, p1, s12, s13, s23, h12, h23, hi, ?_, l12, m2, l13, m3, hfind, ?_, ?_⟩
  · rw [hp1]; simpa using m1
  · rw [← hcorr]; exact hle
  · obtain ⟨e1, e2, e3, e4, e5⟩ := mkTuple3 h12 h23 (A c1 c2 p1).p1 s12.p2 s13.p2
      (Fl.npDiv (s12.corr + s13.corr + s23.corr) (s12.dist + s13.dist + s23.dist))
    obtain ⟨p, corr⟩ := t
    simp only at t1 t2 t3 t4 hcorr
    have : p = (mkTuple [(c1, (A c1 c2 p1).p1), (c2, (s12.p2 : Int)), (c3, (s13.p2 : Int))]
      (Fl.npDiv (s12.corr + s13.corr + s23.corr) (s12.dist + s13.dist + s23.dist))).p := by
      funext c
      by_cases h1 : c = c1
      · subst h1; rw [e1, t1, hp1]
      by_cases h2 : c = c2
      · subst h2; rw [e2, t2]
      by_cases h3 : c = c3
      · subst h3; rw [e3, t3]
      rw [e4 c h1 h2 h3, t4 c h1 h2 h3]
    rw [this, hcorr]; rfl

/-- Targets 0 of cameras 0,1 and of cameras 0,2 are linked; cameras 1,2 have no link at all. -/
def staleAdj : Adj ℚ := matchPairs (fun _ => 1)
  (fun c1 c2 _ => if c1 = 0 ∧ (c2 = 1 ∨ c2 = 2) then [⟨0, 6, 1⟩] else [])

/-- C05 refuted: a triplet is reported although cameras 1 and 2 are not linked at all. -/
theorem C05_refuted : WF staleAdj (fun _ => 1) ∧ ∃ r t,
    threeCameraMatching NMAX staleAdj (fun _ => 1) (.fin 5) 40000 (Usage.empty NMAX) = .ok r ∧
    t ∈ r ∧ ¬ IsTriplet staleAdj (fun _ => 1) (.fin 5) (Usage.empty NMAX) t ∧
    (staleAdj 1 2 0).valid = [] := by
  have hA : WF staleAdj (fun _ => 1) := matchPairs_wf _ _ (by
    intro c1 c2 i s hs
    split_ifs at hs <;> simp at hs
    simp [hs])
  have hv : (staleAdj 1 2 0).valid = [] := by decide +kernel
  refine ⟨hA, (threePure staleAdj (fun _ => 1) (.fin 5) (Usage.empty NMAX)).take 40000,
    mkTuple [(0, 0), (1, 0), (2, 0)] (.fin 6), ?_, ?_, ?_, hv⟩
  · unfold threeCameraMatching
    rw [threeAll_ok hA (fun _ => by decide) (fun _ => by simp [Usage.empty])]; rfl
  · have hmem : mkTuple [(0, 0), (1, 0), (2, 0)] (.fin 6) ∈
        threePure staleAdj (fun _ => 1) (.fin 5) (Usage.empty NMAX) := by
      rw [mem_threePure]
      refine ⟨0, 1, 2, 0, ⟨0, 6, 1⟩, ⟨0, 6, 1⟩, Slot.zero, by decide, by decide, by decide,
        mark_empty _ _ _, by unfold Link; decide +kernel, mark_empty _ _ _,
        by unfold Link; decide +kernel, mark_empty _ _ _,
        by decide +kernel, by decide +kernel, by decide +kernel⟩
    rw [List.take_of_length_le]
    · exact hmem
    · have : threePure staleAdj (fun _ => 1) (.fin 5) (Usage.empty NMAX) =
          threePure staleAdj (fun _ => 1) (.fin 5) (fun _ => []) := by
        unfold threePure
        simp only [mark_empty]
        rfl
      rw [this]
      decide +kernel
  · rintro ⟨c1, c2, c3, p1, p2, p3, s12, s13, s23, h12, h23, hi, t1, t2, t3, -, -, -, -, -, -,
      ⟨l23, -⟩, -⟩
    have hpos : ∀ c : Fin 4, (mkTuple [(0, 0), (1, 0), (2, 0)] (.fin (6 : ℚ))).p c = -2 ↔ c = 3 := by
      decide
    have n1 : c1 ≠ 3 := fun h => by rw [(hpos c1).2 h] at t1; omega
    have n2 : c2 ≠ 3 := fun h => by rw [(hpos c2).2 h] at t2; omega
    have n3 : c3 ≠ 3 := fun h => by rw [(hpos c3).2 h] at t3; omega
    have h1 : c2 = 1 ∧ c3 = 2 := by omega
    obtain ⟨rfl, rfl⟩ := h1
    have : p2 = 0 := by
      have e : (mkTuple [(0, 0), (1, 0), (2, 0)] (.fin (6 : ℚ))).p 1 = 0 := by decide
      rw [e] at t2; omega
    subst this
    unfold Link at l23
    rw [hv] at l23
    simp at l23

/-! ### C06 -/

/-- C06: the pairs reported are exactly the unambiguous pairs of unused targets above the
threshold (completeness unless the scratch array was filled); no exception is raised. -/
theorem C06_pairs_exact (A : Adj K) (nt : Fin 4 → Nat) (accept : Fl K) (size nmax : Nat)
    (u : Usage) (hA : WF A nt) (hnt : ∀ c, nt c ≤ nmax) (hu : ∀ c, (u c).length = nmax) :
    ∃ r, consistentPairMatching nmax A nt accept size u = .ok r ∧
      (∀ t ∈ r, IsPair A nt accept u t) ∧
      (r.length < size → ∀ t, IsPair A nt accept u t → t ∈ r) := by
  refine ⟨(pairsPure A nt accept u).take size, ?_, ?_, ?_⟩
  · unfold consistentPairMatching; rw [pairsAll_ok hA hnt hu]; rfl
  · intro t ht
    have ht := List.mem_of_mem_take ht
    rw [mem_pairsPure] at ht
    obtain ⟨c1, c2, i, s, h12, hi, m1, hv, m2, hle, rfl⟩ := ht
    have hp1 := (hA c1 c2 h12 i hi).1
    obtain ⟨e1, e2, e4, e5⟩ := mkTuple2 h12 (A c1 c2 i).p1 s.p2 (Fl.npDiv s.corr s.dist)
    refine ⟨c1, c2, i, s, h12, hi, hv, by rw [e1, hp1], e2, e4, ?_, m2, e5, by rw [e5]; exact hle⟩
    rw [hp1] at m1; simpa using m1
  · rintro hlen t ⟨c1, c2, p1, s, h12, hi, hv, t1, t2, t4, m1, m2, hcorr, hle⟩
    rw [List.length_take] at hlen
    rw [List.take_of_length_le (by omega), mem_pairsPure]
    have hp1 := (hA c1 c2 h12 p1 hi).1
    refine ⟨c1, c2, p1, s, h12, hi, by rw [hp1]; simpa using m1, hv, m2, by rw [← hcorr]; exact hle, ?_⟩
    obtain ⟨e1, e2, e4, e5⟩ := mkTuple2 h12 (A c1 c2 p1).p1 s.p2 (Fl.npDiv s.corr s.dist)
    obtain ⟨p, corr⟩ := t
    simp only at t1 t2 t4 hcorr
    have : p = (mkTuple [(c1, (A c1 c2 p1).p1), (c2, (s.p2 : Int))] (Fl.npDiv s.corr s.dist)).p := by
      funext c
      by_cases h1 : c = c1
      · subst h1; rw [e1, t1, hp1]
      by_cases h2 : c = c2
      · subst h2; rw [e2, t2]
      rw [e4 c h1 h2, t4 c h1 h2]
    rw [this, hcorr]; rfl

example : WF exampleAdj (fun _ => 1) ∧ (∀ c : Fin 4, (Usage.empty 1 c).length = 1) ∧
    (consistentPairMatching 1 exampleAdj (fun _ => 1) (.fin 5) 4 (Usage.empty 1)).map
      List.length = .ok 4 :=
  ⟨exampleAdj_wf, by decide, by decide +kernel⟩

/-! ### C07 -/

/-- C07 (part that holds): every reported quadruplet was found by the quadruplet search or is the
all-zero initial content of the scratch array; every reported triplet and pair was found by the
triplet/pair search of its own stage, run with the targets of the earlier stages marked used.
Missing: the all-zero tuple, see `C07_refuted`. -/
theorem C07_only_found_reported_partial (srt : NpSort K) (A : Adj K) (nt : Fin 4 → Nat) (corrmin : Fl K)
    (allCam : Bool) (hA : WF A nt) (hnt : ∀ c, nt c ≤ NMAX) :
    ∃ q t p u1 u2, stages srt NMAX A nt corrmin allCam = .ok (q, t, p) ∧
      (∀ x ∈ q, IsQuad A (nt 0) corrmin x ∨ x = NTuple.zero) ∧
      (∀ c k, mark u1 c k = useCount 4 q c k) ∧
      (∀ x ∈ t, ∃ r, threeCameraMatching NMAX A nt corrmin (4 * NMAX) u1 = .ok r ∧ x ∈ r) ∧
      (∀ c k, mark u2 c k = useCount 4 (q ++ t) c k) ∧
      (∀ x ∈ p, IsPair A nt corrmin u2 x) := by
  obtain ⟨q, t, p, u1, u2, h, -, m1, m2, l1, l2, hq, ht, hp, -⟩ :=
    stages_spec (srt := srt) (corrmin := corrmin) (allCam := allCam) hA hnt (by decide)
  refine ⟨q, t, p, u1, u2, h, ?_, m1, ?_, m2, ?_⟩
  · intro x hx
    rcases hq x hx with h | ⟨h, -⟩
    · exact Or.inl ((C04_quadruplets_exact A nt corrmin _ hA).1 x h)
    · exact Or.inr h
  · intro x hx
    refine ⟨_, ?_, ht x hx⟩
    unfold threeCameraMatching; rw [threeAll_ok hA hnt l1]; rfl
  · intro x hx
    obtain ⟨r, hr, hr2, -⟩ := C06_pairs_exact A nt corrmin (4 * NMAX) NMAX u2 hA hnt l2
    have : consistentPairMatching NMAX A nt corrmin (4 * NMAX) u2 =
        .ok ((pairsPure A nt corrmin u2).take (4 * NMAX)) := by
      unfold consistentPairMatching; rw [pairsAll_ok hA hnt l2]; rfl
    rw [this] at hr
    have hr := Except.ok.inj hr
    subst hr
    exact hr2 x (hp x hx)

/-- C07 refuted, in general form: whenever no consistent quadruplet contains target number 0 of
any camera (and the scratch array was not filled), the tuple (0,0,0,0) with correlation 0, which
nobody found, is reported as a quadruplet. -/
theorem C07_spurious_zero_tuple (srt : NpSort K) (A : Adj K) (nt : Fin 4 → Nat) (corrmin : Fl K)
    (allCam : Bool) (hA : WF A nt) (hnt : ∀ c, nt c ≤ NMAX)
    (hno : ∀ t, IsQuad A (nt 0) corrmin t → ∀ c, ¬ Uses 4 t c 0)
    (hfew : (fourCameraMatching A (nt 0) corrmin (4 * NMAX)).length < NMAX * 4) :
    ∃ q t p, stages srt NMAX A nt corrmin allCam = .ok (q, t, p) ∧ NTuple.zero ∈ q := by
  obtain ⟨q, t, p, u1, u2, h, -, m1, m2, l1, l2, hq, ht, hp, hz, -⟩ :=
    stages_spec (srt := srt) (corrmin := corrmin) (allCam := allCam) hA hnt (by decide)
  refine ⟨q, t, p, h, ?_⟩
  obtain ⟨y, hy, c, hu⟩ := hz hfew
  rcases hq y hy with h | ⟨h, -⟩
  · exact absurd hu (hno y ((C04_quadruplets_exact A nt corrmin _ hA).1 y h) c)
  · rwa [← h]

/-- Adjacency lists without any link. -/
def emptyAdj : Adj ℚ := matchPairs (fun _ => 1) (fun _ _ _ => [])

/-- C07 refuted: with no link between any two targets, a quadruplet is nevertheless reported. -/
theorem C07_refuted (srt : NpSort ℚ) : ∃ q t p x,
    stages srt NMAX emptyAdj (fun _ => 1) (.fin 33) false = .ok (q, t, p) ∧ x ∈ q ∧
    ¬ IsQuad emptyAdj 1 (.fin 33) x := by
  have hA : WF emptyAdj (fun _ => 1) := matchPairs_wf _ _ (by intro c1 c2 i s hs; simp at hs)
  have hnone : ∀ x, ¬ IsQuad emptyAdj 1 (.fin 33) x := by
    rintro x ⟨p1, p2, p3, p4, s12, -, -, -, -, -, h1, -, ⟨l12, -⟩, -⟩
    have : p1 = 0 := by omega
    subst this
    have hv : (emptyAdj 0 1 0).valid = [] := by decide +kernel
    unfold Link at l12; rw [hv] at l12; simp at l12
  obtain ⟨q, t, p, h, hz⟩ := C07_spurious_zero_tuple srt emptyAdj (fun _ => 1) (.fin 33) false hA
    (fun _ => by decide) (fun t ht => absurd ht (hnone t)) (by decide +kernel)
  exact ⟨q, t, p, NTuple.zero, h, hz, hnone _⟩

/-! ### C03 -/

/-- What the caller of `correspondences` must supply: per camera between 1 and NMAX targets, an
x-sorted coordinate list naming each target once, and candidate lists of existing targets. -/
structure ValidInput (nt : Fin 4 → Nat) (find : Fin 4 → Fin 4 → Nat → List (Slot K))
    (corrected : Fin 4 → List Int) (tnr : Tnr) : Prop where
  pos : ∀ c, 0 < nt c
  le : ∀ c, nt c ≤ NMAX
  cand : ∀ c1 c2 i, ∀ s ∈ find c1 c2 i, s.p2 < nt c2
  len : ∀ c, (corrected c).length = nt c
  tlen : ∀ c, (tnr c).length = nt c
  range : ∀ c, ∀ v ∈ corrected c, 0 ≤ v ∧ v < nt c
  nodup : ∀ c, (corrected c).Nodup

/-- C03: for every valid input the call returns normally; no two reported n-tuples (from any stage)
share a target; the output array has room for all of them; each target's correspondence number is
the position of the n-tuple that contains it; other targets keep their correspondence number. -/
theorem C03_each_target_in_one_correspondence (srt : NpSort K) (nt : Fin 4 → Nat)
    (find : Fin 4 → Fin 4 → Nat → List (Slot K)) (corrmin : Fl K) (allCam : Bool)
    (corrected : Fin 4 → List Int) (tnr : Tnr) (hv : ValidInput nt find corrected tnr) :
    ∃ r, correspondences srt NMAX nt find corrmin allCam corrected tnr = .ok r ∧
      r.con.Pairwise (fun a b => ¬ Share 4 a b) ∧
      r.con.length ≤ NMAX * 4 ∧
      (∀ (j : Nat) t, r.con[j]? = some t → ∀ c k, Uses 4 t c k →
        ∃ v, (corrected c)[k]? = some v ∧ (r.tnr c)[v.toNat]? = some (j : Int)) ∧
      (∀ c (m : Nat), (∀ t ∈ r.con, ∀ k, Uses 4 t c k → (corrected c)[k]? ≠ some (m : Int)) →
        (r.tnr c)[m]? = (tnr c)[m]?) := by
  have hA := matchPairs_wf nt find hv.cand
  obtain ⟨q, t, p, u1, u2, hst, hpw, -, -, -, -, -, -, -, -, -, -, -, -, -, huse, hbd, -⟩ :=
    stages_spec (srt := srt) (corrmin := corrmin) (allCam := allCam) hA hv.le (by decide)
  have hk : ∀ x ∈ q ++ t ++ p, ∀ c k, Uses 4 x c k → k < nt c := by
    intro x hx c k hu
    rcases hbd x hx c k hu with h | rfl
    · exact h
    · have : k = 0 := by simp [Uses, NTuple.zero] at hu; omega
      subst this; exact hv.pos c
  obtain ⟨tnr', h1, h2, h3, h4⟩ := assignAll_spec (corrected := corrected) (i := 0)
    (ts := q ++ t ++ p) (tnr := tnr) hpw
    (fun x hx c k hu => by rw [hv.len]; exact hk x hx c k hu)
    (fun c v hvm => by
      have := hv.range c v hvm
      have h10 := hv.le c
      have hN : NMAX = 10000 := rfl
      refine ⟨this.1, ?_, ?_⟩
      · rw [hv.tlen]; omega
      · omega)
    hv.nodup
  refine ⟨⟨q, t, p, tnr'⟩, ?_, hpw, ?_, ?_, h4⟩
  · unfold correspondences
    simp only [hst, h1, bind, Except.bind]
  · have := pairwise_bound (nmax := NMAX) hpw (fun x hx => by
      obtain ⟨c, k, hu⟩ := huse x hx
      exact ⟨c, k, hu, lt_of_lt_of_le (hk x hx c k hu) (hv.le c)⟩)
    show (q ++ t ++ p).length ≤ _
    omega
  · intro j x hj c k hu
    have hlt : k < (corrected c).length := by
      rw [hv.len]; exact hk x (List.mem_of_getElem? hj) c k hu
    refine ⟨(corrected c)[k], by simp [hlt], ?_⟩
    have := h3 j x hj c k hu _ (by simp [hlt] : (corrected c)[k]? = some (corrected c)[k])
    simpa using this

/-- One target per camera, mutually linked: a valid input. -/
example : ValidInput (fun _ => 1) (fun _ _ _ => [⟨0, 6, 1⟩]) (fun _ => [0]) (fun _ => [-1]) := by
  constructor <;> first | decide +kernel | (intro c1 c2 i s hs; simp at hs; simp [hs])

/-- C03: if some camera sees no target at all, the call always raises IndexError (it assigns the
all-zero tuple to target 0 of every camera). -/
theorem C03_empty_camera_raises (srt : NpSort K) (nt : Fin 4 → Nat)
    (find : Fin 4 → Fin 4 → Nat → List (Slot K)) (corrmin : Fl K) (allCam : Bool)
    (corrected : Fin 4 → List Int) (tnr : Tnr) (hle : ∀ c, nt c ≤ NMAX)
    (hcand : ∀ c1 c2 i, ∀ s ∈ find c1 c2 i, s.p2 < nt c2)
    (hlen : ∀ c, (corrected c).length = nt c) (htlen : ∀ c, (tnr c).length = nt c)
    (hr : ∀ c, ∀ v ∈ corrected c, 0 ≤ v ∧ v < nt c) (c0 : Fin 4) (hempty : nt c0 = 0) :
    correspondences srt NMAX nt find corrmin allCam corrected tnr = .error .indexError := by
  have hA := matchPairs_wf nt find hcand
  obtain ⟨q, t, p, u1, u2, hst, hpw, -, -, -, -, hq, -, -, hz, -, -, -, -, -, huse, hbd, -⟩ :=
    stages_spec (srt := srt) (corrmin := corrmin) (allCam := allCam) hA hle (by decide)
  have hF : fourCameraMatching (matchPairs nt find) (nt 0) corrmin (4 * NMAX) = [] := by
    rw [List.eq_nil_iff_forall_not_mem]
    intro x hx
    obtain ⟨p1, p2, p3, p4, s12, s13, s14, s23, s24, s34, h1, -, ⟨l12, -⟩, ⟨l13, -⟩, ⟨l14, -⟩, -⟩ :=
      (C04_quadruplets_exact _ nt corrmin _ hA).1 x hx
    have b1 := (hA 0 1 (by decide) p1 h1).2.2.2.1 _ l12
    have b2 := (hA 0 2 (by decide) p1 h1).2.2.2.1 _ l13
    have b3 := (hA 0 3 (by decide) p1 h1).2.2.2.1 _ l14
    fin_cases c0 <;> simp at hempty <;> omega
  rw [hF] at hq hz
  obtain ⟨y, hy, -⟩ := hz (by rw [List.length_nil]; decide)
  cases q with
  | nil => simp at hy
  | cons a q =>
    have ha : a = NTuple.zero := by
      rcases hq a (by simp) with h | h
      · simp at h
      · exact h.1
    subst ha
    have key : ∀ (js : List (Fin 4)) (tn : Tnr), (∀ c, (tn c).length = nt c) → c0 ∈ js →
        assignTuple corrected 0 (NTuple.zero : NTuple K) js tn = .error .indexError := by
      intro js
      induction js with
      | nil => intro tn _ h; simp at h
      | cons j js ih =>
        intro tn htn hc
        unfold assignTuple
        have hz0 : (NTuple.zero : NTuple K).p j = 0 := rfl
        rw [if_neg (by rw [hz0]; decide), hz0]
        by_cases hj : nt j = 0
        · have hl : (corrected j)[(0 : Int).toNat]? = none := by
            rw [List.getElem?_eq_none_iff, hlen, hj]; simp
          unfold pyGet; rw [hl]; rfl
        · have hl : (0 : Int).toNat < (corrected j).length := by rw [hlen]; simp; omega
          rw [pyGet_lt hl]
          simp only [bind, Except.bind]
          have hrr := hr j _ (List.getElem_mem hl)
          have h10 := hle j
          have hN : NMAX = 10000 := rfl
          have hl2 : (corrected j)[(0 : Int).toNat].toNat < (tn j).length := by rw [htn]; omega
          rw [if_pos (by omega), pyGet_lt hl2]
          simp only
          apply ih
          · intro c
            by_cases e : c = j
            · subst e; simp [htn]
            · simp [Function.update_of_ne e, htn]
          · rcases List.mem_cons.1 hc with rfl | h
            · exact absurd hempty hj
            · exact h
    unfold correspondences
    simp only [hst, bind, Except.bind, List.cons_append]
    unfold assignAll
    rw [key _ _ htlen ((mem_camRange 4 c0).2 c0.isLt)]
    rfl

/-! ### C56: camera numbers supported by py_correspondences -/

/-- C56 (part that holds): for four cameras the group sizes and the total are delivered, and the
total is the sum of the groups. Missing: two and three cameras, see `C56_refuted`. -/
theorem C56_four_cameras_partial (n4 n3 n2 : Nat) :
    pyCorrespondencesCounts 4 false n4 n3 n2 false = .ok ([n4, n3, n2], n4 + n3 + n2) := by
  simp [pyCorrespondencesCounts, countsBookkeeping, pySet, pyGet, bind, Except.bind,
    List.range, List.range.loop, List.replicate, pure, Except.pure, List.mapM_cons, List.mapM_nil]

/-- C56 refuted: with two or three cameras, whatever the images contain, an exception is raised. -/
theorem C56_refuted (numCams : Nat) (h : numCams = 2 ∨ numCams = 3) (allCam : Bool)
    (n4 n3 n2 : Nat) (err3 : Bool) :
    ∃ e, pyCorrespondencesCounts numCams allCam n4 n3 n2 err3 = .error e := by
  rcases h with rfl | rfl <;> cases allCam <;> cases err3 <;>
    exact ⟨_, by
      simp [pyCorrespondencesCounts, countsBookkeeping, pySet, pyGet, bind, Except.bind,
        List.replicate]; rfl⟩

end Verif.Corr
