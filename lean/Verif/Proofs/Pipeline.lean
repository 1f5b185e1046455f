import Verif.Proofs.Matching
import Mathlib.Data.Fintype.Card
import Mathlib.Data.Fintype.Prod
import Mathlib.Data.Finset.Card
import Mathlib.Tactic.FinCases

namespace Verif.Corr
open Verif.Corr.Spec

set_option linter.unusedSectionVars false
variable {K : Type} [Field K] [LinearOrder K]

theorem takeBest_inv {srt : NpSort K} {src src' T : List (NTuple K)} {n : Nat} {u u' : Usage}
    (h : takeBest srt src n u = .ok (src', T, u')) :
    src' = (srt.run src).reverse ∧ takeLoop (camRange n) src' u = .ok (T, u') := by
  unfold takeBest at h
  cases hl : takeLoop (camRange n) (srt.run src).reverse u with
  | error e => simp [hl, bind, Except.bind] at h
  | ok r =>
    obtain ⟨T', u2⟩ := r
    simp [hl, bind, Except.bind] at h
    obtain ⟨rfl, rfl, rfl⟩ := h
    exact ⟨rfl, hl⟩

theorem sorted_desc (srt : NpSort K) (src : List (NTuple K)) :
    ((srt.run src).reverse).Pairwise (fun a b => b.corr ≤ a.corr) :=
  List.pairwise_reverse.2 (srt.sorted src)

theorem perm_desc (srt : NpSort K) (src : List (NTuple K)) : ((srt.run src).reverse).Perm src :=
  (List.reverse_perm _).trans (srt.perm src)

theorem takeBest_total {srt : NpSort K} {src : List (NTuple K)} {n : Nat} {u : Usage}
    (h : ∀ t ∈ src, InTable n u t) : ∃ r, takeBest srt src n u = .ok r := by
  have : ∀ t ∈ (srt.run src).reverse, InTable n u t := fun t ht =>
    h t ((perm_desc srt src).mem_iff.1 ht)
  obtain ⟨⟨T, u'⟩, hr⟩ := takeLoop_total this
  exact ⟨((srt.run src).reverse, T, u'), by simp [takeBest, hr, bind, Except.bind]⟩

/-- Every candidate that has a target at all is blocked afterwards. -/
theorem takeBest_blocks {srt : NpSort K} {src src' T : List (NTuple K)} {n : Nat} {u u' : Usage}
    (h : takeBest srt src n u = .ok (src', T, u')) :
    ∀ x ∈ src', (∃ c k, Uses n x c k) → Taken n u' x := by
  obtain ⟨rfl, hl⟩ := takeBest_inv h
  obtain ⟨-, -, -, -, e, f⟩ := takeLoop_spec hl
  intro x hx ⟨c, k, hu⟩
  rcases f (sorted_desc srt src) x hx with h1 | ⟨c, k, h1, h2⟩ | ⟨t, h1, ⟨c, k, h2, h3⟩, -⟩
  · refine ⟨c, k, hu, ?_⟩
    rw [e]; have := useCount_pos.2 ⟨x, h1, hu⟩; omega
  · exact ⟨c, k, h1, by rw [e]; omega⟩
  · refine ⟨c, k, h3, ?_⟩
    rw [e]; have := useCount_pos.2 ⟨t, h1, h2⟩; omega

theorem mark_empty (nmax : Nat) (c k) : mark (Usage.empty nmax) c k = 0 := by
  simp only [mark, Usage.empty, List.getElem?_replicate]
  split_ifs <;> rfl

theorem useCount_append (n : Nat) (T T' : List (NTuple K)) (c k) :
    useCount n (T ++ T') c k = useCount n T c k + useCount n T' c k := by
  simp [useCount]

theorem uses_zero (c : Fin 4) : Uses 4 (NTuple.zero : NTuple K) c 0 := by
  simp [Uses, NTuple.zero]

/-- Complete description of the three stages. -/
theorem stages_spec {srt : NpSort K} {nmax : Nat} {A : Adj K} {nt : Fin 4 → Nat} {corrmin : Fl K}
    {allCam : Bool} (hA : WF A nt) (hnt : ∀ c, nt c ≤ nmax) (hn0 : 0 < nmax) :
    ∃ q t p u1 u2, stages srt nmax A nt corrmin allCam = .ok (q, t, p) ∧
      (q ++ t ++ p).Pairwise (fun a b => ¬ Share 4 a b) ∧
      (∀ c k, mark u1 c k = useCount 4 q c k) ∧ (∀ c k, mark u2 c k = useCount 4 (q ++ t) c k) ∧
      (∀ c, (u1 c).length = nmax) ∧ (∀ c, (u2 c).length = nmax) ∧
      (∀ x ∈ q, x ∈ fourCameraMatching A (nt 0) corrmin (4 * nmax) ∨
        (x = NTuple.zero ∧ (fourCameraMatching A (nt 0) corrmin (4 * nmax)).length < nmax * 4)) ∧
      (∀ x ∈ t, x ∈ (threePure A nt corrmin u1).take (4 * nmax)) ∧
      (∀ x ∈ p, x ∈ (pairsPure A nt corrmin u2).take (4 * nmax)) ∧
      ((fourCameraMatching A (nt 0) corrmin (4 * nmax)).length < nmax * 4 →
        ∃ y ∈ q, ∃ c, Uses 4 y c 0) ∧
      (∀ x ∈ fourCameraMatching A (nt 0) corrmin (4 * nmax), x ∈ q ∨
        ∃ y ∈ q, Share 4 y x ∧ x.corr ≤ y.corr) ∧
      (allCam = false →
        (∀ x ∈ (threePure A nt corrmin u1).take (4 * nmax), x ∈ t ∨ Taken 4 u1 x ∨
          ∃ y ∈ t, Share 4 y x ∧ x.corr ≤ y.corr) ∧
        (∀ x ∈ (pairsPure A nt corrmin u2).take (4 * nmax), x ∈ p ∨ Taken 4 u2 x ∨
          ∃ y ∈ p, Share 4 y x ∧ x.corr ≤ y.corr)) ∧
      q.Pairwise (fun a b => b.corr ≤ a.corr) ∧ t.Pairwise (fun a b => b.corr ≤ a.corr) ∧
      p.Pairwise (fun a b => b.corr ≤ a.corr) ∧
      (∀ x ∈ q ++ t ++ p, (∃ c k, Uses 4 x c k)) ∧
      (∀ x ∈ q ++ t ++ p, ∀ c k, Uses 4 x c k → k < nt c ∨ x = NTuple.zero) ∧
      (allCam = true → t = [] ∧ p = []) := by
  set F := fourCameraMatching A (nt 0) corrmin (4 * nmax) with hF
  set con0 := overwrite (List.replicate (nmax * 4) NTuple.zero) F with hc0
  have hFmem : ∀ x ∈ F, (∀ c k, Uses 4 x c k → k < nt c) ∧ ∃ c k, Uses 4 x c k := by
    intro x hx
    rw [hF] at hx
    have hx := List.mem_of_mem_take hx
    rw [List.mem_flatMap] at hx
    obtain ⟨i, hi, hx⟩ := hx
    rw [List.mem_range] at hi
    rw [mem_fourOf] at hx
    obtain ⟨s12, s13, s14, s23, s24, s34, l12, l13, l14, l23, e23, l24, e24, l34, e34, hle, rfl⟩ := hx
    obtain ⟨hp1, -, -, hs12, -⟩ := hA 0 1 (by decide) i hi
    obtain ⟨-, -, -, hs13, -⟩ := hA 0 2 (by decide) i hi
    obtain ⟨-, -, -, hs14, -⟩ := hA 0 3 (by decide) i hi
    have b12 := hs12 _ l12
    have b13 := hs13 _ l13
    have b14 := hs14 _ l14
    refine ⟨?_, 0, i, ?_⟩
    · rintro c k ⟨-, hu⟩
      fin_cases c <;> simp [hp1] at hu ⊢ <;> omega
    · simp [Uses, hp1]
  have hlen : F.length ≤ nmax * 4 := by rw [hF]; simp [fourCameraMatching]; omega
  have hcon0 : ∀ x, x ∈ con0 ↔ x ∈ F ∨ (x = NTuple.zero ∧ F.length < nmax * 4) := by
    intro x
    simp only [hc0, overwrite, List.mem_append, List.drop_replicate, List.mem_replicate]
    constructor
    · rintro (h | ⟨h1, h2⟩)
      · exact Or.inl h
      · exact Or.inr ⟨h2, by omega⟩
    · rintro (h | ⟨h1, h2⟩)
      · exact Or.inl h
      · exact Or.inr ⟨by omega, h1⟩
  have hlu0 : ∀ c, (Usage.empty nmax c).length = nmax := by simp [Usage.empty]
  have hin0 : ∀ x ∈ con0, InTable 4 (Usage.empty nmax) x := by
    intro x hx c k hu
    rw [hlu0]
    rcases (hcon0 x).1 hx with h | ⟨rfl, -⟩
    · exact lt_of_lt_of_le ((hFmem x h).1 c k hu) (hnt c)
    · simp [Uses, NTuple.zero] at hu; omega
  obtain ⟨⟨src1, q, u1⟩, h1⟩ := takeBest_total (srt := srt) hin0
  obtain ⟨hs1, hl1⟩ := takeBest_inv h1
  obtain ⟨sub1, free1, pw1, len1, mark1, max1⟩ := takeLoop_spec hl1
  have hb1 := takeBest_blocks h1
  have hmem1 : ∀ x, x ∈ src1 ↔ x ∈ con0 := by
    intro x; rw [hs1]; exact (perm_desc srt con0).mem_iff
  have hlu1 : ∀ c, (u1 c).length = nmax := by intro c; rw [len1, hlu0]
  have hmark1 : ∀ c k, mark u1 c k = useCount 4 q c k := by
    intro c k; rw [mark1, mark_empty, Nat.zero_add]
  have hq : ∀ x ∈ q, x ∈ F ∨ (x = NTuple.zero ∧ F.length < nmax * 4) := fun x hx =>
    (hcon0 x).1 ((hmem1 x).1 (sub1.subset hx))
  have hmax1 : ∀ x ∈ con0, x ∈ q ∨ ∃ y ∈ q, Share 4 y x ∧ x.corr ≤ y.corr := by
    intro x hx
    rcases max1 (by rw [hs1]; exact sorted_desc srt con0) x ((hmem1 x).2 hx) with h | h | h
    · exact Or.inl h
    · obtain ⟨c, k, -, hk⟩ := h
      rw [mark_empty] at hk; omega
    · exact Or.inr h
  have hzero : F.length < nmax * 4 → ∃ y ∈ q, ∃ c, Uses 4 y c 0 := by
    intro hlt
    rcases hmax1 NTuple.zero ((hcon0 _).2 (Or.inr ⟨rfl, hlt⟩)) with h | ⟨y, hy, ⟨c, k, h1, h2⟩, -⟩
    · exact ⟨_, h, 0, uses_zero 0⟩
    · refine ⟨y, hy, c, ?_⟩
      have : k = 0 := by simp [Uses, NTuple.zero] at h2; omega
      rwa [this] at h1
  have hsrt1 : q.Pairwise (fun a b => b.corr ≤ a.corr) := by
    refine List.Pairwise.sublist sub1 ?_
    rw [hs1]; exact sorted_desc srt con0
  have hqt : ∀ x ∈ q, ∃ c k, Uses 4 x c k := by
    intro x hx
    rcases hq x hx with h | ⟨rfl, -⟩
    · exact (hFmem x h).2
    · exact ⟨0, 0, uses_zero 0⟩
  have hqb : ∀ x ∈ q, ∀ c k, Uses 4 x c k → k < nt c ∨ x = NTuple.zero := by
    intro x hx c k hu
    rcases hq x hx with h | ⟨rfl, -⟩
    · exact Or.inl ((hFmem x h).1 c k hu)
    · exact Or.inr rfl
  have hst : stages srt nmax A nt corrmin allCam = (do
      if allCam then .ok (q, [], [])
      else do
        let found3 ← threeCameraMatching nmax A nt corrmin (4 * nmax) u1
        let (con0, trips, u2) ← takeBest srt (overwrite src1 found3) 4 u1
        let found2 ← consistentPairMatching nmax A nt corrmin (4 * nmax) u2
        let (_, prs, _) ← takeBest srt (overwrite con0 found2) 4 u2
        .ok (q, trips, prs)) := by
    unfold stages
    simp only [← hF, ← hc0, h1, bind, Except.bind]
  rw [hst]
  cases allCam with
  | true =>
    refine ⟨q, [], [], u1, u1, rfl, ?_, hmark1, ?_, hlu1, hlu1, hq, by simp, by simp, hzero,
      ?_, by simp, hsrt1, by simp, by simp, ?_, ?_, by simp⟩
    · simpa using pw1
    · simpa using hmark1
    · exact fun x hx => hmax1 x ((hcon0 x).2 (Or.inl hx))
    · simpa using hqt
    · simpa using hqb
  | false =>
    -- triplet stage
    have h3 : threeCameraMatching nmax A nt corrmin (4 * nmax) u1 =
        .ok ((threePure A nt corrmin u1).take (4 * nmax)) := by
      unfold threeCameraMatching
      rw [threeAll_ok hA hnt hlu1]; rfl
    set F3 := (threePure A nt corrmin u1).take (4 * nmax) with hF3
    have hF3mem : ∀ x ∈ F3, (∀ c k, Uses 4 x c k → k < nt c) ∧ ∃ c k, Uses 4 x c k := by
      intro x hx
      have hx := List.mem_of_mem_take hx
      rw [mem_threePure] at hx
      obtain ⟨c1, c2, c3, i, s12, s13, s23, h12, h23, hi, -, l12, -, l13, -, -, -, rfl⟩ := hx
      obtain ⟨hp1, -, -, hs12, -⟩ := hA c1 c2 h12 i hi
      obtain ⟨-, -, -, hs13, -⟩ := hA c1 c3 (lt_trans h12 h23) i hi
      have b12 := hs12 _ l12
      have b13 := hs13 _ l13
      have hm := mkTuple3 h12 h23 (A c1 c2 i).p1 s12.p2 s13.p2
        (Fl.npDiv (s12.corr + s13.corr + s23.corr) (s12.dist + s13.dist + s23.dist))
      obtain ⟨m1, m2, m3, m4, -⟩ := hm
      refine ⟨?_, c1, i, ?_, ?_⟩
      · rintro c k ⟨-, hu⟩
        by_cases e1 : c = c1
        · subst e1; omega
        by_cases e2 : c = c2
        · subst e2; omega
        by_cases e3 : c = c3
        · subst e3; omega
        · have := m4 c e1 e2 e3; omega
      · exact c1.isLt
      · rw [m1, hp1]
    set con1 := overwrite src1 F3 with hc1
    have hcon1 : ∀ x ∈ con1, x ∈ F3 ∨ x ∈ src1 := by
      intro x hx
      rw [hc1, overwrite, List.mem_append] at hx
      rcases hx with h | h
      · exact Or.inl h
      · exact Or.inr (List.mem_of_mem_drop h)
    have hsrc1t : ∀ x ∈ src1, ∃ c k, Uses 4 x c k := by
      intro x hx
      rcases (hcon0 x).1 ((hmem1 x).1 hx) with h | ⟨rfl, -⟩
      · exact (hFmem x h).2
      · exact ⟨0, 0, uses_zero 0⟩
    have hin1 : ∀ x ∈ con1, InTable 4 u1 x := by
      intro x hx c k hu
      rw [hlu1]
      rcases hcon1 x hx with h | h
      · exact lt_of_lt_of_le ((hF3mem x h).1 c k hu) (hnt c)
      · have := hin0 x ((hmem1 x).1 h) c k hu
        rwa [hlu0] at this
    obtain ⟨⟨src2, t, u2⟩, h2⟩ := takeBest_total (srt := srt) hin1
    obtain ⟨hs2, hl2⟩ := takeBest_inv h2
    obtain ⟨sub2, free2, pw2, len2, mark2, max2⟩ := takeLoop_spec hl2
    have hb2 := takeBest_blocks h2
    have hmem2 : ∀ x, x ∈ src2 ↔ x ∈ con1 := by
      intro x; rw [hs2]; exact (perm_desc srt con1).mem_iff
    have hlu2 : ∀ c, (u2 c).length = nmax := by intro c; rw [len2, hlu1]
    have hmark2 : ∀ c k, mark u2 c k = useCount 4 (q ++ t) c k := by
      intro c k; rw [mark2, hmark1, useCount_append]
    have ht : ∀ x ∈ t, x ∈ F3 := by
      intro x hx
      rcases hcon1 x ((hmem2 x).1 (sub2.subset hx)) with h | h
      · exact h
      · exact absurd (hb1 x h (hsrc1t x h)) (free2 x hx)
    have hsrc2t : ∀ x ∈ src2, ∃ c k, Uses 4 x c k := by
      intro x hx
      rcases hcon1 x ((hmem2 x).1 hx) with h | h
      · exact (hF3mem x h).2
      · exact hsrc1t x h
    -- pair stage
    have h4 : consistentPairMatching nmax A nt corrmin (4 * nmax) u2 =
        .ok ((pairsPure A nt corrmin u2).take (4 * nmax)) := by
      unfold consistentPairMatching
      rw [pairsAll_ok hA hnt hlu2]; rfl
    set F2 := (pairsPure A nt corrmin u2).take (4 * nmax) with hF2
    have hF2mem : ∀ x ∈ F2, (∀ c k, Uses 4 x c k → k < nt c) ∧ ∃ c k, Uses 4 x c k := by
      intro x hx
      have hx := List.mem_of_mem_take hx
      rw [mem_pairsPure] at hx
      obtain ⟨c1, c2, i, s, h12, hi, -, hv, -, -, rfl⟩ := hx
      obtain ⟨hp1, -, -, hs12, -⟩ := hA c1 c2 h12 i hi
      have b12 := hs12 s (by rw [hv]; simp)
      obtain ⟨m1, m2, m4, -⟩ := mkTuple2 h12 (A c1 c2 i).p1 s.p2 (Fl.npDiv s.corr s.dist)
      refine ⟨?_, c1, i, c1.isLt, by rw [m1, hp1]⟩
      rintro c k ⟨-, hu⟩
      by_cases e1 : c = c1
      · subst e1; omega
      by_cases e2 : c = c2
      · subst e2; omega
      · have := m4 c e1 e2; omega
    set con2 := overwrite src2 F2 with hc2
    have hcon2 : ∀ x ∈ con2, x ∈ F2 ∨ x ∈ src2 := by
      intro x hx
      rw [hc2, overwrite, List.mem_append] at hx
      rcases hx with h | h
      · exact Or.inl h
      · exact Or.inr (List.mem_of_mem_drop h)
    have hin2 : ∀ x ∈ con2, InTable 4 u2 x := by
      intro x hx c k hu
      rw [hlu2]
      rcases hcon2 x hx with h | h
      · exact lt_of_lt_of_le ((hF2mem x h).1 c k hu) (hnt c)
      · have := hin1 x ((hmem2 x).1 h) c k hu
        rwa [hlu1] at this
    obtain ⟨⟨src3, p, u3⟩, h5⟩ := takeBest_total (srt := srt) hin2
    obtain ⟨hs3, hl3⟩ := takeBest_inv h5
    obtain ⟨sub3, free3, pw3, len3, mark3, max3⟩ := takeLoop_spec hl3
    have hmem3 : ∀ x, x ∈ src3 ↔ x ∈ con2 := by
      intro x; rw [hs3]; exact (perm_desc srt con2).mem_iff
    have hp : ∀ x ∈ p, x ∈ F2 := by
      intro x hx
      rcases hcon2 x ((hmem3 x).1 (sub3.subset hx)) with h | h
      · exact h
      · exact absurd (hb2 x h (hsrc2t x h)) (free3 x hx)
    refine ⟨q, t, p, u1, u2, ?_, ?_, hmark1, hmark2, hlu1, hlu2, hq, ht, hp, hzero, ?_, ?_, hsrt1,
      ?_, ?_, ?_, ?_, by simp⟩
    · simp [h3, h2, h4, h5, ← hc1, ← hc2, bind, Except.bind]
    · have key : ∀ (L : List (NTuple K)) (u : Usage), (∀ c k, mark u c k = useCount 4 L c k) →
          ∀ x ∈ L, ∀ y, ¬ Taken 4 u y → ¬ Share 4 x y := by
        rintro L u hm x hx y hy ⟨c, k, h1, h2⟩
        refine hy ⟨c, k, h2, ?_⟩
        rw [hm]; exact useCount_pos.2 ⟨x, hx, h1⟩
      rw [List.pairwise_append, List.pairwise_append]
      exact ⟨⟨pw1, pw2, fun a ha b hb => key q u1 hmark1 a ha b (free2 b hb)⟩, pw3,
        fun a ha b hb => key (q ++ t) u2 hmark2 a ha b (free3 b hb)⟩
    · exact fun x hx => hmax1 x ((hcon0 x).2 (Or.inl hx))
    · refine fun _ => ⟨fun x hx => ?_, fun x hx => ?_⟩
      · refine max2 (by rw [hs2]; exact sorted_desc srt con1) x ((hmem2 x).2 ?_)
        rw [hc1, overwrite, List.mem_append]; exact Or.inl hx
      · refine max3 (by rw [hs3]; exact sorted_desc srt con2) x ((hmem3 x).2 ?_)
        rw [hc2, overwrite, List.mem_append]; exact Or.inl hx
    · refine List.Pairwise.sublist sub2 ?_
      rw [hs2]; exact sorted_desc srt con1
    · refine List.Pairwise.sublist sub3 ?_
      rw [hs3]; exact sorted_desc srt con2
    · intro x hx
      rw [List.mem_append, List.mem_append] at hx
      rcases hx with (h | h) | h
      · exact hqt x h
      · exact (hF3mem x (ht x h)).2
      · exact (hF2mem x (hp x h)).2
    · intro x hx c k hu
      rw [List.mem_append, List.mem_append] at hx
      rcases hx with (h | h) | h
      · exact hqb x h c k hu
      · exact Or.inl ((hF3mem x (ht x h)).1 c k hu)
      · exact Or.inl ((hF2mem x (hp x h)).1 c k hu)

theorem assignTuple_spec {corrected : Fin 4 → List Int} {i : Nat} {t : NTuple K}
    {js : List (Fin 4)} {tnr : Tnr} (hn : js.Nodup)
    (h : ∀ c ∈ js, 0 ≤ t.p c → ∃ v, (corrected c)[(t.p c).toNat]? = some v ∧ 0 ≤ v ∧
      v.toNat < (tnr c).length ∧ v < 1202590843) :
    ∃ tnr', assignTuple corrected i t js tnr = .ok tnr' ∧
      (∀ c, (tnr' c).length = (tnr c).length) ∧
      (∀ c ∈ js, 0 ≤ t.p c → ∀ v, (corrected c)[(t.p c).toNat]? = some v →
        (tnr' c)[v.toNat]? = some (i : Int)) ∧
      (∀ c (m : Nat), (c ∈ js → 0 ≤ t.p c → (corrected c)[(t.p c).toNat]? ≠ some (m : Int)) →
        (tnr' c)[m]? = (tnr c)[m]?) := by
  induction js generalizing tnr with
  | nil => exact ⟨tnr, rfl, by simp, by simp, by simp⟩
  | cons j js ih =>
    have hn' := List.nodup_cons.1 hn
    unfold assignTuple
    by_cases hp : t.p j < 0
    · rw [if_pos hp]
      obtain ⟨tnr', h1, h2, h3, h4⟩ := ih hn'.2 (fun c hc => h c (by simp [hc]))
      refine ⟨tnr', h1, h2, ?_, ?_⟩
      · intro c hc hpc
        rcases List.mem_cons.1 hc with rfl | hc
        · omega
        · exact h3 c hc hpc
      · intro c m hm
        exact h4 c m (fun hc => hm (by simp [hc]))
    · rw [if_neg hp]
      obtain ⟨v, hv, v0, vl, vb⟩ := h j (by simp) (by omega)
      rw [pyGet_eq_ok.2 hv]
      simp only [bind, Except.bind]
      rw [if_pos ⟨by omega, vb⟩, pyGet_lt vl]
      simp only
      obtain ⟨tnr', h1, h2, h3, h4⟩ := ih (tnr := Function.update tnr j ((tnr j).set v.toNat i))
        hn'.2 (by
          intro c hc hpc
          obtain ⟨w, hw, w0, wl, wb⟩ := h c (by simp [hc]) hpc
          have : c ≠ j := by rintro rfl; exact hn'.1 hc
          exact ⟨w, hw, w0, by simpa [Function.update_of_ne this] using wl, wb⟩)
      refine ⟨tnr', h1, ?_, ?_, ?_⟩
      · intro c; rw [h2]
        by_cases e : c = j
        · subst e; simp
        · simp [Function.update_of_ne e]
      · intro c hc hpc w hw
        rcases List.mem_cons.1 hc with rfl | hc
        · rw [h4 c w.toNat (fun hc => absurd hc hn'.1)]
          have : w = v := by rw [hv] at hw; exact (Option.some.inj hw).symm
          subst this
          simp [vl]
        · exact h3 c hc hpc w hw
      · intro c m hm
        rw [h4 c m (fun hc => hm (by simp [hc]))]
        by_cases e : c = j
        · subst e
          have hne : v.toNat ≠ m := by
            intro hvm
            have : v = (m : Int) := by omega
            exact hm (by simp) (by omega) (by rw [hv, this])
          simp [List.getElem?_set_ne hne]
        · simp [Function.update_of_ne e]

theorem assignAll_spec {corrected : Fin 4 → List Int} {i : Nat} {ts : List (NTuple K)} {tnr : Tnr}
    (hpw : ts.Pairwise (fun a b => ¬ Share 4 a b))
    (hk : ∀ t ∈ ts, ∀ c k, Uses 4 t c k → k < (corrected c).length)
    (hc : ∀ c, ∀ v ∈ corrected c, 0 ≤ v ∧ v.toNat < (tnr c).length ∧ v < 1202590843)
    (hnd : ∀ c, (corrected c).Nodup) :
    ∃ tnr', assignAll corrected i ts tnr = .ok tnr' ∧
      (∀ c, (tnr' c).length = (tnr c).length) ∧
      (∀ j t, ts[j]? = some t → ∀ c k, Uses 4 t c k → ∀ v, (corrected c)[k]? = some v →
        (tnr' c)[v.toNat]? = some ((i + j : Nat) : Int)) ∧
      (∀ c (m : Nat), (∀ t ∈ ts, ∀ k, Uses 4 t c k → (corrected c)[k]? ≠ some (m : Int)) →
        (tnr' c)[m]? = (tnr c)[m]?) := by
  induction ts generalizing i tnr with
  | nil => exact ⟨tnr, rfl, by simp, by simp, by simp⟩
  | cons t ts ih =>
    have hpw' := List.pairwise_cons.1 hpw
    have hU : ∀ (t : NTuple K) c, 0 ≤ t.p c → Uses 4 t c (t.p c).toNat := fun t c h =>
      ⟨c.isLt, by omega⟩
    obtain ⟨t1, a1, a2, a3, a4⟩ := assignTuple_spec (corrected := corrected) (i := i) (t := t)
      (js := camRange 4) (tnr := tnr) (camRange_nodup 4) (by
        intro c _ hp
        have hlt := hk t (by simp) c _ (hU t c hp)
        refine ⟨(corrected c)[(t.p c).toNat], by simp [hlt], ?_⟩
        exact hc c _ (List.getElem_mem hlt))
    obtain ⟨t2, b1, b2, b3, b4⟩ := ih (i := i + 1) (tnr := t1) hpw'.2
      (fun t ht => hk t (by simp [ht])) (fun c v hv => by rw [a2]; exact hc c v hv)
    refine ⟨t2, ?_, ?_, ?_, ?_⟩
    · unfold assignAll; rw [a1]; exact b1
    · intro c; rw [b2, a2]
    · intro j t' hj c k hu v hv
      cases j with
      | zero =>
        simp at hj; subst hj
        have hv0 := hc c v (List.mem_of_getElem? hv)
        rw [b4 c v.toNat]
        · have e : (t.p c).toNat = k := by have := hu.2; omega
          have := a3 c ((mem_camRange 4 c).2 c.isLt) (by have := hu.2; omega) v (by rw [e]; exact hv)
          simpa using this
        · intro t' ht' k' hu' heq
          have hvv : ((v.toNat : Nat) : Int) = v := by omega
          rw [hvv] at heq
          have : k' = k := by
            have h1 := List.getElem?_eq_some_iff.1 heq
            have h2 := List.getElem?_eq_some_iff.1 hv
            obtain ⟨l1, e1⟩ := h1
            obtain ⟨l2, e2⟩ := h2
            exact (List.Nodup.getElem_inj_iff (hnd c)).1 (e1.trans e2.symm)
          subst this
          exact hpw'.1 t' ht' ⟨c, k', hu, hu'⟩
      | succ j =>
        simp at hj
        have := b3 j t' hj c k hu v hv
        rw [this]; congr 2; omega
    · intro c m hm
      rw [b4 c m (fun t' ht' => hm t' (by simp [ht']))]
      apply a4
      intro _ hp
      exact hm t (by simp) _ (hU t c hp)

/-- Pairwise disjoint tuples that each use some target below `nmax` are at most `4 * nmax` many. -/
theorem pairwise_bound {nmax : Nat} {ts : List (NTuple K)}
    (hpw : ts.Pairwise (fun a b => ¬ Share 4 a b))
    (hu : ∀ t ∈ ts, ∃ c k, Uses 4 t c k ∧ k < nmax) : ts.length ≤ 4 * nmax := by
  classical
  let f : NTuple K → Fin 4 × Fin nmax ⊕ Unit := fun t =>
    if h : ∃ c k, Uses 4 t c k ∧ k < nmax then
      .inl (h.choose, ⟨h.choose_spec.choose, h.choose_spec.choose_spec.2⟩) else .inr ()
  have hf : ∀ t ∈ ts, ∃ x, f t = .inl x ∧ Uses 4 t x.1 x.2.val := by
    intro t ht
    have h := hu t ht
    refine ⟨(h.choose, ⟨h.choose_spec.choose, h.choose_spec.choose_spec.2⟩), ?_,
      h.choose_spec.choose_spec.1⟩
    simp only [f, dif_pos h]
  let g : NTuple K → Option (Fin 4 × Fin nmax) := fun t => (f t).getLeft?
  have hnd : (ts.filterMap g).Nodup := by
    rw [List.Nodup, List.pairwise_filterMap]
    refine List.Pairwise.imp_of_mem ?_ hpw
    intro a b ha hb hab x hx y hy hxy
    obtain ⟨xa, e1, e2⟩ := hf a ha
    obtain ⟨xb, e3, e4⟩ := hf b hb
    simp [g, e1] at hx
    simp [g, e3] at hy
    subst hx; subst hy; subst hxy
    exact hab ⟨_, _, e2, e4⟩
  have hlen : (ts.filterMap g).length = ts.length := by
    rw [List.length_filterMap_eq_countP, List.countP_eq_length]
    intro t ht
    obtain ⟨x, e, -⟩ := hf t ht
    simp [g, e]
  have := List.toFinset_card_of_nodup hnd
  have hc := Finset.card_le_univ (ts.filterMap g).toFinset
  rw [this, hlen] at hc
  simpa using hc

end Verif.Corr
