import Verif.Proofs.TakeBest

namespace Verif.Corr
open Verif.Corr.Spec

set_option linter.unusedSectionVars false
variable {K : Type} [Field K] [LinearOrder K]

theorem forE_ok {α β : Type} {xs : List α} {f : α → Py (List β)} {g : α → List β}
    (h : ∀ x ∈ xs, f x = .ok (g x)) : forE xs f = .ok (xs.flatMap g) := by
  induction xs with
  | nil => rfl
  | cons x xs ih =>
    unfold forE
    rw [h x (by simp), ih (fun y hy => h y (by simp [hy]))]
    rfl

theorem mem_camsBetween {a b : Nat} {c : Fin 4} : c ∈ camsBetween a b ↔ a ≤ c.val ∧ c.val < b := by
  simp [camsBetween]

theorem skipTarget_ok {nmax : Nat} {u : Usage} {c : Fin 4} {p : Nat} {b : Bool}
    (hp : p < nmax) (hu : (u c).length = nmax) :
    skipTarget nmax u c p b = .ok (decide (0 < mark u c p)) := by
  unfold skipTarget
  have h1 : ¬ (if b = true then p > nmax else p ≥ nmax) := by
    split_ifs <;> omega
  rw [if_neg h1, pyGet_lt (by omega)]
  simp [mark, bind, Except.bind, hu, hp]

/-- Exception-free form of `threeAll`. -/
def threePure (A : Adj K) (nt : Fin 4 → Nat) (accept : Fl K) (u : Usage) : List (NTuple K) :=
  (camsBetween 0 2).flatMap fun i1 =>
  (List.range (nt i1)).flatMap fun i =>
  (camsBetween (i1.val + 1) 3).flatMap fun i2 =>
    if 0 < mark u i1 (A i1 i2 i).p1.toNat then [] else
    (A i1 i2 i).valid.flatMap fun s12 =>
    if 0 < mark u i2 s12.p2 then [] else
    (camsBetween (i2.val + 1) 4).flatMap fun i3 =>
    (A i1 i3 i).valid.flatMap fun s13 =>
    if 0 < mark u i3 s13.p2 then [] else
    match findSlot (A i2 i3 s12.p2) s13.p2 with
    | none => []
    | some s23 =>
      if (Fl.npDiv (s12.corr + s13.corr + s23.corr)
          (s12.dist + s13.dist + s23.dist)).npLe accept then [] else
      [mkTuple [(i1, (A i1 i2 i).p1), (i2, s12.p2), (i3, s13.p2)]
        (Fl.npDiv (s12.corr + s13.corr + s23.corr) (s12.dist + s13.dist + s23.dist))]

theorem threeAll_ok {nmax : Nat} {A : Adj K} {nt : Fin 4 → Nat} {accept : Fl K} {u : Usage}
    (hA : WF A nt) (hnt : ∀ c, nt c ≤ nmax) (hu : ∀ c, (u c).length = nmax) :
    threeAll nmax A nt accept u = .ok (threePure A nt accept u) := by
  unfold threeAll threePure
  refine forE_ok fun i1 h1 => forE_ok fun i hi => forE_ok fun i2 h2 => ?_
  rw [mem_camsBetween] at h1 h2
  have h12 : i1 < i2 := by rw [Fin.lt_def]; omega
  have hi' : i < nt i1 := List.mem_range.1 hi
  obtain ⟨hp1, -, -, hs, -⟩ := hA i1 i2 h12 i hi'
  have hp1' : (A i1 i2 i).p1.toNat < nmax := by have := hnt i1; omega
  simp only [skipTarget_ok hp1' (hu i1), bind, Except.bind, pure, Except.pure, decide_eq_true_eq]
  split_ifs with hm1
  · rfl
  refine forE_ok fun s12 hs12 => ?_
  have hb := hs s12 hs12
  rw [skipTarget_ok (lt_of_lt_of_le hb (hnt i2)) (hu i2)]
  simp only [decide_eq_true_eq]
  split_ifs with hm2
  · rfl
  refine forE_ok fun i3 h3 => forE_ok fun s13 hs13 => ?_
  rw [mem_camsBetween] at h3
  have h13 : i1 < i3 := by rw [Fin.lt_def]; omega
  obtain ⟨-, -, -, hs', -⟩ := hA i1 i3 h13 i hi'
  rw [skipTarget_ok (lt_of_lt_of_le (hs' s13 hs13) (hnt i3)) (hu i3)]
  simp only [decide_eq_true_eq]
  split_ifs with hm3
  · rfl
  cases hf : findSlot (A i2 i3 s12.p2) s13.p2 with
  | none => rfl
  | some s23 => simp only; split_ifs <;> rfl

theorem mem_threePure {A : Adj K} {nt : Fin 4 → Nat} {accept : Fl K} {u : Usage} {t : NTuple K} :
    t ∈ threePure A nt accept u ↔
    ∃ c1 c2 c3 : Fin 4, ∃ i : Nat, ∃ s12 s13 s23 : Slot K,
      c1 < c2 ∧ c2 < c3 ∧ i < nt c1 ∧ mark u c1 (A c1 c2 i).p1.toNat = 0 ∧
      Link A c1 c2 i s12 ∧ mark u c2 s12.p2 = 0 ∧ Link A c1 c3 i s13 ∧ mark u c3 s13.p2 = 0 ∧
      findSlot (A c2 c3 s12.p2) s13.p2 = some s23 ∧
      (Fl.npDiv (s12.corr + s13.corr + s23.corr)
          (s12.dist + s13.dist + s23.dist)).npLe accept = false ∧
      t = mkTuple [(c1, (A c1 c2 i).p1), (c2, s12.p2), (c3, s13.p2)]
        (Fl.npDiv (s12.corr + s13.corr + s23.corr) (s12.dist + s13.dist + s23.dist)) := by
  unfold threePure
  simp only [List.mem_flatMap, List.mem_range, mem_camsBetween]
  constructor
  · rintro ⟨c1, h1, i, hi, c2, h2, ht⟩
    split_ifs at ht with hm1
    · simp at ht
    simp only [List.mem_flatMap] at ht
    obtain ⟨s12, hs12, ht⟩ := ht
    split_ifs at ht with hm2
    · simp at ht
    simp only [List.mem_flatMap, mem_camsBetween] at ht
    obtain ⟨c3, h3, s13, hs13, ht⟩ := ht
    split_ifs at ht with hm3
    · simp at ht
    split at ht
    · simp at ht
    rename_i s23 hf
    split_ifs at ht with hle
    · simp at ht
    refine ⟨c1, c2, c3, i, s12, s13, s23, ?_, ?_, hi, by omega, hs12, by omega, hs13, by omega, hf,
      by simpa using hle, by simpa using ht⟩ <;> rw [Fin.lt_def] <;> omega
  · rintro ⟨c1, c2, c3, i, s12, s13, s23, h12, h23, hi, m1, l1, m2, l2, m3, hf, hle, rfl⟩
    rw [Fin.lt_def] at h12 h23
    refine ⟨c1, by omega, i, hi, c2, by omega, ?_⟩
    rw [if_neg (by omega), List.mem_flatMap]
    refine ⟨s12, l1, ?_⟩
    rw [if_neg (by omega), List.mem_flatMap]
    refine ⟨c3, mem_camsBetween.2 (by omega), ?_⟩
    rw [List.mem_flatMap]
    refine ⟨s13, l2, ?_⟩
    rw [if_neg (by omega), hf]
    simp [hle]

theorem mkTuple3 {c1 c2 c3 : Fin 4} (h12 : c1 < c2) (h23 : c2 < c3) (a b c : Int) (r : Fl K) :
    (mkTuple [(c1, a), (c2, b), (c3, c)] r).p c1 = a ∧
    (mkTuple [(c1, a), (c2, b), (c3, c)] r).p c2 = b ∧
    (mkTuple [(c1, a), (c2, b), (c3, c)] r).p c3 = c ∧
    (∀ d, d ≠ c1 → d ≠ c2 → d ≠ c3 → (mkTuple [(c1, a), (c2, b), (c3, c)] r).p d = -2) ∧
    (mkTuple [(c1, a), (c2, b), (c3, c)] r).corr = r := by
  have e12 : c1 ≠ c2 := ne_of_lt h12
  have e23 : c2 ≠ c3 := ne_of_lt h23
  have e13 : c1 ≠ c3 := ne_of_lt (lt_trans h12 h23)
  refine ⟨?_, ?_, ?_, ?_, ?_⟩
  · simp [mkTuple, Function.update, e12, e13]
  · simp [mkTuple, Function.update, e23]
  · simp [mkTuple, Function.update]
  · intro d h1 h2 h3; simp [mkTuple, Function.update, h1, h2, h3]
  · rfl

theorem mkTuple2 {c1 c2 : Fin 4} (h12 : c1 < c2) (a b : Int) (r : Fl K) :
    (mkTuple [(c1, a), (c2, b)] r).p c1 = a ∧
    (mkTuple [(c1, a), (c2, b)] r).p c2 = b ∧
    (∀ d, d ≠ c1 → d ≠ c2 → (mkTuple [(c1, a), (c2, b)] r).p d = -2) ∧
    (mkTuple [(c1, a), (c2, b)] r).corr = r := by
  have e12 : c1 ≠ c2 := ne_of_lt h12
  refine ⟨?_, ?_, ?_, ?_⟩
  · simp [mkTuple, Function.update, e12]
  · simp [mkTuple, Function.update]
  · intro d h1 h2; simp [mkTuple, Function.update, h1, h2]
  · rfl

/-- Exception-free form of `pairsAll`. -/
def pairsPure (A : Adj K) (nt : Fin 4 → Nat) (accept : Fl K) (u : Usage) : List (NTuple K) :=
  (camsBetween 0 3).flatMap fun i1 =>
  (camsBetween (i1.val + 1) 4).flatMap fun i2 =>
  (List.range (nt i1)).flatMap fun i =>
    if 0 < mark u i1 (A i1 i2 i).p1.toNat then [] else
    match (A i1 i2 i).valid with
    | [s] =>
      if 0 < mark u i2 s.p2 then [] else
      if (Fl.npDiv s.corr s.dist).npLe accept then [] else
      [mkTuple [(i1, (A i1 i2 i).p1), (i2, s.p2)] (Fl.npDiv s.corr s.dist)]
    | _ => []

theorem take_one {α : Type} {l : List α} (h : 0 < l.length) : l.take 1 = [l[0]] := by
  cases l with
  | nil => simp at h
  | cons a l => simp

theorem pairsAll_ok {nmax : Nat} {A : Adj K} {nt : Fin 4 → Nat} {accept : Fl K} {u : Usage}
    (hA : WF A nt) (hnt : ∀ c, nt c ≤ nmax) (hu : ∀ c, (u c).length = nmax) :
    pairsAll nmax A nt accept u = .ok (pairsPure A nt accept u) := by
  unfold pairsAll pairsPure
  refine forE_ok fun i1 h1 => forE_ok fun i2 h2 => forE_ok fun i hi => ?_
  rw [mem_camsBetween] at h1 h2
  have h12 : i1 < i2 := by rw [Fin.lt_def]; omega
  have hi' : i < nt i1 := List.mem_range.1 hi
  obtain ⟨hp1, hlen, hn, hs, -⟩ := hA i1 i2 h12 i hi'
  have hp1' : (A i1 i2 i).p1.toNat < nmax := by have := hnt i1; omega
  simp only [skipTarget_ok hp1' (hu i1), bind, Except.bind, pure, Except.pure, decide_eq_true_eq]
  split_ifs with hm1 hn1
  · rfl
  · have hvl : (A i1 i2 i).valid.length = (A i1 i2 i).n := by
      simp [Row.valid]; omega
    split
    · rename_i s hv; rw [hv] at hvl; simp at hvl; omega
    · rfl
  · have hn1' : (A i1 i2 i).n = 1 := by omega
    have hl0 : 0 < (A i1 i2 i).slots.length := by rw [hlen]; decide
    have hv : (A i1 i2 i).valid = [(A i1 i2 i).slots[0]] := by
      unfold Row.valid; rw [hn1']
      exact take_one hl0
    rw [pyGet_lt hl0]
    have hb : (A i1 i2 i).slots[0].p2 < nt i2 := hs _ (by rw [hv]; simp)
    simp only [skipTarget_ok (lt_of_lt_of_le hb (hnt i2)) (hu i2), decide_eq_true_eq, hv]
    split_ifs <;> rfl

theorem mem_pairsPure {A : Adj K} {nt : Fin 4 → Nat} {accept : Fl K} {u : Usage} {t : NTuple K} :
    t ∈ pairsPure A nt accept u ↔
    ∃ c1 c2 : Fin 4, ∃ i : Nat, ∃ s : Slot K,
      c1 < c2 ∧ i < nt c1 ∧ mark u c1 (A c1 c2 i).p1.toNat = 0 ∧
      (A c1 c2 i).valid = [s] ∧ mark u c2 s.p2 = 0 ∧
      (Fl.npDiv s.corr s.dist).npLe accept = false ∧
      t = mkTuple [(c1, (A c1 c2 i).p1), (c2, s.p2)] (Fl.npDiv s.corr s.dist) := by
  unfold pairsPure
  simp only [List.mem_flatMap, List.mem_range, mem_camsBetween]
  constructor
  · rintro ⟨c1, h1, c2, h2, i, hi, ht⟩
    split_ifs at ht with hm1
    · simp at ht
    split at ht
    · rename_i s hv
      split_ifs at ht with hm2 hle
      · simp at ht
      · simp at ht
      · refine ⟨c1, c2, i, s, ?_, hi, by omega, hv, by omega, by simpa using hle, by simpa using ht⟩
        rw [Fin.lt_def]; omega
    · simp at ht
  · rintro ⟨c1, c2, i, s, h12, hi, m1, hv, m2, hle, rfl⟩
    rw [Fin.lt_def] at h12
    refine ⟨c1, by omega, c2, by omega, i, hi, ?_⟩
    rw [if_neg (by omega), hv]
    simp [m2, hle]

theorem mem_fourOf {A : Adj K} {accept : Fl K} {i : Nat} {t : NTuple K} :
    t ∈ fourOf A accept i ↔
    ∃ s12 s13 s14 s23 s24 s34 : Slot K,
      Link A 0 1 i s12 ∧ Link A 0 2 i s13 ∧ Link A 0 3 i s14 ∧
      Link A 1 2 s12.p2 s23 ∧ s23.p2 = s13.p2 ∧
      Link A 1 3 s12.p2 s24 ∧ s24.p2 = s14.p2 ∧
      Link A 2 3 s13.p2 s34 ∧ s34.p2 = s14.p2 ∧
      (Fl.npDiv (s12.corr + s13.corr + s14.corr + s23.corr + s24.corr + s34.corr)
        (s12.dist + s13.dist + s14.dist + s23.dist + s24.dist + s34.dist)).npLe accept = false ∧
      t = ⟨![(A 0 1 i).p1, s12.p2, s13.p2, s14.p2],
        Fl.npDiv (s12.corr + s13.corr + s14.corr + s23.corr + s24.corr + s34.corr)
        (s12.dist + s13.dist + s14.dist + s23.dist + s24.dist + s34.dist)⟩ := by
  unfold fourOf
  simp only [List.mem_flatMap]
  constructor
  · rintro ⟨s12, h12, s13, h13, s14, h14, s23, h23, ht⟩
    split_ifs at ht with e23
    · simp at ht
    rw [not_not] at e23
    simp only [List.mem_flatMap] at ht
    obtain ⟨s24, h24, ht⟩ := ht
    split_ifs at ht with e24
    · simp at ht
    rw [not_not] at e24
    simp only [List.mem_flatMap] at ht
    obtain ⟨s34, h34, ht⟩ := ht
    split_ifs at ht with e34 hle
    · simp at ht
    · simp at ht
    rw [not_not] at e34
    exact ⟨s12, s13, s14, s23, s24, s34, h12, h13, h14, h23, e23.symm, h24, e24.symm, h34, e34.symm,
      by simpa using hle, by simpa using ht⟩
  · rintro ⟨s12, s13, s14, s23, s24, s34, h12, h13, h14, h23, e23, h24, e24, h34, e34, hle, rfl⟩
    refine ⟨s12, h12, s13, h13, s14, h14, s23, h23, ?_⟩
    rw [if_neg (by simp [e23]), List.mem_flatMap]
    refine ⟨s24, h24, ?_⟩
    rw [if_neg (by simp [e24]), List.mem_flatMap]
    refine ⟨s34, h34, ?_⟩
    rw [if_neg (by simp [e34])]
    simp [hle]

theorem mkRow_valid (i : Nat) (cands : List (Slot K)) : (mkRow i cands).valid = cands.take MAXCAND := by
  simp only [mkRow, Row.valid]
  have hl : (cands.take (min cands.length MAXCAND)).length = min cands.length MAXCAND := by
    simp
  rw [List.take_append_of_le_length (by omega), List.take_take, min_self]
  rcases le_total cands.length MAXCAND with h | h
  · rw [min_eq_left h, List.take_length, List.take_of_length_le h]
  · rw [min_eq_right h]

theorem matchPairs_wf (nt : Fin 4 → Nat) (find : Fin 4 → Fin 4 → Nat → List (Slot K))
    (hf : ∀ c1 c2 i, ∀ s ∈ find c1 c2 i, s.p2 < nt c2) : WF (matchPairs nt find) nt := by
  intro c1 c2 h12 i hi
  have e : matchPairs nt find c1 c2 i = mkRow i (find c1 c2 i) := by
    simp [matchPairs, h12, hi]
  rw [e]
  refine ⟨rfl, ?_, ?_, ?_, ?_⟩
  · simp [mkRow]
  · simp [mkRow]
  · intro s hs
    rw [mkRow_valid] at hs
    exact hf _ _ _ s (List.mem_of_mem_take hs)
  · intro s hs
    simp only [mkRow] at hs
    rw [List.drop_append_of_le_length (by simp)] at hs
    rw [List.drop_of_length_le (by simp)] at hs
    simpa using (List.mem_replicate.1 (by simpa using hs)).2

end Verif.Corr
