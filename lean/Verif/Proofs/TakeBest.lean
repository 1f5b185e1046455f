import Verif.Spec.Correspondences
import Mathlib.Tactic.SplitIfs
import Mathlib.Tactic.Linarith

namespace Verif.Corr
open Verif.Corr.Spec

set_option linter.unusedSectionVars false
variable {K : Type} [Field K] [LinearOrder K]

theorem mem_camRange (n : Nat) (c : Fin 4) : c ∈ camRange n ↔ c.val < n := by
  simp [camRange]

theorem camRange_nodup (n : Nat) : (camRange n).Nodup :=
  (List.nodup_finRange 4).filter _

theorem pyGet_eq_ok {α : Type} {xs : List α} {i : Nat} {x : α} :
    pyGet xs i = .ok x ↔ xs[i]? = some x := by
  unfold pyGet; split <;> simp_all

theorem pyGet_lt {α : Type} {xs : List α} {i : Nat} (h : i < xs.length) :
    pyGet xs i = .ok xs[i] := by
  rw [pyGet_eq_ok]; simp [h]

theorem hasUsed_false {u : Usage} {p : Fin 4 → Int} {cams : List (Fin 4)}
    (h : hasUsed u p cams = .ok false) :
    ∀ c ∈ cams, 0 ≤ p c → (p c).toNat < (u c).length ∧ mark u c (p c).toNat = 0 := by
  induction cams with
  | nil => simp
  | cons c cs ih =>
    intro c' hc' hp
    unfold hasUsed at h
    split_ifs at h with h1
    · cases hk : pyGet (u c) (p c).toNat with
      | error e => simp [hk, bind, Except.bind] at h
      | ok k =>
        simp only [hk, bind, Except.bind] at h
        split_ifs at h with h2
        · simp at h
        rcases List.mem_cons.1 hc' with rfl | hc'
        · have := pyGet_eq_ok.1 hk
          refine ⟨?_, ?_⟩
          · exact (List.getElem?_eq_some_iff.1 this).1
          · simp [mark, this]; omega
        · exact ih h c' hc' hp
    · rcases List.mem_cons.1 hc' with rfl | hc'
      · omega
      · exact ih h c' hc' hp

theorem hasUsed_true {u : Usage} {p : Fin 4 → Int} {cams : List (Fin 4)}
    (h : hasUsed u p cams = .ok true) :
    ∃ c ∈ cams, 0 ≤ p c ∧ 0 < mark u c (p c).toNat := by
  induction cams with
  | nil => simp [hasUsed] at h
  | cons c cs ih =>
    unfold hasUsed at h
    split_ifs at h with h1
    · cases hk : pyGet (u c) (p c).toNat with
      | error e => simp [hk, bind, Except.bind] at h
      | ok k =>
        simp only [hk, bind, Except.bind] at h
        split_ifs at h with h2
        · have := pyGet_eq_ok.1 hk
          exact ⟨c, by simp, by omega, by simp [mark, this]; omega⟩
        · obtain ⟨c', hc', h3⟩ := ih h
          exact ⟨c', by simp [hc'], h3⟩
    · obtain ⟨c', hc', h3⟩ := ih h
      exact ⟨c', by simp [hc'], h3⟩

theorem hasUsed_total {u : Usage} {p : Fin 4 → Int} {cams : List (Fin 4)}
    (h : ∀ c ∈ cams, 0 ≤ p c → (p c).toNat < (u c).length) :
    ∃ b, hasUsed u p cams = .ok b := by
  induction cams with
  | nil => exact ⟨false, rfl⟩
  | cons c cs ih =>
    unfold hasUsed
    have ih' := ih (fun c hc => h c (by simp [hc]))
    split_ifs with h1
    · rw [pyGet_lt (h c (by simp) (by omega))]
      simp only [bind, Except.bind]
      split_ifs
      · exact ⟨true, rfl⟩
      · exact ih'
    · exact ih'

theorem markUsed_spec {u u' : Usage} {p : Fin 4 → Int} {cams : List (Fin 4)} (hn : cams.Nodup)
    (h : markUsed u p cams = .ok u') :
    (∀ c, (u' c).length = (u c).length) ∧
    ∀ c k, mark u' c k = mark u c k + if c ∈ cams ∧ p c = (k : Int) then 1 else 0 := by
  induction cams generalizing u with
  | nil => simp [markUsed] at h; subst h; simp
  | cons c cs ih =>
    have hn' := (List.nodup_cons.1 hn)
    unfold markUsed at h
    split_ifs at h with h1
    · cases hk : pyGet (u c) (p c).toNat with
      | error e => simp [hk, bind, Except.bind] at h
      | ok v =>
        simp only [hk, bind, Except.bind] at h
        have hv := pyGet_eq_ok.1 hk
        obtain ⟨hl, hm⟩ := ih hn'.2 h
        refine ⟨?_, ?_⟩
        · intro c'
          rw [hl]
          by_cases hcc : c' = c
          · subst hcc; simp
          · simp [Function.update_of_ne hcc]
        · intro c' k
          rw [hm]
          by_cases hcc : c' = c
          · subst hcc
            have : ¬ (c' ∈ cs) := hn'.1
            simp only [mark, Function.update_self, this, false_and, if_false, List.mem_cons,
              true_or, true_and]
            have hlt := (List.getElem?_eq_some_iff.1 hv).1
            by_cases hkk : p c' = (k : Int)
            · have : (p c').toNat = k := by omega
              rw [this] at hv hlt ⊢
              rw [List.getElem?_set_self hlt, hv]
              simp [hkk]
            · have : (p c').toNat ≠ k := by omega
              simp [hkk, List.getElem?_set_ne this]
          · simp [mark, hcc]
    · obtain ⟨hl, hm⟩ := ih hn'.2 h
      refine ⟨hl, ?_⟩
      intro c' k
      rw [hm]
      by_cases hcc : c' = c
      · subst hcc
        have : p c' ≠ (k : Int) := by omega
        simp [this]
      · simp [hcc]

theorem markUsed_total {u : Usage} {p : Fin 4 → Int} {cams : List (Fin 4)}
    (h : ∀ c ∈ cams, 0 ≤ p c → (p c).toNat < (u c).length) :
    ∃ u', markUsed u p cams = .ok u' := by
  induction cams generalizing u with
  | nil => exact ⟨u, rfl⟩
  | cons c cs ih =>
    unfold markUsed
    split_ifs with h1
    · rw [pyGet_lt (h c (by simp) (by omega))]
      simp only [bind, Except.bind]
      apply ih
      intro c' hc' hp
      have := h c' (by simp [hc']) hp
      by_cases hcc : c' = c
      · subst hcc; simpa using this
      · simpa [Function.update_of_ne hcc] using this
    · exact ih (fun c hc => h c (by simp [hc]))

theorem uses_iff (n : Nat) (t : NTuple K) (c : Fin 4) (k : Nat) :
    Uses n t c k ↔ c ∈ camRange n ∧ t.p c = (k : Int) := by
  simp [Uses, mem_camRange]

theorem takeLoop_cons {n : Nat} {x : NTuple K} {l : List (NTuple K)} {u u' : Usage} {T : List (NTuple K)}
    (h : takeLoop (camRange n) (x :: l) u = .ok (T, u')) :
    (Taken n u x ∧ takeLoop (camRange n) l u = .ok (T, u')) ∨
    (¬ Taken n u x ∧ InTable n u x ∧ ∃ u1 T', markUsed u x.p (camRange n) = .ok u1 ∧
      takeLoop (camRange n) l u1 = .ok (T', u') ∧ T = x :: T') := by
  unfold takeLoop at h
  cases hb : hasUsed u x.p (camRange n) with
  | error e => simp [hb, bind, Except.bind] at h
  | ok b =>
    simp only [hb, bind, Except.bind] at h
    cases b with
    | true =>
      left
      obtain ⟨c, hc, hp, hm⟩ := hasUsed_true hb
      refine ⟨⟨c, (x.p c).toNat, ?_, hm⟩, by simpa using h⟩
      rw [uses_iff]; exact ⟨hc, by omega⟩
    | false =>
      right
      have hf := hasUsed_false hb
      refine ⟨?_, ?_, ?_⟩
      · rintro ⟨c, k, hu, hm⟩
        rw [uses_iff] at hu
        have := (hf c hu.1 (by omega)).2
        have e : (x.p c).toNat = k := by omega
        rw [e] at this; omega
      · intro c k hu
        rw [uses_iff] at hu
        have := (hf c hu.1 (by omega)).1
        have e : (x.p c).toNat = k := by omega
        rwa [e] at this
      · cases hu1 : markUsed u x.p (camRange n) with
        | error e => simp [hu1] at h
        | ok u1 =>
          simp only [hu1] at h
          cases hT : takeLoop (camRange n) l u1 with
          | error e => simp [hT] at h
          | ok r =>
            obtain ⟨T', u2⟩ := r
            simp [hT] at h
            exact ⟨u1, T', rfl, by rw [hT, h.2], h.1.symm⟩

theorem useCount_pos {n : Nat} {T : List (NTuple K)} {c k} :
    0 < useCount n T c k ↔ ∃ t ∈ T, Uses n t c k := by
  simp [useCount, List.countP_pos_iff]

theorem takeLoop_spec {n : Nat} {l : List (NTuple K)} {u u' : Usage} {T : List (NTuple K)}
    (h : takeLoop (camRange n) l u = .ok (T, u')) :
    T.Sublist l ∧ (∀ t ∈ T, ¬ Taken n u t) ∧ T.Pairwise (fun a b => ¬ Share n a b) ∧
    (∀ c, (u' c).length = (u c).length) ∧
    (∀ c k, mark u' c k = mark u c k + useCount n T c k) ∧
    (l.Pairwise (fun a b => b.corr ≤ a.corr) →
      ∀ x ∈ l, x ∈ T ∨ Taken n u x ∨ ∃ t ∈ T, Share n t x ∧ x.corr ≤ t.corr) := by
  induction l generalizing u T with
  | nil =>
    simp [takeLoop] at h
    obtain ⟨rfl, rfl⟩ := h
    simp [useCount]
  | cons x l ih =>
    rcases takeLoop_cons h with ⟨hx, h'⟩ | ⟨hx, hin, u1, T', hu1, h', rfl⟩
    · obtain ⟨a, b, c, d, e, f⟩ := ih h'
      refine ⟨a.cons _, b, c, d, e, ?_⟩
      intro hs y hy
      rcases List.mem_cons.1 hy with rfl | hy
      · exact Or.inr (Or.inl hx)
      · exact f (List.pairwise_cons.1 hs).2 y hy
    · obtain ⟨a, b, c, d, e, f⟩ := ih h'
      obtain ⟨hl, hm⟩ := markUsed_spec (camRange_nodup n) hu1
      have hm' : ∀ c k, mark u1 c k = mark u c k + if Uses n x c k then 1 else 0 := by
        intro c k; rw [hm]; simp [uses_iff]
      have hT1 : ∀ t : NTuple K, ¬ Taken n u1 t → ¬ Taken n u t := by
        rintro t ht ⟨c, k, h1, h2⟩
        exact ht ⟨c, k, h1, by rw [hm']; omega⟩
      have hT2 : ∀ t, ¬ Taken n u1 t → ¬ Share n x t := by
        rintro t ht ⟨c, k, h1, h2⟩
        exact ht ⟨c, k, h2, by rw [hm', if_pos h1]; omega⟩
      refine ⟨a.cons_cons _, ?_, ?_, ?_, ?_, ?_⟩
      · intro t ht
        rcases List.mem_cons.1 ht with rfl | ht
        · exact hx
        · exact hT1 t (b t ht)
      · exact List.pairwise_cons.2 ⟨fun t ht => hT2 t (b t ht), c⟩
      · intro c; rw [d, hl]
      · intro c k
        rw [e, hm']
        simp only [useCount, List.countP_cons, decide_eq_true_eq]
        omega
      · intro hs y hy
        have hs' := List.pairwise_cons.1 hs
        rcases List.mem_cons.1 hy with rfl | hy
        · simp
        · rcases f hs'.2 y hy with h1 | h1 | ⟨t, h1, h2⟩
          · simp [h1]
          · obtain ⟨c, k, h2, h3⟩ := h1
            rw [hm'] at h3
            by_cases hux : Uses n x c k
            · exact Or.inr (Or.inr ⟨x, by simp, ⟨c, k, hux, h2⟩, hs'.1 y hy⟩)
            · rw [if_neg hux] at h3
              exact Or.inr (Or.inl ⟨c, k, h2, h3⟩)
          · exact Or.inr (Or.inr ⟨t, by simp [h1], h2⟩)

theorem takeLoop_total {n : Nat} {l : List (NTuple K)} {u : Usage}
    (h : ∀ t ∈ l, InTable n u t) : ∃ r, takeLoop (camRange n) l u = .ok r := by
  induction l generalizing u with
  | nil => exact ⟨_, rfl⟩
  | cons x l ih =>
    have hx : ∀ c ∈ camRange n, 0 ≤ x.p c → (x.p c).toNat < (u c).length := by
      intro c hc hp
      exact h x (by simp) c _ ((uses_iff _ _ _ _).2 ⟨hc, by omega⟩)
    obtain ⟨b, hb⟩ := hasUsed_total hx
    unfold takeLoop
    simp only [hb, bind, Except.bind]
    cases b with
    | true => exact ih (fun t ht => h t (by simp [ht]))
    | false =>
      obtain ⟨u1, hu1⟩ := markUsed_total hx
      obtain ⟨hl, -⟩ := markUsed_spec (camRange_nodup n) hu1
      have : ∀ t ∈ l, InTable n u1 t := by
        intro t ht c k huse
        rw [hl]; exact h t (by simp [ht]) c k huse
      obtain ⟨⟨T, u2⟩, hr⟩ := ih this
      simp [hu1, hr]

end Verif.Corr
