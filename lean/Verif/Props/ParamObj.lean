/-
C140: the lists inside parameter objects (parameters.py).
-/
import Verif.Spec.ParamObj
import Mathlib.Tactic.SplitIfs
import Mathlib.Data.List.Basic

namespace Verif.ParObj

/-- What holds of every state: all places exist, and every object has the lists of its class. -/
structure PInv (s : PSt) : Prop where
  held : ∀ (h p : ℕ), s.held[h]? = some p → p < s.lists.length
  refs : ∀ (o : ℕ) (b : PObj) (j p : ℕ), s.objs[o]? = some b → b.refs[j]? = some p → p < s.lists.length
  num : ∀ (o : ℕ) (b : PObj), s.objs[o]? = some b → b.refs.length = b.kind.defaults.length

theorem at_append {l : List (List Entry)} {o : List PObj} {hs : List ℕ} {s : PSt} {p : ℕ} (h : p < s.lists.length) :
    (PSt.mk (s.lists ++ l) o hs).at p = s.at p := by
  simp only [PSt.at, List.getD_eq_getElem?_getD, List.getElem?_append_left h]

theorem at_set {s : PSt} {p q : ℕ} {v : List Entry} (h : p < s.lists.length) :
    (PSt.mk (s.lists.set p v) s.objs s.held).at q = if p = q then v else s.at q := by
  simp only [PSt.at, List.getD_eq_getElem?_getD, List.getElem?_set]
  by_cases e : p = q
  · subst e
    simp [h]
  · simp [e]

/-- The four shapes of a call that returns. -/
theorem pstep_ok {s s' : PSt} {c : PCall} (hs : pstep s c = .ok s') :
    (∃ v, c = .list v ∧ s' = { s with lists := s.lists ++ [v], held := s.held ++ [s.lists.length] }) ∨
    (∃ k vs, (c = .new k ∧ vs = k.defaults ∨ c = .read k vs) ∧ vs.length = k.defaults.length ∧ s' = s.fresh k vs) ∨
    (∃ k hs ps, c = .make k hs ∧ hs.mapM (fun h => s.held[h]?) = some ps ∧ ps.length = k.defaults.length ∧
      s' = { s with objs := s.objs ++ [⟨k, ps⟩] }) ∨
    (∃ o h h' b p p', c = .setLayers o h h' ∧ s.objs[o]? = some b ∧ s.held[h]? = some p ∧ s.held[h']? = some p' ∧
      b.kind = .multimedia ∧ s' = { s with objs := s.objs.set o { b with refs := (b.refs.set 0 p).set 1 p' } }) ∨
    (∃ o u h b p, c = .setZ o u h ∧ s.objs[o]? = some b ∧ s.held[h]? = some p ∧ b.kind = .volume ∧
      s' = { s with objs := s.objs.set o { b with refs := b.refs.set (if u then 2 else 1) p } }) ∨
    (∃ o h b p, c = .setNames o h ∧ s.objs[o]? = some b ∧ s.held[h]? = some p ∧ b.kind = .sequence ∧
      s' = { s with lists := s.lists.set (b.refs.getD 0 0) (s.at p) }) ∨
    (∃ o j b p, c = .get o j ∧ s.objs[o]? = some b ∧ b.refs[j]? = some p ∧ s' = { s with held := s.held ++ [p] }) ∨
    (∃ h i x p, c = .write h i x ∧ s.held[h]? = some p ∧ i < (s.at p).length ∧
      s' = { s with lists := s.lists.set p ((s.at p).set i x) }) := by
  cases c with
  | list v => exact Or.inl ⟨v, rfl, (Except.ok.inj hs).symm⟩
  | new k => exact Or.inr (Or.inl ⟨k, k.defaults, Or.inl ⟨rfl, rfl⟩, rfl, (Except.ok.inj hs).symm⟩)
  | read k vs =>
    simp only [pstep] at hs
    split_ifs at hs with h
    exact Or.inr (Or.inl ⟨k, vs, Or.inr rfl, h, (Except.ok.inj hs).symm⟩)
  | make k hs' =>
    simp only [pstep] at hs
    split at hs
    · next ps h =>
      split_ifs at hs with h1 h2
      exact Or.inr (Or.inr (Or.inl ⟨k, hs', ps, rfl, h, h1, (Except.ok.inj hs).symm⟩))
    · cases hs
  | setLayers o h h' =>
    simp only [pstep] at hs
    split at hs
    · next b p p' h1 h2 h3 =>
      split_ifs at hs with h4 h5
      refine Or.inr (Or.inr (Or.inr (Or.inl ⟨o, h, h', b, p, p', rfl, h1, h2, h3, h4, ?_⟩)))
      rw [← Except.ok.inj hs]
      simp [PSt.bind, List.set_set]
    · cases hs
  | setZ o u h =>
    simp only [pstep] at hs
    split at hs
    · next b p h1 h2 =>
      split_ifs at hs with h3
      all_goals exact Or.inr (Or.inr (Or.inr (Or.inr (Or.inl ⟨o, u, h, b, p, rfl, h1, h2, h3, by rw [← Except.ok.inj hs]; simp_all [PSt.bind]⟩))))
    · cases hs
  | setNames o h =>
    simp only [pstep] at hs
    split at hs
    · next b p h1 h2 =>
      split_ifs at hs with h3
      exact Or.inr (Or.inr (Or.inr (Or.inr (Or.inr (Or.inl ⟨o, h, b, p, rfl, h1, h2, h3, (Except.ok.inj hs).symm⟩)))))
    · cases hs
  | get o j =>
    simp only [pstep] at hs
    split at hs
    · cases hs
    · next b h1 =>
      split at hs
      · cases hs
      · next p h2 =>
        exact Or.inr (Or.inr (Or.inr (Or.inr (Or.inr (Or.inr (Or.inl ⟨o, j, b, p, rfl, h1, h2, (Except.ok.inj hs).symm⟩))))))
  | write h i x =>
    simp only [pstep] at hs
    split at hs
    · cases hs
    · next p h1 =>
      split_ifs at hs with h2
      exact Or.inr (Or.inr (Or.inr (Or.inr (Or.inr (Or.inr (Or.inr ⟨h, i, x, p, rfl, h1, h2, (Except.ok.inj hs).symm⟩))))))

theorem mapM_mem {s : PSt} {hs : List ℕ} {ps : List ℕ} (h : hs.mapM (fun h => s.held[h]?) = some ps) (j p : ℕ) (hj : ps[j]? = some p) :
    ∃ k : ℕ, s.held[k]? = some p := by
  induction hs generalizing ps j with
  | nil =>
    simp at h
    subst h
    simp at hj
  | cons a hs ih =>
    rw [List.mapM_cons] at h
    cases ha : s.held[a]? with
    | none => rw [ha] at h; simp at h
    | some q =>
      rw [ha] at h
      cases hr : hs.mapM (fun h => s.held[h]?) with
      | none => rw [hr] at h; simp at h
      | some qs =>
        rw [hr] at h
        simp at h
        subst h
        cases j with
        | zero =>
          simp at hj
          exact ⟨a, by rw [ha, hj]⟩
        | succ j => exact ih hr j (by simpa using hj)

theorem fresh_obj {s : PSt} {k : Kind} {vs : List (List Entry)} {o : ℕ} {b : PObj} (h : (s.fresh k vs).objs[o]? = some b) :
    s.objs[o]? = some b ∨ (o = s.objs.length ∧ b = ⟨k, (List.range vs.length).map (s.lists.length + ·)⟩) := by
  simp only [PSt.fresh, List.getElem?_append] at h
  split_ifs at h with ho
  · exact Or.inl h
  · rw [List.getElem?_singleton] at h
    split_ifs at h with h0
    exact Or.inr ⟨by omega, (Option.some.inj h).symm⟩

theorem range_ref {n m j p : ℕ} (h : ((List.range m).map (n + ·))[j]? = some p) : j < m ∧ p = n + j := by
  obtain ⟨h1, h2⟩ := List.getElem?_eq_some_iff.1 h
  simp only [List.length_map, List.length_range] at h1
  refine ⟨h1, ?_⟩
  rw [← h2]
  simp

theorem snoc_get {l : List ℕ} {q h p : ℕ} (hh : (l ++ [q])[h]? = some p) : l[h]? = some p ∨ (h = l.length ∧ p = q) := by
  rw [List.getElem?_append] at hh
  split_ifs at hh with h0
  · exact Or.inl hh
  · rw [List.getElem?_singleton] at hh
    split_ifs at hh
    exact Or.inr ⟨by omega, (Option.some.inj hh).symm⟩

theorem set_obj {l : List PObj} {o o' : ℕ} {b b' : PObj} (h : (l.set o b)[o']? = some b') :
    (o' = o ∧ b' = b) ∨ (o' ≠ o ∧ l[o']? = some b') := by
  rw [List.getElem?_set] at h
  split_ifs at h with h1 h2
  · exact Or.inl ⟨h1.symm, (Option.some.inj h).symm⟩
  · exact Or.inr ⟨fun e => h1 e.symm, h⟩

theorem set_ref {l : List ℕ} {j j' p q : ℕ} (h : (l.set j p)[j']? = some q) : (j' = j ∧ q = p) ∨ (j' ≠ j ∧ l[j']? = some q) := by
  rw [List.getElem?_set] at h
  split_ifs at h with h1 h2
  · exact Or.inl ⟨h1.symm, (Option.some.inj h).symm⟩
  · exact Or.inr ⟨fun e => h1 e.symm, h⟩

theorem PInv.step {s s' : PSt} (hI : PInv s) {c : PCall} (hs : pstep s c = .ok s') : PInv s' := by
  rcases pstep_ok hs with ⟨v, -, rfl⟩ | ⟨k, vs, -, hn, rfl⟩ | ⟨k, hs, ps, -, hm, hn, rfl⟩ | ⟨o, h, h', b, p, p', -, hb, h1, h2, hk, rfl⟩ |
    ⟨o, u, h, b, p, -, hb, h1, hk, rfl⟩ | ⟨o, h, b, p, -, hb, h1, hk, rfl⟩ | ⟨o, j, b, p, -, hb, hr, rfl⟩ | ⟨h, i, x, p, -, h1, hi, rfl⟩
  · refine ⟨fun h p hh => ?_, fun o b j p hb hr => ?_, hI.num⟩
    · simp only [List.length_append, List.length_singleton]
      rcases snoc_get hh with h1 | ⟨-, rfl⟩
      · have := hI.held _ _ h1
        omega
      · omega
    · have := hI.refs o b j p hb hr
      simp only [List.length_append]
      omega
  · refine ⟨fun h p hh => ?_, fun o b j p hb hr => ?_, fun o b hb => ?_⟩
    · have := hI.held h p hh
      simp only [PSt.fresh, List.length_append]
      omega
    · simp only [PSt.fresh, List.length_append]
      rcases fresh_obj hb with h1 | ⟨-, rfl⟩
      · have := hI.refs o b j p h1 hr
        omega
      · have := range_ref hr
        omega
    · rcases fresh_obj hb with h1 | ⟨-, rfl⟩
      · exact hI.num o b h1
      · simpa using hn
  · refine ⟨hI.held, fun o b j p hb hr => ?_, fun o b hb => ?_⟩
    all_goals
      simp only [List.getElem?_append] at hb
      split_ifs at hb with ho
    · exact hI.refs o b j p hb hr
    · rw [List.getElem?_singleton] at hb
      split_ifs at hb
      cases hb
      obtain ⟨k', hk'⟩ := mapM_mem hm j p hr
      exact hI.held k' p hk'
    · exact hI.num o b hb
    · rw [List.getElem?_singleton] at hb
      split_ifs at hb
      cases hb
      exact hn
  · refine ⟨hI.held, fun o' b' j q hb' hr => ?_, fun o' b' hb' => ?_⟩
    · rcases set_obj hb' with ⟨rfl, rfl⟩ | ⟨-, h3⟩
      · rcases set_ref hr with ⟨-, rfl⟩ | ⟨-, hr⟩
        · exact hI.held _ _ h2
        · rcases set_ref hr with ⟨-, rfl⟩ | ⟨-, hr⟩
          · exact hI.held _ _ h1
          · exact hI.refs _ _ _ _ hb hr
      · exact hI.refs o' b' j q h3 hr
    · rcases set_obj hb' with ⟨rfl, rfl⟩ | ⟨-, h3⟩
      · simpa using hI.num _ _ hb
      · exact hI.num o' b' h3
  · refine ⟨hI.held, fun o' b' j q hb' hr => ?_, fun o' b' hb' => ?_⟩
    · rcases set_obj hb' with ⟨rfl, rfl⟩ | ⟨-, h3⟩
      · rcases set_ref hr with ⟨-, rfl⟩ | ⟨-, hr⟩
        · exact hI.held _ _ h1
        · exact hI.refs _ _ _ _ hb hr
      · exact hI.refs o' b' j q h3 hr
    · rcases set_obj hb' with ⟨rfl, rfl⟩ | ⟨-, h3⟩
      · simpa using hI.num _ _ hb
      · exact hI.num o' b' h3
  · refine ⟨fun h p hh => ?_, fun o b j p hb hr => ?_, hI.num⟩
    · simpa using hI.held h p hh
    · simpa using hI.refs o b j p hb hr
  · refine ⟨fun h q hh => ?_, hI.refs, hI.num⟩
    rcases snoc_get hh with h1 | ⟨-, rfl⟩
    · exact hI.held _ _ h1
    · exact hI.refs _ _ _ _ hb hr
  · refine ⟨fun h p hh => ?_, fun o b j p hb hr => ?_, hI.num⟩
    · simpa using hI.held h p hh
    · simpa using hI.refs o b j p hb hr

theorem PInv.exec {s : PSt} (hI : PInv s) (c : PCall) : PInv (pexec s c) := by
  unfold pexec
  split
  · next s' h => exact hI.step h
  · exact hI

theorem PInv.run {s : PSt} (hI : PInv s) (H : List PCall) : PInv (prun s H) := by
  induction H generalizing s with
  | nil => exact hI
  | cons c H ih => exact ih (hI.exec c)

theorem preach (H : List PCall) : PInv (prun .init H) :=
  PInv.run ⟨by simp [PSt.init], by simp [PSt.init], by simp [PSt.init]⟩ H

/-- The list of attribute `j` of object `o` is at `p`, nobody else refers to it. -/
structure Priv (s : PSt) (o j p : ℕ) : Prop where
  ref : ∃ b, s.objs[o]? = some b ∧ b.refs[j]? = some p
  held : ∀ h : ℕ, s.held[h]? ≠ some p
  only : ∀ (o' : ℕ) (b' : PObj) (j' : ℕ), s.objs[o']? = some b' → b'.refs[j']? = some p → o' = o ∧ j' = j

theorem Priv.step {s s' : PSt} (hI : PInv s) {c : PCall} (hs : pstep s c = .ok s') {o j p : ℕ} (hp : Priv s o j p) (hl : ¬ Lends c o j) :
    Priv s' o j p ∧ (¬ Sets c o → s'.at p = s.at p) := by
  obtain ⟨b0, hb0, hr0⟩ := hp.ref
  have hlt := hI.refs _ _ _ _ hb0 hr0
  have ho0 : o < s.objs.length := by
    by_contra hc
    rw [List.getElem?_eq_none (by omega)] at hb0
    cases hb0
  rcases pstep_ok hs with ⟨v, -, rfl⟩ | ⟨k, vs, -, hn, rfl⟩ | ⟨k, hs, ps, -, hm, hn, rfl⟩ | ⟨o1, h, h', b, q, q', rfl, hb, h1, h2, hk, rfl⟩ |
    ⟨o1, u, h, b, q, rfl, hb, h1, hk, rfl⟩ | ⟨o1, h, b, q, rfl, hb, h1, hk, rfl⟩ | ⟨o1, j1, b, q, rfl, hb, hr, rfl⟩ | ⟨h, i, x, q, rfl, h1, hi, rfl⟩
  · refine ⟨⟨⟨b0, hb0, hr0⟩, fun h e => ?_, hp.only⟩, fun _ => at_append hlt⟩
    rcases snoc_get e with e | ⟨-, e⟩
    · exact hp.held h e
    · omega
  · refine ⟨⟨⟨b0, ?_, hr0⟩, hp.held, fun o' b' j' hb' hr' => ?_⟩, fun _ => at_append hlt⟩
    · simp only [PSt.fresh]
      rw [List.getElem?_append_left ho0]
      exact hb0
    · rcases fresh_obj hb' with h1 | ⟨-, rfl⟩
      · exact hp.only o' b' j' h1 hr'
      · have := range_ref hr'
        omega
  · refine ⟨⟨⟨b0, ?_, hr0⟩, hp.held, fun o' b' j' hb' hr' => ?_⟩, fun _ => rfl⟩
    · rw [List.getElem?_append_left ho0]
      exact hb0
    · simp only [List.getElem?_append] at hb'
      split_ifs at hb' with ho
      · exact hp.only o' b' j' hb' hr'
      · rw [List.getElem?_singleton] at hb'
        split_ifs at hb'
        cases hb'
        obtain ⟨k', hk'⟩ := mapM_mem hm j' p hr'
        exact absurd hk' (hp.held k')
  · have hne : o1 ≠ o := hl
    refine ⟨⟨⟨b0, ?_, hr0⟩, hp.held, fun o' b' j' hb' hr' => ?_⟩, fun _ => rfl⟩
    · rw [List.getElem?_set_ne hne]
      exact hb0
    · rcases set_obj hb' with ⟨rfl, rfl⟩ | ⟨-, h3⟩
      · rcases set_ref hr' with ⟨-, e⟩ | ⟨-, hr'⟩
        · exact absurd (e ▸ h2) (hp.held _)
        · rcases set_ref hr' with ⟨-, e⟩ | ⟨-, hr'⟩
          · exact absurd (e ▸ h1) (hp.held _)
          · exact absurd (hp.only _ _ _ hb hr').1 hne
      · exact hp.only o' b' j' h3 hr'
  · have hne : o1 ≠ o := hl
    refine ⟨⟨⟨b0, ?_, hr0⟩, hp.held, fun o' b' j' hb' hr' => ?_⟩, fun _ => rfl⟩
    · rw [List.getElem?_set_ne hne]
      exact hb0
    · rcases set_obj hb' with ⟨rfl, rfl⟩ | ⟨-, h3⟩
      · rcases set_ref hr' with ⟨-, e⟩ | ⟨-, hr'⟩
        · exact absurd (e ▸ h1) (hp.held _)
        · exact absurd (hp.only _ _ _ hb hr').1 hne
      · exact hp.only o' b' j' h3 hr'
  · refine ⟨⟨⟨b0, hb0, hr0⟩, hp.held, hp.only⟩, fun hst => ?_⟩
    have hne : o1 ≠ o := hst
    have hl1 : 0 < b.refs.length := by rw [hI.num o1 b hb, hk]; decide
    have hg : b.refs[0]? = some (b.refs.getD 0 0) := by
      rw [List.getD_eq_getElem?_getD, List.getElem?_eq_getElem hl1]; rfl
    rw [at_set (hI.refs _ _ _ _ hb hg), if_neg]
    intro e
    rw [e] at hg
    exact hne (hp.only _ _ _ hb hg).1
  · refine ⟨⟨⟨b0, hb0, hr0⟩, fun h e => ?_, hp.only⟩, fun _ => rfl⟩
    rcases snoc_get e with e | ⟨-, e⟩
    · exact hp.held h e
    · rw [← e] at hr
      exact hl (hp.only _ _ _ hb hr)
  · refine ⟨⟨⟨b0, hb0, hr0⟩, hp.held, hp.only⟩, fun _ => ?_⟩
    rw [at_set (hI.held _ _ h1), if_neg]
    intro e
    exact hp.held h (e ▸ h1)

theorem Priv.val {s : PSt} {o j p : ℕ} (h : Priv s o j p) : s.val o j = some (s.at p) := by
  obtain ⟨b, hb, hr⟩ := h.ref
  simp only [PSt.val, hb, hr, Option.map_some]

theorem Priv.run {s : PSt} (hI : PInv s) {o j p : ℕ} (hp : Priv s o j p) {H : List PCall} (hl : ∀ c ∈ H, ¬ Lends c o j) :
    Priv (prun s H) o j p ∧ ((∀ c ∈ H, ¬ Sets c o) → (prun s H).at p = s.at p) := by
  induction H generalizing s with
  | nil => exact ⟨hp, fun _ => rfl⟩
  | cons c H ih =>
    have key : Priv (pexec s c) o j p ∧ (¬ Sets c o → (pexec s c).at p = s.at p) := by
      unfold pexec
      split
      · next s' h => exact hp.step hI h (hl c (List.mem_cons_self ..))
      · exact ⟨hp, fun _ => rfl⟩
    obtain ⟨h1, h2⟩ := ih (hI.exec c) key.1 (fun c' h => hl c' (List.mem_cons_of_mem _ h))
    exact ⟨h1, fun hs => (h2 fun c' h => hs c' (List.mem_cons_of_mem _ h)).trans (key.2 (hs c (List.mem_cons_self ..)))⟩

theorem fresh_priv {s : PSt} (hI : PInv s) (k : Kind) (vs : List (List Entry)) (j : ℕ) (v : List Entry) (hj : vs[j]? = some v) :
    Priv (s.fresh k vs) s.objs.length j (s.lists.length + j) ∧ (s.fresh k vs).at (s.lists.length + j) = v := by
  have hlt : j < vs.length := by
    by_contra hc
    rw [List.getElem?_eq_none (by omega)] at hj
    cases hj
  refine ⟨⟨⟨⟨k, (List.range vs.length).map (s.lists.length + ·)⟩, by simp [PSt.fresh], ?_⟩, fun h e => ?_, fun o' b' j' hb' hr' => ?_⟩, ?_⟩
  · simp [hlt]
  · have := hI.held h _ e
    omega
  · rcases fresh_obj hb' with h1 | ⟨rfl, rfl⟩
    · have := hI.refs _ _ _ _ h1 hr'
      omega
    · have := range_ref hr'
      exact ⟨rfl, by omega⟩
  · simp only [PSt.fresh, PSt.at, List.getD_eq_getElem?_getD]
    rw [List.getElem?_append_right (by omega), Nat.add_sub_cancel_left, hj]
    rfl

/-- C140, what holds, first (partial): after any history, an object made with its defaults has the documented defaults, whatever
was done to objects made before, and keeps them, whatever is done to other objects and to all lists the caller has in hand, until a
setter of the object is called or the list itself is handed out. Missing: lists that were handed out, or came from the caller
(`C140_layers_shared_refuted`, `C140_names_shared_refuted`). -/
theorem C140_defaults_partial (H H' : List PCall) (k : Kind) (j : ℕ) (v : List Entry) (hv : k.defaults[j]? = some v)
    (hu : ∀ c ∈ H', ¬ Lends c (prun .init H).objs.length j ∧ ¬ Sets c (prun .init H).objs.length) :
    (prun .init (H ++ .new k :: H')).val (prun .init H).objs.length j = some v := by
  have hI := preach H
  have e : prun .init (H ++ .new k :: H') = prun ((prun .init H).fresh k k.defaults) H' := by simp [prun, pexec, pstep]
  obtain ⟨h1, h2⟩ := fresh_priv hI k k.defaults j v hv
  have hI' : PInv ((prun .init H).fresh k k.defaults) := hI.step (c := .new k) rfl
  obtain ⟨h3, h4⟩ := h1.run hI' (H := H') fun c hc => (hu c hc).1
  rw [e, h3.val, h4 fun c hc => (hu c hc).2, h2]

/-- C140: what new objects hold: a `MultimediaPar()` one layer of index 1 and thickness 0, all others empty lists. -/
theorem C140_default_values (H : List PCall) :
    (∀ j, (prun .init (H ++ [.new .multimedia])).val (prun .init H).objs.length j =
      [[Entry.num 1], [Entry.num 0]][j]?) ∧
    (∀ j, (prun .init (H ++ [.new .sequence])).val (prun .init H).objs.length j = [[]][j]?) ∧
    (∀ j, (prun .init (H ++ [.new .volume])).val (prun .init H).objs.length j = [[], [], []][j]?) ∧
    (∀ j, (prun .init (H ++ [.new .control])).val (prun .init H).objs.length j = [[], []][j]?) ∧
    (∀ j, (prun .init (H ++ [.new .target])).val (prun .init H).objs.length j = [[]][j]?) := by
  have key : ∀ (k : Kind) (j : ℕ), (prun .init (H ++ [.new k])).val (prun .init H).objs.length j = k.defaults[j]? := by
    intro k j
    cases hv : k.defaults[j]? with
    | some v => exact C140_defaults_partial H [] k j v hv (by simp)
    | none =>
      have e : prun .init (H ++ [.new k]) = (prun .init H).fresh k k.defaults := by simp [prun, pexec, pstep]
      rw [e]
      simp only [PSt.val, PSt.fresh]
      simp [List.getElem?_eq_none_iff.1 hv]
  exact ⟨key _, key _, key _, key _, key _⟩

/-- C140, what holds, second (partial): the same for what was read from a file. -/
theorem C140_read_partial (H H' : List PCall) (k : Kind) (vs : List (List Entry)) (hl : vs.length = k.defaults.length) (j : ℕ)
    (v : List Entry) (hv : vs[j]? = some v)
    (hu : ∀ c ∈ H', ¬ Lends c (prun .init H).objs.length j ∧ ¬ Sets c (prun .init H).objs.length) :
    (prun .init (H ++ .read k vs :: H')).val (prun .init H).objs.length j = some v := by
  have hI := preach H
  have e : prun .init (H ++ .read k vs :: H') = prun ((prun .init H).fresh k vs) H' := by simp [prun, pexec, pstep, hl]
  obtain ⟨h1, h2⟩ := fresh_priv hI k vs j v hv
  have hI' : PInv ((prun .init H).fresh k vs) := hI.step (c := .read k vs) (by simp [pstep, hl])
  obtain ⟨h3, h4⟩ := h1.run hI' (H := H') fun c hc => (hu c hc).1
  rw [e, h3.val, h4 fun c hc => (hu c hc).2, h2]

/-- C140, what holds, third (partial): the names that `set_img_base_name` gives to a `SequencePar()` whose list was never handed
out are copied: it keeps them, whatever is done later to the list that was passed and to other objects, until it is set again. -/
theorem C140_names_partial (H H1 H2 : List PCall) (h : ℕ) (v : List Entry) (s : PSt)
    (hl1 : ∀ c ∈ H1, ¬ Lends c (prun .init H).objs.length 0)
    (hv : (prun .init (H ++ .new .sequence :: H1)).hand h = some v)
    (hs : pstep (prun .init (H ++ .new .sequence :: H1)) (.setNames (prun .init H).objs.length h) = .ok s)
    (hu : ∀ c ∈ H2, ¬ Lends c (prun .init H).objs.length 0 ∧ ¬ Sets c (prun .init H).objs.length) :
    (prun s H2).val (prun .init H).objs.length 0 = some v := by
  have hI := preach H
  have e : prun .init (H ++ .new .sequence :: H1) = prun ((prun .init H).fresh .sequence [[]]) H1 := by
    simp [prun, pexec, pstep, Kind.defaults]
  obtain ⟨h1, -⟩ := fresh_priv hI .sequence [[]] 0 [] rfl
  have hI' : PInv ((prun .init H).fresh .sequence [[]]) := hI.step (c := .new .sequence) rfl
  obtain ⟨h3, -⟩ := h1.run hI' hl1
  have hI2 := hI'.run H1
  rw [e] at hv hs
  generalize hg : prun ((prun .init H).fresh .sequence [[]]) H1 = t at *
  have hI3 := hI2.step hs
  obtain ⟨h5, -⟩ := h3.step hI2 hs (by simp [Lends])
  obtain ⟨h6, h7⟩ := h5.run hI3 (H := H2) fun c hc => (hu c hc).1
  rw [h6.val, h7 fun c hc => (hu c hc).2]
  obtain ⟨b, hb, hr⟩ := h3.ref
  rcases pstep_ok hs with ⟨v, hc, -⟩ | ⟨k, vs, ⟨hc, -⟩ | hc, -⟩ | ⟨k, hs, ps, hc, -⟩ | ⟨o, h, h', b, p, p', hc, -⟩ |
    ⟨o, u, h, b, p, hc, -⟩ | ⟨o, h', b', p, hc, hb', h1', hk, rfl⟩ | ⟨o, j, b, p, hc, -⟩ | ⟨h, i, x, p, hc, -⟩
  any_goals (cases hc; done)
  cases hc
  rw [hb] at hb'
  cases hb'
  have hg : b.refs.getD 0 0 = (prun .init H).lists.length + 0 := by
    rw [List.getD_eq_getElem?_getD, hr]; rfl
  rw [hg, at_set (hI2.refs _ _ _ _ hb hr), if_pos rfl]
  have : t.hand h = some (t.at p) := by simp [PSt.hand, h1']
  rw [this] at hv
  exact hv

/-- C140: a setter is believed at once. After any history, right after a setter returns the attributes hold what the lists that were
passed hold. -/
theorem C140_set_get (H : List PCall) (s : PSt) :
    (∀ o h h', pstep (prun .init H) (.setLayers o h h') = .ok s → s.val o 0 = (prun .init H).hand h ∧ s.val o 1 = (prun .init H).hand h') ∧
    (∀ o h, pstep (prun .init H) (.setZ o false h) = .ok s → s.val o 1 = (prun .init H).hand h) ∧
    (∀ o h, pstep (prun .init H) (.setZ o true h) = .ok s → s.val o 2 = (prun .init H).hand h) ∧
    (∀ o h, pstep (prun .init H) (.setNames o h) = .ok s → s.val o 0 = (prun .init H).hand h) := by
  have hI := preach H
  generalize prun .init H = t at *
  have hlt : ∀ {o : ℕ} {b : PObj}, t.objs[o]? = some b → o < t.objs.length := by
    intro o b hb
    by_contra hc
    rw [List.getElem?_eq_none (by omega)] at hb
    cases hb
  refine ⟨fun o h h' hs => ?_, fun o h hs => ?_, fun o h hs => ?_, fun o h hs => ?_⟩
  all_goals
    rcases pstep_ok hs with ⟨v, hc, -⟩ | ⟨k, vs, ⟨hc, -⟩ | hc, -⟩ | ⟨k, hs, ps, hc, -⟩ | ⟨o, h, h', b, p, p', hc, hb, h1, h2, hk, rfl⟩ |
      ⟨o, u, h, b, p, hc, hb, h1, hk, rfl⟩ | ⟨o, h', b', p, hc, hb, h1, hk, rfl⟩ | ⟨o, j, b, p, hc, -⟩ | ⟨h, i, x, p, hc, -⟩
    any_goals (cases hc; done)
    cases hc
    have hn := hI.num _ _ hb
    rw [hk] at hn
    simp only [Kind.defaults, List.length_cons, List.length_nil] at hn
  · simp [PSt.val, PSt.hand, h1, h2, hlt hb, hn]
    exact ⟨rfl, rfl⟩
  · simp [PSt.val, PSt.hand, h1, hlt hb, hn]
    rfl
  · simp [PSt.val, PSt.hand, h1, hlt hb, hn]
    rfl
  · have hr : b'.refs[0]? = some (b'.refs.getD 0 0) := by
      rw [List.getD_eq_getElem?_getD, List.getElem?_eq_getElem (by omega)]; rfl
    simp only [PSt.val, PSt.hand, hb, h1, hr, Option.map_some, Option.some.injEq]
    rw [at_set (hI.refs _ _ _ _ hb hr), if_pos rfl]

/-- C140 is false for `set_layers`, for all objects and after every history: it keeps the lists it is given, so that a later change
of the caller's list is a change of the parameters. -/
theorem C140_layers_shared_refuted (H : List PCall) (o h h' i : ℕ) (x : Entry) (v : List Entry) (s s' : PSt)
    (hv : (prun .init H).hand h = some v)
    (hs : pstep (prun .init H) (.setLayers o h h') = .ok s) (hw : pstep s (.write h i x) = .ok s') :
    s'.val o 0 = some (v.set i x) := by
  have hI := preach H
  generalize prun .init H = t at *
  have hI' := hI.step hs
  rcases pstep_ok hs with ⟨v, hc, -⟩ | ⟨k, vs, ⟨hc, -⟩ | hc, -⟩ | ⟨k, hs, ps, hc, -⟩ | ⟨o, h, h', b, p, p', hc, hb, h1, h2, hk, rfl⟩ |
    ⟨o, u, h, b, p, hc, -⟩ | ⟨o, h', b', p, hc, -⟩ | ⟨o, j, b, p, hc, -⟩ | ⟨h, i, x, p, hc, -⟩
  any_goals (cases hc; done)
  cases hc
  rcases pstep_ok hw with ⟨v, hc, -⟩ | ⟨k, vs, ⟨hc, -⟩ | hc, -⟩ | ⟨k, hs, ps, hc, -⟩ | ⟨o, h, h', b, p, p', hc, -⟩ |
    ⟨o, u, h, b, p, hc, -⟩ | ⟨o, h', b', p, hc, -⟩ | ⟨o, j, b, p, hc, -⟩ | ⟨h, i, x, q, hc, h3, hi, rfl⟩
  any_goals (cases hc; done)
  cases hc
  have e : q = p := by
    simp only at h3
    rw [h1] at h3
    exact (Option.some.inj h3).symm
  subst e
  have hlt : o < t.objs.length := by
    by_contra hc
    rw [List.getElem?_eq_none (by omega)] at hb
    cases hb
  have hn := hI.num _ _ hb
  rw [hk] at hn
  simp only [Kind.defaults, List.length_cons, List.length_nil] at hn
  have hv' : t.at q = v := by simpa [PSt.hand, h1] using hv
  have hr : ((b.refs.set 0 q).set 1 p')[0]? = some q := by
    rw [List.getElem?_set_ne (by decide), List.getElem?_set_self (by omega)]
  simp only [PSt.val, List.getElem?_set_self hlt, hr, Option.map_some, Option.some.injEq]
  rw [at_set (s := ⟨t.lists, t.objs.set o _, t.held⟩) (by exact hI.held _ _ h1), if_pos rfl]
  exact congrArg (fun l : List Entry => l.set i x) hv'

/-- C140 is false for `set_img_base_name`, after every history: a `SequencePar` made with a list of another object (for example the
image names of the `ControlPar`) writes its new names into that list, so that the other object changes. -/
theorem C140_names_shared_refuted (H : List PCall) (o j h : ℕ) (v : List Entry) (s1 s2 s3 : PSt)
    (hv : (prun .init H).hand h = some v)
    (h1 : pstep (prun .init H) (.get o j) = .ok s1)
    (h2 : pstep s1 (.make .sequence [(prun .init H).held.length]) = .ok s2)
    (h3 : pstep s2 (.setNames (prun .init H).objs.length h) = .ok s3) :
    s3.val o j = some v := by
  have hI := preach H
  generalize prun .init H = t at *
  have hI1 := hI.step h1
  rcases pstep_ok h1 with ⟨v, hc, -⟩ | ⟨k, vs, ⟨hc, -⟩ | hc, -⟩ | ⟨k, hs, ps, hc, -⟩ | ⟨o, h, h', b, p, p', hc, -⟩ |
    ⟨o, u, h, b, p, hc, -⟩ | ⟨o, h', b', p, hc, -⟩ | ⟨o, j, b, p, hc, hb, hr, rfl⟩ | ⟨h, i, x, p, hc, -⟩
  any_goals (cases hc; done)
  cases hc
  have hI2 := hI1.step h2
  rcases pstep_ok h2 with ⟨v, hc, -⟩ | ⟨k, vs, ⟨hc, -⟩ | hc, -⟩ | ⟨k, hs, ps, hc, hm, -, rfl⟩ | ⟨o, h, h', b, p, p', hc, -⟩ |
    ⟨o, u, h, b, p, hc, -⟩ | ⟨o, h', b', p, hc, -⟩ | ⟨o, j, b, p, hc, -⟩ | ⟨h, i, x, p, hc, -⟩
  any_goals (cases hc; done)
  cases hc
  have hps : ps = [p] := by simpa [eq_comm] using hm
  subst hps
  rcases pstep_ok h3 with ⟨v, hc, -⟩ | ⟨k, vs, ⟨hc, -⟩ | hc, -⟩ | ⟨k, hs, ps, hc, -⟩ | ⟨o, h, h', b, p, p', hc, -⟩ |
    ⟨o, u, h, b, p, hc, -⟩ | ⟨o1, h', b1, q, hc, hb1, hq, hk, rfl⟩ | ⟨o, j, b, p, hc, -⟩ | ⟨h, i, x, p, hc, -⟩
  any_goals (cases hc; done)
  cases hc
  have hlt : o < t.objs.length := by
    by_contra hc
    rw [List.getElem?_eq_none (by omega)] at hb
    cases hb
  simp only [List.getElem?_concat_length, Option.some.injEq] at hb1
  subst hb1
  have hh : t.held[h]? = some q := by
    cases hx : t.held[h]? with
    | none => simp [PSt.hand, hx] at hv
    | some q' =>
      have hl : h < t.held.length := by
        by_contra hc
        rw [List.getElem?_eq_none (by omega)] at hx
        cases hx
      rw [List.getElem?_append_left hl, hx] at hq
      exact hq
  have hv' : t.at q = v := by simpa [PSt.hand, hh] using hv
  simp only [PSt.val]
  rw [List.getElem?_append_left hlt, hb]
  simp only [hr, Option.map_some, Option.some.injEq]
  exact (at_set (s := ⟨t.lists, t.objs ++ [⟨.sequence, [p]⟩], t.held ++ [p]⟩) (p := p) (by exact hI.refs _ _ _ _ hb hr)).trans
    ((if_pos rfl).trans hv')

/-! Concrete cases. -/

/-- Layers set from two lists of the caller, the first of which is changed later: the hypotheses of `C140_layers_shared_refuted`. -/
example : ∃ s s', pstep (prun .init [.list [.num 1.5], .list [.num 6], .new .multimedia]) (.setLayers 0 0 1) = .ok s ∧
    pstep s (.write 0 0 (.num 1.3)) = .ok s' ∧ s.val 0 0 = some [.num 1.5] ∧ s'.val 0 0 = some [.num 1.3] := by
  refine ⟨_, _, rfl, rfl, ?_, ?_⟩ <;> decide +kernel

/-- A control object read from a file, a sequence object made with its image names, then given names of its own: the names of the
control object have changed (`C140_names_shared_refuted`). -/
example : ∃ s1 s2 s3, pstep (prun .init [.read .control [[.name "img/cam1."], [.name "cal/cam1"]], .list [.name "new/cam1."]]) (.get 0 0) = .ok s1 ∧
    pstep s1 (.make .sequence [1]) = .ok s2 ∧ pstep s2 (.setNames 1 0) = .ok s3 ∧ s3.val 0 0 = some [.name "new/cam1."] := by
  refine ⟨_, _, _, rfl, rfl, rfl, ?_⟩
  decide +kernel

/-- The hypotheses of `C140_defaults_partial` and `C140_names_partial`: the list passed is changed afterwards. -/
example : (prun .init ([.new .multimedia] ++ .new .sequence :: [.list [.name "a"]])).hand 0 = some [.name "a"] ∧
    (∃ s, pstep (prun .init ([.new .multimedia] ++ .new .sequence :: [.list [.name "a"]])) (.setNames 1 0) = .ok s ∧
      (prun s [.write 0 0 (.name "b"), .get 0 0]).val 1 0 = some [.name "a"]) ∧
    ∀ c ∈ [PCall.write 0 0 (.name "b"), .get 0 0], ¬ Lends c 1 0 ∧ ¬ Sets c 1 := by
  refine ⟨by decide +kernel, ⟨_, rfl, by decide +kernel⟩, by simp [Lends, Sets]⟩

end Verif.ParObj
