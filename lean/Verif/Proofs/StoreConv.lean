/-
The converse of C88: a run on frames in memory that returns, whose frames can be read and whose writes succeed, is a run on files.
-/
import Verif.Props.StoreRun

namespace Verif.Track
open Verif.Track.Spec

section
variable {S F : Type} {st : Store S F} {lo hi' : Int} {Ok : F → Prop} {s0 s : S} {disk : Int → F} {r r' : Run F} {n : Int}
  {process : List F → Py (List F)}

theorem sRead_conv (hi : st.Isolated lo Ok) (hb : r.buf ≠ []) (h : Sim st lo Ok s0 s r) (hn : lo ≤ n)
    (hd : ∀ f, Ok f → st.read s0 n f = .ok (disk n)) (hw : ∀ w ∈ writesOf r.log, w.1 ≠ n) :
    sRead st n s r = (s, .ok (readAtEnd disk n r)) ∧ Sim st lo Ok s0 s (readAtEnd disk n r) := by
  obtain ⟨f, hl⟩ : ∃ f, r.buf.getLast? = some f := by
    cases e : r.buf.getLast? with
    | none => exact absurd (List.getLast?_eq_none_iff.1 e) hb
    | some f => exact ⟨f, rfl⟩
  have hf : Ok f := h.ok f (List.mem_of_getLast? hl)
  have hr : st.read s n f = .ok (disk n) := by
    rw [h.files.replay, replay_read hi hn hf _ _ (fun w hw' => ⟨h.low w hw', hw w hw'⟩)]
    exact hd f hf
  refine ⟨?_, ?_, ?_, ?_⟩
  · unfold sRead
    rw [hl]
    simp only [hr]
    rfl
  · intro f2 hf2
    simp only [readAtEnd, List.mem_append, List.mem_singleton] at hf2
    rcases hf2 with hf2 | rfl
    · exact h.ok f2 (List.mem_of_mem_dropLast hf2)
    · exact hi.kind s0 n f _ hf (hd f hf)
  · rw [readAtEnd_writes]; exact h.files
  · rw [readAtEnd_writes]; exact h.low

theorem sWrite_conv (h : Sim st lo Ok s0 s r) (hn : lo ≤ n) (e : writeFromStart n r = .ok r')
    (hw : ∀ f, (n, f) ∈ writesOf r'.log → ∀ s, ∃ s' v, st.write s n f = (s', .ok v)) :
    ∃ s', sWrite st n s r = (s', .ok r') ∧ Sim st lo Ok s0 s' r' := by
  have e0 := e
  unfold writeFromStart at e
  cases hl : r.buf[0]? with
  | none => simp [pyGet, hl, bind, Except.bind] at e
  | some f =>
    simp only [pyGet, hl, bind, Except.bind, Except.ok.injEq] at e
    subst e
    obtain ⟨s', v, hs⟩ := hw f (by simp [writesOf_append, writesOf]) s
    have hs' : sWrite st n s r = (s', .ok ⟨r.buf, r.log ++ [.write n f]⟩) := by
      unfold sWrite
      simp only [hl, hs]
    exact ⟨s', hs', (sWrite_sim h hn hs').2⟩

theorem readAtEnd_ne : (readAtEnd disk n r).buf ≠ [] := by simp [readAtEnd]
theorem next_ne (h : r.buf ≠ []) : r.next.buf ≠ [] := by
  obtain ⟨b, l⟩ := r
  cases b <;> simp_all [Run.next, fbNext]

theorem sPrime_conv (hi : st.Isolated lo Ok) : ∀ (ns : List Int) (s : S) (r : Run F), r.buf ≠ [] → Sim st lo Ok s0 s r →
    writesOf r.log = [] → (∀ n ∈ ns, lo ≤ n ∧ ∀ f, Ok f → st.read s0 n f = .ok (disk n)) →
    sPrime st ns s r = (s, .ok (ns.foldl (fun r n => (readAtEnd disk n r).next) r)) ∧
      Sim st lo Ok s0 s (ns.foldl (fun r n => (readAtEnd disk n r).next) r)
  | [], s, r, hb, h, h0, _ => ⟨rfl, h⟩
  | n :: ns, s, r, hb, h, h0, hn => by
    obtain ⟨h1, h2⟩ := sRead_conv hi hb h (hn n (by simp)).1 (hn n (by simp)).2 (by rw [h0]; simp)
    have := sPrime_conv hi ns s (readAtEnd disk n r).next (next_ne readAtEnd_ne) h2.next
      (by simp [Run.next, readAtEnd, writesOf_append, h0, writesOf]) (fun m hm => hn m (by simp [hm]))
    refine ⟨?_, this.2⟩
    unfold sPrime
    rw [h1]
    exact this.1

theorem prime_writes : ∀ (ns : List Int) (r : Run F), writesOf r.log = [] →
    writesOf (ns.foldl (fun r n => (readAtEnd disk n r).next) r).log = []
  | [], r, h => h
  | n :: ns, r, h => prime_writes ns _ (by
    show writesOf (readAtEnd disk n r).log = []
    rw [readAtEnd_writes, h])

theorem forwardStep_writes {last : Int} (e : forwardStep disk process last n r = .ok r') :
    ∃ f, writesOf r'.log = writesOf r.log ++ [(n, f)] := by
  unfold forwardStep at e
  cases hb : process r.buf with
  | error x => rw [hb] at e; simp [bind, Except.bind] at e
  | ok buf =>
    rw [hb] at e
    simp only [bind, Except.bind] at e
    cases e1 : writeFromStart n (Run.next (⟨buf, r.log ++ [.step n r.buf]⟩ : Run F)) with
    | error x => rw [e1] at e; simp at e
    | ok r2 =>
      obtain ⟨f, hf⟩ := writeFromStart_writes e1
      rw [e1] at e
      simp only [Except.ok.injEq] at e
      refine ⟨f, ?_⟩
      subst e
      have : writesOf r2.log = writesOf r.log ++ [(n, f)] := by
        rw [hf]; simp [Run.next, writesOf_append, writesOf]
      split_ifs
      · rw [readAtEnd_writes, this]
      · exact this

theorem forwardSteps_writes {last : Int} : ∀ (k : ℕ) (n : Int) (r : Run F), forwardSteps disk process last k n r = .ok r' →
    ∃ ws, writesOf r'.log = writesOf r.log ++ ws
  | 0, n, r, e => by
    simp only [forwardSteps, Except.ok.injEq] at e
    exact ⟨[], by rw [e]; simp⟩
  | k + 1, n, r, e => by
    simp only [forwardSteps] at e
    cases e1 : forwardStep disk process last n r with
    | error x => rw [e1] at e; simp [bind, Except.bind] at e
    | ok r1 =>
      rw [e1] at e
      obtain ⟨f, hf⟩ := forwardStep_writes e1
      obtain ⟨ws, hws⟩ := forwardSteps_writes k (n + 1) r1 e
      exact ⟨(n, f) :: ws, by rw [hws, hf]; simp⟩

theorem sForwardStep_conv (hi : st.Isolated lo Ok)
    (hp : ∀ b b', (∀ f ∈ b, Ok f) → process b = .ok b' → ∀ f ∈ b', Ok f) {last : Int}
    (h : Sim st lo Ok s0 s r) (hn : lo ≤ n) (hw : ∀ w ∈ writesOf r.log, w.1 < n)
    (hd : n < last - 2 → ∀ f, Ok f → st.read s0 (n + 3) f = .ok (disk (n + 3)))
    (e : forwardStep disk process last n r = .ok r')
    (hws : ∀ f, (n, f) ∈ writesOf r'.log → ∀ s, ∃ s' v, st.write s n f = (s', .ok v)) :
    ∃ s', sForwardStep st process last n s r = (s', .ok r') ∧ Sim st lo Ok s0 s' r' ∧ ∀ w ∈ writesOf r'.log, w.1 < n + 1 := by
  obtain ⟨f0, hf0⟩ := forwardStep_writes e
  unfold forwardStep at e
  cases hb : process r.buf with
  | error x => rw [hb] at e; simp [bind, Except.bind] at e
  | ok buf =>
    rw [hb] at e
    simp only [bind, Except.bind] at e
    have h1 : Sim st lo Ok s0 s (Run.next ⟨buf, r.log ++ [.step n r.buf]⟩) := by
      refine Sim.next ⟨hp _ _ h.ok hb, ?_, ?_⟩ <;> simp only [writesOf_append, writesOf, List.append_nil]
      · exact h.files
      · exact h.low
    cases e1 : writeFromStart n (Run.next (⟨buf, r.log ++ [.step n r.buf]⟩ : Run F)) with
    | error x => rw [e1] at e; simp at e
    | ok r2 =>
      rw [e1] at e
      simp only [Except.ok.injEq] at e
      have hsame : writesOf r2.log = writesOf r'.log := by
        subst e
        split_ifs
        · rw [readAtEnd_writes]
        · rfl
      obtain ⟨s2, g1, g2⟩ := sWrite_conv h1 hn e1 (by rw [hsame]; exact hws)
      have hlt : ∀ w ∈ writesOf r2.log, w.1 < n + 1 := by
        rw [hsame, hf0]
        intro w hw'
        simp only [List.mem_append, List.mem_singleton] at hw'
        rcases hw' with hw' | rfl
        · have := hw w hw'; omega
        · simp
      have hbne : r2.buf ≠ [] := by
        unfold writeFromStart at e1
        cases hg : pyGet (Run.next (⟨buf, r.log ++ [.step n r.buf]⟩ : Run F)).buf 0 with
        | error x => rw [hg] at e1; simp [bind, Except.bind] at e1
        | ok f =>
          rw [hg] at e1
          simp only [bind, Except.bind, Except.ok.injEq] at e1
          subst e1
          intro e
          simp only at e
          rw [e] at hg
          simp [pyGet] at hg
      unfold sForwardStep
      rw [hb]
      simp only [g1, andThen]
      by_cases hc : n < last - 2
      · rw [if_pos hc] at e
        subst e
        obtain ⟨g3, g4⟩ := sRead_conv hi hbne g2 (by omega : lo ≤ n + 3) (hd hc) (fun w hw' => by have := hlt w hw'; omega)
        exact ⟨s2, by rw [if_pos hc, g3], g4, by rw [readAtEnd_writes]; exact hlt⟩
      · rw [if_neg hc] at e
        subst e
        exact ⟨s2, by rw [if_neg hc], g2, hlt⟩

theorem sForwardSteps_conv (hi : st.Isolated lo Ok)
    (hp : ∀ b b', (∀ f ∈ b, Ok f) → process b = .ok b' → ∀ f ∈ b', Ok f) {last : Int} :
    ∀ (k : Nat) (n : Int) (s : S) (r : Run F), Sim st lo Ok s0 s r → lo ≤ n → (∀ w ∈ writesOf r.log, w.1 < n) →
    (∀ m, n ≤ m → m < last - 2 → ∀ f, Ok f → st.read s0 (m + 3) f = .ok (disk (m + 3))) →
    forwardSteps disk process last k n r = .ok r' →
    (∀ m f, (m, f) ∈ writesOf r'.log → ∀ s, ∃ s' v, st.write s m f = (s', .ok v)) →
    ∃ s', sForwardSteps st process last k n s r = (s', .ok r') ∧ Sim st lo Ok s0 s' r'
  | 0, n, s, r, h, _, _, _, e, _ => by
    simp only [forwardSteps, Except.ok.injEq] at e
    subst e
    exact ⟨s, rfl, h⟩
  | k + 1, n, s, r, h, hn, hw, hd, e, hws => by
    simp only [forwardSteps] at e
    cases e1 : forwardStep disk process last n r with
    | error x => rw [e1] at e; simp [bind, Except.bind] at e
    | ok r1 =>
      rw [e1] at e
      replace e : forwardSteps disk process last k (n + 1) r1 = .ok r' := e
      obtain ⟨ws, hws'⟩ := forwardSteps_writes k (n + 1) r1 e
      obtain ⟨s1, g1, g2, g3⟩ := sForwardStep_conv hi hp h hn hw (hd n (le_refl n)) e1
        (fun f hf => hws n f (by rw [hws']; simp [hf]))
      obtain ⟨s2, g4, g5⟩ := sForwardSteps_conv hi hp k (n + 1) s1 r1 g2 (by omega) g3 (fun m hm => hd m (by omega)) e hws
      refine ⟨s2, ?_, g5⟩
      unfold sForwardSteps
      rw [g1]
      exact g4

/-- A forward run in memory is a run on files, if the frames can be read before the run and the writes of its log succeed. -/
theorem forward_on_files (hi : st.Isolated first Ok) {last : Int} (hfl : first < last)
    (hp : ∀ b b', (∀ f ∈ b, Ok f) → process b = .ok b' → ∀ f ∈ b', Ok f)
    (hd : ∀ n, first ≤ n → (n ≤ last ∨ n ≤ first + 2) → ∀ f, Ok f → st.read s n f = .ok (disk n))
    {buf0 : List F} (hbne : buf0 ≠ []) (hb : ∀ f ∈ buf0, Ok f) (h : forwardRun disk process first last buf0 = .ok r)
    (hws : ∀ m f, (m, f) ∈ writesOf r.log → ∀ s, ∃ s' v, st.write s m f = (s', .ok v)) :
    ∃ s', sForwardRun st process first last s buf0 = (s', .ok r) := by
  have hstart : forwardStart disk first ⟨buf0, []⟩ =
      ([first, first + 1, first + 2].foldl (fun r n => (readAtEnd disk n r).next) ⟨buf0, []⟩).prev := by
    simp [forwardStart, List.range_succ]
  obtain ⟨h1, h2⟩ := sPrime_conv (disk := disk) hi [first, first + 1, first + 2] s ⟨buf0, []⟩ hbne ⟨hb, .nil, by simp [writesOf]⟩ rfl (by
    intro n hn
    simp only [List.mem_cons, List.not_mem_nil, or_false] at hn
    rcases hn with rfl | rfl | rfl
    · exact ⟨by omega, hd _ (by omega) (by omega)⟩
    · exact ⟨by omega, hd _ (by omega) (by omega)⟩
    · exact ⟨by omega, hd _ (by omega) (by omega)⟩)
  have hp0 := prime_writes (disk := disk) [first, first + 1, first + 2] (⟨buf0, []⟩ : Run F) rfl
  unfold forwardRun at h
  rw [hstart] at h
  cases e1 : forwardSteps disk process last (last - first).toNat first
      ([first, first + 1, first + 2].foldl (fun r n => (readAtEnd disk n r).next) (⟨buf0, []⟩ : Run F)).prev with
  | error x => rw [e1] at h; simp [bind, Except.bind] at h
  | ok r1 =>
    rw [e1] at h
    simp only [bind, Except.bind, forwardFinish] at h
    rw [if_neg (by omega)] at h
    obtain ⟨f, hf⟩ := writeFromStart_writes h
    obtain ⟨s1, g1, g2⟩ := sForwardSteps_conv hi hp _ _ s _ h2.prev (le_refl first) (by
        simp only [Run.prev, hp0]; simp)
      (fun m h1 h2 => hd (m + 3) (by omega) (by omega)) e1 (fun m f' hf' => hws m f' (by
        rw [hf]
        exact List.mem_append_left _ hf'))
    obtain ⟨s2, g3, -⟩ := sWrite_conv g2.next (by omega : first ≤ last) h (fun f => hws last f)
    refine ⟨s2, ?_⟩
    unfold sForwardRun sForwardStart sForwardFinish
    rw [h1]
    simp only [andThen, g1]
    rw [if_neg (by omega)]
    exact g3

end

end Verif.Track
