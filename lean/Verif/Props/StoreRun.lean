/-
C88, C89: runs on files that the run itself changes.
-/
import Verif.Model.StoreRun
import Verif.Spec.Tracking
import Verif.Props.FrameIO

namespace Verif.Track
open Verif.Track.Spec

section
variable {S F : Type}

/-! ### Specification -/

/-- The state after writing the frames of the list in order. -/
def replay (st : Store S F) (s : S) (ws : List (Int × F)) : S := ws.foldl (fun s w => (st.write s w.1 w.2).1) s

/-- `s'` is reached from `s` by writing the frames of the list in order, each without an exception. -/
inductive Replayed (st : Store S F) (s : S) : List (Int × F) → S → Prop
  | nil : Replayed st s [] s
  | snoc {ws : List (Int × F)} {s1 s2 : S} {n : Int} {f : F} {v : Bool} : Replayed st s ws s1 →
      st.write s1 n f = (s2, .ok v) → Replayed st s (ws ++ [(n, f)]) s2

/-- What a store must do for frames with numbers from `lo` up, and frame objects of the right kind: writing a frame
does not change what is read of another one; what is read does not depend on the old content of the object. -/
structure Store.Isolated (st : Store S F) (lo : Int) (Ok : F → Prop) : Prop where
  other : ∀ s n m f g, lo ≤ n → lo ≤ m → n ≠ m → Ok g → st.read (st.write s n f).1 m g = st.read s m g
  object : ∀ s n f g, Ok f → Ok g → st.read s n f = st.read s n g
  kind : ∀ s n f g, Ok f → st.read s n f = .ok g → Ok g

/-! ### Simulation -/

theorem andThen_ok {A B : Type} {o : S × Py A} {k : S → A → S × Py B} {s' : S} {b : B}
    (h : andThen o k = (s', .ok b)) : ∃ s a, o = (s, .ok a) ∧ k s a = (s', .ok b) := by
  obtain ⟨s, a | a⟩ := o
  · simp [andThen] at h
  · exact ⟨s, a, rfl, h⟩

theorem writesOf_append {F : Type} (l l' : List (Ev F)) : writesOf (l ++ l') = writesOf l ++ writesOf l' := by
  induction l with
  | nil => rfl
  | cons e l ih => cases e <;> simp [writesOf, ih]

theorem replay_append (st : Store S F) (s : S) (ws ws' : List (Int × F)) :
    replay st s (ws ++ ws') = replay st (replay st s ws) ws' := by
  simp [replay, List.foldl_append]

theorem Replayed.replay {st : Store S F} {s s' : S} {ws : List (Int × F)} (h : Replayed st s ws s') :
    s' = replay st s ws := by
  induction h with
  | nil => rfl
  | snoc h1 h2 ih => rw [replay_append, ← ih]; simp [Track.replay, h2]

theorem replay_read {st : Store S F} {lo : Int} {Ok : F → Prop} (hi : st.Isolated lo Ok) {m : Int} (hm : lo ≤ m) {g : F}
    (hg : Ok g) : ∀ (ws : List (Int × F)) (s : S), (∀ w ∈ ws, lo ≤ w.1 ∧ w.1 ≠ m) →
    st.read (replay st s ws) m g = st.read s m g
  | [], _, _ => rfl
  | w :: ws, s, h => by
    have h1 := h w (by simp)
    have := replay_read hi hm hg ws (st.write s w.1 w.2).1 (fun w' hw => h w' (by simp [hw]))
    rw [show replay st s (w :: ws) = replay st (st.write s w.1 w.2).1 ws from rfl, this,
      hi.other s w.1 m w.2 g h1.1 hm h1.2 hg]

/-- The state of a run on files: the objects of the buffer are of the right kind, the files are the initial ones with
the logged writes, and frames are written with numbers from `lo` up. -/
structure Sim (st : Store S F) (lo : Int) (Ok : F → Prop) (s0 s : S) (r : Run F) : Prop where
  ok : ∀ f ∈ r.buf, Ok f
  files : Replayed st s0 (writesOf r.log) s
  low : ∀ w ∈ writesOf r.log, lo ≤ w.1

theorem fbNext_mem {f : F} : ∀ {b : List F}, f ∈ fbNext b → f ∈ b
  | [], h => h
  | x :: xs, h => by
    simp only [fbNext, List.mem_append, List.mem_singleton] at h
    rcases h with h | h <;> simp [h]

theorem fbPrev_mem {f : F} {b : List F} (h : f ∈ fbPrev b) : f ∈ b := by
  unfold fbPrev at h
  cases e : b.getLast? with
  | none => rw [e] at h; simp at h
  | some x =>
    rw [e] at h
    simp only [List.mem_cons] at h
    rcases h with rfl | h
    · exact List.mem_of_getLast? e
    · exact List.mem_of_mem_dropLast h

theorem Sim.next {st : Store S F} {lo : Int} {Ok : F → Prop} {s0 s : S} {r : Run F} (h : Sim st lo Ok s0 s r) :
    Sim st lo Ok s0 s r.next := ⟨fun f hf => h.ok f (fbNext_mem hf), h.files, h.low⟩

theorem Sim.prev {st : Store S F} {lo : Int} {Ok : F → Prop} {s0 s : S} {r : Run F} (h : Sim st lo Ok s0 s r) :
    Sim st lo Ok s0 s r.prev := ⟨fun f hf => h.ok f (fbPrev_mem hf), h.files, h.low⟩

variable {st : Store S F} {lo : Int} {Ok : F → Prop} {s0 s s' : S} {disk : Int → F} {r r' : Run F} {n : Int}

theorem sRead_sim (hi : st.Isolated lo Ok) (hd : ∀ n f g, lo ≤ n → Ok f → st.read s0 n f = .ok g → disk n = g)
    (h : Sim st lo Ok s0 s r) (hn : lo ≤ n) (hw : ∀ w ∈ writesOf r.log, w.1 ≠ n)
    (e : sRead st n s r = (s', .ok r')) : r' = readAtEnd disk n r ∧ Sim st lo Ok s0 s' r' := by
  unfold sRead at e
  cases hl : r.buf.getLast? with
  | none => rw [hl] at e; simp at e
  | some f =>
    rw [hl] at e
    simp only at e
    have hf : Ok f := h.ok f (List.mem_of_getLast? hl)
    cases hr : st.read s n f with
    | error x => rw [hr] at e; simp at e
    | ok f' =>
      rw [hr] at e
      simp only [Prod.mk.injEq, Except.ok.injEq] at e
      obtain ⟨rfl, rfl⟩ := e
      have h0 : st.read s0 n f = .ok f' := by
        rw [← hr, h.files.replay]
        exact (replay_read hi hn hf _ _ (fun w hw' => ⟨h.low w hw', hw w hw'⟩)).symm
      have hdn := hd n f f' hn hf h0
      refine ⟨by simp [readAtEnd, hdn], ?_, ?_, ?_⟩
      · intro f2 hf2
        simp only [List.mem_append, List.mem_singleton] at hf2
        rcases hf2 with hf2 | rfl
        · exact h.ok f2 (List.mem_of_mem_dropLast hf2)
        · exact hi.kind s0 n f _ hf h0
      · simp only [writesOf_append]
        simpa [writesOf] using h.files
      · simp only [writesOf_append]
        simpa [writesOf] using h.low

theorem sWrite_sim (h : Sim st lo Ok s0 s r) (hn : lo ≤ n) (e : sWrite st n s r = (s', .ok r')) :
    writeFromStart n r = .ok r' ∧ Sim st lo Ok s0 s' r' := by
  unfold sWrite at e
  cases hl : r.buf[0]? with
  | none => rw [hl] at e; simp at e
  | some f =>
    rw [hl] at e
    simp only at e
    rcases hst : st.write s n f with ⟨s2, x | x⟩
    · rw [hst] at e; simp at e
    · rw [hst] at e
      simp only [Prod.mk.injEq, Except.ok.injEq] at e
      obtain ⟨rfl, rfl⟩ := e
      refine ⟨by simp [writeFromStart, pyGet, hl, bind, Except.bind], h.ok, ?_, ?_⟩
      · simp only [writesOf_append]
        exact h.files.snoc hst
      · simp only [writesOf_append]
        intro w hw
        simp only [writesOf, List.mem_append, List.mem_singleton] at hw
        rcases hw with hw | rfl
        · exact h.low w hw
        · exact hn

theorem sPrime_sim (hi : st.Isolated lo Ok) (hd : ∀ n f g, lo ≤ n → Ok f → st.read s0 n f = .ok g → disk n = g) :
    ∀ (ns : List Int) (s : S) (r : Run F), Sim st lo Ok s0 s r → writesOf r.log = [] → (∀ n ∈ ns, lo ≤ n) →
    sPrime st ns s r = (s', .ok r') →
    r' = ns.foldl (fun r n => (readAtEnd disk n r).next) r ∧ Sim st lo Ok s0 s' r' ∧ writesOf r'.log = []
  | [], s, r, h, h0, _, e => by
    simp only [sPrime, Prod.mk.injEq, Except.ok.injEq] at e
    obtain ⟨rfl, rfl⟩ := e
    exact ⟨rfl, h, h0⟩
  | n :: ns, s, r, h, h0, hn, e => by
    obtain ⟨s2, r2, e1, e2⟩ := andThen_ok e
    obtain ⟨rfl, h2⟩ := sRead_sim hi hd h (hn n (by simp)) (by rw [h0]; simp) e1
    exact sPrime_sim hi hd ns s2 _ h2.next (by simp [Run.next, readAtEnd, writesOf_append, h0, writesOf])
      (fun m hm => hn m (by simp [hm])) e2

variable {process : List F → Py (List F)}

theorem readAtEnd_writes : writesOf (readAtEnd disk n r).log = writesOf r.log := by
  simp [readAtEnd, writesOf_append, writesOf]

theorem writeFromStart_writes (h : writeFromStart n r = .ok r') :
    ∃ f, writesOf r'.log = writesOf r.log ++ [(n, f)] := by
  unfold writeFromStart at h
  cases e : pyGet r.buf 0 with
  | error x => rw [e] at h; simp [bind, Except.bind] at h
  | ok f =>
    rw [e] at h
    simp only [bind, Except.bind, Except.ok.injEq] at h
    subst h
    exact ⟨f, by simp [writesOf_append, writesOf]⟩

theorem sForwardStep_sim (hi : st.Isolated lo Ok)
    (hd : ∀ n f g, lo ≤ n → Ok f → st.read s0 n f = .ok g → disk n = g)
    (hp : ∀ b b', (∀ f ∈ b, Ok f) → process b = .ok b' → ∀ f ∈ b', Ok f) {last : Int}
    (h : Sim st lo Ok s0 s r) (hn : lo ≤ n) (hw : ∀ w ∈ writesOf r.log, w.1 < n)
    (e : sForwardStep st process last n s r = (s', .ok r')) :
    forwardStep disk process last n r = .ok r' ∧ Sim st lo Ok s0 s' r' ∧ ∀ w ∈ writesOf r'.log, w.1 < n + 1 := by
  unfold sForwardStep at e
  cases hb : process r.buf with
  | error x => rw [hb] at e; simp at e
  | ok buf =>
    rw [hb] at e
    simp only at e
    have h1 : Sim st lo Ok s0 s (Run.next ⟨buf, r.log ++ [.step n r.buf]⟩) := by
      refine Sim.next ⟨hp _ _ h.ok hb, ?_, ?_⟩ <;> simp only [writesOf_append, writesOf, List.append_nil]
      · exact h.files
      · exact h.low
    obtain ⟨s2, r2, e1, e2⟩ := andThen_ok e
    obtain ⟨w1, w2⟩ := sWrite_sim h1 hn e1
    obtain ⟨f, hf⟩ := writeFromStart_writes w1
    have hf' : writesOf r2.log = writesOf r.log ++ [(n, f)] := by
      rw [hf]; simp [Run.next, writesOf_append, writesOf]
    have hlt : ∀ w ∈ writesOf r2.log, w.1 < n + 1 := by
      rw [hf']
      intro w hw'
      simp only [List.mem_append, List.mem_singleton] at hw'
      rcases hw' with hw' | rfl
      · have := hw w hw'; omega
      · simp
    have hfs : forwardStep disk process last n r = .ok (if n < last - 2 then readAtEnd disk (n + 3) r2 else r2) := by
      simp only [forwardStep, hb, bind, Except.bind, w1]
    rw [hfs]
    split_ifs at e2 with hc
    · obtain ⟨rfl, h3⟩ := sRead_sim hi hd w2 (by omega) (fun w hw' => by have := hlt w hw'; omega) e2
      exact ⟨by simp [hc], h3, by rw [readAtEnd_writes]; exact hlt⟩
    · simp only [Prod.mk.injEq, Except.ok.injEq] at e2
      obtain ⟨rfl, rfl⟩ := e2
      exact ⟨by simp [hc], w2, hlt⟩

theorem sForwardSteps_sim (hi : st.Isolated lo Ok)
    (hd : ∀ n f g, lo ≤ n → Ok f → st.read s0 n f = .ok g → disk n = g)
    (hp : ∀ b b', (∀ f ∈ b, Ok f) → process b = .ok b' → ∀ f ∈ b', Ok f) {last : Int} :
    ∀ (k : Nat) (n : Int) (s : S) (r : Run F), Sim st lo Ok s0 s r → lo ≤ n → (∀ w ∈ writesOf r.log, w.1 < n) →
    sForwardSteps st process last k n s r = (s', .ok r') →
    forwardSteps disk process last k n r = .ok r' ∧ Sim st lo Ok s0 s' r'
  | 0, n, s, r, h, _, _, e => by
    simp only [sForwardSteps, Prod.mk.injEq, Except.ok.injEq] at e
    obtain ⟨rfl, rfl⟩ := e
    exact ⟨rfl, h⟩
  | k + 1, n, s, r, h, hn, hw, e => by
    obtain ⟨s2, r2, e1, e2⟩ := andThen_ok e
    obtain ⟨h1, h2, h3⟩ := sForwardStep_sim hi hd hp h hn hw e1
    obtain ⟨h4, h5⟩ := sForwardSteps_sim hi hd hp k (n + 1) s2 r2 h2 (by omega) h3 e2
    exact ⟨by simp only [forwardSteps, h1, bind, Except.bind, h4], h5⟩

/-- C88: a forward run on files that it changes itself is the run on the files as they were at its start: `disk n` is
what reading frame `n` gave before the run. The files after the run are those before it with the frames of the log
written, in its order and each successfully. -/
theorem C88_forward_files (st : Store S F) (first last : Int) (Ok : F → Prop) (hi : st.Isolated first Ok)
    (process : List F → Py (List F)) (hp : ∀ b b', (∀ f ∈ b, Ok f) → process b = .ok b' → ∀ f ∈ b', Ok f)
    (s s' : S) (disk : Int → F) (hd : ∀ n f g, first ≤ n → Ok f → st.read s n f = .ok g → disk n = g)
    (buf0 : List F) (hb : ∀ f ∈ buf0, Ok f) (r : Run F)
    (h : sForwardRun st process first last s buf0 = (s', .ok r)) :
    forwardRun disk process first last buf0 = .ok r ∧ Replayed st s (writesOf r.log) s' := by
  obtain ⟨s1, r1, e1, e⟩ := andThen_ok h
  obtain ⟨s2, r2, e2, e3⟩ := andThen_ok e
  obtain ⟨s3, r3, e4, e5⟩ := andThen_ok e1
  simp only [Prod.mk.injEq, Except.ok.injEq] at e5
  obtain ⟨rfl, rfl⟩ := e5
  obtain ⟨rfl, h1, h2⟩ := sPrime_sim (s0 := s) hi hd _ s ⟨buf0, []⟩ ⟨hb, .nil, by simp [writesOf]⟩ rfl
    (by simp only [List.mem_cons, List.not_mem_nil, or_false]; rintro n (rfl | rfl | rfl) <;> omega) e4
  have hstart : forwardStart disk first ⟨buf0, []⟩ =
      ([first, first + 1, first + 2].foldl (fun r n => (readAtEnd disk n r).next) ⟨buf0, []⟩).prev := by
    simp [forwardStart, List.range_succ]
  obtain ⟨h3, h4⟩ := sForwardSteps_sim hi hd hp _ _ _ _ h1.prev (le_refl first)
    (by simp only [Run.prev, h2]; simp) e2
  unfold sForwardFinish at e3
  split_ifs at e3 with hz
  · simp at e3
  obtain ⟨h5, h6⟩ := sWrite_sim (lo := min first last) (Ok := Ok)
    ⟨h4.next.ok, h4.next.files, fun w hw => le_trans (min_le_left _ _) (h4.next.low w hw)⟩ (min_le_right _ _) e3
  refine ⟨?_, h6.files⟩
  unfold forwardRun
  rw [hstart]
  simp only [h3, bind, Except.bind, forwardFinish, if_neg hz]
  exact h5

theorem sBackStep_sim (hi : st.Isolated lo Ok)
    (hd : ∀ n f g, lo ≤ n → Ok f → st.read s0 n f = .ok g → disk n = g)
    (hp : ∀ b b', (∀ f ∈ b, Ok f) → process b = .ok b' → ∀ f ∈ b', Ok f) {first : Int} (hf : lo ≤ first)
    (h : Sim st lo Ok s0 s r) (hn : lo ≤ n) (hw : ∀ w ∈ writesOf r.log, n < w.1)
    (e : sBackStep st process first n s r = (s', .ok r')) :
    backStep disk process first n r = .ok r' ∧ Sim st lo Ok s0 s' r' ∧ ∀ w ∈ writesOf r'.log, n - 1 < w.1 := by
  unfold sBackStep at e
  cases hb : process r.buf with
  | error x => rw [hb] at e; simp at e
  | ok buf =>
    rw [hb] at e
    simp only at e
    have h1 : Sim st lo Ok s0 s (Run.next ⟨buf, r.log ++ [.step n r.buf]⟩) := by
      refine Sim.next ⟨hp _ _ h.ok hb, ?_, ?_⟩ <;> simp only [writesOf_append, writesOf, List.append_nil]
      · exact h.files
      · exact h.low
    obtain ⟨s2, r2, e1, e2⟩ := andThen_ok e
    obtain ⟨w1, w2⟩ := sWrite_sim h1 hn e1
    obtain ⟨f, hf⟩ := writeFromStart_writes w1
    have hf' : writesOf r2.log = writesOf r.log ++ [(n, f)] := by
      rw [hf]; simp [Run.next, writesOf_append, writesOf]
    have hlt : ∀ w ∈ writesOf r2.log, n - 1 < w.1 := by
      rw [hf']
      intro w hw'
      simp only [List.mem_append, List.mem_singleton] at hw'
      rcases hw' with hw' | rfl
      · have := hw w hw'; omega
      · simp
    have hfs : backStep disk process first n r = .ok (if n > first + 2 then readAtEnd disk (n - 3) r2 else r2) := by
      simp only [backStep, hb, bind, Except.bind, w1]
    rw [hfs]
    split_ifs at e2 with hc
    · obtain ⟨rfl, h3⟩ := sRead_sim hi hd w2 (by omega) (fun w hw' => by have := hlt w hw'; omega) e2
      exact ⟨by simp [hc], h3, by rw [readAtEnd_writes]; exact hlt⟩
    · simp only [Prod.mk.injEq, Except.ok.injEq] at e2
      obtain ⟨rfl, rfl⟩ := e2
      exact ⟨by simp [hc], w2, hlt⟩

theorem sBackSteps_sim (hi : st.Isolated lo Ok)
    (hd : ∀ n f g, lo ≤ n → Ok f → st.read s0 n f = .ok g → disk n = g)
    (hp : ∀ b b', (∀ f ∈ b, Ok f) → process b = .ok b' → ∀ f ∈ b', Ok f) {first : Int} (hf : lo ≤ first) :
    ∀ (k : Nat) (n : Int) (s : S) (r : Run F), Sim st lo Ok s0 s r → first + k ≤ n → (∀ w ∈ writesOf r.log, n < w.1) →
    sBackSteps st process first k n s r = (s', .ok r') →
    backSteps disk process first k n r = .ok r' ∧ Sim st lo Ok s0 s' r'
  | 0, n, s, r, h, _, _, e => by
    simp only [sBackSteps, Prod.mk.injEq, Except.ok.injEq] at e
    obtain ⟨rfl, rfl⟩ := e
    exact ⟨rfl, h⟩
  | k + 1, n, s, r, h, hn, hw, e => by
    obtain ⟨s2, r2, e1, e2⟩ := andThen_ok e
    obtain ⟨h1, h2, h3⟩ := sBackStep_sim hi hd hp hf h (by omega) hw e1
    obtain ⟨h4, h5⟩ := sBackSteps_sim hi hd hp hf k (n - 1) s2 r2 h2 (by push_cast at hn; omega) h3 e2
    exact ⟨by simp only [backSteps, h1, bind, Except.bind, h4], h5⟩

/-- C88: the same for a backward run. It reads frames down to `last - 3`, even below `first`. -/
theorem C88_backward_files (st : Store S F) (first last lo : Int) (hf : lo ≤ first) (hl : lo ≤ last - 3) (Ok : F → Prop)
    (hi : st.Isolated lo Ok) (process : List F → Py (List F))
    (hp : ∀ b b', (∀ f ∈ b, Ok f) → process b = .ok b' → ∀ f ∈ b', Ok f)
    (s s' : S) (disk : Int → F) (hd : ∀ n f g, lo ≤ n → Ok f → st.read s n f = .ok g → disk n = g)
    (buf0 : List F) (hb : ∀ f ∈ buf0, Ok f) (r : Run F)
    (h : sBackRun st process first last s buf0 = (s', .ok r)) :
    backRun disk process first last buf0 = .ok r ∧ Replayed st s (writesOf r.log) s' := by
  obtain ⟨s1, r1, e1, e⟩ := andThen_ok h
  obtain ⟨s2, r2, e2, e3⟩ := andThen_ok e
  obtain ⟨s3, r3, e4, e5⟩ := andThen_ok e1
  simp only [Prod.mk.injEq, Except.ok.injEq] at e5
  obtain ⟨rfl, rfl⟩ := e5
  obtain ⟨rfl, h1, h2⟩ := sPrime_sim (s0 := s) hi hd _ s ⟨buf0, []⟩ ⟨hb, .nil, by simp [writesOf]⟩ rfl
    (by simp only [List.mem_cons, List.not_mem_nil, or_false]; rintro n (rfl | rfl | rfl | rfl) <;> omega) e4
  have hstart : backStart disk last ⟨buf0, []⟩ =
      ([last, last - 1, last - 2, last - 3].foldl (fun r n => (readAtEnd disk n r).next) ⟨buf0, []⟩).prev := by
    simp [backStart, List.range_succ]
  have hsteps : backSteps disk process first (last - 1 - first).toNat (last - 1)
      ([last, last - 1, last - 2, last - 3].foldl (fun r n => (readAtEnd disk n r).next) ⟨buf0, []⟩).prev = .ok r2 ∧
      Sim st lo Ok s s2 r2 := by
    by_cases hL : first + 1 ≤ last
    · exact sBackSteps_sim hi hd hp hf _ _ _ _ h1.prev (by omega) (by simp only [Run.prev, h2]; simp) e2
    · have : (last - 1 - first).toNat = 0 := by omega
      rw [this] at e2 ⊢
      simp only [sBackSteps, Prod.mk.injEq, Except.ok.injEq] at e2
      obtain ⟨rfl, rfl⟩ := e2
      exact ⟨rfl, h1.prev⟩
  obtain ⟨h3, h4⟩ := hsteps
  unfold sBackFinish at e3
  by_cases hz : last - first - 1 = 0
  · rw [if_pos hz] at e3; simp at e3
  rw [if_neg hz] at e3
  obtain ⟨h5, h6⟩ := sWrite_sim h4.next (by split_ifs <;> omega) e3
  refine ⟨?_, h6.files⟩
  unfold backRun
  rw [hstart]
  simp only [h3, bind, Except.bind, if_neg hz]
  exact h5

/-! ### Interrupted runs -/

/-- `s'` is reached from `s` by writing frames with the numbers `ns`, in this order. -/
def Wrote (st : Store S F) (s s' : S) (ns : List Int) : Prop := ∃ ws, s' = replay st s ws ∧ ws.map Prod.fst = ns

theorem Wrote.refl (st : Store S F) (s : S) : Wrote st s s [] := ⟨[], rfl, rfl⟩

theorem Wrote.trans {s1 s2 s3 : S} {a b : List Int} (h1 : Wrote st s1 s2 a) (h2 : Wrote st s2 s3 b) :
    Wrote st s1 s3 (a ++ b) := by
  obtain ⟨w1, rfl, rfl⟩ := h1
  obtain ⟨w2, rfl, rfl⟩ := h2
  exact ⟨w1 ++ w2, (replay_append ..).symm, by simp⟩

theorem sRead_wrote {x : Py (Run F)} (h : sRead st n s r = (s', x)) : s' = s := by
  unfold sRead at h
  split at h
  · exact (Prod.mk.inj h).1.symm
  · split at h <;> exact (Prod.mk.inj h).1.symm

/-- A write is made, or there is no frame (and an exception). -/
theorem sWrite_wrote {x : Py (Run F)} (h : sWrite st n s r = (s', x)) :
    Wrote st s s' [n] ∨ (s' = s ∧ ∃ e, x = .error e) := by
  unfold sWrite at h
  split at h
  · cases h; exact Or.inr ⟨rfl, _, rfl⟩
  · rename_i f _
    left
    rcases hst : st.write s n f with ⟨s2, y | y⟩ <;> rw [hst] at h <;> cases h <;>
      exact ⟨[(n, f)], by simp [replay, hst], rfl⟩

theorem sPrime_wrote : ∀ (ns : List Int) (s : S) (r : Run F) {x : Py (Run F)}, sPrime st ns s r = (s', x) → s' = s
  | [], s, r, x, h => (Prod.mk.inj h).1.symm
  | n :: ns, s, r, x, h => by
    unfold sPrime at h
    rcases hr : sRead st n s r with ⟨s2, y | y⟩ <;> rw [hr] at h <;> have := sRead_wrote hr
    · simp only [andThen] at h
      rw [← (Prod.mk.inj h).1, this]
    · simp only [andThen] at h
      rw [sPrime_wrote ns _ _ h, this]

theorem sForwardStep_wrote {last : Int} {x : Py (Run F)} (h : sForwardStep st process last n s r = (s', x)) :
    Wrote st s s' [n] ∨ (s' = s ∧ ∃ e, x = .error e) := by
  unfold sForwardStep at h
  split at h
  · cases h; exact Or.inr ⟨rfl, _, rfl⟩
  · rename_i buf _
    rcases hr : sWrite st n s (Run.next ⟨buf, r.log ++ [.step n r.buf]⟩) with ⟨s2, y | y⟩ <;> rw [hr] at h <;>
      have hw := sWrite_wrote hr <;> simp only [andThen] at h
    · cases h
      exact hw.imp id (fun h => ⟨h.1, _, rfl⟩)
    · left
      rcases hw with hw | ⟨-, e, he⟩
      · have : s' = s2 := by
          split_ifs at h
          · exact sRead_wrote h
          · exact (Prod.mk.inj h).1.symm
        rw [this]; exact hw
      · cases he

theorem intRange_cons (a : Int) (k : Nat) : intRange a (k + 1) = a :: intRange (a + 1) k := by
  simp only [intRange, List.range_succ_eq_map, List.map_cons, List.map_map]
  simp only [Nat.cast_zero, add_zero, List.cons.injEq, true_and]
  apply List.map_congr_left
  intro i _
  simp only [Function.comp]
  push_cast
  omega

theorem sForwardSteps_wrote {last : Int} : ∀ (k : Nat) (n : Int) (s : S) (r : Run F) {x : Py (Run F)},
    sForwardSteps st process last k n s r = (s', x) →
    ∃ j ≤ k, Wrote st s s' (intRange n j) ∧ (∀ r', x = .ok r' → j = k)
  | 0, n, s, r, x, h => ⟨0, le_refl 0, by cases h; exact Wrote.refl st _, fun _ _ => rfl⟩
  | k + 1, n, s, r, x, h => by
    unfold sForwardSteps at h
    rcases hr : sForwardStep st process last n s r with ⟨s2, y | y⟩ <;> rw [hr] at h <;>
      have hw := sForwardStep_wrote hr <;> simp only [andThen] at h
    · cases h
      rcases hw with hw | ⟨rfl, -⟩
      · exact ⟨1, by omega, by simpa [intRange] using hw, fun r' h => by cases h⟩
      · exact ⟨0, by omega, Wrote.refl st _, fun r' h => by cases h⟩
    · rcases hw with hw | ⟨-, e, he⟩
      · obtain ⟨j, h1, h2, h3⟩ := sForwardSteps_wrote k (n + 1) s2 y h
        refine ⟨j + 1, by omega, ?_, fun r' h => by rw [h3 r' h]⟩
        rw [intRange_cons]
        exact hw.trans h2
      · cases he

/-- C89: however a forward run ends, by an exception of any operation or regularly, the files are those before the run
with some frames written: frames `first, first + 1, ...` in this order, each once, up to the point where the run stopped,
and never beyond `last`. (The write that raised is included.) -/
theorem C89_forward_interrupted (st : Store S F) (process : List F → Py (List F)) (first : Int) (L : Nat) (s s' : S)
    (buf0 : List F) (x : Py (Run F)) (h : sForwardRun st process first (first + L) s buf0 = (s', x)) :
    ∃ j ≤ L + 1, Wrote st s s' (intRange first j) ∧ (∀ r, x = .ok r → j = L + 1) := by
  unfold sForwardRun at h
  rcases h0 : sForwardStart st first s ⟨buf0, []⟩ with ⟨s1, y | y⟩ <;> rw [h0] at h <;> simp only [andThen] at h
  all_goals
    have hs1 : s1 = s := by
      unfold sForwardStart at h0
      rcases hp : sPrime st [first, first + 1, first + 2] s ⟨buf0, []⟩ with ⟨s2, z | z⟩ <;> rw [hp] at h0 <;>
        simp only [andThen] at h0 <;> rw [← (Prod.mk.inj h0).1] <;> exact sPrime_wrote _ _ _ hp
    subst hs1
  · cases h
    exact ⟨0, by omega, Wrote.refl st _, fun r h => by cases h⟩
  · have hk : (first + (L : Int) - first).toNat = L := by omega
    rw [hk] at h
    rcases h1 : sForwardSteps st process (first + L) L first s1 y with ⟨s2, z | z⟩ <;> rw [h1] at h <;>
      simp only at h <;> obtain ⟨j, j1, j2, j3⟩ := sForwardSteps_wrote L first s1 y h1
    · cases h
      exact ⟨j, by omega, j2, fun r h => by cases h⟩
    · have hj := j3 z rfl
      subst hj
      unfold sForwardFinish at h
      split_ifs at h with hz
      · cases h
        exact ⟨j, by omega, j2, fun r h => by cases h⟩
      · rcases sWrite_wrote h with hw | ⟨rfl, e, he⟩
        · refine ⟨j + 1, le_refl _, ?_, fun r h => rfl⟩
          have := j2.trans hw
          have e : intRange first (j + 1) = intRange first j ++ [first + j] := by
            simp [intRange, List.range_succ]
          rw [e]; exact this
        · exact ⟨j, by omega, j2, fun r h => by rw [he] at h; cases h⟩

theorem sBackStep_wrote {first : Int} {x : Py (Run F)} (h : sBackStep st process first n s r = (s', x)) :
    Wrote st s s' [n] ∨ (s' = s ∧ ∃ e, x = .error e) := by
  unfold sBackStep at h
  split at h
  · cases h; exact Or.inr ⟨rfl, _, rfl⟩
  · rename_i buf _
    rcases hr : sWrite st n s (Run.next ⟨buf, r.log ++ [.step n r.buf]⟩) with ⟨s2, y | y⟩ <;> rw [hr] at h <;>
      have hw := sWrite_wrote hr <;> simp only [andThen] at h
    · cases h
      exact hw.imp id (fun h => ⟨h.1, _, rfl⟩)
    · left
      rcases hw with hw | ⟨-, e, he⟩
      · have : s' = s2 := by
          split_ifs at h
          · exact sRead_wrote h
          · exact (Prod.mk.inj h).1.symm
        rw [this]; exact hw
      · cases he

/-- The integers `a, a-1, ..., a-n+1`. -/
def intDown (a : Int) (n : Nat) : List Int := (List.range n).map (fun (i : Nat) => a - i)

theorem intDown_cons (a : Int) (k : Nat) : intDown a (k + 1) = a :: intDown (a - 1) k := by
  simp only [intDown, List.range_succ_eq_map, List.map_cons, List.map_map]
  simp only [Nat.cast_zero, sub_zero, List.cons.injEq, true_and]
  apply List.map_congr_left
  intro i _
  simp only [Function.comp]
  push_cast
  omega

theorem sBackSteps_wrote {first : Int} : ∀ (k : Nat) (n : Int) (s : S) (r : Run F) {x : Py (Run F)},
    sBackSteps st process first k n s r = (s', x) →
    ∃ j ≤ k, Wrote st s s' (intDown n j) ∧ (∀ r', x = .ok r' → j = k)
  | 0, n, s, r, x, h => ⟨0, le_refl 0, by cases h; exact Wrote.refl st _, fun _ _ => rfl⟩
  | k + 1, n, s, r, x, h => by
    unfold sBackSteps at h
    rcases hr : sBackStep st process first n s r with ⟨s2, y | y⟩ <;> rw [hr] at h <;>
      have hw := sBackStep_wrote hr <;> simp only [andThen] at h
    · cases h
      rcases hw with hw | ⟨rfl, -⟩
      · exact ⟨1, by omega, by simpa [intDown] using hw, fun r' h => by cases h⟩
      · exact ⟨0, by omega, Wrote.refl st _, fun r' h => by cases h⟩
    · rcases hw with hw | ⟨-, e, he⟩
      · obtain ⟨j, h1, h2, h3⟩ := sBackSteps_wrote k (n - 1) s2 y h
        refine ⟨j + 1, by omega, ?_, fun r' h => by rw [h3 r' h]⟩
        rw [intDown_cons]
        exact hw.trans h2
      · cases he

/-- C89: however a backward run over at least three frames ends, the files are those before the run with some of the frames
`last - 1, last - 2, ..., first + 1` written in this order; a run that ends regularly has written all of them, and
`first + 1` a second time. -/
theorem C89_backward_interrupted (st : Store S F) (process : List F → Py (List F)) (last : Int) (L : Nat) (hL : 2 ≤ L)
    (s s' : S) (buf0 : List F) (x : Py (Run F)) (h : sBackRun st process (last - L) last s buf0 = (s', x)) :
    (∃ j ≤ L - 1, Wrote st s s' (intDown (last - 1) j) ∧ ∃ e, x = .error e) ∨
    Wrote st s s' (intDown (last - 1) (L - 1) ++ [last - L + 1]) := by
  unfold sBackRun at h
  rcases h0 : sBackStart st last s ⟨buf0, []⟩ with ⟨s1, y | y⟩ <;> rw [h0] at h <;> simp only [andThen] at h
  all_goals
    have hs1 : s1 = s := by
      unfold sBackStart at h0
      rcases hp : sPrime st [last, last - 1, last - 2, last - 3] s ⟨buf0, []⟩ with ⟨s2, z | z⟩ <;> rw [hp] at h0 <;>
        simp only [andThen] at h0 <;> rw [← (Prod.mk.inj h0).1] <;> exact sPrime_wrote _ _ _ hp
    subst hs1
  · cases h
    exact Or.inl ⟨0, by omega, Wrote.refl st _, _, rfl⟩
  · have hk : (last - 1 - (last - (L : Int))).toNat = L - 1 := by omega
    rw [hk] at h
    rcases h1 : sBackSteps st process (last - L) (L - 1) (last - 1) s1 y with ⟨s2, z | z⟩ <;> rw [h1] at h <;>
      simp only at h <;> obtain ⟨j, j1, j2, j3⟩ := sBackSteps_wrote (L - 1) (last - 1) s1 y h1
    · cases h
      exact Or.inl ⟨j, by omega, j2, _, rfl⟩
    · have hj := j3 z rfl
      subst hj
      unfold sBackFinish at h
      rw [if_neg (by omega), if_pos (by omega)] at h
      rcases sWrite_wrote h with hw | ⟨rfl, e, he⟩
      · exact Or.inr (j2.trans hw)
      · exact Or.inl ⟨_, le_refl _, j2, e, he⟩

/-- Frames that were not written read as before. -/
theorem Wrote.read {ns : List Int} (hi : st.Isolated lo Ok) (h : Wrote st s s' ns) (hn : ∀ m ∈ ns, lo ≤ m) {m : Int}
    (hm : lo ≤ m) (hnm : m ∉ ns) {g : F} (hg : Ok g) : st.read s' m g = st.read s m g := by
  obtain ⟨ws, rfl, rfl⟩ := h
  refine replay_read hi hm hg ws s (fun w hw => ⟨hn _ (List.mem_map_of_mem hw), ?_⟩)
  exact fun e => hnm (e ▸ List.mem_map_of_mem hw)

/-- C21, refuted for a run over a single frame (first = last) as well: it raises nothing, and writes the content of frame
`last - 1` under the number `last - 3`. -/
theorem C21_single_frame_refuted (disk : Int → F) (process : List F → Py (List F)) (last : Int) (a b c d : F) :
    ∃ r, backRun disk process last last [a, b, c, d] = .ok r ∧ writesOf r.log = [(last - 3, disk (last - 1))] := by
  have h1 : ¬ (last - last - 1 = 0) := by omega
  have h2 : ¬ (last + 1 ≤ last - 1) := by omega
  have h3 : (last - 1 - last).toNat = 0 := by omega
  have h4 : backStart disk last ⟨[a, b, c, d], []⟩ =
      ⟨[disk last, disk (last - 1), disk (last - 2), disk (last - 3)],
        [.read last, .read (last - 1), .read (last - 2), .read (last - 3)]⟩ := by
    simp [backStart, List.range_succ, readAtEnd, Run.next, Run.prev, fbNext, fbPrev]
  refine ⟨⟨[disk (last - 1), disk (last - 2), disk (last - 3), disk last],
    [.read last, .read (last - 1), .read (last - 2), .read (last - 3), .write (last - 3) (disk (last - 1))]⟩, ?_, rfl⟩
  unfold backRun
  rw [h3, h4]
  simp only [backSteps, bind, Except.bind, if_neg h1, if_neg h2]
  rfl

end

/-! ### The files -/

section
open _root_.Verif.IO Text

/-- A frame object for `c` cameras. -/
def ForCams (c : ℕ) (f : DFrame) : Prop := f.targets.length = c ∧ f.numTargets.length = c

theorem readCams_result {fs : FS} {tb : List (List Char)} {n : ℤ} : ∀ (cams : List ℕ) (f g : DFrame),
    (readCams fs tb n cams f).2 = (readCams fs tb n cams g).2
  | [], f, g => rfl
  | cam :: cams, f, g => by
    unfold readCams
    cases readCam fs tb n cam with
    | error e => rfl
    | ok ts => exact readCams_result cams _ _

theorem readCams_read {fs : FS} {tb : List (List Char)} {n : ℤ} : ∀ (cams : List ℕ) (f : DFrame) {b : Bool},
    (readCams fs tb n cams f).2 = .ok b → b = true ∧ ∀ cam ∈ cams, ∃ ts, readCam fs tb n cam = .ok ts
  | [], f, b, h => by
    simp only [readCams, Except.ok.injEq] at h
    exact ⟨h.symm, by simp⟩
  | cam :: cams, f, b, h => by
    unfold readCams at h
    cases e : readCam fs tb n cam with
    | error e' => rw [e] at h; simp at h
    | ok ts =>
      rw [e] at h
      obtain ⟨h1, h2⟩ := readCams_read cams _ h
      refine ⟨h1, ?_⟩
      intro c hc
      simp only [List.mem_cons] at hc
      rcases hc with rfl | hc
      · exact ⟨ts, e⟩
      · exact h2 c hc

/-- What `Frame.read` gives does not depend on the old content of the frame object, and the object stays one for as many
cameras. -/
theorem frameRead_object {c : ℕ} {f g : DFrame} (hf : ForCams c f) (hg : ForCams c g) (fs : FS) (cb lb pb : List Char)
    (tb : List (List Char)) (n : ℤ) :
    (f.read fs cb lb pb tb n).2 = (g.read fs cb lb pb tb n).2 ∧
    ∀ b, (f.read fs cb lb pb tb n).2 = .ok b →
      b = true ∧ (f.read fs cb lb pb tb n).1 = (g.read fs cb lb pb tb n).1 ∧ ForCams c (f.read fs cb lb pb tb n).1 := by
  unfold DFrame.read
  cases readPathFrame fs cb lb pb n with
  | error e => exact ⟨rfl, fun b h => by cases h⟩
  | ok ps =>
    simp only [hf.1, hg.1]
    refine ⟨readCams_result _ _ _, ?_⟩
    intro b h
    obtain ⟨h1, h2⟩ := readCams_read _ _ h
    obtain ⟨f', a1, a2, a3, a4, a5, a6, -⟩ := readCams_ok (fs := fs) (tb := tb) (frame := n) (List.range c)
      { f with parts := ps, numParts := ps.length } List.nodup_range h2 (by simp [hf.1, hf.2])
    obtain ⟨g', b1, b2, b3, b4, b5, b6, -⟩ := readCams_ok (fs := fs) (tb := tb) (frame := n) (List.range c)
      { g with parts := ps, numParts := ps.length } List.nodup_range h2 (by simp [hg.1, hg.2])
    simp only [hf.1, hg.1, hf.2, hg.2] at a4 a5 a6 b4 b5 b6
    have hel : ∀ k : ℕ, f'.targets[k]? = g'.targets[k]? ∧ f'.numTargets[k]? = g'.numTargets[k]? := by
      intro k
      by_cases hk : k < c
      · obtain ⟨ts, hts⟩ := h2 k (by simpa using hk)
        obtain ⟨u1, u2⟩ := a6 k ts (by simpa using hk) hk hts
        obtain ⟨v1, v2⟩ := b6 k ts (by simpa using hk) hk hts
        rw [u1, u2, v1, v2]
        exact ⟨rfl, rfl⟩
      · rw [List.getElem?_eq_none (by omega), List.getElem?_eq_none (by omega), List.getElem?_eq_none (by omega),
          List.getElem?_eq_none (by omega)]
        exact ⟨rfl, rfl⟩
    have : f' = g' := by
      obtain ⟨fp, fn, ft, fm⟩ := f'
      obtain ⟨gp, gn, gt, gm⟩ := g'
      simp only at a2 a3 b2 b3 hel
      subst a2 a3 b2 b3
      rw [List.ext_getElem? (fun k => (hel k).1), List.ext_getElem? (fun k => (hel k).2)]
    rw [a1, b1]
    exact ⟨h1, this, a4, a5⟩

theorem fileStore_read_eq {fs : FS} {b : Bases} {links : Bool} {n : ℤ} {f : DFrame} :
    (fileStore b links).read fs n f =
      (match (f.read fs b.corres (if links then b.linkage else []) (if links then b.prio else []) b.target n) with
      | (_, .error e) => .error e
      | (f', .ok true) => .ok f'
      | (_, .ok false) => .error .ioError) := by
  unfold fileStore
  cases links <;> simp <;> rfl

/-- C88: the files are such a store, for frames with positive numbers and targets files whose names have a number format
and differ between cameras. -/
theorem C88_files_isolated (b : Bases) (links : Bool) (c : ℕ) (hfmt : ∀ t ∈ b.target, '%' ∈ t ∧ '#' ∉ t)
    (hdis : ∀ t ∈ b.target, ∀ t' ∈ b.target, t ≠ t' → ∀ n m x, 0 < n → 0 < m → writeName t n = .ok x →
      writeName t' m ≠ .ok x) : (fileStore b links).Isolated 1 (ForCams c) := by
  refine ⟨?_, ?_, ?_⟩
  · intro s n m f g hn hm hnm _
    rw [fileStore_read_eq, fileStore_read_eq]
    have := C86_other_frames s f g b.corres b.linkage b.prio b.corres (if links then b.linkage else [])
      (if links then b.prio else []) b.target n m (by omega) (by omega) hnm hfmt
      (fun t ht t' ht' h x h1 => hdis t ht t' ht' h n m x (by omega) (by omega) h1)
    rw [show ((fileStore b links).write s n f).1 = (f.write s b.corres b.linkage b.prio b.target n).1 from rfl, this]
  · intro s n f g hf hg
    rw [fileStore_read_eq, fileStore_read_eq]
    obtain ⟨h1, h2⟩ := frameRead_object hf hg s b.corres (if links then b.linkage else [])
      (if links then b.prio else []) b.target n
    rcases e1 : f.read s b.corres (if links then b.linkage else []) (if links then b.prio else []) b.target n with
      ⟨f', x⟩
    rcases e2 : g.read s b.corres (if links then b.linkage else []) (if links then b.prio else []) b.target n with
      ⟨g', y⟩
    rw [e1, e2] at h1 h2
    simp only at h1
    subst h1
    cases x with
    | error e => rfl
    | ok v =>
      obtain ⟨rfl, h3, -⟩ := h2 v rfl
      simp only at h3
      rw [h3]
  · intro s n f g hf h
    rw [fileStore_read_eq] at h
    obtain ⟨-, h2⟩ := frameRead_object hf hf s b.corres (if links then b.linkage else [])
      (if links then b.prio else []) b.target n
    rcases e1 : f.read s b.corres (if links then b.linkage else []) (if links then b.prio else []) b.target n with
      ⟨f', x⟩
    rw [e1] at h h2
    cases x with
    | error e => simp at h
    | ok v =>
      obtain ⟨rfl, -, h3⟩ := h2 v rfl
      simp only [Except.ok.injEq] at h
      rw [← h]; exact h3

theorem demoTb_differ : ∀ t ∈ demoTb, ∀ t' ∈ demoTb, t ≠ t' → ∀ n m x, 0 < n → 0 < m → writeName t n = .ok x →
    writeName t' m ≠ .ok x := by
  have key : ∀ (t : List Char) (n : ℤ) (x : List Char), t ∈ demoTb → 0 < n → writeName t n = .ok x → x[3]? = t[3]? := by
    intro t n x ht hn h
    simp only [demoTb, List.mem_cons, List.not_mem_nil, or_false] at ht
    rcases ht with rfl | rfl
    all_goals
      simp [writeName, fixName, pyMod, fmtPct, bind, Except.bind, Char.isDigit] at h
      rw [← h]
      rfl
  intro t ht t' ht' hne n m x hn hm h1 h2
  have := (key t n x ht hn h1).symm.trans (key t' m x ht' hm h2)
  simp only [demoTb, List.mem_cons, List.not_mem_nil, or_false] at ht ht'
  rcases ht with rfl | rfl <;> rcases ht' with rfl | rfl
  · exact hne rfl
  · revert this; decide
  · revert this; decide
  · exact hne rfl

/-- The names of the example: `cam1.%04d` and `cam2.%04d`. -/
example (links : Bool) : (fileStore ⟨"rt_is".toList, "ptv_is".toList, "added".toList, demoTb⟩ links).Isolated 1 (ForCams 2) := by
  refine C88_files_isolated _ _ _ ?_ demoTb_differ
  intro t ht
  simp only [demoTb, List.mem_cons, List.not_mem_nil, or_false] at ht
  rcases ht with rfl | rfl <;> decide

end

end Verif.Track
