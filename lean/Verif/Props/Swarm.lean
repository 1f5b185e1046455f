/-
C132: a swarm of particles that keep apart is reconstructed: in memory and on files, the links are exactly the true ones.
-/
import Verif.Props.FileTrackEx

namespace Verif.Track
open Verif.Track.Spec Verif.Geo Verif.Geo.Spec V3
open _root_.Verif.IO
open Text (FS)

/-! ### Specification -/

/-- The trajectories of a swarm: particle `k` is number `num k n` of frame `n`, at `y k n`, and the frames `first .. first + L` hold
nothing else. -/
structure IsSwarm {I K : Type} (disk : Int → Frame V3 ℝ I) (first : Int) (L : ℕ) (y : K → Int → V3) (num : K → Int → ℕ) : Prop where
  pos : ∀ k n, first ≤ n → n ≤ first + L → ((disk n).parts.map Part.x)[num k n]? = some (y k n)
  all : ∀ n i, first ≤ n → n ≤ first + L → i < (disk n).parts.length → ∃ k, num k n = i

/-- A list of particles of frame `n` with exactly the true links: every particle is one of the swarm, at its position (up to `same`),
linked to itself in the frame before and the frame after. -/
def TrueLinks {K : Type} (same : V3 → V3 → Prop) (y : K → Int → V3) (num : K → Int → ℕ) (first : Int) (L : ℕ) (n : Int)
    (parts : List (Part V3 ℝ)) : Prop :=
  ∀ i p, parts[i]? = some p → ∃ k, num k n = i ∧ same (y k n) p.x ∧
    p.prev = (if n = first then -1 else (num k (n - 1) : Int)) ∧ p.next = (if n = first + L then -2 else (num k (n + 1) : Int))

/-! ### In memory -/

/-- C132: the links of a swarm. Two to four cameras with any calibration, adding off, frames as read from new files. Every particle
moves smoothly, is clearly seen by all cameras where it is expected, and keeps the distance `B + 2 dacc` from the others between
two frames. Then a forward run that returns has written every frame once, with as many particles as it was read with, and every
particle has its true links. -/
theorem C132_swarm {K : Type} (s : Setup) (hn : 2 ≤ s.cals.length ∧ s.cals.length ≤ 4) (hadd : s.add = false)
    (him : (s.ip.imx : ℝ) ≤ 10 ^ 19 ∧ (s.ip.imy : ℝ) ≤ 10 ^ 19) (hdacc : 0 < s.dacc) (B : ℝ) (hB : LongestStep s B)
    (disk : Int → Frame V3 ℝ (Img ℝ)) (hd : ∀ n, ∀ p ∈ (disk n).parts, p.prev = PREV_NONE ∧ p.next = NEXT_NONE)
    (first : Int) (L : ℕ) (hL : 2 ≤ L) (y : K → Int → V3) (num : K → Int → ℕ) (hsw : IsSwarm disk first L y num)
    (haway : ∀ k n, first ≤ n → n < first + L → KeepsAway disk (y k) (num k) (B + 2 * s.dacc) n)
    (hsmooth : ∀ k n, first < n → n < first + L → SmoothAt s (y k) n)
    (hseen0 : ∀ k, SeenByAll s.cams (disk (first + 1)) (y k first) (s.projOwn (disk first).img (num k first) (y k first))
      (num k (first + 1)))
    (hseen : ∀ k n, first < n → n < first + L →
      SeenByAll s.cams (disk (n + 1)) ((y k n).smul 2 - y k (n - 1)) (s.proj ((y k n).smul 2 - y k (n - 1))) (num k (n + 1)))
    (a b c d : Frame V3 ℝ (Img ℝ)) (r : Run (Frame V3 ℝ (Img ℝ)))
    (h : forwardRun disk (trackBuf s.tracker) first (first + L) [a, b, c, d] = .ok r) :
    (writesOf r.log).map Prod.fst = (List.range (L + 1)).map (fun j : ℕ => first + (j : Int)) ∧
    ∀ n f, (n, f) ∈ writesOf r.log → f.parts.length = (disk n).parts.length ∧ TrueLinks Eq y num first L n f.parts := by
  have hg : SearchSane s.tracker := C81_search_sane s.cams _ him hn.2
  have hF := fun k => C126_followed s hn hadd him hdacc B hB disk hd first L hL (y k) (num k) (hsw.pos k) (haway k) (hsmooth k)
    (hseen0 k) (hseen k) a b c d r h
  obtain ⟨w, w1, -, -, -, w5, -⟩ := run_noadd hg hadd hd h
  have hpos : ∀ j, j ≤ L → (w j).parts.length = (disk (first + (j : Int))).parts.length := by
    intro j hj
    have h0 : ∀ {a b : List (Part V3 ℝ)}, a.map Part.x = b.map Part.x → a.length = b.length := by
      intro a b e
      simpa using congrArg List.length e
    by_cases h : j < L
    · exact h0 (w5 j h).pos
    · obtain ⟨k, rfl⟩ : ∃ k, j = k + 1 := ⟨j - 1, by omega⟩
      have := h0 (w5 k (by omega)).pos'
      push_cast
      rw [← add_assoc]
      exact this
  refine ⟨by rw [w1, List.map_map]; rfl, ?_⟩
  intro n f hf
  have hlen : first ≤ n ∧ n ≤ first + L ∧ f.parts.length = (disk n).parts.length := by
    rw [w1, List.mem_map] at hf
    obtain ⟨j, hj, e⟩ := hf
    rw [List.mem_range] at hj
    cases e
    exact ⟨by omega, by omega, hpos j (by omega)⟩
  refine ⟨hlen.2.2, fun i p hp => ?_⟩
  obtain ⟨k, rfl⟩ := hsw.all n i hlen.1 hlen.2.1 (by rw [← hlen.2.2]; exact (List.getElem?_eq_some_iff.1 hp).1)
  obtain ⟨p', h1, h2, h3, h4⟩ := (hF k).2 n f hf
  rw [hp] at h1
  cases h1
  exact ⟨k, rfl, h2.symm, h3, h4⟩

/-! ### On files -/

variable {c : ℕ} {b : Bases}

/-- After a run on files (adding off) every frame can be read, with as many particles as before, each at its position. -/
theorem C132_nothing_lost (s : Setup) (c : ℕ) (b : Bases) (hb : GoodNames b) (hn : s.cals.length ≤ 4) (hadd : s.add = false)
    (him : (s.ip.imx : ℝ) ≤ 10 ^ 19 ∧ (s.ip.imy : ℝ) ≤ 10 ^ 19) (first : Int) (hfirst : 0 < first) (L : ℕ) (fs fs' : FS)
    (frames : Int → RealFrame c) (o1 o2 o3 o4 : RealFrame c)
    (hread : ∀ n, first ≤ n → n ≤ first + L → (realStore c b false).read fs n o1 = .ok (frames n))
    (r : Run (RealFrame c)) (h : fileForwardRun s c b first (first + L) fs [o1, o2, o3, o4] = (fs', .ok r)) :
    ∀ n, first ≤ n → n ≤ first + L → ∀ o : RealFrame c, ∃ f, (realStore c b true).read fs' n o = .ok f ∧
      List.Forall₂ (fun p q => ThreeDecimals3 p.x q.x) (frames n).parts f.parts := by
  have hi1 := realStore_isolated (c := c) hb false
  have hi2 := realStore_isolated (c := c) hb true
  have hi : (realStore c b false).Isolated first (fun _ => True) :=
    ⟨fun s n m f g hn hm => hi1.other s n m f g (by omega) (by omega), hi1.object, hi1.kind⟩
  let disk : Int → RealFrame c := fun n =>
    match (realStore c b false).read fs n o1 with
    | .ok f => f
    | .error _ => ⟨n, [], o1.img⟩
  have hdok : ∀ n f, (realStore c b false).read fs n o1 = .ok f → disk n = f := by
    intro n f e
    simp only [disk, e]
  have hd : ∀ n f f', first ≤ n → True → (realStore c b false).read fs n f = .ok f' → disk n = f' := by
    intro n f f' _ _ e
    rw [hi1.object fs n f o1 trivial trivial] at e
    exact hdok n f' e
  have hfr : ∀ n, first ≤ n → n ≤ first + L → disk n = frames n := fun n h1 h2 => hdok n _ (hread n h1 h2)
  have hplain : ∀ n, ∀ p ∈ (disk n).parts, p.prev = PREV_NONE ∧ p.next = NEXT_NONE := by
    intro n
    simp only [disk]
    cases e : (realStore c b false).read fs n o1 with
    | error _ => simp
    | ok f => exact realStore_plain e
  obtain ⟨hr, hrep⟩ := C88_forward_files (realStore c b false) first (first + L) (fun _ => True) hi
    (trackBuf (s.tracker.onImages seenImg)) (fun _ _ _ _ _ _ => trivial) fs fs' disk hd [o1, o2, o3, o4] (fun _ _ => trivial) r h
  have hg : SearchSane s.tracker := C81_search_sane s.cams _ him hn
  obtain ⟨w, w1, w2, w3, w4, w5, w6⟩ := run_noadd (sane_onImages (see := seenImg (c := c)) hg) hadd hplain hr
  have hpos : ∀ j, j ≤ L → (w j).parts.map Part.x = (disk (first + (j : Int))).parts.map Part.x := by
    intro j hj
    by_cases h : j < L
    · exact (w5 j h).pos
    · rcases Nat.eq_zero_or_pos j with rfl | h0
      · simpa using w2
      · obtain ⟨k, rfl⟩ : ∃ k, j = k + 1 := ⟨j - 1, by omega⟩
        have := (w5 k (by omega)).pos'
        push_cast
        rw [← add_assoc]
        exact this
  have hlow : ∀ wr ∈ writesOf r.log, (1 : Int) ≤ wr.1 := by
    intro wr hwr
    rw [w1, List.mem_map] at hwr
    obtain ⟨j, -, rfl⟩ := hwr
    simp only
    omega
  intro n h1 h2 o
  obtain ⟨i, rfl⟩ : ∃ i : ℕ, n = first + i := ⟨(n - first).toNat, by omega⟩
  have hiL : i < L + 1 := by omega
  have hl : LastWrite (writesOf r.log) (first + i) (w i) := by
    refine ⟨((List.range (L + 1)).map (fun j : ℕ => (first + (j : Int), w j))).take i,
      ((List.range (L + 1)).map (fun j : ℕ => (first + (j : Int), w j))).drop (i + 1), ?_, ?_⟩
    · rw [w1]
      refine (List.take_append_drop i _).symm.trans ?_
      rw [List.drop_eq_getElem_cons (by simpa using hiL)]
      simp
    · intro w' hw'
      obtain ⟨j, hj⟩ := List.getElem?_of_mem hw'
      rw [List.getElem?_drop, List.getElem?_map, Option.map_eq_some_iff] at hj
      obtain ⟨m, hm, rfl⟩ := hj
      rw [List.getElem?_range (by
        have := (List.getElem?_eq_some_iff.1 hm).1
        simpa using this)] at hm
      cases hm
      simp only
      push_cast
      omega
  obtain ⟨f, hf1, hf2⟩ := Replayed.read (st := realStore c b false) (K := KeptReal) hi2 (fun _ _ _ => rfl)
    (fun s' n f s'' v g hn _ hw => realStore_readback hb false (by omega) hw) hrep hlow hl (g := o) trivial
  refine ⟨f, hf1, ?_⟩
  have h3 : List.Forall₂ (fun x (q : Part V3 ℝ) => ThreeDecimals3 x q.x) ((w i).parts.map Part.x) f.parts := by
    rw [List.forall₂_map_left_iff]
    exact hf2.imp fun _ _ h => h.1
  rw [hpos i (by omega), hfr _ h1 h2, List.forall₂_map_left_iff] at h3
  exact h3

/-- C132 on files: the files the run leaves hold the swarm, with exactly the true links. -/
theorem C132_swarm_on_files {K : Type} (s : Setup) (c : ℕ) (b : Bases) (hb : GoodNames b) (hn : 2 ≤ s.cals.length ∧ s.cals.length ≤ 4)
    (hadd : s.add = false) (him : (s.ip.imx : ℝ) ≤ 10 ^ 19 ∧ (s.ip.imy : ℝ) ≤ 10 ^ 19) (hdacc : 0 < s.dacc) (B : ℝ)
    (hB : LongestStep s B) (first : Int) (hfirst : 0 < first) (L : ℕ) (hL : 2 ≤ L) (fs fs' : FS) (frames : Int → RealFrame c)
    (y : K → Int → V3) (num : K → Int → ℕ) (o1 o2 o3 o4 : RealFrame c)
    (hread : ∀ n, first ≤ n → n ≤ first + L → (realStore c b false).read fs n o1 = .ok (frames n))
    (hsw : IsSwarm frames first L y num)
    (haway : ∀ k n, first ≤ n → n < first + L → KeepsAway frames (y k) (num k) (B + 2 * s.dacc) n)
    (hsmooth : ∀ k n, first < n → n < first + L → SmoothAt s (y k) n)
    (hseen0 : ∀ k, SeenByAll s.cams (frames (first + 1)).seen (y k first)
      (s.projOwn (seenImg (frames first).img) (num k first) (y k first)) (num k (first + 1)))
    (hseen : ∀ k n, first < n → n < first + L →
      SeenByAll s.cams (frames (n + 1)).seen ((y k n).smul 2 - y k (n - 1)) (s.proj ((y k n).smul 2 - y k (n - 1))) (num k (n + 1)))
    (r : Run (RealFrame c)) (h : fileForwardRun s c b first (first + L) fs [o1, o2, o3, o4] = (fs', .ok r)) :
    ∀ n, first ≤ n → n ≤ first + L → ∀ o : RealFrame c, ∃ f, (realStore c b true).read fs' n o = .ok f ∧
      f.parts.length = (frames n).parts.length ∧ TrueLinks ThreeDecimals3 y num first L n f.parts := by
  intro n h1 h2 o
  obtain ⟨f, hf, hk⟩ := C132_nothing_lost s c b hb hn.2 hadd him first hfirst L fs fs' frames o1 o2 o3 o4 hread r h n h1 h2 o
  refine ⟨f, hf, hk.length_eq.symm, fun i p hp => ?_⟩
  obtain ⟨k, rfl⟩ := hsw.all n i h1 h2 (by rw [hk.length_eq]; exact (List.getElem?_eq_some_iff.1 hp).1)
  obtain ⟨f', p', e1, e2, e3, e4, e5⟩ := C130_followed_on_files s c b hb hn hadd him hdacc B hB first hfirst L hL fs fs' frames (y k)
    (num k) o1 o2 o3 o4 hread (hsw.pos k) (haway k) (hsmooth k) (hseen0 k) (hseen k) r h n h1 h2 o
  rw [hf] at e1
  cases e1
  rw [hp] at e2
  cases e2
  exact ⟨k, rfl, e3, e4, e5⟩

/-! ### Example: the two particles of C126 and C130 are a swarm -/

theorem twin_swarm (first : Int) (L : ℕ) : IsSwarm (K := Fin 2) twinDisk first L (fun k => twin k) (fun k _ => k) := by
  refine ⟨fun k n _ _ => ?_, fun n i _ _ hi => ⟨⟨i, by simpa [twinDisk] using hi⟩, rfl⟩⟩
  rw [twin_parts]
  fin_cases k <;> rfl

theorem twin_frame_ok (n : Int) : FrameOK airSetup (twinDisk n) := by
  refine ⟨rfl, fun ts hts => ?_⟩
  obtain ⟨cam, hcam⟩ := List.getElem?_of_mem hts
  obtain ⟨q, -, rfl⟩ := twin_targets hcam
  simp [twinDisk]

theorem twin_sees (i : ℕ) (hi : i < 2) (n m : Int) (h0 : 0 ≤ n) (h5 : n < 5) (hm : m = n ∨ m = n + 1) :
    SeenByAll airSetup.cams (twinDisk (n + 1)) (twin i m) (airSetup.proj (twin i m)) i := by
  refine near_seen (twin_frame_ok _) (fun cam hcam => twin_shown i hi n m h0 h5 hm cam hcam) (airSetup_air (by norm_num [twin])) ?_
  rcases hm with rfl | rfl
  · norm_num [InOpenBox, airSetup, twin]
    constructor <;> linarith
  · norm_num [InOpenBox, airSetup, twin]

theorem twin_ahead (i : ℕ) (n : Int) : (twin i n).smul 2 - twin i (n - 1) = twin i (n + 1) := by
  ext <;> simp [twin, V3.smul]
  ring

/-- The run over the frames 0 .. 5 returns, and every particle of every written frame has its true links. -/
example (c0 c1 c2 c3 : Frame V3 ℝ (Img ℝ)) :
    ∃ r, forwardRun twinDisk (trackBuf airSetup.tracker) 0 (0 + (5 : ℕ)) [c0, c1, c2, c3] = .ok r ∧
      ∀ n f, (n, f) ∈ writesOf r.log → f.parts.length = 2 ∧
        TrueLinks (K := Fin 2) Eq (fun k => twin k) (fun k _ => k) 0 5 n f.parts := by
  obtain ⟨r, hr⟩ := twin_run c0 c1 c2 c3
  refine ⟨r, hr, ?_⟩
  have := (C132_swarm (K := Fin 2) airSetup (by simp [airSetup]) rfl (by norm_num [airSetup]) (by norm_num [airSetup]) 4 twin_longest
    twinDisk twin_unlinked 0 5 (by norm_num) (fun k => twin k) (fun k _ => k) (twin_swarm 0 5)
    (fun k n _ _ => twin_away k k.2 n) (fun k n _ _ => twin_smooth k n) (fun k => by
      rw [projOwn_eq (twin_own k k.2)]
      exact twin_sees k k.2 0 0 (by norm_num) (by norm_num) (Or.inl rfl)) (fun k n h1 h2 => by
      rw [twin_ahead]
      exact twin_sees k k.2 n (n + 1) (by omega) (by push_cast at h2; omega) (Or.inr rfl)) c0 c1 c2 c3 r hr).2
  intro n f hf
  exact this n f hf

/-- The run on the files returns, and the files it leaves hold both particles, with their true links and no others. -/
example (o1 o2 o3 o4 : RealFrame 2) : ∃ fs' r, fileForwardRun airSetup 2 twinBases 1 (1 + (4 : ℕ)) twinFS [o1, o2, o3, o4] = (fs', .ok r) ∧
    ∀ n, (1 : Int) ≤ n → n ≤ 1 + (4 : ℕ) → ∀ o : RealFrame 2, ∃ f, (realStore 2 twinBases true).read fs' n o = .ok f ∧ f.parts.length = 2 ∧
      TrueLinks (K := Fin 2) ThreeDecimals3 (fun k => twin k) (fun k _ => k) 1 4 n f.parts := by
  obtain ⟨fs', r, hrun⟩ := twin_file_run o1 o2 o3 o4
  have hparts : ∀ n, (twinFrame n).parts = (twinDisk n).parts := fun n => by rw [← twin_seen_eq]; rfl
  have himg : ∀ n, seenImg (twinFrame n).img = (twinDisk n).img := fun n => by rw [← twin_seen_eq]; rfl
  refine ⟨fs', r, hrun, ?_⟩
  refine C132_swarm_on_files (K := Fin 2) airSetup 2 twinBases twin_good (by simp [airSetup]) rfl (by norm_num [airSetup])
    (by norm_num [airSetup]) 4 twin_longest 1 (by norm_num) 4 (by norm_num) twinFS fs' twinFrame (fun k => twin k) (fun k _ => k) o1 o2 o3 o4
    (fun n h1 h2 => twin_store_read h1 (by push_cast at h2; omega) o1) ?_ (fun k n _ _ => ?_) (fun k n _ _ => twin_smooth k n)
    (fun k => ?_) (fun k n h1 h2 => ?_) r hrun
  · have := twin_swarm 1 4
    exact ⟨fun k n h1 h2 => by rw [hparts]; exact this.pos k n h1 h2, fun n i h1 h2 => by rw [hparts]; exact this.all n i h1 h2⟩
  · have := twin_away k k.2 n
    unfold KeepsAway at this ⊢
    rw [hparts, hparts]
    exact this
  · rw [twin_seen_eq, himg, projOwn_eq (twin_own_one k k.2)]
    exact twin_sees k k.2 1 1 (by norm_num) (by norm_num) (Or.inl rfl)
  · rw [twin_seen_eq, twin_ahead]
    exact twin_sees k k.2 n (n + 1) (by omega) (by push_cast at h2; omega) (Or.inr rfl)

end Verif.Track
