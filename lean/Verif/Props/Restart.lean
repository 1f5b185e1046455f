/-
C131: a run that was interrupted can be started again.
-/
import Verif.Proofs.Restart

namespace Verif.Track
open Verif.Track.Spec

set_option linter.unusedSectionVars false

section
open _root_.Verif.IO Text

variable {J C D : Type} [Field D] [LinearOrder D] [IsStrictOrderedRing D] {c : ℕ}

/-! ### Specification -/

/-- A number with `k` decimals. -/
def Decimals (k : ℕ) (q : ℚ) : Prop := ∃ n : ℤ, q = n / 10 ^ k

/-- The numbers of the frame have no more decimals than the files that the run writes: three for positions, four for images. -/
def FileDecimals (f : MemFrame D c) : Prop :=
  (∀ p ∈ f.parts, Decimals 3 p.x.1 ∧ Decimals 3 p.x.2.1 ∧ Decimals 3 p.x.2.2) ∧
  ∀ ts ∈ f.img.targets, ∀ t ∈ ts, Decimals 4 t.x ∧ Decimals 4 t.y

/-- `fs1` is a state of the disk between `fs` and `fs'`: every file is the old one or the new one. -/
def Between (fs fs' fs1 : FS) : Prop := ∀ name, fs1 name = fs name ∨ fs1 name = fs' name

/-! ### What was written is read again -/

theorem rounded_decimals {k : ℕ} {q r : ℚ} (hq : Decimals k q) (h : Verif.Spec.Rounded k q r) : r = q := by
  obtain ⟨n, rfl⟩ := hq
  refine Verif.Text.rounded_unique h ⟨n, rfl, by simp, ?_⟩
  intro e
  rw [sub_self, abs_zero] at e
  have : (0 : ℚ) < 1 / (2 * 10 ^ k) := by positivity
  linarith

/-- A frame with the image data and the positions of `f`, as the files have them, can be read again as `f`. -/
theorem memRead_again (b : Bases) (hb : GoodNames b) {fs fs' fs0 : FS} {n : ℤ} (hn : 0 < n) {f w o o0 : MemFrame D c} {v : Bool}
    (hf : (memStore D c b false).read fs0 n o0 = .ok f) (hdec : FileDecimals f) (hx : w.parts.map Part.x = f.parts.map Part.x)
    (himg : w.img = f.img) (hw : (memStore D c b false).write fs n w = (fs', .ok v)) :
    (memStore D c b false).read fs' n o = .ok f := by
  obtain ⟨f2, r1, r2, r3⟩ := C85_memory_roundtrip b false hb.corresLinkage hb.corresPrio hb.linkagePrio hb.linkage hb.prio
    hb.format hb.nodup hb.differ fs fs' n hn w o v hw
  have hlen : w.parts.length = f.parts.length := by simpa using congrArg List.length hx
  -- the path file
  have hw' : (toDisk w).write fs b.corres b.linkage b.prio b.target n = (fs', .ok v) := hw
  unfold DFrame.write at hw'
  cases hpf : writePathFrame fs (toDisk w).parts (toDisk w).numParts b.corres b.linkage b.prio n with
  | error e => rw [hpf] at hw'; simp at hw'
  | ok fs1 =>
    rw [hpf] at hw'
    simp only at hw'
    obtain ⟨ts, t1, t2, t3⟩ := C42_optional_files fs fs1 _ _ b.corres b.linkage b.prio n hb.corresLinkage hb.corresPrio
      hb.linkagePrio hb.linkage hpf false
    have hsame : fs' (frameName b.corres n) = fs1 (frameName b.corres n) := by
      have := writeCams_other (f := toDisk w) (tb := b.target) (frame := n) (x := frameName b.corres n) (by
        intro t _ ht
        obtain ⟨s, e⟩ := writeName_suffix ht
        exact frameName_ne_suffix _ _ _ e) (List.range (toDisk w).targets.length) fs1
      rw [hw'] at this
      exact this
    have hpath : readPathFrame fs' b.corres [] [] n = .ok ts := by
      rw [readPathFrame_congr hsame (fun h => absurd rfl h) (fun h => absurd rfl h)]
      simpa using t1
    rw [memRead_iff] at hf r1 ⊢
    simp only [Bool.false_eq_true, if_false] at hf ⊢
    obtain ⟨ps, p1, p2, p3, p4, p5⟩ := hf
    obtain ⟨-, -, -, -, -, q5⟩ := r1
    have hpl : w.parts.length ≤ w.img.corr.length := by
      rw [hlen, himg, p3, p4]
      simp
    have hrows := plain_rows p1
    have hts : ts = ps := by
      have hl : ts.length = ps.length := by
        rw [t2]
        show w.parts.length = _
        rw [hlen, p3]
        simp
      apply List.ext_getElem hl
      intro k h1 h2
      have hk : k < w.parts.length := by
        rw [hlen, p3]
        simpa using h2
      have hk' : k < w.img.corr.length := by omega
      have S := t3 k (toRow w.parts[k] w.img.corr[k]) ts[k]
        (by simp [toDisk, List.getElem?_zipWith, List.getElem?_eq_getElem hk, List.getElem?_eq_getElem hk'])
        (List.getElem?_eq_getElem h1)
      have hR := hrows k ps[k] (List.getElem?_eq_getElem h2)
      have hP := plain_rows hpath k ts[k] (List.getElem?_eq_getElem h1)
      have ex : w.parts[k].x = (ps[k].x, ps[k].y, ps[k].z) := by
        have := congrArg (fun l => l[k]?) hx
        simp only [List.getElem?_map, List.getElem?_eq_getElem hk, p3, List.getElem?_eq_getElem h2, Option.map_some, ofRow,
          Option.some.injEq] at this
        exact this
      have ec : w.img.corr[k] = corrOf ps[k] := by
        have : w.img.corr[k]? = (f.img.corr)[k]? := by rw [himg]
        rw [p4, List.getElem?_map, List.getElem?_eq_getElem h2, List.getElem?_eq_getElem hk'] at this
        simpa using this
      have hd := hdec.1 (ofRow ps[k]) (by rw [p3]; exact List.mem_map_of_mem (List.getElem_mem h2))
      simp only [ofRow] at hd
      have sx := S.x
      have sy := S.y
      have sz := S.z
      have s0 := S.p0
      have s1 := S.p1
      have s2 := S.p2
      have s3 := S.p3
      simp only [toRow, ex, ec, corrOf] at sx sy sz s0 s1 s2 s3
      have sx := rounded_decimals hd.1 sx
      have sy := rounded_decimals hd.2.1 sy
      have sz := rounded_decimals hd.2.2 sz
      generalize ts[k] = u at *
      generalize ps[k] = u' at *
      obtain ⟨⟩ := u
      obtain ⟨⟩ := u'
      simp_all
    subst hts
    refine ⟨ts, hpath, p2, p3, p4, ?_⟩
    intro cam hcam
    obtain ⟨us, u1, u2⟩ := q5 cam hcam
    obtain ⟨us0, v1, v2⟩ := p5 cam hcam
    refine ⟨us, u1, ?_⟩
    obtain ⟨us', w1, w2⟩ := r3.2.2 cam us0 (by rw [himg]; exact v2)
    rw [u2] at w1
    cases w1
    rw [v2]
    congr 1
    have hd := hdec.2 us0 (List.mem_of_getElem? v2)
    clear v1 v2 u1 u2
    induction w2 with
    | nil => rfl
    | @cons t u l l' h1 h2 ih =>
      rw [ih (fun t ht => hd t (by simp [ht]))]
      congr 1
      have hd' := hd t (by simp)
      have e1 := rounded_decimals hd'.1 h1.x
      have e2 := rounded_decimals hd'.2 h1.y
      obtain ⟨⟩ := t
      obtain ⟨⟩ := u
      have := h1.pnr
      have := h1.n
      have := h1.nx
      have := h1.ny
      have := h1.sumg
      have := h1.tnr
      simp_all

/-! ### The run -/

/-- C131: a forward run (adding off) that is interrupted can be started again. Let the run on the files `fs` end regularly with the
files `fs'`. If the numbers of the frames that it reads have no more decimals than the files it writes, then from every state of the
disk between `fs` and `fs'` - every file the old one or the new one - the run ends with exactly the same files and the same result. -/
theorem C131_restart (b : Bases) (hb : GoodNames b) (g : Geo (ℚ × ℚ × ℚ) J C (CamData c) D) (hg : SearchSane g) (hadd : g.add = false)
    (first : Int) (hf : 0 < first) (L : Nat) (hL : 2 ≤ L) (fs fs' : FS) (x y z w : MemFrame D c) (r : Run (MemFrame D c))
    (hdec : ∀ n, first ≤ n → n ≤ first + L → ∃ f, (memStore D c b false).read fs n x = .ok f ∧ FileDecimals f)
    (h : sForwardRun (memStore D c b false) (trackBuf g) first (first + L) fs [x, y, z, w] = (fs', .ok r))
    (fs1 : FS) (h1 : Between fs fs' fs1) :
    sForwardRun (memStore D c b false) (trackBuf g) first (first + L) fs1 [x, y, z, w] = (fs', .ok r) := by
  have hi1 := C88_memory_isolated (D := D) (c := c) b false hb.format hb.differ
  have hi : (memStore D c b false).Isolated first (fun _ => True) :=
    ⟨fun s n m f g hn hm => hi1.other s n m f g (by omega) (by omega), hi1.object, hi1.kind⟩
  let disk : Int → MemFrame D c := fun n =>
    match (memStore D c b false).read fs n x with
    | .ok f => f
    | .error _ => ⟨n, [], x.img⟩
  have hdok : ∀ n f, (memStore D c b false).read fs n x = .ok f → disk n = f := by
    intro n f e
    simp only [disk, e]
  have hd : ∀ n f f', first ≤ n → True → (memStore D c b false).read fs n f = .ok f' → disk n = f' := by
    intro n f f' _ _ e
    rw [hi1.object fs n f x trivial trivial] at e
    exact hdok n f' e
  have hplain : ∀ n, ∀ p ∈ (disk n).parts, p.prev = PREV_NONE ∧ p.next = NEXT_NONE := by
    intro n
    simp only [disk]
    cases e : (memStore D c b false).read fs n x with
    | error _ => simp
    | ok f =>
      obtain ⟨h1, h2⟩ := memStore_read_plain e
      exact fun p hp => ⟨(h2 p hp).1, (h2 p hp).2.1⟩
  obtain ⟨hr, hrep⟩ := C88_forward_files (memStore D c b false) first (first + L) (fun _ => True) hi (trackBuf g)
    (fun _ _ _ _ _ _ => trivial) fs fs' disk hd [x, y, z, w] (fun _ _ => trivial) r h
  obtain ⟨wf, w1, w2, w3, w4, w5, w6⟩ := run_noadd hg hadd hplain hr
  have hpos : ∀ j, j ≤ L → (wf j).parts.map Part.x = (disk (first + (j : Int))).parts.map Part.x := by
    intro j hj
    by_cases h : j < L
    · exact (w5 j h).pos
    · obtain ⟨k, rfl⟩ : ∃ k, j = k + 1 := ⟨j - 1, by omega⟩
      have := (w5 k (by omega)).pos'
      push_cast
      rw [← add_assoc]
      exact this
  have hlow : ∀ wr ∈ writesOf r.log, (1 : Int) ≤ wr.1 := by
    intro wr hwr
    rw [w1, List.mem_map] at hwr
    obtain ⟨j, -, rfl⟩ := hwr
    show (1 : Int) ≤ first + j
    omega
  -- the frames can be read after the run as before it
  have hafter : ∀ n, first ≤ n → n ≤ first + L → (memStore D c b false).read fs n x = .ok (disk n) ∧
      (memStore D c b false).read fs' n x = .ok (disk n) := by
    intro n n1 n2
    obtain ⟨f, f1, f2⟩ := hdec n n1 n2
    have e0 : disk n = f := hdok n f f1
    rw [e0]
    refine ⟨f1, ?_⟩
    obtain ⟨j, rfl⟩ : ∃ j : ℕ, n = first + j := ⟨(n - first).toNat, by omega⟩
    have hl : LastWrite (writesOf r.log) (first + (j : Int)) (wf j) := by
      rw [w1]
      refine ⟨(List.range j).map (fun j : ℕ => (first + (j : Int), wf j)),
        (List.range' (j + 1) (L - j)).map (fun j : ℕ => (first + (j : Int), wf j)), ?_, ?_⟩
      · have e1 : List.range (L + 1) = List.range j ++ j :: List.range' (j + 1) (L - j) := by
          rw [List.range_eq_range', List.range_eq_range', show L + 1 = j + ((L - j) + 1) by omega, ← List.range'_append]
          simp [List.range'_succ]
        rw [e1]
        simp
      · intro w' hw'
        simp only [List.mem_map, List.mem_range'] at hw'
        obtain ⟨i, ⟨k, hk, rfl⟩, rfl⟩ := hw'
        show first + ((j + 1 + 1 * k : ℕ) : Int) ≠ first + (j : Int)
        push_cast
        omega
    obtain ⟨s1, s2, v, a1, a2⟩ := replayed_lastWrite hi1 hrep hlow hl
    rw [a2 x trivial]
    exact memRead_again b hb (by omega) f1 f2 (by rw [hpos j (by omega), e0]) (by rw [w6 j (by omega), e0]) a1
  -- the files that are written
  obtain ⟨m, rfl, hm⟩ := replayed_overlay (fun n f => memWrite_overwrites (b := b) false n f) hrep
  have hread1 : ∀ n, first ≤ n → n ≤ first + L → (memStore D c b false).read fs1 n x = .ok (disk n) := fun n n1 n2 =>
    memRead_mixed (hafter n n1 n2).1 (hafter n n1 n2).2 h1
  obtain ⟨fs2, h2⟩ := forward_on_files (st := memStore D c b false) (s := fs1) (disk := disk) hi (last := first + L) (by omega)
    (fun _ _ _ _ _ _ => trivial) (by
      intro n n1 n2 f _
      rw [hi1.object fs1 n f x trivial trivial]
      exact hread1 n n1 (by omega)) (buf0 := [x, y, z, w]) (by simp) (fun _ _ => trivial) hr
    (fun n f hnf s => replayed_write_ok (fun n f => memWrite_overwrites (b := b) false n f) hrep (n, f) hnf s)
  let disk1 : Int → MemFrame D c := fun n =>
    match (memStore D c b false).read fs1 n x with
    | .ok f => f
    | .error _ => ⟨n, [], x.img⟩
  obtain ⟨-, hrep2⟩ := C88_forward_files (memStore D c b false) first (first + L) (fun _ => True) hi (trackBuf g)
    (fun _ _ _ _ _ _ => trivial) fs1 fs2 disk1 (by
      intro n f f' _ _ e
      rw [hi1.object fs1 n f x trivial trivial] at e
      simp only [disk1, e]) [x, y, z, w] (fun _ _ => trivial) r h2
  rw [h2]
  have : fs2 = overlay m fs := by
    rw [hrep2.replay, ← (hm fs1).replay]
    exact overlay_between h1
  rw [this]

theorem rounded_has_decimals {k : ℕ} {q r : ℚ} (h : Verif.Spec.Rounded k q r) : Decimals k r := by
  obtain ⟨n, h, -⟩ := h
  exact ⟨n, h⟩

/-- C131: frames that the package itself has written meet the condition on the decimals. -/
theorem C131_written_decimals (b : Bases) (hb : GoodNames b) (fs fs' : FS) (n : ℤ) (hn : 0 < n) (w o : MemFrame D c) (v : Bool)
    (hw : (memStore D c b false).write fs n w = (fs', .ok v)) :
    ∃ f, (memStore D c b false).read fs' n o = .ok f ∧ FileDecimals f := by
  obtain ⟨f2, r1, r2, r3⟩ := C85_memory_roundtrip b false hb.corresLinkage hb.corresPrio hb.linkagePrio hb.linkage hb.prio
    hb.format hb.nodup hb.differ fs fs' n hn w o v hw
  have hw' : (toDisk w).write fs b.corres b.linkage b.prio b.target n = (fs', .ok v) := hw
  unfold DFrame.write at hw'
  cases hpf : writePathFrame fs (toDisk w).parts (toDisk w).numParts b.corres b.linkage b.prio n with
  | error e => rw [hpf] at hw'; simp at hw'
  | ok fs1 =>
    rw [hpf] at hw'
    simp only at hw'
    obtain ⟨-, hcams⟩ := writeCams_writable _ _ _ _ hw'
    have hnum : (toDisk w).numParts ≤ (toDisk w).parts.length := by
      by_contra hlt
      rw [writePathFrame, if_neg hb.prio, if_pos (by omega)] at hpf
      cases hpf
    obtain ⟨ts, t1, t2, t3⟩ := C42_optional_files fs fs1 _ _ b.corres b.linkage b.prio n hb.corresLinkage hb.corresPrio
      hb.linkagePrio hb.linkage hpf false
    have hsame : fs' (frameName b.corres n) = fs1 (frameName b.corres n) := by
      have := writeCams_other (f := toDisk w) (tb := b.target) (frame := n) (x := frameName b.corres n) (by
        intro t _ ht
        obtain ⟨s, e⟩ := writeName_suffix ht
        exact frameName_ne_suffix _ _ _ e) (List.range (toDisk w).targets.length) fs1
      rw [hw'] at this
      exact this
    have hpath : readPathFrame fs' b.corres [] [] n = .ok ts := by
      rw [readPathFrame_congr hsame (fun h => absurd rfl h) (fun h => absurd rfl h)]
      simpa using t1
    rw [memRead_iff] at r1
    obtain ⟨-, -, -, -, -, q5⟩ := r1
    refine ⟨⟨n, ts.map ofRow, ⟨f2.img.targets, ts.map corrOf, f2.img.cams⟩⟩, ?_, ?_, ?_⟩
    · rw [memRead_iff]
      exact ⟨ts, by simpa using hpath, rfl, rfl, rfl, q5⟩
    · intro p hp
      simp only [List.mem_map] at hp
      obtain ⟨u, hu, rfl⟩ := hp
      obtain ⟨k, hk⟩ := List.getElem?_of_mem hu
      have hlt := (List.getElem?_eq_some_iff.1 hk).1
      have S := t3 k (toDisk w).parts[k] u (List.getElem?_eq_getElem (by omega)) hk
      exact ⟨rounded_has_decimals S.x, rounded_has_decimals S.y, rounded_has_decimals S.z⟩
    · intro us hus t ht
      obtain ⟨cam, hcam⟩ := List.getElem?_of_mem hus
      have hlt : cam < c := by
        have := (List.getElem?_eq_some_iff.1 hcam).1
        rw [f2.img.cams] at this
        exact this
      have hlt' : cam < w.img.targets.length := by rw [w.img.cams]; exact hlt
      obtain ⟨us', u1, u2⟩ := r3.2.2 cam _ (List.getElem?_eq_getElem hlt')
      replace hcam : f2.img.targets[cam]? = some us := hcam
      rw [hcam] at u1
      cases u1
      obtain ⟨k, hk⟩ := List.getElem?_of_mem ht
      have hlk := (List.getElem?_eq_some_iff.1 hk).1
      have S := List.Forall₂.get u2 (u2.length_eq ▸ hlk) hlk
      simp only [List.get_eq_getElem, (List.getElem?_eq_some_iff.1 hk).2] at S
      exact ⟨rounded_has_decimals S.x, rounded_has_decimals S.y⟩

/-- C131 fails if a file is neither the old one nor the new one: `write_path_frame` first empties the file. A run that is stopped just
then cannot be started again: it raises ValueError and leaves the files as they are. -/
theorem C131_emptied_file_refuted (b : Bases) (process : List (MemFrame D c) → Py (List (MemFrame D c))) (first last : Int) (fs1 : FS)
    (x y z w : MemFrame D c) (h : fs1 (frameName b.corres first) = some []) :
    sForwardRun (memStore D c b false) process first last fs1 [x, y, z, w] = (fs1, .error .valueError) := by
  have hr : ∀ o : MemFrame D c, (memStore D c b false).read fs1 first o = .error .valueError := by
    intro o
    have : readPathFrame fs1 b.corres [] [] first = .error .valueError := by
      unfold readPathFrame
      rw [h]
      rfl
    simp only [memStore, fileStore_read_eq, Bool.false_eq_true, if_false, DFrame.read, this, bind, Except.bind]
  simp [sForwardRun, sForwardStart, sPrime, sRead, hr, andThen]

/-! ### An example -/

def startBuf : List (MemFrame ℚ 2) := [⟨0, [], fileCams⟩, ⟨0, [], fileCams⟩, ⟨0, [], fileCams⟩, ⟨0, [], fileCams⟩]

/-- The run over frames 1 to 3. -/
def runFrom (fs : FS) : FS × Py (Run (MemFrame ℚ 2)) :=
  sForwardRun (memStore ℚ 2 fileBases false) (trackBuf fileGeo) 1 (1 + (2 : ℕ)) fs startBuf

/-- The files of frame 3 from `fs`, the others from `fs'`: a run that is stopped before it writes the last frame. -/
def oldThree (fs fs' : FS) : FS := fun name => if name.getLast? = some '3' ∨ name.drop 8 = "3_targets".toList then fs name else fs' name

theorem oldThree_between (fs fs' : FS) : Between fs fs' (oldThree fs fs') := by
  intro name
  unfold oldThree
  split_ifs
  · exact Or.inl rfl
  · exact Or.inr rfl

theorem fileBases_good : GoodNames fileBases where
  corresLinkage := by decide
  corresPrio := by decide
  linkagePrio := by decide
  linkage := by decide
  prio := by decide
  format := by
    intro t ht
    simp only [fileBases, demoTb, List.mem_cons, List.not_mem_nil, or_false] at ht
    rcases ht with rfl | rfl <;> decide
  nodup := by decide
  differ := demoTb_differ

theorem fileGeo_sane : SearchSane fileGeo := by
  intro x v i w h f hf
  cases h
  simp only [List.mem_cons, List.not_mem_nil, or_false] at hf
  rcases hf with rfl | rfl | rfl <;> decide

theorem fileStart_decimals : ∀ n : Int, 1 ≤ n → n ≤ 1 + (2 : ℕ) → ∃ f, (memStore ℚ 2 fileBases false).read fileStart n ⟨0, [], fileCams⟩ =
    .ok f ∧ FileDecimals f := by
  have hi := C88_memory_isolated (D := ℚ) (c := 2) fileBases false fileBases_good.format fileBases_good.differ
  have hok : ∀ (fs : FS) (n : Int), n ∈ [(1 : Int), 2, 3, 4] → ∃ fs', (memStore ℚ 2 fileBases false).write fs n (fileFrame n) = (fs', .ok true) := by
    intro fs n hn
    obtain ⟨m, v, h⟩ := memWrite_overwrites (b := fileBases) false n (fileFrame n)
    simp only at h
    refine ⟨overlay m fs, ?_⟩
    rw [h]
    have hv : ((memStore ℚ 2 fileBases false).write (fun _ => none) n (fileFrame n)).2 = .ok true := by
      simp only [List.mem_cons, List.not_mem_nil, or_false] at hn
      rcases hn with rfl | rfl | rfl | rfl <;> decide +kernel
    rw [h] at hv
    simp only at hv
    rw [hv]
  intro n h1 h2
  have hn : n = 1 ∨ n = 2 ∨ n = 3 := by push_cast at h2; omega
  unfold fileStart replay
  simp only [List.map_cons, List.map_nil, List.foldl_cons, List.foldl_nil]
  rcases hn with rfl | rfl | rfl
  · rw [hi.other _ _ _ _ _ (by omega) (by omega) (by omega) trivial, hi.other _ _ _ _ _ (by omega) (by omega) (by omega) trivial,
      hi.other _ _ _ _ _ (by omega) (by omega) (by omega) trivial]
    obtain ⟨fs', h'⟩ := hok (fun _ => none) 1 (by simp)
    rw [h']
    exact C131_written_decimals _ fileBases_good _ _ _ (by omega) _ _ _ h'
  · rw [hi.other _ _ _ _ _ (by omega) (by omega) (by omega) trivial, hi.other _ _ _ _ _ (by omega) (by omega) (by omega) trivial]
    obtain ⟨fs', h'⟩ := hok ((memStore ℚ 2 fileBases false).write (fun _ => none) 1 (fileFrame 1)).1 2 (by simp)
    rw [h']
    exact C131_written_decimals _ fileBases_good _ _ _ (by omega) _ _ _ h'
  · rw [hi.other _ _ _ _ _ (by omega) (by omega) (by omega) trivial]
    obtain ⟨fs', h'⟩ := hok ((memStore ℚ 2 fileBases false).write ((memStore ℚ 2 fileBases false).write (fun _ => none) 1 (fileFrame 1)).1
      2 (fileFrame 2)).1 3 (by simp)
    rw [h']
    exact C131_written_decimals _ fileBases_good _ _ _ (by omega) _ _ _ h'

/-- The run from the start, and from a state of the disk before the last frame is written: the files are the same. -/
example : runFrom (oldThree fileStart (runFrom fileStart).1) = runFrom fileStart ∧
    linksAt (oldThree fileStart (runFrom fileStart).1) = [some [(-1, 0), (-1, 1)], some [(0, 0), (1, 1)], some [(-1, -2), (-1, -2)],
      some [(-1, -2), (-1, -2)], none] ∧
    linksAt (runFrom fileStart).1 = [some [(-1, 0), (-1, 1)], some [(0, 0), (1, 1)], some [(0, -2), (1, -2)],
      some [(-1, -2), (-1, -2)], none] := by
  refine ⟨?_, by decide +kernel, by decide +kernel⟩
  have hret : ∃ r, (runFrom fileStart).2 = .ok r := by
    have : (match (runFrom fileStart).2 with | .ok _ => true | .error _ => false) = true := by decide +kernel
    cases e : (runFrom fileStart).2 with
    | error x => rw [e] at this; cases this
    | ok r => exact ⟨r, rfl⟩
  obtain ⟨r, hr⟩ := hret
  have h0 : runFrom fileStart = ((runFrom fileStart).1, .ok r) := Prod.ext rfl hr
  rw [h0]
  exact C131_restart fileBases fileBases_good fileGeo fileGeo_sane rfl 1 (by omega) 2 (by omega) fileStart _ _ _ _ _ r fileStart_decimals
    h0 _ (oldThree_between _ _)

/-- Files with more decimals: the particle is at 4.4996 in frame 2. -/
def longStart : FS := fileStart.write "rt_is.2".toList
  "2\n1 4.4996 0.000 0.125 0 0 -1 -1\n2 12.000 1.000 0.000 1 1 -1 -1\n".toList

/-- C131 fails for files with more decimals: the run writes 4.500; when it is stopped before it writes frame 3 and started again, it
reads that, and a trajectory is lost. -/
theorem C131_decimals_refuted :
    linksAt (runFrom longStart).1 = [some [(-1, 0), (-1, 1)], some [(0, 0), (1, 1)], some [(0, -2), (1, -2)],
      some [(-1, -2), (-1, -2)], none] ∧
    linksAt (runFrom (oldThree longStart (runFrom longStart).1)).1 = [some [(-1, -2), (-1, 1)], some [(-1, -2), (1, 1)],
      some [(-1, -2), (1, -2)], some [(-1, -2), (-1, -2)], none] := by
  decide +kernel

end
end Verif.Track
