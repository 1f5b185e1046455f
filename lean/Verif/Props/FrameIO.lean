/-
C85-C87: frames on disk (tracking_frame_buf.py).
-/
import Verif.Model.FrameIO
import Verif.Props.TargetsIO
import Verif.Props.PathIO

namespace Verif.IO
open Text Spec

/-! ### Names of files -/

theorem toDigits_last_digit (n : ℕ) : ∃ l c, Nat.toDigits 10 n = l ++ [c] ∧ c.isDigit = true := by
  have h := Nat.toDigits_ne_nil (n := n) (b := 10)
  refine ⟨(Nat.toDigits 10 n).dropLast, (Nat.toDigits 10 n).getLast h, (List.dropLast_append_getLast h).symm, ?_⟩
  exact Nat.isDigit_of_mem_toDigits (by norm_num) (by norm_num) (List.getLast_mem h)

/-- A path file never has the name of a targets file. -/
theorem frameName_ne_suffix (base s : List Char) (frame : ℤ) : frameName base frame ≠ s ++ suffix := by
  intro h
  obtain ⟨l, c, e, hc⟩ := toDigits_last_digit frame.natAbs
  have h1 : (frameName base frame).getLast? = some c := by
    simp only [frameName, intStr, e]
    rw [← List.append_assoc, ← List.cons_append, ← List.append_assoc, List.getLast?_concat]
  rw [h] at h1
  simp [suffix] at h1
  subst h1
  simp [Char.isDigit] at hc

theorem writeName_suffix {base name : List Char} {frame : ℤ} (h : writeName base frame = .ok name) :
    ∃ s, name = s ++ suffix := by
  unfold writeName at h
  cases hs : pyMod (fixName base) (if frame = 0 then 123456789 else frame) with
  | error e => rw [hs] at h; simp [bind, Except.bind] at h
  | ok s => rw [hs] at h; simp [bind, Except.bind] at h; exact ⟨s, h.symm⟩

theorem fmtDirective_inj {d : Directive} {n m : ℤ} (hn : 0 < n) (hm : 0 < m)
    (h : fmtDirective d n = fmtDirective d m) : n = m := by
  unfold fmtDirective at h
  rw [if_neg (by omega : ¬ n < 0), if_neg (by omega : ¬ m < 0), if_neg (by omega : ¬ n < 0),
    if_neg (by omega : ¬ m < 0)] at h
  split_ifs at h
  · have e := congrArg (fun l => Nat.ofDigitChars 10 l 0) h
    simp only [List.nil_append, padLeft, Nat.ofDigitChars_append, Nat.ofDigitChars_replicate_zero, Nat.mul_zero,
      Nat.ofDigitChars_ten_toDigits] at e
    omega
  · have e := congrArg words h
    have h1 := words_padLeft d.width (intStr n) []
    have h2 := words_padLeft d.width (intStr m) []
    simp only [List.append_nil] at h1 h2
    simp only [fmtInt, h1, h2, words_word (intStr_word _)] at e
    have e := congrArg parseInt (List.cons.inj e).1
    rw [parseInt_intStr, parseInt_intStr] at e
    exact Except.ok.inj e

theorem fmtPct_used (n m : ℤ) : ∀ (cs : List Char) (o : Option Directive), fmtPct n cs o true = fmtPct m cs o true
  | [], none => by simp [fmtPct]
  | [], some d => by simp [fmtPct]
  | c :: cs, none => by
    simp only [fmtPct, fmtPct_used n m cs]
  | c :: cs, some d => by
    simp only [fmtPct, fmtPct_used n m cs, if_true]

theorem fmtPct_inj {n m : ℤ} (hn : 0 < n) (hm : 0 < m) : ∀ (cs : List Char) (o : Option Directive) (x : List Char),
    fmtPct n cs o false = .ok x → fmtPct m cs o false = .ok x → n = m
  | [], none, x, h, _ => by simp [fmtPct] at h
  | [], some d, x, h, _ => by simp [fmtPct] at h
  | c :: cs, none, x, h1, h2 => by
    unfold fmtPct at h1 h2
    split_ifs at h1 h2
    · exact fmtPct_inj hn hm cs _ x h1 h2
    · cases e1 : fmtPct n cs none false with
      | error e => simp [e1, bind, Except.bind] at h1
      | ok r1 =>
        cases e2 : fmtPct m cs none false with
        | error e => simp [e2, bind, Except.bind] at h2
        | ok r2 =>
          simp only [e1, e2, bind, Except.bind, Except.ok.injEq] at h1 h2
          have : r1 = r2 := by rw [← h2] at h1; exact (List.cons.inj h1).2
          exact fmtPct_inj hn hm cs _ r2 (by rw [e1, this]) e2
  | c :: cs, some d, x, h1, h2 => by
    unfold fmtPct at h1 h2
    split_ifs at h1 h2
    · cases e1 : fmtPct n cs none false with
      | error e => simp [e1, bind, Except.bind] at h1
      | ok r1 =>
        cases e2 : fmtPct m cs none false with
        | error e => simp [e2, bind, Except.bind] at h2
        | ok r2 =>
          simp only [e1, e2, bind, Except.bind, Except.ok.injEq] at h1 h2
          have : r1 = r2 := by rw [← h2] at h1; exact (List.cons.inj h1).2
          exact fmtPct_inj hn hm cs _ r2 (by rw [e1, this]) e2
    · rw [fmtPct_used m n cs] at h2
      cases e1 : fmtPct n cs none true with
      | error e => simp [e1, bind, Except.bind] at h1
      | ok r1 =>
        simp only [e1, bind, Except.bind, Except.ok.injEq] at h1 h2
        rw [← h2] at h1
        exact fmtDirective_inj hn hm (List.append_cancel_right h1)
    · exact fmtPct_inj hn hm cs _ x h1 h2
    · exact fmtPct_inj hn hm cs _ x h1 h2

/-- The targets files of one camera have different names for different frames. -/
theorem writeName_inj {b x : List Char} {n m : ℤ} (hn : 0 < n) (hm : 0 < m) (h1 : writeName b n = .ok x)
    (h2 : writeName b m = .ok x) : n = m := by
  unfold writeName at h1 h2
  rw [if_neg (by omega)] at h1 h2
  cases e1 : pyMod (fixName b) n with
  | error e => simp [e1, bind, Except.bind] at h1
  | ok r1 =>
    cases e2 : pyMod (fixName b) m with
    | error e => simp [e2, bind, Except.bind] at h2
    | ok r2 =>
      simp only [e1, e2, bind, Except.bind, Except.ok.injEq] at h1 h2
      rw [← h2] at h1
      have := List.append_cancel_right h1
      exact fmtPct_inj hn hm _ _ r2 (by rw [← this]; exact e1) e2

theorem append_sep_inj {a b s t : List Char} {c : Char} (hs : c ∉ s) (ht : c ∉ t)
    (h : a ++ c :: s = b ++ c :: t) : a = b ∧ s = t := by
  rw [List.append_eq_append_iff] at h
  rcases h with ⟨l, h1, h2⟩ | ⟨l, h1, h2⟩
  · cases l with
    | nil => simp at h1 h2; exact ⟨h1.symm, h2⟩
    | cons x l =>
      exfalso
      simp at h2
      exact hs (by rw [h2.2]; simp)
  · cases l with
    | nil => simp at h1 h2; exact ⟨h1, h2.symm⟩
    | cons x l =>
      exfalso
      simp at h2
      exact ht (by rw [h2.2]; simp)

theorem intStr_no_dot (n : ℤ) : '.' ∉ intStr n := by
  intro h
  simp only [intStr, List.mem_append] at h
  rcases h with h | h
  · split_ifs at h <;> simp at h
  · have := Nat.isDigit_of_mem_toDigits (by norm_num) (by norm_num) h
    simp [Char.isDigit] at this

theorem frameName_inj {a b : List Char} {n m : ℤ} (h : frameName a n = frameName b m) : a = b ∧ n = m := by
  obtain ⟨h1, h2⟩ := append_sep_inj (intStr_no_dot n) (intStr_no_dot m) h
  refine ⟨h1, ?_⟩
  have := parseInt_intStr n
  rw [h2, parseInt_intStr] at this
  exact (Except.ok.inj this).symm

/-! ### What is read and what is written -/

theorem readTargets_congr {fs fs' : FS} {base name : List Char} {frame : ℤ} (hn : readName base frame = .ok name)
    (h : fs' name = fs name) : readTargets fs' base frame = readTargets fs base frame := by
  simp only [readTargets, hn, bind, Except.bind, FS.read, h]

theorem readPathFrame_congr {fs fs' : FS} {cb lb pb : List Char} {frame : ℤ}
    (hc : fs' (frameName cb frame) = fs (frameName cb frame))
    (hl : lb ≠ [] → fs' (frameName lb frame) = fs (frameName lb frame))
    (hp : pb ≠ [] → fs' (frameName pb frame) = fs (frameName pb frame)) :
    readPathFrame fs' cb lb pb frame = readPathFrame fs cb lb pb frame := by
  have h : ∀ b : List Char, (b ≠ [] → fs' (frameName b frame) = fs (frameName b frame)) →
      openOptional fs' b frame = openOptional fs b frame := by
    intro b hb
    unfold openOptional
    by_cases h0 : b = []
    · simp [h0]
    · simp [h0, hb h0]
  simp only [readPathFrame, hc, h lb hl, h pb hp]

/-- Writing the targets of a camera changes at most the file of that name, whether it succeeds or not. -/
theorem writeTargets_other {fs : FS} {ts : List Target} {n : ℤ} {base : List Char} {frame : ℤ} {x : List Char}
    (hx : writeName base frame ≠ .ok x) : (writeTargets fs ts n base frame).1 x = fs x := by
  rw [writeTargets]
  cases hn : writeName base frame with
  | error e => rfl
  | ok name =>
    have : x ≠ name := fun e => hx (by rw [hn, e])
    simp only
    split_ifs <;> simp [FS.write, this]

theorem writeCam_other {fs : FS} {f : DFrame} {tb : List (List Char)} {frame : ℤ} {cam : ℕ} {x : List Char}
    (hx : ∀ b ∈ tb, writeName b frame ≠ .ok x) : (writeCam fs f tb frame cam).1 x = fs x := by
  unfold writeCam
  split
  · rfl
  · rename_i ts n b h
    refine writeTargets_other (hx b ?_)
    simp only [bind, Except.bind] at h
    split at h
    · simp at h
    split at h
    · simp at h
    split at h
    · simp at h
    rename_i b' hb'
    simp only [Except.ok.injEq, Prod.mk.injEq] at h
    rw [← h.2.2]
    unfold pyGet at hb'
    split at hb'
    · rename_i e
      cases hb'
      exact List.mem_of_getElem? e
    · cases hb'

theorem writeCams_other {f : DFrame} {tb : List (List Char)} {frame : ℤ} {x : List Char}
    (hx : ∀ b ∈ tb, writeName b frame ≠ .ok x) : ∀ (cams : List ℕ) (fs : FS),
    (writeCams f tb frame cams fs).1 x = fs x
  | [], fs => rfl
  | cam :: cams, fs => by
    have h1 := writeCam_other (f := f) (fs := fs) (cam := cam) hx
    unfold writeCams
    split
    · rename_i fs' e
      rw [writeCams_other hx cams fs']
      rw [e] at h1
      exact h1
    · exact h1

theorem write_other {f : DFrame} {fs : FS} {cb lb pb : List Char} {tb : List (List Char)} {frame : ℤ} {x : List Char}
    (hc : x ≠ frameName cb frame) (hl : x ≠ frameName lb frame) (hp : x ≠ frameName pb frame)
    (hx : ∀ b ∈ tb, writeName b frame ≠ .ok x) : (f.write fs cb lb pb tb frame).1 x = fs x := by
  unfold DFrame.write
  cases h : writePathFrame fs f.parts f.numParts cb lb pb frame with
  | error e => rfl
  | ok fs' =>
    simp only
    rw [writeCams_other hx]
    unfold writePathFrame at h
    split_ifs at h
    cases h
    simp [FS.write, hc, hl, hp]

/-! ### C85 -/

/-- Camera `cam` of the frame can be written: there is a target, not more are announced than there are, and the name of its
files has a number format. -/
def Writable (f : DFrame) (tb : List (List Char)) (frame : ℤ) (cam : ℕ) : Prop :=
  ∃ ts n b name, f.targets[cam]? = some ts ∧ f.numTargets[cam]? = some n ∧ tb[cam]? = some b ∧
    '%' ∈ b ∧ '#' ∉ b ∧ writeName b frame = .ok name ∧ ts ≠ [] ∧ n ≤ ts.length

/-- `g` is the frame `f` up to the precision of the files: the particles and the targets of every camera that `f`
declares, in their order. -/
structure SameFrame (f g : DFrame) : Prop where
  num : g.numParts = f.numParts
  len : g.parts.length = f.numParts
  parts : ∀ (k : ℕ) (t u : Particle), f.parts[k]? = some t → g.parts[k]? = some u → SameParticle k t u
  cams : g.targets.length = f.targets.length
  targets : ∀ (cam : ℕ) (ts : List Target) (n : ℕ), f.targets[cam]? = some ts → f.numTargets[cam]? = some n →
    ∃ us, g.targets[cam]? = some us ∧ g.numTargets[cam]? = some n ∧ List.Forall₂ SameTarget (ts.take n) us

theorem pyGet_eq {α : Type} {xs : List α} {i : ℕ} {x : α} (h : xs[i]? = some x) : pyGet xs i = .ok x := by
  simp [pyGet, h]

theorem writeCam_ok {fs : FS} {f : DFrame} {tb : List (List Char)} {frame : ℤ} {cam : ℕ} {ts : List Target} {n : ℕ}
    {b name : List Char} (h1 : f.targets[cam]? = some ts) (h2 : f.numTargets[cam]? = some n) (h3 : tb[cam]? = some b)
    (h4 : writeName b frame = .ok name) (h5 : ts ≠ []) :
    writeCam fs f tb frame cam = (fs.write name (targetsText ts n), .ok true) := by
  simp only [writeCam, pyGet_eq h1, pyGet_eq h2, pyGet_eq h3, bind, Except.bind, writeTargets, h4, if_neg h5]

theorem writeCams_ok {f : DFrame} {tb : List (List Char)} {frame : ℤ}
    (hdis : ∀ (i j : ℕ) (b b' : List Char), i ≠ j → tb[i]? = some b → tb[j]? = some b' →
      ∀ x, writeName b frame = .ok x → writeName b' frame ≠ .ok x) : ∀ (cams : List ℕ) (fs : FS), cams.Nodup →
    (∀ cam ∈ cams, Writable f tb frame cam) →
    (writeCams f tb frame cams fs).2 = .ok true ∧
    ∀ (cam : ℕ) (ts : List Target) (n : ℕ) (b name : List Char), cam ∈ cams → f.targets[cam]? = some ts →
      f.numTargets[cam]? = some n → tb[cam]? = some b → writeName b frame = .ok name →
      (writeCams f tb frame cams fs).1 name = some (targetsText ts n)
  | [], fs, _, _ => ⟨rfl, fun cam ts n b name h => by simp at h⟩
  | cam :: cams, fs, hn, hw => by
    obtain ⟨ts, n, b, name, w1, w2, w3, w4, w5, w6, w7, w8⟩ := hw cam (by simp)
    rw [List.nodup_cons] at hn
    have ih := writeCams_ok hdis cams (fs.write name (targetsText ts n)) hn.2 (fun c hc => hw c (by simp [hc]))
    unfold writeCams
    rw [writeCam_ok w1 w2 w3 w6 w7]
    refine ⟨ih.1, ?_⟩
    intro cam' ts' n' b' name' hc h1 h2 h3 h4
    by_cases hcc : cam' ∈ cams
    · exact ih.2 cam' ts' n' b' name' hcc h1 h2 h3 h4
    · have : cam' = cam := by simpa [hcc] using hc
      subst this
      rw [w1] at h1
      rw [w2] at h2
      rw [w3] at h3
      cases h1
      cases h2
      cases h3
      rw [w6] at h4
      cases h4
      have key : ∀ (l : List ℕ) (fs : FS), cam' ∉ l → (∀ cam ∈ l, Writable f tb frame cam) →
          (writeCams f tb frame l fs).1 name = fs name := by
        intro l
        induction l with
        | nil => intro fs _ _; rfl
        | cons c l ih =>
          intro fs hcl hwl
          obtain ⟨ts2, n2, b2, name2, v1, v2, v3, v4, v5, v6, v7, v8⟩ := hwl c (by simp)
          unfold writeCams
          rw [writeCam_ok v1 v2 v3 v6 v7]
          simp only
          rw [ih _ (fun h => hcl (by simp [h])) (fun x hx => hwl x (by simp [hx]))]
          have : name ≠ name2 := by
            intro e
            exact hdis c cam' _ _ (fun e => hcl (by simp [e])) v3 w3 name2 v6 (by rw [w6, e])
          simp [FS.write, this]
      simp only
      rw [key cams _ hcc (fun c hc => hw c (by simp [hc]))]
      simp [FS.write]

theorem readCams_ok {fs : FS} {tb : List (List Char)} {frame : ℤ} : ∀ (cams : List ℕ) (g : DFrame),
    cams.Nodup → (∀ cam ∈ cams, ∃ ts, readCam fs tb frame cam = .ok ts) → g.numTargets.length = g.targets.length →
    ∃ g', readCams fs tb frame cams g = (g', .ok true) ∧ g'.parts = g.parts ∧ g'.numParts = g.numParts ∧
      g'.targets.length = g.targets.length ∧ g'.numTargets.length = g.numTargets.length ∧
      (∀ (cam : ℕ) (ts : List Target), cam ∈ cams → cam < g.targets.length → readCam fs tb frame cam = .ok ts →
        g'.targets[cam]? = some ts ∧ g'.numTargets[cam]? = some ts.length) ∧
      ∀ cam : ℕ, cam ∉ cams → g'.targets[cam]? = g.targets[cam]? ∧ g'.numTargets[cam]? = g.numTargets[cam]?
  | [], g, _, _, _ => ⟨g, rfl, rfl, rfl, rfl, rfl, fun cam ts h => by simp at h, fun _ _ => ⟨rfl, rfl⟩⟩
  | cam :: cams, g, hn, hr, hl => by
    obtain ⟨ts, hts⟩ := hr cam (by simp)
    rw [List.nodup_cons] at hn
    obtain ⟨g', h1, h2, h3, h4, h5, h6, h7⟩ := readCams_ok cams
      { g with targets := g.targets.set cam ts, numTargets := g.numTargets.set cam ts.length } hn.2
      (fun c hc => hr c (by simp [hc])) (by simpa using hl)
    refine ⟨g', ?_, h2, h3, by simpa using h4, by simpa using h5, ?_, ?_⟩
    · unfold readCams
      rw [hts]
      exact h1
    · intro c us hc hlt hus
      by_cases hcc : c ∈ cams
      · exact h6 c us hcc (by simpa using hlt) hus
      · have : c = cam := by simpa [hcc] using hc
        subst this
        rw [hts] at hus
        cases hus
        obtain ⟨q1, q2⟩ := h7 c hcc
        rw [q1, q2]
        simp [hlt, hl]
    · intro c hc
      simp only [List.mem_cons, not_or] at hc
      obtain ⟨q1, q2⟩ := h7 c hc.2
      rw [q1, q2]
      simp [Ne.symm hc.1]

/-- C85 (partial): a frame that is written and read back (into any frame object with as many cameras) is the same up to the
precision of the files. Every camera must have a target; the names of the path files differ, the names of the targets
files have number formats and differ, the frame number is positive. Missing: cameras without targets, see
`C85_empty_camera_refuted`. -/
theorem C85_roundtrip_partial (fs : FS) (f g : DFrame) (cb lb pb : List Char) (tb : List (List Char)) (frame : ℤ)
    (hf : 0 < frame) (hcl : cb ≠ lb) (hcp : cb ≠ pb) (hlp : lb ≠ pb) (hl : lb ≠ []) (hp : pb ≠ [])
    (hnum : f.numParts ≤ f.parts.length) (hw : ∀ cam < f.targets.length, Writable f tb frame cam)
    (hdis : ∀ (i j : ℕ) (b b' : List Char), i ≠ j → tb[i]? = some b → tb[j]? = some b' →
      ∀ x, writeName b frame = .ok x → writeName b' frame ≠ .ok x)
    (hg : g.targets.length = f.targets.length) (hg' : g.numTargets.length = g.targets.length) :
    ∃ fs' g', f.write fs cb lb pb tb frame = (fs', .ok true) ∧ g.read fs' cb lb pb tb frame = (g', .ok true) ∧
      SameFrame f g' := by
  obtain ⟨fs1, ps, p1, p2, p3, p4⟩ := C42_roundtrip_partial fs f.parts f.numParts cb lb pb frame hnum hcl hcp hlp hl hp
  obtain ⟨w1, w2⟩ := writeCams_ok hdis (List.range f.targets.length) fs1 List.nodup_range
    (fun cam hc => hw cam (by simpa using hc))
  have hfs : f.write fs cb lb pb tb frame = ((writeCams f tb frame (List.range f.targets.length) fs1).1, .ok true) := by
    unfold DFrame.write
    rw [p1]
    simp only
    rw [← w1]
  have hpath : ∀ base : List Char, (writeCams f tb frame (List.range f.targets.length) fs1).1 (frameName base frame) =
      fs1 (frameName base frame) := by
    intro base
    apply writeCams_other
    intro b _ hb
    obtain ⟨s, e⟩ := writeName_suffix hb
    exact frameName_ne_suffix _ _ _ e
  have hread : ∀ cam < f.targets.length, ∃ ts n, f.targets[cam]? = some ts ∧ f.numTargets[cam]? = some n ∧
      n ≤ ts.length ∧ readCam (writeCams f tb frame (List.range f.targets.length) fs1).1 tb frame cam =
        .ok ((ts.take n).map Target.rounded) := by
    intro cam hc
    obtain ⟨ts, n, b, name, v1, v2, v3, v4, v5, v6, v7, v8⟩ := hw cam hc
    have := w2 cam ts n b name (by simpa using hc) v1 v2 v3 v6
    refine ⟨ts, n, v1, v2, v8, ?_⟩
    simp only [readCam, pyGet_eq v3, bind, Except.bind, readTargets, readName_eq_writeName v4 v5 hf, v6, FS.read, this]
    exact readTargetsText_ok ts n v8
  obtain ⟨g', r1, r2, r3, r4, r5, r6, -⟩ := readCams_ok (fs := (writeCams f tb frame (List.range f.targets.length) fs1).1)
    (tb := tb) (frame := frame) (List.range g.targets.length) { g with parts := ps, numParts := ps.length }
    List.nodup_range (fun cam hc => by
      obtain ⟨ts, n, -, -, -, h⟩ := hread cam (by rw [← hg]; simpa using hc)
      exact ⟨_, h⟩) hg'
  refine ⟨_, g', hfs, ?_, ?_⟩
  · unfold DFrame.read
    rw [readPathFrame_congr (hpath cb) (fun _ => hpath lb) (fun _ => hpath pb), p2]
    exact r1
  · refine ⟨by rw [r3]; exact p3, by rw [r2]; exact p3, ?_, by rw [r4]; exact hg, ?_⟩
    · intro k t u ht hu
      rw [r2] at hu
      exact p4 k t u ht hu
    · intro cam ts n h1 h2
      have hlt : cam < f.targets.length := (List.getElem?_eq_some_iff.1 h1).1
      obtain ⟨ts', n', h3, h4, h5, h6⟩ := hread cam hlt
      rw [h1] at h3
      rw [h2] at h4
      cases h3
      cases h4
      obtain ⟨q1, q2⟩ := r6 cam _ (by simpa [hg] using hlt) (by simpa [hg] using hlt) h6
      refine ⟨_, q1, ?_, ?_⟩
      · rw [q2]; simp [h5]
      · rw [List.forall₂_map_right_iff, List.forall₂_same]
        exact fun t _ => sameTarget_rounded t

/-- The example: two particles, two cameras. -/
def demoFrame : DFrame := ⟨twoParticles, 2, [twoTargets, twoTargets], [2, 1]⟩
def demoTb : List (List Char) := ["cam1.%04d".toList, "cam2.%04d".toList]

/-- An empty frame object with two cameras. -/
def blankFrame : DFrame := ⟨[], 0, [[], []], [0, 0]⟩

theorem demo_writable : ∀ cam < demoFrame.targets.length, Writable demoFrame demoTb 7 cam := by
  intro cam hc
  have : cam = 0 ∨ cam = 1 := by simp [demoFrame] at hc; omega
  rcases this with rfl | rfl
  · exact ⟨twoTargets, 2, "cam1.%04d".toList, "cam1.0007_targets".toList, by decide +kernel, by decide +kernel,
      by decide +kernel, by decide, by decide, by decide +kernel, by decide +kernel, by decide +kernel⟩
  · exact ⟨twoTargets, 1, "cam2.%04d".toList, "cam2.0007_targets".toList, by decide +kernel, by decide +kernel,
      by decide +kernel, by decide, by decide, by decide +kernel, by decide +kernel, by decide +kernel⟩

theorem demo_names (n m : ℤ) (hnm : n = 7 ∧ m = 7 ∨ n = 7 ∧ m = 8) : ∀ (i j : ℕ) (b b' : List Char),
    i ≠ j ∨ n ≠ m → demoTb[i]? = some b → demoTb[j]? = some b' → writeName b n ≠ writeName b' m := by
  intro i j b b' hij h1 h2
  have hi : i < 2 := (List.getElem?_eq_some_iff.1 h1).1
  have hj : j < 2 := (List.getElem?_eq_some_iff.1 h2).1
  have hi : i = 0 ∨ i = 1 := by omega
  have hj : j = 0 ∨ j = 1 := by omega
  rcases hi with rfl | rfl <;> rcases hj with rfl | rfl <;> rcases hnm with ⟨rfl, rfl⟩ | ⟨rfl, rfl⟩ <;>
    first
    | (exfalso; simp at hij; done)
    | (simp only [demoTb, List.getElem?_cons_zero, List.getElem?_cons_succ, Option.some.injEq] at h1 h2
       subst h1 h2
       decide +kernel)

example : ∃ fs' g', demoFrame.write (fun _ => none) "rt_is".toList "ptv_is".toList "added".toList demoTb 7 =
      (fs', .ok true) ∧
    blankFrame.read fs' "rt_is".toList "ptv_is".toList "added".toList demoTb 7 = (g', .ok true) ∧
    SameFrame demoFrame g' :=
  C85_roundtrip_partial _ _ _ _ _ _ _ _ (by norm_num) (by decide) (by decide) (by decide) (by decide) (by decide)
    (by decide +kernel) demo_writable (fun i j b b' h hi hj x h1 h2 =>
      demo_names 7 7 (Or.inl ⟨rfl, rfl⟩) i j b b' (Or.inl h) hi hj (by rw [h1, h2]))
    (by decide +kernel) (by decide +kernel)

/-- C85 fails for a frame in which a camera has no targets: writing it raises ValueError, the file of that camera is left
empty (whatever it contained before), and reading the frame raises ValueError. -/
theorem C85_empty_camera_refuted (fs : FS) (f g : DFrame) (cb lb pb : List Char) (tb : List (List Char)) (frame : ℤ)
    (hf : 0 < frame) (hp : pb ≠ []) (hnum : f.numParts ≤ f.parts.length) (cam : ℕ)
    (hw : ∀ c < cam, Writable f tb frame c) (b name : List Char) (n : ℕ)
    (h1 : f.targets[cam]? = some []) (h2 : f.numTargets[cam]? = some n) (h3 : tb[cam]? = some b)
    (h4 : '%' ∈ b) (h5 : '#' ∉ b) (h6 : writeName b frame = .ok name) :
    (f.write fs cb lb pb tb frame).2 = .error .valueError ∧
    (f.write fs cb lb pb tb frame).1 name = some [] ∧
    (cam < g.targets.length → ∃ e, (g.read (f.write fs cb lb pb tb frame).1 cb lb pb tb frame).2 = .error e) := by
  have hlt : cam < f.targets.length := (List.getElem?_eq_some_iff.1 h1).1
  obtain ⟨fs1, e1⟩ : ∃ fs1, writePathFrame fs f.parts f.numParts cb lb pb frame = .ok fs1 := by
    rw [writePathFrame, if_neg hp, if_neg (by omega)]; exact ⟨_, rfl⟩
  have key : ∀ (k m : ℕ) (fs : FS), m + k = cam → ∀ l,
      (writeCams f tb frame (List.range' m k ++ cam :: l) fs).2 = .error .valueError ∧
      (writeCams f tb frame (List.range' m k ++ cam :: l) fs).1 name = some [] := by
    intro k
    induction k with
    | zero =>
      intro m fs _ l
      simp only [List.range'_zero, List.nil_append]
      unfold writeCams
      have : writeCam fs f tb frame cam = (fs.write name [], .error .valueError) := by
        simp only [writeCam, pyGet_eq h1, pyGet_eq h2, pyGet_eq h3, bind, Except.bind, writeTargets, h6, if_true]
      rw [this]
      simp [FS.write]
    | succ k ih =>
      intro m fs hm l
      obtain ⟨ts, n', b', name', w1, w2, w3, w4, w5, w6, w7, w8⟩ := hw m (by omega)
      rw [List.range'_succ, List.cons_append]
      unfold writeCams
      rw [writeCam_ok w1 w2 w3 w6 w7]
      exact ih (m + 1) _ (by omega) l
  have hr : List.range f.targets.length = List.range' 0 cam ++ cam :: List.range' (cam + 1) (f.targets.length - cam - 1) := by
    rw [List.range_eq_range', ← List.range'_succ]
    have := List.range'_append (s := 0) (m := cam) (n := f.targets.length - cam - 1 + 1) (step := 1)
    simp only [Nat.zero_add, Nat.one_mul] at this
    rw [this]
    congr 1
    omega
  have hwr : f.write fs cb lb pb tb frame = writeCams f tb frame (List.range f.targets.length) fs1 := by
    unfold DFrame.write
    rw [e1]
  obtain ⟨k1, k2⟩ := key cam 0 fs1 (by omega) (List.range' (cam + 1) (f.targets.length - cam - 1))
  rw [← hr, ← hwr] at k1 k2
  refine ⟨k1, k2, ?_⟩
  intro hg
  have hread : ∀ (l : List ℕ) (g : DFrame), cam ∈ l →
      ∃ e, (readCams (f.write fs cb lb pb tb frame).1 tb frame l g).2 = .error e := by
    intro l
    induction l with
    | nil => intro g h; simp at h
    | cons c l ih =>
      intro g h
      unfold readCams
      by_cases hc : c = cam
      · subst hc
        have : readCam (f.write fs cb lb pb tb frame).1 tb frame c = .error .valueError := by
          simp only [readCam, pyGet_eq h3, bind, Except.bind, readTargets, readName_eq_writeName h4 h5 hf, h6, FS.read, k2]
          rfl
        rw [this]
        exact ⟨_, rfl⟩
      · cases readCam (f.write fs cb lb pb tb frame).1 tb frame c with
        | error e => exact ⟨_, rfl⟩
        | ok ts => exact ih _ (by simpa [Ne.symm hc] using h)
  unfold DFrame.read
  cases readPathFrame (f.write fs cb lb pb tb frame).1 cb lb pb frame with
  | error e => exact ⟨_, rfl⟩
  | ok ps => exact hread _ _ (by simpa using hg)

/-- A frame with a camera that sees nothing: writing it destroys the targets file of that camera. -/
example : (({ demoFrame with targets := [twoTargets, []], numTargets := [2, 0] } : DFrame).write
      (fun n => if n = "cam2.0007_targets".toList then some "0\n".toList else none)
      "rt_is".toList "ptv_is".toList "added".toList demoTb 7).2 = .error .valueError := by
  decide +kernel

/-! ### C86 -/

/-- C86: writing a frame does not change what is read of another frame, whether the write succeeds or not: the same frame
object with the same result or exception. The names of the targets files of different cameras differ. -/
theorem C86_other_frames (fs : FS) (f g : DFrame) (cb lb pb cb' lb' pb' : List Char) (tb : List (List Char)) (n m : ℤ)
    (hn : 0 < n) (hm : 0 < m) (hnm : n ≠ m) (hfmt : ∀ b ∈ tb, '%' ∈ b ∧ '#' ∉ b)
    (hdis : ∀ b ∈ tb, ∀ b' ∈ tb, b ≠ b' → ∀ x, writeName b n = .ok x → writeName b' m ≠ .ok x) :
    g.read (f.write fs cb lb pb tb n).1 cb' lb' pb' tb m = g.read fs cb' lb' pb' tb m := by
  have hpath : ∀ base : List Char, (f.write fs cb lb pb tb n).1 (frameName base m) = fs (frameName base m) := by
    intro base
    apply write_other
    · exact fun e => hnm (frameName_inj e).2.symm
    · exact fun e => hnm (frameName_inj e).2.symm
    · exact fun e => hnm (frameName_inj e).2.symm
    · intro b _ hb
      obtain ⟨s, e⟩ := writeName_suffix hb
      exact frameName_ne_suffix _ _ _ e
  have hcam : ∀ cam, readCam (f.write fs cb lb pb tb n).1 tb m cam = readCam fs tb m cam := by
    intro cam
    unfold readCam
    cases hb : tb[cam]? with
    | none => simp [pyGet, hb, bind, Except.bind]
    | some b =>
      simp only [pyGet_eq hb, bind, Except.bind]
      have hbm := List.mem_of_getElem? hb
      have e := readName_eq_writeName (hfmt b hbm).1 (hfmt b hbm).2 hm
      cases hn' : writeName b m with
      | error e' =>
        simp only [readTargets, e, hn', bind, Except.bind]
      | ok name =>
        refine readTargets_congr (name := name) (by rw [e, hn']) (write_other ?_ ?_ ?_ ?_)
        · obtain ⟨s, rfl⟩ := writeName_suffix hn'
          exact fun h => frameName_ne_suffix _ _ _ h.symm
        · obtain ⟨s, rfl⟩ := writeName_suffix hn'
          exact fun h => frameName_ne_suffix _ _ _ h.symm
        · obtain ⟨s, rfl⟩ := writeName_suffix hn'
          exact fun h => frameName_ne_suffix _ _ _ h.symm
        · intro b' hb' hx
          by_cases hbb : b' = b
          · subst hbb
            exact hnm (writeName_inj hn hm hx hn')
          · exact hdis b' hb' b hbm hbb name hx hn'
  have hcams : ∀ (l : List ℕ) (g : DFrame), readCams (f.write fs cb lb pb tb n).1 tb m l g = readCams fs tb m l g := by
    intro l
    induction l with
    | nil => intro g; rfl
    | cons c l ih =>
      intro g
      unfold readCams
      rw [hcam c]
      cases readCam fs tb m c with
      | error e => rfl
      | ok ts => exact ih _
  unfold DFrame.read
  rw [readPathFrame_congr (hpath cb') (fun _ => hpath lb') (fun _ => hpath pb')]
  cases readPathFrame fs cb' lb' pb' m with
  | error e => rfl
  | ok ps => exact hcams _ _

/-- Two frames of the example meet the hypotheses. -/
example (fs : FS) (f g : DFrame) (cb lb pb : List Char) :
    g.read (f.write fs cb lb pb demoTb 7).1 cb lb pb demoTb 8 = g.read fs cb lb pb demoTb 8 := by
  refine C86_other_frames fs f g cb lb pb cb lb pb demoTb 7 8 (by norm_num) (by norm_num) (by norm_num) ?_ ?_
  · intro b hb
    simp only [demoTb, List.mem_cons, List.not_mem_nil, or_false] at hb
    rcases hb with rfl | rfl <;> decide
  · intro b hb b' hb' _ x h1 h2
    obtain ⟨i, hi⟩ := List.getElem?_of_mem hb
    obtain ⟨j, hj⟩ := List.getElem?_of_mem hb'
    exact demo_names 7 8 (Or.inr ⟨rfl, rfl⟩) i j b b' (Or.inr (by norm_num)) hi hj (by rw [h1, h2])

/-! ### C87 -/

theorem mapM_range_ok {α : Type} {f : ℕ → Py α} {n : ℕ} (h : ∀ k < n, ∃ a, f k = .ok a) :
    ∃ l, (List.range n).mapM f = .ok l ∧ l.length = n ∧ ∀ (k : ℕ) (a : α), k < n → f k = .ok a → l[k]? = some a := by
  have key : ∀ (j m : ℕ), m + j ≤ n → ∃ l, (List.range' m j).mapM f = .ok l ∧ l.length = j ∧
      ∀ (k : ℕ) (a : α), k < j → f (m + k) = .ok a → l[k]? = some a := by
    intro j
    induction j with
    | zero => intro m _; exact ⟨[], rfl, rfl, fun k a hk => by omega⟩
    | succ j ih =>
      intro m hm
      obtain ⟨a, ha⟩ := h m (by omega)
      obtain ⟨l, h1, h2, h3⟩ := ih (m + 1) (by omega)
      refine ⟨a :: l, ?_, by simp [h2], ?_⟩
      · rw [List.range'_succ, List.mapM_cons, ha, h1]
        rfl
      · intro k a' hk hfa
        cases k with
        | zero => simp at hfa; rw [ha] at hfa; cases hfa; rfl
        | succ k =>
          rw [List.getElem?_cons_succ]
          exact h3 k a' (by omega) (by rw [← hfa]; congr 1; omega)
  obtain ⟨l, h1, h2, h3⟩ := key n 0 (by omega)
  refine ⟨l, by rw [List.range_eq_range']; exact h1, h2, fun k a hk hf => h3 k a hk (by simpa using hf)⟩

/-- The number of the target of camera `cam` that belongs to the particle. -/
def Particle.target (p : Particle) (cam : ℕ) : Option ℤ := [p.p0, p.p1, p.p2, p.p3][cam]?

/-- C87: `positions` and `target_positions_for_camera` have one row for each particle, in the same order: its position,
and the image position of its target in the camera, or NaN if it has none. -/
theorem C87_positions (f : DFrame) (cam : ℕ) (hc : cam < 4) (ts : List Target) (hts : f.targets[cam]? = some ts)
    (hnum : f.numParts ≤ f.parts.length)
    (hv : ∀ p ∈ f.parts.take f.numParts, ∀ t, p.target cam = some t → t = -1 ∨ (0 ≤ t ∧ t < ts.length)) :
    ∃ xs us, f.positions = .ok xs ∧ f.targetPositions cam = .ok us ∧ xs.length = f.numParts ∧ us.length = f.numParts ∧
      ∀ (k : ℕ) (p : Particle), k < f.numParts → f.parts[k]? = some p →
        xs[k]? = some (p.x, p.y, p.z) ∧
        ∃ t, p.target cam = some t ∧ (t = -1 → us[k]? = some none) ∧
          (t ≠ -1 → ∃ u, ts[t.toNat]? = some u ∧ us[k]? = some (some (u.x, u.y))) := by
  have hpart : ∀ k < f.numParts, ∃ p, f.parts[k]? = some p := fun k hk =>
    ⟨_, List.getElem?_eq_getElem (by omega)⟩
  have hrow : ∀ (k : ℕ) (p : Particle), k < f.numParts → f.parts[k]? = some p → ∃ t, p.target cam = some t ∧
      ((t = -1 ∧ targetPosition f cam k = .ok none) ∨ (t ≠ -1 ∧ ∃ u, ts[t.toNat]? = some u ∧
        targetPosition f cam k = .ok (some (u.x, u.y)))) := by
    intro k p hk hp
    obtain ⟨t, ht⟩ : ∃ t, p.target cam = some t := ⟨_, List.getElem?_eq_getElem (by simpa using hc)⟩
    refine ⟨t, ht, ?_⟩
    have hcorr : p.corr cam = .ok t := pyGet_eq ht
    rcases hv p (List.mem_of_getElem? (i := k) (by rw [List.getElem?_take, if_pos hk]; exact hp)) t ht with h | ⟨h0, h1⟩
    · left
      refine ⟨h, ?_⟩
      simp [targetPosition, pyGet_eq hp, hcorr, bind, Except.bind, h]
    · right
      obtain ⟨u, hu⟩ : ∃ u, ts[t.toNat]? = some u := ⟨_, List.getElem?_eq_getElem (by omega)⟩
      have hne : t ≠ -1 := by omega
      refine ⟨hne, u, hu, ?_⟩
      have : pyGetI ts t = .ok u := by
        unfold pyGetI
        rw [if_pos h0]
        exact pyGet_eq hu
      simp [targetPosition, pyGet_eq hp, hcorr, bind, Except.bind, hne, pyGet_eq hts, this]
  obtain ⟨xs, x1, x2, x3⟩ := mapM_range_ok (n := f.numParts) (f := fun pt => do
    let p ← pyGet f.parts pt
    .ok (p.x, p.y, p.z)) (fun k hk => by
      obtain ⟨p, hp⟩ := hpart k hk
      exact ⟨(p.x, p.y, p.z), by simp [pyGet_eq hp, bind, Except.bind]⟩)
  obtain ⟨us, u1, u2, u3⟩ := mapM_range_ok (n := f.numParts) (f := targetPosition f cam) (fun k hk => by
      obtain ⟨p, hp⟩ := hpart k hk
      obtain ⟨t, -, ⟨-, h⟩ | ⟨-, u, -, h⟩⟩ := hrow k p hk hp
      · exact ⟨_, h⟩
      · exact ⟨_, h⟩)
  refine ⟨xs, us, x1, u1, x2, u2, ?_⟩
  intro k p hk hp
  refine ⟨x3 k _ hk (by simp [pyGet_eq hp, bind, Except.bind]), ?_⟩
  obtain ⟨t, ht, h⟩ := hrow k p hk hp
  refine ⟨t, ht, ?_, ?_⟩
  · intro h1
    rcases h with ⟨-, h⟩ | ⟨h, -⟩
    · exact u3 k _ hk h
    · exact absurd h1 h
  · intro h1
    rcases h with ⟨h, -⟩ | ⟨-, u, hu, h⟩
    · exact absurd h h1
    · exact ⟨u, hu, u3 k _ hk h⟩

example : (∃ ts, demoFrame.targets[0]? = some ts ∧ demoFrame.numParts ≤ demoFrame.parts.length ∧
      ∀ p ∈ demoFrame.parts.take demoFrame.numParts, ∀ t, p.target 0 = some t → t = -1 ∨ (0 ≤ t ∧ t < ts.length)) ∧
    demoFrame.targetPositions 0 = .ok [some (1127, 7948 / 10), some (-3 / 100001, 105 / 100000)] := by
  refine ⟨⟨twoTargets, rfl, by decide +kernel, ?_⟩, by decide +kernel⟩
  intro p hp t ht
  simp only [demoFrame, twoParticles, List.take_succ_cons, List.take_zero, List.mem_cons, List.not_mem_nil, or_false] at hp
  rcases hp with rfl | rfl <;> simp [Particle.target] at ht <;> subst ht <;> right <;> decide +kernel

end Verif.IO
