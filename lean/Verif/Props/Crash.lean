/-
C146: the process is killed while it writes a frame (tracking_frame_buf.py `write_path_frame`, `write_targets`, `Frame.write`).
-/
import Verif.Proofs.CutText
import Verif.Props.StoreRun

set_option linter.unusedSimpArgs false

namespace Verif.IO
open Text Spec

/-! ### The files -/

/-- C146: the operations one after the other are the write as a whole (`C85`): the same files, the same result. -/
theorem C146_same (fs : FS) (f : DFrame) (cb lb pb : List Char) (tb : List (List Char)) (frame : ℤ) (hcl : cb ≠ lb) (hcp : cb ≠ pb)
    (hlp : lb ≠ pb) (hp : pb ≠ []) (hnum : f.numParts ≤ f.parts.length) :
    runOps fs (f.ops cb lb pb tb frame).1 = (f.write fs cb lb pb tb frame).1 ∧
    (f.ops cb lb pb tb frame).2 = (f.write fs cb lb pb tb frame).2 := by
  obtain ⟨fs1, e1⟩ : ∃ fs1, writePathFrame fs f.parts f.numParts cb lb pb frame = .ok fs1 := by
    rw [writePathFrame, if_neg hp, if_neg (by omega)]; exact ⟨_, rfl⟩
  obtain ⟨h1, h2⟩ := pathOps_run hcl hcp hlp e1
  have h3 := camsOps_run f tb frame (List.range f.targets.length) fs1
  rw [Prod.ext_iff] at h3
  unfold DFrame.ops DFrame.write
  rw [e1]
  rcases e : pathOps f.parts f.numParts cb lb pb frame with ⟨o, x⟩
  rw [e] at h1 h2
  simp only at h1 h2
  subst h2
  simp only
  rw [runOps_append, h1]
  exact h3

theorem ops_eq {f : DFrame} {cb lb pb : List Char} {tb : List (List Char)} {frame : ℤ} (hp : pb ≠ [])
    (hnum : f.numParts ≤ f.parts.length) : (f.ops cb lb pb tb frame).1 =
    (pathOps f.parts f.numParts cb lb pb frame).1 ++ (camsOps f tb frame (List.range f.targets.length)).1 := by
  have : (pathOps f.parts f.numParts cb lb pb frame).2 = .ok () := by
    simp [pathOps, hp, show ¬ f.parts.length < f.numParts by omega]
  unfold DFrame.ops
  rcases e : pathOps f.parts f.numParts cb lb pb frame with ⟨o, x⟩
  rw [e] at this
  simp only at this
  subst this
  rfl

theorem path_ne_cam {ps : List Particle} {num : ℕ} {cb lb pb x b : List Char} {frame frame' : ℤ} {o : FOp}
    (h : o ∈ (pathOps ps num cb lb pb frame).1) (hb : writeName b frame' = .ok x) : o.name ≠ x := by
  obtain ⟨s, rfl⟩ := writeName_suffix hb
  rcases pathOps_names h with e | e | e <;> rw [e] <;> exact frameName_ne_suffix _ _ _

/-- C146: the process is killed at any point while a frame is written. Every file is as before, or a beginning of what the complete
write makes of it. (Also if the write raises for a camera without targets.) -/
theorem C146_files (fs fs' : FS) (f : DFrame) (cb lb pb : List Char) (tb : List (List Char)) (frame : ℤ) (hcl : cb ≠ lb)
    (hcp : cb ≠ pb) (hlp : lb ≠ pb) (hp : pb ≠ []) (hnum : f.numParts ≤ f.parts.length)
    (hdis : ∀ (i j : ℕ) (b b' : List Char), i ≠ j → tb[i]? = some b → tb[j]? = some b' →
      ∀ x, writeName b frame = .ok x → writeName b' frame ≠ .ok x)
    (hk : Killed fs (f.ops cb lb pb tb frame).1 fs') (name : List Char) :
    fs' name = fs name ∨ ∃ text cut, (f.write fs cb lb pb tb frame).1 name = some text ∧ fs' name = some (text.take cut) := by
  have ho : Once (f.ops cb lb pb tb frame).1 := by
    rw [ops_eq hp hnum]
    refine (pathOps_once hp hnum hcl hcp hlp).append (camsOps_once hdis _ List.nodup_range) ?_
    intro a ha b hb
    obtain ⟨c, -, t, -, h⟩ := camsOps_names hb
    exact path_ne_cam ha h
  rw [← (C146_same fs f cb lb pb tb frame hcl hcp hlp hp hnum).1]
  rcases ho name with h | ⟨rest, h, hr⟩
  · left
    refine killed_other (fun o hm e => ?_) hk
    have : o ∈ onName name (f.ops cb lb pb tb frame).1 := List.mem_filter.2 ⟨hm, by simpa using e⟩
    rw [h] at this
    simp at this
  · exact killed_session h hr hk

theorem openAfter_append_false {a b : List FOp} {n : List Char} (ha : openAfter a n = false) (hb : openAfter b n = false) :
    openAfter (a ++ b) n = false := by
  unfold openAfter at *
  rw [List.foldl_append, ha, hb]

theorem camOps_closed (f : DFrame) (tb : List (List Char)) (frame : ℤ) (cam : ℕ) (n : List Char) :
    openAfter (camOps f tb frame cam).1 n = false := by
  unfold camOps
  split
  · rfl
  · unfold targetOps
    split
    · rfl
    · rename_i name _
      have key : ∀ ops : List FOp, (∀ o ∈ ops, o.name = name) → openAfter (ops ++ [.close name]) n = false := by
        intro ops ho
        by_cases e : n = name
        · subst e; exact openAfter_append_close ops n
        · rw [openAfter_onName, onName_nil_of]
          · rfl
          · intro o h
            rcases List.mem_append.1 h with h | h
            · rw [ho o h]; exact Ne.symm e
            · rw [List.mem_singleton.1 h]; exact Ne.symm e
      split_ifs
      · exact key [.start name] (by simp [FOp.name])
      · refine key (.start name :: .put name _ :: _) ?_
        intro o h
        simp only [List.mem_cons, List.mem_map] at h
        rcases h with rfl | rfl | ⟨t, -, rfl⟩ <;> rfl

theorem camsOps_closed (f : DFrame) (tb : List (List Char)) (frame : ℤ) (n : List Char) : ∀ cams : List ℕ,
    openAfter (camsOps f tb frame cams).1 n = false
  | [] => rfl
  | cam :: cams => by
    have h := camOps_closed f tb frame cam n
    unfold camsOps
    rcases e : camOps f tb frame cam with ⟨o, x | (_ | _)⟩ <;> rw [e] at h
    · exact h
    · exact h
    · exact openAfter_append_false h (camsOps_closed f tb frame n cams)

theorem pathOps_closed {ps : List Particle} {num : ℕ} {cb lb pb : List Char} {frame : ℤ} (hp : pb ≠ []) (hn : num ≤ ps.length)
    (hcl : cb ≠ lb) (hcp : cb ≠ pb) (hlp : lb ≠ pb) (n : List Char) : openAfter (pathOps ps num cb lb pb frame).1 n = false := by
  obtain ⟨h1, h2, h3⟩ := pathOps_on (frame := frame) hp hn hcl hcp hlp
  rw [openAfter_onName]
  by_cases e1 : n = frameName cb frame
  · subst e1; rw [h1, ← List.cons_append]; exact openAfter_append_close _ _
  by_cases e2 : n = frameName lb frame
  · subst e2; rw [h2, ← List.cons_append]; exact openAfter_append_close _ _
  by_cases e3 : n = frameName pb frame
  · subst e3; rw [h3, ← List.cons_append]; exact openAfter_append_close _ _
  · rw [onName_nil_of]
    · rfl
    · intro o ho h
      rcases pathOps_names ho with h' | h' | h' <;> rw [h] at h' <;> contradiction

/-- C146: the targets files are written after the path files, in the order of the cameras: if the targets file of a camera is not as
before, the path files and the targets files of the cameras before it are complete. -/
theorem C146_order (fs fs' : FS) (f : DFrame) (cb lb pb : List Char) (tb : List (List Char)) (frame : ℤ) (hcl : cb ≠ lb)
    (hcp : cb ≠ pb) (hlp : lb ≠ pb) (hp : pb ≠ []) (hnum : f.numParts ≤ f.parts.length)
    (hdis : ∀ (i j : ℕ) (b b' : List Char), i ≠ j → tb[i]? = some b → tb[j]? = some b' →
      ∀ x, writeName b frame = .ok x → writeName b' frame ≠ .ok x)
    (hk : Killed fs (f.ops cb lb pb tb frame).1 fs') (j : ℕ) (hj : j < f.targets.length) (b' x' : List Char)
    (hb' : tb[j]? = some b') (hx' : writeName b' frame = .ok x') (hch : fs' x' ≠ fs x') :
    (∀ base ∈ [cb, lb, pb], fs' (frameName base frame) = (f.write fs cb lb pb tb frame).1 (frameName base frame)) ∧
    ∀ (i : ℕ) (b x : List Char), i < j → tb[i]? = some b → writeName b frame = .ok x →
      fs' x = (f.write fs cb lb pb tb frame).1 x := by
  rw [← (C146_same fs f cb lb pb tb frame hcl hcp hlp hp hnum).1]
  rw [ops_eq hp hnum] at hk ⊢
  constructor
  · intro base hbase
    refine killed_order (n2 := x') (fun o ho => path_ne_cam ho hx') ?_ (pathOps_closed hp hnum hcl hcp hlp _) hk hch
    intro o ho h
    obtain ⟨c, -, t, -, h'⟩ := camsOps_names ho
    obtain ⟨s, e⟩ := writeName_suffix h'
    rw [h] at e
    exact frameName_ne_suffix _ _ _ e
  · intro i b x hi hb hx
    have hr : List.range f.targets.length = List.range' 0 (i + 1) ++ List.range' (i + 1) (f.targets.length - (i + 1)) := by
      have := List.range'_append (s := 0) (m := i + 1) (n := f.targets.length - (i + 1)) (step := 1)
      simp only [Nat.zero_add, Nat.one_mul] at this
      rw [this, List.range_eq_range']
      congr 1
      omega
    obtain ⟨B, hB, hBn⟩ := camsOps_append (f := f) (tb := tb) (frame := frame) (List.range' 0 (i + 1))
      (List.range' (i + 1) (f.targets.length - (i + 1)))
    rw [hr, hB, ← List.append_assoc] at hk ⊢
    refine killed_order (n2 := x') ?_ ?_ (openAfter_append_false (pathOps_closed hp hnum hcl hcp hlp _) (camsOps_closed ..)) hk hch
    · intro o ho
      rcases List.mem_append.1 ho with ho | ho
      · exact path_ne_cam ho hx'
      · obtain ⟨c, hc, t, ht, h⟩ := camsOps_names ho
        rw [List.mem_range'_1] at hc
        intro e
        rw [e] at h
        exact hdis c j t b' (by omega) ht hb' x' h hx'
    · intro o ho
      obtain ⟨c, hc, t, ht, h⟩ := hBn o ho
      rw [List.mem_range'_1] at hc
      intro e
      rw [e] at h
      exact hdis c i t b (by omega) ht hb x h hx

theorem ops_names {f : DFrame} {cb lb pb : List Char} {tb : List (List Char)} {frame : ℤ} {o : FOp}
    (h : o ∈ (f.ops cb lb pb tb frame).1) :
    (o.name = frameName cb frame ∨ o.name = frameName lb frame ∨ o.name = frameName pb frame) ∨
    ∃ b ∈ tb, writeName b frame = .ok o.name := by
  have hp := fun o => pathOps_names (ps := f.parts) (num := f.numParts) (cb := cb) (lb := lb) (pb := pb) (frame := frame) (o := o)
  unfold DFrame.ops at h
  rcases e : pathOps f.parts f.numParts cb lb pb frame with ⟨o', x | x⟩ <;> rw [e] at h hp
  · exact Or.inl (hp o h)
  · rcases List.mem_append.1 h with h | h
    · exact Or.inl (hp o h)
    · obtain ⟨c, -, b, hb, h⟩ := camsOps_names h
      exact Or.inr ⟨b, List.mem_of_getElem? hb, h⟩

/-- C146: whatever is left of frame `n`, every other frame reads as before. -/
theorem C146_other_frames (fs fs' : FS) (f g : DFrame) (cb lb pb cb' lb' pb' : List Char) (tb : List (List Char)) (n m : ℤ)
    (hn : 0 < n) (hm : 0 < m) (hnm : n ≠ m) (hfmt : ∀ b ∈ tb, '%' ∈ b ∧ '#' ∉ b)
    (hdis : ∀ b ∈ tb, ∀ b' ∈ tb, b ≠ b' → ∀ x, writeName b n = .ok x → writeName b' m ≠ .ok x)
    (hk : Killed fs (f.ops cb lb pb tb n).1 fs') :
    g.read fs' cb' lb' pb' tb m = g.read fs cb' lb' pb' tb m := by
  have hpath : ∀ base : List Char, fs' (frameName base m) = fs (frameName base m) := by
    intro base
    refine killed_other (fun o ho e => ?_) hk
    rcases ops_names ho with (h | h | h) | ⟨b, -, h⟩
    · rw [e] at h; exact hnm (frameName_inj h).2.symm
    · rw [e] at h; exact hnm (frameName_inj h).2.symm
    · rw [e] at h; exact hnm (frameName_inj h).2.symm
    · obtain ⟨s, h⟩ := writeName_suffix h
      rw [e] at h
      exact frameName_ne_suffix _ _ _ h
  have hcam : ∀ cam, readCam fs' tb m cam = readCam fs tb m cam := by
    intro cam
    unfold readCam
    cases hb : tb[cam]? with
    | none => simp [pyGet, hb, bind, Except.bind]
    | some b =>
      simp only [pyGet_eq hb, bind, Except.bind]
      have hbm := List.mem_of_getElem? hb
      have e := readName_eq_writeName (hfmt b hbm).1 (hfmt b hbm).2 hm
      cases hn' : writeName b m with
      | error e' =>
        simp only [readTargets, e, hn', bind, Except.bind]
      | ok name =>
        refine readTargets_congr (name := name) (by rw [e, hn']) (killed_other (fun o ho e => ?_) hk)
        obtain ⟨s, hs⟩ := writeName_suffix hn'
        rcases ops_names ho with (h | h | h) | ⟨b', hb', h⟩
        · rw [e, hs] at h; exact frameName_ne_suffix _ _ _ h.symm
        · rw [e, hs] at h; exact frameName_ne_suffix _ _ _ h.symm
        · rw [e, hs] at h; exact frameName_ne_suffix _ _ _ h.symm
        · rw [e] at h
          by_cases hbb : b' = b
          · subst hbb
            exact hnm (writeName_inj hn hm h hn')
          · exact hdis b' hb' b hbm hbb name h hn'
  have hcams : ∀ (l : List ℕ) (g : DFrame), readCams fs' tb m l g = readCams fs tb m l g := by
    intro l
    induction l with
    | nil => intro g; rfl
    | cons c l ih =>
      intro g
      unfold readCams
      rw [hcam c]
      cases readCam fs tb m c with
      | error e => rfl
      | ok ts => exact ih _
  unfold DFrame.read
  rw [readPathFrame_congr (hpath cb') (fun _ => hpath lb') (fun _ => hpath pb')]
  cases readPathFrame fs cb' lb' pb' m with
  | error e => rfl
  | ok ps => exact hcams _ _

/-! ### What is read of the frame -/

/-- A beginning of a targets file. -/
theorem cut_targets (ts : List Target) (h0 : ts ≠ []) (cut : ℕ) (hc : cut < (targetsText ts ts.length).length) :
    readTargetsText ((targetsText ts ts.length).take cut) = .error .valueError ∨
    ∃ front last v, ts = front ++ [last] ∧ readTargetsText ((targetsText ts ts.length).take cut) =
      .ok (front.map Target.rounded ++ [{ last.rounded with tnr := v }]) := by
  have hpos : 0 < ts.length := List.length_pos_of_ne_nil h0
  have hnl : '\n' ∉ intStr (ts.length : ℤ) := (intStr_word _).no_nl
  rw [targetsText] at hc ⊢
  rw [readTargetsText]
  by_cases hk : cut ≤ (intStr (ts.length : ℤ)).length
  · left
    rw [List.take_append_of_le_length hk, readline_no_nl fun h => hnl (List.mem_of_mem_take h)]
    simp only
    rcases pyInt_cut ts.length cut hpos with e | ⟨v, hv, e⟩ <;> rw [e]
    · rfl
    · simp only [bind, Except.bind, Int.toNat_natCast]
      obtain ⟨w, rfl⟩ : ∃ w, v = w + 1 := ⟨v - 1, by omega⟩
      exact readTargetRows_nil w
  · obtain ⟨m, hm⟩ : ∃ m, cut - (intStr (ts.length : ℤ)).length = m + 1 := ⟨cut - (intStr (ts.length : ℤ)).length - 1, by omega⟩
    rw [List.take_append, List.take_of_length_le (by omega), hm, List.take_succ_cons, readline_line hnl]
    simp only [pyInt_intStr, bind, Except.bind, Int.toNat_natCast]
    exact readTargetRows_cut ts m (by simp only [List.length_append, List.length_cons] at hc; omega)

/-- C146: the process is killed while `write_targets` writes the targets of a camera. Reading them then gives what it gave before, or
an exception, or the targets that were being written, up to the precision of the file and except for the `tnr` of the last one. -/
theorem C146_targets_read (fs fs' : FS) (ts : List Target) (h0 : ts ≠ []) (base : List Char) (frame : ℤ) (hf : 0 < frame)
    (h4 : '%' ∈ base) (h5 : '#' ∉ base) (hk : Killed fs (targetOps ts ts.length base frame).1 fs') :
    readTargets fs' base frame = readTargets fs base frame ∨ readTargets fs' base frame = .error .valueError ∨
    ∃ us, readTargets fs' base frame = .ok us ∧ us.length = ts.length ∧
      ∀ (k : ℕ) (t u : Target), ts[k]? = some t → us[k]? = some u →
        SameTarget t { u with tnr := t.tnr } ∧ (k + 1 < ts.length → u.tnr = t.tnr) := by
  have hname := readName_eq_writeName h4 h5 hf
  cases hn : writeName base frame with
  | error e => left; simp only [readTargets, hname, hn, bind, Except.bind]
  | ok name =>
    have hr : ∀ fs2 : FS, readTargets fs2 base frame = (fs2.read name >>= readTargetsText) := by
      intro fs2
      simp only [readTargets, hname, hn, bind, Except.bind]
    have hw := targetOps_run ts ts.length base frame fs
    rw [Prod.ext_iff] at hw
    have hw1 : runOps fs (targetOps ts ts.length base frame).1 name = some (targetsText ts ts.length) := by
      rw [show runOps fs (targetOps ts ts.length base frame).1 = (writeTargets fs ts ts.length base frame).1 from hw.1]
      simp [writeTargets, hn, h0, FS.write]
    have hfull : ∃ us, readTargetsText (targetsText ts ts.length) = .ok us ∧ us.length = ts.length ∧
      ∀ (k : ℕ) (t u : Target), ts[k]? = some t → us[k]? = some u →
        SameTarget t { u with tnr := t.tnr } ∧ (k + 1 < ts.length → u.tnr = t.tnr) := by
      refine ⟨_, readTargetsText_ok ts ts.length (le_refl _), by simp, ?_⟩
      intro k t u ht hu
      simp only [List.take_length, List.getElem?_map, ht, Option.map_some, Option.some.injEq] at hu
      subst hu
      exact ⟨sameTarget_rounded t, fun _ => rfl⟩
    have hcase : fs' name = fs name ∨ ∃ text cut, runOps fs (targetOps ts ts.length base frame).1 name = some text ∧
        fs' name = some (text.take cut) := by
      rcases targetOps_once ts ts.length base frame name with h | ⟨rest, h, hr⟩
      · left
        refine killed_other (fun o hm e => ?_) hk
        have : o ∈ onName name (targetOps ts ts.length base frame).1 := List.mem_filter.2 ⟨hm, by simpa using e⟩
        rw [h] at this
        simp at this
      · exact killed_session h hr hk
    rcases hcase with h | ⟨text, cut, h, h'⟩
    · left
      rw [hr, hr, FS.read, FS.read, h]
    · right
      rw [hw1] at h
      cases h
      have hr' : readTargets fs' base frame = readTargetsText ((targetsText ts ts.length).take cut) := by
        rw [hr, FS.read, h']
        rfl
      rw [hr']
      by_cases hc : cut < (targetsText ts ts.length).length
      · rcases cut_targets ts h0 cut hc with e | ⟨front, last, v, e1, e2⟩
        · exact Or.inl e
        · right
          refine ⟨_, e2, by rw [e1]; simp, ?_⟩
          intro k t u ht hu
          rw [e1] at ht
          by_cases hk : k < front.length
          · rw [List.getElem?_append_left hk] at ht
            rw [List.getElem?_append_left (by simpa using hk), List.getElem?_map, ht] at hu
            simp only [Option.map_some, Option.some.injEq] at hu
            subst hu
            exact ⟨sameTarget_rounded t, fun _ => rfl⟩
          · have hkl : k = front.length := by
              have := (List.getElem?_eq_some_iff.1 ht).1
              simp at this
              omega
            subst hkl
            simp at ht
            rw [List.getElem?_append_right (by simp)] at hu
            simp at hu
            subst ht hu
            refine ⟨sameTarget_rounded last, fun h => ?_⟩
            rw [e1] at h
            simp at h
      · rw [List.take_of_length_le (by omega)]
        exact Or.inr hfull

/-- C146: if the file was cut at the end of a line, reading it raises an exception. -/
theorem C146_lines_read (fs : FS) (ts : List Target) (base name : List Char) (frame : ℤ) (j : ℕ) (hj : j < ts.length) (hf : 0 < frame)
    (h4 : '%' ∈ base) (h5 : '#' ∉ base) (hn : writeName base frame = .ok name)
    (h : fs name = some (intStr ts.length ++ '\n' :: (ts.take j).flatMap fun t => targetRow t ++ ['\n'])) :
    readTargets fs base frame = .error .valueError := by
  simp only [readTargets, readName_eq_writeName h4 h5 hf, hn, bind, Except.bind, FS.read, h, readTargetsText,
    readline_line (intStr_word (ts.length : ℤ)).no_nl, pyInt_intStr, Int.toNat_natCast]
  exact readTargetRows_lines ts j hj

/-- Reading fills every row of complete files: there the two models of `read_path_frame` agree. -/
theorem C146_complete (junk : ℕ → ℤ × ℤ × ℤ × ℤ × ℤ) (fs fs' : FS) (ps : List Particle) (num : ℕ) (cb lb pb : List Char) (frame : ℤ)
    (hcl : cb ≠ lb) (hcp : cb ≠ pb) (hlp : lb ≠ pb) (hl : lb ≠ [])
    (h : writePathFrame fs ps num cb lb pb frame = .ok fs') :
    readPathAll junk fs' cb lb pb frame = readPathFrame fs' cb lb pb frame := by
  unfold writePathFrame at h
  split_ifs at h with hp hn
  cases h
  have hr : readRows ((ps.take num).zipIdx.map fun t => corresRow t.2 t.1) (some ((ps.take num).map linkageRow))
      (some ((ps.take num).map prioRow)) 0 num = _ := readRows_rows true true (ps.take num) 0 num (by simp)
  rw [readPathAll, readPathFrame]
  simp only [FS.write, if_neg (frameName_ne hcp frame), if_neg (frameName_ne hcl frame), if_true,
    table_corres, List.headD_cons, pyInt_intStr, bind, Except.bind, openOptional, if_neg hl, if_neg hp,
    if_neg (frameName_ne hlp frame), table_linkage, table_prio, List.tail_cons, Int.toNat_natCast, hr]
  rw [if_neg (by omega)]
  simp [show min num ps.length = num by omega]

/-- C146: if the correspondence file is cut after `j` lines, a forward run reads it without an exception: the first `j` particles, and
for the others particles at the origin that have no links. -/
theorem C146_cut_paths (junk : ℕ → ℤ × ℤ × ℤ × ℤ × ℤ) (fs : FS) (ps : List Particle) (cb : List Char) (frame : ℤ) (j : ℕ)
    (hj : j ≤ ps.length)
    (h : fs (frameName cb frame) = some (intStr ps.length ++ '\n' ::
      (ps.take j).zipIdx.flatMap fun t => corresRow t.2 t.1 ++ ['\n'])) :
    ∃ ts, readPathAll junk fs cb [] [] frame = .ok ts ∧ ts.length = ps.length ∧
      (∀ (k : ℕ) (t u : Particle), k < j → ps[k]? = some t → ts[k]? = some u →
        Rounded 3 t.x u.x ∧ Rounded 3 t.y u.y ∧ Rounded 3 t.z u.z ∧ u.p0 = t.p0 ∧ u.p1 = t.p1 ∧ u.p2 = t.p2 ∧ u.p3 = t.p3) ∧
      ∀ (k : ℕ) (u : Particle), j ≤ k → ts[k]? = some u → u.x = 0 ∧ u.y = 0 ∧ u.z = 0 ∧ u.prev = -1 ∧ u.next = -2 := by
  have ht : intStr (ps.length : ℤ) ++ '\n' :: ((ps.take j).zipIdx.flatMap fun t => corresRow t.2 t.1 ++ ['\n']) =
      table ps.length ((ps.take j).zipIdx.map fun t => corresRow t.2 t.1) := by
    rw [table, List.flatMap_map]
  have hr : readRows ((ps.take j).zipIdx.map fun t => corresRow t.2 t.1) none none 0 ps.length = _ :=
    readRows_rows false false (ps.take j) 0 ps.length (by simp)
  rw [ht] at h
  refine ⟨((ps.take j).zipIdx.map fun t => readBack false false t.2 t.1) ++
    (List.range' j (ps.length - j)).map (unfilled junk), ?_, ?_, ?_, ?_⟩
  · rw [readPathAll, h]
    simp only [table_corres, List.headD_cons, pyInt_intStr, bind, Except.bind, openOptional, if_true, List.tail_cons,
      Int.toNat_natCast, hr]
    rw [if_neg (by omega)]
    simp [show min j ps.length = j by omega]
  · simp [show min j ps.length = j by omega]
    omega
  · intro k t u hk ht hu
    rw [List.getElem?_append_left (by simp; omega), List.getElem?_map, List.getElem?_zipIdx, List.getElem?_take, if_pos hk, ht] at hu
    simp only [Option.map_some, Option.some.injEq, zero_add] at hu
    subst hu
    exact ⟨rnd_rounded 3 t.x, rnd_rounded 3 t.y, rnd_rounded 3 t.z, rfl, rfl, rfl, rfl⟩
  · intro k u hk hu
    rw [List.getElem?_append_right (by simp; omega), List.getElem?_map] at hu
    simp only [Option.map_eq_some_iff] at hu
    obtain ⟨a, -, rfl⟩ := hu
    exact ⟨rfl, rfl, rfl, rfl, rfl⟩

/-- C146, refuted for what a user expects: the process can be killed such that a forward run afterwards reads the frame without any
exception, with the announced number of particles, all of them at the origin: the positions that were there before are lost. -/
theorem C146_particles_lost_refuted (fs : FS) (f : DFrame) (cb lb pb : List Char) (tb : List (List Char)) (frame : ℤ)
    (hp : pb ≠ []) (hnum : f.numParts ≤ f.parts.length) :
    ∃ fs', Killed fs (f.ops cb lb pb tb frame).1 fs' ∧ (∀ name, name ≠ frameName cb frame → fs' name = fs name) ∧
      ∀ junk, ∃ ts, readPathAll junk fs' cb [] [] frame = .ok ts ∧ ts.length = f.numParts ∧
        ∀ u ∈ ts, u.x = 0 ∧ u.y = 0 ∧ u.z = 0 := by
  set c := frameName cb frame with hc
  have hops : (f.ops cb lb pb tb frame).1.take 2 = [FOp.start c, .put c (intStr f.numParts ++ ['\n'])] := by
    rw [ops_eq hp hnum]
    simp [pathOps, hp, show ¬ f.parts.length < f.numParts by omega, ← hc]
  refine ⟨fs.write c (intStr f.numParts ++ ['\n']), ⟨2, fun name => ?_⟩, fun name h => by simp [FS.write, h], fun junk => ?_⟩
  · rw [hops]
    have hrun : runOps fs [FOp.start c, .put c (intStr f.numParts ++ ['\n'])] name = fs.write c (intStr f.numParts ++ ['\n']) name := by
      by_cases e : name = c <;> simp [runOps, FOp.act, FS.write, e]
    rw [hrun]
    refine ⟨fun _ => rfl, fun ho => ?_⟩
    have : name = c := by
      by_contra e
      simp [openAfter, FOp.opens, Ne.symm e] at ho
    subst this
    exact ⟨(intStr f.numParts ++ ['\n']).length, by simp [FS.write]⟩
  · have hlen : ((f.parts.take f.numParts).length : ℤ) = f.numParts := by simp; omega
    obtain ⟨ts, h1, h2, -, h4⟩ := C146_cut_paths junk (fs.write c (intStr f.numParts ++ ['\n'])) (f.parts.take f.numParts) cb frame 0
      (by omega) (by rw [hlen]; simp [FS.write, ← hc])
    refine ⟨ts, h1, by rw [h2]; simp; omega, ?_⟩
    intro u hu
    obtain ⟨k, hk⟩ := List.getElem?_of_mem hu
    obtain ⟨a, b, c, -⟩ := h4 k u (by omega) hk
    exact ⟨a, b, c⟩

/-! ### Examples -/

/-- The files if the process is killed after `k` operations, and of file `n0`, which is open then, `cut` characters are on the disk. -/
theorem killed_at (fs : FS) (ops : List FOp) (k cut : ℕ) (n0 : List Char) (ho : openAfter (ops.take k) n0 = true) :
    Killed fs ops fun name => if name = n0 then (runOps fs (ops.take k) name).map (List.take cut) else runOps fs (ops.take k) name := by
  refine ⟨k, fun name => ⟨fun h => ?_, fun h => ?_⟩⟩
  · have : name ≠ n0 := fun e => by rw [e, ho] at h; cases h
    simp [this]
  · by_cases e : name = n0
    · exact ⟨cut, by simp [e]⟩
    · cases hr : runOps fs (ops.take k) name with
      | none => exact ⟨0, by simp [e, hr]⟩
      | some t => exact ⟨t.length, by simp [e, hr]⟩

/-- Files with an older frame 7. -/
def oldFiles : FS := fun name => if name = "cam2.0007_targets".toList ∨ name = "rt_is.7".toList then some "0\n".toList else none

/-- The example frame (two particles, two cameras): killed in the targets file of the second camera, of which four characters are on
the disk. -/
def demoKilled : FS :=
  let ops := (demoFrame.ops "rt_is".toList "ptv_is".toList "added".toList demoTb 7).1.take 23
  fun name => if name = "cam2.0007_targets".toList then (runOps oldFiles ops name).map (List.take 4) else runOps oldFiles ops name

theorem demo_killed : Killed oldFiles (demoFrame.ops "rt_is".toList "ptv_is".toList "added".toList demoTb 7).1 demoKilled :=
  killed_at oldFiles _ 23 4 _ (by decide +kernel)

theorem demo_dis : ∀ (i j : ℕ) (b b' : List Char), i ≠ j → demoTb[i]? = some b → demoTb[j]? = some b' →
    ∀ x, writeName b 7 = .ok x → writeName b' 7 ≠ .ok x :=
  fun i j b b' h hi hj x h1 h2 => demo_names 7 7 (Or.inl ⟨rfl, rfl⟩) i j b b' (Or.inl h) hi hj (by rw [h1, h2])

example : demoKilled "cam2.0007_targets".toList = some "1\n  ".toList ∧
    (∀ name, demoKilled name = oldFiles name ∨ ∃ text cut,
      (demoFrame.write oldFiles "rt_is".toList "ptv_is".toList "added".toList demoTb 7).1 name = some text ∧
      demoKilled name = some (text.take cut)) ∧
    (∀ base ∈ ["rt_is".toList, "ptv_is".toList, "added".toList], demoKilled (frameName base 7) =
      (demoFrame.write oldFiles "rt_is".toList "ptv_is".toList "added".toList demoTb 7).1 (frameName base 7)) ∧
    demoKilled "cam1.0007_targets".toList =
      (demoFrame.write oldFiles "rt_is".toList "ptv_is".toList "added".toList demoTb 7).1 "cam1.0007_targets".toList := by
  have e1 : demoKilled "cam2.0007_targets".toList = some "1\n  ".toList := by decide +kernel
  obtain ⟨h1, h2⟩ := C146_order oldFiles demoKilled demoFrame "rt_is".toList "ptv_is".toList "added".toList demoTb 7 (by decide)
    (by decide) (by decide) (by decide) (by decide +kernel) demo_dis demo_killed 1 (by decide +kernel) "cam2.%04d".toList
    "cam2.0007_targets".toList rfl (by decide +kernel) (by rw [e1]; decide +kernel)
  exact ⟨e1, C146_files _ _ _ _ _ _ _ _ (by decide) (by decide) (by decide) (by decide) (by decide +kernel) demo_dis demo_killed, h1,
    h2 0 "cam1.%04d".toList _ (by norm_num) rfl (by decide +kernel)⟩

example (g : DFrame) : g.read demoKilled "rt_is".toList [] [] demoTb 8 = g.read oldFiles "rt_is".toList [] [] demoTb 8 := by
  refine C146_other_frames oldFiles demoKilled demoFrame g _ _ _ "rt_is".toList [] [] demoTb 7 8 (by norm_num) (by norm_num)
    (by norm_num) ?_ ?_ demo_killed
  · intro b hb
    simp only [demoTb, List.mem_cons, List.not_mem_nil, or_false] at hb
    rcases hb with rfl | rfl <;> decide
  · intro b hb b' hb' _ x h1 h2
    obtain ⟨i, hi⟩ := List.getElem?_of_mem hb
    obtain ⟨j, hj⟩ := List.getElem?_of_mem hb'
    exact demo_names 7 8 (Or.inr ⟨rfl, rfl⟩) i j b b' (Or.inr (by norm_num)) hi hj (by rw [h1, h2])

/-- A target of particle 12. -/
def twelve : Target := ⟨0, 100, 200, 5, 2, 3, 500, 12⟩

/-- C146, refuted for the last number: the process can be killed such that the targets are read without an exception, but the last
target belongs to another particle: 12 has become 1. -/
theorem C146_number_refuted : ∃ (fs fs' : FS) (ts us : List Target) (t u : Target),
    Killed fs (targetOps ts ts.length "cam1.%04d".toList 7).1 fs' ∧
    readTargets fs' "cam1.%04d".toList 7 = .ok us ∧ ts = [t] ∧ us = [u] ∧ t.tnr = 12 ∧ u.tnr = 1 :=
  ⟨fun _ => none, _, [twelve], [{ twelve with tnr := 1 }], _, _,
    killed_at (fun _ => none) _ 3 55 "cam1.0007_targets".toList (by decide +kernel), by decide +kernel, rfl, rfl, rfl, rfl⟩

/-- The state of `C146_number_refuted` meets the hypotheses of `C146_targets_read`; here the file is cut earlier, and refused. -/
example : ∃ fs', Killed (fun _ => none) (targetOps [twelve] 1 "cam1.%04d".toList 7).1 fs' ∧
    readTargets fs' "cam1.%04d".toList 7 = .error .valueError :=
  ⟨_, killed_at (fun _ => none) _ 3 40 "cam1.0007_targets".toList (by decide +kernel), by decide +kernel⟩

end Verif.IO

namespace Verif.Track
open _root_.Verif.IO Text Verif.Track.Spec

/-! ### Runs -/

section
variable {S F : Type} {st : Store S F} {s s' : S} {r : Run F} {n : Int} {process : List F → Py (List F)}

/-- The run has written frames `n, n + 1, ...`, `j` of them, each successfully; then it stopped, or raised while writing the next. -/
def Stopped (st : Store S F) (s : S) (n : Int) (j : ℕ) (s' : S) : Prop :=
  ∃ ws s1, Replayed st s ws s1 ∧ ws.map Prod.fst = intRange n j ∧
    (s' = s1 ∨ ∃ f e, st.write s1 (n + j) f = (s', .error e))

theorem Replayed.cons {s1 s2 : S} {w : Int × F} {v : Bool} {ws : List (Int × F)} (h1 : st.write s w.1 w.2 = (s1, .ok v))
    (h2 : Replayed st s1 ws s2) : Replayed st s (w :: ws) s2 := by
  induction h2 with
  | nil => exact Replayed.snoc (ws := []) .nil h1
  | snoc h3 h4 ih => exact Replayed.snoc (ws := w :: _) ih h4

/-- One write: it was successful and the rest follows, or it raised, or there was no frame to write. -/
theorem sWrite_stop {x : Py (Run F)} (h : sWrite st n s r = (s', x)) :
    (∃ f v, st.write s n f = (s', .ok v)) ∨ ((∃ e, x = .error e) ∧ Stopped st s n 0 s') := by
  unfold sWrite at h
  split at h
  · cases h
    exact Or.inr ⟨⟨_, rfl⟩, [], s, .nil, rfl, Or.inl rfl⟩
  · rename_i f _
    rcases hst : st.write s n f with ⟨s2, y | y⟩ <;> rw [hst] at h <;> cases h
    · exact Or.inr ⟨⟨_, rfl⟩, [], s, .nil, rfl, Or.inr ⟨f, y, by simpa using hst⟩⟩
    · exact Or.inl ⟨f, y, hst⟩

theorem sForwardStep_stop {last : Int} {x : Py (Run F)} (h : sForwardStep st process last n s r = (s', x)) :
    (∃ f v, st.write s n f = (s', .ok v)) ∨ ((∃ e, x = .error e) ∧ Stopped st s n 0 s') := by
  unfold sForwardStep at h
  split at h
  · cases h
    exact Or.inr ⟨⟨_, rfl⟩, [], s, .nil, rfl, Or.inl rfl⟩
  · rename_i buf _
    rcases hr : sWrite st n s (Run.next ⟨buf, r.log ++ [.step n r.buf]⟩) with ⟨s2, y | y⟩ <;> rw [hr] at h <;>
      have hw := sWrite_stop hr <;> simp only [andThen] at h
    · cases h
      exact hw
    · rcases hw with hw | ⟨⟨e, he⟩, -⟩
      · have : s' = s2 := by
          split_ifs at h
          · exact sRead_wrote h
          · exact (Prod.mk.inj h).1.symm
        rw [this]
        exact Or.inl hw
      · cases he

theorem Stopped.cons {s1 : S} {f : F} {v : Bool} {j : ℕ} (h1 : st.write s n f = (s1, .ok v)) (h2 : Stopped st s1 (n + 1) j s') :
    Stopped st s n (j + 1) s' := by
  obtain ⟨ws, s2, a1, a2, a3⟩ := h2
  refine ⟨(n, f) :: ws, s2, a1.cons h1, by rw [List.map_cons, a2, intRange_cons], ?_⟩
  rcases a3 with a3 | ⟨g, e, a3⟩
  · exact Or.inl a3
  · right
    refine ⟨g, e, ?_⟩
    rw [← a3]
    congr 1
    push_cast
    omega

theorem sForwardSteps_stop {last : Int} : ∀ (k : ℕ) (n : Int) (s : S) (r : Run F) {x : Py (Run F)},
    sForwardSteps st process last k n s r = (s', x) →
    ∃ j ≤ k, Stopped st s n j s' ∧ (∀ r', x = .ok r' → j = k ∧ ∃ ws, Replayed st s ws s' ∧ ws.map Prod.fst = intRange n k)
  | 0, n, s, r, x, h => by
    cases h
    exact ⟨0, le_refl 0, ⟨[], _, .nil, rfl, Or.inl rfl⟩, fun _ _ => ⟨rfl, [], .nil, rfl⟩⟩
  | k + 1, n, s, r, x, h => by
    unfold sForwardSteps at h
    rcases hr : sForwardStep st process last n s r with ⟨s2, y | y⟩ <;> rw [hr] at h <;>
      have hw := sForwardStep_stop hr <;> simp only [andThen] at h
    · cases h
      rcases hw with ⟨f, v, hw⟩ | ⟨-, hw⟩
      · exact ⟨1, by omega, Stopped.cons hw ⟨[], _, .nil, rfl, Or.inl rfl⟩, fun r' h => by cases h⟩
      · exact ⟨0, by omega, hw, fun r' h => by cases h⟩
    · rcases hw with ⟨f, v, hw⟩ | ⟨⟨e, he⟩, -⟩
      · obtain ⟨j, h1, h2, h3⟩ := sForwardSteps_stop k (n + 1) s2 y h
        refine ⟨j + 1, by omega, h2.cons hw, fun r' hr' => ?_⟩
        obtain ⟨rfl, ws, a1, a2⟩ := h3 r' hr'
        exact ⟨rfl, (n, f) :: ws, a1.cons hw, by rw [List.map_cons, a2, intRange_cons]⟩
      · cases he

/-- However a forward run ends: the frames from the first on were written successfully, and of at most one more the write raised. -/
theorem sForwardRun_stop (first : Int) (L : ℕ) (buf0 : List F) {x : Py (Run F)}
    (h : sForwardRun st process first (first + L) s buf0 = (s', x)) : ∃ j ≤ L + 1, Stopped st s first j s' := by
  unfold sForwardRun at h
  rcases h0 : sForwardStart st first s ⟨buf0, []⟩ with ⟨s1, y | y⟩ <;> rw [h0] at h <;> simp only [andThen] at h
  all_goals
    have hs1 : s1 = s := by
      unfold sForwardStart at h0
      rcases hp : sPrime st [first, first + 1, first + 2] s ⟨buf0, []⟩ with ⟨s2, z | z⟩ <;> rw [hp] at h0 <;>
        simp only [andThen] at h0 <;> rw [← (Prod.mk.inj h0).1] <;> exact sPrime_wrote _ _ _ hp
    subst hs1
  · cases h
    exact ⟨0, by omega, [], _, .nil, rfl, Or.inl rfl⟩
  · have hk : (first + (L : Int) - first).toNat = L := by omega
    rw [hk] at h
    rcases h1 : sForwardSteps st process (first + L) L first s1 y with ⟨s2, z | z⟩ <;> rw [h1] at h <;>
      simp only at h <;> obtain ⟨j, j1, j2, j3⟩ := sForwardSteps_stop L first s1 y h1
    · cases h
      exact ⟨j, by omega, j2⟩
    · obtain ⟨-, ws, a1, a2⟩ := j3 z rfl
      unfold sForwardFinish at h
      split_ifs at h with hz
      · cases h
        exact ⟨L, by omega, ws, _, a1, a2, Or.inl rfl⟩
      · rcases sWrite_stop h with ⟨f, v, hw⟩ | ⟨-, ws', s3, b1, b2, b3⟩
        · refine ⟨L + 1, le_refl _, ws ++ [(first + (L : Int), f)], s', a1.snoc hw, ?_, Or.inl rfl⟩
          rw [List.map_append, a2]
          simp [intRange, List.range_succ]
        · refine ⟨L, by omega, ws, s2, a1, a2, ?_⟩
          have : s3 = s2 := by
            have hnil : ws' = [] := by simpa [intRange] using b2
            subst hnil
            rw [b1.replay]
            rfl
          subst this
          rcases b3 with b3 | ⟨f, e, b3⟩
          · exact Or.inl b3
          · exact Or.inr ⟨f, e, by simpa using b3⟩

end

theorem killStore_replayed {b : Bases} {links : Bool} {m : Int} {kill : FS → DFrame → FS} {fs fs' : FS} {ws : List (Int × DFrame)}
    (h : Replayed (killStore b links m kill) fs ws fs') : Replayed (fileStore b links) fs ws fs' ∧ ∀ w ∈ ws, w.1 ≠ m := by
  induction h with
  | nil => exact ⟨.nil, by simp⟩
  | @snoc ws s1 s2 n f v h1 h2 ih =>
    have hn : n ≠ m := by
      intro e
      simp [killStore, e] at h2
    have h2' : (fileStore b links).write s1 n f = (s2, .ok v) := by
      rw [← h2]
      simp [killStore, hn]
    refine ⟨ih.1.snoc h2', ?_⟩
    intro w hw
    rcases List.mem_append.1 hw with hw | hw
    · exact ih.2 w hw
    · rw [List.mem_singleton.1 hw]; exact hn

/-- C146: a forward run over the frames `first, ..., first + L` that is killed while it writes frame `m`. The frames before `m` that
it has written were written completely, in their order; frames outside `first, ..., m` read as before the run, and so do those up to
`m` that it has not come to. (`s1`: the files before the last write.) -/
theorem C146_run (b : Bases) (links : Bool) (c : ℕ) (hfmt : ∀ t ∈ b.target, '%' ∈ t ∧ '#' ∉ t)
    (hdis : ∀ t ∈ b.target, ∀ t' ∈ b.target, t ≠ t' → ∀ n m x, 0 < n → 0 < m → writeName t n = .ok x → writeName t' m ≠ .ok x)
    (m : Int) (kill : FS → DFrame → FS)
    (hkill : ∀ fs f, Killed fs (f.ops b.corres b.linkage b.prio b.target m).1 (kill fs f))
    (process : List DFrame → Py (List DFrame)) (first : Int) (hf : 0 < first) (L : ℕ) (hm : first ≤ m) (fs fs' : FS) (buf0 : List DFrame)
    (x : Py (Run DFrame)) (h : sForwardRun (killStore b links m kill) process first (first + L) fs buf0 = (fs', x)) :
    ∃ (j : ℕ) (ws : List (Int × DFrame)) (s1 : FS), first + j ≤ m ∧ ws.map Prod.fst = intRange first j ∧
      Replayed (fileStore b links) fs ws s1 ∧
      (fs' = s1 ∨ (∃ f e, (fileStore b links).write s1 (first + j) f = (fs', .error e)) ∨
        (first + j = m ∧ ∃ f : DFrame, Killed s1 (f.ops b.corres b.linkage b.prio b.target m).1 fs')) ∧
      (∀ n g, ForCams c g → first ≤ n → n < first + j → (fileStore b links).read fs' n g = (fileStore b links).read s1 n g) ∧
      ∀ n g, ForCams c g → 0 < n → (n < first ∨ first + j < n) → (fileStore b links).read fs' n g = (fileStore b links).read fs n g := by
  obtain ⟨j, -, ws, s1, h1, h2, h3⟩ := sForwardRun_stop first L buf0 h
  obtain ⟨h4, h5⟩ := killStore_replayed h1
  have hi := C88_files_isolated b links c hfmt hdis
  have hjm : first + j ≤ m := by
    by_contra hc
    have : m ∈ intRange first j := by
      simp only [intRange, List.mem_map, List.mem_range]
      exact ⟨(m - first).toNat, by omega, by omega⟩
    rw [← h2] at this
    obtain ⟨w, hw, e⟩ := List.mem_map.1 this
    exact h5 w hw e
  have hlast : fs' = s1 ∨ (∃ f e, (fileStore b links).write s1 (first + j) f = (fs', .error e)) ∨
      (first + j = m ∧ ∃ f : DFrame, Killed s1 (f.ops b.corres b.linkage b.prio b.target m).1 fs') := by
    rcases h3 with h3 | ⟨f, e, h3⟩
    · exact Or.inl h3
    · right
      by_cases hc : first + j = m
      · right
        refine ⟨hc, f, ?_⟩
        have : kill s1 f = fs' := by
          simp only [killStore, hc, if_true] at h3
          exact (Prod.mk.inj h3).1
        rw [← this]
        exact hkill s1 f
      · left
        refine ⟨f, e, ?_⟩
        rw [← h3]
        simp [killStore, hc]
  have hread : ∀ n g, ForCams c g → 0 < n → n ≠ first + j → (fileStore b links).read fs' n g = (fileStore b links).read s1 n g := by
    intro n g hg hn hne
    rcases hlast with rfl | ⟨f, e, hw⟩ | ⟨hc, f, hw⟩
    · rfl
    · have := hi.other s1 (first + j) n f g (by omega) (by omega) (Ne.symm hne) hg
      rw [hw] at this
      exact this
    · rw [fileStore_read_eq, fileStore_read_eq]
      rw [C146_other_frames s1 fs' f g b.corres b.linkage b.prio b.corres (if links then b.linkage else [])
        (if links then b.prio else []) b.target m n (by omega) hn (by omega) hfmt
        (fun t ht t' ht' h x h1 => hdis t ht t' ht' h m n x (by omega) (by omega) h1) hw]
  refine ⟨j, ws, s1, hjm, h2, h4, hlast, fun n g hg h6 h7 => hread n g hg (by omega) (by omega), ?_⟩
  intro n g hg hn hor
  rw [hread n g hg hn (by omega), h4.replay]
  refine replay_read hi (by omega) hg ws fs fun w hw => ?_
  have : w.1 ∈ intRange first j := h2 ▸ List.mem_map_of_mem hw
  simp only [intRange, List.mem_map, List.mem_range] at this
  obtain ⟨i, hi', e⟩ := this
  omega

/-- Every process can be killed in this way: here the header of the correspondence file is all that is on the disk. -/
example (process : List DFrame → Py (List DFrame)) (L : ℕ) (fs fs' : FS) (buf0 : List DFrame) (x : Py (Run DFrame))
    (h : sForwardRun (killStore ⟨"rt_is".toList, "ptv_is".toList, "added".toList, demoTb⟩ false 12
      (fun fs f => runOps fs ((f.ops "rt_is".toList "ptv_is".toList "added".toList demoTb 12).1.take 2))) process 10 (10 + L) fs buf0 =
      (fs', x)) (g : DFrame) (hg : ForCams 2 g) :
    (fileStore ⟨"rt_is".toList, "ptv_is".toList, "added".toList, demoTb⟩ false).read fs' 13 g =
      (fileStore ⟨"rt_is".toList, "ptv_is".toList, "added".toList, demoTb⟩ false).read fs 13 g := by
  obtain ⟨j, ws, s1, h1, -, -, -, -, h6⟩ := C146_run ⟨"rt_is".toList, "ptv_is".toList, "added".toList, demoTb⟩ false 2 (by
    intro t ht
    simp only [demoTb, List.mem_cons, List.not_mem_nil, or_false] at ht
    rcases ht with rfl | rfl <;> decide) demoTb_differ 12 _ (fun fs f => ⟨2, fun name => ⟨fun _ => rfl, fun _ => by
      cases hr : runOps fs ((f.ops "rt_is".toList "ptv_is".toList "added".toList demoTb 12).1.take 2) name with
      | none => exact ⟨0, by simp⟩
      | some t => exact ⟨t.length, by simp⟩⟩⟩) process 10 (by norm_num) L (by norm_num) fs fs' buf0 x h
  exact h6 13 g hg (by norm_num) (by omega)

end Verif.Track
