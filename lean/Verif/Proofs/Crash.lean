/-
Facts about sequences of file operations and about texts that are cut.
-/
import Verif.Model.Crash
import Verif.Props.FrameIO
import Verif.Props.FileNames

set_option linter.unusedSimpArgs false

namespace Verif.IO
open Text

/-! ### Operations -/

/-- The operations on one file. -/
def onName (n : List Char) (ops : List FOp) : List FOp := ops.filter fun o => o.name = n

theorem onName_append (n : List Char) (a b : List FOp) : onName n (a ++ b) = onName n a ++ onName n b := by
  simp [onName]

theorem onName_nil_of {n : List Char} {ops : List FOp} (h : ∀ o ∈ ops, o.name ≠ n) : onName n ops = [] := by
  simp only [onName, List.filter_eq_nil_iff, decide_eq_true_eq]
  exact h

theorem onName_self_of {n : List Char} {ops : List FOp} (h : ∀ o ∈ ops, o.name = n) : onName n ops = ops := by
  simp only [onName, List.filter_eq_self, decide_eq_true_eq]
  exact h

theorem act_other {fs : FS} {o : FOp} {n : List Char} (h : o.name ≠ n) : o.act fs n = fs n := by
  cases o <;> simp only [FOp.name] at h <;> simp [FOp.act, FS.write, Ne.symm h]

theorem act_congr {fs fs' : FS} {o : FOp} {n : List Char} (h : fs n = fs' n) : o.act fs n = o.act fs' n := by
  cases o with
  | start m => by_cases e : n = m <;> simp [FOp.act, FS.write, e, h]
  | put m t =>
    by_cases e : n = m
    · subst e; simp [FOp.act, FS.write, h]
    · simp [FOp.act, FS.write, e, h]
  | close m => exact h

theorem runOps_append (fs : FS) (a b : List FOp) : runOps fs (a ++ b) = runOps (runOps fs a) b := by
  simp [runOps, List.foldl_append]

theorem runOps_onName (n : List Char) : ∀ (ops : List FOp) (fs fs' : FS), fs n = fs' n →
    runOps fs ops n = runOps fs' (onName n ops) n
  | [], fs, fs', h => h
  | o :: ops, fs, fs', h => by
    by_cases e : o.name = n
    · have : onName n (o :: ops) = o :: onName n ops := by simp [onName, e]
      rw [this]
      exact runOps_onName n ops _ _ (act_congr h)
    · have : onName n (o :: ops) = onName n ops := by simp [onName, e]
      rw [this]
      exact runOps_onName n ops _ _ ((act_other e).trans h)

theorem runOps_other {fs : FS} {ops : List FOp} {n : List Char} (h : ∀ o ∈ ops, o.name ≠ n) : runOps fs ops n = fs n := by
  rw [runOps_onName n ops fs fs rfl, onName_nil_of h]
  rfl

theorem openFold_onName (n : List Char) : ∀ (ops : List FOp) (o : Bool),
    ops.foldl (fun o p => p.opens n o) o = (onName n ops).foldl (fun o p => p.opens n o) o
  | [], _ => rfl
  | p :: ops, o => by
    by_cases e : p.name = n
    · have : onName n (p :: ops) = p :: onName n ops := by simp [onName, e]
      rw [this]
      exact openFold_onName n ops _
    · have : onName n (p :: ops) = onName n ops := by simp [onName, e]
      rw [this, List.foldl_cons, openFold_onName n ops]
      congr 1
      cases p <;> simp only [FOp.name] at e <;> simp [FOp.opens, e]

theorem openAfter_onName (n : List Char) (ops : List FOp) : openAfter ops n = openAfter (onName n ops) n := openFold_onName n ops false

theorem onName_take (n : List Char) (ops : List FOp) (k : ℕ) : ∃ j, onName n (ops.take k) = (onName n ops).take j := by
  have h : onName n (ops.take k) <+: onName n ops := (List.take_prefix k ops).filter _
  exact ⟨_, List.prefix_iff_eq_take.1 h⟩

/-- What is written to the file. -/
def FOp.text : FOp → List Char
  | .put _ t => t
  | _ => []

theorem runOps_puts {n : List Char} : ∀ (rest : List FOp) (fs : FS) (s : List Char), fs n = some s →
    (∀ o ∈ rest, o.name = n ∧ ∀ m, o ≠ .start m) → runOps fs rest n = some (s ++ rest.flatMap FOp.text)
  | [], fs, s, h, _ => by simpa [runOps] using h
  | o :: rest, fs, s, h, hr => by
    obtain ⟨h1, h2⟩ := hr o (by simp)
    have : o.act fs n = some (s ++ o.text) := by
      cases o with
      | start m => exact absurd rfl (h2 m)
      | put m t =>
        simp only [FOp.name] at h1
        subst h1
        simp [FOp.act, FS.write, h, FOp.text]
      | close m => simp [FOp.act, FOp.text, h]
    show runOps (o.act fs) rest n = _
    rw [runOps_puts rest (o.act fs) _ this fun o ho => hr o (by simp [ho])]
    simp

/-- A file that is opened once: the content at the end. -/
theorem runOps_session {n : List Char} {ops rest : List FOp} {fs : FS} (h : onName n ops = .start n :: rest)
    (hr : ∀ o ∈ rest, ∀ m, o ≠ .start m) : runOps fs ops n = some (rest.flatMap FOp.text) := by
  rw [runOps_onName n ops fs fs rfl, h]
  have hn : ∀ o ∈ rest, o.name = n := by
    intro o ho
    have : o ∈ onName n ops := by rw [h]; simp [ho]
    simpa [onName] using (List.mem_filter.1 this).2
  have := runOps_puts (n := n) rest (fs.write n []) [] (by simp [FS.write]) fun o ho => ⟨hn o ho, hr o ho⟩
  simpa [runOps, FOp.act] using this

theorem flatMap_prefix {α : Type} {a b : List α} {f : α → List Char} (h : a <+: b) : a.flatMap f <+: b.flatMap f := by
  obtain ⟨c, rfl⟩ := h
  simp

/-- A file that is opened once, when the process is killed: as before, or a beginning of what it is at the end. -/
theorem killed_session {n : List Char} {ops rest : List FOp} {fs fs' : FS} (h : onName n ops = .start n :: rest)
    (hr : ∀ o ∈ rest, ∀ m, o ≠ .start m) (hk : Killed fs ops fs') :
    fs' n = fs n ∨ ∃ text cut, runOps fs ops n = some text ∧ fs' n = some (text.take cut) := by
  obtain ⟨k, hk⟩ := hk
  obtain ⟨h1, h2⟩ := hk n
  obtain ⟨j, hj⟩ := onName_take n ops k
  rw [h] at hj
  cases j with
  | zero =>
    left
    rw [List.take_zero] at hj
    rw [h1 (by rw [openAfter_onName, hj]; rfl), runOps_onName n _ fs fs rfl, hj]
    rfl
  | succ j =>
    right
    rw [List.take_succ_cons] at hj
    have e := runOps_session (fs := fs) hj fun o ho => hr o (List.mem_of_mem_take ho)
    refine ⟨rest.flatMap FOp.text, ?_⟩
    have hp : (rest.take j).flatMap FOp.text <+: rest.flatMap FOp.text := flatMap_prefix (List.take_prefix j rest)
    have ht := List.prefix_iff_eq_take.1 hp
    cases ho : openAfter (ops.take k) n with
    | false => exact ⟨_, runOps_session h hr, by rw [h1 ho, e]; exact congrArg some ht⟩
    | true =>
      obtain ⟨cut, hc⟩ := h2 ho
      refine ⟨min cut ((rest.take j).flatMap FOp.text).length, runOps_session h hr, ?_⟩
      rw [hc, e, Option.map_some, ← List.take_take, ← ht]

/-- A file that none of the operations is on. -/
theorem killed_other {n : List Char} {ops : List FOp} {fs fs' : FS} (h : ∀ o ∈ ops, o.name ≠ n) (hk : Killed fs ops fs') :
    fs' n = fs n := by
  obtain ⟨k, hk⟩ := hk
  have h' : ∀ o ∈ ops.take k, o.name ≠ n := fun o ho => h o (List.mem_of_mem_take ho)
  rw [(hk n).1 (by rw [openAfter_onName, onName_nil_of h']; rfl), runOps_other h']

/-- A file that is complete before another one is touched. -/
theorem killed_order {n1 n2 : List Char} {A B : List FOp} {fs fs' : FS} (hA : ∀ o ∈ A, o.name ≠ n2) (hB : ∀ o ∈ B, o.name ≠ n1)
    (hcl : openAfter A n1 = false) (hk : Killed fs (A ++ B) fs') (hch : fs' n2 ≠ fs n2) : fs' n1 = runOps fs (A ++ B) n1 := by
  obtain ⟨k, hk⟩ := hk
  by_cases hl : k ≤ A.length
  · exfalso
    apply hch
    have h' : ∀ o ∈ (A ++ B).take k, o.name ≠ n2 := by
      intro o ho
      rw [List.take_append_of_le_length hl] at ho
      exact hA o (List.mem_of_mem_take ho)
    rw [(hk n2).1 (by rw [openAfter_onName, onName_nil_of h']; rfl), runOps_other h']
  · have e : (A ++ B).take k = A ++ B.take (k - A.length) := by
      rw [List.take_append, List.take_of_length_le (by omega)]
    have hB' : ∀ o ∈ B.take (k - A.length), o.name ≠ n1 := fun o ho => hB o (List.mem_of_mem_take ho)
    rw [(hk n1).1 (by
      rw [e, openAfter_onName, onName_append, onName_nil_of hB', List.append_nil, ← openAfter_onName, hcl]), e, runOps_append,
      runOps_append, runOps_other hB', runOps_other hB]

theorem openAfter_append_close (ops : List FOp) (n : List Char) : openAfter (ops ++ [.close n]) n = false := by
  simp [openAfter, List.foldl_append, FOp.opens]

/-! ### The operations of a frame -/

/-- Every file is opened at most once, before anything else happens to it. -/
def Once (ops : List FOp) : Prop :=
  ∀ n, onName n ops = [] ∨ ∃ rest, onName n ops = .start n :: rest ∧ ∀ o ∈ rest, ∀ m, o ≠ .start m

theorem Once.append {A B : List FOp} (hA : Once A) (hB : Once B) (hd : ∀ a ∈ A, ∀ b ∈ B, a.name ≠ b.name) : Once (A ++ B) := by
  intro n
  rw [onName_append]
  by_cases h : ∃ a ∈ A, a.name = n
  · obtain ⟨a, ha, rfl⟩ := h
    have : onName a.name B = [] := onName_nil_of fun b hb => (hd a ha b hb).symm
    rw [this, List.append_nil]
    exact hA _
  · push Not at h
    rw [onName_nil_of h, List.nil_append]
    exact hB _

theorem Once.single {n : List Char} {ops rest : List FOp} (h : ops = .start n :: rest) (hr : ∀ o ∈ rest, o.name = n ∧ ∀ m, o ≠ .start m) :
    Once ops := by
  subst h
  intro m
  by_cases e : m = n
  · subst e
    right
    refine ⟨rest, onName_self_of ?_, fun o ho => (hr o ho).2⟩
    intro o ho
    rcases List.mem_cons.1 ho with rfl | ho
    · rfl
    · exact (hr o ho).1
  · left
    refine onName_nil_of ?_
    intro o ho
    rcases List.mem_cons.1 ho with rfl | ho
    · exact fun h => e h.symm
    · exact fun h => e (h.symm.trans (hr o ho).1)

theorem mem_zip_name {c l p : List Char} {t : Particle × ℕ} {o : FOp} (h : o ∈ particleOps c l p t) :
    (o.name = c ∨ o.name = l ∨ o.name = p) ∧ ∀ m, o ≠ .start m := by
  simp only [particleOps, List.mem_cons, List.not_mem_nil, or_false] at h
  rcases h with rfl | rfl | rfl <;> simp [FOp.name]

/-- The names of the path files. -/
theorem pathOps_names {ps : List Particle} {num : ℕ} {cb lb pb : List Char} {frame : ℤ} {o : FOp}
    (h : o ∈ (pathOps ps num cb lb pb frame).1) :
    o.name = frameName cb frame ∨ o.name = frameName lb frame ∨ o.name = frameName pb frame := by
  unfold pathOps at h
  simp only at h
  split_ifs at h <;> simp only [List.mem_append, List.mem_cons, List.not_mem_nil, or_false, List.mem_flatMap] at h
  · rcases h with rfl | rfl | rfl | rfl <;> simp [FOp.name]
  · rcases h with ((rfl | rfl | rfl | rfl) | rfl | rfl) | ⟨t, -, h⟩
    any_goals simp [FOp.name]
    exact (mem_zip_name h).1
  · rcases h with (((rfl | rfl | rfl | rfl) | rfl | rfl) | ⟨t, -, h⟩) | rfl | rfl | rfl
    any_goals simp [FOp.name]
    exact (mem_zip_name h).1

/-- The operations on the correspondence, linkage and priority files, if the names differ and the write succeeds. -/
theorem pathOps_on {ps : List Particle} {num : ℕ} {cb lb pb : List Char} {frame : ℤ} (hp : pb ≠ []) (hn : num ≤ ps.length)
    (hcl : cb ≠ lb) (hcp : cb ≠ pb) (hlp : lb ≠ pb) :
    (onName (frameName cb frame) (pathOps ps num cb lb pb frame).1 = .start (frameName cb frame) ::
      (.put (frameName cb frame) (intStr num ++ ['\n']) ::
        ((ps.take num).zipIdx.map fun t => .put (frameName cb frame) (corresRow t.2 t.1 ++ ['\n'])) ++ [.close (frameName cb frame)])) ∧
    (onName (frameName lb frame) (pathOps ps num cb lb pb frame).1 = .start (frameName lb frame) ::
      (.put (frameName lb frame) (intStr num ++ ['\n']) ::
        ((ps.take num).zipIdx.map fun t => .put (frameName lb frame) (linkageRow t.1 ++ ['\n'])) ++ [.close (frameName lb frame)])) ∧
    (onName (frameName pb frame) (pathOps ps num cb lb pb frame).1 = .start (frameName pb frame) ::
      (.put (frameName pb frame) (intStr num ++ ['\n']) ::
        ((ps.take num).zipIdx.map fun t => .put (frameName pb frame) (prioRow t.1 ++ ['\n'])) ++ [.close (frameName pb frame)])) := by
  have e1 := frameName_ne hcl frame
  have e2 := frameName_ne hcp frame
  have e3 := frameName_ne hlp frame
  have key : ∀ (L : List (Particle × ℕ)),
      onName (frameName cb frame) (L.flatMap (particleOps (frameName cb frame) (frameName lb frame) (frameName pb frame))) =
        (L.map fun t => .put (frameName cb frame) (corresRow t.2 t.1 ++ ['\n'])) ∧
      onName (frameName lb frame) (L.flatMap (particleOps (frameName cb frame) (frameName lb frame) (frameName pb frame))) =
        (L.map fun t => .put (frameName lb frame) (linkageRow t.1 ++ ['\n'])) ∧
      onName (frameName pb frame) (L.flatMap (particleOps (frameName cb frame) (frameName lb frame) (frameName pb frame))) =
        (L.map fun t => .put (frameName pb frame) (prioRow t.1 ++ ['\n'])) := by
    intro L
    induction L with
    | nil => exact ⟨rfl, rfl, rfl⟩
    | cons t L ih =>
      rw [List.flatMap_cons, onName_append, onName_append, onName_append, ih.1, ih.2.1, ih.2.2]
      refine ⟨?_, ?_, ?_⟩ <;> simp [onName, particleOps, FOp.name, e1, e2, e3, e1.symm, e2.symm, e3.symm]
  obtain ⟨k1, k2, k3⟩ := key (ps.take num).zipIdx
  unfold pathOps
  simp only [if_neg hp, if_neg (show ¬ ps.length < num by omega)]
  refine ⟨?_, ?_, ?_⟩ <;> rw [onName_append, onName_append]
  · rw [k1]; simp [onName, FOp.name, e1, e2, e3, e1.symm, e2.symm, e3.symm]
  · rw [k2]; simp [onName, FOp.name, e1, e2, e3, e1.symm, e2.symm, e3.symm]
  · rw [k3]; simp [onName, FOp.name, e1, e2, e3, e1.symm, e2.symm, e3.symm]

theorem noStart_rows {α : Type} {n h : List Char} {L : List α} {g : α → List Char} :
    ∀ o ∈ (FOp.put n h :: (L.map fun t => .put n (g t)) ++ [.close n]), ∀ m, o ≠ .start m := by
  intro o ho m
  simp only [List.mem_append, List.mem_cons, List.mem_map, List.not_mem_nil, or_false] at ho
  rcases ho with (rfl | ⟨t, -, rfl⟩) | rfl <;> simp

theorem text_rows {α : Type} {n h : List Char} {L : List α} {g : α → List Char} :
    (FOp.put n h :: (L.map fun t => FOp.put n (g t)) ++ [FOp.close n]).flatMap FOp.text = h ++ L.flatMap g := by
  have e : (L.map fun t => FOp.put n (g t)).flatMap FOp.text = L.flatMap g := by
    rw [List.flatMap_map]
    rfl
  rw [List.cons_append, List.flatMap_cons, List.flatMap_append, e]
  simp [FOp.text]

theorem pathOps_once {ps : List Particle} {num : ℕ} {cb lb pb : List Char} {frame : ℤ} (hp : pb ≠ []) (hn : num ≤ ps.length)
    (hcl : cb ≠ lb) (hcp : cb ≠ pb) (hlp : lb ≠ pb) : Once (pathOps ps num cb lb pb frame).1 := by
  obtain ⟨h1, h2, h3⟩ := pathOps_on (frame := frame) hp hn hcl hcp hlp
  intro n
  by_cases e1 : n = frameName cb frame
  · subst e1; exact Or.inr ⟨_, h1, noStart_rows⟩
  by_cases e2 : n = frameName lb frame
  · subst e2; exact Or.inr ⟨_, h2, noStart_rows⟩
  by_cases e3 : n = frameName pb frame
  · subst e3; exact Or.inr ⟨_, h3, noStart_rows⟩
  · left
    refine onName_nil_of fun o ho h => ?_
    rcases pathOps_names ho with h' | h' | h' <;> rw [h] at h' <;> contradiction

/-- The path files at the end. -/
theorem pathOps_run {ps : List Particle} {num : ℕ} {cb lb pb : List Char} {frame : ℤ} {fs fs' : FS}
    (hcl : cb ≠ lb) (hcp : cb ≠ pb) (hlp : lb ≠ pb) (h : writePathFrame fs ps num cb lb pb frame = .ok fs') :
    runOps fs (pathOps ps num cb lb pb frame).1 = fs' ∧ (pathOps ps num cb lb pb frame).2 = .ok () := by
  unfold writePathFrame at h
  split_ifs at h with hp hn
  cases h
  have hn' : num ≤ ps.length := by omega
  refine ⟨?_, by simp [pathOps, hp, hn]⟩
  obtain ⟨h1, h2, h3⟩ := pathOps_on (frame := frame) hp hn' hcl hcp hlp
  have e1 := frameName_ne hcl frame
  have e2 := frameName_ne hcp frame
  have e3 := frameName_ne hlp frame
  have zm : ∀ (g : Particle → List Char) (L : List Particle), (L.zipIdx.flatMap fun t => g t.1 ++ ['\n']) =
      (L.map g).flatMap fun r => r ++ ['\n'] := by
    intro g L
    conv_rhs => rw [← List.zipIdx_map_fst 0 L, List.map_map, List.flatMap_map]
    rfl
  funext x
  by_cases ep : x = frameName pb frame
  · subst ep
    rw [runOps_session h3 noStart_rows, text_rows, zm prioRow]
    simp [FS.write, table]
  by_cases el : x = frameName lb frame
  · subst el
    rw [runOps_session h2 noStart_rows, text_rows, zm linkageRow]
    simp [FS.write, table, e3]
  by_cases ec : x = frameName cb frame
  · subst ec
    rw [runOps_session h1 noStart_rows, text_rows]
    simp [FS.write, table, e1, e2, List.flatMap_map]
  · rw [runOps_other fun o ho h => ?_]
    · simp [FS.write, ep, el, ec]
    · rcases pathOps_names ho with h' | h' | h' <;> rw [h] at h' <;> contradiction

/-! ### Target files -/

theorem targetOps_run (ts : List Target) (num : ℤ) (base : List Char) (frame : ℤ) (fs : FS) :
    (runOps fs (targetOps ts num base frame).1, (targetOps ts num base frame).2) = writeTargets fs ts num base frame := by
  unfold targetOps writeTargets
  cases hn : writeName base frame with
  | error e => rfl
  | ok name =>
    simp only
    split_ifs with h0
    · rfl
    · simp only [Prod.mk.injEq, and_true]
      funext x
      by_cases e : x = name
      · subst e
        have hself : onName x (.start x :: .put x (intStr num ++ ['\n']) ::
            (ts.map fun t => .put x (targetRow t ++ ['\n'])) ++ [.close x]) = .start x :: (.put x (intStr num ++ ['\n']) ::
            (ts.map fun t => .put x (targetRow t ++ ['\n'])) ++ [.close x]) := by
          refine onName_self_of fun o ho => ?_
          simp only [List.cons_append, List.mem_append, List.mem_cons, List.mem_map, List.not_mem_nil, or_false] at ho
          rcases ho with rfl | rfl | ⟨t, -, rfl⟩ | rfl <;> rfl
        rw [runOps_session hself noStart_rows, text_rows]
        simp [FS.write, targetsText]
      · rw [runOps_other]
        · simp [FS.write, e]
        · intro o ho
          simp only [List.cons_append, List.mem_append, List.mem_cons, List.mem_map, List.not_mem_nil, or_false] at ho
          rcases ho with rfl | rfl | ⟨t, -, rfl⟩ | rfl <;> exact fun h => e h.symm

theorem targetOps_names {ts : List Target} {num : ℤ} {base : List Char} {frame : ℤ} {o : FOp}
    (h : o ∈ (targetOps ts num base frame).1) : writeName base frame = .ok o.name := by
  unfold targetOps at h
  cases hn : writeName base frame with
  | error e => rw [hn] at h; simp at h
  | ok name =>
    rw [hn] at h
    simp only at h
    split_ifs at h <;> simp only [List.cons_append, List.mem_append, List.mem_cons, List.mem_map, List.not_mem_nil, or_false] at h
    · rcases h with rfl | rfl <;> rfl
    · rcases h with rfl | rfl | ⟨t, -, rfl⟩ | rfl <;> rfl

theorem targetOps_once (ts : List Target) (num : ℤ) (base : List Char) (frame : ℤ) : Once (targetOps ts num base frame).1 := by
  unfold targetOps
  cases hn : writeName base frame with
  | error e => exact fun n => Or.inl rfl
  | ok name =>
    simp only
    split_ifs
    · refine Once.single rfl ?_
      simp [FOp.name]
    · refine Once.single (n := name) (rest := .put name (intStr num ++ ['\n']) ::
        (ts.map fun t => .put name (targetRow t ++ ['\n'])) ++ [.close name]) rfl fun o ho => ⟨?_, noStart_rows o ho⟩
      simp only [List.cons_append, List.mem_append, List.mem_cons, List.mem_map, List.not_mem_nil, or_false] at ho
      rcases ho with rfl | ⟨t, -, rfl⟩ | rfl <;> rfl

theorem camOps_names {f : DFrame} {tb : List (List Char)} {frame : ℤ} {cam : ℕ} {o : FOp} (h : o ∈ (camOps f tb frame cam).1) :
    ∃ b, tb[cam]? = some b ∧ writeName b frame = .ok o.name := by
  unfold camOps at h
  split at h
  · simp at h
  · rename_i ts n b hb
    refine ⟨b, ?_, targetOps_names h⟩
    simp only [bind, Except.bind] at hb
    split at hb
    · simp at hb
    split at hb
    · simp at hb
    split at hb
    · simp at hb
    rename_i b' hb'
    simp only [Except.ok.injEq, Prod.mk.injEq] at hb
    rw [← hb.2.2]
    unfold pyGet at hb'
    split at hb'
    · rename_i e
      cases hb'
      exact e
    · cases hb'

theorem camOps_run (f : DFrame) (tb : List (List Char)) (frame : ℤ) (cam : ℕ) (fs : FS) :
    (runOps fs (camOps f tb frame cam).1, (camOps f tb frame cam).2) = writeCam fs f tb frame cam := by
  unfold camOps writeCam
  split <;> rename_i h <;> rw [h]
  · rfl
  · exact targetOps_run ..

theorem camOps_once (f : DFrame) (tb : List (List Char)) (frame : ℤ) (cam : ℕ) : Once (camOps f tb frame cam).1 := by
  unfold camOps
  split
  · exact fun n => Or.inl rfl
  · exact targetOps_once _ _ _ _

theorem camsOps_names {f : DFrame} {tb : List (List Char)} {frame : ℤ} {o : FOp} : ∀ {cams : List ℕ},
    o ∈ (camsOps f tb frame cams).1 → ∃ cam ∈ cams, ∃ b, tb[cam]? = some b ∧ writeName b frame = .ok o.name
  | [], h => by simp [camsOps] at h
  | cam :: cams, h => by
    unfold camsOps at h
    split at h
    · rename_i o' e
      rcases List.mem_append.1 h with h | h
      · obtain ⟨b, hb⟩ := camOps_names (o := o) (cam := cam) (by rw [e]; exact h)
        exact ⟨cam, by simp, b, hb⟩
      · obtain ⟨c, hc, hb⟩ := camsOps_names h
        exact ⟨c, by simp [hc], hb⟩
    · obtain ⟨b, hb⟩ := camOps_names h
      exact ⟨cam, by simp, b, hb⟩

theorem camsOps_run (f : DFrame) (tb : List (List Char)) (frame : ℤ) : ∀ (cams : List ℕ) (fs : FS),
    (runOps fs (camsOps f tb frame cams).1, (camsOps f tb frame cams).2) = writeCams f tb frame cams fs
  | [], fs => rfl
  | cam :: cams, fs => by
    have h := camOps_run f tb frame cam fs
    unfold camsOps writeCams
    rw [← h]
    rcases e : camOps f tb frame cam with ⟨o, x | (_ | _)⟩
    · rfl
    · rfl
    · simp only
      rw [← camsOps_run f tb frame cams, runOps_append]

theorem camsOps_once {f : DFrame} {tb : List (List Char)} {frame : ℤ}
    (hdis : ∀ (i j : ℕ) (b b' : List Char), i ≠ j → tb[i]? = some b → tb[j]? = some b' →
      ∀ x, writeName b frame = .ok x → writeName b' frame ≠ .ok x) : ∀ (cams : List ℕ), cams.Nodup → Once (camsOps f tb frame cams).1
  | [], _ => fun _ => Or.inl rfl
  | cam :: cams, hn => by
    rw [List.nodup_cons] at hn
    have h := camOps_once f tb frame cam
    have hnm := fun o => camOps_names (f := f) (tb := tb) (frame := frame) (cam := cam) (o := o)
    unfold camsOps
    rcases e : camOps f tb frame cam with ⟨o, x | (_ | _)⟩ <;> rw [e] at h hnm
    · exact h
    · exact h
    · refine h.append (camsOps_once hdis cams hn.2) ?_
      intro a ha b hb hab
      obtain ⟨t, ht, h1⟩ := hnm a ha
      obtain ⟨c, hc, t', ht', h2⟩ := camsOps_names hb
      exact hdis cam c t t' (fun e => hn.1 (e ▸ hc)) ht ht' _ h1 (by rw [hab]; exact h2)

/-- The cameras in two groups. -/
theorem camsOps_append {f : DFrame} {tb : List (List Char)} {frame : ℤ} : ∀ (l1 l2 : List ℕ),
    (∃ B, (camsOps f tb frame (l1 ++ l2)).1 = (camsOps f tb frame l1).1 ++ B ∧
      ∀ o ∈ B, ∃ cam ∈ l2, ∃ b, tb[cam]? = some b ∧ writeName b frame = .ok o.name) := by
  intro l1 l2
  induction l1 with
  | nil => exact ⟨(camsOps f tb frame l2).1, by simp [camsOps], fun o ho => camsOps_names ho⟩
  | cons cam l1 ih =>
    obtain ⟨B, h1, h2⟩ := ih
    rw [List.cons_append]
    unfold camsOps
    rcases e : camOps f tb frame cam with ⟨o, x | (_ | _)⟩
    · exact ⟨[], by simp, by simp⟩
    · exact ⟨[], by simp, by simp⟩
    · exact ⟨B, by simp [h1], h2⟩

end Verif.IO
