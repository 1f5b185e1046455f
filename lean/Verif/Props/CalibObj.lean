/-
C108: `Calibration` objects keep what they are given (calibration.py).
-/
import Verif.Proofs.CalibObj

namespace Verif.CalObj

open Verif.Geo

/-- C108, what holds (partial): after any history, a setter that returns is believed by the getter, whatever happens afterwards to
other objects, to other attributes and to arrays that other getters returned. Missing: `set_rotation_matrix` never returns
(`C108_set_rotation_refuted`), and for the distortion parameters and the glass vector writes into the array that the getter
returned are writes into the object (`C108_view_refuted`). -/
theorem C108_set_get_partial (H : List Call) (o : ℕ) (a : Attr) (v : List ℝ) (s : St)
    (hs : step (runCalls .init H) (.set o a v) = .ok s) (H' : List Call) (hu : Untouched s H' o a) :
    (runCalls s H').read o a = some v := by
  obtain ⟨own, hI⟩ := reach H
  obtain ⟨own', hI'⟩ := hI.step hs
  exact (frame_run hI' hu).trans (set_read hI hs).1

/-- C108: a new object has the documented defaults, whatever was done to the objects made before it, and keeps them until it is
touched. -/
theorem C108_defaults (H H' : List Call) (a : Attr)
    (hu : Untouched (exec (runCalls .init H) .new) H' (runCalls .init H).objs.length a) :
    (runCalls (exec (runCalls .init H) .new) H').read (runCalls .init H).objs.length a = some (documented a) := by
  obtain ⟨own, hI⟩ := reach H
  obtain ⟨own', hI'⟩ := hI.exec .new
  rw [frame_run hI' hu]
  have e : exec (runCalls .init H) .new = (runCalls .init H).new := rfl
  rw [e, new_read]
  cases a <;> simp [documented, Attr.slot, Attr.cut, Attr.off, defaultExt, defaultInt, defaultGlass, defaultAdded, rotEntries, entries, rotationMatrix]

/-- C108: objects are independent. After any history, no call on one object, and no write into an array it ever returned, changes
what any getter of another object returns. -/
theorem C108_independent (H : List Call) (c : Call) (o o' : ℕ) (hne : o ≠ o') (hc : About (runCalls .init H) c o) (a : Attr) :
    (exec (runCalls .init H) c).read o' a = (runCalls .init H).read o' a := by
  obtain ⟨own, hI⟩ := reach H
  refine frame hI ?_
  intro ht
  cases c with
  | write k i x =>
    obtain ⟨h, h1, h2⟩ := hc
    obtain ⟨h', h1', h2', -⟩ := ht
    rw [h1] at h1'
    cases h1'
    exact hne (h2.symm.trans h2')
  | _ => simp_all [About, Touches]

/-- C108: `increment_attribute`, after any history, adds to what it names, and to nothing else of the object. -/
theorem C108_increment (H : List Call) (o : ℕ) (ho : o < (runCalls .init H).objs.length) (n : Name) (x : ℝ) :
    ∃ s, step (runCalls .init H) (.incr o n x) = .ok s ∧
      ∀ a, s.read o a = ((runCalls .init H).read o a).map (incremented n x a) := by
  obtain ⟨own, hI⟩ := reach H
  have hb := List.getElem?_eq_getElem ho
  exact ⟨_, by simp only [step, hb], fun a => incr_read hI hb n x a⟩

/-- C108: the setters work. After any history in which `set_added_par` was only given seven parameters, every setter except
`set_rotation_matrix` accepts an array of the right length. -/
theorem C108_setters_work (H : List Call) (h7 : ∀ o v, .setAdded o v ∈ H → v.length = 7) (o : ℕ)
    (ho : o < (runCalls .init H).objs.length) (a : Attr) (ha : a ≠ .rot) (v : List ℝ) (hd : v.length = (documented a).length) :
    ∃ s, step (runCalls .init H) (.set o a v) = .ok s := by
  have hv : v.length = a.want := hd.trans (by cases a <;> rfl)
  clear hd
  obtain ⟨own, hI⟩ := reach H
  have hs : Seven (runCalls .init H) := Seven.run Inv.init (by intro o b hb; simp [St.init] at hb) h7
  have hb := List.getElem?_eq_getElem ho
  simp only [step, hb]
  by_cases h2 : a = .glass
  · subst h2
    exact ⟨_, if_neg (not_not.2 hv)⟩
  by_cases h3 : a = .angles
  · subst h3
    exact ⟨_, if_neg (not_not.2 hv)⟩
  rw [set_plain ha h2 h3, if_neg (not_not.2 hv), if_neg]
  · exact ⟨_, rfl⟩
  · rw [not_not, hv]
    have e1 := hI.ext o _ hb
    have e2 := hI.int o _ hb
    have e3 := hs o _ hb
    cases a <;> simp_all [Attr.cut, Attr.slot, Obj.loc, Attr.off, Attr.want]

/-- C108, rotation (partial): if no angle and no entry of the matrix of an object was ever incremented, its matrix is the rotation
by its angles, after every history. Missing: the increments (`C108_stale_refuted`). -/
theorem C108_rotation_partial (H : List Call) (o : ℕ) (ho : o < (runCalls .init H).objs.length)
    (hn : ∀ n x, .incr o n x ∈ H → n.attr ≠ .angles ∧ n.attr ≠ .rot) : RotOk (runCalls .init H) o := by
  obtain ⟨own, hI⟩ := reach H
  refine RotAs.ok hI ?_
  clear hI own
  induction H using List.reverseRecOn with
  | nil => simp [runCalls, St.init] at ho
  | append_singleton H c ih =>
    obtain ⟨own, hI⟩ := reach H
    rw [run_snoc] at ho ⊢
    by_cases h1 : o < (runCalls .init H).objs.length
    · exact (ih h1 fun n x h => hn n x (List.mem_append_left _ h)).exec hI fun n x e => hn n x (by simp [e])
    · rcases exec_objs (runCalls .init H) c with h2 | ⟨rfl, h2⟩
      · omega
      · have e : o = (runCalls .init H).objs.length := by omega
        have e2 : exec (runCalls .init H) .new = (runCalls .init H).new := rfl
        rw [e, e2]
        refine ⟨[0, 0, 0], ?_, ?_⟩
        · rw [new_read]
          simp [Attr.slot, Attr.cut, Attr.off, defaultExt]
        · rw [new_read]
          simp [Attr.slot, Attr.cut, defaultExt, rotEntries, entries]

/-- C108, rotation: after `update_rotation_matrix`, whatever was incremented before, the matrix is right and stays right until an
angle or the matrix is incremented again. -/
theorem C108_rotation_after_update (H H' : List Call) (o : ℕ) (s : St) (hs : step (runCalls .init H) (.update o) = .ok s)
    (hn : ∀ n x, .incr o n x ∈ H' → n.attr ≠ .angles ∧ n.attr ≠ .rot) : RotOk (runCalls s H') o := by
  obtain ⟨own, hI⟩ := reach H
  obtain ⟨own', hI'⟩ := hI.step hs
  obtain ⟨own'', hI''⟩ := hI'.run H'
  exact ((update_rot hI hs).run hI' hn).ok hI''

/-- C108 is false for increments: a new object whose omega is incremented by half a turn has angle pi and the unit matrix, which is
not the rotation by pi. -/
theorem C108_stale_refuted : (runCalls .init [.new, .incr 0 .omega Real.pi]).read 0 .angles = some [Real.pi, 0, 0] ∧
    (runCalls .init [.new, .incr 0 .omega Real.pi]).read 0 .rot = some [1, 0, 0, 0, 1, 0, 0, 0, 1] ∧
    ¬ RotOk (runCalls .init [.new, .incr 0 .omega Real.pi]) 0 := by
  have h1 : (runCalls .init [.new, .incr 0 .omega Real.pi]).read 0 .angles = some [Real.pi, 0, 0] := by
    simp [runCalls, exec, step, St.init, St.new, St.incr, St.put, St.arr, St.read, Obj.loc, Attr.slot, Name.attr, Name.off, Name.len,
      splice, Attr.cut, Attr.off, defaultExt, rotEntries, entries]
  have h2 : (runCalls .init [.new, .incr 0 .omega Real.pi]).read 0 .rot = some [1, 0, 0, 0, 1, 0, 0, 0, 1] := by
    simp [runCalls, exec, step, St.init, St.new, St.incr, St.put, St.arr, St.read, Obj.loc, Attr.slot, Name.attr, Name.off, Name.len,
      splice, Attr.cut, defaultExt, rotEntries, entries, rotationMatrix]
  refine ⟨h1, h2, ?_⟩
  intro hok
  obtain ⟨m, g1, g2⟩ := hok.as
  rw [h1] at g1
  cases g1
  rw [h2] at g2
  simp [rotEntries, entries, rotationMatrix] at g2
  linarith

/-- C108 is false for the matrix: `set_rotation_matrix` raises, whatever it is given. -/
theorem C108_set_rotation_refuted (s : St) (o : ℕ) (v : List ℝ) : ∃ e, step s (.set o .rot v) = .error e := by
  cases h : step s (.set o .rot v) with
  | error e => exact ⟨e, rfl⟩
  | ok s' =>
    simp only [step] at h
    cases hb : s.objs[o]? with
    | none => rw [hb] at h; cases h
    | some b =>
      rw [hb] at h
      exact absurd rfl (set_ok h).2.1

/-- C108, arrays returned (partial): what `get_pos`, `get_angles`, `get_rotation_matrix` and `get_primary_point` returned stays as it
was returned, whatever is done later to the object or to any other, unless the caller writes into that array. Missing: the other
four getters (`C108_snapshot_refuted`). -/
theorem C108_snapshot_partial (H H' : List Call) (o : ℕ) (a : Attr) (hS : ¬ Shared a) (v : List ℝ)
    (hv : (runCalls .init H).read o a = some v)
    (hw : ∀ i x, .write (runCalls .init H).handles.length i x ∉ H') :
    (runCalls .init (H ++ .get o a :: H')).look (runCalls .init H).handles.length = some v := by
  have ha : a.isView = false := by
    cases h : a.isView with
    | false => rfl
    | true => exact absurd (shared_iff.2 h) hS
  obtain ⟨own, hI⟩ := reach H
  obtain ⟨own', hI'⟩ := hI.exec (.get o a)
  have e : runCalls .init (H ++ .get o a :: H') = runCalls (exec (runCalls .init H) (.get o a)) H' := by simp [runCalls]
  rw [e]
  generalize runCalls .init H = s at *
  cases hb : s.objs[o]? with
  | none => simp [St.read, hb] at hv
  | some b =>
    have hx : exec s (.get o a) = ⟨s.arrs ++ [a.cut (s.arr (b.loc a.slot))], s.objs,
        s.handles ++ [⟨s.arrs.length, 0, (a.cut (s.arr (b.loc a.slot))).length, o, a⟩]⟩ := by
      simp [exec, step, hb, St.get, ha]
    have hk : (exec s (.get o a)).handles[s.handles.length]? = some ⟨s.arrs.length, 0, (a.cut (s.arr (b.loc a.slot))).length, o, a⟩ := by
      rw [hx]
      simp
    rw [look_copy_run hI' hk ha hw]
    unfold St.look
    rw [hk]
    simp only [Option.map_some, List.drop_zero, Option.some.injEq]
    rw [hx, append_arr_new, List.take_length]
    simpa [St.read, hb] using hv

/-- C108 is false for the other getters, first: after any history, the array that `get_radial_distortion` returned changes when
`set_radial_distortion` is called on the object. -/
theorem C108_snapshot_refuted (H : List Call) (o : ℕ) (v : List ℝ) (s : St)
    (hs : step (runCalls .init (H ++ [.get o .radial])) (.set o .radial v) = .ok s) :
    s.look (runCalls .init H).handles.length = some v := by
  obtain ⟨own, hI⟩ := reach (H ++ [.get o .radial])
  have hr := (set_read hI hs).1
  rw [run_snoc] at hs hI
  generalize runCalls .init H = t at *
  cases hb : t.objs[o]? with
  | none => simp [exec, step, hb] at hs
  | some b =>
    have hx : exec t (.get o .radial) = ⟨t.arrs, t.objs, t.handles ++ [⟨b.added, 0, (Attr.radial.cut (t.arr b.added)).length, o, .radial⟩]⟩ := by
      simp [exec, step, hb, St.get, Attr.isView, Attr.slot, Obj.loc, Attr.off]
    rw [hx] at hs
    simp only [step, hb] at hs
    obtain ⟨h1, -, ⟨h2, -⟩ | ⟨h2, -⟩ | ⟨-, -, hc, rfl⟩⟩ := set_ok hs
    · cases h2
    · cases h2
    · have hb2 : ((⟨t.arrs, t.objs, t.handles ++ [⟨b.added, 0, (Attr.radial.cut (t.arr b.added)).length, o, .radial⟩]⟩ : St).put
          (b.loc Attr.radial.slot) Attr.radial.off v).objs[o]? = some b := hb
      unfold St.read at hr
      rw [hb2] at hr
      simp only [Option.map_some] at hr
      unfold St.look
      simp only [St.put, List.getElem?_concat_length, Option.map_some]
      have h3 : (Attr.radial.cut (t.arr b.added)).length = 3 := by
        rw [show (3 : ℕ) = Attr.radial.want from rfl, ← h1, ← hc]
        rfl
      rw [h3]
      exact hr

/-- C108 is false for the other getters, second: after any history, writing a number into the array that a getter of the
distortion or of the glass returned changes the object. -/
theorem C108_view_refuted (H : List Call) (o : ℕ) (a : Attr) (hS : Shared a) (y x : ℝ) (v : List ℝ)
    (hv : (runCalls .init H).read o a = some (y :: v)) :
    (runCalls .init (H ++ [.get o a, .write (runCalls .init H).handles.length 0 x])).read o a = some (x :: v) := by
  have ha := shared_iff.1 hS
  obtain ⟨own, hI⟩ := reach H
  have e : runCalls .init (H ++ [.get o a, .write (runCalls .init H).handles.length 0 x]) =
      exec (exec (runCalls .init H) (.get o a)) (.write (runCalls .init H).handles.length 0 x) := by simp [runCalls]
  rw [e]
  generalize runCalls .init H = s at *
  cases hb : s.objs[o]? with
  | none => simp [St.read, hb] at hv
  | some b =>
    have hc : a.cut (s.arr (b.loc a.slot)) = y :: v := by simpa [St.read, hb] using hv
    have hx : exec s (.get o a) = ⟨s.arrs, s.objs, s.handles ++ [⟨b.loc a.slot, a.off, (a.cut (s.arr (b.loc a.slot))).length, o, a⟩]⟩ := by
      simp [exec, step, hb, St.get, ha]
    have hl := cut_le a (s.arr (b.loc a.slot)) (by rw [hc]; simp)
    rw [hc, List.length_cons] at hl
    have hw : exec (exec s (.get o a)) (.write s.handles.length 0 x) = (exec s (.get o a)).put (b.loc a.slot) a.off [x] := by
      rw [hx]
      simp [exec, step, hc]
    rw [hw, hx]
    have hb2 : ((⟨s.arrs, s.objs, s.handles ++ [⟨b.loc a.slot, a.off, (a.cut (s.arr (b.loc a.slot))).length, o, a⟩]⟩ : St).put
          (b.loc a.slot) a.off [x]).objs[o]? = some b := hb
    unfold St.read
    rw [hb2]
    simp only [Option.map_some, Option.some.injEq]
    have hp : ∀ hs : List Handle, ((St.mk s.arrs s.objs hs).put (b.loc a.slot) a.off [x]).arr (b.loc a.slot) =
        splice (s.arr (b.loc a.slot)) a.off [x] := by
      intro hs
      have hlt : b.loc a.slot < (St.mk s.arrs s.objs hs).arrs.length := (hI.obj o b _ hb).1
      rw [put_arr _ hlt, if_pos rfl]
      rfl
    rw [hp]
    change a.cut (splice (s.arr (b.loc a.slot)) a.off [x]) = x :: v
    refine List.ext_getElem? fun i => ?_
    have hi := congrArg (fun l : List ℝ => l[i]?) hc
    rw [cut_get] at hi ⊢
    rw [splice_get (by simp only [List.length_singleton]; exact (show a.off + 1 ≤ (s.arr (b.loc a.slot)).length by omega))]
    simp only [List.length_singleton]
    cases i with
    | zero =>
      have : a.inCut 0 := by cases a <;> simp [Attr.inCut, Attr.want]
      rw [if_pos this, if_pos (by omega)]
      simp
    | succ i =>
      rw [if_neg (show ¬ (a.off ≤ a.off + (i + 1) ∧ a.off + (i + 1) < a.off + 1) by omega)]
      exact hi

/-! Concrete cases. -/

/-- Two objects, the second with distortion, some increments, and an array of the first object that was written to. -/
def exHistory : List Call :=
  [.new, .new, .set 1 .radial [1, 2, 3], .incr 1 .x0 5, .get 0 .glass, .write 0 2 7, .setAdded 0 [0, 0, 0, 0, 0, 2, 0]]

example : (runCalls .init exHistory).objs.length = 2 := by
  simp [exHistory, runCalls, exec, step, St.init, St.new, St.setAttr, St.incr, St.put, St.arr, St.get, Obj.loc, Attr.slot, Attr.want,
    Attr.cut, Attr.off, Attr.isView, defaultAdded, defaultGlass, Name.attr, Name.off, Name.len]

/-- The hypotheses of C108_setters_work and C108_rotation_partial. -/
example : (∀ o v, .setAdded o v ∈ exHistory → v.length = 7) ∧
    (∀ n x, .incr 1 n x ∈ exHistory → n.attr ≠ .angles ∧ n.attr ≠ .rot) := by
  constructor
  · intro o v h
    simp only [exHistory, List.mem_cons, reduceCtorEq, Call.setAdded.injEq, List.not_mem_nil, false_or, or_false] at h
    rw [h.2]
    rfl
  · intro n x h
    simp only [exHistory, List.mem_cons, reduceCtorEq, Call.incr.injEq, List.not_mem_nil, false_or, or_false] at h
    rw [h.2.1]
    exact ⟨by decide, by decide⟩

/-- The hypotheses of C108_set_get_partial: the setter returns, and what follows does not touch the attribute. -/
example : ∃ s, step (runCalls .init [.new, .new]) (.set 1 .radial [1, 2, 3]) = .ok s ∧
    Untouched s [.set 0 .radial [0, 0, 0], .get 1 .radial, .incr 1 .x0 5, .set 1 .decent [4, 5]] 1 .radial := by
  refine ⟨(runCalls .init [.new, .new]).put 7 0 [1, 2, 3], ?_, ?_⟩
  · simp [runCalls, exec, step, St.init, St.new, St.setAttr, St.put, St.arr, Obj.loc, Attr.slot, Attr.want, Attr.cut, Attr.off, defaultAdded]
  · simp [Untouched, Touches, Name.attr]

/-- The glass vector of the second object can be read and its array written to (C108_view_refuted). -/
example : (runCalls .init [.new, .new]).read 1 .glass = some [0, 0, 1] := by
  simp [runCalls, exec, step, St.init, St.new, St.read, St.arr, Obj.loc, Attr.slot, Attr.cut, defaultGlass]

end Verif.CalObj
