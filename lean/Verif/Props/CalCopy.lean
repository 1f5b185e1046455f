/-
C139: copying a calibration (calibration.py:387-394).
-/
import Verif.Proofs.CalibObj

namespace Verif.CalObj

open Verif.Geo

/-- C139, what holds (partial): after any history `copy` returns, for every pair of objects that exist, and does not disturb the
object that is copied, nor any third one. Missing: that the values arrive (`C139_nothing_copied_refuted`). -/
theorem C139_source_kept_partial (H : List Call) (o o' : ℕ) (ho : o < (runCalls .init H).objs.length)
    (ho' : o' < (runCalls .init H).objs.length) :
    ∃ s, step (runCalls .init H) (.copy o o') = .ok s ∧
      ∀ o'', (o'' = o ∨ o'' ≠ o') → ∀ a, s.read o'' a = (runCalls .init H).read o'' a := by
  obtain ⟨own, hI⟩ := reach H
  refine ⟨(runCalls .init H).copy, ?_, fun o'' _ a => copy_look _ o'' a hI⟩
  simp only [step, List.getElem?_eq_getElem ho, List.getElem?_eq_getElem ho']

/-- C139 is false, for all objects and after every history: the object that is copied to keeps all its values. It agrees with the
source in an attribute after the call exactly if it did so before. -/
theorem C139_nothing_copied_refuted (H : List Call) (o o' : ℕ) (s : St)
    (hs : step (runCalls .init H) (.copy o o') = .ok s) :
    (∀ a, s.read o' a = (runCalls .init H).read o' a) ∧
    ∀ a, s.read o' a = s.read o a ↔ (runCalls .init H).read o' a = (runCalls .init H).read o a := by
  obtain ⟨own, hI⟩ := reach H
  rw [copy_ok hs]
  refine ⟨fun a => copy_look _ o' a hI, fun a => ?_⟩
  rw [copy_look _ o' a hI, copy_look _ o a hI]

/-- C139 is false, a case: object 0 is moved to (1, 2, 3) and copied to object 1, which is then still at the origin. -/
theorem C139_refuted : ∃ s, step (runCalls .init [.new, .new, .set 0 .pos [1, 2, 3]]) (.copy 0 1) = .ok s ∧
    s.read 0 .pos = some [1, 2, 3] ∧ s.read 1 .pos = some [0, 0, 0] := by
  obtain ⟨s, hs, hk⟩ := C139_source_kept_partial [.new, .new, .set 0 .pos [1, 2, 3]] 0 1
    (by simp [runCalls, exec, step, St.init, St.new, St.setAttr, St.put, St.arr, Obj.loc, Attr.slot, Attr.want, Attr.cut, Attr.off, defaultExt])
    (by simp [runCalls, exec, step, St.init, St.new, St.setAttr, St.put, St.arr, Obj.loc, Attr.slot, Attr.want, Attr.cut, Attr.off, defaultExt])
  refine ⟨s, hs, ?_, ?_⟩
  · rw [hk 0 (Or.inl rfl)]
    simp [runCalls, exec, step, St.init, St.new, St.setAttr, St.put, St.arr, St.read, splice, Obj.loc, Attr.slot, Attr.want, Attr.cut, Attr.off, defaultExt]
  · rw [(C139_nothing_copied_refuted _ 0 1 s hs).1]
    simp [runCalls, exec, step, St.init, St.new, St.setAttr, St.put, St.arr, St.read, splice, Obj.loc, Attr.slot, Attr.want, Attr.cut, Attr.off, defaultExt]

end Verif.CalObj
