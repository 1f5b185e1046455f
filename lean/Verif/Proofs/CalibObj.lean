/-
Proofs for C108: every history of calls keeps the arrays of the objects apart.
-/
import Verif.Spec.CalibObj
import Mathlib.Tactic.Ring
import Mathlib.Tactic.Linarith

namespace Verif.CalObj

open Verif.Geo

/-! Arrays. -/

theorem splice_length {l v : List ℝ} {off : ℕ} (h : off + v.length ≤ l.length) : (splice l off v).length = l.length := by
  simp only [splice, List.length_append, List.length_take, List.length_drop]
  omega

theorem splice_get {l v : List ℝ} {off : ℕ} (h : off + v.length ≤ l.length) (i : ℕ) :
    (splice l off v)[i]? = if off ≤ i ∧ i < off + v.length then v[i - off]? else l[i]? := by
  have hl : (l.take off).length = off := by rw [List.length_take]; omega
  unfold splice
  by_cases h1 : i < off
  · rw [if_neg (by omega), List.append_assoc, List.getElem?_append_left (by omega), List.getElem?_take, if_pos h1]
  · by_cases h2 : i < off + v.length
    · rw [if_pos (by omega), List.append_assoc, List.getElem?_append_right (by omega), hl,
        List.getElem?_append_left (by omega)]
    · rw [if_neg (by omega), List.getElem?_append_right (by rw [List.length_append]; omega), List.getElem?_drop,
        List.length_append, hl]
      congr 1
      omega

/-- Index `i` of the attribute exists in a long array. -/
def Attr.inCut (a : Attr) (i : ℕ) : Prop :=
  match a with
  | .affine | .glass => True
  | a => i < a.want

instance (a : Attr) (i : ℕ) : Decidable (a.inCut i) := by
  cases a <;> simp only [Attr.inCut] <;> infer_instance

theorem cut_get (a : Attr) (l : List ℝ) (i : ℕ) : (a.cut l)[i]? = if a.inCut i then l[a.off + i]? else none := by
  cases a <;> simp [Attr.cut, Attr.inCut, Attr.want, Attr.off, List.getElem?_take, List.getElem?_drop] <;> congr

theorem cut_length {a : Attr} {l l' : List ℝ} (h : l.length = l'.length) : (a.cut l).length = (a.cut l').length := by
  cases a <;> simp [Attr.cut, h]

theorem cut_le (a : Attr) (l : List ℝ) : (a.cut l).length ≠ 0 → a.off + (a.cut l).length ≤ l.length := by
  cases a <;> simp [Attr.cut, Attr.off] <;> omega

/-- The entries from `off` on, `n` of them, are not entries of the attribute. -/
def Attr.Apart (a : Attr) (off n : ℕ) : Prop := off + n ≤ a.off ∨ (a ≠ .affine ∧ a ≠ .glass ∧ a.off + a.want ≤ off)

theorem cut_splice {a : Attr} {l v : List ℝ} {off : ℕ} (h : off + v.length ≤ l.length) (hd : a.Apart off v.length) :
    a.cut (splice l off v) = a.cut l := by
  refine List.ext_getElem? fun i => ?_
  rw [cut_get, cut_get]
  by_cases hi : a.inCut i
  · rw [if_pos hi, if_pos hi, splice_get h, if_neg]
    rintro ⟨h1, h2⟩
    rcases hd with hd | ⟨h3, h4, h5⟩
    · omega
    · have : i < a.want := by cases a <;> simp_all [Attr.inCut]
      omega
  · rw [if_neg hi, if_neg hi]

theorem cut_splice_self {a : Attr} {l v : List ℝ} (hv : v.length = a.want) (hc : (a.cut l).length = v.length) :
    a.cut (splice l a.off v) = v := by
  have hle : a.off + v.length ≤ l.length := by
    rw [← hc]
    refine cut_le a l ?_
    rw [hc, hv]
    cases a <;> simp [Attr.want]
  have hlen : (a.cut (splice l a.off v)).length = v.length := (cut_length (splice_length hle)).trans hc
  refine List.ext_getElem? fun i => ?_
  by_cases hi : i < v.length
  · rw [cut_get, if_pos, splice_get hle, if_pos (by omega)]
    · congr 1
      omega
    · rw [hv] at hi
      cases a <;> first | exact hi | trivial
  · rw [List.getElem?_eq_none (by omega), List.getElem?_eq_none (by omega)]

/-! Places. -/

theorem put_arr (s : St) {loc off : ℕ} {v : List ℝ} (hl : loc < s.arrs.length) (l : ℕ) :
    (s.put loc off v).arr l = if l = loc then splice (s.arr loc) off v else s.arr l := by
  unfold St.put St.arr
  simp only [List.getD_eq_getElem?_getD]
  rw [List.getElem?_set]
  by_cases h : loc = l
  · rw [if_pos h, if_pos h.symm, if_pos hl]
    rfl
  · rw [if_neg h, if_neg (fun e => h e.symm)]

theorem put_length (s : St) {loc off : ℕ} {v : List ℝ} (hl : loc < s.arrs.length) (h : off + v.length ≤ (s.arr loc).length) (l : ℕ) :
    ((s.put loc off v).arr l).length = (s.arr l).length := by
  rw [put_arr s hl]
  split_ifs with h1
  · rw [h1, splice_length h]
  · rfl

theorem append_arr (s : St) (vs : List (List ℝ)) (o : List Obj) (hs : List Handle) {l : ℕ} (hl : l < s.arrs.length) :
    (St.mk (s.arrs ++ vs) o hs).arr l = s.arr l := by
  simp only [St.arr, List.getD_eq_getElem?_getD]
  rw [List.getElem?_append_left hl]

theorem append_arr_new (s : St) (v : List ℝ) (o : List Obj) (hs : List Handle) :
    (St.mk (s.arrs ++ [v]) o hs).arr s.arrs.length = v := by
  simp [St.arr]

/-- What holds of every state a history leads to. `own` says of which array of which object a place is. -/
structure Inv (s : St) (own : ℕ → Option (ℕ × Slot)) : Prop where
  obj : ∀ (o : ℕ) (b : Obj) (sl : Slot), s.objs[o]? = some b → b.loc sl < s.arrs.length ∧ own (b.loc sl) = some (o, sl)
  ext : ∀ (o : ℕ) (b : Obj), s.objs[o]? = some b → (s.arr b.ext).length = 15
  int : ∀ (o : ℕ) (b : Obj), s.objs[o]? = some b → (s.arr b.int).length = 3
  han : ∀ (k : ℕ) (h : Handle), s.handles[k]? = some h → h.loc < s.arrs.length ∧ (h.len ≠ 0 → h.off + h.len ≤ (s.arr h.loc).length)
  view : ∀ (k : ℕ) (h : Handle), s.handles[k]? = some h → h.attr.isView = true →
    own h.loc = some (h.obj, h.attr.slot) ∧ h.off = h.attr.off ∧ (h.attr.cut (s.arr h.loc)).length = h.len
  cop : ∀ (k : ℕ) (h : Handle), s.handles[k]? = some h → h.attr.isView = false → own h.loc = none
  uniq : ∀ (k k' : ℕ) (h h' : Handle), s.handles[k]? = some h → s.handles[k']? = some h' → h.attr.isView = false →
    h'.attr.isView = false → h.loc = h'.loc → k = k'

theorem Inv.extLt {s : St} {own} (hI : Inv s own) {o : ℕ} {b : Obj} (hb : s.objs[o]? = some b) : b.ext < s.arrs.length :=
  (hI.obj o b .ext hb).1

theorem Inv.intLt {s : St} {own} (hI : Inv s own) {o : ℕ} {b : Obj} (hb : s.objs[o]? = some b) : b.int < s.arrs.length :=
  (hI.obj o b .int hb).1

theorem Inv.addedLt {s : St} {own} (hI : Inv s own) {o : ℕ} {b : Obj} (hb : s.objs[o]? = some b) : b.added < s.arrs.length :=
  (hI.obj o b .added hb).1

theorem Inv.put {s : St} {own} (hI : Inv s own) {loc off : ℕ} {v : List ℝ} (hl : loc < s.arrs.length)
    (h : off + v.length ≤ (s.arr loc).length) : Inv (s.put loc off v) own := by
  have e : (s.put loc off v).arrs.length = s.arrs.length := by simp [St.put]
  refine ⟨?_, ?_, ?_, ?_, ?_, hI.cop, hI.uniq⟩
  · intro o b sl hb
    rw [e]
    exact hI.obj o b sl hb
  · intro o b hb
    rw [put_length s hl h]
    exact hI.ext o b hb
  · intro o b hb
    rw [put_length s hl h]
    exact hI.int o b hb
  · intro k g hg
    rw [put_length s hl h, e]
    exact hI.han k g hg
  · intro k g hg hv
    rw [cut_length (put_length s hl h _)]
    exact hI.view k g hg hv

/-- Only the array written to and the entries written to change. -/
theorem put_read {s : St} {own} (hI : Inv s own) {loc off : ℕ} {v : List ℝ} (hl : loc < s.arrs.length)
    (h : off + v.length ≤ (s.arr loc).length) {o : ℕ} {a : Attr}
    (hd : own loc = some (o, a.slot) → a.Apart off v.length) : (s.put loc off v).read o a = s.read o a := by
  unfold St.read
  have e : (s.put loc off v).objs = s.objs := rfl
  rw [e]
  cases hb : s.objs[o]? with
  | none => rfl
  | some b =>
    simp only [Option.map_some, Option.some.injEq]
    rw [put_arr s hl]
    split_ifs with h1
    · rw [h1]
      refine cut_splice h (hd ?_)
      rw [← h1]
      exact (hI.obj o b a.slot hb).2
    · rfl

/-- A new array for one slot. -/
theorem Inv.replace {s : St} {own} (hI : Inv s own) {o : ℕ} {b : Obj} (hb : s.objs[o]? = some b) (v : List ℝ) (b' : Obj) (sl0 : Slot)
    (h0 : sl0 = .glass ∨ sl0 = .added)
    (hb' : ∀ sl, b'.loc sl = if sl = sl0 then s.arrs.length else b.loc sl) :
    ∃ own', Inv ⟨s.arrs ++ [v], s.objs.set o b', s.handles⟩ own' := by
  have ho : o < s.objs.length := by
    by_contra hc
    rw [List.getElem?_eq_none (by omega)] at hb
    cases hb
  have key : ∀ (o1 : ℕ) (b1 : Obj), (s.objs.set o b')[o1]? = some b1 → (o1 = o ∧ b1 = b') ∨ (o1 ≠ o ∧ s.objs[o1]? = some b1) := by
    intro o1 b1 h1
    rw [List.getElem?_set] at h1
    split_ifs at h1 with g1
    · left
      exact ⟨g1.symm, (Option.some.inj h1).symm⟩
    · right
      exact ⟨fun e => g1 e.symm, h1⟩
  have len : (s.arrs ++ [v]).length = s.arrs.length + 1 := by simp
  refine ⟨fun l => if l = s.arrs.length then some (o, sl0) else own l, ?_, ?_, ?_, ?_, ?_, ?_, hI.uniq⟩
  · intro o1 b1 sl h1
    simp only [len]
    rcases key o1 b1 h1 with ⟨rfl, rfl⟩ | ⟨g1, g2⟩
    · rw [hb' sl]
      by_cases e : sl = sl0
      · rw [if_pos e, if_pos rfl, e]
        exact ⟨by omega, rfl⟩
      · have := hI.obj o1 b sl hb
        rw [if_neg e, if_neg (by omega)]
        exact ⟨by omega, this.2⟩
    · have := hI.obj o1 b1 sl g2
      rw [if_neg (by omega)]
      exact ⟨by omega, this.2⟩
  · intro o1 b1 h1
    rcases key o1 b1 h1 with ⟨rfl, rfl⟩ | ⟨g1, g2⟩
    · have e : b1.ext = b.ext := (hb' .ext).trans (if_neg (by rcases h0 with rfl | rfl <;> decide))
      rw [e, append_arr s _ _ _ (hI.extLt hb)]
      exact hI.ext o1 b hb
    · rw [append_arr s _ _ _ (hI.extLt g2)]
      exact hI.ext o1 b1 g2
  · intro o1 b1 h1
    rcases key o1 b1 h1 with ⟨rfl, rfl⟩ | ⟨g1, g2⟩
    · have e : b1.int = b.int := (hb' .int).trans (if_neg (by rcases h0 with rfl | rfl <;> decide))
      rw [e, append_arr s _ _ _ (hI.intLt hb)]
      exact hI.int o1 b hb
    · rw [append_arr s _ _ _ (hI.intLt g2)]
      exact hI.int o1 b1 g2
  · intro k g hg
    have := hI.han k g hg
    rw [append_arr s _ _ _ this.1]
    simp only [len]
    exact ⟨by omega, this.2⟩
  · intro k g hg hv
    have h1 := (hI.han k g hg).1
    rw [append_arr s _ _ _ h1]
    rw [if_neg (by omega)]
    exact hI.view k g hg hv
  · intro k g hg hv
    have h1 := (hI.han k g hg).1
    rw [if_neg (by omega)]
    exact hI.cop k g hg hv

theorem replace_read {s : St} {own} (hI : Inv s own) {o : ℕ} {b : Obj} (hb : s.objs[o]? = some b) (v : List ℝ) (b' : Obj) (sl0 : Slot)
    (hb' : ∀ sl, b'.loc sl = if sl = sl0 then s.arrs.length else b.loc sl) (o' : ℕ) (a : Attr) (hd : o = o' → a.slot ≠ sl0) :
    (St.mk (s.arrs ++ [v]) (s.objs.set o b') s.handles).read o' a = s.read o' a := by
  unfold St.read
  simp only [List.getElem?_set]
  by_cases e : o = o'
  · subst e
    have ho : o < s.objs.length := by
      by_contra hc
      rw [List.getElem?_eq_none (by omega)] at hb
      cases hb
    rw [if_pos rfl, if_pos ho, hb]
    simp only [Option.map_some, hb', if_neg (hd rfl)]
    rw [append_arr s _ _ _ (hI.obj o b _ hb).1]
  · rw [if_neg e]
    cases h1 : s.objs[o']? with
    | none => rfl
    | some b1 =>
      simp only [Option.map_some]
      rw [append_arr s _ _ _ (hI.obj o' b1 _ h1).1]

theorem Inv.new {s : St} {own} (hI : Inv s own) : ∃ own', Inv s.new own' := by
  have key : ∀ (o1 : ℕ) (b1 : Obj), s.new.objs[o1]? = some b1 →
      s.objs[o1]? = some b1 ∨ (o1 = s.objs.length ∧ b1 = ⟨s.arrs.length, s.arrs.length + 1, s.arrs.length + 2, s.arrs.length + 3⟩) := by
    intro o1 b1 h1
    simp only [St.new, List.getElem?_append] at h1
    split_ifs at h1 with g
    · exact Or.inl h1
    · right
      have : o1 - s.objs.length = 0 := by
        by_contra hc
        rw [List.getElem?_eq_none (by simp; omega)] at h1
        cases h1
      rw [this] at h1
      exact ⟨by omega, (Option.some.inj h1).symm⟩
  have len : s.new.arrs.length = s.arrs.length + 4 := by simp [St.new]
  have old : ∀ l, l < s.arrs.length → s.new.arr l = s.arr l := fun l hl => append_arr s _ _ _ hl
  have n0 : (s.new.arr s.arrs.length).length = 15 := by
    simp [St.new, St.arr, defaultExt, rotEntries, entries]
  have n1 : (s.new.arr (s.arrs.length + 1)).length = 3 := by
    simp [St.new, St.arr, defaultInt]
  refine ⟨fun l => if l = s.arrs.length then some (s.objs.length, .ext) else if l = s.arrs.length + 1 then some (s.objs.length, .int)
    else if l = s.arrs.length + 2 then some (s.objs.length, .glass) else if l = s.arrs.length + 3 then some (s.objs.length, .added)
    else own l, ?_, ?_, ?_, ?_, ?_, ?_, hI.uniq⟩
  · intro o1 b1 sl h1
    rw [len]
    rcases key o1 b1 h1 with g | ⟨rfl, rfl⟩
    · have := hI.obj o1 b1 sl g
      refine ⟨by omega, ?_⟩
      rw [if_neg (by omega), if_neg (by omega), if_neg (by omega), if_neg (by omega)]
      exact this.2
    · cases sl <;> simp [Obj.loc]
  · intro o1 b1 h1
    rcases key o1 b1 h1 with g | ⟨rfl, rfl⟩
    · rw [old _ (hI.extLt g)]
      exact hI.ext o1 b1 g
    · exact n0
  · intro o1 b1 h1
    rcases key o1 b1 h1 with g | ⟨rfl, rfl⟩
    · rw [old _ (hI.intLt g)]
      exact hI.int o1 b1 g
    · exact n1
  · intro k g hg
    have := hI.han k g hg
    rw [old _ this.1, len]
    exact ⟨by omega, this.2⟩
  · intro k g hg hv
    have h1 := (hI.han k g hg).1
    rw [old _ h1]
    rw [if_neg (by omega), if_neg (by omega), if_neg (by omega), if_neg (by omega)]
    exact hI.view k g hg hv
  · intro k g hg hv
    have h1 := (hI.han k g hg).1
    rw [if_neg (by omega), if_neg (by omega), if_neg (by omega), if_neg (by omega)]
    exact hI.cop k g hg hv

theorem Inv.get {s : St} {own} (hI : Inv s own) {o : ℕ} {b : Obj} (hb : s.objs[o]? = some b) (a : Attr) :
    ∃ own', Inv (s.get o b a) own' := by
  have hloc := hI.obj o b a.slot hb
  unfold St.get
  simp only
  split_ifs with hv
  · have key : ∀ (k : ℕ) (h : Handle), (s.handles ++ [(⟨b.loc a.slot, a.off, (a.cut (s.arr (b.loc a.slot))).length, o, a⟩ : Handle)])[k]? = some h →
        s.handles[k]? = some h ∨ h = ⟨b.loc a.slot, a.off, (a.cut (s.arr (b.loc a.slot))).length, o, a⟩ := by
      intro k h hk
      rw [List.getElem?_append] at hk
      split_ifs at hk
      · exact Or.inl hk
      · right
        rw [List.getElem?_singleton] at hk
        split_ifs at hk
        exact (Option.some.inj hk).symm
    refine ⟨own, hI.obj, hI.ext, hI.int, ?_, ?_, ?_, ?_⟩
    · intro k h hk
      rcases key k h hk with g | rfl
      · exact hI.han k h g
      · exact ⟨hloc.1, cut_le a _⟩
    · intro k h hk hv'
      rcases key k h hk with g | rfl
      · exact hI.view k h g hv'
      · exact ⟨hloc.2, rfl, rfl⟩
    · intro k h hk hv'
      rcases key k h hk with g | rfl
      · exact hI.cop k h g hv'
      · rw [hv] at hv'
        cases hv'
    · intro k k' h h' hk hk' h1 h2 e
      simp only at hk hk'
      rw [List.getElem?_append] at hk hk'
      split_ifs at hk hk' with c1 c2 c2
      · exact hI.uniq k k' h h' hk hk' h1 h2 e
      · rw [List.getElem?_singleton] at hk'
        split_ifs at hk'
        cases Option.some.inj hk'
        rw [hv] at h2
        cases h2
      · rw [List.getElem?_singleton] at hk
        split_ifs at hk
        cases Option.some.inj hk
        rw [hv] at h1
        cases h1
      · rw [List.getElem?_singleton] at hk
        split_ifs at hk
        cases Option.some.inj hk
        rw [hv] at h1
        cases h1
  · have hv : a.isView = false := by simpa using hv
    have len : (s.arrs ++ [a.cut (s.arr (b.loc a.slot))]).length = s.arrs.length + 1 := by simp
    have key : ∀ (k : ℕ) (h : Handle), (s.handles ++ [(⟨s.arrs.length, 0, (a.cut (s.arr (b.loc a.slot))).length, o, a⟩ : Handle)])[k]? = some h →
        s.handles[k]? = some h ∨ (k = s.handles.length ∧ h = ⟨s.arrs.length, 0, (a.cut (s.arr (b.loc a.slot))).length, o, a⟩) := by
      intro k h hk
      rw [List.getElem?_append] at hk
      split_ifs at hk
      · exact Or.inl hk
      · right
        rw [List.getElem?_singleton] at hk
        split_ifs at hk
        exact ⟨by omega, (Option.some.inj hk).symm⟩
    refine ⟨fun l => if l = s.arrs.length then none else own l, ?_, ?_, ?_, ?_, ?_, ?_, ?_⟩
    · intro o1 b1 sl h1
      have := hI.obj o1 b1 sl h1
      simp only [len]
      rw [if_neg (by omega)]
      exact ⟨by omega, this.2⟩
    · intro o1 b1 h1
      rw [append_arr s _ _ _ (hI.extLt h1)]
      exact hI.ext o1 b1 h1
    · intro o1 b1 h1
      rw [append_arr s _ _ _ (hI.intLt h1)]
      exact hI.int o1 b1 h1
    · intro k h hk
      simp only [len]
      rcases key k h hk with g | ⟨-, rfl⟩
      · have := hI.han k h g
        rw [append_arr s _ _ _ this.1]
        exact ⟨by omega, this.2⟩
      · rw [append_arr_new]
        exact ⟨by simp, fun _ => by simp⟩
    · intro k h hk hv'
      rcases key k h hk with g | ⟨-, rfl⟩
      · have h1 := (hI.han k h g).1
        rw [append_arr s _ _ _ h1]
        rw [if_neg (by omega)]
        exact hI.view k h g hv'
      · rw [hv] at hv'
        cases hv'
    · intro k h hk hv'
      rcases key k h hk with g | ⟨-, rfl⟩
      · have h1 := (hI.han k h g).1
        rw [if_neg (by omega)]
        exact hI.cop k h g hv'
      · simp
    · intro k k' h h' hk hk' h1 h2 e
      rcases key k h hk with g | ⟨ek, rfl⟩ <;> rcases key k' h' hk' with g' | ⟨ek', rfl⟩
      · exact hI.uniq k k' h h' g g' h1 h2 e
      · have := (hI.han k h g).1
        simp only at e
        omega
      · have := (hI.han k' h' g').1
        simp only at e
        omega
      · omega

theorem get_read {s : St} {own} (hI : Inv s own) {o : ℕ} (b : Obj) (a : Attr) (o' : ℕ) (a' : Attr) :
    (s.get o b a).read o' a' = s.read o' a' := by
  unfold St.get
  simp only
  split_ifs
  · rfl
  · unfold St.read
    simp only
    cases h1 : s.objs[o']? with
    | none => rfl
    | some b1 =>
      simp only [Option.map_some]
      rw [append_arr s _ _ _ (hI.obj o' b1 _ h1).1]

theorem rotEntries_length (m : List ℝ) : (rotEntries m).length = 9 := by simp [rotEntries, entries]

/-! Calls. -/

theorem angles_len {s : St} {own} (hI : Inv s own) {o : ℕ} {b : Obj} (hb : s.objs[o]? = some b) :
    6 + (rotEntries (Attr.angles.cut (s.arr b.ext))).length ≤ (s.arr b.ext).length := by
  rw [rotEntries_length, hI.ext o b hb]

theorem Inv.update {s : St} {own} (hI : Inv s own) {o : ℕ} {b : Obj} (hb : s.objs[o]? = some b) : Inv (s.update b) own :=
  hI.put (hI.extLt hb) (angles_len hI hb)

theorem incr_len {s : St} {own} (hI : Inv s own) {o : ℕ} {b : Obj} (hb : s.objs[o]? = some b) (n : Name) (x : ℝ) :
    n.off + ((((s.arr (b.loc n.attr.slot)).drop n.off).take n.len).map (· + x)).length ≤ (s.arr (b.loc n.attr.slot)).length := by
  have h1 := hI.ext o b hb
  have h2 := hI.int o b hb
  simp only [List.length_map, List.length_take, List.length_drop]
  cases n <;> simp only [Name.attr, Attr.slot, Obj.loc, Name.off, Name.len, h1, h2] <;> omega

theorem list15 {l : List ℝ} (h : l.length = 15) : ∃ a0 a1 a2 a3 a4 a5 a6 a7 a8 a9 a10 a11 a12 a13 a14 : ℝ,
    l = [a0, a1, a2, a3, a4, a5, a6, a7, a8, a9, a10, a11, a12, a13, a14] := by
  match l, h with
  | [a0, a1, a2, a3, a4, a5, a6, a7, a8, a9, a10, a11, a12, a13, a14], _ =>
    exact ⟨a0, a1, a2, a3, a4, a5, a6, a7, a8, a9, a10, a11, a12, a13, a14, rfl⟩

theorem list3 {l : List ℝ} (h : l.length = 3) : ∃ a0 a1 a2 : ℝ, l = [a0, a1, a2] := by
  match l, h with
  | [a0, a1, a2], _ => exact ⟨a0, a1, a2, rfl⟩

theorem incr_read {s : St} {own} (hI : Inv s own) {o : ℕ} {b : Obj} (hb : s.objs[o]? = some b) (n : Name) (x : ℝ) (a : Attr) :
    (s.incr b n x).read o a = (s.read o a).map (incremented n x a) := by
  have h1 := hI.ext o b hb
  have h2 := hI.int o b hb
  have hl : b.loc n.attr.slot < s.arrs.length := (hI.obj o b _ hb).1
  have e : (s.incr b n x).objs = s.objs := rfl
  simp only [St.read, e, hb, Option.map_some, Option.some.injEq]
  rw [St.incr, put_arr s hl]
  by_cases hs : n.attr.slot = a.slot
  · rw [if_pos (by rw [hs]), hs]
    obtain ⟨a0, a1, a2, a3, a4, a5, a6, a7, a8, a9, a10, a11, a12, a13, a14, e1⟩ := list15 h1
    obtain ⟨c0, c1, c2, e2⟩ := list3 h2
    cases n <;> cases a <;> simp_all [Name.attr, Attr.slot, Obj.loc, Name.off, Name.len, incremented, Attr.cut, Attr.off, splice, List.modify]
  · rw [if_neg]
    · cases n <;> cases a <;> simp_all [Name.attr, Attr.slot, incremented]
    · intro hq
      have g1 := (hI.obj o b n.attr.slot hb).2
      have g2 := (hI.obj o b a.slot hb).2
      rw [← hq] at g1
      rw [g1] at g2
      exact hs (Prod.mk.inj (Option.some.inj g2)).2

/-- The setters that write in place. -/
theorem set_plain {s : St} {o : ℕ} {b : Obj} {a : Attr} {v : List ℝ} (h1 : a ≠ .rot) (h2 : a ≠ .glass) (h3 : a ≠ .angles) :
    s.setAttr o b a v = if v.length ≠ a.want then .error .valueError
      else if (a.cut (s.arr (b.loc a.slot))).length ≠ v.length then .error .valueError
      else .ok (s.put (b.loc a.slot) a.off v) := by
  cases a <;> first | rfl | exact absurd rfl h1 | exact absurd rfl h2 | exact absurd rfl h3

/-- The ways in which a setter returns. -/
theorem set_ok {s s' : St} {o : ℕ} {b : Obj} {a : Attr} {v : List ℝ} (h : s.setAttr o b a v = .ok s') :
    v.length = a.want ∧ a ≠ .rot ∧
    ((a = .glass ∧ s' = ⟨s.arrs ++ [v], s.objs.set o { b with glass := s.arrs.length }, s.handles⟩) ∨
     (a = .angles ∧ s' = (s.put b.ext 3 v).update b) ∨
     (a ≠ .glass ∧ a ≠ .angles ∧ (a.cut (s.arr (b.loc a.slot))).length = v.length ∧ s' = s.put (b.loc a.slot) a.off v)) := by
  by_cases h1 : a = .rot
  · subst h1
    unfold St.setAttr at h
    split_ifs at h
  by_cases h2 : a = .glass
  · subst h2
    unfold St.setAttr at h
    split_ifs at h with hc
    cases h
    exact ⟨not_not.1 hc, h1, Or.inl ⟨rfl, rfl⟩⟩
  by_cases h3 : a = .angles
  · subst h3
    unfold St.setAttr at h
    split_ifs at h with hc
    cases h
    exact ⟨not_not.1 hc, h1, Or.inr (Or.inl ⟨rfl, rfl⟩)⟩
  rw [set_plain h1 h2 h3] at h
  split_ifs at h with hc hd
  cases h
  exact ⟨not_not.1 hc, h1, Or.inr (Or.inr ⟨h2, h3, not_not.1 hd, rfl⟩)⟩

theorem plain_len {s : St} {b : Obj} {a : Attr} {v : List ℝ} (hv : v.length = a.want)
    (hc : (a.cut (s.arr (b.loc a.slot))).length = v.length) : a.off + v.length ≤ (s.arr (b.loc a.slot)).length := by
  rw [← hc]
  refine cut_le a _ ?_
  rw [hc, hv]
  cases a <;> simp [Attr.want]

theorem glass_loc (b : Obj) (n : ℕ) (sl : Slot) : ({ b with glass := n } : Obj).loc sl = if sl = .glass then n else b.loc sl := by
  cases sl <;> rfl

theorem added_loc (b : Obj) (n : ℕ) (sl : Slot) : ({ b with added := n } : Obj).loc sl = if sl = .added then n else b.loc sl := by
  cases sl <;> rfl

theorem copy_ok {s s' : St} {o o' : ℕ} (h : step s (.copy o o') = .ok s') : s' = s.copy := by
  simp only [step] at h
  split at h
  · exact (Except.ok.inj h).symm
  · cases h

theorem copy_arr (s : St) {l : ℕ} (hl : l < s.arrs.length) : s.copy.arr l = s.arr l := append_arr s _ _ _ hl

theorem copy_look (s : St) (o : ℕ) (a : Attr) {own} (hI : Inv s own) : s.copy.read o a = s.read o a := by
  unfold St.read
  have e : s.copy.objs[o]? = s.objs[o]? := rfl
  rw [e]
  cases hb : s.objs[o]? with
  | none => rfl
  | some b =>
    simp only [Option.map_some]
    rw [copy_arr s (hI.obj o b _ hb).1]

theorem Inv.copy {s : St} {own} (hI : Inv s own) : Inv s.copy own := by
  refine ⟨?_, ?_, ?_, ?_, ?_, hI.cop, hI.uniq⟩
  · intro o b sl hb
    have := hI.obj o b sl hb
    refine ⟨?_, this.2⟩
    simp only [St.copy, St.new, List.length_append]
    omega
  · intro o b hb
    rw [copy_arr s (hI.extLt hb)]
    exact hI.ext o b hb
  · intro o b hb
    rw [copy_arr s (hI.intLt hb)]
    exact hI.int o b hb
  · intro k h hk
    have := hI.han k h hk
    rw [copy_arr s this.1]
    refine ⟨?_, this.2⟩
    simp only [St.copy, St.new, List.length_append]
    omega
  · intro k h hk hv
    rw [copy_arr s (hI.han k h hk).1]
    exact hI.view k h hk hv

/-- Every call keeps the invariant. -/
theorem Inv.step {s s' : St} {own} (hI : Inv s own) {c : Call} (h : step s c = .ok s') : ∃ own', Inv s' own' := by
  cases c with
  | new =>
    cases h
    exact hI.new
  | copy o o' =>
    rw [copy_ok h]
    exact ⟨own, hI.copy⟩
  | set o a v =>
    simp only [CalObj.step] at h
    cases hb : s.objs[o]? with
    | none => rw [hb] at h; cases h
    | some b =>
      rw [hb] at h
      obtain ⟨hv, -, ⟨-, rfl⟩ | ⟨rfl, rfl⟩ | ⟨-, -, hc, rfl⟩⟩ := set_ok h
      · exact hI.replace hb v _ .glass (Or.inl rfl) (glass_loc b _)
      · have h1 : Inv (s.put b.ext 3 v) own := hI.put (hI.extLt hb) (by rw [hv, hI.ext o b hb]; decide)
        exact ⟨own, h1.update (o := o) hb⟩
      · exact ⟨own, hI.put (hI.obj o b _ hb).1 (plain_len hv hc)⟩
  | setAdded o v =>
    simp only [CalObj.step] at h
    cases hb : s.objs[o]? with
    | none => rw [hb] at h; cases h
    | some b =>
      rw [hb] at h
      cases h
      exact hI.replace hb v _ .added (Or.inr rfl) (added_loc b _)
  | incr o n x =>
    simp only [CalObj.step] at h
    cases hb : s.objs[o]? with
    | none => rw [hb] at h; cases h
    | some b =>
      rw [hb] at h
      cases h
      exact ⟨own, hI.put (hI.obj o b _ hb).1 (incr_len hI hb n x)⟩
  | update o =>
    simp only [CalObj.step] at h
    cases hb : s.objs[o]? with
    | none => rw [hb] at h; cases h
    | some b =>
      rw [hb] at h
      cases h
      exact ⟨own, hI.update hb⟩
  | get o a =>
    simp only [CalObj.step] at h
    cases hb : s.objs[o]? with
    | none => rw [hb] at h; cases h
    | some b =>
      rw [hb] at h
      cases h
      exact hI.get hb a
  | write k i x =>
    simp only [CalObj.step] at h
    cases hk : s.handles[k]? with
    | none => rw [hk] at h; cases h
    | some g =>
      rw [hk] at h
      simp only at h
      split_ifs at h with hi
      cases h
      have := hI.han k g hk
      exact ⟨own, hI.put this.1 (by have := this.2 (by omega); simp only [List.length_singleton]; omega)⟩

theorem Inv.exec {s : St} {own} (hI : Inv s own) (c : Call) : ∃ own', Inv (exec s c) own' := by
  unfold CalObj.exec
  cases h : CalObj.step s c with
  | ok s' => exact hI.step h
  | error e => exact ⟨own, hI⟩

theorem Inv.run {s : St} {own} (hI : Inv s own) (cs : List Call) : ∃ own', Inv (runCalls s cs) own' := by
  induction cs generalizing s own with
  | nil => exact ⟨own, hI⟩
  | cons c cs ih =>
    obtain ⟨own', h'⟩ := hI.exec c
    exact ih h'

theorem Inv.init : Inv .init fun _ => none :=
  ⟨by simp [St.init], by simp [St.init], by simp [St.init], by simp [St.init], by simp [St.init], by simp [St.init],
    by simp [St.init]⟩

theorem reach (H : List Call) : ∃ own, Inv (runCalls .init H) own := Inv.init.run H

/-- Different attributes in the same array do not overlap. -/
theorem apart_of_ne {a a' : Attr} (h : a' ≠ a) (hs : a'.slot = a.slot) : a.Apart a'.off a'.want := by
  cases a <;> cases a' <;> simp_all [Attr.slot, Attr.Apart, Attr.off, Attr.want]

theorem apart_mono {a : Attr} {off off' n n' : ℕ} (h : a.Apart off n) (h1 : off ≤ off') (h2 : off' + n' ≤ off + n) : a.Apart off' n' := by
  rcases h with h | ⟨h3, h4, h5⟩
  · exact Or.inl (by omega)
  · exact Or.inr ⟨h3, h4, by omega⟩

/-- A view of an attribute holds no other attribute. -/
theorem shared_iff {a : Attr} : Shared a ↔ a.isView = true := by cases a <;> simp [Shared, Attr.isView]

theorem apart_view {a a' : Attr} (h : a' ≠ a) (hs : a'.slot = a.slot) {l : List ℝ} {i : ℕ} (hv : a'.isView = true)
    (hi : i < (a'.cut l).length) : a.Apart (a'.off + i) 1 := by
  by_cases e : a' = .affine
  · subst e
    cases a <;> simp_all [Attr.slot, Attr.Apart, Attr.off, Attr.want, Attr.isView] <;> omega
  · have h1 := apart_of_ne h hs
    refine apart_mono h1 (by omega) ?_
    have : i < a'.want := by
      cases a' <;> simp_all [Attr.cut, Attr.isView, Attr.want, Attr.slot]
      cases a <;> simp_all
    omega

theorem name_apart {n : Name} {a : Attr} (h : n.attr ≠ a) (hs : n.attr.slot = a.slot) : a.Apart n.off n.len := by
  refine apart_mono (apart_of_ne h hs) ?_ ?_ <;> cases n <;> simp [Name.attr, Attr.off, Name.off, Name.len, Attr.want]

/-- A call that does not touch an attribute does not change it. -/
theorem frame {s : St} {own} (hI : Inv s own) {c : Call} {o : ℕ} {a : Attr} (ht : ¬ Touches s c o a) :
    (exec s c).read o a = s.read o a := by
  unfold CalObj.exec
  cases h : CalObj.step s c with
  | error e => rfl
  | ok s' =>
    simp only
    cases c with
    | new =>
      cases h
      unfold St.read
      simp only [St.new, List.getElem?_append]
      split_ifs with ho
      · rw [List.getElem?_eq_getElem ho]
        simp only [Option.map_some]
        rw [append_arr s _ _ _ (hI.obj o _ _ (List.getElem?_eq_getElem ho)).1]
      · have e1 : s.objs[o]? = none := List.getElem?_eq_none (by omega)
        have e2 : o - s.objs.length ≠ 0 := fun e => ht (by simp only [Touches]; omega)
        rw [e1, List.getElem?_eq_none (by simp only [List.length_singleton]; omega)]
        rfl
    | copy o1 o2 =>
      rw [copy_ok h]
      exact copy_look s o a hI
    | set o' a' v =>
      simp only [CalObj.step] at h
      simp only [Touches, not_and_or, not_or] at ht
      cases hb : s.objs[o']? with
      | none => rw [hb] at h; cases h
      | some b =>
        rw [hb] at h
        obtain ⟨hv, -, ⟨rfl, rfl⟩ | ⟨rfl, rfl⟩ | ⟨-, -, hc, rfl⟩⟩ := set_ok h
        · refine replace_read hI hb v _ .glass (glass_loc b _) o a ?_
          intro e
          rcases ht with ht | ⟨ht, -⟩
          · exact absurd e ht
          · cases a <;> simp_all [Attr.slot]
        · have hl : 3 + v.length ≤ (s.arr b.ext).length := by rw [hv, hI.ext o' b hb]; decide
          have h1 : Inv (s.put b.ext 3 v) own := hI.put (hI.extLt hb) hl
          have hown := (hI.obj o' b .ext hb).2
          have hap : own b.ext = some (o, a.slot) → a.Apart 3 3 ∧ a.Apart 6 9 := by
            intro e
            rw [show b.ext = b.loc .ext from rfl, hown] at e
            obtain ⟨e1, e2⟩ := Prod.mk.inj (Option.some.inj e)
            have h2 : Attr.angles ≠ a ∧ Attr.rot ≠ a := by
              rcases ht with ht | ⟨h3, h4⟩
              · exact absurd e1 ht
              · refine ⟨h3, fun e => ?_⟩
                rcases h4 with h4 | h4
                · exact h4 rfl
                · exact h4 e.symm
            exact ⟨apart_of_ne h2.1 e2, apart_of_ne h2.2 e2⟩
          unfold St.update
          rw [put_read h1 (h1.extLt (o := o') hb) (angles_len h1 (o := o') hb) (fun e => by
            rw [rotEntries_length]
            exact (hap e).2)]
          exact put_read hI (hI.extLt hb) hl (fun e => by
            rw [hv]
            exact (hap e).1)
        · refine put_read hI (hI.obj o' b _ hb).1 (plain_len hv hc) fun e => ?_
          rw [(hI.obj o' b _ hb).2] at e
          obtain ⟨e1, e2⟩ := Prod.mk.inj (Option.some.inj e)
          rw [hv]
          rcases ht with ht | ⟨h3, -⟩
          · exact absurd e1 ht
          · exact apart_of_ne h3 e2
    | setAdded o' v =>
      simp only [CalObj.step] at h
      simp only [Touches, not_and_or, not_or] at ht
      cases hb : s.objs[o']? with
      | none => rw [hb] at h; cases h
      | some b =>
        rw [hb] at h
        cases h
        refine replace_read hI hb v _ .added (added_loc b _) o a ?_
        intro e
        rcases ht with ht | ⟨h3, h4, h5⟩
        · exact absurd e ht
        · cases a <;> simp_all [Attr.slot]
    | incr o' n x =>
      simp only [CalObj.step] at h
      simp only [Touches, not_and_or] at ht
      cases hb : s.objs[o']? with
      | none => rw [hb] at h; cases h
      | some b =>
        rw [hb] at h
        cases h
        refine put_read hI (hI.obj o' b _ hb).1 (incr_len hI hb n x) fun e => ?_
        rw [(hI.obj o' b _ hb).2] at e
        obtain ⟨e1, e2⟩ := Prod.mk.inj (Option.some.inj e)
        rcases ht with ht | ht
        · exact absurd e1 ht
        · refine apart_mono (name_apart ht e2) le_rfl ?_
          simp only [List.length_map, List.length_take]
          omega
    | update o' =>
      simp only [CalObj.step] at h
      simp only [Touches, not_and_or] at ht
      cases hb : s.objs[o']? with
      | none => rw [hb] at h; cases h
      | some b =>
        rw [hb] at h
        cases h
        refine put_read hI (hI.extLt hb) (angles_len hI hb) fun e => ?_
        rw [show b.ext = b.loc .ext from rfl, (hI.obj o' b _ hb).2] at e
        obtain ⟨e1, e2⟩ := Prod.mk.inj (Option.some.inj e)
        rw [rotEntries_length]
        rcases ht with ht | ht
        · exact absurd e1 ht
        · exact apart_of_ne (a' := .rot) (fun e => ht e.symm) e2
    | get o' a' =>
      simp only [CalObj.step] at h
      cases hb : s.objs[o']? with
      | none => rw [hb] at h; cases h
      | some b =>
        rw [hb] at h
        cases h
        exact get_read hI b a' o a
    | write k i x =>
      simp only [CalObj.step] at h
      cases hk : s.handles[k]? with
      | none => rw [hk] at h; cases h
      | some g =>
        rw [hk] at h
        simp only at h
        split_ifs at h with hi
        cases h
        have h1 := hI.han k g hk
        refine put_read hI h1.1 (by have := h1.2 (by omega); simp only [List.length_singleton]; omega) fun e => ?_
        cases hv : g.attr.isView with
        | false =>
          rw [hI.cop k g hk hv] at e
          cases e
        | true =>
          obtain ⟨h2, h3, h4⟩ := hI.view k g hk hv
          rw [h2] at e
          obtain ⟨e1, e2⟩ := Prod.mk.inj (Option.some.inj e)
          have hne : g.attr ≠ a := by
            intro e3
            exact ht ⟨g, hk, e1, e3, by rw [← e3]; exact shared_iff.2 hv⟩
          rw [h3]
          exact apart_view hne e2 hv (l := s.arr g.loc) (by rw [h4]; exact hi)

theorem frame_run {s : St} {own} (hI : Inv s own) {cs : List Call} {o : ℕ} {a : Attr} (hu : Untouched s cs o a) :
    (runCalls s cs).read o a = s.read o a := by
  induction cs generalizing s own with
  | nil => rfl
  | cons c cs ih =>
    obtain ⟨own', h'⟩ := hI.exec c
    exact (ih h' hu.2).trans (frame hI hu.1)

/-- A setter that returns has set. -/
theorem set_read {s s' : St} {own} (hI : Inv s own) {o : ℕ} {a : Attr} {v : List ℝ} (h : step s (.set o a v) = .ok s') :
    s'.read o a = some v ∧ (a = .angles → s'.read o .rot = some (rotEntries v)) := by
  simp only [CalObj.step] at h
  cases hb : s.objs[o]? with
  | none => rw [hb] at h; cases h
  | some b =>
    rw [hb] at h
    have ho : o < s.objs.length := by
      by_contra hc
      rw [List.getElem?_eq_none (by omega)] at hb
      cases hb
    obtain ⟨hv, -, ⟨rfl, rfl⟩ | ⟨rfl, rfl⟩ | ⟨-, ha, hc, rfl⟩⟩ := set_ok h
    · refine ⟨?_, fun e => by cases e⟩
      unfold St.read
      rw [List.getElem?_set, if_pos rfl, if_pos ho]
      simp only [Option.map_some, Attr.cut, Attr.slot, Obj.loc]
      rw [append_arr_new]
    · have hl : 3 + v.length ≤ (s.arr b.ext).length := by rw [hv, hI.ext o b hb]; decide
      have h1 : Inv (s.put b.ext 3 v) own := hI.put (hI.extLt hb) hl
      have e1 : Attr.angles.cut ((s.put b.ext 3 v).arr b.ext) = v := by
        rw [put_arr s (hI.extLt hb), if_pos rfl]
        refine cut_splice_self (a := .angles) hv ?_
        rw [hv]
        simp [Attr.cut, Attr.off, hI.ext o b hb, Attr.want]
      have hl2 := angles_len h1 (o := o) hb
      have hb2 : ((s.put b.ext 3 v).update b).objs[o]? = some b := hb
      constructor
      · unfold St.read
        rw [hb2]
        simp only [Option.map_some, Attr.slot, Obj.loc, St.update]
        rw [put_arr _ (h1.extLt (o := o) hb), if_pos rfl, cut_splice hl2, e1]
        rw [rotEntries_length]
        exact apart_of_ne (a := .angles) (a' := .rot) (by decide) rfl
      · intro _
        unfold St.read
        rw [hb2]
        simp only [Option.map_some, Attr.slot, Obj.loc, St.update]
        rw [put_arr _ (h1.extLt (o := o) hb), if_pos rfl, e1]
        congr 1
        refine cut_splice_self (a := .rot) (rotEntries_length v) ?_
        rw [rotEntries_length]
        have := h1.ext o b hb
        simp [Attr.cut, this]
    · refine ⟨?_, fun e => absurd e ha⟩
      unfold St.read
      have hb2 : (s.put (b.loc a.slot) a.off v).objs[o]? = some b := hb
      rw [hb2]
      simp only [Option.map_some]
      rw [put_arr s (hI.obj o b _ hb).1, if_pos rfl, cut_splice_self hv hc]

/-- The matrix of the object is computed from what it has as angles. -/
def RotAs (s : St) (o : ℕ) : Prop := ∃ m, s.read o .angles = some m ∧ s.read o .rot = some (rotEntries m)

/-- An object always has three angles. -/
theorem RotAs.ok {s : St} {own} (hI : Inv s own) {o : ℕ} (h : RotAs s o) : RotOk s o := by
  obtain ⟨m, h1, h2⟩ := h
  have hl : m.length = 3 := by
    unfold St.read at h1
    cases hb : s.objs[o]? with
    | none => rw [hb] at h1; cases h1
    | some b =>
      rw [hb] at h1
      simp only [Option.map_some, Option.some.injEq, Attr.slot, Obj.loc, Attr.cut, Attr.off] at h1
      rw [← h1]
      simp [hI.ext o b hb]
  match m, hl with
  | [a, b, c], _ => exact ⟨a, b, c, h1, h2⟩

theorem RotOk.as {s : St} {o : ℕ} (h : RotOk s o) : RotAs s o := by
  obtain ⟨a, b, c, h1, h2⟩ := h
  exact ⟨[a, b, c], h1, h2⟩

/-- `update_rotation_matrix` makes the matrix the one of the angles. -/
theorem update_rot {s s' : St} {own} (hI : Inv s own) {o : ℕ} (h : step s (.update o) = .ok s') : RotAs s' o := by
  simp only [CalObj.step] at h
  cases hb : s.objs[o]? with
  | none => rw [hb] at h; cases h
  | some b =>
    rw [hb] at h
    cases h
    have hb2 : (s.update b).objs[o]? = some b := hb
    have hl := angles_len hI hb
    refine ⟨Attr.angles.cut (s.arr b.ext), ?_, ?_⟩
    · unfold St.read
      rw [hb2]
      simp only [Option.map_some, Attr.slot, Obj.loc, St.update]
      rw [put_arr _ (hI.extLt hb), if_pos rfl, cut_splice hl]
      rw [rotEntries_length]
      exact apart_of_ne (a := .angles) (a' := .rot) (by decide) rfl
    · unfold St.read
      rw [hb2]
      simp only [Option.map_some, Attr.slot, Obj.loc, St.update]
      rw [put_arr _ (hI.extLt hb), if_pos rfl]
      congr 1
      refine cut_splice_self (a := .rot) (rotEntries_length _) ?_
      rw [rotEntries_length]
      simp [Attr.cut, hI.ext o b hb]

/-- Only an increment of an angle or of the matrix can make the matrix wrong. -/
theorem RotAs.exec {s : St} {own} (hI : Inv s own) {o : ℕ} (hr : RotAs s o) {c : Call}
    (hc : ∀ n x, c = .incr o n x → n.attr ≠ .angles ∧ n.attr ≠ .rot) : RotAs (exec s c) o := by
  obtain ⟨m, h1, h2⟩ := hr
  by_cases ha : Touches s c o .angles ∨ Touches s c o .rot
  · cases hs : CalObj.step s c with
    | error e =>
      unfold CalObj.exec
      rw [hs]
      exact ⟨m, h1, h2⟩
    | ok s' =>
      have he : CalObj.exec s c = s' := by unfold CalObj.exec; rw [hs]
      rw [he]
      cases c with
      | new =>
        simp only [Touches, or_self] at ha
        unfold St.read at h1
        rw [List.getElem?_eq_none (by omega)] at h1
        cases h1
      | copy o1 o2 =>
        rw [copy_ok hs]
        exact ⟨m, (copy_look s o .angles hI).trans h1, (copy_look s o .rot hI).trans h2⟩
      | set o' a' v =>
        simp only [Touches] at ha
        have e1 : o' = o := by tauto
        subst e1
        have e2 : a' = .angles ∨ a' = .rot := by
          rcases ha with ⟨-, h | h⟩ | ⟨-, h | h⟩ <;> simp_all
        rcases e2 with rfl | rfl
        · have := set_read hI hs
          exact ⟨v, this.1, this.2 rfl⟩
        · exfalso
          simp only [CalObj.step] at hs
          cases hb : s.objs[o']? with
          | none => rw [hb] at hs; cases hs
          | some b =>
            rw [hb] at hs
            exact (set_ok hs).2.1 rfl
      | setAdded o' v => simp [Touches] at ha
      | incr o' n x =>
        simp only [Touches] at ha
        have e1 : o' = o := by tauto
        subst e1
        have := hc n x rfl
        tauto
      | update o' =>
        simp only [Touches] at ha
        have e1 : o' = o := by tauto
        subst e1
        exact update_rot hI hs
      | get o' a' => simp [Touches] at ha
      | write k i x =>
        simp [Touches, Shared] at ha
  · rw [not_or] at ha
    exact ⟨m, (frame hI ha.1).trans h1, (frame hI ha.2).trans h2⟩

theorem RotAs.run {s : St} {own} (hI : Inv s own) {o : ℕ} (hr : RotAs s o) {cs : List Call}
    (hc : ∀ n x, .incr o n x ∈ cs → n.attr ≠ .angles ∧ n.attr ≠ .rot) : RotAs (runCalls s cs) o := by
  induction cs generalizing s own with
  | nil => exact hr
  | cons c cs ih =>
    obtain ⟨own', h'⟩ := hI.exec c
    exact ih h' (hr.exec hI (fun n x e => hc n x (by simp [e]))) (fun n x h => hc n x (List.mem_cons_of_mem _ h))

theorem new_read {s : St} (a : Attr) : s.new.read s.objs.length a =
    some (a.cut (match a.slot with | .ext => defaultExt | .int => defaultInt | .glass => defaultGlass | .added => defaultAdded)) := by
  unfold St.read
  simp only [St.new, List.getElem?_append, lt_irrefl, if_false, Nat.sub_self, List.getElem?_cons_zero, Option.map_some]
  cases a <;> simp [St.arr, Attr.slot, Obj.loc]

/-- Every call except `Calibration()` keeps the number of objects. -/
theorem exec_objs (s : St) (c : Call) : (exec s c).objs.length = s.objs.length ∨ (c = .new ∧ (exec s c).objs.length = s.objs.length + 1) := by
  cases c with
  | new =>
    right
    exact ⟨rfl, by simp [exec, step, St.new]⟩
  | copy o o' =>
    left
    unfold exec
    split
    · next s' h =>
      rw [copy_ok h]
      rfl
    · rfl
  | _ =>
    left
    unfold exec
    split
    · next s' h =>
      simp only [step] at h
      split at h
      · cases h
      · first
        | (cases h; first | rfl | simp | (unfold St.get; simp only; split_ifs <;> rfl))
        | (obtain ⟨-, -, ⟨-, rfl⟩ | ⟨-, rfl⟩ | ⟨-, -, -, rfl⟩⟩ := set_ok h <;> first | rfl | simp)
        | (split_ifs at h; cases h; rfl)
    · rfl

/-- Every object has seven added parameters. -/
def Seven (s : St) : Prop := ∀ (o : ℕ) (b : Obj), s.objs[o]? = some b → (s.arr b.added).length = 7

theorem Seven.exec {s : St} {own} (hI : Inv s own) (h7 : Seven s) {c : Call} (hc : ∀ o v, c = .setAdded o v → v.length = 7) :
    Seven (exec s c) := by
  unfold CalObj.exec
  cases h : CalObj.step s c with
  | error e => exact h7
  | ok s' =>
    simp only
    have hput : ∀ {t : St} {own'} (_ : Inv t own') {loc off : ℕ} {v : List ℝ}, loc < t.arrs.length → off + v.length ≤ (t.arr loc).length →
        Seven t → Seven (t.put loc off v) := by
      intro t own' _ loc off v hl hv ht o b hb
      rw [put_length t hl hv]
      exact ht o b hb
    cases c with
    | new =>
      cases h
      intro o b hb
      simp only [St.new, List.getElem?_append] at hb
      split_ifs at hb with ho
      · rw [show s.new.arr b.added = s.arr b.added from append_arr s _ _ _ (hI.addedLt hb)]
        exact h7 o b hb
      · rw [List.getElem?_singleton] at hb
        split_ifs at hb
        cases hb
        simp [St.new, St.arr, defaultAdded]
    | copy o1 o2 =>
      rw [copy_ok h]
      intro o b hb
      rw [copy_arr s (hI.addedLt hb)]
      exact h7 o b hb
    | set o a v =>
      simp only [CalObj.step] at h
      cases hb : s.objs[o]? with
      | none => rw [hb] at h; cases h
      | some b =>
        rw [hb] at h
        obtain ⟨hv, -, ⟨-, rfl⟩ | ⟨rfl, rfl⟩ | ⟨-, -, hc, rfl⟩⟩ := set_ok h
        · intro o1 b1 h1
          simp only [List.getElem?_set] at h1
          split_ifs at h1
          · cases h1
            simp only
            rw [append_arr s _ _ _ (hI.addedLt hb)]
            exact h7 o b hb
          · rw [append_arr s _ _ _ (hI.addedLt h1)]
            exact h7 o1 b1 h1
        · have hl : 3 + v.length ≤ (s.arr b.ext).length := by rw [hv, hI.ext o b hb]; decide
          have h1 : Inv (s.put b.ext 3 v) own := hI.put (hI.extLt hb) hl
          exact hput h1 (h1.extLt (o := o) hb) (angles_len h1 (o := o) hb) (hput hI (hI.extLt hb) hl h7)
        · exact hput hI (hI.obj o b _ hb).1 (plain_len hv hc) h7
    | setAdded o v =>
      simp only [CalObj.step] at h
      cases hb : s.objs[o]? with
      | none => rw [hb] at h; cases h
      | some b =>
        rw [hb] at h
        cases h
        intro o1 b1 h1
        simp only [List.getElem?_set] at h1
        split_ifs at h1
        · cases h1
          simp only
          rw [append_arr_new]
          exact hc o v rfl
        · rw [append_arr s _ _ _ (hI.addedLt h1)]
          exact h7 o1 b1 h1
    | incr o n x =>
      simp only [CalObj.step] at h
      cases hb : s.objs[o]? with
      | none => rw [hb] at h; cases h
      | some b =>
        rw [hb] at h
        cases h
        exact hput hI (hI.obj o b _ hb).1 (incr_len hI hb n x) h7
    | update o =>
      simp only [CalObj.step] at h
      cases hb : s.objs[o]? with
      | none => rw [hb] at h; cases h
      | some b =>
        rw [hb] at h
        cases h
        exact hput hI (hI.extLt hb) (angles_len hI hb) h7
    | get o a =>
      simp only [CalObj.step] at h
      cases hb : s.objs[o]? with
      | none => rw [hb] at h; cases h
      | some b =>
        rw [hb] at h
        cases h
        unfold St.get
        simp only
        split_ifs
        · exact h7
        · intro o1 b1 h1
          rw [append_arr s _ _ _ (hI.addedLt h1)]
          exact h7 o1 b1 h1
    | write k i x =>
      simp only [CalObj.step] at h
      cases hk : s.handles[k]? with
      | none => rw [hk] at h; cases h
      | some g =>
        rw [hk] at h
        simp only at h
        split_ifs at h with hi
        cases h
        have := hI.han k g hk
        exact hput hI this.1 (by have := this.2 (by omega); simp only [List.length_singleton]; omega) h7

theorem Seven.run {s : St} {own} (hI : Inv s own) (h7 : Seven s) {cs : List Call} (hc : ∀ o v, .setAdded o v ∈ cs → v.length = 7) :
    Seven (runCalls s cs) := by
  induction cs generalizing s own with
  | nil => exact h7
  | cons c cs ih =>
    obtain ⟨own', h'⟩ := hI.exec c
    exact ih h' (h7.exec hI (fun o v e => hc o v (by simp [e]))) (fun o v h => hc o v (List.mem_cons_of_mem _ h))

theorem run_snoc (s : St) (cs : List Call) (c : Call) : runCalls s (cs ++ [c]) = exec (runCalls s cs) c := by
  simp [runCalls]

/-- Arrays that getters returned stay where they are. -/
theorem exec_handles {s : St} {c : Call} {k : ℕ} {g : Handle} (hk : s.handles[k]? = some g) : (exec s c).handles[k]? = some g := by
  have hlt : k < s.handles.length := by
    by_contra hc
    rw [List.getElem?_eq_none (by omega)] at hk
    cases hk
  cases c with
  | new => exact hk
  | copy o o' =>
    unfold exec
    split
    · next s' h =>
      rw [copy_ok h]
      exact hk
    · exact hk
  | _ =>
    unfold exec
    split
    · next s' h =>
      simp only [step] at h
      split at h
      · cases h
      · first
        | (cases h; first | exact hk | (unfold St.get; simp only; split_ifs <;> (rw [List.getElem?_append_left hlt]; exact hk)))
        | (obtain ⟨-, -, ⟨-, rfl⟩ | ⟨-, rfl⟩ | ⟨-, -, -, rfl⟩⟩ := set_ok h <;> exact hk)
        | (split_ifs at h; cases h; exact hk)
    · exact hk

/-- The arrays that the copying getters returned change only if the caller writes to them. -/
theorem look_copy {s : St} {own} (hI : Inv s own) {k : ℕ} {g : Handle} (hk : s.handles[k]? = some g) (hv : g.attr.isView = false)
    {c : Call} (hc : ∀ i x, c ≠ .write k i x) : (exec s c).arr g.loc = s.arr g.loc := by
  have hg := hI.han k g hk
  have hown := hI.cop k g hk hv
  have hput : ∀ (t : St) {loc off : ℕ} {v : List ℝ}, loc < t.arrs.length → loc ≠ g.loc → (t.put loc off v).arr g.loc = t.arr g.loc := by
    intro t loc off v hl hne
    rw [put_arr t hl, if_neg (fun e => hne e.symm)]
  have hob : ∀ {o : ℕ} {b : Obj} (sl : Slot), s.objs[o]? = some b → b.loc sl ≠ g.loc := by
    intro o b sl hb e
    have := (hI.obj o b sl hb).2
    rw [e, hown] at this
    cases this
  unfold CalObj.exec
  cases h : CalObj.step s c with
  | error e => rfl
  | ok s' =>
    simp only
    cases c with
    | new =>
      cases h
      exact append_arr s _ _ _ hg.1
    | copy o1 o2 =>
      rw [copy_ok h]
      exact copy_arr s hg.1
    | set o a v =>
      simp only [CalObj.step] at h
      cases hb : s.objs[o]? with
      | none => rw [hb] at h; cases h
      | some b =>
        rw [hb] at h
        obtain ⟨hv, -, ⟨-, rfl⟩ | ⟨rfl, rfl⟩ | ⟨-, -, hc, rfl⟩⟩ := set_ok h
        · exact append_arr s _ _ _ hg.1
        · unfold St.update
          have hne : b.ext ≠ g.loc := hob .ext hb
          have hlt : b.ext < (s.put b.ext 3 v).arrs.length := by
            simp only [St.put, List.length_set]
            exact hI.extLt hb
          exact (hput _ hlt hne).trans (hput s (hI.extLt hb) hne)
        · exact hput s (hI.obj o b _ hb).1 (hob _ hb)
    | setAdded o v =>
      simp only [CalObj.step] at h
      cases hb : s.objs[o]? with
      | none => rw [hb] at h; cases h
      | some b =>
        rw [hb] at h
        cases h
        exact append_arr s _ _ _ hg.1
    | incr o n x =>
      simp only [CalObj.step] at h
      cases hb : s.objs[o]? with
      | none => rw [hb] at h; cases h
      | some b =>
        rw [hb] at h
        cases h
        exact hput s (hI.obj o b _ hb).1 (hob _ hb)
    | update o =>
      simp only [CalObj.step] at h
      cases hb : s.objs[o]? with
      | none => rw [hb] at h; cases h
      | some b =>
        rw [hb] at h
        cases h
        exact hput s (hI.extLt hb) (hob .ext hb)
    | get o a =>
      simp only [CalObj.step] at h
      cases hb : s.objs[o]? with
      | none => rw [hb] at h; cases h
      | some b =>
        rw [hb] at h
        cases h
        unfold St.get
        simp only
        split_ifs
        · rfl
        · exact append_arr s _ _ _ hg.1
    | write k' i x =>
      simp only [CalObj.step] at h
      cases hk' : s.handles[k']? with
      | none => rw [hk'] at h; cases h
      | some g' =>
        rw [hk'] at h
        simp only at h
        split_ifs at h with hi
        cases h
        have h1 := hI.han k' g' hk'
        refine hput s h1.1 ?_
        intro e
        cases hv' : g'.attr.isView with
        | true =>
          have := (hI.view k' g' hk' hv').1
          rw [e, hown] at this
          cases this
        | false =>
          have := hI.uniq k' k g' g hk' hk hv' hv e
          exact hc i x (by rw [this])

theorem look_copy_run {s : St} {own} (hI : Inv s own) {k : ℕ} {g : Handle} (hk : s.handles[k]? = some g) (hv : g.attr.isView = false)
    {cs : List Call} (hc : ∀ i x, .write k i x ∉ cs) : (runCalls s cs).look k = s.look k := by
  induction cs generalizing s own with
  | nil => rfl
  | cons c cs ih =>
    obtain ⟨own', h'⟩ := hI.exec c
    have h1 := ih h' (exec_handles hk) (fun i x h => hc i x (List.mem_cons_of_mem _ h))
    refine h1.trans ?_
    unfold St.look
    rw [exec_handles hk, hk]
    simp only [Option.map_some]
    rw [look_copy hI hk hv (fun i x e => hc i x (by rw [e]; exact List.mem_cons_self ..))]

end Verif.CalObj
