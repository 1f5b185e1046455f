/-
C42: path files (tracking_frame_buf.py).
-/
import Verif.Model.PathIO
import Verif.Proofs.Text

namespace Verif.IO
open Text Spec

/-- `u` is what is read back of particle `t`, number `k` of its frame: numbered from 1, same correspondences,
links and priority, position rounded to three decimals. -/
structure SameParticle (k : ℕ) (t u : Particle) : Prop where
  nr : u.nr = k + 1
  p0 : u.p0 = t.p0
  p1 : u.p1 = t.p1
  p2 : u.p2 = t.p2
  p3 : u.p3 = t.p3
  x : Rounded 3 t.x u.x
  y : Rounded 3 t.y u.y
  z : Rounded 3 t.z u.z
  prev : u.prev = t.prev
  next : u.next = t.next
  prio : u.prio = t.prio

theorem fromString_joinSp {fs ws : List (List Char)} {vs : List ℚ} (h : List.Forall₂ IsField fs ws)
    (hv : ws.mapM parseFloat = .ok vs) : fromString (joinSp fs) = .ok vs := by
  rw [fromString, words_joinSp h, hv]

theorem fixed_field (k : ℕ) (q : ℚ) : IsField (fixedStr k q) (fixedStr k q) := (fixedStr_word k q).field
theorem int_field (n : ℤ) : IsField (intStr n) (intStr n) := (intStr_word n).field

theorem linkage_fields (t : Particle) : List.Forall₂ IsField
    [intStr t.prev, intStr t.next, fixedStr 3 t.x, fixedStr 3 t.y, fixedStr 3 t.z]
    [intStr t.prev, intStr t.next, fixedStr 3 t.x, fixedStr 3 t.y, fixedStr 3 t.z] :=
  .cons (int_field _) (.cons (int_field _) (.cons (fixed_field _ _) (.cons (fixed_field _ _)
    (.cons (fixed_field _ _) .nil))))

theorem prio_fields (t : Particle) : List.Forall₂ IsField
    [intStr t.prev, intStr t.next, fixedStr 3 t.x, fixedStr 3 t.y, fixedStr 3 t.z, intStr t.prio]
    [intStr t.prev, intStr t.next, fixedStr 3 t.x, fixedStr 3 t.y, fixedStr 3 t.z, intStr t.prio] :=
  .cons (int_field _) (.cons (int_field _) (.cons (fixed_field _ _) (.cons (fixed_field _ _)
    (.cons (fixed_field _ _) (.cons (int_field _) .nil)))))

theorem corres_fields (k : ℕ) (t : Particle) : List.Forall₂ IsField
    [intStr (k + 1), fixedStr 3 t.x, fixedStr 3 t.y, fixedStr 3 t.z, intStr t.p0, intStr t.p1, intStr t.p2,
      intStr t.p3]
    [intStr (k + 1), fixedStr 3 t.x, fixedStr 3 t.y, fixedStr 3 t.z, intStr t.p0, intStr t.p1, intStr t.p2,
      intStr t.p3] :=
  .cons (int_field _) (.cons (fixed_field _ _) (.cons (fixed_field _ _) (.cons (fixed_field _ _)
    (.cons (int_field _) (.cons (int_field _) (.cons (int_field _) (.cons (int_field _) .nil)))))))

theorem readLinks_row (t : Particle) : readLinks (some (linkageRow t)) = .ok (t.prev, t.next) := by
  have := fromString_joinSp (linkage_fields t) (vs := [(t.prev : ℚ), t.next, rnd 3 t.x, rnd 3 t.y, rnd 3 t.z])
    (by simp [List.mapM_cons, parseFloat_intStr, parseFloat_fixedStr, bind, Except.bind, pure, Except.pure])
  rw [readLinks, linkageRow, this]
  simp [pyGet, bind, Except.bind, truncQ_int]

theorem readPrio_row (t : Particle) : readPrio (some (prioRow t)) = .ok t.prio := by
  have := fromString_joinSp (prio_fields t) (vs := [(t.prev : ℚ), t.next, rnd 3 t.x, rnd 3 t.y, rnd 3 t.z, t.prio])
    (by simp [List.mapM_cons, parseFloat_intStr, parseFloat_fixedStr, bind, Except.bind, pure, Except.pure])
  rw [readPrio, prioRow, this]
  simp [pyGet, pyGetI, bind, Except.bind, truncQ_int]

/-- The particle that is read back. -/
def Particle.rounded (k : ℕ) (t : Particle) : Particle :=
  { t with nr := k + 1, x := rnd 3 t.x, y := rnd 3 t.y, z := rnd 3 t.z }

theorem sameParticle_rounded (k : ℕ) (t : Particle) : SameParticle k t (t.rounded k) :=
  ⟨rfl, rfl, rfl, rfl, rfl, rnd_rounded 3 t.x, rnd_rounded 3 t.y, rnd_rounded 3 t.z, rfl, rfl, rfl⟩

theorem readCorres_row (k : ℕ) (t : Particle) (links : ℤ × ℤ) (prio : ℤ) :
    readCorres (k + 1) (corresRow k t) links prio =
      .ok { t.rounded k with prev := links.1, next := links.2, prio := prio } := by
  have := fromString_joinSp (corres_fields k t)
    (vs := [((k + 1 : ℤ) : ℚ), rnd 3 t.x, rnd 3 t.y, rnd 3 t.z, t.p0, t.p1, t.p2, t.p3])
    (by simp only [List.mapM_cons, List.mapM_nil, parseFloat_intStr,
          parseFloat_fixedStr (show 0 < 3 by norm_num), bind, Except.bind, pure, Except.pure])
  rw [readCorres, corresRow, this]
  simp [bind, Except.bind, truncQ_int, Particle.rounded]

/-- What the rows give, without or with a linkage and a priority file. -/
def readBack (lk pr : Bool) (k : ℕ) (t : Particle) : Particle :=
  { t.rounded k with
    prev := if lk then t.prev else -1
    next := if lk then t.next else -2
    prio := if pr then t.prio else 4 }

theorem readRows_rows (lk pr : Bool) : ∀ (ps : List Particle) (k room : ℕ), ps.length ≤ room →
    readRows ((ps.zipIdx k).map fun t => corresRow t.2 t.1)
      (if lk then some (ps.map linkageRow) else none) (if pr then some (ps.map prioRow) else none) k room =
      .ok ((ps.zipIdx k).map fun t => readBack lk pr t.2 t.1)
  | [], k, room, _ => by simp [readRows]
  | t :: ps, k, 0, h => by simp at h
  | t :: ps, k, room + 1, h => by
    have ih := readRows_rows lk pr ps (k + 1) room (by simpa using h)
    have h1 : readLinks (nextLine (if lk then some ((t :: ps).map linkageRow) else none)) =
        .ok (if lk then t.prev else -1, if lk then t.next else -2) := by
      cases lk
      · rfl
      · simpa [nextLine] using readLinks_row t
    have h2 : readPrio (nextLine (if pr then some ((t :: ps).map prioRow) else none)) =
        .ok (if pr then t.prio else 4) := by
      cases pr
      · rfl
      · simpa [nextLine] using readPrio_row t
    have t1 : (if lk then some ((t :: ps).map linkageRow) else none : Option (List (List Char))).map List.tail =
        (if lk then some (ps.map linkageRow) else none) := by cases lk <;> simp
    have t2 : (if pr then some ((t :: ps).map prioRow) else none : Option (List (List Char))).map List.tail =
        (if pr then some (ps.map prioRow) else none) := by cases pr <;> simp
    rw [List.zipIdx_cons, List.map_cons (f := fun t : Particle × ℕ => corresRow t.2 t.1), readRows, h1, h2, t1, t2, ih]
    simp only [bind, Except.bind, readCorres_row]
    rfl

theorem lines_table (num : ℤ) (rows : List (List Char)) (h : ∀ r ∈ rows, '\n' ∉ r) :
    lines (table num rows) = intStr num :: rows := by
  rw [table, lines_cons (intStr_word num).no_nl]
  congr 1
  induction rows with
  | nil => exact lines_nil
  | cons r rows ih =>
    rw [List.flatMap_cons, List.append_assoc, List.singleton_append, lines_cons (h r (by simp)),
      ih (fun r' hr => h r' (by simp [hr]))]

theorem table_corres (ps : List Particle) (num : ℤ) :
    lines (table num (ps.zipIdx.map fun t => corresRow t.2 t.1)) =
      intStr num :: ps.zipIdx.map fun t => corresRow t.2 t.1 := by
  apply lines_table
  intro r hr
  obtain ⟨t, -, rfl⟩ := List.mem_map.1 hr
  exact joinSp_no_nl (corres_fields t.2 t.1)

theorem table_linkage (ps : List Particle) (num : ℤ) :
    lines (table num (ps.map linkageRow)) = intStr num :: ps.map linkageRow := by
  apply lines_table
  intro r hr
  obtain ⟨t, -, rfl⟩ := List.mem_map.1 hr
  exact joinSp_no_nl (linkage_fields t)

theorem table_prio (ps : List Particle) (num : ℤ) :
    lines (table num (ps.map prioRow)) = intStr num :: ps.map prioRow := by
  apply lines_table
  intro r hr
  obtain ⟨t, -, rfl⟩ := List.mem_map.1 hr
  exact joinSp_no_nl (prio_fields t)

theorem frameName_ne {a b : List Char} (h : a ≠ b) (frame : ℤ) : frameName a frame ≠ frameName b frame := by
  intro e
  exact h (List.append_cancel_right e)

/-- C42: the write succeeds, and reading its files returns the first `num` particles, numbered from 1, with
the same correspondences, links and priorities and with positions rounded to three decimals. The three base
names are different; whatever else is on the disk does not matter. -/
theorem C42_roundtrip_partial (fs : FS) (ps : List Particle) (num : ℕ) (cb lb pb : List Char) (frame : ℤ)
    (hnum : num ≤ ps.length) (hcl : cb ≠ lb) (hcp : cb ≠ pb) (hlp : lb ≠ pb) (hl : lb ≠ []) (hp : pb ≠ []) :
    ∃ fs' ts, writePathFrame fs ps num cb lb pb frame = .ok fs' ∧ readPathFrame fs' cb lb pb frame = .ok ts ∧
      ts.length = num ∧ ∀ (k : ℕ) (t u : Particle), ps[k]? = some t → ts[k]? = some u → SameParticle k t u := by
  obtain ⟨fs', hfs⟩ : ∃ fs', writePathFrame fs ps num cb lb pb frame = .ok fs' := by
    rw [writePathFrame, if_neg hp, if_neg (by omega)]; exact ⟨_, rfl⟩
  refine ⟨fs', (ps.take num).zipIdx.map fun t => readBack true true t.2 t.1, hfs, ?_, ?_, ?_⟩
  · rw [writePathFrame, if_neg hp, if_neg (by omega)] at hfs
    obtain rfl := Except.ok.inj hfs
    rw [readPathFrame]
    simp only [FS.write, if_neg (frameName_ne hcp frame), if_neg (frameName_ne hcl frame), if_true,
      table_corres, List.headD_cons, pyInt_intStr, bind, Except.bind, openOptional, if_neg hl, if_neg hp,
      if_neg (frameName_ne hlp frame), table_linkage, table_prio, List.tail_cons]
    exact readRows_rows true true (ps.take num) 0 num (by simp)
  · simp [hnum]
  · intro k t u ht hu
    rw [List.getElem?_map, List.getElem?_zipIdx] at hu
    rw [List.getElem?_take] at hu
    split_ifs at hu with hk
    · rw [ht] at hu
      simp only [Option.map_some, Option.some.injEq, zero_add] at hu
      subst hu
      exact sameParticle_rounded k t
    · simp at hu

/-- C42: reading without the priority file (or without the linkage file) gives the same, but priority 4 (and
no links). -/
theorem C42_optional_files (fs fs' : FS) (ps : List Particle) (num : ℕ) (cb lb pb : List Char) (frame : ℤ)
    (hcl : cb ≠ lb) (hcp : cb ≠ pb) (hlp : lb ≠ pb) (hl : lb ≠ [])
    (hw : writePathFrame fs ps num cb lb pb frame = .ok fs') (lk : Bool) :
    ∃ ts, readPathFrame fs' cb (if lk then lb else []) [] frame = .ok ts ∧
      ts.length = num ∧ ∀ (k : ℕ) (t u : Particle), ps[k]? = some t → ts[k]? = some u →
        SameParticle k { t with prio := 4, prev := if lk then t.prev else -1, next := if lk then t.next else -2 } u := by
  rw [writePathFrame] at hw
  by_cases hp : pb = []
  · rw [if_pos hp] at hw; exact absurd hw (by simp)
  by_cases hn : ps.length < num
  · rw [if_neg hp, if_pos hn] at hw; exact absurd hw (by simp)
  rw [if_neg hp, if_neg hn] at hw
  obtain rfl := Except.ok.inj hw
  refine ⟨(ps.take num).zipIdx.map fun t => readBack lk false t.2 t.1, ?_, ?_, ?_⟩
  · have e := readRows_rows lk false (ps.take num) 0 num (by simp)
    rw [readPathFrame]
    simp only [FS.write, if_neg (frameName_ne hcp frame), if_neg (frameName_ne hcl frame), if_true,
      table_corres, List.headD_cons, pyInt_intStr, bind, Except.bind]
    cases lk
    · simpa [openOptional] using e
    · simp only [if_true, openOptional, FS.write, if_neg hl, if_neg (frameName_ne hlp frame), table_linkage,
        List.tail_cons]
      exact e
  · simp; omega
  · intro k t u ht hu
    rw [List.getElem?_map, List.getElem?_zipIdx, List.getElem?_take] at hu
    split_ifs at hu with hk
    · rw [ht] at hu
      simp only [Option.map_some, Option.some.injEq, zero_add] at hu
      subst hu
      exact ⟨rfl, rfl, rfl, rfl, rfl, rnd_rounded 3 t.x, rnd_rounded 3 t.y, rnd_rounded 3 t.z, rfl, rfl, rfl⟩
    · simp at hu

/-- C42 on two particles, one linked to the previous frame. -/
def twoParticles : List Particle :=
  [⟨1, 0, 3, -1, -1, 45219 / 1000, -20269 / 1000, 25946 / 1000, -1, -2, 4⟩,
   ⟨2, 1, 2, 5, 7, 1 / 3, -2 / 3, 10005 / 10000, 12, 0, 2⟩]

example : ((writePathFrame (fun _ => none) twoParticles 2 "rt_is".toList "ptv_is".toList "added".toList 10001).toOption.bind
      fun fs => fs "rt_is.10001".toList).map String.ofList =
    some "2\n1 45.219 -20.269 25.946 0 3 -1 -1\n2 0.333 -0.667 1.000 1 2 5 7\n" := by
  decide +kernel

example : ∃ fs' ts, writePathFrame (fun _ => none) twoParticles 2 "rt_is".toList "ptv_is".toList "added".toList 1 = .ok fs' ∧
    readPathFrame fs' "rt_is".toList "ptv_is".toList "added".toList 1 = .ok ts ∧ ts.length = 2 ∧
    ∀ (k : ℕ) (t u : Particle), twoParticles[k]? = some t → ts[k]? = some u → SameParticle k t u :=
  C42_roundtrip_partial _ _ _ _ _ _ _ (by decide) (by decide) (by decide) (by decide) (by decide) (by decide)

/-- C42 fails without a priority file, although the interface makes it optional: writing is a TypeError. -/
theorem C42_refuted (fs : FS) (ps : List Particle) (num : ℕ) (cb lb : List Char) (frame : ℤ) :
    writePathFrame fs ps num cb lb [] frame = .error .typeError := by
  simp [writePathFrame]

/-- C42: a missing file is reported as a frame without particles. -/
theorem C42_missing (fs : FS) (cb lb pb : List Char) (frame : ℤ) (h : fs (frameName cb frame) = none) :
    readPathFrame fs cb lb pb frame = .ok [] := by
  simp [readPathFrame, h]

end Verif.IO
