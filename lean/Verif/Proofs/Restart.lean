/-
Reading and writing frames file by file: what is read is made of the contents of single files, and what is written does not depend on
the files that were there.
-/
import Verif.Props.DiskRun
import Verif.Proofs.Crowd
import Verif.Proofs.StoreConv

namespace Verif.Track
open Verif.Track.Spec

section
open _root_.Verif.IO Text

/-! ### Reading -/

variable {D : Type} [OfNat D 1000000] {c : ℕ} {b : Bases}

theorem memRead_iff {links : Bool} {fs : FS} {n : ℤ} {o f : MemFrame D c} :
    (memStore D c b links).read fs n o = .ok f ↔
    ∃ ps, readPathFrame fs b.corres (if links then b.linkage else []) (if links then b.prio else []) n = .ok ps ∧
      f.no = n ∧ f.parts = ps.map ofRow ∧ f.img.corr = ps.map corrOf ∧
      ∀ cam < c, ∃ ts, readCam fs b.target n cam = .ok ts ∧ f.img.targets[cam]? = some ts := by
  have hkey : ∀ (ps : List Particle), readPathFrame fs b.corres (if links then b.linkage else []) (if links then b.prio else []) n = .ok ps →
      (∀ cam < c, ∃ ts, readCam fs b.target n cam = .ok ts) →
      ∃ g', (toDisk o).read fs b.corres (if links then b.linkage else []) (if links then b.prio else []) b.target n = (g', .ok true) ∧
        g'.parts = ps ∧ g'.targets.length = c ∧ ∀ cam < c, ∀ ts, readCam fs b.target n cam = .ok ts → g'.targets[cam]? = some ts := by
    intro ps hps hcams
    obtain ⟨t1, t2⟩ := toDisk_forCams o
    obtain ⟨g', a1, a2, -, a4, -, a6, -⟩ := readCams_ok (fs := fs) (tb := b.target) (frame := n) (List.range c)
      { toDisk o with parts := ps, numParts := ps.length } List.nodup_range (fun cam hc => hcams cam (by simpa using hc))
      (by simp [t1, t2])
    refine ⟨g', ?_, a2, by rw [a4]; exact t1, ?_⟩
    · unfold DFrame.read
      rw [hps]
      simp only [t1]
      exact a1
    · intro cam hc ts hts
      exact (a6 cam ts (by simpa using hc) (by simpa [t1] using hc) hts).1
  constructor
  · intro h
    simp only [memStore] at h
    obtain ⟨d, h1, h2⟩ := bind_ok h
    rw [fileStore_read_eq] at h1
    unfold ofDisk at h2
    split_ifs at h2 with hc
    cases h2
    have h1' := h1
    unfold DFrame.read at h1'
    cases hr : readPathFrame fs b.corres (if links then b.linkage else []) (if links then b.prio else []) n with
    | error e => rw [hr] at h1'; simp at h1'
    | ok ps =>
      rw [hr] at h1'
      simp only [(toDisk_forCams o).1] at h1'
      have hcams : ∀ cam < c, ∃ ts, readCam fs b.target n cam = .ok ts := by
        split at h1'
        · cases h1'
        · rename_i f2 e2
          have := readCams_read (fs := fs) (tb := b.target) (n := n) (List.range c) _ (b := true) (by rw [e2])
          exact fun cam hcam => this.2 cam (by simpa using hcam)
        · cases h1'
      obtain ⟨g', a1, a2, a3, a4⟩ := hkey ps hr hcams
      rw [a1] at h1
      simp only [Except.ok.injEq] at h1
      subst h1
      refine ⟨ps, rfl, rfl, by rw [a2], by rw [a2], ?_⟩
      intro cam hcam
      obtain ⟨ts, hts⟩ := hcams cam hcam
      exact ⟨ts, hts, a4 cam hcam ts hts⟩
  · rintro ⟨ps, h1, h2, h3, h4, h5⟩
    obtain ⟨g', a1, a2, a3, a4⟩ := hkey ps h1 (fun cam hc => (h5 cam hc).imp fun ts h => h.1)
    simp only [memStore, fileStore_read_eq, a1, bind, Except.bind, ofDisk, dif_pos a3]
    congr 1
    obtain ⟨no, parts, targets, corr, hc⟩ := f
    simp only at h2 h3 h4 h5
    subst h2 h3 h4
    have ht : g'.targets = targets := by
      apply List.ext_getElem?
      intro k
      by_cases hk : k < c
      · obtain ⟨ts, e1, e2⟩ := h5 k hk
        rw [a4 k hk ts e1, e2]
      · rw [List.getElem?_eq_none (by omega), List.getElem?_eq_none (by omega)]
    subst ht
    simp [a2]

theorem plain_rows {fs : FS} {cb : List Char} {n : ℤ} {ps : List Particle} (h : readPathFrame fs cb [] [] n = .ok ps) :
    ∀ (k : ℕ) p, ps[k]? = some p → p.nr = k + 1 ∧ p.prev = -1 ∧ p.next = -2 ∧ p.prio = 4 := by
  have key : ∀ (ls : List (List Char)) (j room : ℕ) (ps : List Particle), readRows ls none none j room = .ok ps →
      ∀ (k : ℕ) p, ps[k]? = some p → p.nr = j + k + 1 ∧ p.prev = -1 ∧ p.next = -2 ∧ p.prio = 4 := by
    intro ls
    induction ls with
    | nil =>
      intro j room ps h k p hp
      simp only [readRows, Except.ok.injEq] at h
      subst h
      simp at hp
    | cons l ls ih =>
      intro j room ps h k p hp
      cases room with
      | zero => simp [readRows] at h
      | succ room =>
        unfold readRows at h
        obtain ⟨links, h1, h⟩ := bind_ok h
        obtain ⟨prio, h2, h⟩ := bind_ok h
        obtain ⟨t, h3, h⟩ := bind_ok h
        obtain ⟨ts, h4, h⟩ := bind_ok h
        simp only [Except.ok.injEq] at h
        subst h
        simp only [nextLine, Option.map_none, readLinks, readPrio, Except.ok.injEq] at h1 h2
        subst h1 h2
        cases k with
        | zero =>
          simp only [List.getElem?_cons_zero, Option.some.injEq] at hp
          subst hp
          unfold readCorres at h3
          obtain ⟨v, h5, h3⟩ := bind_ok h3
          split at h3
          · cases h3; exact ⟨by push_cast; ring, rfl, rfl, rfl⟩
          · cases h3
        | succ k =>
          rw [List.getElem?_cons_succ] at hp
          simp only [Option.map_none] at h4
          have := ih (j + 1) room ts h4 k p hp
          exact ⟨by rw [this.1]; push_cast; ring, this.2⟩
  unfold readPathFrame at h
  split at h
  · cases h; simp
  · obtain ⟨k, h1, h⟩ := bind_ok h
    simp only [openOptional, if_true] at h
    intro i p hp
    have := key _ _ _ _ h i p hp
    simpa using this

/-- A frame that can be read from two states of the files, with the same result, can be read from every mixture of them. -/
theorem memRead_mixed {fs fs' fs1 : FS} {n : ℤ} {o f : MemFrame D c}
    (h : (memStore D c b false).read fs n o = .ok f) (h' : (memStore D c b false).read fs' n o = .ok f)
    (h1 : ∀ name, fs1 name = fs name ∨ fs1 name = fs' name) : (memStore D c b false).read fs1 n o = .ok f := by
  rw [memRead_iff] at h h' ⊢
  simp only [Bool.false_eq_true, if_false] at h h' ⊢
  obtain ⟨ps, a1, a2, a3, a4, a5⟩ := h
  obtain ⟨ps', a1', -, a3', a4', a5'⟩ := h'
  have hps : ps' = ps := by
    have e1 := plain_rows a1
    have e2 := plain_rows a1'
    have hx : ps'.map (ofRow (D := D)) = ps.map ofRow := by rw [← a3, ← a3']
    have hc : ps'.map corrOf = ps.map corrOf := by rw [← a4, ← a4']
    apply List.ext_getElem?
    intro k
    have x1 := congrArg (fun l => l[k]?) hx
    have x2 := congrArg (fun l => l[k]?) hc
    simp only [List.getElem?_map] at x1 x2
    cases p1 : ps[k]? with
    | none => rw [p1] at x1; simpa using x1
    | some p =>
      cases p2 : ps'[k]? with
      | none => rw [p1, p2] at x1; simp at x1
      | some q =>
        rw [p1, p2] at x1 x2
        simp only [Option.map_some, Option.some.injEq, ofRow, corrOf, Part.mk.injEq, CorrRow.mk.injEq, Prod.mk.injEq] at x1 x2
        obtain ⟨⟨x3, x4, x5⟩, x6, x7, -⟩ := x1
        obtain ⟨y1, y2, y3, y4, y5, y6⟩ := x2
        congr 1
        obtain ⟨⟩ := p
        obtain ⟨⟩ := q
        simp_all
  subst hps
  refine ⟨ps', ?_, a2, a3, a4, ?_⟩
  · rcases h1 (frameName b.corres n) with e | e
    · rw [readPathFrame_congr e (fun h => absurd rfl h) (fun h => absurd rfl h), a1]
    · rw [readPathFrame_congr e (fun h => absurd rfl h) (fun h => absurd rfl h), a1']
  · intro cam hc
    obtain ⟨ts, t1, t2⟩ := a5 cam hc
    obtain ⟨ts', t1', t2'⟩ := a5' cam hc
    rw [t2] at t2'
    cases t2'
    refine ⟨ts, ?_, t2⟩
    unfold readCam at t1 t1' ⊢
    obtain ⟨t, b1, b2⟩ := bind_ok t1
    rw [b1] at t1' ⊢
    replace t1' : readTargets fs' t n = .ok ts := t1'
    show readTargets fs1 t n = .ok ts
    have hname := b2
    unfold readTargets at hname
    obtain ⟨name, d1, -⟩ := bind_ok hname
    rcases h1 name with e | e
    · rw [readTargets_congr d1 e, b2]
    · rw [readTargets_congr d1 e, t1']

/-! ### Writing -/

/-- The files `fs`, overwritten by the files `m`. -/
def overlay (m fs : FS) : FS := fun name => (m name).or (fs name)

/-- An operation that overwrites the same files with the same contents, whatever is there. -/
def Overwrites {R : Type} (op : FS → FS × R) : Prop := ∃ (m : FS) (v : R), ∀ fs, op fs = (overlay m fs, v)

theorem overlay_none (fs : FS) : overlay (fun _ => none) fs = fs := by
  funext name
  simp [overlay]

theorem overlay_overlay (m m' fs : FS) : overlay m' (overlay m fs) = overlay (overlay m' m) fs := by
  funext name
  simp only [overlay]
  cases m' name <;> simp

theorem write_overlay (fs : FS) (name s : List Char) : fs.write name s = overlay (fun x => if x = name then some s else none) fs := by
  funext x
  simp only [FS.write, overlay]
  split_ifs <;> simp

theorem writeCam_overwrites (f : DFrame) (tb : List (List Char)) (n : ℤ) (cam : ℕ) : Overwrites fun fs => writeCam fs f tb n cam := by
  unfold writeCam
  split
  · exact ⟨fun _ => none, _, fun fs => by rw [overlay_none]⟩
  · rename_i ts k t h
    unfold writeTargets
    cases writeName t n with
    | error e => exact ⟨fun _ => none, _, fun fs => by rw [overlay_none]⟩
    | ok name =>
      simp only
      split_ifs
      · exact ⟨_, _, fun fs => Prod.ext (write_overlay _ _ _) rfl⟩
      · exact ⟨_, _, fun fs => Prod.ext (write_overlay _ _ _) rfl⟩

theorem writeCams_overwrites (f : DFrame) (tb : List (List Char)) (n : ℤ) : ∀ cams : List ℕ, Overwrites (writeCams f tb n cams)
  | [] => ⟨fun _ => none, .ok true, fun fs => by rw [overlay_none]; rfl⟩
  | cam :: cams => by
    obtain ⟨m, v, h⟩ := writeCam_overwrites f tb n cam
    obtain ⟨m', v', h'⟩ := writeCams_overwrites f tb n cams
    simp only at h
    by_cases hv : v = .ok true
    · subst hv
      refine ⟨overlay m' m, v', fun fs => ?_⟩
      unfold writeCams
      rw [h]
      simp only
      rw [h', overlay_overlay]
    · refine ⟨m, v, fun fs => ?_⟩
      unfold writeCams
      rw [h]
      split
      · rename_i fs' e
        exact absurd (Prod.mk.inj e).2 hv
      · rfl

theorem frameWrite_overwrites (f : DFrame) (cb lb pb : List Char) (tb : List (List Char)) (n : ℤ) :
    Overwrites fun fs => f.write fs cb lb pb tb n := by
  unfold DFrame.write writePathFrame
  split_ifs
  · exact ⟨fun _ => none, _, fun fs => by rw [overlay_none]⟩
  · exact ⟨fun _ => none, _, fun fs => by rw [overlay_none]⟩
  · obtain ⟨m, v, h⟩ := writeCams_overwrites f tb n (List.range f.targets.length)
    obtain ⟨m', h'⟩ : ∃ m', ∀ fs : FS, ((fs.write (frameName cb n) (table f.numParts ((f.parts.take f.numParts).zipIdx.map
        fun t => corresRow t.2 t.1))).write (frameName lb n) (table f.numParts ((f.parts.take f.numParts).map linkageRow))).write
        (frameName pb n) (table f.numParts ((f.parts.take f.numParts).map prioRow)) = overlay m' fs :=
      ⟨_, fun fs => by rw [write_overlay, write_overlay, write_overlay, overlay_overlay, overlay_overlay]⟩
    refine ⟨overlay m m', v, fun fs => ?_⟩
    simp only
    rw [h, h', overlay_overlay]

theorem memWrite_overwrites (links : Bool) (n : ℤ) (f : MemFrame D c) : Overwrites fun fs => (memStore D c b links).write fs n f :=
  frameWrite_overwrites _ _ _ _ _ _

/-- The writes of a run can be repeated on every state of the files, and overwrite the same files with the same contents. -/
theorem replayed_overlay {F : Type} {st : Store FS F} (hst : ∀ n f, Overwrites fun fs => st.write fs n f) {s s' : FS}
    {ws : List (Int × F)} (h : Replayed st s ws s') : ∃ m, s' = overlay m s ∧ ∀ s1, Replayed st s1 ws (overlay m s1) := by
  induction h with
  | nil => exact ⟨fun _ => none, (overlay_none _).symm, fun s1 => by rw [overlay_none]; exact .nil⟩
  | @snoc ws s1 s2 n f v h1 h2 ih =>
    obtain ⟨m, rfl, hm⟩ := ih
    obtain ⟨m', v', h'⟩ := hst n f
    simp only at h'
    rw [h'] at h2
    obtain ⟨rfl, rfl⟩ := Prod.mk.inj h2
    refine ⟨overlay m' m, overlay_overlay _ _ _, fun s1 => ?_⟩
    rw [← overlay_overlay]
    exact (hm s1).snoc (h' _)

theorem overlay_between {m fs fs1 : FS} (h : ∀ name, fs1 name = fs name ∨ fs1 name = overlay m fs name) :
    overlay m fs1 = overlay m fs := by
  funext name
  have := h name
  simp only [overlay] at this ⊢
  rcases this with e | e <;> rw [e]
  cases m name <;> simp

theorem replayed_write_ok {F : Type} {st : Store FS F} (hst : ∀ n f, Overwrites fun fs => st.write fs n f) {s s' : FS}
    {ws : List (Int × F)} (h : Replayed st s ws s') : ∀ w ∈ ws, ∀ s1, ∃ s2 v, st.write s1 w.1 w.2 = (s2, .ok v) := by
  induction h with
  | nil => simp
  | @snoc ws s1 s2 n f v h1 h2 ih =>
    intro w hw s3
    simp only [List.mem_append, List.mem_singleton] at hw
    rcases hw with hw | rfl
    · exact ih w hw s3
    · obtain ⟨m', v', h'⟩ := hst n f
      simp only at h'
      have h2' := h' s1
      rw [h2] at h2'
      exact ⟨_, v, by rw [h', ← (Prod.mk.inj h2').2]⟩

/-- What is read of a frame after a run is what is read after the last time it was written. -/
theorem replayed_lastWrite {S F : Type} {st : Store S F} {lo : Int} {Ok : F → Prop} (hi : st.Isolated lo Ok)
    {s s' : S} {ws : List (Int × F)} (h : Replayed st s ws s') (hlo : ∀ w ∈ ws, lo ≤ w.1) {n : Int} {f : F}
    (hl : LastWrite ws n f) : ∃ s1 s2 v, st.write s1 n f = (s2, .ok v) ∧ ∀ o, Ok o → st.read s' n o = st.read s2 n o := by
  induction h with
  | nil =>
    obtain ⟨l1, l2, e, -⟩ := hl
    simp at e
  | @snoc ws s1 s2 m x v h1 h2 ih =>
    obtain ⟨l1, l2, e, hne⟩ := hl
    rcases List.eq_nil_or_concat l2 with rfl | ⟨l2, y, rfl⟩
    · obtain ⟨-, e⟩ := List.append_inj' e rfl
      cases e
      exact ⟨s1, s2, v, h2, fun _ _ => rfl⟩
    · have e' : ws ++ [(m, x)] = (l1 ++ (n, f) :: l2) ++ [y] := by rw [e]; simp
      obtain ⟨rfl, e2⟩ := List.append_inj' e' rfl
      cases e2
      have hm : m ≠ n := hne (m, x) (by simp)
      obtain ⟨t1, t2, v', a1, a2⟩ := ih (fun w hw => hlo w (by simp only [List.mem_append] at hw ⊢; exact Or.inl hw))
        ⟨l1, l2, rfl, fun w hw => hne w (by simp [hw])⟩
      refine ⟨t1, t2, v', a1, fun o ho => ?_⟩
      have := hi.other s1 m n x o (hlo (m, x) (by simp)) (hlo (n, f) (by simp)) hm ho
      rw [h2] at this
      exact this.trans (a2 o ho)

end

end Verif.Track
