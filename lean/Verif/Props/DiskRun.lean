/-
C90, C91: the links on disk after a run.
-/
import Verif.Props.StoreRun
import Verif.Props.Linking
import Verif.Props.BackStep

namespace Verif.Track
open Verif.Track.Spec

set_option linter.unusedSectionVars false

section
open _root_.Verif.IO Text

variable {D : Type} {c : ℕ}

theorem toDisk_forCams (f : MemFrame D c) : ForCams c (toDisk f) := ⟨f.img.cams, by simp [toDisk, f.img.cams]⟩

variable [OfNat D 1000000]

/-- C88: frames in memory on the files are an isolated store. -/
theorem C88_memory_isolated (b : Bases) (links : Bool) (hfmt : ∀ t ∈ b.target, '%' ∈ t ∧ '#' ∉ t)
    (hdis : ∀ t ∈ b.target, ∀ t' ∈ b.target, t ≠ t' → ∀ n m x, 0 < n → 0 < m → writeName t n = .ok x →
      writeName t' m ≠ .ok x) : (memStore D c b links).Isolated 1 (fun _ => True) := by
  have h := C88_files_isolated b links c hfmt hdis
  refine ⟨?_, ?_, fun _ _ _ _ _ _ => trivial⟩
  · intro s n m f g hn hm hnm _
    simp only [memStore]
    rw [h.other s n m _ _ hn hm hnm (toDisk_forCams g)]
  · intro s n f g _ _
    simp only [memStore]
    rw [h.object s n _ _ (toDisk_forCams f) (toDisk_forCams g)]

/-! ### What a successful write leaves on disk -/

theorem writeCam_writable {fs fs' : FS} {f : DFrame} {tb : List (List Char)} {n : ℤ} {cam : ℕ} {v : Bool}
    (h : writeCam fs f tb n cam = (fs', .ok v)) : v = true ∧
    ∃ ts k b name, f.targets[cam]? = some ts ∧ f.numTargets[cam]? = some k ∧ tb[cam]? = some b ∧
      writeName b n = .ok name ∧ ts ≠ [] := by
  have hget : ∀ {α : Type} {xs : List α} {i : ℕ}, (∃ e, pyGet xs i = .error e) ∨ ∃ x, pyGet xs i = .ok x ∧ xs[i]? = some x := by
    intro α xs i
    cases hx : xs[i]? with
    | none => exact Or.inl ⟨.indexError, by simp [pyGet, hx]⟩
    | some x => exact Or.inr ⟨x, pyGet_eq hx, rfl⟩
  unfold writeCam at h
  rcases hget (xs := f.targets) (i := cam) with ⟨e, h1⟩ | ⟨ts, h1, h1'⟩
  · simp [h1, bind, Except.bind] at h
  rcases hget (xs := f.numTargets) (i := cam) with ⟨e, h2⟩ | ⟨k, h2, h2'⟩
  · simp [h1, h2, bind, Except.bind] at h
  rcases hget (xs := tb) (i := cam) with ⟨e, h3⟩ | ⟨b, h3, h3'⟩
  · simp [h1, h2, h3, bind, Except.bind] at h
  simp only [h1, h2, h3, bind, Except.bind, writeTargets] at h
  cases hn : writeName b n with
  | error e => rw [hn] at h; simp at h
  | ok name =>
    rw [hn] at h
    simp only at h
    split_ifs at h with ht
    · simp at h
    · simp only [Prod.mk.injEq, Except.ok.injEq] at h
      exact ⟨h.2.symm, ts, k, b, name, h1', h2', h3', hn, ht⟩

theorem writeCams_writable {f : DFrame} {tb : List (List Char)} {n : ℤ} : ∀ (cams : List ℕ) (fs fs' : FS) (v : Bool),
    writeCams f tb n cams fs = (fs', .ok v) → v = true ∧ ∀ cam ∈ cams,
      ∃ ts k b name, f.targets[cam]? = some ts ∧ f.numTargets[cam]? = some k ∧ tb[cam]? = some b ∧
        writeName b n = .ok name ∧ ts ≠ []
  | [], fs, fs', v, h => by
    simp only [writeCams, Prod.mk.injEq, Except.ok.injEq] at h
    exact ⟨h.2.symm, by simp⟩
  | cam :: cams, fs, fs', v, h => by
    unfold writeCams at h
    rcases e : writeCam fs f tb n cam with ⟨fs1, x | x⟩
    · rw [e] at h; simp at h
    · obtain ⟨rfl, hw⟩ := writeCam_writable e
      rw [e] at h
      obtain ⟨h1, h2⟩ := writeCams_writable cams fs1 fs' v h
      refine ⟨h1, ?_⟩
      intro c hc
      simp only [List.mem_cons] at hc
      rcases hc with rfl | hc
      · exact hw
      · exact h2 c hc

/-- Position `v` is position `u` rounded to three decimals. -/
def RoundedPos (u v : ℚ × ℚ × ℚ) : Prop :=
  Verif.Spec.Rounded 3 u.1 v.1 ∧ Verif.Spec.Rounded 3 u.2.1 v.2.1 ∧ Verif.Spec.Rounded 3 u.2.2 v.2.2

/-- `g` is `f` as the files keep it: the same particles with the same links. -/
def KeptOnDisk (f g : MemFrame D c) : Prop :=
  List.Forall₂ (fun p q => RoundedPos p.x q.x ∧ q.prev = p.prev ∧ q.next = p.next) f.parts g.parts

/-- The image data of `f` were written and read back as those of `g`: for every particle the number of its row, the targets
it is matched with and its priority; in every camera the targets. -/
def ImagesKept (f g : MemFrame D c) : Prop :=
  g.img.corr.length = f.parts.length ∧
  (∀ (k : ℕ) t u, f.img.corr[k]? = some t → g.img.corr[k]? = some u →
    u.nr = k + 1 ∧ u.p0 = t.p0 ∧ u.p1 = t.p1 ∧ u.p2 = t.p2 ∧ u.p3 = t.p3 ∧ u.prio = t.prio) ∧
  ∀ (cam : ℕ) ts, f.img.targets[cam]? = some ts → ∃ us, g.img.targets[cam]? = some us ∧ List.Forall₂ SameTarget ts us

/-- C85, for frames in memory: a frame that is written without an exception can be read back, with its particles, links,
correspondences and targets. -/
theorem C85_memory_roundtrip (b : Bases) (links : Bool) (hcl : b.corres ≠ b.linkage) (hcp : b.corres ≠ b.prio)
    (hlp : b.linkage ≠ b.prio) (hl : b.linkage ≠ []) (hp : b.prio ≠ []) (hfmt : ∀ t ∈ b.target, '%' ∈ t ∧ '#' ∉ t)
    (hnd : b.target.Nodup)
    (hdis : ∀ t ∈ b.target, ∀ t' ∈ b.target, t ≠ t' → ∀ n m x, 0 < n → 0 < m → writeName t n = .ok x →
      writeName t' m ≠ .ok x)
    (fs fs' : FS) (n : ℤ) (hn : 0 < n) (f g : MemFrame D c) (v : Bool)
    (h : (memStore D c b links).write fs n f = (fs', .ok v)) :
    ∃ f', (memStore D c b true).read fs' n g = .ok f' ∧ KeptOnDisk f f' ∧ ImagesKept f f' := by
  have hw : (toDisk f).write fs b.corres b.linkage b.prio b.target n = (fs', .ok v) := h
  have hw' := hw
  unfold DFrame.write at hw'
  cases hpf : writePathFrame fs (toDisk f).parts (toDisk f).numParts b.corres b.linkage b.prio n with
  | error e => rw [hpf] at hw'; simp at hw'
  | ok fs1 =>
    rw [hpf] at hw'
    obtain ⟨-, hcams⟩ := writeCams_writable _ _ _ _ hw'
    have hnum : (toDisk f).numParts ≤ (toDisk f).parts.length := by
      by_contra hlt
      rw [writePathFrame, if_neg hp, if_pos (by omega)] at hpf
      cases hpf
    obtain ⟨fs2, d, w1, w2, w3⟩ := C85_roundtrip_partial fs (toDisk f) (toDisk g) b.corres b.linkage b.prio b.target n hn
      hcl hcp hlp hl hp hnum (fun cam hc => by
        obtain ⟨ts, k, t, name, a1, a2, a3, a4, a5⟩ := hcams cam (by simpa using hc)
        refine ⟨ts, k, t, name, a1, a2, a3, (hfmt t (List.mem_of_getElem? a3)).1, (hfmt t (List.mem_of_getElem? a3)).2, a4,
          a5, ?_⟩
        simp only [toDisk] at a1 a2
        rw [List.getElem?_map, a1] at a2
        simp at a2
        omega)
      (fun i j t t' hij h1 h2 x hx => hdis t (List.mem_of_getElem? h1) t' (List.mem_of_getElem? h2)
        (fun e => hij (by
          subst e
          have hi := (List.getElem?_eq_some_iff.1 h1)
          have hj := (List.getElem?_eq_some_iff.1 h2)
          exact (List.Nodup.getElem_inj_iff hnd).1 (hi.2.trans hj.2.symm))) n n x hn hn hx)
      (by rw [(toDisk_forCams g).1, (toDisk_forCams f).1]) (by rw [(toDisk_forCams g).1, (toDisk_forCams g).2])
    rw [hw] at w1
    have e1 : fs' = fs2 := (Prod.mk.inj w1).1
    subst e1
    have hcd : d.targets.length = c := by rw [w3.cams]; exact (toDisk_forCams f).1
    refine ⟨⟨n, d.parts.map ofRow, ⟨d.targets, d.parts.map corrOf, hcd⟩⟩, ?_, ?_, ?_⟩
    · simp only [memStore, fileStore_read_eq, if_true, w2, bind, Except.bind, ofDisk, dif_pos hcd]
    swap
    · refine ⟨by rw [List.length_map]; exact w3.len, ?_, ?_⟩
      · intro k t u ht hu
        simp only [List.getElem?_map, Option.map_eq_some_iff] at hu
        obtain ⟨r, hr, rfl⟩ := hu
        have hk : k < f.parts.length := by
          have := (List.getElem?_eq_some_iff.1 hr).1
          have := w3.len
          simp only [toDisk] at this
          omega
        have := w3.parts k (toRow f.parts[k] t) r
          (by simp [toDisk, List.getElem?_zipWith, List.getElem?_eq_getElem hk, ht]) hr
        exact ⟨this.nr, this.p0, this.p1, this.p2, this.p3, this.prio⟩
      · intro cam ts hts
        obtain ⟨us, u1, -, u3⟩ := w3.targets cam ts ts.length hts (by simp [toDisk, hts])
        rw [List.take_length] at u3
        exact ⟨us, u1, u3⟩
    · have hpl : f.parts.length ≤ f.img.corr.length := by
        simp only [toDisk, List.length_zipWith] at hnum
        omega
      have hlen : d.parts.length = f.parts.length := w3.len
      refine List.forall₂_iff_get.2 ⟨by simp [hlen], ?_⟩
      intro k hk1 hk2
      have hk3 : k < d.parts.length := by simpa using hk2
      have hk4 : k < f.img.corr.length := by omega
      have := w3.parts k (toRow f.parts[k] f.img.corr[k]) d.parts[k]
        (by simp [toDisk, List.getElem?_zipWith, List.getElem?_eq_getElem hk1, List.getElem?_eq_getElem hk4])
        (List.getElem?_eq_getElem hk3)
      simp only [List.get_eq_getElem, List.getElem_map, ofRow]
      exact ⟨⟨this.x, this.y, this.z⟩, this.prev, this.next⟩

theorem memStore_readback (b : Bases) (links : Bool) (hcl : b.corres ≠ b.linkage) (hcp : b.corres ≠ b.prio)
    (hlp : b.linkage ≠ b.prio) (hl : b.linkage ≠ []) (hp : b.prio ≠ []) (hfmt : ∀ t ∈ b.target, '%' ∈ t ∧ '#' ∉ t)
    (hnd : b.target.Nodup)
    (hdis : ∀ t ∈ b.target, ∀ t' ∈ b.target, t ≠ t' → ∀ n m x, 0 < n → 0 < m → writeName t n = .ok x →
      writeName t' m ≠ .ok x)
    (fs fs' : FS) (n : ℤ) (hn : 0 < n) (f g : MemFrame D c) (v : Bool)
    (h : (memStore D c b links).write fs n f = (fs', .ok v)) :
    ∃ f', (memStore D c b true).read fs' n g = .ok f' ∧ KeptOnDisk f f' := by
  obtain ⟨f', h1, h2, -⟩ := C85_memory_roundtrip b links hcl hcp hlp hl hp hfmt hnd hdis fs fs' n hn f g v h
  exact ⟨f', h1, h2⟩

/-! ### Reading after a run -/

/-- The last frame written with number `n` is `f`. -/
def LastWrite {F : Type} (ws : List (Int × F)) (n : Int) (f : F) : Prop :=
  ∃ l1 l2, ws = l1 ++ (n, f) :: l2 ∧ ∀ w ∈ l2, w.1 ≠ n

theorem Replayed.read {S F : Type} {st st' : Store S F} {lo : Int} {Ok : F → Prop} (hi : st'.Isolated lo Ok)
    (hw : ∀ s n f, st'.write s n f = st.write s n f) {K : F → F → Prop}
    (hrb : ∀ s n f s' v g, lo ≤ n → Ok g → st.write s n f = (s', .ok v) → ∃ f', st'.read s' n g = .ok f' ∧ K f f')
    {s s' : S} {ws : List (Int × F)} (h : Replayed st s ws s') (hlo : ∀ w ∈ ws, lo ≤ w.1) {n : Int} {f : F}
    (hl : LastWrite ws n f) {g : F} (hg : Ok g) : ∃ f', st'.read s' n g = .ok f' ∧ K f f' := by
  induction h with
  | nil =>
    obtain ⟨l1, l2, e, -⟩ := hl
    simp at e
  | @snoc ws s1 s2 m x v h1 h2 ih =>
    obtain ⟨l1, l2, e, hne⟩ := hl
    rcases List.eq_nil_or_concat l2 with rfl | ⟨l2, y, rfl⟩
    · obtain ⟨-, e⟩ := List.append_inj' e rfl
      cases e
      exact hrb s1 n f s2 v g (hlo (n, f) (by simp)) hg h2
    · have e' : ws ++ [(m, x)] = (l1 ++ (n, f) :: l2) ++ [y] := by rw [e]; simp
      obtain ⟨rfl, e2⟩ := List.append_inj' e' rfl
      cases e2
      have hm : m ≠ n := hne (m, x) (by simp)
      obtain ⟨f', a1, a2⟩ := ih (fun w hw => hlo w (by simp only [List.mem_append] at hw ⊢; exact Or.inl hw))
        ⟨l1, l2, rfl, fun w hw => hne w (by simp [hw])⟩
      refine ⟨f', ?_, a2⟩
      rw [← a1]
      have := hi.other s1 m n x g (hlo (m, x) (by simp)) (hlo (n, f) (by simp)) hm hg
      rw [hw, h2] at this
      exact this

theorem readRows_nolinks : ∀ (ls : List (List Char)) (pr : Option (List (List Char))) (k room : ℕ) {ps : List Particle},
    readRows ls none pr k room = .ok ps → ∀ p ∈ ps, p.prev = -1 ∧ p.next = -2
  | [], pr, k, room, ps, h => by
    simp only [readRows, Except.ok.injEq] at h
    subst h
    simp
  | l :: ls, pr, k, 0, ps, h => by simp [readRows] at h
  | l :: ls, pr, k, room + 1, ps, h => by
    unfold readRows at h
    obtain ⟨links, h1, h⟩ := bind_ok h
    obtain ⟨prio, h2, h⟩ := bind_ok h
    obtain ⟨t, h3, h⟩ := bind_ok h
    obtain ⟨ts, h4, h⟩ := bind_ok h
    simp only [Except.ok.injEq] at h
    subst h
    intro p hp
    simp only [List.mem_cons] at hp
    rcases hp with rfl | hp
    · simp only [nextLine, Option.map_none, readLinks, Except.ok.injEq] at h1
      subst h1
      unfold readCorres at h3
      obtain ⟨v, h5, h3⟩ := bind_ok h3
      split at h3
      · cases h3; exact ⟨rfl, rfl⟩
      · cases h3
    · exact readRows_nolinks ls _ _ _ h4 p hp

theorem readPathFrame_nolinks {fs : FS} {cb : List Char} {n : ℤ} {ps : List Particle}
    (h : readPathFrame fs cb [] [] n = .ok ps) : ∀ p ∈ ps, p.prev = -1 ∧ p.next = -2 := by
  unfold readPathFrame at h
  split at h
  · cases h; simp
  · obtain ⟨k, h1, h⟩ := bind_ok h
    simp only [openOptional, if_true] at h
    exact readRows_nolinks _ _ _ _ h

theorem readCams_parts {fs : FS} {tb : List (List Char)} {n : ℤ} : ∀ (cams : List ℕ) (f : DFrame),
    (readCams fs tb n cams f).1.parts = f.parts
  | [], f => rfl
  | cam :: cams, f => by
    unfold readCams
    cases readCam fs tb n cam with
    | error e => rfl
    | ok ts => exact readCams_parts cams _

/-- A frame that is read without links has none, no candidates, and its number. -/
theorem memStore_read_plain {b : Bases} {fs : FS} {n : ℤ} {f f' : MemFrame D c}
    (h : (memStore D c b false).read fs n f = .ok f') :
    f'.no = n ∧ ∀ p ∈ f'.parts, p.prev = PREV_NONE ∧ p.next = NEXT_NONE ∧ p.cands = [] := by
  simp only [memStore] at h
  obtain ⟨d, h1, h2⟩ := bind_ok h
  rw [fileStore_read_eq] at h1
  unfold ofDisk at h2
  split_ifs at h2 with hc
  cases h2
  refine ⟨rfl, ?_⟩
  have hd : ∀ p ∈ d.parts, p.prev = -1 ∧ p.next = -2 := by
    simp only [Bool.false_eq_true, if_false] at h1
    unfold DFrame.read at h1
    cases hr : readPathFrame fs b.corres [] [] n with
    | error e => rw [hr] at h1; simp at h1
    | ok ps =>
      rw [hr] at h1
      simp only at h1
      split at h1
      · cases h1
      · rename_i f2 e2
        cases h1
        have := congrArg (fun q => q.1.parts) e2
        simp only [readCams_parts] at this
        rw [← this]
        exact readPathFrame_nolinks hr
      · cases h1
  intro p hp
  simp only [List.mem_map] at hp
  obtain ⟨q, hq, rfl⟩ := hp
  exact ⟨(hd q hq).1, (hd q hq).2, rfl⟩

end

/-! ### C90 -/

section
open _root_.Verif.IO Text
variable {J C D : Type} [Field D] [LinearOrder D] {c : ℕ}

theorem mutual_kept {f g f' g' : MemFrame D c} (h : Mutual f.parts g.parts) (hf : KeptOnDisk f f') (hg : KeptOnDisk g g') :
    Mutual f'.parts g'.parts := by
  have lf : f'.parts.length = f.parts.length := hf.length_eq.symm
  have lg : g'.parts.length = g.parts.length := hg.length_eq.symm
  have ef : ∀ (i : ℕ) (p' : Part (ℚ × ℚ × ℚ) D), f'.parts[i]? = some p' → ∃ p, f.parts[i]? = some p ∧ p'.next = p.next := by
    intro i p' hp'
    obtain ⟨hi, rfl⟩ := List.getElem?_eq_some_iff.1 hp'
    have := List.Forall₂.get hf (lf ▸ hi) hi
    exact ⟨_, List.getElem?_eq_getElem (lf ▸ hi), this.2.2⟩
  have ef' : ∀ (i : ℕ) (p : Part (ℚ × ℚ × ℚ) D), f.parts[i]? = some p → ∃ p', f'.parts[i]? = some p' ∧ p'.next = p.next := by
    intro i p hp
    obtain ⟨hi, rfl⟩ := List.getElem?_eq_some_iff.1 hp
    have := List.Forall₂.get hf hi (lf.symm ▸ hi)
    exact ⟨_, List.getElem?_eq_getElem (lf.symm ▸ hi), this.2.2⟩
  have eg : ∀ (i : ℕ) (p' : Part (ℚ × ℚ × ℚ) D), g'.parts[i]? = some p' → ∃ p, g.parts[i]? = some p ∧ p'.prev = p.prev := by
    intro i p' hp'
    obtain ⟨hi, rfl⟩ := List.getElem?_eq_some_iff.1 hp'
    have := List.Forall₂.get hg (lg ▸ hi) hi
    exact ⟨_, List.getElem?_eq_getElem (lg ▸ hi), this.2.1⟩
  have eg' : ∀ (i : ℕ) (p : Part (ℚ × ℚ × ℚ) D), g.parts[i]? = some p → ∃ p', g'.parts[i]? = some p' ∧ p'.prev = p.prev := by
    intro i p hp
    obtain ⟨hi, rfl⟩ := List.getElem?_eq_some_iff.1 hp
    have := List.Forall₂.get hg hi (lg.symm ▸ hi)
    exact ⟨_, List.getElem?_eq_getElem (lg.symm ▸ hi), this.2.1⟩
  refine ⟨fun i k => ⟨?_, ?_⟩, ?_, ?_⟩
  · rintro ⟨p', hp', e⟩
    obtain ⟨p, hp, e'⟩ := ef i p' hp'
    obtain ⟨q, hq, e2⟩ := (h.1 i k).1 ⟨p, hp, by rw [← e', e]⟩
    obtain ⟨q', hq', e3⟩ := eg' k q hq
    exact ⟨q', hq', by rw [e3, e2]⟩
  · rintro ⟨q', hq', e⟩
    obtain ⟨q, hq, e'⟩ := eg k q' hq'
    obtain ⟨p, hp, e2⟩ := (h.1 i k).2 ⟨q, hq, by rw [← e', e]⟩
    obtain ⟨p', hp', e3⟩ := ef' i p hp
    exact ⟨p', hp', by rw [e3, e2]⟩
  · intro p' hp'
    obtain ⟨i, hi⟩ := List.getElem?_of_mem hp'
    obtain ⟨p, hp, e⟩ := ef i p' hi
    rw [lg, e]
    exact h.2.1 p (List.mem_of_getElem? hp)
  · intro q' hq'
    obtain ⟨i, hi⟩ := List.getElem?_of_mem hq'
    obtain ⟨q, hq, e⟩ := eg i q' hi
    rw [lf, e]
    exact h.2.2 q (List.mem_of_getElem? hq)

/-- File names that a run can use: the three kinds of path files have different names, the targets files of each camera
have a name with a number format, and those of different cameras never have the same name. -/
structure GoodNames (b : Bases) : Prop where
  corresLinkage : b.corres ≠ b.linkage
  corresPrio : b.corres ≠ b.prio
  linkagePrio : b.linkage ≠ b.prio
  linkage : b.linkage ≠ []
  prio : b.prio ≠ []
  format : ∀ t ∈ b.target, '%' ∈ t ∧ '#' ∉ t
  nodup : b.target.Nodup
  differ : ∀ t ∈ b.target, ∀ t' ∈ b.target, t ≠ t' → ∀ n m x, 0 < n → 0 < m → writeName t n = .ok x →
    writeName t' m ≠ .ok x

theorem keptOnDisk_get {f f' : MemFrame D c} (h : KeptOnDisk f f') {k : ℕ} {x : ℚ × ℚ × ℚ}
    (hx : (f.parts.map Part.x)[k]? = some x) : ∃ p', f'.parts[k]? = some p' ∧ RoundedPos x p'.x := by
  rw [List.getElem?_map, Option.map_eq_some_iff] at hx
  obtain ⟨p, hp, rfl⟩ := hx
  obtain ⟨hi, rfl⟩ := List.getElem?_eq_some_iff.1 hp
  have hl := h.length_eq
  exact ⟨_, List.getElem?_eq_getElem (hl ▸ hi), (List.Forall₂.get h hi (hl ▸ hi)).1⟩

/-- C90: after a forward run that ends regularly, the files hold consistent links: every frame of the sequence can be
read with its links; consecutive frames agree on them; and every particle that was there before is still there, with its
number and (up to the three decimals of the files) its position. The run reads and writes the files it changes; whatever
else is on disk does not matter. -/
theorem C90_links_on_disk (b : Bases) (hb : GoodNames b) (g : Geo (ℚ × ℚ × ℚ) J C (CamData c) D) (hg : SearchSane g)
    (first : Int) (hf : 0 < first) (L : Nat) (fs fs' : FS) (x y z w : MemFrame D c) (r : Run (MemFrame D c))
    (h : sForwardRun (memStore D c b false) (trackBuf g) first (first + L) fs [x, y, z, w] = (fs', .ok r)) :
    (∀ n, first ≤ n → n ≤ first + L → ∀ o : MemFrame D c, ∃ p, (memStore D c b true).read fs' n o = .ok p ∧
      ∀ p0, (memStore D c b false).read fs n o = .ok p0 → ∀ (k : ℕ) u, p0.parts[k]? = some u →
        ∃ v, p.parts[k]? = some v ∧ RoundedPos u.x v.x) ∧
    (∀ n, first ≤ n → n < first + L → ∀ (o o' p q : MemFrame D c), (memStore D c b true).read fs' n o = .ok p →
      (memStore D c b true).read fs' (n + 1) o' = .ok q → Mutual p.parts q.parts) := by
  have hi1 := C88_memory_isolated (D := D) (c := c) b false hb.format hb.differ
  have hi2 := C88_memory_isolated (D := D) (c := c) b true hb.format hb.differ
  have hi : (memStore D c b false).Isolated first (fun _ => True) :=
    ⟨fun s n m f g hn hm => hi1.other s n m f g (by omega) (by omega), hi1.object, hi1.kind⟩
  let disk : Int → MemFrame D c := fun n =>
    match (memStore D c b false).read fs n x with
    | .ok f => f
    | .error _ => ⟨n, [], x.img⟩
  have hdok : ∀ n f, (memStore D c b false).read fs n x = .ok f → disk n = f := by
    intro n f e
    simp only [disk, e]
  have hd : ∀ n f f', first ≤ n → True → (memStore D c b false).read fs n f = .ok f' → disk n = f' := by
    intro n f f' _ _ e
    rw [hi1.object fs n f x trivial trivial] at e
    exact hdok n f' e
  have hplain : ∀ n, (disk n).no = n ∧ ∀ p ∈ (disk n).parts, p.prev = PREV_NONE ∧ p.next = NEXT_NONE := by
    intro n
    simp only [disk]
    cases e : (memStore D c b false).read fs n x with
    | error _ => simp
    | ok f =>
      obtain ⟨h1, h2⟩ := memStore_read_plain e
      exact ⟨h1, fun p hp => ⟨(h2 p hp).1, (h2 p hp).2.1⟩⟩
  obtain ⟨hr, hrep⟩ := C88_forward_files (memStore D c b false) first (first + L) (fun _ => True) hi (trackBuf g)
    (fun _ _ _ _ _ _ => trivial) fs fs' disk hd [x, y, z, w] (fun _ _ => trivial) r h
  obtain ⟨hlen, hchain, hpos, -, -⟩ := C16_run_mutual g hg disk (fun n => (hplain n).2) first L x y z w r hr
  obtain ⟨-, hnums, -, -⟩ := C20_forward_schedule g hg disk (fun n => (hplain n).1) first L x y z w r hr
  have hnum : (writesOf r.log).map Prod.fst = intRange first (L + 1) := by
    have := congrArg (List.map Prod.fst) hnums
    simpa [List.map_map, Function.comp_def] using this
  have hget : ∀ (i : ℕ) (wr : Int × MemFrame D c), (writesOf r.log)[i]? = some wr → wr.1 = first + i := by
    intro i wr hwr
    have := congrArg (fun l => l[i]?) hnum
    simp only [List.getElem?_map, hwr, Option.map_some, intRange] at this
    have hi' : i < L + 1 := by
      rw [← hlen]; exact (List.getElem?_eq_some_iff.1 hwr).1
    rw [List.getElem?_range hi'] at this
    simpa using this
  have hrb : ∀ (s : FS) (n : Int) (f : MemFrame D c) (s' : FS) (v : Bool) (o : MemFrame D c), 1 ≤ n → True →
      (memStore D c b false).write s n f = (s', .ok v) → ∃ f', (memStore D c b true).read s' n o = .ok f' ∧ KeptOnDisk f f' :=
    fun s n f s' v o hn _ hw => memStore_readback b false hb.corresLinkage hb.corresPrio hb.linkagePrio hb.linkage hb.prio
      hb.format hb.nodup hb.differ s s' n (by omega) f o v hw
  have hlow : ∀ wr ∈ writesOf r.log, (1 : Int) ≤ wr.1 := by
    intro wr hwr
    obtain ⟨i, hi'⟩ := List.getElem?_of_mem hwr
    have := hget i wr hi'
    omega
  have hread : ∀ (i : ℕ) (wr : Int × MemFrame D c) (o : MemFrame D c), (writesOf r.log)[i]? = some wr →
      ∃ p, (memStore D c b true).read fs' (first + i) o = .ok p ∧ KeptOnDisk wr.2 p := by
    intro i wr o hwr
    obtain ⟨hi', e⟩ := List.getElem?_eq_some_iff.1 hwr
    have hn := hget i wr hwr
    have hl : LastWrite (writesOf r.log) (first + i) wr.2 := by
      refine ⟨(writesOf r.log).take i, (writesOf r.log).drop (i + 1), ?_, ?_⟩
      · have : (first + (i : Int), wr.2) = wr := by rw [← hn]
        rw [this, ← e]
        exact (List.take_append_drop i (writesOf r.log)).symm.trans (by rw [List.drop_eq_getElem_cons hi'])
      · intro w' hw'
        obtain ⟨j, hj⟩ := List.getElem?_of_mem hw'
        rw [List.getElem?_drop] at hj
        have := hget _ w' hj
        push_cast at this
        omega
    exact Replayed.read (st := memStore D c b false) hi2 (fun _ _ _ => rfl) hrb hrep hlow hl trivial
  have hat : ∀ (n : Int), first ≤ n → n ≤ first + L → ∃ (i : ℕ) (wr : Int × MemFrame D c), n = first + i ∧
      (writesOf r.log)[i]? = some wr := by
    intro n h1 h2
    refine ⟨(n - first).toNat, _, by omega, List.getElem?_eq_getElem (by omega)⟩
  constructor
  · intro n h1 h2 o
    obtain ⟨i, wr, rfl, hwr⟩ := hat n h1 h2
    obtain ⟨p, hp1, hp2⟩ := hread i wr o hwr
    refine ⟨p, hp1, ?_⟩
    intro p0 hp0 k u hu
    obtain ⟨e, he⟩ := hpos wr (List.mem_of_getElem? hwr)
    have hd0 : disk wr.1 = p0 := by
      rw [hget i wr hwr]
      exact hd _ o p0 h1 trivial hp0
    rw [hd0] at he
    refine keptOnDisk_get hp2 (k := k) ?_
    rw [he, List.getElem?_append_left (by simpa using (List.getElem?_eq_some_iff.1 hu).1), List.getElem?_map, hu]
    rfl
  · intro n h1 h2 o o' p q hp hq
    obtain ⟨i, wr, rfl, hwr⟩ := hat n h1 (by omega)
    obtain ⟨i', wr', hn', hwr'⟩ := hat (first + i + 1) (by omega) (by omega)
    have hii : i' = i + 1 := by omega
    subst hii
    obtain ⟨p1, hp1, hp2⟩ := hread i wr o hwr
    obtain ⟨q1, hq1, hq2⟩ := hread (i + 1) wr' o' hwr'
    rw [hp] at hp1
    cases hp1
    rw [show first + ((i + 1 : ℕ) : Int) = first + i + 1 by push_cast; omega, hq] at hq1
    cases hq1
    refine mutual_kept ?_ hp2 hq2
    obtain ⟨hi1', e1⟩ := List.getElem?_eq_some_iff.1 hwr
    obtain ⟨hi2', e2⟩ := List.getElem?_eq_some_iff.1 hwr'
    have := List.isChain_iff_getElem.1 hchain i hi2'
    rw [e1, e2] at this
    exact this

/-! ### C91 -/

/-- The particles of frame `n` on disk, with their links; none if the frame cannot be read. -/
def partsAt (D : Type) [OfNat D 1000000] (c : ℕ) (b : Bases) (o : MemFrame D c) (fs : FS) (n : Int) :
    List (Part (ℚ × ℚ × ℚ) D) :=
  match (memStore D c b true).read fs n o with
  | .ok f => f.parts
  | .error _ => []

theorem memStore_read_true {b : Bases} {links : Bool} {fs : FS} {n : ℤ} {f f' : MemFrame D c}
    (h : (memStore D c b links).read fs n f = .ok f') : f'.no = n ∧ ∀ p ∈ f'.parts, p.cands = [] := by
  simp only [memStore] at h
  obtain ⟨d, h1, h2⟩ := bind_ok h
  unfold ofDisk at h2
  split_ifs at h2 with hc
  cases h2
  refine ⟨rfl, ?_⟩
  intro p hp
  simp only [List.mem_map] at hp
  obtain ⟨q, hq, rfl⟩ := hp
  rfl

/-- What the theorems about the backward run need: the runs on files and on a fixed disk are the same, the frames that can
be read after the run. -/
theorem back_on_disk (b : Bases) (hb : GoodNames b) (g : Geo (ℚ × ℚ × ℚ) J C (CamData c) D) (hg : SearchSane g)
    (xz : ℚ × ℚ × ℚ → Bool) (y : ℚ × ℚ × ℚ → D) (last : Int) (L : Nat) (hL : 2 ≤ L) (h1 : 1 ≤ last - L)
    (h3 : 1 ≤ last - 3) (fs fs' : FS) (o1 o2 o3 o4 : MemFrame D c)
    (hm : ∀ n, last - L ≤ n → n < last → Mutual (partsAt D c b o1 fs n) (partsAt D c b o1 fs (n + 1))) (r : Run (MemFrame D c))
    (h : sBackRun (memStore D c b true) (backBuf g xz y) (last - L) last fs [o1, o2, o3, o4] = (fs', .ok r)) :
    ∃ (disk : Int → MemFrame D c) (ws : List (Int × MemFrame D c)) (f : MemFrame D c),
      (∀ n, (disk n).parts = partsAt D c b o1 fs n) ∧
      (∀ n o p, (memStore D c b true).read fs n o = .ok p → p = disk n) ∧
      writesOf r.log = ws ++ [(last - L + 1, f)] ∧ ws.length = L - 1 ∧
      (∀ (i : ℕ) wr, ws[i]? = some wr → wr.1 = last - 1 - i) ∧
      BackChain (((last, disk last) :: ws) ++ [(last - L, f)]) ∧
      (∀ wr ∈ ws, KeepsLinks (disk wr.1).parts wr.2.parts) ∧
      KeepsLinks (disk (last - L)).parts f.parts ∧
      (∀ (i : ℕ) wr (o : MemFrame D c), i + 2 < L → ws[i]? = some wr →
        ∃ p, (memStore D c b true).read fs' (last - 1 - i) o = .ok p ∧ KeptOnDisk wr.2 p) ∧
      (∀ o : MemFrame D c, ∃ p, (memStore D c b true).read fs' (last - L + 1) o = .ok p ∧ KeptOnDisk f p) ∧
      (∀ (n : Int) (o : MemFrame D c), 1 ≤ n → (n ≤ last - L ∨ last ≤ n) →
        (memStore D c b true).read fs' n o = (memStore D c b true).read fs n o) := by
  have hi := C88_memory_isolated (D := D) (c := c) b true hb.format hb.differ
  let disk : Int → MemFrame D c := fun n =>
    match (memStore D c b true).read fs n o1 with
    | .ok f => f
    | .error _ => ⟨n, [], o1.img⟩
  have hdok : ∀ n f, (memStore D c b true).read fs n o1 = .ok f → disk n = f := by
    intro n f e
    simp only [disk, e]
  have hd : ∀ n f f', 1 ≤ n → True → (memStore D c b true).read fs n f = .ok f' → disk n = f' := by
    intro n f f' _ _ e
    rw [hi.object fs n f o1 trivial trivial] at e
    exact hdok n f' e
  have hdp : ∀ n, (disk n).parts = partsAt D c b o1 fs n := by
    intro n
    simp only [disk, partsAt]
    cases (memStore D c b true).read fs n o1 <;> rfl
  have hplain : ∀ n, ∀ p ∈ (disk n).parts, p.cands = [] := by
    intro n
    simp only [disk]
    cases e : (memStore D c b true).read fs n o1 with
    | error _ => simp
    | ok f => exact (memStore_read_true e).2
  obtain ⟨hr, hrep⟩ := C88_backward_files (memStore D c b true) (last - L) last 1 h1 h3 (fun _ => True) hi (backBuf g xz y)
    (fun _ _ _ _ _ _ => trivial) fs fs' disk hd [o1, o2, o3, o4] (fun _ _ => trivial) r h
  obtain ⟨ws, f, e1, e2, e3, e4, e5⟩ := C84_backward_run_partial g hg xz y disk last L hL
    (fun n h1 h2 => by rw [hdp, hdp]; exact hm n h1 h2) hplain o1 o2 o3 o4 r hr
  have hnum : ∀ (i : ℕ) wr, ws[i]? = some wr → wr.1 = last - 1 - i := by
    have hch : ∀ (i : ℕ) wr, (((last, disk last) :: ws) ++ [(last - L, f)])[i]? = some wr → wr.1 = last - i := by
      intro i
      induction i with
      | zero =>
        intro wr hwr
        simp only [List.cons_append, List.getElem?_cons_zero, Option.some.injEq] at hwr
        rw [← hwr]; simp
      | succ i ih =>
        intro wr hwr
        obtain ⟨hi1, q1⟩ := List.getElem?_eq_some_iff.1 hwr
        have hlt : i < (((last, disk last) :: ws) ++ [(last - L, f)]).length := by omega
        have hc := List.isChain_iff_getElem.1 e3 i (by omega)
        have := ih _ (List.getElem?_eq_getElem hlt)
        rw [q1] at hc
        have := hc.1
        push_cast
        omega
    intro i wr hwr
    have hi1 := (List.getElem?_eq_some_iff.1 hwr).1
    have := hch (i + 1) wr (by
      rw [List.getElem?_append_left (by simp; omega), List.getElem?_cons_succ]; exact hwr)
    rw [this]; push_cast; omega
  have hlow : ∀ wr ∈ writesOf r.log, (1 : Int) ≤ wr.1 := by
    intro wr hwr
    rw [e1] at hwr
    simp only [List.mem_append, List.mem_singleton] at hwr
    rcases hwr with hwr | rfl
    · obtain ⟨i, hi'⟩ := List.getElem?_of_mem hwr
      have := hnum i wr hi'
      have := (List.getElem?_eq_some_iff.1 hi').1
      omega
    · simp only; omega
  have hrb : ∀ (s : FS) (n : Int) (f : MemFrame D c) (s' : FS) (v : Bool) (o : MemFrame D c), 1 ≤ n → True →
      (memStore D c b true).write s n f = (s', .ok v) → ∃ f', (memStore D c b true).read s' n o = .ok f' ∧ KeptOnDisk f f' :=
    fun s n f s' v o hn _ hw => memStore_readback b true hb.corresLinkage hb.corresPrio hb.linkagePrio hb.linkage hb.prio
      hb.format hb.nodup hb.differ s s' n (by omega) f o v hw
  refine ⟨disk, ws, f, hdp, ?_, e1, e2, hnum, e3, fun wr hw => (e4 wr hw).1, e5, ?_, ?_, ?_⟩
  · intro n o p hp
    rw [hi.object fs n o o1 trivial trivial] at hp
    exact (hdok n p hp).symm
  · intro i wr o hi' hwr
    obtain ⟨hlt, e⟩ := List.getElem?_eq_some_iff.1 hwr
    have hn := hnum i wr hwr
    have hl : LastWrite (writesOf r.log) (last - 1 - i) wr.2 := by
      refine ⟨ws.take i, ws.drop (i + 1) ++ [(last - L + 1, f)], ?_, ?_⟩
      · have : (last - 1 - (i : Int), wr.2) = wr := by rw [← hn]
        rw [this, ← e, e1, ← List.cons_append, ← List.append_assoc, ← List.drop_eq_getElem_cons hlt,
          List.take_append_drop]
      · intro w' hw'
        simp only [List.mem_append, List.mem_singleton] at hw'
        rcases hw' with hw' | rfl
        · obtain ⟨j, hj⟩ := List.getElem?_of_mem hw'
          rw [List.getElem?_drop] at hj
          have := hnum _ w' hj
          push_cast at this
          omega
        · simp only; omega
    exact Replayed.read hi (fun _ _ _ => rfl) hrb hrep hlow hl trivial
  · intro o
    exact Replayed.read hi (fun _ _ _ => rfl) hrb hrep hlow ⟨ws, [], e1, by simp⟩ trivial
  · intro n o hn hnn
    rw [hrep.replay]
    refine replay_read hi hn trivial _ _ ?_
    intro wr hwr
    refine ⟨hlow wr hwr, ?_⟩
    rw [e1] at hwr
    simp only [List.mem_append, List.mem_singleton] at hwr
    rcases hwr with hwr | rfl
    · obtain ⟨i, hi'⟩ := List.getElem?_of_mem hwr
      have := hnum i wr hi'
      have := (List.getElem?_eq_some_iff.1 hi').1
      omega
    · simp only; omega

/-- C91 (partial): after a backward run over the frames `last - L .. last` whose links agree on disk (as far as they can
be read), the frames from `last - L + 2` up can be read; they have their particles (up to the precision of the files)
and all the links they had; and neighbours agree on their links. Missing: the first two frames, see
`C91_first_frames_refuted`. -/
theorem C91_backward_on_disk_partial (b : Bases) (hb : GoodNames b) (g : Geo (ℚ × ℚ × ℚ) J C (CamData c) D)
    (hg : SearchSane g) (xz : ℚ × ℚ × ℚ → Bool) (y : ℚ × ℚ × ℚ → D) (last : Int) (L : Nat) (hL : 2 ≤ L)
    (h1 : 1 ≤ last - L) (h3 : 1 ≤ last - 3) (fs fs' : FS) (o1 o2 o3 o4 : MemFrame D c)
    (hm : ∀ n, last - L ≤ n → n < last → Mutual (partsAt D c b o1 fs n) (partsAt D c b o1 fs (n + 1))) (r : Run (MemFrame D c))
    (h : sBackRun (memStore D c b true) (backBuf g xz y) (last - L) last fs [o1, o2, o3, o4] = (fs', .ok r)) :
    (∀ n, last - L + 2 ≤ n → n < last → ∀ o : MemFrame D c, ∃ p, (memStore D c b true).read fs' n o = .ok p ∧
      ∀ p0, (memStore D c b true).read fs n o = .ok p0 → p.parts.length = p0.parts.length ∧
        ∀ (k : ℕ) u, p0.parts[k]? = some u → ∃ v, p.parts[k]? = some v ∧ RoundedPos u.x v.x ∧
          (u.next ≠ NEXT_NONE → v.next = u.next) ∧ (u.prev ≠ PREV_NONE → v.prev = u.prev)) ∧
    (∀ n, last - L + 2 ≤ n → n < last → ∀ (o o' p q : MemFrame D c), (memStore D c b true).read fs' n o = .ok p →
      (memStore D c b true).read fs' (n + 1) o' = .ok q → Mutual p.parts q.parts) := by
  obtain ⟨disk, ws, f, -, d2, -, d4, d5, d6, d7, -, d9, -, d11⟩ := back_on_disk b hb g hg xz y last L hL h1 h3 fs fs'
    o1 o2 o3 o4 hm r h
  have hat : ∀ (n : Int), last - L + 2 ≤ n → n < last → ∃ (i : ℕ) (wr : Int × MemFrame D c), n = last - 1 - i ∧ i + 2 < L ∧
      ws[i]? = some wr := by
    intro n h1 h2
    refine ⟨(last - 1 - n).toNat, _, by omega, by omega, List.getElem?_eq_getElem (by omega)⟩
  constructor
  · intro n hn1 hn2 o
    obtain ⟨i, wr, rfl, hi, hwr⟩ := hat n hn1 hn2
    obtain ⟨p, hp1, hp2⟩ := d9 i wr o hi hwr
    refine ⟨p, hp1, ?_⟩
    intro p0 hp0
    have e0 := d2 _ o p0 hp0
    have hk := d7 wr (List.mem_of_getElem? hwr)
    rw [d5 i wr hwr, ← e0] at hk
    have hlen := hp2.length_eq
    refine ⟨by rw [← hlen, hk.1], ?_⟩
    intro k u hu
    obtain ⟨u', hu', q1, q2, q3⟩ := hk.2 k u hu
    obtain ⟨hlt, rfl⟩ := List.getElem?_eq_some_iff.1 hu'
    have hz := List.Forall₂.get hp2 hlt (hlen ▸ hlt)
    simp only [List.get_eq_getElem] at hz
    refine ⟨_, List.getElem?_eq_getElem (hlen ▸ hlt), by rw [← q1]; exact hz.1, ?_, ?_⟩
    · intro hne; rw [hz.2.2, q2 hne]
    · intro hne; rw [hz.2.1, q3 hne]
  · intro n hn1 hn2 o o' p q hp hq
    obtain ⟨i, wr, rfl, hi, hwr⟩ := hat n hn1 hn2
    obtain ⟨p1, hp1, hp2⟩ := d9 i wr o hi hwr
    rw [hp] at hp1
    cases hp1
    have hget1 : (((last, disk last) :: ws) ++ [(last - L, f)])[i + 1]? = some wr := by
      have := (List.getElem?_eq_some_iff.1 hwr).1
      rw [List.getElem?_append_left (by simp; omega), List.getElem?_cons_succ]; exact hwr
    obtain ⟨hl1, g1⟩ := List.getElem?_eq_some_iff.1 hget1
    have hc := (List.isChain_iff_getElem.1 d6 i hl1).2
    rw [g1] at hc
    cases i with
    | zero =>
      have hq' := d11 last o' (by omega) (Or.inr (le_refl _))
      rw [show last - 1 - ((0 : ℕ) : Int) + 1 = last by simp] at hq
      rw [hq] at hq'
      have e := d2 last o' q hq'.symm
      subst e
      simp only [List.cons_append, List.getElem_cons_zero] at hc
      have hid : Mutual p.parts (disk last).parts := by
        have hl := hp2.length_eq
        refine ⟨fun a k => ?_, ?_, ?_⟩
        · rw [← hc.1 a k]
          constructor
          · rintro ⟨u, hu, e⟩
            obtain ⟨hlt, rfl⟩ := List.getElem?_eq_some_iff.1 hu
            have hz := List.Forall₂.get hp2 (hl.symm ▸ hlt) hlt
            exact ⟨_, List.getElem?_eq_getElem (hl.symm ▸ hlt), by rw [← e]; exact hz.2.2.symm⟩
          · rintro ⟨u, hu, e⟩
            obtain ⟨hlt, rfl⟩ := List.getElem?_eq_some_iff.1 hu
            have hz := List.Forall₂.get hp2 hlt (hl ▸ hlt)
            exact ⟨_, List.getElem?_eq_getElem (hl ▸ hlt), by rw [← e]; exact hz.2.2⟩
        · intro u hu
          obtain ⟨a, ha⟩ := List.getElem?_of_mem hu
          obtain ⟨hlt, rfl⟩ := List.getElem?_eq_some_iff.1 ha
          have hz := List.Forall₂.get hp2 (hl.symm ▸ hlt) hlt
          simp only [List.get_eq_getElem] at hz
          rw [hz.2.2]
          exact hc.2.1 _ (List.getElem_mem _)
        · rw [← hl]; exact hc.2.2
      exact hid
    | succ i =>
      have hlt := (List.getElem?_eq_some_iff.1 hwr).1
      obtain ⟨q1, hq1, hq2⟩ := d9 i _ o' (by omega) (List.getElem?_eq_getElem (by omega : i < ws.length))
      rw [show last - 1 - ((i + 1 : ℕ) : Int) + 1 = last - 1 - (i : Int) by push_cast; omega] at hq
      rw [hq] at hq1
      cases hq1
      refine mutual_kept ?_ hp2 hq2
      have g2 : (((last, disk last) :: ws) ++ [(last - L, f)])[i + 1]'(by simp; omega) = ws[i] := by
        rw [List.getElem_append_left (by simp; omega), List.getElem_cons_succ]
      rw [g2] at hc
      exact hc

/-- C91 (refuted): after such a run the files of frame `last - L + 1` contain the particles of frame `last - L`; its own
ones are lost. The files of frame `last - L` itself are unchanged. -/
theorem C91_first_frames_refuted (b : Bases) (hb : GoodNames b) (g : Geo (ℚ × ℚ × ℚ) J C (CamData c) D)
    (hg : SearchSane g) (xz : ℚ × ℚ × ℚ → Bool) (y : ℚ × ℚ × ℚ → D) (last : Int) (L : Nat) (hL : 2 ≤ L)
    (h1 : 1 ≤ last - L) (h3 : 1 ≤ last - 3) (fs fs' : FS) (o1 o2 o3 o4 : MemFrame D c)
    (hm : ∀ n, last - L ≤ n → n < last → Mutual (partsAt D c b o1 fs n) (partsAt D c b o1 fs (n + 1))) (r : Run (MemFrame D c))
    (h : sBackRun (memStore D c b true) (backBuf g xz y) (last - L) last fs [o1, o2, o3, o4] = (fs', .ok r))
    (o : MemFrame D c) :
    (memStore D c b true).read fs' (last - L) o = (memStore D c b true).read fs (last - L) o ∧
    ∃ p, (memStore D c b true).read fs' (last - L + 1) o = .ok p ∧
      p.parts.length = (partsAt D c b o1 fs (last - L)).length ∧
      ∀ (k : ℕ) u, (partsAt D c b o1 fs (last - L))[k]? = some u → ∃ v, p.parts[k]? = some v ∧ RoundedPos u.x v.x := by
  obtain ⟨disk, ws, f, d1, -, -, -, -, -, -, d8, -, d10, d11⟩ := back_on_disk b hb g hg xz y last L hL h1 h3 fs fs'
    o1 o2 o3 o4 hm r h
  refine ⟨d11 _ o h1 (Or.inl (le_refl _)), ?_⟩
  obtain ⟨p, hp1, hp2⟩ := d10 o
  rw [d1] at d8
  refine ⟨p, hp1, by rw [← hp2.length_eq, d8.1], ?_⟩
  intro k u hu
  obtain ⟨u', hu', q1, -, -⟩ := d8.2 k u hu
  rw [← q1]
  exact keptOnDisk_get hp2 (by rw [List.getElem?_map, hu']; rfl)

/-! A run on files: two particles move along x, two cameras. -/

/-- Motion along x; the search offers both particles. -/
def fileGeo : Geo (ℚ × ℚ × ℚ) Unit Unit (CamData 2) ℚ where
  predict a b := (2 * b.1 - a.1, b.2)
  predict2 x3 x1 x0 := ((5 * x3.1 - 4 * x1.1 + x0.1) / 2, x3.2)
  sub a b := (a.1 - b.1, a.2)
  dist a b := |a.1 - b.1|
  proj _ := ()
  projOwn _ _ _ := ()
  search _ _ _ := .ok [⟨0, 4⟩, ⟨1, 3⟩, ⟨-1, 0⟩]
  assess _ _ := .ok (0, (), ())
  pointPos _ := .ok (0, 0, 0)
  inVolume _ := true
  inBounds x := decide (|x.1| < 2)
  angleAcc _ b c := .ok (0, |b.1 - c.1|)
  addImg i _ _ := .ok i
  dacc := 5
  dangle := 100
  lmax := 1
  add := false

def fileBases : Bases := ⟨"rt_is".toList, "ptv_is".toList, "added".toList, demoTb⟩

def fileCams : CamData 2 := ⟨[twoTargets, twoTargets], [⟨1, 0, 0, -1, -1, 4⟩, ⟨2, 1, 1, -1, -1, 4⟩], rfl⟩

/-- Frame `n` before the run. -/
def fileFrame (n : Int) : MemFrame ℚ 2 :=
  ⟨n, [⟨(n, 0, 1 / 8), PREV_NONE, NEXT_NONE, [], 0⟩, ⟨(n + 10, 1, 0), PREV_NONE, NEXT_NONE, [], 0⟩], fileCams⟩

/-- The files before the run: frames 1 to 4. -/
def fileStart : FS := replay (memStore ℚ 2 fileBases false) (fun _ => none) ([1, 2, 3, 4].map fun n => (n, fileFrame n))

/-- The links on disk after the run over frames 1 to 3. -/
def fileLinks : List (Option (List (Int × Int))) :=
  match sForwardRun (memStore ℚ 2 fileBases false) (trackBuf fileGeo) 1 (1 + (2 : ℕ)) fileStart
      (List.replicate 4 ⟨0, [], fileCams⟩) with
  | (fs', .ok _) => [1, 2, 3, 4].map fun n =>
    match (memStore ℚ 2 fileBases true).read fs' n ⟨0, [], fileCams⟩ with
    | .ok p => some (p.parts.map fun q => (q.prev, q.next))
    | .error _ => none
  | _ => []

/-- The run ends regularly; both particles have their path through the three frames, frame 4 is as it was. -/
example : fileLinks = [some [(-1, 0), (-1, 1)], some [(0, 0), (1, 1)], some [(0, -2), (1, -2)], some [(-1, -2), (-1, -2)]] := by
  decide +kernel

/-- The links of frames 1 to 5 on disk. -/
def linksAt (fs : FS) : List (Option (List (Int × Int))) := [1, 2, 3, 4, 5].map fun n =>
  match (memStore ℚ 2 fileBases true).read fs n ⟨0, [], fileCams⟩ with
  | .ok p => some (p.parts.map fun q => (q.prev, q.next))
  | .error _ => none

/-- The links on disk after a backward run over frames 1 to 5. -/
def backLinks (fs : FS) : List (Option (List (Int × Int))) :=
  match sBackRun (memStore ℚ 2 fileBases true) (backBuf fileGeo (fun _ => true) (fun x => x.2.1)) (5 - (4 : ℕ)) 5 fs
      [⟨0, [], fileCams⟩, ⟨0, [], fileCams⟩, ⟨0, [], fileCams⟩, ⟨0, [], fileCams⟩] with
  | (fs', .ok _) => linksAt fs'
  | _ => []

/-- Frames 4 and 5 linked, the others not yet. -/
def fileHalf : FS := replay (memStore ℚ 2 fileBases true) (fun _ => none) [(1, fileFrame 1), (2, fileFrame 2), (3, fileFrame 3),
  (4, { fileFrame 4 with parts := [⟨(4, 0, 1 / 8), PREV_NONE, 0, [], 0⟩, ⟨(14, 1, 0), PREV_NONE, 1, [], 0⟩] }),
  (5, { fileFrame 5 with parts := [⟨(5, 0, 1 / 8), 0, NEXT_NONE, [], 0⟩, ⟨(15, 1, 0), 1, NEXT_NONE, [], 0⟩] })]

/-- The run ends regularly; frames 3 and 4 get their links. Frame 1 stays without links, frame 2 now has the particles of
frame 1. -/
example : linksAt fileHalf = [some [(-1, -2), (-1, -2)], some [(-1, -2), (-1, -2)], some [(-1, -2), (-1, -2)],
      some [(-1, 0), (-1, 1)], some [(0, -2), (1, -2)]] ∧
    backLinks fileHalf = [some [(-1, -2), (-1, -2)], some [(-1, 0), (-1, 1)], some [(0, 0), (1, 1)],
      some [(0, 0), (1, 1)], some [(0, -2), (1, -2)]] := by
  decide +kernel

/-- The files before this run meet the hypothesis of C91. -/
example : ∀ n : Int, 5 - (4 : ℕ) ≤ n → n < 5 → Mutual (partsAt ℚ 2 fileBases ⟨0, [], fileCams⟩ fileHalf n)
    (partsAt ℚ 2 fileBases ⟨0, [], fileCams⟩ fileHalf (n + 1)) := by
  have key : ∀ c n : List (Part (ℚ × ℚ × ℚ) ℚ), ((c.map Part.next = [-2, -2] ∧ n.map Part.prev = [-1, -1]) ∨
      (c.map Part.next = [0, 1] ∧ n.map Part.prev = [0, 1])) → Mutual c n := by
    intro c n h
    have hc : c.length = 2 := by rcases h with h | h <;> simpa using congrArg List.length h.1
    have hn : n.length = 2 := by rcases h with h | h <;> simpa using congrArg List.length h.2
    match c, n, hc, hn with
    | [a, b], [a', b'], _, _ =>
      simp only [List.map_cons, List.map_nil, List.cons.injEq, and_true] at h
      refine ⟨?_, ?_, ?_⟩
      · intro h k
        unfold PointsTo PointsBack
        match h, k with
        | 0, 0 => simp; omega
        | 0, 1 => simp; omega
        | 1, 0 => simp; omega
        | 1, 1 => simp; omega
        | 0, k + 2 => simp; omega
        | 1, k + 2 => simp; omega
        | h + 2, 0 => simp; omega
        | h + 2, 1 => simp; omega
        | h + 2, k + 2 => simp
      · intro p hp
        simp only [List.mem_cons, List.not_mem_nil, or_false] at hp
        rcases h with ⟨⟨h1, h2⟩, -⟩ | ⟨⟨h1, h2⟩, -⟩ <;> rcases hp with rfl | rfl
        · exact Or.inl h1
        · exact Or.inl h2
        · exact Or.inr ⟨0, h1, by simp⟩
        · exact Or.inr ⟨1, h2, by simp⟩
      · intro p hp
        simp only [List.mem_cons, List.not_mem_nil, or_false] at hp
        rcases h with ⟨-, h1, h2⟩ | ⟨-, h1, h2⟩ <;> rcases hp with rfl | rfl
        · exact Or.inl h1
        · exact Or.inl h2
        · exact Or.inr ⟨0, h1, by simp⟩
        · exact Or.inr ⟨1, h2, by simp⟩
  intro n h1 h2
  have : n = 1 ∨ n = 2 ∨ n = 3 ∨ n = 4 := by push_cast at h1; omega
  rcases this with rfl | rfl | rfl | rfl <;> refine key _ _ ?_ <;> decide +kernel

/-- The files of a run that stops: frame 4 cannot be read. -/
def fileShort : FS := replay (memStore ℚ 2 fileBases false) (fun _ => none) ([1, 2, 3].map fun n => (n, fileFrame n))

/-- C89: the run over frames 1 to 4 raises IOError when it reads frame 4; frame 1 was written before. -/
example : (match sForwardRun (memStore ℚ 2 fileBases false) (trackBuf fileGeo) 1 (1 + (3 : ℕ)) fileShort
      [⟨0, [], fileCams⟩, ⟨0, [], fileCams⟩, ⟨0, [], fileCams⟩, ⟨0, [], fileCams⟩] with
    | (fs', .error e) => (e, linksAt fs')
    | _ => (.other, [])) = (.ioError, [some [(-1, 0), (-1, 1)], some [(-1, -2), (-1, -2)], some [(-1, -2), (-1, -2)],
      none, none]) := by
  decide +kernel

/-- C85_memory_roundtrip: the write succeeds. -/
example : ((memStore ℚ 2 fileBases false).write (fun _ => none) 1 (fileFrame 1)).2 = .ok true := by
  decide +kernel

example : GoodNames fileBases where
  corresLinkage := by decide
  corresPrio := by decide
  linkagePrio := by decide
  linkage := by decide
  prio := by decide
  format := by
    intro t ht
    simp only [fileBases, demoTb, List.mem_cons, List.not_mem_nil, or_false] at ht
    rcases ht with rfl | rfl <;> decide
  nodup := by decide
  differ := demoTb_differ

example : SearchSane fileGeo := by
  intro x v i w h f hf
  cases h
  simp only [List.mem_cons, List.not_mem_nil, or_false] at hf
  rcases hf with rfl | rfl | rfl <;> decide

end
end Verif.Track
