/-
C130: a particle that moves smoothly and keeps its distance is followed from files to files.
-/
import Verif.Proofs.OnImages
import Verif.Proofs.StoreConv
import Verif.Props.DiskRun
import Verif.Props.Crowd

namespace Verif.Track
open Verif.Track.Spec Verif.Geo Verif.Geo.Spec V3
open _root_.Verif.IO
open Text (FS)

/-! ### Specification -/

/-- `r` is a number with three decimals that differs from `x` by at most half of the last digit. -/
def ThreeDecimals (x r : ℝ) : Prop := (∃ k : ℤ, r = k / 1000) ∧ |r - x| ≤ 1 / 2000

/-- `Y` is the position `X` with three decimals. -/
def ThreeDecimals3 (X Y : V3) : Prop := ThreeDecimals X.x Y.x ∧ ThreeDecimals X.y Y.y ∧ ThreeDecimals X.z Y.z

/-- The files of the frames `first .. first + L` have the trajectory: each frame can be read, with its links, and its particle
`num n` is at `y n` (three decimals), linked to the particle of the frame before and to that of the frame after; at the ends there
is no link. -/
def FollowedOnFiles (c : ℕ) (b : Bases) (y : Int → V3) (num : Int → ℕ) (first : Int) (L : ℕ) (fs : FS) : Prop :=
  ∀ n, first ≤ n → n ≤ first + L → ∀ o : RealFrame c, ∃ f p, (realStore c b true).read fs n o = .ok f ∧ f.parts[num n]? = some p ∧
    ThreeDecimals3 (y n) p.x ∧ p.prev = (if n = first then -1 else (num (n - 1) : Int)) ∧
    p.next = (if n = first + L then -2 else (num (n + 1) : Int))

/-! ### The printed positions -/

theorem thousandths_near (x : ℝ) : |(thousandths x : ℝ) / 1000 - x| ≤ 1 / 2000 := by
  have h1 := Int.floor_le (1000 * x)
  have h2 := Int.lt_floor_add_one (1000 * x)
  rw [abs_le]
  unfold thousandths
  split_ifs <;> push_cast <;> constructor <;> linarith

theorem printed_rounded {x : ℝ} {r : ℚ} (h : Verif.Spec.Rounded 3 ((thousandths x : ℚ) / 1000) r) : ThreeDecimals x (r : ℝ) := by
  obtain ⟨n, hn, h1, -⟩ := h
  have e : n = thousandths x := by
    rw [hn, abs_le] at h1
    norm_num at h1
    have h2 : (n : ℚ) - thousandths x ≤ 1 / 2 := by linarith [h1.2]
    have h3 : -(1 / 2 : ℚ) ≤ (n : ℚ) - thousandths x := by linarith [h1.1]
    have h4 : ((n - thousandths x : ℤ) : ℚ) < 1 := by push_cast; linarith
    have h5 : (-1 : ℚ) < ((n - thousandths x : ℤ) : ℚ) := by push_cast; linarith
    have h6 : n - thousandths x < 1 := by exact_mod_cast h4
    have h7 : -1 < n - thousandths x := by exact_mod_cast h5
    omega
  subst e
  have e2 : (r : ℝ) = (thousandths x : ℝ) / 1000 := by
    rw [hn]
    push_cast
    norm_num
  exact ⟨⟨_, e2⟩, by rw [e2]; exact thousandths_near x⟩

/-- `g` is `f` as the files keep it. -/
def KeptReal {c : ℕ} (f g : RealFrame c) : Prop :=
  List.Forall₂ (fun p q => ThreeDecimals3 p.x q.x ∧ q.prev = p.prev ∧ q.next = p.next) f.parts g.parts

variable {c : ℕ} {b : Bases}

theorem realStore_isolated (hb : GoodNames b) (links : Bool) : (realStore c b links).Isolated 1 (fun _ => True) := by
  have h := C88_memory_isolated (D := ℝ) (c := c) b links hb.format hb.differ
  refine ⟨?_, ?_, fun _ _ _ _ _ _ => trivial⟩
  · intro s n m f g hn hm hnm _
    simp only [realStore]
    rw [h.other s n m _ _ hn hm hnm trivial]
  · intro s n f g _ _
    simp only [realStore]
    rw [h.object s n _ _ trivial trivial]

theorem realStore_readback (hb : GoodNames b) (links : Bool) {fs fs' : FS} {n : ℤ} (hn : 0 < n) {f g : RealFrame c} {v : Bool}
    (h : (realStore c b links).write fs n f = (fs', .ok v)) :
    ∃ f', (realStore c b true).read fs' n g = .ok f' ∧ KeptReal f f' := by
  obtain ⟨f', h1, h2⟩ := memStore_readback b links hb.corresLinkage hb.corresPrio hb.linkagePrio hb.linkage hb.prio hb.format hb.nodup
    hb.differ fs fs' n hn (toMem f) (toMem g) v h
  refine ⟨ofMem f', by simp only [realStore, h1, bind, Except.bind], ?_⟩
  unfold KeptOnDisk toMem at h2
  simp only at h2
  unfold KeptReal ofMem
  simp only
  rw [List.forall₂_map_left_iff] at h2
  rw [List.forall₂_map_right_iff]
  refine h2.imp ?_
  rintro p q ⟨⟨r1, r2, r3⟩, h3, h4⟩
  exact ⟨⟨printed_rounded r1, printed_rounded r2, printed_rounded r3⟩, h3, h4⟩

theorem realStore_plain {fs : FS} {n : ℤ} {f f' : RealFrame c} (h : (realStore c b false).read fs n f = .ok f') :
    ∀ p ∈ f'.parts, p.prev = PREV_NONE ∧ p.next = NEXT_NONE := by
  simp only [realStore] at h
  obtain ⟨m, h1, h2⟩ := bind_ok h
  cases h2
  intro p hp
  simp only [ofMem, List.mem_map] at hp
  obtain ⟨q, hq, rfl⟩ := hp
  have := (memStore_read_plain h1).2 q hq
  exact ⟨this.1, this.2.1⟩

/-- C130, reading: what the tracking gets of a frame that `Frame.read` has read from the files (`d`): its number, the positions of the
rows, the row numbers with the four target numbers in the order of the columns, and the targets of every camera with their pixel
coordinates and their particle numbers (below -1, which no part of the package writes: -1). -/
theorem C130_read (fs : FS) (n : ℤ) (o f : RealFrame c) (h : (realStore c b false).read fs n o = .ok f) :
    ∃ d0 d, IO.DFrame.read d0 fs b.corres [] [] b.target n = (d, .ok true) ∧ f.seen.no = n ∧
      f.seen.parts.map Part.x = d.parts.map (fun p => (⟨(p.x : ℝ), (p.y : ℝ), (p.z : ℝ)⟩ : V3)) ∧
      f.seen.img.corr.map (fun r => (r.nr, r.p)) = d.parts.map (fun p => (p.nr, [p.p0, p.p1, p.p2, p.p3])) ∧
      f.seen.img.targets.map (fun ts => ts.map fun t => (t.x, t.y, t.tnr))
        = d.targets.map (fun ts => ts.map fun t => ((t.x : ℝ), (t.y : ℝ), if t.tnr < -1 then -1 else t.tnr)) := by
  simp only [realStore] at h
  obtain ⟨m, h1, h2⟩ := bind_ok h
  cases h2
  simp only [memStore] at h1
  obtain ⟨d, h3, h4⟩ := bind_ok h1
  refine ⟨toDisk (toMem o), d, ?_, ?_⟩
  · simp only [fileStore, Bool.false_eq_true, if_false] at h3
    split at h3 <;> cases h3
    assumption
  · unfold ofDisk at h4
    split_ifs at h4
    cases h4
    refine ⟨rfl, ?_, ?_, ?_⟩
    · simp [RealFrame.seen, ofMem, ofRow, readPart]
    · simp [RealFrame.seen, ofMem, corrOf, seenImg]
    · simp only [RealFrame.seen, ofMem, seenImg, seenTarget, List.map_map, Function.comp_def]
      refine List.map_congr_left fun ts _ => List.map_congr_left fun t _ => ?_
      split_ifs with hlt
      · rw [max_eq_left (by omega)]
      · rw [max_eq_right (by omega)]

/-! ### The run on files -/

/-- C130: from files to files. Two to four cameras with any calibration, adding off. The frames `first .. first + L` are on files with
good names. One particle is number `num n` of frame `n`, at `y n`; its motion is smooth; all cameras see it clearly around the position
where it is expected (at the start around its own images, and two frames ahead); and it keeps the distance `B + 2 dacc` from the other
particles, `B` being the longest displacement the velocity limits allow. If the run on the files returns, the files that it leaves have
the whole trajectory - although the run overwrites the files it reads, and rounds the positions to three decimals. -/
theorem C130_followed_on_files (s : Setup) (c : ℕ) (b : Bases) (hb : GoodNames b) (hn : 2 ≤ s.cals.length ∧ s.cals.length ≤ 4)
    (hadd : s.add = false) (him : (s.ip.imx : ℝ) ≤ 10 ^ 19 ∧ (s.ip.imy : ℝ) ≤ 10 ^ 19) (hdacc : 0 < s.dacc) (B : ℝ)
    (hB : LongestStep s B) (first : Int) (hfirst : 0 < first) (L : ℕ) (hL : 2 ≤ L) (fs fs' : FS) (frames : Int → RealFrame c)
    (y : Int → V3) (num : Int → ℕ) (o1 o2 o3 o4 : RealFrame c)
    (hread : ∀ n, first ≤ n → n ≤ first + L → (realStore c b false).read fs n o1 = .ok (frames n))
    (hy : ∀ n, first ≤ n → n ≤ first + L → ((frames n).parts.map Part.x)[num n]? = some (y n))
    (haway : ∀ n, first ≤ n → n < first + L → KeepsAway frames y num (B + 2 * s.dacc) n)
    (hsmooth : ∀ n, first < n → n < first + L → SmoothAt s y n)
    (hseen0 : SeenByAll s.cams (frames (first + 1)).seen (y first) (s.projOwn (seenImg (frames first).img) (num first) (y first))
      (num (first + 1)))
    (hseen : ∀ n, first < n → n < first + L →
      SeenByAll s.cams (frames (n + 1)).seen ((y n).smul 2 - y (n - 1)) (s.proj ((y n).smul 2 - y (n - 1))) (num (n + 1)))
    (r : Run (RealFrame c)) (h : fileForwardRun s c b first (first + L) fs [o1, o2, o3, o4] = (fs', .ok r)) :
    FollowedOnFiles c b y num first L fs' := by
  have hi1 := realStore_isolated (c := c) hb false
  have hi2 := realStore_isolated (c := c) hb true
  have hi : (realStore c b false).Isolated first (fun _ => True) :=
    ⟨fun s n m f g hn hm => hi1.other s n m f g (by omega) (by omega), hi1.object, hi1.kind⟩
  let disk : Int → RealFrame c := fun n =>
    match (realStore c b false).read fs n o1 with
    | .ok f => f
    | .error _ => ⟨n, [], o1.img⟩
  have hdok : ∀ n f, (realStore c b false).read fs n o1 = .ok f → disk n = f := by
    intro n f e
    simp only [disk, e]
  have hd : ∀ n f f', first ≤ n → True → (realStore c b false).read fs n f = .ok f' → disk n = f' := by
    intro n f f' _ _ e
    rw [hi1.object fs n f o1 trivial trivial] at e
    exact hdok n f' e
  have hfr : ∀ n, first ≤ n → n ≤ first + L → disk n = frames n := fun n h1 h2 => hdok n _ (hread n h1 h2)
  have hplain : ∀ n, ∀ p ∈ (disk n).parts, p.prev = PREV_NONE ∧ p.next = NEXT_NONE := by
    intro n
    simp only [disk]
    cases e : (realStore c b false).read fs n o1 with
    | error _ => simp
    | ok f => exact realStore_plain e
  obtain ⟨hr, hrep⟩ := C88_forward_files (realStore c b false) first (first + L) (fun _ => True) hi
    (trackBuf (s.tracker.onImages seenImg)) (fun _ _ _ _ _ _ => trivial) fs fs' disk hd [o1, o2, o3, o4] (fun _ _ => trivial) r h
  have hmap := map_forwardRun (φ := Frame.mapImg seenImg) (disk := disk) (process := trackBuf (s.tracker.onImages seenImg))
    (process' := trackBuf s.tracker) (fun buf => trackBuf_onImages (see := seenImg (c := c)) (g := s.tracker) hadd buf)
    (first := first) (last := first + L) (buf := [o1, o2, o3, o4])
  rw [hr] at hmap
  have hF := C126_followed s hn hadd him hdacc B hB (fun n => (disk n).mapImg seenImg) hplain first L hL y num
    (fun n h1 h2 => by
      show ((disk n).parts.map Part.x)[num n]? = some (y n)
      rw [hfr n h1 h2]
      exact hy n h1 h2)
    (fun n h1 h2 => by
      have := haway n h1 h2
      unfold KeepsAway at this ⊢
      show (∀ (k : ℕ) (x : V3), ((disk (n + 1)).parts.map Part.x)[k]? = some x → _) ∧
        (∀ (k : ℕ) (x : V3), ((disk n).parts.map Part.x)[k]? = some x → _)
      rw [hfr n (by omega) (by omega), hfr (n + 1) (by omega) (by omega)]
      exact this)
    hsmooth
    (by
      show SeenByAll s.cams ((disk (first + 1)).mapImg seenImg) (y first)
        (s.projOwn (seenImg (disk first).img) (num first) (y first)) (num (first + 1))
      rw [hfr first (by omega) (by omega), hfr (first + 1) (by omega) (by omega)]
      exact hseen0)
    (fun n h1 h2 => by
      show SeenByAll s.cams ((disk (n + 1)).mapImg seenImg) _ _ _
      rw [hfr (n + 1) (by omega) (by omega)]
      exact hseen n h1 h2)
    _ _ _ _ (r.map (Frame.mapImg seenImg)) hmap
  obtain ⟨hnums, hF⟩ := hF
  have hlog : writesOf (r.map (Frame.mapImg seenImg)).log = (writesOf r.log).map fun w => (w.1, w.2.mapImg seenImg) :=
    writesOf_map _ _
  rw [hlog] at hnums hF
  have hnum : (writesOf r.log).map Prod.fst = (List.range (L + 1)).map (fun j : ℕ => first + (j : Int)) := by
    rw [← hnums, List.map_map]
    rfl
  have hget : ∀ (i : ℕ) (wr : Int × RealFrame c), (writesOf r.log)[i]? = some wr → wr.1 = first + i := by
    intro i wr hwr
    have hlen := congrArg List.length hnum
    have hlt := (List.getElem?_eq_some_iff.1 hwr).1
    simp only [List.length_map, List.length_range] at hlen
    have := congrArg (fun l => l[i]?) hnum
    simp only [List.getElem?_map, hwr, Option.map_some] at this
    rw [List.getElem?_range (by omega)] at this
    simpa using this
  have hlow : ∀ wr ∈ writesOf r.log, (1 : Int) ≤ wr.1 := by
    intro wr hwr
    obtain ⟨i, hi'⟩ := List.getElem?_of_mem hwr
    have := hget i wr hi'
    omega
  intro n h1 h2 o
  obtain ⟨i, hi'⟩ : ∃ i : ℕ, n = first + i := ⟨(n - first).toNat, by omega⟩
  have hlen := congrArg List.length hnum
  simp only [List.length_map, List.length_range] at hlen
  have hlt : i < (writesOf r.log).length := by omega
  have hwr : (writesOf r.log)[i]? = some (writesOf r.log)[i] := List.getElem?_eq_getElem hlt
  have hn' := hget i _ hwr
  set wr := (writesOf r.log)[i] with hwrd
  have hl : LastWrite (writesOf r.log) n wr.2 := by
    refine ⟨(writesOf r.log).take i, (writesOf r.log).drop (i + 1), ?_, ?_⟩
    · have : (n, wr.2) = wr := by rw [hi', ← hn']
      rw [this]
      exact (List.take_append_drop i (writesOf r.log)).symm.trans (by rw [List.drop_eq_getElem_cons hlt])
    · intro w' hw'
      obtain ⟨j, hj⟩ := List.getElem?_of_mem hw'
      rw [List.getElem?_drop] at hj
      have := hget _ w' hj
      push_cast at this
      omega
  obtain ⟨f, hf1, hf2⟩ := Replayed.read (st := realStore c b false) (K := KeptReal) hi2 (fun _ _ _ => rfl)
    (fun s' n f s'' v g hn _ hw => realStore_readback hb false (by omega) hw) hrep hlow hl (g := o) trivial
  obtain ⟨p, p1, p2, p3, p4⟩ := hF n (wr.2.mapImg seenImg) (List.mem_map.2 ⟨wr, List.mem_of_getElem? hwr, by rw [hi', ← hn']⟩)
  replace p1 : wr.2.parts[num n]? = some p := p1
  obtain ⟨hlt', rfl⟩ := List.getElem?_eq_some_iff.1 p1
  have hz := List.Forall₂.get hf2 hlt' (hf2.length_eq ▸ hlt')
  simp only [List.get_eq_getElem] at hz
  refine ⟨f, _, hf1, List.getElem?_eq_getElem (hf2.length_eq ▸ hlt'), ?_, by rw [hz.2.1, p3], by rw [hz.2.2, p4]⟩
  rw [← p2]
  exact hz.1

/-! ### The run returns -/

theorem forwardSteps_congr {F : Type} {disk disk' : Int → F} {process : List F → Py (List F)} {last : Int} :
    ∀ (k : ℕ) (n : Int) (r : Run F), (∀ m, n ≤ m → m < last - 2 → disk (m + 3) = disk' (m + 3)) →
    forwardSteps disk process last k n r = forwardSteps disk' process last k n r
  | 0, _, _, _ => rfl
  | k + 1, n, r, h => by
    have e : forwardStep disk process last n r = forwardStep disk' process last n r := by
      unfold forwardStep
      by_cases hc : n < last - 2
      · simp only [if_pos hc, readAtEnd, h n (le_refl _) hc]
      · simp only [if_neg hc]
    unfold forwardSteps
    rw [e]
    cases forwardStep disk' process last n r with
    | error e => rfl
    | ok r' => exact forwardSteps_congr k (n + 1) r' (fun m hm => h m (by omega))

theorem forwardRun_congr {F : Type} {disk disk' : Int → F} {process : List F → Py (List F)} {first last : Int} {buf : List F}
    (h : ∀ n, first ≤ n → (n ≤ last ∨ n ≤ first + 2) → disk n = disk' n) :
    forwardRun disk process first last buf = forwardRun disk' process first last buf := by
  have e : forwardStart disk first ⟨buf, []⟩ = forwardStart disk' first ⟨buf, []⟩ := by
    simp [forwardStart, List.range_succ, readAtEnd, h first (by omega) (by omega), h (first + 1) (by omega) (by omega),
      h (first + 2) (by omega) (by omega)]
  unfold forwardRun
  rw [e, forwardSteps_congr _ _ _ (fun m h1 h2 => h (m + 3) (by omega) (by omega))]

theorem sane_onImages {P J C I I' D : Type} {g : Geo P J C I D} {see : I' → I} (hg : SearchSane g) : SearchSane (g.onImages see) :=
  fun x v i w h => hg x v (see i) w h

theorem realStore_parts_corr {links : Bool} {fs : FS} {n : ℤ} {f f' : RealFrame c} (h : (realStore c b links).read fs n f = .ok f') :
    f'.img.corr.length = f'.parts.length := by
  simp only [realStore, memStore] at h
  obtain ⟨m, h1, h2⟩ := bind_ok h
  cases h2
  obtain ⟨d, h3, h4⟩ := bind_ok h1
  unfold ofDisk at h4
  split_ifs at h4
  cases h4
  simp [ofMem]

theorem realStore_writes (hb : GoodNames b) (hc : c ≤ b.target.length) {n : ℤ} (hn : 0 < n)
    (hfmt : ∀ t ∈ b.target, ∃ x, writeName t n = .ok x) {f : RealFrame c} (hp : f.parts.length ≤ f.img.corr.length)
    (ht : ∀ ts ∈ f.img.targets, ts ≠ []) (links : Bool) (fs : FS) : ∃ fs' v, (realStore c b links).write fs n f = (fs', .ok v) := by
  obtain ⟨fs', d, h1, -, -⟩ := C85_roundtrip_partial fs (toDisk (toMem f)) (toDisk (toMem f)) b.corres b.linkage b.prio b.target n hn
    hb.corresLinkage hb.corresPrio hb.linkagePrio hb.linkage hb.prio (by simp [toDisk, toMem]; exact hp) (by
      intro cam hcam
      have hcam' : cam < f.img.targets.length := hcam
      have hcb : cam < b.target.length := by
        have := f.img.cams
        omega
      obtain ⟨x, hx⟩ := hfmt b.target[cam] (List.getElem_mem hcb)
      refine ⟨f.img.targets[cam], f.img.targets[cam].length, b.target[cam], x, ?_, ?_, List.getElem?_eq_getElem hcb,
        (hb.format _ (List.getElem_mem hcb)).1, (hb.format _ (List.getElem_mem hcb)).2, hx, ht _ (List.getElem_mem hcam'), le_refl _⟩
      · exact List.getElem?_eq_getElem hcam'
      · simp [toDisk, toMem, List.getElem?_eq_getElem hcam'])
    (fun i j t t' hij h1 h2 x hx => hb.differ t (List.mem_of_getElem? h1) t' (List.mem_of_getElem? h2)
      (fun e => hij (by
        subst e
        have hi := (List.getElem?_eq_some_iff.1 h1)
        have hj := (List.getElem?_eq_some_iff.1 h2)
        exact (List.Nodup.getElem_inj_iff hb.nodup).1 (hi.2.trans hj.2.symm))) n n x hn hn hx) rfl (by simp [toDisk])
  exact ⟨fs', true, h1⟩

/-- C130, the run itself: if the frames can be read, every camera has a target in every frame, the file names can be formatted, and the
same run in memory returns, then the run on the files returns. -/
theorem C130_run_on_files_returns (s : Setup) (c : ℕ) (b : Bases) (hb : GoodNames b) (hn : s.cals.length ≤ 4) (hadd : s.add = false)
    (him : (s.ip.imx : ℝ) ≤ 10 ^ 19 ∧ (s.ip.imy : ℝ) ≤ 10 ^ 19) (hc : c ≤ b.target.length) (first : Int) (hfirst : 0 < first) (L : ℕ)
    (hL : 2 ≤ L) (hfmt : ∀ n, first ≤ n → n ≤ first + L → ∀ t ∈ b.target, ∃ x, writeName t n = .ok x)
    (fs : FS) (frames : Int → RealFrame c) (o1 o2 o3 o4 : RealFrame c)
    (hread : ∀ n, first ≤ n → n ≤ first + L → (realStore c b false).read fs n o1 = .ok (frames n))
    (htargets : ∀ n, first ≤ n → n ≤ first + L → ∀ ts ∈ (frames n).img.targets, ts ≠ [])
    (r0 : Run (Frame V3 ℝ (Img ℝ)))
    (hmem : forwardRun (fun n => (frames n).seen) (trackBuf s.tracker) first (first + L) [o1.seen, o2.seen, o3.seen, o4.seen] = .ok r0) :
    ∃ fs' r, fileForwardRun s c b first (first + L) fs [o1, o2, o3, o4] = (fs', .ok r) := by
  have hi1 := realStore_isolated (c := c) hb false
  have hi : (realStore c b false).Isolated first (fun _ => True) :=
    ⟨fun s n m f g hn hm => hi1.other s n m f g (by omega) (by omega), hi1.object, hi1.kind⟩
  let disk : Int → RealFrame c := fun n =>
    match (realStore c b false).read fs n o1 with
    | .ok f => f
    | .error _ => ⟨n, [], o1.img⟩
  have hfr : ∀ n, first ≤ n → n ≤ first + L → disk n = frames n := by
    intro n h1 h2
    simp only [disk, hread n h1 h2]
  have hplain : ∀ n, ∀ p ∈ (disk n).parts, p.prev = PREV_NONE ∧ p.next = NEXT_NONE := by
    intro n
    simp only [disk]
    cases e : (realStore c b false).read fs n o1 with
    | error _ => simp
    | ok f => exact realStore_plain e
  have hmap := map_forwardRun (φ := Frame.mapImg seenImg) (disk := frames) (process := trackBuf (s.tracker.onImages seenImg))
    (process' := trackBuf s.tracker) (fun buf => trackBuf_onImages (see := seenImg (c := c)) (g := s.tracker) hadd buf)
    (first := first) (last := first + L) (buf := [o1, o2, o3, o4])
  have hmem' : forwardRun (fun n => Frame.mapImg seenImg (frames n)) (trackBuf s.tracker) first (first + L)
      ([o1, o2, o3, o4].map (Frame.mapImg seenImg)) = .ok r0 := hmem
  rw [hmem'] at hmap
  obtain ⟨r, hr⟩ : ∃ r, forwardRun frames (trackBuf (s.tracker.onImages seenImg)) first (first + L) [o1, o2, o3, o4] = .ok r := by
    cases e : forwardRun frames (trackBuf (s.tracker.onImages seenImg)) first (first + L) [o1, o2, o3, o4] with
    | error x => rw [e] at hmap; cases hmap
    | ok r => exact ⟨r, rfl⟩
  rw [forwardRun_congr (disk' := disk) (fun n h1 h2 => (hfr n h1 (by omega)).symm)] at hr
  have hg : SearchSane s.tracker := C81_search_sane s.cams _ him hn
  obtain ⟨w, w1, w2, w3, w4, w5, w6⟩ := run_noadd (sane_onImages (see := seenImg (c := c)) hg) hadd hplain hr
  have hpos : ∀ j, j ≤ L → (w j).parts.length = (disk (first + (j : Int))).parts.length := by
    intro j hj
    have h0 : ∀ {a b : List (Part V3 ℝ)}, a.map Part.x = b.map Part.x → a.length = b.length := by
      intro a b e
      simpa using congrArg List.length e
    by_cases h : j < L
    · exact h0 (w5 j h).pos
    · obtain ⟨k, rfl⟩ : ∃ k, j = k + 1 := ⟨j - 1, by omega⟩
      have := h0 (w5 k (by omega)).pos'
      push_cast
      rw [← add_assoc]
      exact this
  obtain ⟨fs', h'⟩ := forward_on_files (st := realStore c b false) (s := fs) (disk := disk) hi (last := first + L) (by omega)
    (fun _ _ _ _ _ _ => trivial) (by
      intro n h1 h2 f _
      rw [hi1.object fs n f o1 trivial trivial, hfr n h1 (by omega)]
      exact hread n h1 (by omega)) (buf0 := [o1, o2, o3, o4]) (by simp) (fun _ _ => trivial) hr (by
      intro m f hf fs1
      rw [w1, List.mem_map] at hf
      obtain ⟨j, hj, e⟩ := hf
      rw [List.mem_range] at hj
      cases e
      have hlen := hpos j (by omega)
      have himg := w6 j (by omega)
      have hd := hfr (first + (j : Int)) (by omega) (by omega)
      refine realStore_writes hb hc (by omega) (hfmt _ (by omega) (by omega)) ?_ ?_ false fs1
      · rw [himg, hlen, hd, realStore_parts_corr (hread _ (by omega) (by omega))]
      · rw [himg, hd]
        exact htargets _ (by omega) (by omega))
  exact ⟨fs', r, h'⟩

end Verif.Track
