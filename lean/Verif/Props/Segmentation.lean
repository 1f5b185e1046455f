/-
C39, C40: target recognition by threshold and flood fill (segmentation.py).
-/
import Verif.Proofs.Segmentation
import Mathlib.Algebra.Order.BigOperators.Group.Finset

namespace Verif.Seg
open Spec.Seg Relation

/-- The target `t` describes the pixel set `B`: number of pixels, extents, summed grey value above the
threshold, and weighted centre. -/
structure Describes (im : Image) (thres : ℤ) (t : Tgt) (B : Finset Pixel) : Prop where
  n : t.n = B.card
  nx : Extent Prod.fst B t.nx
  ny : Extent Prod.snd B t.ny
  sumg : t.sumg = mass im.g thres B
  x : t.x = centre im.g thres Prod.fst B
  y : t.y = centre im.g thres Prod.snd B

/-- The pixel set is within the limits of the target parameters. -/
def Accepted (im : Image) (q : Par) (B : Finset Pixel) : Prop :=
  (q.nnmin ≤ B.card ∧ B.card ≤ q.nnmax) ∧ (∃ nx, Extent Prod.fst B nx ∧ q.nxmin ≤ nx ∧ nx ≤ q.nxmax) ∧
  (∃ ny, Extent Prod.snd B ny ∧ q.nymin ≤ ny ∧ ny ≤ q.nymax) ∧ q.sumgMin < ∑ p ∈ B, im.g p

theorem extent_unique {c : Pixel → ℤ} {B : Finset Pixel} {m n : ℤ} (hm : Extent c B m) (hn : Extent c B n) :
    m = n := by
  obtain ⟨a, ha, b, hb, h1, rfl⟩ := hm
  obtain ⟨a', ha', b', hb', h2, rfl⟩ := hn
  have := h1 a' ha'
  have := h1 b' hb'
  have := h2 a ha
  have := h2 b hb
  omega

section
open Classical

theorem centre_eq {g : Pixel → ℤ} {thres : ℤ} {c : Pixel → ℤ} {V : List Pixel} (hn : V.Nodup) (hne : V ≠ [])
    (hab : ∀ p ∈ V, thres < g p) :
    (((V.map fun p => c p * (g p - thres)).sum : ℤ) : ℚ) / (((V.map g).sum - V.length * thres : ℤ) : ℚ) + 1 / 2 =
      centre g thres c V.toFinset ∧
    (V.map g).sum - V.length * thres = mass g thres V.toFinset := by
  have hmass : (V.map g).sum - V.length * thres = mass g thres V.toFinset := by
    rw [mass, Finset.sum_sub_distrib, List.sum_toFinset g hn]
    simp [List.toFinset_card_of_nodup hn]
  have hpos : 0 < mass g thres V.toFinset := by
    apply Finset.sum_pos
    · intro p hp
      have := hab p (List.mem_toFinset.1 hp)
      omega
    · exact List.toFinset_nonempty_iff _ |>.2 hne
  refine ⟨?_, hmass⟩
  have hpos' : (mass g thres V.toFinset : ℚ) ≠ 0 := by exact_mod_cast hpos.ne'
  rw [hmass, centre, ← List.sum_toFinset _ hn]
  rw [div_add' _ _ _ hpos']
  congr 1
  simp only [add_mul, Finset.sum_add_distrib, ← Finset.mul_sum]
  push_cast [mass]
  ring

theorem finish_spec {im : Image} {q : Par} {U : Finset Pixel} {s : Pixel} {V : List Pixel} {f : Flood}
    (inv : FInv im q U s V V f) (ts : List Tgt) :
    (Accepted im q V.toFinset ∧ ∃ t, finish q f ts = ts ++ [t] ∧ Describes im q.thres t V.toFinset ∧
      t.pnr = ts.length) ∨
    (¬ Accepted im q V.toFinset ∧ finish q f ts = ts) := by
  have hne : V ≠ [] := List.ne_nil_of_mem inv.seed
  have hcard : (V.toFinset.card : ℤ) = f.numpix := by
    rw [inv.numpix, List.toFinset_card_of_nodup inv.nodup]
  obtain ⟨⟨pa, hpa, ea⟩, xa⟩ := inv.xa
  obtain ⟨⟨pb, hpb, eb⟩, xb⟩ := inv.xb
  obtain ⟨⟨pc, hpc, ec⟩, ya⟩ := inv.ya
  obtain ⟨⟨pd, hpd, ed⟩, yb⟩ := inv.yb
  have hex : Extent Prod.fst V.toFinset (f.xb - f.xa + 1) := by
    refine ⟨pa, List.mem_toFinset.2 hpa, pb, List.mem_toFinset.2 hpb, ?_, by rw [ea, eb]⟩
    intro p hp
    rw [ea, eb]
    exact ⟨xa p (List.mem_toFinset.1 hp), xb p (List.mem_toFinset.1 hp)⟩
  have hey : Extent Prod.snd V.toFinset (f.yb - f.ya + 1) := by
    refine ⟨pc, List.mem_toFinset.2 hpc, pd, List.mem_toFinset.2 hpd, ?_, by rw [ec, ed]⟩
    intro p hp
    rw [ec, ed]
    exact ⟨ya p (List.mem_toFinset.1 hp), yb p (List.mem_toFinset.1 hp)⟩
  have hsum : f.sumg = ∑ p ∈ V.toFinset, im.g p := by
    rw [inv.sumg, List.sum_toFinset _ inv.nodup]
  have hb : ¬ (f.xa = q.xmin - 1 ∨ f.ya = q.ymin - 1 ∨ f.xb = q.xmax + 1 ∨ f.yb = q.ymax + 1) := by
    have r1 := inv.roi pa hpa
    have r2 := inv.roi pb hpb
    have r3 := inv.roi pc hpc
    have r4 := inv.roi pd hpd
    simp only [InROI] at r1 r2 r3 r4
    omega
  rw [finish, if_neg hb]
  by_cases hacc : f.numpix ≥ q.nnmin ∧ f.numpix ≤ q.nnmax ∧ f.xb - f.xa + 1 ≥ q.nxmin ∧ f.xb - f.xa + 1 ≤ q.nxmax
      ∧ f.yb - f.ya + 1 ≥ q.nymin ∧ f.yb - f.ya + 1 ≤ q.nymax ∧ f.sumg > q.sumgMin
  · rw [if_pos hacc]
    left
    obtain ⟨a1, a2, a3, a4, a5, a6, a7⟩ := hacc
    refine ⟨⟨⟨by omega, by omega⟩, ⟨_, hex, a3, a4⟩, ⟨_, hey, a5, a6⟩, by rw [← hsum]; exact a7⟩, _, rfl, ?_, rfl⟩
    have cx := centre_eq (c := Prod.fst) inv.nodup hne inv.above
    have cy := centre_eq (c := Prod.snd) inv.nodup hne inv.above
    refine ⟨hcard.symm, hex, hey, ?_, ?_, ?_⟩
    · simp only [inv.sumg, inv.numpix]; exact cx.2
    · simp only [inv.sumg, inv.numpix, inv.x]; exact cx.1
    · simp only [inv.sumg, inv.numpix, inv.y]; exact cy.1
  · rw [if_neg hacc]
    right
    refine ⟨?_, rfl⟩
    rintro ⟨⟨b1, b2⟩, ⟨nx, e1, b3, b4⟩, ⟨ny, e2, b5, b6⟩, b7⟩
    rw [extent_unique e1 hex] at b3 b4
    rw [extent_unique e2 hey] at b5 b6
    rw [← hsum] at b7
    exact hacc ⟨by omega, by omega, b3, b4, b5, b6, b7⟩

/-- The targets `new` describe the accepted blobs of `bs`, in order. -/
def Reported (im : Image) (q : Par) (bs : List (Pixel × Finset Pixel)) (new : List Tgt) : Prop :=
  List.Forall₂ (fun t b => Describes im q.thres t b.2) new (bs.filter fun b => decide (Accepted im q b.2))

theorem scan_spec {im : Image} {q : Par} (hin : q.Inside im) (hth : 0 ≤ q.thres) (fuel : ℕ) :
    ∀ (ps : List Pixel) (U : Finset Pixel) (a : ℤ → ℤ → ℤ) (ts : List Tgt), IsMasked im a U →
    (∀ p ∈ ps, q.roi p) →
    (scan im q fuel (ps.map Prod.swap) (a, ts) = .error .indexError ∧ ∃ U s, IsPeak im.g q.thres (· ∈ U) s ∧
      q.roi s ∧ BigBlob im q U s) ∨
    (scan im q fuel (ps.map Prod.swap) (a, ts) = .error .outOfFuel ∧ fuel < q.area) ∨
    ∃ a' new bs U', scan im q fuel (ps.map Prod.swap) (a, ts) = .ok (a', ts ++ new) ∧
      Blobs im.g q.thres q.disco q.roi ps U bs U' ∧ Reported im q bs new ∧
      ∀ (k : ℕ) (t : Tgt), new[k]? = some t → t.pnr = ts.length + k
  | [], U, a, ts, ha, _ => by
    right; right
    exact ⟨a, [], [], U, by simp [scan], .nil U, .nil, by simp⟩
  | p :: ps, U, a, ts, ha, hroi => by
    have hp := hroi p (by simp)
    have hroi' : ∀ r ∈ ps, q.roi r := fun r hr => hroi r (by simp [hr])
    have hstep : scan im q fuel ((p :: ps).map Prod.swap) (a, ts) =
        (scanPixel im q fuel p.2 p.1 (a, ts) >>= fun s => scan im q fuel (ps.map Prod.swap) s) := rfl
    rw [hstep, scanPixel]
    simp only
    rw [isSeed_eq hin ha hp]
    simp only [bind, Except.bind]
    by_cases hpk : IsPeak im.g q.thres (· ∈ U) p
    · obtain ⟨hinv, hnu, hv⟩ := start_inv hth ha hp hpk
      have hin' := hin
      obtain ⟨⟨h1, h2⟩, h3, h4⟩ := hin
      obtain ⟨⟨h5, h6⟩, h7, h8⟩ := hp
      rw [decide_eq_true hpk]
      simp only [if_true]
      rw [read_ok (by omega)]
      simp only
      rcases flood_spec hin' hth fuel [] [p] _ hinv (by simp) with ⟨r, hb⟩ | ⟨r, V', n1, n2, n3⟩ | ⟨f, V, r, inv, hcl⟩
      · left
        rw [r]
        exact ⟨rfl, U, p, hpk, ⟨⟨h5, h6⟩, h7, h8⟩, hb⟩
      · right; left
        rw [r]
        refine ⟨rfl, ?_⟩
        have := length_le_area n1 n2
        simp at n3
        omega
      · rw [r]
        simp only
        have hmask : IsMasked im f.img0 (U ∪ V.toFinset) := by
          intro r
          rw [inv.img r]
          simp [masked]
        have hblob : IsBlob im.g q.thres q.disco q.roi (· ∈ U) p V.toFinset := by
          intro r
          rw [List.mem_toFinset]
          constructor
          · exact inv.reach r
          · intro hr
            induction hr with
            | refl => exact inv.seed
            | tail _ hg ih => exact hcl _ ih _ hg
        rcases finish_spec inv ts with ⟨hacc, t, hf, hd, hpnr⟩ | ⟨hacc, hf⟩
        · rcases scan_spec hin' hth fuel ps _ _ (finish q f ts) hmask hroi' with h | h | ⟨a', new, bs, U', h1, h2, h3, h4⟩
          · exact Or.inl h
          · exact Or.inr (Or.inl h)
          · right; right
            rw [h1, hf]
            refine ⟨a', t :: new, (p, V.toFinset) :: bs, U', by simp, .peak hpk hblob h2, ?_, ?_⟩
            · rw [Reported, List.filter_cons, if_pos (by simpa using hacc)]
              exact .cons hd h3
            · intro k u hk
              cases k with
              | zero => simp at hk; rw [← hk, hpnr]; rfl
              | succ k =>
                simp at hk
                rw [h4 k u hk, hf]
                simp
                omega
        · rcases scan_spec hin' hth fuel ps _ _ (finish q f ts) hmask hroi' with h | h | ⟨a', new, bs, U', h1, h2, h3, h4⟩
          · exact Or.inl h
          · exact Or.inr (Or.inl h)
          · right; right
            rw [hf] at h1 h4
            rw [hf, h1]
            refine ⟨a', new, (p, V.toFinset) :: bs, U', rfl, .peak hpk hblob h2, ?_, h4⟩
            rw [Reported, List.filter_cons, if_neg (by simpa using hacc)]
            exact h3
    · rw [decide_eq_false hpk]
      simp only [Bool.false_eq_true, if_false]
      rcases scan_spec hin hth fuel ps U a ts ha hroi' with h | h | ⟨a', new, bs, U', h1, h2, h3, h4⟩
      · exact Or.inl h
      · exact Or.inr (Or.inl h)
      · exact Or.inr (Or.inr ⟨a', new, bs, U', h1, .skip hpk h2, h3, h4⟩)

end

/-! ### The order of the scan -/

theorem mem_rangeI {a b x : ℤ} : x ∈ rangeI a b ↔ a ≤ x ∧ x < b := by
  simp only [rangeI, List.mem_map, List.mem_range]
  constructor
  · rintro ⟨k, hk, rfl⟩; omega
  · intro h; exact ⟨(x - a).toNat, by omega, by omega⟩

theorem rangeI_sorted (a b : ℤ) : (rangeI a b).Pairwise (· < ·) := by
  rw [rangeI, List.pairwise_map]
  exact List.pairwise_lt_range.imp (by intro i j h; omega)

/-- The pixels `(x, y)` of the scan. -/
def rasterXY (q : Par) : List Pixel := (raster q).map Prod.swap

theorem mem_rasterXY {q : Par} {p : Pixel} : p ∈ rasterXY q ↔ q.roi p := by
  obtain ⟨x, y⟩ := p
  simp only [rasterXY, raster, List.mem_map, List.mem_flatMap, mem_rangeI, InROI]
  constructor
  · rintro ⟨r, ⟨i, hi, j, hj, rfl⟩, e⟩
    simp only [Prod.swap_prod_mk, Prod.mk.injEq] at e
    obtain ⟨rfl, rfl⟩ := e
    exact ⟨hj, hi⟩
  · rintro ⟨h1, h2⟩
    exact ⟨(y, x), ⟨y, h2, x, h1, rfl⟩, rfl⟩

theorem rasterXY_sorted (q : Par) :
    (rasterXY q).Pairwise fun a b => a.2 < b.2 ∨ (a.2 = b.2 ∧ a.1 < b.1) := by
  rw [rasterXY, List.pairwise_map, raster, List.pairwise_flatMap]
  constructor
  · intro i _
    rw [List.pairwise_map]
    exact (rangeI_sorted _ _).imp fun h => Or.inr ⟨rfl, h⟩
  · refine (rangeI_sorted _ _).imp ?_
    intro i i' hlt a ha b hb
    simp only [List.mem_map] at ha hb
    obtain ⟨_, _, rfl⟩ := ha
    obtain ⟨_, _, rfl⟩ := hb
    exact Or.inl hlt

theorem raster_eq (q : Par) : raster q = (rasterXY q).map Prod.swap := by
  rw [rasterXY, List.map_map]
  simp

theorem clamp_inside (im : Image) (q : Par) : (clampPar im.w im.h q).Inside im := by
  simp only [clampPar, Par.Inside]
  split_ifs <;> omega

/-! ### C39 -/

/-- The region that `targ_rec` searches: the given one, at least one pixel off the border of the image. -/
def Region (im : Image) (q : Par) : Pixel → Prop :=
  InROI (max q.xmin 1) (min q.xmax (im.w - 1)) (max q.ymin 1) (min q.ymax (im.h - 1))

theorem clamp_roi (im : Image) (q : Par) : (clampPar im.w im.h q).roi = Region im q := by
  have h1 : (clampPar im.w im.h q).xmin = max q.xmin 1 := by simp only [clampPar]; split_ifs <;> omega
  have h2 : (clampPar im.w im.h q).xmax = min q.xmax (im.w - 1) := by simp only [clampPar]; split_ifs <;> omega
  have h3 : (clampPar im.w im.h q).ymin = max q.ymin 1 := by simp only [clampPar]; split_ifs <;> omega
  have h4 : (clampPar im.w im.h q).ymax = min q.ymax (im.h - 1) := by simp only [clampPar]; split_ifs <;> omega
  rw [Par.roi, h1, h2, h3, h4]
  rfl

/-- C39, complete description: the targets returned by `targ_rec` are, in order and numbered from 0, the
descriptions of those blobs that are within the limits, where the blobs are found by scanning the search
region row by row: every pixel that is above the threshold and at least as bright as its eight neighbours
(in the image without the pixels used before) starts a blob of all pixels it grows to. -/
theorem C39_targets (im : Image) (q : Par) (fuel : ℕ) (ts : List Tgt) (hth : 0 ≤ q.thres)
    (h : targRec im im.w im.h q fuel = .ok ts) :
    ∃ ps bs used, (∀ p, p ∈ ps ↔ Region im q p) ∧
      ps.Pairwise (fun a b => a.2 < b.2 ∨ (a.2 = b.2 ∧ a.1 < b.1)) ∧
      Blobs im.g q.thres q.disco (Region im q) ps ∅ bs used ∧ Reported im q bs ts ∧
      ∀ (k : ℕ) (t : Tgt), ts[k]? = some t → t.pnr = k := by
  rw [targRec, fastTargRec, raster_eq] at h
  have hin := clamp_inside im q
  rcases scan_spec hin hth fuel (rasterXY (clampPar im.w im.h q)) ∅ im.px [] (by intro p; simp [masked, Image.g])
    (fun p hp => mem_rasterXY.1 hp) with ⟨r, -⟩ | ⟨r, -⟩ | ⟨a', new, bs, U', r, h2, h3, h4⟩
  · rw [r] at h; simp [bind, Except.bind] at h
  · rw [r] at h; simp [bind, Except.bind] at h
  · rw [r] at h
    simp only [bind, Except.bind, List.nil_append, Except.ok.injEq] at h
    subst h
    rw [clamp_roi] at h2
    refine ⟨_, bs, U', ?_, rasterXY_sorted _, h2, h3, by simpa using h4⟩
    intro p
    rw [mem_rasterXY, clamp_roi]

section
variable {g : Pixel → ℤ} {thres disco : ℤ} {roi : Pixel → Prop}

theorem peak_unused {U : Finset Pixel} {p : Pixel} (hth : 0 ≤ thres) (h : IsPeak g thres (· ∈ U) p) :
    p ∉ U ∧ thres < g p := by
  have h1 := h.1
  simp only [masked] at h1
  split_ifs at h1 with hu
  · omega
  · exact ⟨hu, h1⟩

theorem blob_pixels {U B : Finset Pixel} {s : Pixel} (hth : 0 ≤ thres) (hs : roi s)
    (hp : IsPeak g thres (· ∈ U) s) (hB : IsBlob g thres disco roi (· ∈ U) s B) :
    s ∈ B ∧ ∀ q ∈ B, q ∉ U ∧ thres < g q ∧ roi q ∧ ReflTransGen (fun a b => Adj4 a b ∧ b ∈ B) s q := by
  refine ⟨(hB s).2 .refl, ?_⟩
  intro q hq
  have hr := (hB q).1 hq
  clear hq
  induction hr with
  | refl => exact ⟨(peak_unused hth hp).1, (peak_unused hth hp).2, hs, .refl⟩
  | @tail b c hbc hg ih =>
    obtain ⟨g1, g2, g3, g4, g5⟩ := hg
    exact ⟨g3, g4, g2, ih.2.2.2.tail ⟨g1, (hB c).2 (hbc.tail ⟨g1, g2, g3, g4, g5⟩)⟩⟩

theorem blobs_spec (hth : 0 ≤ thres) {ps : List Pixel} {U U' : Finset Pixel} {bs : List (Pixel × Finset Pixel)}
    (h : Blobs g thres disco roi ps U bs U') (hps : ∀ p ∈ ps, roi p) :
    U ⊆ U' ∧ (∀ p, p ∈ U' ↔ p ∈ U ∨ ∃ b ∈ bs, p ∈ b.2) ∧
    (bs.Pairwise fun a b => Disjoint a.2 b.2) ∧
    (∀ b ∈ bs, Disjoint U b.2 ∧ b.1 ∈ b.2 ∧
      ∀ q ∈ b.2, thres < g q ∧ roi q ∧ ReflTransGen (fun x y => Adj4 x y ∧ y ∈ b.2) b.1 q) ∧
    (∀ p ∈ ps, thres < g p → (∀ r, Adj8 p r → g r ≤ g p) → p ∈ U') := by
  induction h with
  | nil U => exact ⟨subset_refl _, by simp, .nil, by simp, by simp⟩
  | @peak p ps U B bs U' hpk hB hrest ih =>
    obtain ⟨i1, i2, i3, i4, i5⟩ := ih (fun r hr => hps r (by simp [hr]))
    obtain ⟨b1, b2⟩ := blob_pixels hth (hps p (by simp)) hpk hB
    refine ⟨fun r hr => i1 (Finset.mem_union_left _ hr), ?_, ?_, ?_, ?_⟩
    · intro r
      rw [i2, Finset.mem_union]
      simp only [List.mem_cons, exists_eq_or_imp]
      tauto
    · refine List.pairwise_cons.2 ⟨?_, i3⟩
      intro b hb
      exact Finset.disjoint_of_subset_left Finset.subset_union_right (i4 b hb).1
    · intro b hb
      rcases List.mem_cons.1 hb with rfl | hb
      · refine ⟨?_, b1, fun q hq => (b2 q hq).2⟩
        rw [Finset.disjoint_right]
        exact fun q hq => (b2 q hq).1
      · obtain ⟨d, r⟩ := i4 b hb
        exact ⟨Finset.disjoint_of_subset_left Finset.subset_union_left d, r⟩
    · intro r hr h1 h2
      rcases List.mem_cons.1 hr with rfl | hr
      · exact i1 (Finset.mem_union_right _ b1)
      · exact i5 r hr h1 h2
  | @skip p ps U bs U' hpk hrest ih =>
    obtain ⟨i1, i2, i3, i4, i5⟩ := ih (fun r hr => hps r (by simp [hr]))
    refine ⟨i1, i2, i3, i4, ?_⟩
    intro r hr h1 h2
    rcases List.mem_cons.1 hr with rfl | hr
    · by_contra hn
      have hu : r ∉ U := fun h => hn (i1 h)
      apply hpk
      refine ⟨by simpa [masked, hu] using h1, ?_⟩
      intro s hs
      simp only [masked, hu, if_false]
      split_ifs
      · omega
      · exact h2 s hs
    · exact i5 r hr h1 h2

end

theorem reported_mem {im : Image} {q : Par} {bs : List (Pixel × Finset Pixel)} {ts : List Tgt}
    (h : Reported im q bs ts) : ∃ kept : List (Pixel × Finset Pixel), kept.Sublist bs ∧
      (∀ b ∈ bs, b ∈ kept ↔ Accepted im q b.2) ∧ List.Forall₂ (fun t b => Describes im q.thres t b.2) ts kept := by
  classical
  rw [Reported] at h
  refine ⟨_, List.filter_sublist, ?_, h⟩
  intro b hb
  simp [hb]

/-- C39, in the words of the property: every returned target describes one pixel set; these sets are pairwise
disjoint, each is connected to the local maximum that seeded it, all their pixels are above the threshold
and in the search region, and each is within the limits; targets are numbered 0, 1, 2, .... No local maximum
of the image above the threshold is missed: it belongs to one of the blobs found. -/
theorem C39_blobs (im : Image) (q : Par) (fuel : ℕ) (ts : List Tgt) (hth : 0 ≤ q.thres)
    (h : targRec im im.w im.h q fuel = .ok ts) :
    ∃ (bs kept : List (Pixel × Finset Pixel)), kept.Sublist bs ∧
      (∀ b ∈ bs, b ∈ kept ↔ Accepted im q b.2) ∧
      List.Forall₂ (fun t b => Describes im q.thres t b.2) ts kept ∧
      (bs.Pairwise fun a b => Disjoint a.2 b.2) ∧
      (∀ b ∈ bs, b.1 ∈ b.2 ∧ ∀ p ∈ b.2, q.thres < im.g p ∧ Region im q p ∧
        ReflTransGen (fun x y => Adj4 x y ∧ y ∈ b.2) b.1 p) ∧
      (∀ (k : ℕ) (t : Tgt), ts[k]? = some t → t.pnr = k) ∧
      (∀ p, Region im q p → q.thres < im.g p → (∀ r, Adj8 p r → im.g r ≤ im.g p) →
        ∃ b ∈ bs, p ∈ b.2) := by
  obtain ⟨ps, bs, U, h1, h2, h3, h4, h5⟩ := C39_targets im q fuel ts hth h
  obtain ⟨i1, i2, i3, i4, i5⟩ := blobs_spec hth h3 (fun p hp => (h1 p).1 hp)
  obtain ⟨kept, k1, k2, k3⟩ := reported_mem h4
  refine ⟨bs, kept, k1, k2, k3, i3, fun b hb => (i4 b hb).2, h5, ?_⟩
  intro p hp ht hm
  have := (i2 p).1 (i5 p ((h1 p).2 hp) ht hm)
  simpa using this

/-- A 6 by 5 image with two bright dots, one of two pixels (grey values 9 and 5), one of one pixel. -/
def dots : Image := ⟨5, 6, fun y x => if y = 1 ∧ x = 1 then 9 else if y = 2 ∧ x = 1 then 5
  else if y = 3 ∧ x = 4 then 7 else 0⟩

/-- C39 applies to this image: two targets are found, with threshold 3; the first has 2 pixels and its centre
is nearer to the brighter one. -/
example : targRec dots dots.w dots.h ⟨3, 0, 1, 10, 1, 10, 1, 10, 0, 0, 6, 0, 5⟩ 12 =
    .ok [⟨3 / 2, 7 / 4, 0, 2, 1, 2, 8⟩, ⟨9 / 2, 7 / 2, 1, 1, 1, 1, 4⟩] := by
  decide +kernel

/-! ### C40 -/

/-- A set of more than 20480 pixels of the search region, all above the threshold and connected by direct
neighbours. -/
def HugeBlob (im : Image) (q : Par) : Prop :=
  ∃ (s : Pixel) (B : Finset Pixel), 20480 < B.card ∧
    ∀ p ∈ B, q.thres < im.g p ∧ Region im q p ∧
      ReflTransGen (fun x y => Adj4 x y ∧ q.thres < im.g y ∧ Region im q y) s p

/-- C40: for a threshold that is not negative, `targ_rec` terminates (the flood fill of a target takes at
most as many passes as the search region has pixels) and never reads outside the image; it either returns,
or fails because the list of waiting pixels (20480 places) is full. The latter needs a connected set of more
than 20480 pixels above the threshold. -/
theorem C40_total (im : Image) (q : Par) (fuel : ℕ) (hth : 0 ≤ q.thres)
    (hfuel : (min q.xmax (im.w - 1) - max q.xmin 1).toNat * (min q.ymax (im.h - 1) - max q.ymin 1).toNat ≤ fuel) :
    (∃ ts, targRec im im.w im.h q fuel = .ok ts) ∨
    (targRec im im.w im.h q fuel = .error .indexError ∧ HugeBlob im q) := by
  have hin := clamp_inside im q
  rw [targRec, fastTargRec, raster_eq]
  rcases scan_spec hin hth fuel (rasterXY (clampPar im.w im.h q)) ∅ im.px [] (by intro p; simp [masked, Image.g])
    (fun p hp => mem_rasterXY.1 hp) with ⟨r, U, s, hs, hsr, V, v1, v2, v3⟩ | ⟨r, hlt⟩ | ⟨a', new, bs, U', r, -, -, -⟩
  · right
    rw [r]
    refine ⟨rfl, s, V.toFinset, by rw [List.toFinset_card_of_nodup v1]; exact v2, ?_⟩
    intro p hp
    have hr := v3 p (List.mem_toFinset.1 hp)
    clear hp
    rw [clamp_roi] at hsr
    induction hr with
    | refl => exact ⟨(peak_unused hth hs).2, hsr, .refl⟩
    | tail _ hg ih =>
      obtain ⟨g1, g2, g3, g4, -⟩ := hg
      rw [clamp_roi] at g2
      exact ⟨g4, g2, ih.2.2.tail ⟨g1, g4, g2⟩⟩
  · exfalso
    have harea : (clampPar im.w im.h q).area ≤ fuel := by
      refine le_trans (le_of_eq ?_) hfuel
      rw [Par.area]
      congr 2
      · simp only [clampPar]; split_ifs <;> omega
      · simp only [clampPar]; split_ifs <;> omega
    omega
  · left
    rw [r]
    exact ⟨_, rfl⟩

/-- C40: so `targ_rec` returns for every image without such a set. -/
theorem C40_returns (im : Image) (q : Par) (fuel : ℕ) (hth : 0 ≤ q.thres) (hb : ¬ HugeBlob im q)
    (hfuel : (min q.xmax (im.w - 1) - max q.xmin 1).toNat * (min q.ymax (im.h - 1) - max q.ymin 1).toNat ≤ fuel) :
    ∃ ts, targRec im im.w im.h q fuel = .ok ts := by
  rcases C40_total im q fuel hth hfuel with h | ⟨-, h⟩
  · exact h
  · exact absurd h hb

/-- The hypotheses of C40 are met by the image above: it has fewer pixels than a huge blob needs. -/
example : ∃ ts, targRec dots dots.w dots.h ⟨3, 0, 1, 10, 1, 10, 1, 10, 0, 0, 6, 0, 5⟩ 12 = .ok ts := by
  refine C40_returns dots _ 12 (by norm_num) ?_ (by decide)
  rintro ⟨s, B, hB, h⟩
  have hsub : B ⊆ Finset.Ico 1 5 ×ˢ Finset.Ico 1 4 := by
    intro p hp
    have := (h p hp).2.1
    simp only [Region, InROI, dots] at this
    simp only [Finset.mem_product, Finset.mem_Ico]
    omega
  have := Finset.card_le_card hsub
  simp at this
  omega

theorem flood_mono {im : Image} {q : Par} : ∀ (fuel extra : ℕ) (f : Flood),
    flood im q fuel f ≠ .error .outOfFuel → flood im q (fuel + extra) f = flood im q fuel f
  | 0, extra, f, h => by
    rw [flood] at h ⊢
    split_ifs at h ⊢ with hw
    · cases extra with
      | zero => rw [flood, if_pos hw]
      | succ n => rw [Nat.zero_add, flood, hw]
    · exact absurd rfl h
  | fuel + 1, extra, f, h => by
    rw [show fuel + 1 + extra = (fuel + extra) + 1 by omega, flood, flood]
    rw [flood] at h
    cases hw : f.wait with
    | nil => rfl
    | cons p ps =>
      rw [hw] at h
      simp only [bind, Except.bind] at h ⊢
      cases hs : floodStep im q p f with
      | error e => rfl
      | ok f' =>
        rw [hs] at h
        exact flood_mono fuel extra f' h

theorem scan_mono {im : Image} {q : Par} {fuel extra : ℕ} : ∀ (ps : List (ℤ × ℤ)) (s : (ℤ → ℤ → ℤ) × List Tgt),
    scan im q fuel ps s ≠ .error .outOfFuel → scan im q (fuel + extra) ps s = scan im q fuel ps s
  | [], _, _ => rfl
  | p :: ps, s, h => by
    have hp : scanPixel im q fuel p.1 p.2 s ≠ .error .outOfFuel := by
      intro e
      rw [scan, e] at h
      exact h rfl
    have : scanPixel im q (fuel + extra) p.1 p.2 s = scanPixel im q fuel p.1 p.2 s := by
      rw [scanPixel, scanPixel]
      rw [scanPixel] at hp
      cases hb : isSeed im q s.1 p.1 p.2 with
      | error e => rfl
      | ok b =>
        rw [hb] at hp
        simp only [bind, Except.bind] at hp ⊢
        cases b with
        | false => rfl
        | true =>
          simp only [if_true] at hp ⊢
          cases hr : im.read s.1 p.1 p.2 with
          | error e => rfl
          | ok gv =>
            rw [hr] at hp
            simp only at hp ⊢
            rw [flood_mono fuel extra]
            intro e
            rw [e] at hp
            exact hp rfl
    rw [scan, scan, this]
    rw [scan] at h
    cases hr : scanPixel im q fuel p.1 p.2 s with
    | error e => rfl
    | ok s' =>
      rw [hr] at h
      exact scan_mono ps s' h

/-- C40: the number of passes allowed in the model does not matter once it suffices: a result (or an
exception) does not change when more passes are allowed. -/
theorem C40_fuel_irrelevant (im : Image) (imx imy : ℤ) (q : Par) (fuel extra : ℕ)
    (h : targRec im imx imy q fuel ≠ .error .outOfFuel) :
    targRec im imx imy q (fuel + extra) = targRec im imx imy q fuel := by
  rw [targRec, fastTargRec] at h ⊢
  rw [targRec, fastTargRec, scan_mono]
  intro e
  rw [e] at h
  exact h rfl

/-- A dark image of 3 rows and 4 columns. -/
def dark : Image := ⟨3, 4, fun _ _ => 0⟩

theorem dark_flood (q : Par) (hq : q = ⟨-1, 0, 1, 10, 1, 10, 1, 10, 0, 1, 3, 1, 2⟩) : ∀ (fuel : ℕ) (f : Flood),
    f.img0 = (fun _ _ => 0) → (f.wait = [(1, 1)] ∨ f.wait = [(2, 1)]) →
    flood dark q fuel f = .error .outOfFuel
  | 0, f, _, hw => by
    rw [flood, if_neg]
    rcases hw with hw | hw <;> simp [hw]
  | fuel + 1, f, hi, hw => by
    have hclear : ∀ y x, clear (fun _ _ => 0) y x = fun _ _ => 0 := by
      intro y x; funext a b; simp [clear]
    rcases hw with hw | hw
    · rw [flood, hw]
      simp only [bind, Except.bind]
      have : ∃ f', floodStep dark q (1, 1) f = .ok f' ∧ f'.img0 = (fun _ _ => 0) ∧ f'.wait = [(2, 1)] := by
        subst hq
        simp [floodStep, visit, Image.read, dark, bind, Except.bind, joins, hi, geAll, addPixel, hw, MAX_TARGETS,
          hclear]
      obtain ⟨f', h1, h2, h3⟩ := this
      rw [h1]
      exact dark_flood q hq fuel f' h2 (Or.inr h3)
    · rw [flood, hw]
      simp only [bind, Except.bind]
      have : ∃ f', floodStep dark q (2, 1) f = .ok f' ∧ f'.img0 = (fun _ _ => 0) ∧ f'.wait = [(1, 1)] := by
        subst hq
        simp [floodStep, visit, Image.read, dark, bind, Except.bind, joins, hi, geAll, addPixel, hw, MAX_TARGETS,
          hclear]
      obtain ⟨f', h1, h2, h3⟩ := this
      rw [h1]
      exact dark_flood q hq fuel f' h2 (Or.inl h3)

/-- C40 fails for a negative threshold: on a dark image the flood fill never ends, whatever number of passes
is allowed. (Used pixels are marked with grey value 0, which is above the threshold.) -/
theorem C40_negative_threshold_refuted (fuel : ℕ) :
    targRec dark dark.w dark.h ⟨-1, 0, 1, 10, 1, 10, 1, 10, 0, 0, 3, 0, 3⟩ fuel = .error .outOfFuel := by
  have hc : clampPar dark.w dark.h ⟨-1, 0, 1, 10, 1, 10, 1, 10, 0, 0, 3, 0, 3⟩ =
      ⟨-1, 0, 1, 10, 1, 10, 1, 10, 0, 1, 3, 1, 2⟩ := by simp [clampPar, dark]
  have hr : raster ⟨-1, 0, 1, 10, 1, 10, 1, 10, 0, 1, 3, 1, 2⟩ = [(1, 1), (1, 2)] := by decide +kernel
  rw [targRec, hc, fastTargRec, hr, scan, scanPixel]
  have hs : isSeed dark ⟨-1, 0, 1, 10, 1, 10, 1, 10, 0, 1, 3, 1, 2⟩ dark.px 1 1 = .ok true := by
    simp [isSeed, Image.read, dark, bind, Except.bind, geAll]
  have hrd : dark.read dark.px 1 1 = .ok 0 := by simp [Image.read, dark]
  simp only
  rw [hs]
  simp only [bind, Except.bind, if_true]
  rw [hrd]
  simp only
  rw [dark_flood _ rfl fuel _ (by funext a b; simp [startFlood, clear, dark]) (Or.inl rfl)]

end Verif.Seg
