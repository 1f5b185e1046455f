/-
C115, C116: particles that three or two of four cameras see.
-/
import Verif.Props.FullCorr

namespace Verif.FullCorr

open Verif.Geo Verif.Geo.V3 Verif.Geo.Spec Verif.Search Verif.Search.Spec Verif.Corr Verif.Corr.Spec

/-- A link is a fit. -/
theorem link_fits {p : Pars} {cams : Fin 4 → CamData} (hd : ∀ c, DataFine (cams c)) (heps : 0 < p.crit.eps0)
    (hcs : 0 ≤ p.crit.csumg) {c1 c2 : Fin 4} (h : c1 < c2) {i : ℕ} (hi : i < numTargets cams c1) {sl : Slot ℝ}
    (hl : Link (adjacency p cams) c1 c2 i sl) : Fits p (cams c1) (cams c2) i sl.p2 := by
  unfold Link at hl
  rw [valid_eq hd heps hcs h hi] at hl
  have hq := List.getElem?_eq_getElem (l := (cams c1).crd) (i := i) hi
  set q := (cams c1).crd[i]'hi
  cases he : epiMM q.x q.y (cams c1).cal (cams c2).cal (cams c2).lut p.mm p.vol with
  | none =>
    have : findPair p (cams c1) (cams c2) i = .error .other := by simp [findPair, pyGet, hq, bind, Except.bind, he]
    rw [this] at hl
    simp [found] at hl
  | some e =>
    have hlt := (hd c1).names q (List.mem_of_getElem? hq)
    have hs := List.getElem?_eq_getElem hlt
    have hs0 := (hd c1).sizes _ (List.mem_of_getElem? hs)
    obtain ⟨r, hr, -, -, hc⟩ := C08_candidates_sound (sensorOf p.ip (cams c2).cal) p.crit (cams c1).pix[q.pnr] (cams c2).crd
      (cams c2).pix e.1.1 e.1.2 e.2.1 e.2.2 (dataOK (hd c2) hs0) heps
    rw [findPair_eq hq hs he hr] at hl
    simp only [found] at hl
    obtain ⟨c, hcm, rfl⟩ := List.mem_map.1 hl
    exact ⟨e, q, _, ⟨q, hq, he⟩, hq, hs, (hc c hcm).2.1⟩

theorem npLe_top (x : ℝ) : (.pinf : Fl ℝ).npLe (.fin x) = false := by
  simp only [Fl.npLe]
  rw [decide_eq_false_iff_not]
  intro h
  have : Fl.key (.pinf : Fl ℝ) ≤ Fl.key (.fin x) := h
  rw [Fl.key, Fl.key, Prod.Lex.toLex_le_toLex] at this
  simp at this

theorem numTargets_le {cams : Fin 4 → CamData} (hd : ∀ c, DataFine (cams c)) (c : Fin 4) : numTargets cams c ≤ NMAX := by
  have := (hd c).few
  have e : NMAX = 10000 := rfl
  simp only [numTargets]
  omega

/-- A target that no reported n-tuple uses is not marked. -/
theorem useCount_zero {K : Type} [Field K] [LinearOrder K] {T : List (NTuple K)} {c : Fin 4} {k : ℕ}
    (h : ∀ t ∈ T, t.p c ≠ k) : useCount 4 T c k = 0 := by
  unfold useCount
  rw [List.countP_eq_zero]
  intro t ht
  simp only [decide_eq_true_eq]
  exact fun hu => h t ht hu.2

theorem useCount_pos {K : Type} [Field K] [LinearOrder K] {T : List (NTuple K)} {c : Fin 4} {k : ℕ}
    (h : 0 < useCount 4 T c k) : ∃ t ∈ T, t.p c = k := by
  unfold useCount at h
  rw [List.countP_pos_iff] at h
  obtain ⟨t, ht, hu⟩ := h
  simp only [decide_eq_true_eq] at hu
  exact ⟨t, ht, hu.2⟩

/-! ### Room in the scratch array -/

theorem flatMap_length_mono {α β : Type} {f g : α → List β} : ∀ {xs : List α}, (∀ x ∈ xs, (f x).length ≤ (g x).length) →
    (xs.flatMap f).length ≤ (xs.flatMap g).length
  | [], _ => by simp
  | x :: xs, h => by
    have := flatMap_length_mono (xs := xs) fun y hy => h y (by simp [hy])
    have h0 := h x (by simp)
    rw [List.flatMap_cons, List.flatMap_cons, List.length_append, List.length_append]
    omega

theorem empty_mark (c : Fin 4) (k : ℕ) : mark (Usage.empty NMAX) c k = 0 := by
  unfold mark Usage.empty
  by_cases h : k < NMAX
  · rw [List.getElem?_replicate, if_pos h]; rfl
  · rw [List.getElem?_replicate, if_neg h]; rfl

theorem if_length_mono {β : Type} {a : Prop} [Decidable a] {l l' : List β} (h : l.length ≤ l'.length) :
    (if a then [] else l).length ≤ l'.length := by
  split_ifs
  · simp
  · exact h

/-- Marks only remove triplets. -/
theorem threePure_mono {A : Adj ℝ} {nt : Fin 4 → ℕ} {accept : Fl ℝ} (u : Usage) :
    (threePure A nt accept u).length ≤ (threePure A nt accept (Usage.empty NMAX)).length := by
  unfold threePure
  refine flatMap_length_mono fun i1 _ => flatMap_length_mono fun i _ => flatMap_length_mono fun i2 _ => ?_
  rw [if_neg (show ¬ 0 < mark (Usage.empty NMAX) i1 _ by rw [empty_mark]; omega)]
  refine if_length_mono (flatMap_length_mono fun s12 _ => ?_)
  rw [if_neg (show ¬ 0 < mark (Usage.empty NMAX) i2 _ by rw [empty_mark]; omega)]
  refine if_length_mono (flatMap_length_mono fun i3 _ => flatMap_length_mono fun s13 _ => ?_)
  rw [if_neg (show ¬ 0 < mark (Usage.empty NMAX) i3 _ by rw [empty_mark]; omega)]
  exact if_length_mono le_rfl

theorem three_room {p : Pars} {cams : Fin 4 → CamData} (hd : ∀ c, DataFine (cams c)) (heps : 0 < p.crit.eps0)
    (hcs : 0 ≤ p.crit.csumg) (hmany : ¬ ManyTriplets p cams) (u : Usage) :
    (threePure (adjacency p cams) (numTargets cams) p.corrmin u).take (4 * NMAX) =
      threePure (adjacency p cams) (numTargets cams) p.corrmin u := by
  have hA := adjacency_wf hd heps hcs
  refine List.take_of_length_le ((threePure_mono u).trans ?_)
  by_contra hcon
  refine hmany ⟨_, by unfold threeCameraMatching; rw [threeAll_ok hA (numTargets_le hd) (by simp [Usage.empty])]; rfl, ?_⟩
  rw [List.length_take]
  omega

/-- C115: there is room for all triplets if there are fewer than 40000 ways to pick three targets of different cameras. -/
theorem C115_room (p : Pars) (cams : Fin 4 → CamData) (hd : ∀ c, DataFine (cams c)) (heps : 0 < p.crit.eps0)
    (hcs : 0 ≤ p.crit.csumg) (n : Fin 4 → ℕ) (hn : ∀ c, n c = (cams c).crd.length)
    (hN : n 0 * n 1 * (n 2 + n 3) + n 0 * n 2 * n 3 + n 1 * n 2 * n 3 < 40000) : ¬ ManyTriplets p cams := by
  have hA := adjacency_wf hd heps hcs
  rintro ⟨l, hl, hlen⟩
  have e : l = (threePure (adjacency p cams) (numTargets cams) p.corrmin (Usage.empty NMAX)).take (4 * NMAX) := by
    unfold threeCameraMatching at hl
    rw [threeAll_ok hA (numTargets_le hd) (by simp [Usage.empty])] at hl
    exact (Except.ok.inj hl).symm
  have e4 : 4 * NMAX = 40000 := rfl
  have hle : l.length ≤ (threePure (adjacency p cams) (numTargets cams) p.corrmin (Usage.empty NMAX)).length := by
    rw [e, List.length_take]
    exact min_le_right _ _
  rw [e4] at hlen
  have hrow : ∀ {c1 c2 : Fin 4} (_ : c1 < c2) {i : ℕ} (_ : i < numTargets cams c1),
      (adjacency p cams c1 c2 i).valid.length ≤ n c2 := by
    intro c1 c2 h i hi
    rw [hn]
    exact (row_length hd heps hcs h hi).1
  have key : (threePure (adjacency p cams) (numTargets cams) p.corrmin (Usage.empty NMAX)).length ≤
      n 0 * n 1 * (n 2 + n 3) + n 0 * n 2 * n 3 + n 1 * n 2 * n 3 := by
    have outer : (threePure (adjacency p cams) (numTargets cams) p.corrmin (Usage.empty NMAX)).length ≤
        ((camsBetween 0 2).map fun i1 => n i1 * ((camsBetween (i1.val + 1) 3).map fun i2 =>
          n i2 * ((camsBetween (i2.val + 1) 4).map n).sum).sum).sum := by
      unfold threePure
      rw [List.length_flatMap]
      refine List.sum_le_sum fun i1 _ => ?_
      refine (length_flatMap_le fun i hi => ?_).trans (Nat.mul_le_mul_right _ (by simp [hn, numTargets]))
      rw [List.length_flatMap]
      refine List.sum_le_sum fun i2 h2 => ?_
      have hi := List.mem_range.1 hi
      have h12 : i1 < i2 := Fin.lt_def.2 (by have := (mem_camsBetween.1 h2).1; omega)
      rw [if_neg (by rw [empty_mark]; omega)]
      refine (length_flatMap_le (m := ((camsBetween (i2.val + 1) 4).map n).sum) fun s12 _ => ?_).trans
        (Nat.mul_le_mul_right _ (hrow h12 hi))
      rw [if_neg (by rw [empty_mark]; omega), List.length_flatMap]
      refine List.sum_le_sum fun i3 h3 => ?_
      have h23 : i2 < i3 := Fin.lt_def.2 (by have := (mem_camsBetween.1 h3).1; omega)
      refine (length_flatMap_le (m := 1) fun s13 _ => ?_).trans (by
        have := hrow (h12.trans h23) hi
        omega)
      refine if_length_mono (l' := [()].map fun _ => (NTuple.zero : NTuple ℝ)) ?_
      split
      · simp
      · split_ifs <;> simp
    refine outer.trans (le_of_eq ?_)
    have b02 : camsBetween 0 2 = [0, 1] := by decide
    have b13 : camsBetween 1 3 = [1, 2] := by decide
    have b23 : camsBetween 2 3 = [2] := by decide
    have b24 : camsBetween 2 4 = [2, 3] := by decide
    have b34 : camsBetween 3 4 = [3] := by decide
    simp only [b02, List.map_cons, List.map_nil, List.sum_cons, List.sum_nil, Fin.val_zero, Fin.val_one, Nat.zero_add,
      Nat.reduceAdd, b13, b23, Fin.val_two, b24, b34]
    ring
  omega

/-! ### Triplets -/

/-- A triplet whose correlation is infinite: its targets are exactly on each other's epipolar lines, but the last pair may be a stale
entry, which links every target of the second camera with target 0 of the third. -/
theorem triplet_exact {p : Pars} {cams : Fin 4 → CamData} (hd : ∀ c, DataFine (cams c)) (heps : 0 < p.crit.eps0)
    (hcs : 0 ≤ p.crit.csumg) {u : Usage} {t : NTuple ℝ}
    (ht : t ∈ threePure (adjacency p cams) (numTargets cams) p.corrmin u) (htop : (.pinf : Fl ℝ) ≤ t.corr) :
    ∃ (d1 d2 d3 : Fin 4) (k1 k2 k3 : ℕ), d1 < d2 ∧ d2 < d3 ∧ t.p d1 = k1 ∧ t.p d2 = k2 ∧ t.p d3 = k3 ∧
      (∀ c, c ≠ d1 → c ≠ d2 → c ≠ d3 → t.p c = -2) ∧
      OnEpi p (cams d1) (cams d2) k1 k2 ∧ OnEpi p (cams d1) (cams d3) k1 k3 ∧
      (OnEpi p (cams d2) (cams d3) k2 k3 ∨ k3 = 0) := by
  have hA := adjacency_wf hd heps hcs
  rw [mem_threePure] at ht
  obtain ⟨c1, c2, c3, i, s12, s13, s23, h12, h23, hi, -, l12, -, l13, -, hf, -, rfl⟩ := ht
  have hp1 := (hA c1 c2 h12 i hi).1
  obtain ⟨e1, e2, e3, e4, e5⟩ := mkTuple3 h12 h23 (adjacency p cams c1 c2 i).p1 (s12.p2 : Int) (s13.p2 : Int)
    (Fl.npDiv (s12.corr + s13.corr + s23.corr) (s12.dist + s13.dist + s23.dist))
  rw [hp1] at e1 e2 e3 e4 e5 htop
  rw [hp1]
  rw [e5] at htop
  have hz := npDiv_top htop
  have b12 : s12.p2 < numTargets cams c2 := (hA c1 c2 h12 i hi).2.2.2.1 _ l12
  have d23 : 0 ≤ s23.dist ∧ (s23.dist = 0 → OnEpi p (cams c2) (cams c3) s12.p2 s13.p2 ∨ s13.p2 = 0) := by
    by_cases h0 : s13.p2 = 0
    · refine ⟨?_, fun _ => Or.inr h0⟩
      have hm := List.mem_of_find?_eq_some hf
      obtain ⟨-, -, -, -, hzz⟩ := hA c2 c3 h23 s12.p2 b12
      rw [← List.take_append_drop (adjacency p cams c2 c3 s12.p2).n (adjacency p cams c2 c3 s12.p2).slots, List.mem_append] at hm
      rcases hm with hm | hm
      · have hv : s23 ∈ (adjacency p cams c2 c3 s12.p2).valid := hm
        rw [valid_eq hd heps hcs h23 b12] at hv
        exact ((found_spec (hd c2) (hd c3) heps hcs _).2 _ hv).2.1
      · rw [hzz s23 hm]
        simp [Slot.zero]
    · obtain ⟨l23, e23⟩ := findSlot_valid hA h23 b12 h0 hf
      unfold Link at l23
      rw [valid_eq hd heps hcs h23 b12] at l23
      obtain ⟨-, d, -, o⟩ := (found_spec (hd c2) (hd c3) heps hcs _).2 _ l23
      exact ⟨d, fun h => Or.inl (by rw [← e23]; exact o h)⟩
  unfold Link at l12 l13
  rw [valid_eq hd heps hcs h12 hi] at l12
  rw [valid_eq hd heps hcs (h12.trans h23) hi] at l13
  obtain ⟨-, d12, -, o12⟩ := (found_spec (hd c1) (hd c2) heps hcs _).2 _ l12
  obtain ⟨-, d13, -, o13⟩ := (found_spec (hd c1) (hd c3) heps hcs _).2 _ l13
  exact ⟨c1, c2, c3, i, s12.p2, s13.p2, h12, h23, e1, e2, e3, e4, o12 (by linarith [d23.1]), o13 (by linarith [d23.1]),
    d23.2 (by linarith [d23.1])⟩

/-- C115: in air, let a particle be seen by three of the four cameras, its coordinates exact, let there be room for all triplets and let
the call (without `all_cam_flag`) return. Then its three targets are reported as a triplet, or one of them is part of
a reported quadruplet, or of a reported triplet that is as exact (up to stale entries, see `triplet_exact`). -/
theorem C115_reported_or_taken (srt : NpSort ℝ) (p : Pars) (cams : Fin 4 → CamData) (hd : ∀ c, DataFine (cams c))
    (heps : 0 < p.crit.eps0) (hcs : 0 ≤ p.crit.csumg) (cm : ℝ) (hcm : p.corrmin = .fin cm) (hair : Air p.mm)
    (hflag : p.allCam = false) (hmany : ¬ ManyTriplets p cams) (c1 c2 c3 : Fin 4) (h12 : c1 < c2) (h23 : c2 < c3)
    (P : V3) (X : Fin 4 → V3) (k : Fin 4 → ℕ) (s : Fin 4 → Shape) (hs : SeenBy {c1, c2, c3} p cams P X k s)
    (r : Result ℝ) (hr : run srt p cams = .ok r) :
    (∃ t ∈ r.triplets, t.p c1 = k c1 ∧ t.p c2 = k c2 ∧ t.p c3 = k c3 ∧ ∀ c, c ≠ c1 → c ≠ c2 → c ≠ c3 → t.p c = -2) ∨
    (∃ t ∈ r.quads, ∃ c ∈ ({c1, c2, c3} : Set (Fin 4)), t.p c = k c) ∨
    ∃ t ∈ r.triplets, (∃ c ∈ ({c1, c2, c3} : Set (Fin 4)), t.p c = k c) ∧
      ∃ (d1 d2 d3 : Fin 4) (k1 k2 k3 : ℕ), d1 < d2 ∧ d2 < d3 ∧ t.p d1 = k1 ∧ t.p d2 = k2 ∧ t.p d3 = k3 ∧
        (∀ c, c ≠ d1 → c ≠ d2 → c ≠ d3 → t.p c = -2) ∧
        OnEpi p (cams d1) (cams d2) k1 k2 ∧ OnEpi p (cams d1) (cams d3) k1 k3 ∧
        (OnEpi p (cams d2) (cams d3) k2 k3 ∨ k3 = 0) := by
  have hA := adjacency_wf hd heps hcs
  have m1 : c1 ∈ ({c1, c2, c3} : Set (Fin 4)) := by simp
  have m2 : c2 ∈ ({c1, c2, c3} : Set (Fin 4)) := by simp
  have m3 : c3 ∈ ({c1, c2, c3} : Set (Fin 4)) := by simp
  obtain ⟨s12, l12, e12, d12, q12⟩ := linkBy hd heps hcs hair hs m1 m2 h12
  obtain ⟨s13, l13, e13, d13, q13⟩ := linkBy hd heps hcs hair hs m1 m3 (h12.trans h23)
  obtain ⟨s23, l23, e23, d23, q23⟩ := linkBy hd heps hcs hair hs m2 m3 h23
  have hk : ∀ c ∈ ({c1, c2, c3} : Set (Fin 4)), k c < numTargets cams c := by
    intro c hc
    obtain ⟨q, hq, -⟩ := (hs.detected c hc).at_
    exact (List.getElem?_eq_some_iff.1 hq).1
  obtain ⟨q, tt, pp, u1, u2, hst, -, hu1, -, hl1, -, -, hts, -, -, -, hbest, -⟩ :=
    stages_spec (srt := srt) (corrmin := p.corrmin) (allCam := p.allCam) hA (numTargets_le hd) (by decide)
  rw [run_stages hr] at hst
  obtain ⟨rfl, rfl, rfl⟩ : r.quads = q ∧ r.triplets = tt ∧ r.pairs = pp := by
    have := Except.ok.inj hst
    simpa using this
  by_cases hq : ∃ t ∈ r.quads, ∃ c ∈ ({c1, c2, c3} : Set (Fin 4)), t.p c = k c
  · exact Or.inr (Or.inl hq)
  have hmark : ∀ c ∈ ({c1, c2, c3} : Set (Fin 4)), mark u1 c (k c) = 0 := by
    intro c hc
    rw [hu1]
    exact useCount_zero fun t ht he => hq ⟨t, ht, c, hc, he⟩
  obtain ⟨f1, f2, f3, f4, f5⟩ := mkTuple3 h12 h23 (k c1 : Int) (k c2 : Int) (k c3 : Int) (.pinf : Fl ℝ)
  set t : NTuple ℝ := mkTuple [(c1, (k c1 : Int)), (c2, (k c2 : Int)), (c3, (k c3 : Int))] .pinf with htdef
  have htrip : IsTriplet (adjacency p cams) (numTargets cams) p.corrmin u1 t := by
    refine ⟨c1, c2, c3, k c1, k c2, k c3, s12, s13, s23, h12, h23, hk c1 m1, f1, f2, f3, f4, hmark c1 m1, hmark c2 m2, hmark c3 m3,
      ⟨l12, e12⟩, ⟨l13, e13⟩, ⟨l23, e23⟩, ?_, ?_⟩
    · rw [d12, d13, d23, f5]
      simp only [add_zero]
      rw [npDiv_zero (by positivity)]
    · rw [hcm, f5]
      exact npLe_top cm
  have hnd : ∀ c1 c2 i, (((adjacency p cams) c1 c2 i).valid.map Slot.p2).Nodup := by
    intro a b i
    unfold adjacency matchPairs
    split_ifs with hab
    · rw [mkRow_valid]
      have := found_nodup (p := p) (hd a) (hd b) heps i
      rw [← List.take_append_drop Corr.MAXCAND (found (findPair p (cams a) (cams b) i)), List.map_append] at this
      exact (List.nodup_append.1 this).1
    · simp [Row.valid]
  have hroom := three_room hd heps hcs hmany u1
  have hthree : threeCameraMatching NMAX (adjacency p cams) (numTargets cams) p.corrmin
      ((threePure (adjacency p cams) (numTargets cams) p.corrmin u1).length + 1) u1 =
      .ok (threePure (adjacency p cams) (numTargets cams) p.corrmin u1) := by
    unfold threeCameraMatching
    rw [threeAll_ok hA (numTargets_le hd) hl1]
    simp only [bind, Except.bind]
    rw [List.take_of_length_le (Nat.le_succ _)]
  have hmem := C05_triplets_complete _ _ _ _ _ _ hA (numTargets_le hd) hl1 hnd _ hthree (Nat.lt_succ_self _) t htrip
  obtain ⟨hb, -⟩ := hbest hflag
  rw [hroom] at hb
  rcases hb t hmem with h | ⟨c, j, ⟨-, hu⟩, hpos⟩ | ⟨y, hy, ⟨c, j, ⟨-, hy1⟩, ⟨-, ht1⟩⟩, hle⟩
  · exact Or.inl ⟨t, h, f1, f2, f3, f4⟩
  · exfalso
    have hc : c ∈ ({c1, c2, c3} : Set (Fin 4)) := by
      by_contra hc
      simp only [Set.mem_insert_iff, Set.mem_singleton_iff, not_or] at hc
      rw [f4 c hc.1 hc.2.1 hc.2.2] at hu
      omega
    have hj : j = k c := by
      simp only [Set.mem_insert_iff, Set.mem_singleton_iff] at hc
      rcases hc with rfl | rfl | rfl
      · rw [f1] at hu; omega
      · rw [f2] at hu; omega
      · rw [f3] at hu; omega
    rw [hj, hmark c hc] at hpos
    omega
  · right; right
    have hc : c ∈ ({c1, c2, c3} : Set (Fin 4)) := by
      by_contra hc
      simp only [Set.mem_insert_iff, Set.mem_singleton_iff, not_or] at hc
      rw [f4 c hc.1 hc.2.1 hc.2.2] at ht1
      omega
    have hj : j = k c := by
      simp only [Set.mem_insert_iff, Set.mem_singleton_iff] at hc
      rcases hc with rfl | rfl | rfl
      · rw [f1] at ht1; omega
      · rw [f2] at ht1; omega
      · rw [f3] at ht1; omega
    refine ⟨y, hy, ⟨c, hc, by rw [hy1, hj]⟩, ?_⟩
    refine triplet_exact hd heps hcs (List.mem_of_mem_take (hts y hy)) ?_
    rw [f5] at hle
    exact hle

/-- Any two targets of a reported quadruplet fit, unless it is the tuple (0,0,0,0) that nobody found. -/
theorem quad_fits {srt : NpSort ℝ} {p : Pars} {cams : Fin 4 → CamData} (hd : ∀ c, DataFine (cams c)) (heps : 0 < p.crit.eps0)
    (hcs : 0 ≤ p.crit.csumg) {r : Result ℝ} (hr : run srt p cams = .ok r) {t : NTuple ℝ} (ht : t ∈ r.quads) :
    t = NTuple.zero ∨ ∃ k' : Fin 4 → ℕ, (∀ c, t.p c = k' c) ∧ ∀ c1 c2, c1 < c2 → Fits p (cams c1) (cams c2) (k' c1) (k' c2) := by
  have hA := adjacency_wf hd heps hcs
  obtain ⟨q, tt, pp, u1, u2, hst, -, -, -, -, -, hqs, -⟩ :=
    stages_spec (srt := srt) (corrmin := p.corrmin) (allCam := p.allCam) hA (numTargets_le hd) (by decide)
  rw [run_stages hr] at hst
  obtain ⟨rfl, -, -⟩ : r.quads = q ∧ r.triplets = tt ∧ r.pairs = pp := by
    have := Except.ok.inj hst
    simpa using this
  rcases hqs t ht with h | ⟨h, -⟩
  · right
    obtain ⟨p1, p2, p3, p4, s12, s13, s14, s23, s24, s34, hlt, hp, ⟨l12, rfl⟩, ⟨l13, rfl⟩, ⟨l14, rfl⟩, ⟨l23, e23⟩, ⟨l24, e24⟩,
      ⟨l34, e34⟩, -⟩ := (C04_quadruplets_exact _ (numTargets cams) p.corrmin (4 * NMAX) hA).1 t h
    have b12 := (hA 0 1 (by decide) p1 hlt).2.2.2.1 _ l12
    have b13 := (hA 0 2 (by decide) p1 hlt).2.2.2.1 _ l13
    have f12 := link_fits hd heps hcs (by decide) hlt l12
    have f13 := link_fits hd heps hcs (by decide) hlt l13
    have f14 := link_fits hd heps hcs (by decide) hlt l14
    have f23 := link_fits hd heps hcs (by decide) b12 l23
    have f24 := link_fits hd heps hcs (by decide) b12 l24
    have f34 := link_fits hd heps hcs (by decide) b13 l34
    rw [e23] at f23
    rw [e24] at f24
    rw [e34] at f34
    refine ⟨![p1, s12.p2, s13.p2, s14.p2], ?_, ?_⟩
    · intro c
      rw [hp]
      fin_cases c <;> rfl
    · intro c1 c2 h
      fin_cases c1 <;> fin_cases c2 <;> simp at h
      · exact f12
      · exact f13
      · exact f14
      · exact f23
      · exact f24
      · exact f34
  · exact Or.inl h

/-- The first target of a reported triplet fits the two others. -/
theorem triplet_fits {srt : NpSort ℝ} {p : Pars} {cams : Fin 4 → CamData} (hd : ∀ c, DataFine (cams c)) (heps : 0 < p.crit.eps0)
    (hcs : 0 ≤ p.crit.csumg) {r : Result ℝ} (hr : run srt p cams = .ok r) {t : NTuple ℝ} (ht : t ∈ r.triplets) :
    ∃ (d1 d2 d3 : Fin 4) (k1 k2 k3 : ℕ), d1 < d2 ∧ d2 < d3 ∧ t.p d1 = k1 ∧ t.p d2 = k2 ∧ t.p d3 = k3 ∧
      (∀ c, c ≠ d1 → c ≠ d2 → c ≠ d3 → t.p c = -2) ∧
      Fits p (cams d1) (cams d2) k1 k2 ∧ Fits p (cams d1) (cams d3) k1 k3 := by
  have hA := adjacency_wf hd heps hcs
  obtain ⟨q, tt, pp, u1, u2, hst, -, -, -, -, -, -, hts, -⟩ :=
    stages_spec (srt := srt) (corrmin := p.corrmin) (allCam := p.allCam) hA (numTargets_le hd) (by decide)
  rw [run_stages hr] at hst
  obtain ⟨-, rfl, -⟩ : r.quads = q ∧ r.triplets = tt ∧ r.pairs = pp := by
    have := Except.ok.inj hst
    simpa using this
  have hx := List.mem_of_mem_take (hts t ht)
  rw [mem_threePure] at hx
  obtain ⟨c1, c2, c3, i, s12, s13, s23, h12, h23, hi, -, l12, -, l13, -, -, -, rfl⟩ := hx
  have hp1 := (hA c1 c2 h12 i hi).1
  obtain ⟨e1, e2, e3, e4, -⟩ := mkTuple3 h12 h23 (adjacency p cams c1 c2 i).p1 (s12.p2 : Int) (s13.p2 : Int)
    (Fl.npDiv (s12.corr + s13.corr + s23.corr) (s12.dist + s13.dist + s23.dist))
  rw [hp1] at e1 e2 e3 e4
  rw [hp1]
  exact ⟨c1, c2, c3, i, s12.p2, s13.p2, h12, h23, e1, e2, e3, e4, link_fits hd heps hcs h12 hi l12,
    link_fits hd heps hcs (h12.trans h23) hi l13⟩

/-- The two targets of a reported pair fit. -/
theorem pair_fits {srt : NpSort ℝ} {p : Pars} {cams : Fin 4 → CamData} (hd : ∀ c, DataFine (cams c)) (heps : 0 < p.crit.eps0)
    (hcs : 0 ≤ p.crit.csumg) {r : Result ℝ} (hr : run srt p cams = .ok r) {t : NTuple ℝ} (ht : t ∈ r.pairs) :
    ∃ (d1 d2 : Fin 4) (k1 k2 : ℕ), d1 < d2 ∧ t.p d1 = k1 ∧ t.p d2 = k2 ∧ (∀ c, c ≠ d1 → c ≠ d2 → t.p c = -2) ∧
      Fits p (cams d1) (cams d2) k1 k2 := by
  have hA := adjacency_wf hd heps hcs
  obtain ⟨q, tt, pp, u1, u2, hst, -, -, -, -, -, -, -, hps, -⟩ :=
    stages_spec (srt := srt) (corrmin := p.corrmin) (allCam := p.allCam) hA (numTargets_le hd) (by decide)
  rw [run_stages hr] at hst
  obtain ⟨-, -, rfl⟩ : r.quads = q ∧ r.triplets = tt ∧ r.pairs = pp := by
    have := Except.ok.inj hst
    simpa using this
  have hx := List.mem_of_mem_take (hps t ht)
  rw [mem_pairsPure] at hx
  obtain ⟨c1, c2, i, s, h12, hi, -, hv, -, -, rfl⟩ := hx
  obtain ⟨e1, e2, e4, -⟩ := mkTuple2 h12 (adjacency p cams c1 c2 i).p1 (s.p2 : Int) (Fl.npDiv s.corr s.dist)
  have hp1 := (hA c1 c2 h12 i hi).1
  rw [hp1] at e1 e2 e4
  rw [hp1]
  exact ⟨c1, c2, i, s.p2, h12, e1, e2, e4, link_fits hd heps hcs h12 hi (by unfold Link; rw [hv]; simp)⟩

/-- Nothing else takes the targets of a group that fits itself only, but the tuple (0,0,0,0). -/
theorem quad_avoids {srt : NpSort ℝ} {p : Pars} {cams : Fin 4 → CamData} (hd : ∀ c, DataFine (cams c)) (heps : 0 < p.crit.eps0)
    (hcs : 0 ≤ p.crit.csumg) {r : Result ℝ} (hr : run srt p cams = .ok r) {S : Set (Fin 4)} {k : Fin 4 → ℕ}
    (hf : FitOnly S p cams k) (h0 : ∀ c ∈ S, k c ≠ 0) {d : Fin 4} (hdS : d ∉ S) {t : NTuple ℝ} (ht : t ∈ r.quads) {c : Fin 4}
    (hc : c ∈ S) : t.p c ≠ k c := by
  intro he
  rcases quad_fits hd heps hcs hr ht with rfl | ⟨k', hk', hfit⟩
  · refine h0 c hc ?_
    have : (0 : Int) = k c := he
    omega
  · have hkc : k' c = k c := by
      have := hk' c
      rw [he] at this
      omega
    rcases lt_trichotomy c d with h | h | h
    · have := hfit c d h
      rw [hkc] at this
      exact hdS ((hf c hc d _).1 h this).1
    · exact hdS (h ▸ hc)
    · have := hfit d c h
      rw [hkc] at this
      exact hdS ((hf c hc d _).2 h this).1

/-- A reported triplet with a target of a group that fits itself only belongs to the group. -/
theorem triplet_inside {srt : NpSort ℝ} {p : Pars} {cams : Fin 4 → CamData} (hd : ∀ c, DataFine (cams c)) (heps : 0 < p.crit.eps0)
    (hcs : 0 ≤ p.crit.csumg) {r : Result ℝ} (hr : run srt p cams = .ok r) {S : Set (Fin 4)} {k : Fin 4 → ℕ}
    (hf : FitOnly S p cams k) {t : NTuple ℝ} (ht : t ∈ r.triplets) {c : Fin 4} (hc : c ∈ S) (he : t.p c = k c) :
    ∃ d1 d2 d3 : Fin 4, d1 < d2 ∧ d2 < d3 ∧ d1 ∈ S ∧ d2 ∈ S ∧ d3 ∈ S ∧ t.p d1 = k d1 ∧ t.p d2 = k d2 ∧ t.p d3 = k d3 ∧
      ∀ c, c ≠ d1 → c ≠ d2 → c ≠ d3 → t.p c = -2 := by
  obtain ⟨d1, d2, d3, k1, k2, k3, h12, h23, t1, t2, t3, t4, f12, f13⟩ := triplet_fits hd heps hcs hr ht
  have hin : d1 ∈ S ∧ k1 = k d1 := by
    by_cases a1 : c = d1
    · subst a1
      rw [he] at t1
      exact ⟨hc, by omega⟩
    by_cases a2 : c = d2
    · subst a2
      rw [he] at t2
      have : k2 = k c := by omega
      rw [this] at f12
      exact (hf c hc d1 k1).2 h12 f12
    by_cases a3 : c = d3
    · subst a3
      rw [he] at t3
      have : k3 = k c := by omega
      rw [this] at f13
      exact (hf c hc d1 k1).2 (h12.trans h23) f13
    rw [t4 c a1 a2 a3] at he
    omega
  obtain ⟨m1, rfl⟩ := hin
  obtain ⟨m2, rfl⟩ := (hf d1 m1 d2 k2).1 h12 f12
  obtain ⟨m3, rfl⟩ := (hf d1 m1 d3 k3).1 (h12.trans h23) f13
  exact ⟨d1, d2, d3, h12, h23, m1, m2, m3, t1, t2, t3, t4⟩

/-- C115 (part that holds): in air, a particle that three of four cameras see exactly, and whose three targets fit one another only, is
reported as a triplet if none of its targets has number 0 in the order by x. Missing: targets with number 0, see `C115_refuted`. -/
theorem C115_reported_partial (srt : NpSort ℝ) (p : Pars) (cams : Fin 4 → CamData) (hd : ∀ c, DataFine (cams c))
    (heps : 0 < p.crit.eps0) (hcs : 0 ≤ p.crit.csumg) (cm : ℝ) (hcm : p.corrmin = .fin cm) (hair : Air p.mm)
    (hflag : p.allCam = false) (hmany : ¬ ManyTriplets p cams) (c1 c2 c3 : Fin 4) (h12 : c1 < c2) (h23 : c2 < c3)
    (P : V3) (X : Fin 4 → V3) (k : Fin 4 → ℕ) (s : Fin 4 → Shape) (hs : SeenBy {c1, c2, c3} p cams P X k s)
    (hf : FitOnly {c1, c2, c3} p cams k) (h0 : ∀ c ∈ ({c1, c2, c3} : Set (Fin 4)), k c ≠ 0)
    (r : Result ℝ) (hr : run srt p cams = .ok r) :
    ∃ t ∈ r.triplets, t.p c1 = k c1 ∧ t.p c2 = k c2 ∧ t.p c3 = k c3 ∧ ∀ c, c ≠ c1 → c ≠ c2 → c ≠ c3 → t.p c = -2 := by
  obtain ⟨d, hdS⟩ : ∃ d : Fin 4, d ∉ ({c1, c2, c3} : Set (Fin 4)) := by
    simp only [Set.mem_insert_iff, Set.mem_singleton_iff]
    clear * -
    revert c1 c2 c3
    decide
  rcases C115_reported_or_taken srt p cams hd heps hcs cm hcm hair hflag hmany c1 c2 c3 h12 h23 P X k s hs r hr with
    h | ⟨t, ht, c, hc, he⟩ | ⟨t, ht, ⟨c, hc, he⟩, -⟩
  · exact h
  · exact absurd he (quad_avoids hd heps hcs hr hf h0 hdS ht hc)
  · obtain ⟨d1, d2, d3, g12, g23, m1, m2, m3, t1, t2, t3, t4⟩ := triplet_inside hd heps hcs hr hf ht hc he
    obtain ⟨rfl, rfl, rfl⟩ : d1 = c1 ∧ d2 = c2 ∧ d3 = c3 := by
      simp only [Set.mem_insert_iff, Set.mem_singleton_iff] at m1 m2 m3
      clear * - h12 h23 g12 g23 m1 m2 m3
      revert c1 c2 c3 d1 d2 d3
      decide
    exact ⟨t, ht, t1, t2, t3, t4⟩

/-! ### Pairs -/

/-- C116: there is room for all pairs. -/
theorem pairs_room {p : Pars} {cams : Fin 4 → CamData}
    (hN : 3 * (cams 0).crd.length + 2 * (cams 1).crd.length + (cams 2).crd.length ≤ 40000) (u : Usage) :
    (pairsPure (adjacency p cams) (numTargets cams) p.corrmin u).take (4 * NMAX) =
      pairsPure (adjacency p cams) (numTargets cams) p.corrmin u := by
  refine List.take_of_length_le ?_
  have e4 : 4 * NMAX = 40000 := rfl
  rw [e4]
  refine le_trans ?_ hN
  have : (pairsPure (adjacency p cams) (numTargets cams) p.corrmin u).length ≤
      ((camsBetween 0 3).map fun i1 => ((camsBetween (i1.val + 1) 4).map fun _ => numTargets cams i1).sum).sum := by
    unfold pairsPure
    rw [List.length_flatMap]
    refine List.sum_le_sum fun i1 _ => ?_
    rw [List.length_flatMap]
    refine List.sum_le_sum fun i2 _ => ?_
    refine (length_flatMap_le (m := 1) fun i _ => ?_).trans (by simp)
    refine if_length_mono (l' := [()].map fun _ => (NTuple.zero : NTuple ℝ)) ?_
    split
    · split_ifs <;> simp
    · simp
  refine this.trans (le_of_eq ?_)
  have b03 : camsBetween 0 3 = [0, 1, 2] := by decide
  have b14 : camsBetween 1 4 = [1, 2, 3] := by decide
  have b24 : camsBetween 2 4 = [2, 3] := by decide
  have b34 : camsBetween 3 4 = [3] := by decide
  simp only [b03, List.map_cons, List.map_nil, List.sum_cons, List.sum_nil, Fin.val_zero, Fin.val_one, Nat.zero_add,
    Nat.reduceAdd, b14, Fin.val_two, b24, b34, numTargets]
  ring

/-- C116: in air, let a particle be seen by two of the four cameras, its coordinates exact, let no other target of the
second camera fit the target of the first, let there be room for all pairs and let the call (without `all_cam_flag`) return. Then
its two targets are reported as a pair, or one of them is part of a reported quadruplet or triplet, or of another reported pair. -/
theorem C116_reported_or_taken (srt : NpSort ℝ) (p : Pars) (cams : Fin 4 → CamData) (hd : ∀ c, DataFine (cams c))
    (heps : 0 < p.crit.eps0) (hcs : 0 ≤ p.crit.csumg) (cm : ℝ) (hcm : p.corrmin = .fin cm) (hair : Air p.mm)
    (hflag : p.allCam = false)
    (hN : 3 * (cams 0).crd.length + 2 * (cams 1).crd.length + (cams 2).crd.length ≤ 40000) (c1 c2 : Fin 4) (h12 : c1 < c2)
    (P : V3) (X : Fin 4 → V3) (k : Fin 4 → ℕ) (s : Fin 4 → Shape) (hs : SeenBy {c1, c2} p cams P X k s)
    (hone : ∀ m, Fits p (cams c1) (cams c2) (k c1) m → m = k c2)
    (r : Result ℝ) (hr : run srt p cams = .ok r) :
    (∃ t ∈ r.pairs, t.p c1 = k c1 ∧ t.p c2 = k c2 ∧ ∀ c, c ≠ c1 → c ≠ c2 → t.p c = -2) ∨
    (∃ t ∈ r.quads ++ r.triplets, t.p c1 = k c1 ∨ t.p c2 = k c2) ∨
    ∃ t ∈ r.pairs, (t.p c1 = k c1 ∨ t.p c2 = k c2) ∧ ∃ (d1 d2 : Fin 4) (k1 k2 : ℕ), d1 < d2 ∧ t.p d1 = k1 ∧ t.p d2 = k2 ∧
      (∀ c, c ≠ d1 → c ≠ d2 → t.p c = -2) ∧ Fits p (cams d1) (cams d2) k1 k2 := by
  have hA := adjacency_wf hd heps hcs
  have m1 : c1 ∈ ({c1, c2} : Set (Fin 4)) := by simp
  have m2 : c2 ∈ ({c1, c2} : Set (Fin 4)) := by simp
  obtain ⟨s12, l12, e12, d12, q12⟩ := linkBy hd heps hcs hair hs m1 m2 h12
  have hk : k c1 < numTargets cams c1 := by
    obtain ⟨q, hq, -⟩ := (hs.detected c1 m1).at_
    exact (List.getElem?_eq_some_iff.1 hq).1
  obtain ⟨q, tt, pp, u1, u2, hst, -, -, hu2, -, hl2, -, -, hps, -, -, hbest, -⟩ :=
    stages_spec (srt := srt) (corrmin := p.corrmin) (allCam := p.allCam) hA (numTargets_le hd) (by decide)
  rw [run_stages hr] at hst
  obtain ⟨rfl, rfl, rfl⟩ : r.quads = q ∧ r.triplets = tt ∧ r.pairs = pp := by
    have := Except.ok.inj hst
    simpa using this
  by_cases hq : ∃ t ∈ r.quads ++ r.triplets, t.p c1 = k c1 ∨ t.p c2 = k c2
  · exact Or.inr (Or.inl hq)
  have hmark1 : mark u2 c1 (k c1) = 0 := by
    rw [hu2]
    exact useCount_zero fun t ht he => hq ⟨t, ht, Or.inl he⟩
  have hmark2 : mark u2 c2 (k c2) = 0 := by
    rw [hu2]
    exact useCount_zero fun t ht he => hq ⟨t, ht, Or.inr he⟩
  have hrow : (adjacency p cams c1 c2 (k c1)).valid = [s12] := by
    have hnd := (row_length hd heps hcs h12 hk).2
    have hall : ∀ x ∈ (adjacency p cams c1 c2 (k c1)).valid.map Slot.p2, x = k c2 := by
      intro x hx
      obtain ⟨sl, hsl, rfl⟩ := List.mem_map.1 hx
      exact hone _ (link_fits hd heps hcs h12 hk hsl)
    unfold Link at l12
    generalize (adjacency p cams c1 c2 (k c1)).valid = L at l12 hnd hall
    match L with
    | [] => simp at l12
    | [a] => simpa [eq_comm] using l12
    | a :: b :: L =>
      have ha := hall a.p2 (by simp)
      have hb := hall b.p2 (by simp)
      simp [ha, hb] at hnd
  obtain ⟨f1, f2, f4, f5⟩ := mkTuple2 h12 (k c1 : Int) (k c2 : Int) (.pinf : Fl ℝ)
  set t : NTuple ℝ := mkTuple [(c1, (k c1 : Int)), (c2, (k c2 : Int))] .pinf with htdef
  have hmem : t ∈ pairsPure (adjacency p cams) (numTargets cams) p.corrmin u2 := by
    rw [mem_pairsPure]
    have hp1 := (hA c1 c2 h12 _ hk).1
    have hcorr : Fl.npDiv s12.corr s12.dist = .pinf := by rw [d12, npDiv_zero q12]
    refine ⟨c1, c2, k c1, s12, h12, hk, ?_, hrow, ?_, ?_, ?_⟩
    · rw [hp1]; simpa using hmark1
    · rw [e12]; exact hmark2
    · rw [hcorr, hcm]
      exact npLe_top cm
    · rw [hp1, e12, hcorr]
  obtain ⟨-, hb⟩ := hbest hflag
  rw [pairs_room hN] at hb
  rcases hb t hmem with h | ⟨c, j, ⟨-, hu⟩, hpos⟩ | ⟨y, hy, ⟨c, j, ⟨-, hy1⟩, ⟨-, ht1⟩⟩, -⟩
  · exact Or.inl ⟨t, h, f1, f2, f4⟩
  · exfalso
    by_cases a1 : c = c1
    · subst a1
      rw [f1] at hu
      have : j = k c := by omega
      rw [this, hmark1] at hpos
      omega
    by_cases a2 : c = c2
    · subst a2
      rw [f2] at hu
      have : j = k c := by omega
      rw [this, hmark2] at hpos
      omega
    rw [f4 c a1 a2] at hu
    omega
  · right; right
    refine ⟨y, hy, ?_, pair_fits hd heps hcs hr hy⟩
    by_cases a1 : c = c1
    · subst a1
      rw [f1] at ht1
      exact Or.inl (by rw [hy1, ← ht1])
    by_cases a2 : c = c2
    · subst a2
      rw [f2] at ht1
      exact Or.inr (by rw [hy1, ← ht1])
    rw [f4 c a1 a2] at ht1
    omega

/-- C116 (part that holds): in air, a particle that two of four cameras see exactly, and whose two targets fit one another only, is
reported as a pair if none of its targets has number 0 in the order by x. Missing: targets with number 0, see `C116_refuted`. -/
theorem C116_reported_partial (srt : NpSort ℝ) (p : Pars) (cams : Fin 4 → CamData) (hd : ∀ c, DataFine (cams c))
    (heps : 0 < p.crit.eps0) (hcs : 0 ≤ p.crit.csumg) (cm : ℝ) (hcm : p.corrmin = .fin cm) (hair : Air p.mm)
    (hflag : p.allCam = false)
    (hN : 3 * (cams 0).crd.length + 2 * (cams 1).crd.length + (cams 2).crd.length ≤ 40000) (c1 c2 : Fin 4) (h12 : c1 < c2)
    (P : V3) (X : Fin 4 → V3) (k : Fin 4 → ℕ) (s : Fin 4 → Shape) (hs : SeenBy {c1, c2} p cams P X k s)
    (hf : FitOnly {c1, c2} p cams k) (h0 : k c1 ≠ 0 ∧ k c2 ≠ 0)
    (r : Result ℝ) (hr : run srt p cams = .ok r) :
    ∃ t ∈ r.pairs, t.p c1 = k c1 ∧ t.p c2 = k c2 ∧ ∀ c, c ≠ c1 → c ≠ c2 → t.p c = -2 := by
  have m1 : c1 ∈ ({c1, c2} : Set (Fin 4)) := by simp
  have m2 : c2 ∈ ({c1, c2} : Set (Fin 4)) := by simp
  have h0' : ∀ c ∈ ({c1, c2} : Set (Fin 4)), k c ≠ 0 := by
    intro c hc
    simp only [Set.mem_insert_iff, Set.mem_singleton_iff] at hc
    rcases hc with rfl | rfl
    · exact h0.1
    · exact h0.2
  obtain ⟨d, hdS⟩ : ∃ d : Fin 4, d ∉ ({c1, c2} : Set (Fin 4)) := by
    simp only [Set.mem_insert_iff, Set.mem_singleton_iff]
    clear * -
    revert c1 c2
    decide
  have hno : ∀ t ∈ r.triplets, ∀ c ∈ ({c1, c2} : Set (Fin 4)), t.p c ≠ k c := by
    intro t ht c hc he
    obtain ⟨d1, d2, d3, g12, g23, n1, n2, n3, -⟩ := triplet_inside hd heps hcs hr hf ht hc he
    simp only [Set.mem_insert_iff, Set.mem_singleton_iff] at n1 n2 n3
    clear * - h12 g12 g23 n1 n2 n3
    revert c1 c2 d1 d2 d3
    decide
  rcases C116_reported_or_taken srt p cams hd heps hcs cm hcm hair hflag hN c1 c2 h12 P X k s hs
    (fun m hm => ((hf c1 m1 c2 m).1 h12 hm).2) r hr with h | ⟨t, ht, he⟩ | ⟨t, ht, he, d1, d2, k1, k2, g12, t1, t2, t4, hfit⟩
  · exact h
  · exfalso
    rcases List.mem_append.1 ht with ht | ht
    · rcases he with he | he
      · exact quad_avoids hd heps hcs hr hf h0' hdS ht m1 he
      · exact quad_avoids hd heps hcs hr hf h0' hdS ht m2 he
    · rcases he with he | he
      · exact hno t ht c1 m1 he
      · exact hno t ht c2 m2 he
  · have key : ∀ c ∈ ({c1, c2} : Set (Fin 4)), t.p c = k c → d1 ∈ ({c1, c2} : Set (Fin 4)) ∧ k1 = k d1 := by
      intro c hc he
      by_cases a1 : c = d1
      · subst a1
        rw [he] at t1
        exact ⟨hc, by omega⟩
      by_cases a2 : c = d2
      · subst a2
        rw [he] at t2
        have : k2 = k c := by omega
        rw [this] at hfit
        exact (hf c hc d1 k1).2 g12 hfit
      rw [t4 c a1 a2] at he
      omega
    obtain ⟨n1, rfl⟩ : d1 ∈ ({c1, c2} : Set (Fin 4)) ∧ k1 = k d1 := by
      rcases he with he | he
      · exact key c1 m1 he
      · exact key c2 m2 he
    obtain ⟨n2, rfl⟩ := (hf d1 n1 d2 k2).1 g12 hfit
    obtain ⟨rfl, rfl⟩ : d1 = c1 ∧ d2 = c2 := by
      simp only [Set.mem_insert_iff, Set.mem_singleton_iff] at n1 n2
      clear * - h12 g12 n1 n2
      revert c1 c2 d1 d2
      decide
    exact ⟨t, ht, t1, t2, t4⟩

/-! ### Examples: the four cameras in a row -/

/-- Camera `c` of the row with these coordinates; all targets look the same. -/
noncomputable def rowWith (c : Fin 4) (l : List Search.Coord) : CamData where
  cal := (exRow c).cal
  lut := emptyLUT
  crd := l
  pix := l.map fun _ => ⟨4, 2, 2, 100⟩
  tnr := l.map fun _ => -1
  xy := l.map fun _ => (500, 400)

/-- Where camera `c` of the row sees the particle (1, 2, -5), as target number `n`. -/
noncomputable def seenAt (c : Fin 4) (n : ℕ) : Search.Coord := ⟨n, 50 * (1 - 10 * (c.val : ℝ)) / 105, 100 / 105⟩

/-- A row of cameras has horizontal epipolar lines. -/
theorem row_epi (c1 c2 : Fin 4) (x y : ℝ) :
    epiMM x y (exRow c1).cal (exRow c2).cal emptyLUT exPars.mm exPars.vol =
      some ((x + 500 * ((c1.val : ℝ) - c2.val) / 120, y), (x + 500 * ((c1.val : ℝ) - c2.val) / 80, y)) := by
  have hone : OneIndex exPars.mm := ⟨by norm_num [exPars], ⟨[], rfl⟩, rfl, by simp [exPars], by simp [exPars]⟩
  have hl := exRow_looks c1
  set P : V3 := ⟨10 * (c1.val : ℝ) + x * (105 / 50), y * (105 / 50), -5⟩ with hP
  have hsee : Sees (exRow c1).cal P := ⟨hl.rot, hl.cc.ne', hl.glass, by
    norm_num [hP, exRow, dot, M3.c2, rotationMatrix], by norm_num [hP, exRow, dot]⟩
  obtain ⟨hp, X, hr, hon⟩ := trace_projection hsee hone
  have hlut : (exRow c1).lut = emptyLUT := rfl
  rw [← hlut, exRow_flat c1 _ (by norm_num [hP])] at hp
  rw [← Option.some.inj hp] at hr
  have hx : x = -50 * ((P.x - 10 * (c1.val : ℝ)) / (P.z - 100)) := by rw [hP]; ring
  have hy : y = -50 * (P.y / (P.z - 100)) := by rw [hP]; ring
  simp only at hr
  rw [← hx, ← hy] at hr
  have hne : (P - (exRow c1).cal.pos : V3) ≠ 0 := fun h => by have := congrArg V3.z h; norm_num [hP, exRow] at this
  set v : V3 := P - (exRow c1).cal.pos with hv
  have hN := V3.norm_pos hne
  have hu : v.unit = v.smul (1 / v.norm) := unit_of_ne hne
  have vx : v.x = x * (105 / 50) := by rw [hv, hP]; simp [exRow]
  have vy : v.y = y * (105 / 50) := by rw [hv, hP]; simp [exRow]
  have vz : v.z = -105 := by rw [hv, hP]; norm_num [exRow]
  have hz : v.unit.z ≠ 0 := by
    rw [hu]
    simp only [V3.smul_z]
    rw [vz]
    exact mul_ne_zero (by norm_num) (one_div_ne_zero hN.ne')
  obtain ⟨t0, ht0⟩ := hon
  have za : zMinAt exPars.vol X.x = -20 := by norm_num [zMinAt, exPars]
  have zb : zMaxAt exPars.vol X.x = 20 := by norm_num [zMaxAt, exPars]
  have hM : ∀ z : ℝ, OnLine X v.unit ⟨10 * (c1.val : ℝ) + x * ((100 - z) / 50), y * ((100 - z) / 50), z⟩ := by
    intro z
    refine ⟨t0 - (z + 5) / 105 * v.norm, ?_⟩
    have b1 := congrArg V3.x ht0
    have b2 := congrArg V3.y ht0
    have b3 := congrArg V3.z ht0
    rw [hu] at b1 b2 b3
    simp only [V3.add_x, V3.add_y, V3.add_z, V3.smul_x, V3.smul_y, V3.smul_z, vx, vy, vz] at b1 b2 b3
    rw [hu]
    have hn := hN.ne'
    ext
    · simp only [V3.add_x, V3.smul_x, vx]
      have : X.x = P.x - x * (105 / 50) * (1 / v.norm) * t0 := by linarith
      rw [this, hP]
      field_simp
      ring
    · simp only [V3.add_y, V3.smul_y, vy]
      have : X.y = P.y - y * (105 / 50) * (1 / v.norm) * t0 := by linarith
      rw [this, hP]
      field_simp
      ring
    · simp only [V3.add_z, V3.smul_z, vz]
      have : X.z = P.z - -105 * (1 / v.norm) * t0 := by linarith
      rw [this, hP]
      field_simp
      ring
  have hlut2 : (exRow c2).lut = emptyLUT := rfl
  rw [C29_epi_mm x y (exRow c1).cal (exRow c2).cal emptyLUT exPars.mm exPars.vol X v.unit hr hz]
  refine ⟨_, _, hM (-20), za.symm, hM 20, zb.symm, ?_, ?_⟩
  · rw [← hlut2, exRow_flat c2 _ (by norm_num)]
    simp only [Option.some.injEq, Prod.mk.injEq]
    constructor <;> ring
  · rw [← hlut2, exRow_flat c2 _ (by norm_num)]
    simp only [Option.some.injEq, Prod.mk.injEq]
    constructor <;> ring

/-- The epipolar lines of the row, from its data. -/
theorem row_epi' {c1 c2 : Fin 4} {l1 l2 : List Search.Coord} {i : ℕ} {e : (ℝ × ℝ) × (ℝ × ℝ)}
    (he : Epi exPars (rowWith c1 l1) (rowWith c2 l2) i e) : ∃ q, l1[i]? = some q ∧
      e = ((q.x + 500 * ((c1.val : ℝ) - c2.val) / 120, q.y), (q.x + 500 * ((c1.val : ℝ) - c2.val) / 80, q.y)) := by
  obtain ⟨q, hq, he⟩ := he
  have h2 : epiMM q.x q.y (exRow c1).cal (exRow c2).cal emptyLUT exPars.mm exPars.vol = some e := he
  rw [row_epi] at h2
  exact ⟨q, hq, (Option.some.inj h2).symm⟩

theorem row_epi_all {cams : Fin 4 → List Search.Coord} (c1 c2 : Fin 4) (i : ℕ) (hi : i < (cams c1).length) :
    ∃ e, Epi exPars (rowWith c1 (cams c1)) (rowWith c2 (cams c2)) i e :=
  ⟨_, _, List.getElem?_eq_getElem (l := cams c1) hi, row_epi c1 c2 _ _⟩

/-- Targets of the row that fit have nearly the same y. -/
theorem row_fits {c1 c2 : Fin 4} {l1 l2 : List Search.Coord} {i j : ℕ}
    (h : Fits exPars (rowWith c1 l1) (rowWith c2 l2) i j) : ∃ q q', l1[i]? = some q ∧ l2[j]? = some q' ∧ |q'.y - q.y| < 1 / 10 := by
  obtain ⟨e, q, s, he, hq, -, q', t, hq', -, -, hy, -⟩ := h
  obtain ⟨q1, h1, rfl⟩ := row_epi' he
  have hq2 : l1[i]? = some q := hq
  rw [h1] at hq2
  cases hq2
  refine ⟨q, q', h1, hq', ?_⟩
  simp only [min_self, max_self] at hy
  have heps : exPars.crit.eps0 = 1 / 10 := rfl
  rw [heps] at hy
  rw [abs_lt]
  constructor <;> linarith [hy.1, hy.2]

/-- The particle is seen by the cameras of `S` if its image is among their coordinates. -/
theorem row_seen {cams : Fin 4 → List Search.Coord} {S : Set (Fin 4)} {k n : Fin 4 → ℕ}
    (hk : ∀ c ∈ S, (cams c)[k c]? = some (seenAt c (n c))) (hn : ∀ c ∈ S, n c < (cams c).length)
    (hfew : ∀ c, (cams c).length ≤ 40) :
    SeenBy S exPars (fun c => rowWith c (cams c)) ⟨1, 2, -5⟩
      (fun c => ⟨10 * (c.val : ℝ) + (1 - 10 * (c.val : ℝ)) * (90 / 105), 180 / 105, 10⟩) k (fun _ => ⟨4, 2, 2, 100⟩) where
  looks c _ := exRow_looks c
  facing c1 _ c2 _ h := exRow_seen.facing c1 c2 h
  detected c hc := by
    obtain ⟨q, hq, -, hf, hb⟩ := (exRow_seen.detected c).at_
    have e : q = ⟨0, 50 * (1 - 10 * (c.val : ℝ)) / 105, 100 / 105⟩ := by simpa [exRow, eq_comm] using hq
    refine ⟨seenAt c (n c), hk c hc, ?_, ?_, ?_⟩
    · have : (rowWith c (cams c)).pix[(seenAt c (n c)).pnr]? = (cams c)[n c]?.map fun _ => (⟨4, 2, 2, 100⟩ : Shape) := by
        simp only [rowWith, seenAt, List.getElem?_map]
      rw [this, List.getElem?_eq_getElem (hn c hc)]
      rfl
    · rw [e] at hf
      exact hf
    · rw [e] at hb
      exact hb
  alike c1 _ c2 _ h := exRow_seen.alike c1 c2 h
  slanted c1 _ c2 _ h e he := by
    obtain ⟨q, -, rfl⟩ := row_epi' he
    have h12 : (c1.val : ℝ) < c2.val := by exact_mod_cast h
    simp only
    intro hcon
    linarith
  sparse c1 _ c2 _ h e q s _ _ _ l hl ha := by
    have hs : l ⊆ List.range (cams c2).length := by
      intro j hj
      obtain ⟨u, t, hu, -⟩ := ha j hj
      exact List.mem_range.2 (List.getElem?_eq_some_iff.1 hu).1
    have := (hl.subperm hs).length_le
    rw [List.length_range] at this
    exact this.trans (hfew c2)

/-- The cameras of `S` see the particle as target 1 and each has another target left of it, the other cameras have a target elsewhere. -/
noncomputable def exSome (S : Set (Fin 4)) [DecidablePred (· ∈ S)] (c : Fin 4) : List Search.Coord :=
  if c ∈ S then [⟨0, -49, -40⟩, seenAt c 1] else [⟨0, -49, 30⟩]

/-- The cameras of `S` see the particle as their only target, the other cameras have a target elsewhere. -/
noncomputable def exOnly (S : Set (Fin 4)) [DecidablePred (· ∈ S)] (c : Fin 4) : List Search.Coord :=
  if c ∈ S then [seenAt c 0] else [⟨0, -49, 30⟩]

theorem exSome_fine (S : Set (Fin 4)) [DecidablePred (· ∈ S)] (c : Fin 4) : DataFine (rowWith c (exSome S c)) := by
  have hc : (c.val : ℝ) ≤ 3 := by exact_mod_cast Nat.le_of_lt_succ c.isLt
  by_cases h : c ∈ S
  · have e : exSome S c = [⟨0, -49, -40⟩, seenAt c 1] := if_pos h
    rw [e]
    constructor <;> simp [rowWith, seenAt]
    linarith
  · have e : exSome S c = [⟨0, -49, 30⟩] := if_neg h
    rw [e]
    constructor <;> simp [rowWith]

theorem exOnly_fine (S : Set (Fin 4)) [DecidablePred (· ∈ S)] (c : Fin 4) : DataFine (rowWith c (exOnly S c)) := by
  by_cases h : c ∈ S
  · have e : exOnly S c = [seenAt c 0] := if_pos h
    rw [e]
    constructor <;> simp [rowWith, seenAt]
  · have e : exOnly S c = [⟨0, -49, 30⟩] := if_neg h
    rw [e]
    constructor <;> simp [rowWith]

theorem exSome_y (S : Set (Fin 4)) [DecidablePred (· ∈ S)] {c : Fin 4} {j : ℕ} {q : Search.Coord} (h : (exSome S c)[j]? = some q)
    (hy : |q.y - 100 / 105| < 1 / 10) : c ∈ S ∧ j = 1 := by
  rw [abs_lt] at hy
  by_cases hc : c ∈ S
  · refine ⟨hc, ?_⟩
    have e : exSome S c = [⟨0, -49, -40⟩, seenAt c 1] := if_pos hc
    rw [e] at h
    match j with
    | 0 =>
      cases h
      norm_num at hy
    | 1 => rfl
    | j + 2 => simp at h
  · exfalso
    have e : exSome S c = [⟨0, -49, 30⟩] := if_neg hc
    rw [e] at h
    match j with
    | 0 =>
      cases h
      norm_num at hy
    | j + 1 => simp at h

theorem exOnly_y (S : Set (Fin 4)) [DecidablePred (· ∈ S)] {c : Fin 4} {j : ℕ} {q : Search.Coord} (h : (exOnly S c)[j]? = some q)
    (hy : |q.y - 100 / 105| < 1 / 10) : c ∈ S ∧ j = 0 := by
  rw [abs_lt] at hy
  by_cases hc : c ∈ S
  · refine ⟨hc, ?_⟩
    have e : exOnly S c = [seenAt c 0] := if_pos hc
    rw [e] at h
    match j with
    | 0 => rfl
    | j + 1 => simp at h
  · exfalso
    have e : exOnly S c = [⟨0, -49, 30⟩] := if_neg hc
    rw [e] at h
    match j with
    | 0 =>
      cases h
      norm_num at hy
    | j + 1 => simp at h

theorem exSome_fit (S : Set (Fin 4)) [DecidablePred (· ∈ S)] : FitOnly S exPars (fun c => rowWith c (exSome S c)) fun _ => 1 := by
  intro c hc d m
  have hq : (exSome S c)[1]? = some (seenAt c 1) := by
    have e : exSome S c = [⟨0, -49, -40⟩, seenAt c 1] := if_pos hc
    rw [e]
    rfl
  constructor
  · intro _ hf
    obtain ⟨q, q', h1, h2, hy⟩ := row_fits hf
    rw [hq] at h1
    cases h1
    exact exSome_y S h2 hy
  · intro _ hf
    obtain ⟨q, q', h1, h2, hy⟩ := row_fits hf
    rw [hq] at h2
    cases h2
    rw [abs_sub_comm] at hy
    exact exSome_y S h1 hy

theorem exOnly_fit (S : Set (Fin 4)) [DecidablePred (· ∈ S)] : FitOnly S exPars (fun c => rowWith c (exOnly S c)) fun _ => 0 := by
  intro c hc d m
  have hq : (exOnly S c)[0]? = some (seenAt c 0) := by
    have e : exOnly S c = [seenAt c 0] := if_pos hc
    rw [e]
    rfl
  constructor
  · intro _ hf
    obtain ⟨q, q', h1, h2, hy⟩ := row_fits hf
    rw [hq] at h1
    cases h1
    exact exOnly_y S h2 hy
  · intro _ hf
    obtain ⟨q, q', h1, h2, hy⟩ := row_fits hf
    rw [hq] at h2
    cases h2
    rw [abs_sub_comm] at hy
    exact exOnly_y S h1 hy

theorem exSome_seen (S : Set (Fin 4)) [DecidablePred (· ∈ S)] : SeenBy S exPars (fun c => rowWith c (exSome S c)) ⟨1, 2, -5⟩
    (fun c => ⟨10 * (c.val : ℝ) + (1 - 10 * (c.val : ℝ)) * (90 / 105), 180 / 105, 10⟩) (fun _ => 1) (fun _ => ⟨4, 2, 2, 100⟩) :=
  row_seen (n := fun _ => 1) (fun c hc => by simp [exSome, hc]) (fun c hc => by simp [exSome, hc])
    (fun c => by by_cases h : c ∈ S <;> simp [exSome, h])

theorem exOnly_seen (S : Set (Fin 4)) [DecidablePred (· ∈ S)] : SeenBy S exPars (fun c => rowWith c (exOnly S c)) ⟨1, 2, -5⟩
    (fun c => ⟨10 * (c.val : ℝ) + (1 - 10 * (c.val : ℝ)) * (90 / 105), 180 / 105, 10⟩) (fun _ => 0) (fun _ => ⟨4, 2, 2, 100⟩) :=
  row_seen (n := fun _ => 0) (fun c hc => by simp [exOnly, hc]) (fun c hc => by simp [exOnly, hc])
    (fun c => by by_cases h : c ∈ S <;> simp [exOnly, h])

theorem exSome_len (S : Set (Fin 4)) [DecidablePred (· ∈ S)] (c : Fin 4) : (exSome S c).length ≤ 2 := by
  by_cases h : c ∈ S <;> simp [exSome, h]

theorem exOnly_len (S : Set (Fin 4)) [DecidablePred (· ∈ S)] (c : Fin 4) : (exOnly S c).length = 1 := by
  by_cases h : c ∈ S <;> simp [exOnly, h]

/-- A triplet of cameras 0, 1 and 2 is reported. -/
example (srt : NpSort ℝ) [DecidablePred (· ∈ ({0, 1, 2} : Set (Fin 4)))] :
    ∃ r, run srt exPars (fun c => rowWith c (exSome {0, 1, 2} c)) = .ok r ∧
    ∃ t ∈ r.triplets, t.p 0 = 1 ∧ t.p 1 = 1 ∧ t.p 2 = 1 ∧ t.p 3 = -2 := by
  have heps : 0 < exPars.crit.eps0 := by norm_num [exPars]
  have hcs : 0 ≤ exPars.crit.csumg := by norm_num [exPars]
  obtain ⟨r, hr⟩ := C109_returns srt exPars _ (exSome_fine {0, 1, 2}) heps hcs fun c1 c2 _ i hi => row_epi_all c1 c2 i hi
  refine ⟨r, hr, ?_⟩
  have hroom := C115_room exPars (fun c => rowWith c (exSome {0, 1, 2} c)) (exSome_fine {0, 1, 2}) heps hcs _ (fun _ => rfl) (by
    simp only [rowWith]
    have l0 : (exSome {0, 1, 2} 0).length = 2 := by simp [exSome]
    have l1 : (exSome {0, 1, 2} 1).length = 2 := by simp [exSome]
    have l2 : (exSome {0, 1, 2} 2).length = 2 := by simp [exSome]
    have l3 : (exSome {0, 1, 2} 3).length = 1 := by simp [exSome]
    rw [l0, l1, l2, l3]
    norm_num)
  obtain ⟨t, ht, h1, h2, h3, h4⟩ := C115_reported_partial srt exPars _ (exSome_fine {0, 1, 2}) heps hcs 33 rfl exAir rfl hroom 0 1 2
    (by decide) (by decide) _ _ _ _ (exSome_seen {0, 1, 2}) (exSome_fit {0, 1, 2}) (fun _ _ => one_ne_zero) r hr
  exact ⟨t, ht, h1, h2, h3, h4 3 (by decide) (by decide) (by decide)⟩

/-- A pair of cameras 0 and 1 is reported. -/
example (srt : NpSort ℝ) [DecidablePred (· ∈ ({0, 1} : Set (Fin 4)))] :
    ∃ r, run srt exPars (fun c => rowWith c (exSome {0, 1} c)) = .ok r ∧
    ∃ t ∈ r.pairs, t.p 0 = 1 ∧ t.p 1 = 1 ∧ t.p 2 = -2 ∧ t.p 3 = -2 := by
  have heps : 0 < exPars.crit.eps0 := by norm_num [exPars]
  have hcs : 0 ≤ exPars.crit.csumg := by norm_num [exPars]
  obtain ⟨r, hr⟩ := C109_returns srt exPars _ (exSome_fine {0, 1}) heps hcs fun c1 c2 _ i hi => row_epi_all c1 c2 i hi
  refine ⟨r, hr, ?_⟩
  obtain ⟨t, ht, h1, h2, h4⟩ := C116_reported_partial srt exPars _ (exSome_fine {0, 1}) heps hcs 33 rfl exAir rfl (by
    simp only [rowWith]
    have l0 := exSome_len {0, 1} 0
    have l1 := exSome_len {0, 1} 1
    have l2 := exSome_len {0, 1} 2
    omega) 0 1 (by decide) _ _ _ _ (exSome_seen {0, 1}) (exSome_fit {0, 1}) ⟨one_ne_zero, one_ne_zero⟩ r hr
  exact ⟨t, ht, h1, h2, h4 2 (by decide) (by decide), h4 3 (by decide) (by decide)⟩

/-- If some cameras but not all see a particle, each as its only target, the tuple (0,0,0,0) takes its targets. -/
theorem only_lost (srt : NpSort ℝ) (S : Set (Fin 4)) [DecidablePred (· ∈ S)] {d s : Fin 4} (hdS : d ∉ S) (hsS : s ∈ S) :
    ∃ r, run srt exPars (fun c => rowWith c (exOnly S c)) = .ok r ∧ NTuple.zero ∈ r.quads ∧ r.triplets = [] ∧ r.pairs = [] := by
  have heps : 0 < exPars.crit.eps0 := by norm_num [exPars]
  have hcs : 0 ≤ exPars.crit.csumg := by norm_num [exPars]
  have hd := exOnly_fine S
  obtain ⟨r, hr⟩ := C109_returns srt exPars (fun c => rowWith c (exOnly S c)) hd heps hcs fun c1 c2 _ i hi => row_epi_all c1 c2 i hi
  have hA := adjacency_wf hd heps hcs
  obtain ⟨hlt, -, h3, h2, hpw, -⟩ := run_full srt hd heps hcs hr
  have hone : ∀ t ∈ r.con, ∀ c, 0 ≤ t.p c → t.p c = 0 := by
    intro t ht c h0
    have := hlt t ht c h0
    have e : ((fun c => rowWith c (exOnly S c)) c).crd.length = 1 := exOnly_len S c
    rw [e] at this
    omega
  have hcoord : ∀ (c : Fin 4) (j : ℕ) (q : Search.Coord), (exOnly S c)[j]? = some q → q.y = if c ∈ S then 100 / 105 else 30 := by
    intro c j q h
    have hj : j < 1 := by
      have := (List.getElem?_eq_some_iff.1 h).1
      rwa [exOnly_len] at this
    have hj : j = 0 := by omega
    subst hj
    by_cases hc : c ∈ S
    · simp [exOnly, hc, seenAt] at h
      simp [hc, ← h]
    · simp [exOnly, hc] at h
      simp [hc, ← h]
  have hnoquad : ∀ t, ¬ IsQuad (adjacency exPars fun c => rowWith c (exOnly S c))
      (numTargets (fun c => rowWith c (exOnly S c)) 0) exPars.corrmin t := by
    intro t ht
    obtain ⟨p1, p2, p3, p4, s12, s13, s14, s23, s24, s34, hlt, hp, ⟨l12, rfl⟩, ⟨l13, rfl⟩, ⟨l14, rfl⟩, -⟩ := ht
    have key : ∀ c : Fin 4, |(if c ∈ S then (100 / 105 : ℝ) else 30) - (if (0 : Fin 4) ∈ S then 100 / 105 else 30)| < 1 / 10 := by
      have step : ∀ (c : Fin 4) (m : ℕ), Fits exPars (rowWith 0 (exOnly S 0)) (rowWith c (exOnly S c)) p1 m →
          |(if c ∈ S then (100 / 105 : ℝ) else 30) - (if (0 : Fin 4) ∈ S then 100 / 105 else 30)| < 1 / 10 := by
        intro c m hf
        obtain ⟨q, q', e1, e2, hy⟩ := row_fits hf
        rw [hcoord _ _ _ e1, hcoord _ _ _ e2] at hy
        exact hy
      intro c
      fin_cases c
      · show |(if (0 : Fin 4) ∈ S then (100 / 105 : ℝ) else 30) - (if (0 : Fin 4) ∈ S then 100 / 105 else 30)| < 1 / 10
        rw [sub_self]
        norm_num
      · exact step 1 _ (link_fits hd heps hcs (by decide) hlt l12)
      · exact step 2 _ (link_fits hd heps hcs (by decide) hlt l13)
      · exact step 3 _ (link_fits hd heps hcs (by decide) hlt l14)
    have k1 := key d
    have k2 := key s
    rw [if_neg hdS, abs_lt] at k1
    rw [if_pos hsS, abs_lt] at k2
    linarith [k1.1, k1.2, k2.1, k2.2]
  have hfour : (fourCameraMatching (adjacency exPars fun c => rowWith c (exOnly S c))
      (numTargets (fun c => rowWith c (exOnly S c)) 0) exPars.corrmin (4 * NMAX)).length < NMAX * 4 := by
    have : fourCameraMatching (adjacency exPars fun c => rowWith c (exOnly S c))
      (numTargets (fun c => rowWith c (exOnly S c)) 0) exPars.corrmin (4 * NMAX) = [] := by
      rw [List.eq_nil_iff_forall_not_mem]
      exact fun t ht => hnoquad t ((C04_quadruplets_exact _ (numTargets fun c => rowWith c (exOnly S c)) exPars.corrmin (4 * NMAX) hA).1 t ht)
    rw [this]
    decide
  obtain ⟨q, tt, pp, hst, hz⟩ := C07_spurious_zero_tuple srt _ (numTargets fun c => rowWith c (exOnly S c)) exPars.corrmin exPars.allCam
    hA (numTargets_le hd) (fun t ht => absurd ht (hnoquad t)) hfour
  rw [run_stages hr] at hst
  obtain ⟨rfl, rfl, rfl⟩ : r.quads = q ∧ r.triplets = tt ∧ r.pairs = pp := by
    have := Except.ok.inj hst
    simpa using this
  have hnone : ∀ t ∈ r.triplets ++ r.pairs, (∃ c, 0 ≤ t.p c) → False := by
    rintro t ht ⟨c, h0⟩
    have htc : t ∈ r.con := by
      simp only [Result.con, List.mem_append] at ht ⊢
      tauto
    have e0 := hone t htc c h0
    have hcon : r.con = r.quads ++ (r.triplets ++ r.pairs) := by simp [Result.con]
    rw [hcon, List.pairwise_append] at hpw
    exact hpw.2.2 _ hz t ht ⟨c, 0, ⟨c.isLt, rfl⟩, ⟨c.isLt, e0⟩⟩
  have hsome : ∀ (t : NTuple ℝ) (m : ℕ), m < 4 → {c | t.p c < 0}.ncard = m → ∃ c, 0 ≤ t.p c := by
    intro t m hm h
    by_contra hcon
    push Not at hcon
    have : {c | t.p c < 0} = Set.univ := by
      ext c
      simp [hcon c]
    rw [this, Set.ncard_univ, Nat.card_eq_fintype_card, Fintype.card_fin] at h
    omega
  refine ⟨r, hr, hz, ?_, ?_⟩
  · rw [List.eq_nil_iff_forall_not_mem]
    exact fun t ht => hnone t (by simp [ht]) (hsome t 1 (by norm_num) (h3 t ht))
  · rw [List.eq_nil_iff_forall_not_mem]
    exact fun t ht => hnone t (by simp [ht]) (hsome t 2 (by norm_num) (h2 t ht))

open Classical in
/-- C115 refuted: cameras 0, 1 and 2 see one particle exactly, the targets fit one another only, but they have number 0; then no triplet is
reported, but a quadruplet that nobody found. -/
theorem C115_refuted (srt : NpSort ℝ) : ∃ (p : Pars) (cams : Fin 4 → CamData) (P : V3) (X : Fin 4 → V3) (s : Fin 4 → Shape) (r : Result ℝ),
    (∀ c, DataFine (cams c)) ∧ 0 < p.crit.eps0 ∧ 0 ≤ p.crit.csumg ∧ p.corrmin = .fin 33 ∧ Air p.mm ∧ p.allCam = false ∧
    ¬ ManyTriplets p cams ∧ SeenBy {0, 1, 2} p cams P X (fun _ => 0) s ∧ FitOnly {0, 1, 2} p cams (fun _ => 0) ∧
    run srt p cams = .ok r ∧ r.triplets = [] ∧ (∃ t ∈ r.quads, ∀ c, t.p c = 0) := by
  have heps : 0 < exPars.crit.eps0 := by norm_num [exPars]
  have hcs : 0 ≤ exPars.crit.csumg := by norm_num [exPars]
  obtain ⟨r, hr, hz, ht, -⟩ := only_lost srt ({0, 1, 2} : Set (Fin 4)) (d := 3) (s := 0) (by simp) (by simp)
  refine ⟨exPars, _, _, _, _, r, exOnly_fine _, heps, hcs, rfl, exAir, rfl, ?_, exOnly_seen _, exOnly_fit _, hr, ht, _, hz, fun _ => rfl⟩
  refine C115_room _ _ (exOnly_fine _) heps hcs (fun _ => 1) (fun c => (exOnly_len {0, 1, 2} c).symm) (by norm_num)

open Classical in
/-- C116 refuted: the same with cameras 0 and 1 only, and pairs. -/
theorem C116_refuted (srt : NpSort ℝ) : ∃ (p : Pars) (cams : Fin 4 → CamData) (P : V3) (X : Fin 4 → V3) (s : Fin 4 → Shape) (r : Result ℝ),
    (∀ c, DataFine (cams c)) ∧ 0 < p.crit.eps0 ∧ 0 ≤ p.crit.csumg ∧ p.corrmin = .fin 33 ∧ Air p.mm ∧ p.allCam = false ∧
    3 * (cams 0).crd.length + 2 * (cams 1).crd.length + (cams 2).crd.length ≤ 40000 ∧
    SeenBy {0, 1} p cams P X (fun _ => 0) s ∧ FitOnly {0, 1} p cams (fun _ => 0) ∧
    run srt p cams = .ok r ∧ r.pairs = [] ∧ (∃ t ∈ r.quads, ∀ c, t.p c = 0) := by
  have heps : 0 < exPars.crit.eps0 := by norm_num [exPars]
  have hcs : 0 ≤ exPars.crit.csumg := by norm_num [exPars]
  obtain ⟨r, hr, hz, -, hp⟩ := only_lost srt ({0, 1} : Set (Fin 4)) (d := 3) (s := 0) (by simp) (by simp)
  refine ⟨exPars, _, _, _, _, r, exOnly_fine _, heps, hcs, rfl, exAir, rfl, ?_, exOnly_seen _, exOnly_fit _, hr, hp, _, hz, fun _ => rfl⟩
  simp only [rowWith, exOnly_len]
  norm_num

end Verif.FullCorr
