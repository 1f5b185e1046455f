/-
C145: a cloud of particles that all four cameras see, with measuring errors.
-/
import Verif.Props.NoisyCorr
import Verif.Props.Precision

namespace Verif.FullCorr

open Verif.Geo Verif.Geo.V3 Verif.Geo.Spec Verif.Search Verif.Search.Spec Verif.Corr Verif.Corr.Spec

/-- A cloud of `N` particles: `k n c` is the coordinate of particle `n` in camera `c`. The four coordinates of a particle fit one
another (with the distances `d n` and correlations `w n`), coordinates of different particles do not fit, every coordinate belongs to a particle, and
no two particles have a coordinate in common. -/
structure Cloud (p : Pars) (cams : Fin 4 → CamData) (N : ℕ) (k : Fin N → Fin 4 → ℕ) (d w : Fin N → Fin 4 → Fin 4 → ℝ) : Prop where
  fit : ∀ n c1 c2, c1 < c2 → FitsWith p (cams c1) (cams c2) (k n c1) (k n c2) (d n c1 c2) (w n c1 c2)
  meets : ∀ n c1 c2, c1 < c2 → MeetsSensor p (cams c1) (cams c2) (k n c1)
  only : ∀ n m c1 c2, c1 < c2 → Fits p (cams c1) (cams c2) (k n c1) (k m c2) → n = m
  all : ∀ c i, i < (cams c).crd.length → ∃ n, k n c = i
  once : ∀ n m c, k n c = k m c → n = m

variable {p : Pars} {cams : Fin 4 → CamData} {N : ℕ} {k : Fin N → Fin 4 → ℕ} {d w : Fin N → Fin 4 → Fin 4 → ℝ}

theorem fits_lt {a b : CamData} {i j : ℕ} (h : Fits p a b i j) : i < a.crd.length ∧ j < b.crd.length := by
  obtain ⟨e, q, s, -, hq, -, u, t, hu, -⟩ := h
  exact ⟨(List.getElem?_eq_some_iff.1 hq).1, (List.getElem?_eq_some_iff.1 hu).1⟩

theorem Cloud.fitOnly (h : Cloud p cams N k d w) (n : Fin N) : FitOnly Set.univ p cams (k n) := by
  intro c _ e m
  constructor
  · intro hc hf
    obtain ⟨n', rfl⟩ := h.all e m (fits_lt hf).2
    rw [h.only n n' c e hc hf]
    exact ⟨Set.mem_univ _, rfl⟩
  · intro hc hf
    obtain ⟨n', rfl⟩ := h.all e m (fits_lt hf).1
    rw [h.only n' n e c hc hf]
    exact ⟨Set.mem_univ _, rfl⟩

/-- In a cloud every target has at most one candidate per camera. -/
theorem Cloud.row (h : Cloud p cams N k d w) (hd : ∀ c, DataFine (cams c)) (heps : 0 < p.crit.eps0) (hcs : 0 ≤ p.crit.csumg)
    {c1 c2 : Fin 4} (hc : c1 < c2) {i : ℕ} (hi : i < numTargets cams c1) : (adjacency p cams c1 c2 i).valid.length ≤ 1 := by
  obtain ⟨n, rfl⟩ := h.all c1 i hi
  have hnd := (row_length hd heps hcs hc hi).2
  have hall : ∀ x ∈ (adjacency p cams c1 c2 (k n c1)).valid.map Slot.p2, x = k n c2 := by
    intro x hx
    obtain ⟨sl, hsl, rfl⟩ := List.mem_map.1 hx
    exact ((h.fitOnly n c1 (Set.mem_univ _) c2 _).1 hc (link_fits hd heps hcs hc hi hsl)).2
  generalize (adjacency p cams c1 c2 (k n c1)).valid = L at hnd hall
  match L with
  | [] => simp
  | [a] => simp
  | a :: b :: L =>
    have ha := hall a.p2 (by simp)
    have hb := hall b.p2 (by simp)
    simp [ha, hb] at hnd

/-- C145: the scratch array has room for a cloud. -/
theorem C145_no_overflow (hd : ∀ c, DataFine (cams c)) (heps : 0 < p.crit.eps0) (hcs : 0 ≤ p.crit.csumg)
    (h : Cloud p cams N k d w) : ¬ Overflow p cams := by
  have hA := adjacency_wf hd heps hcs
  have e : 4 * NMAX = 40000 := rfl
  unfold Overflow fourCameraMatching
  rw [e, not_le, List.length_take]
  have h1 : ((List.range (numTargets cams 0)).flatMap (fourOf (adjacency p cams) p.corrmin)).length ≤
      (List.range (numTargets cams 0)).length * 1 := by
    refine length_flatMap_le fun i hi => ?_
    have hi := List.mem_range.1 hi
    unfold fourOf
    refine (length_flatMap_le (m := 1) fun s12 h12 => ?_).trans (by have := h.row hd heps hcs (c1 := 0) (c2 := 1) (by decide) hi; omega)
    have b12 := (hA 0 1 (by decide) i hi).2.2.2.1 _ h12
    refine (length_flatMap_le (m := 1) fun s13 h13 => ?_).trans (by have := h.row hd heps hcs (c1 := 0) (c2 := 2) (by decide) hi; omega)
    have b13 := (hA 0 2 (by decide) i hi).2.2.2.1 _ h13
    refine (length_flatMap_le (m := 1) fun s14 h14 => ?_).trans (by have := h.row hd heps hcs (c1 := 0) (c2 := 3) (by decide) hi; omega)
    refine (length_flatMap_le (m := 1) fun s23 h23 => ?_).trans (by have := h.row hd heps hcs (c1 := 1) (c2 := 2) (by decide) b12; omega)
    split_ifs
    · simp
    refine (length_flatMap_le (m := 1) fun s24 h24 => ?_).trans (by have := h.row hd heps hcs (c1 := 1) (c2 := 3) (by decide) b12; omega)
    split_ifs
    · simp
    refine (length_flatMap_le (m := 1) fun s34 h34 => ?_).trans (by have := h.row hd heps hcs (c1 := 2) (c2 := 3) (by decide) b13; omega)
    split_ifs
    · simp
    dsimp only
    split_ifs <;> simp
  rw [List.length_range, mul_one] at h1
  have := (hd 0).few
  have e0 : numTargets cams 0 = (cams 0).crd.length := rfl
  exact lt_of_le_of_lt (min_le_right _ _) (by omega)

/-- C145: the call returns the particles of the cloud, each once as a quadruplet, and nothing else; and the targets of a particle get the
number of its quadruplet. -/
theorem C145_cloud (srt : NpSort ℝ) (hd : ∀ c, DataFine (cams c)) (heps : 0 < p.crit.eps0)
    (hcs : 0 ≤ p.crit.csumg) (cm : ℝ) (hcm : p.corrmin = .fin cm) (h : Cloud p cams N k d w)
    (hsc : ∀ n, cm * six (d n) < six (w n)) (r : Result ℝ) (hr : run srt p cams = .ok r) :
    r.triplets = [] ∧ r.pairs = [] ∧ r.quads.length = N ∧
    ∃ pos : Fin N → ℕ, Function.Injective pos ∧ ∀ n, ∃ t, r.quads[pos n]? = some t ∧ (∀ c, t.p c = k n c) ∧
      ∀ c q, (cams c).crd[k n c]? = some q → (r.tnr c)[q.pnr]? = some (pos n : Int) := by
  classical
  obtain ⟨hbd, h4, h3, h2, hpw, htn, -⟩ := run_full srt hd heps hcs hr
  have hrep : ∀ n, ∃ t ∈ r.quads, ∀ c, t.p c = k n c := fun n =>
    C143_reported srt p cams hd heps hcs cm hcm (C145_no_overflow hd heps hcs h) (k n) (d n) (w n) (h.fit n) (h.meets n) (h.fitOnly n)
      (hsc n) r hr
  have hidx : ∀ n, ∃ (i : ℕ) (t : NTuple ℝ), r.quads[i]? = some t ∧ ∀ c, t.p c = k n c := by
    intro n
    obtain ⟨t, ht, hk⟩ := hrep n
    obtain ⟨i, hi⟩ := List.mem_iff_getElem?.1 ht
    exact ⟨i, t, hi, hk⟩
  choose pos T hT hTk using hidx
  have hlift : ∀ {i : ℕ} {t : NTuple ℝ}, r.quads[i]? = some t → r.con[i]? = some t := by
    intro i t ht
    unfold Result.con
    rw [List.append_assoc, List.getElem?_append_left (List.getElem?_eq_some_iff.1 ht).1]
    exact ht
  -- two entries that share a target are the same entry
  have hsame : ∀ {i j : ℕ} {s t : NTuple ℝ}, r.con[i]? = some s → r.con[j]? = some t → ∀ (c : Fin 4) (m : ℕ), s.p c = m → t.p c = m → i = j := by
    intro i j s t hs ht c m e1 e2
    obtain ⟨hi, rfl⟩ := List.getElem?_eq_some_iff.1 hs
    obtain ⟨hj, rfl⟩ := List.getElem?_eq_some_iff.1 ht
    rw [List.pairwise_iff_getElem] at hpw
    rcases lt_trichotomy i j with hl | hl | hl
    · exact absurd ⟨c, m, ⟨c.isLt, e1⟩, ⟨c.isLt, e2⟩⟩ (hpw i j hi hj hl)
    · exact hl
    · exact absurd ⟨c, m, ⟨c.isLt, e2⟩, ⟨c.isLt, e1⟩⟩ (hpw j i hj hi hl)
  -- every entry is one of the particles
  have hown : ∀ {i : ℕ} {t : NTuple ℝ}, r.con[i]? = some t → ∀ c, 0 ≤ t.p c → ∃ n, i = pos n := by
    intro i t ht c h0
    obtain ⟨n, hn⟩ := h.all c _ (hbd t (List.mem_of_getElem? ht) c h0)
    exact ⟨n, hsame ht (hlift (hT n)) c (k n c) (by omega) (hTk n c)⟩
  have hposlt : ∀ n, pos n < r.quads.length := fun n => (List.getElem?_eq_some_iff.1 (hT n)).1
  have hinj : Function.Injective pos := by
    intro n m e
    have h1 := hT n
    rw [e, hT m] at h1
    have := hTk n 0
    rw [← Option.some.inj h1, hTk m 0] at this
    exact h.once n m 0 (by omega)
  have hlater : ∀ t ∈ r.triplets ++ r.pairs, ∀ c, ¬ 0 ≤ t.p c := by
    intro t ht c h0
    obtain ⟨i, hi⟩ := List.mem_iff_getElem?.1 ht
    have hc : r.con[r.quads.length + i]? = some t := by
      unfold Result.con
      rw [List.append_assoc, List.getElem?_append_right (by omega)]
      simpa using hi
    obtain ⟨n, hn⟩ := hown hc c h0
    have := hposlt n
    omega
  have hfew : ∀ t : NTuple ℝ, (∀ c, ¬ 0 ≤ t.p c) → {c | t.p c < 0}.ncard = 4 := by
    intro t ht
    have : {c | t.p c < 0} = (Set.univ : Set (Fin 4)) := by
      ext c
      simpa using ht c
    rw [this, Set.ncard_univ]
    simp
  refine ⟨?_, ?_, ?_, pos, hinj, fun n => ⟨T n, hT n, hTk n, fun c q hq => ?_⟩⟩
  · rw [List.eq_nil_iff_forall_not_mem]
    intro t ht
    have e1 := h3 t ht
    rw [hfew t (hlater t (by simp [ht]))] at e1
    omega
  · rw [List.eq_nil_iff_forall_not_mem]
    intro t ht
    have e1 := h2 t ht
    rw [hfew t (hlater t (by simp [ht]))] at e1
    omega
  · have hsurj : ∀ i, i < r.quads.length → ∃ n, pos n = i := by
      intro i hi
      have hget := List.getElem?_eq_getElem hi
      have e4 := h4 _ (List.mem_of_getElem? hget)
      have : ∃ c, 0 ≤ (r.quads[i]).p c := by
        by_contra hcon
        push Not at hcon
        rw [hfew _ (fun c => not_le.2 (hcon c))] at e4
        omega
      obtain ⟨c, hc⟩ := this
      obtain ⟨n, hn⟩ := hown (hlift hget) c hc
      exact ⟨n, hn.symm⟩
    have hbij : Function.Bijective (fun n : Fin N => (⟨pos n, hposlt n⟩ : Fin r.quads.length)) := by
      constructor
      · intro n m e
        exact hinj (by simpa using e)
      · intro i
        obtain ⟨n, hn⟩ := hsurj i i.isLt
        exact ⟨n, Fin.ext hn⟩
    have := Fintype.card_of_bijective hbij
    simpa using this.symm
  · obtain ⟨q', hq', ht'⟩ := htn (pos n) (T n) (hlift (hT n)) c (k n c) (hTk n c)
    rw [hq] at hq'
    cases hq'
    exact ht'

/-- The position of a particle of the cloud, from its coordinates. -/
theorem Cloud.position (h : Cloud p cams N k d w) (P : Fin N → V3) (δ σ : ℝ) (hσ : 0 < σ) (ray : Fin N → Fin 4 → Ray)
    (hray : ∀ n c q, (cams c).crd[k n c]? = some q → rayTracing q.x q.y (cams c).cal p.mm = some (ray n c))
    (hnear : ∀ n c, NearLine (ray n c).1 (ray n c).2 (P n) δ)
    (hcross : ∀ n c1 c2, c1 < c2 → Crossing (ray n c1).2 (ray n c2).2 σ)
    (hmark : ∀ c, ∀ q ∈ (cams c).crd, q.x ≠ -1e10) (n : Fin N) :
    ∃ (q : Fin 4 → Search.Coord) (e : ℝ) (M : V3), (∀ c, (cams c).crd[k n c]? = some (q c)) ∧
        pointPosition ((List.finRange 4).map fun c => ((q c).x, (q c).y)) 4 p.mm ((List.finRange 4).map fun c => (cams c).cal)
          = .ok (some (e, M)) ∧ 0 ≤ e ∧ e ≤ 2 * δ ∧ (M - P n).norm ≤ δ * (1 + 2 / σ) := by
  have hlt : ∀ c, k n c < (cams c).crd.length := by
    intro c
    by_cases hc : c = 0
    · subst hc
      exact (h.fit n 0 1 (by decide)).lt.1
    · exact (h.fit n 0 c (Fin.pos_iff_ne_zero.2 hc)).lt.2
  set q : Fin 4 → Search.Coord := fun c => (cams c).crd[k n c]'(hlt c) with hqdef
  have hq : ∀ c, (cams c).crd[k n c]? = some (q c) := fun c => List.getElem?_eq_getElem (hlt c)
  have hget : ∀ {α : Type} (f : Fin 4 → α) (i : ℕ) (a : α), ((List.finRange 4).map f)[i]? = some a →
      ∃ c : Fin 4, c.val = i ∧ f c = a := by
    intro α f i a h
    rw [List.getElem?_map, Option.map_eq_some_iff] at h
    obtain ⟨c, hc, rfl⟩ := h
    obtain ⟨hl, rfl⟩ := List.getElem?_eq_some_iff.1 hc
    exact ⟨_, by simp, rfl⟩
  have hput : ∀ {α : Type} (f : Fin 4 → α) (c : Fin 4), ((List.finRange 4).map f)[c.val]? = some (f c) := by
    intro α f c
    fin_cases c <;> rfl
  set R : ℕ → Ray := fun i => if hi : i < 4 then ray n ⟨i, hi⟩ else ray n 0 with hR
  have hRc : ∀ c : Fin 4, R c.val = ray n c := fun c => by rw [hR]; simp
  have hused : ∀ i ∈ usedCams ((List.finRange 4).map fun c => ((q c).x, (q c).y)) 4, i < 4 := by
    intro i hi
    simp only [usedCams, Finset.mem_filter, Finset.mem_range] at hi
    exact hi.1
  obtain ⟨e, M, h1, h2, h3, h4⟩ := C128_position_error ((List.finRange 4).map fun c => ((q c).x, (q c).y)) 4 p.mm
    ((List.finRange 4).map fun c => (cams c).cal) R (by simp) (by
      intro cam hc x hx hne
      obtain ⟨c, rfl, rfl⟩ := hget _ _ _ hx
      exact ⟨_, hput _ c, by rw [hRc]; exact hray n c _ (hq c)⟩) (P n) δ σ hσ
    (by
      intro i hi
      have := hRc ⟨i, hused i hi⟩
      simp only at this
      rw [this]
      exact hnear n _)
    (by
      intro ij hij
      simp only [pairsOf, Finset.mem_filter, Finset.mem_product] at hij
      obtain ⟨⟨a, b⟩, hab⟩ := hij
      have e1 := hRc ⟨ij.1, hused _ a⟩
      have e2 := hRc ⟨ij.2, hused _ b⟩
      simp only at e1 e2
      rw [e1, e2]
      exact hcross n _ _ (Fin.lt_def.2 hab))
    (by
      have hall : ∀ c : Fin 4, c.val ∈ usedCams ((List.finRange 4).map fun c => ((q c).x, (q c).y)) 4 := by
        intro c
        simp only [usedCams, Finset.mem_filter, Finset.mem_range]
        exact ⟨c.isLt, _, hput _ c, hmark c _ (List.mem_of_getElem? (hq c))⟩
      have : ({0, 1} : Finset ℕ) ⊆ usedCams ((List.finRange 4).map fun c => ((q c).x, (q c).y)) 4 := by
        intro x hx
        simp only [Finset.mem_insert, Finset.mem_singleton] at hx
        rcases hx with rfl | rfl
        · exact hall 0
        · exact hall 1
      exact (Finset.card_le_card this).trans' (by decide))
  exact ⟨q, e, M, hq, h1, h2, h3, h4⟩

/-- C145: let the line of sight of every coordinate pass its particle `P n` at a distance of at most `δ`, and let the four lines of
sight of a particle cross with angles of sine at least `σ`. Then the positions that `point_position` computes from the coordinates of the
reported quadruplets are the particles, each once, with errors of at most `δ (1 + 2/σ)`. In any media. -/
theorem C145_positions (srt : NpSort ℝ) (hd : ∀ c, DataFine (cams c)) (heps : 0 < p.crit.eps0)
    (hcs : 0 ≤ p.crit.csumg) (cm : ℝ) (hcm : p.corrmin = .fin cm) (h : Cloud p cams N k d w)
    (hsc : ∀ n, cm * six (d n) < six (w n)) (r : Result ℝ) (hr : run srt p cams = .ok r)
    (P : Fin N → V3) (δ σ : ℝ) (hσ : 0 < σ) (ray : Fin N → Fin 4 → Ray)
    (hray : ∀ n c q, (cams c).crd[k n c]? = some q → rayTracing q.x q.y (cams c).cal p.mm = some (ray n c))
    (hnear : ∀ n c, NearLine (ray n c).1 (ray n c).2 (P n) δ)
    (hcross : ∀ n c1 c2, c1 < c2 → Crossing (ray n c1).2 (ray n c2).2 σ)
    (hmark : ∀ c, ∀ q ∈ (cams c).crd, q.x ≠ -1e10) :
    r.quads.length = N ∧ ∃ pos : Fin N → ℕ, Function.Injective pos ∧
      ∀ n, ∃ (t : NTuple ℝ) (q : Fin 4 → Search.Coord) (e : ℝ) (M : V3), r.quads[pos n]? = some t ∧
        (∀ c, 0 ≤ t.p c ∧ (cams c).crd[(t.p c).toNat]? = some (q c)) ∧
        pointPosition ((List.finRange 4).map fun c => ((q c).x, (q c).y)) 4 p.mm ((List.finRange 4).map fun c => (cams c).cal)
          = .ok (some (e, M)) ∧ 0 ≤ e ∧ e ≤ 2 * δ ∧ (M - P n).norm ≤ δ * (1 + 2 / σ) := by
  obtain ⟨-, -, hN, pos, hinj, hall⟩ := C145_cloud srt hd heps hcs cm hcm h hsc r hr
  refine ⟨hN, pos, hinj, fun n => ?_⟩
  obtain ⟨t, ht, htk, -⟩ := hall n
  obtain ⟨q, e, M, hq, h1, h2, h3, h4⟩ := h.position P δ σ hσ ray hray hnear hcross hmark n
  refine ⟨t, q, e, M, ht, fun c => ⟨by rw [htk]; omega, ?_⟩, h1, h2, h3, h4⟩
  rw [htk, Int.toNat_natCast]
  exact hq c

/-! ### An example: the row of cameras and two particles -/

/-- The images of the particles (1, -20, -5) and (1, 2, -5), the second moved upwards by `c` hundredths. -/
noncomputable def exTwo (c : Fin 4) : List Search.Coord :=
  [⟨1, 50 * (1 - 10 * (c.val : ℝ)) / 105, -1000 / 105⟩, ⟨0, 50 * (1 - 10 * (c.val : ℝ)) / 105, 100 / 105 + (c.val : ℝ) / 100⟩]

theorem exTwo_fine (c : Fin 4) : DataFine (rowWith c (exTwo c)) := by
  constructor <;> simp [rowWith, exTwo]

theorem exTwo_with {c1 c2 : Fin 4} (h : c1 < c2) (n : Fin 2) :
    FitsWith exPars (rowWith c1 (exTwo c1)) (rowWith c2 (exTwo c2)) n.val n.val (n.val * (((c2.val : ℝ) - c1.val) / 100)) 1600 := by
  have h12 : (c1.val : ℝ) < c2.val := by exact_mod_cast h
  have b2 : (c2.val : ℝ) ≤ 3 := by exact_mod_cast Nat.le_of_lt_succ c2.isLt
  have b1 : (0 : ℝ) ≤ c1.val := Nat.cast_nonneg _
  fin_cases n
  · have := row_with h (l1 := exTwo c1) (l2 := exTwo c2) (i := 0) (j := 0) rfl rfl (by simp [exTwo]) (by simp [exTwo])
      (by simp) (by simp only; linarith) (by simp only; linarith)
    simpa using this
  · have e : |100 / 105 + (c2.val : ℝ) / 100 - (100 / 105 + (c1.val : ℝ) / 100)| = ((c2.val : ℝ) - c1.val) / 100 := by
      rw [abs_of_nonneg] <;> linarith
    have := row_with h (l1 := exTwo c1) (l2 := exTwo c2) (i := 1) (j := 1) rfl rfl (by simp [exTwo]) (by simp [exTwo])
      (by simp only; rw [e]; linarith) (by simp only; linarith) (by simp only; linarith)
    simp only at this
    rw [e] at this
    simpa using this

theorem exTwo_meets {c1 c2 : Fin 4} (h : c1 < c2) {i m : ℕ} {y : ℝ}
    (hi : (exTwo c1)[i]? = some ⟨m, 50 * (1 - 10 * (c1.val : ℝ)) / 105, y⟩) (hy1 : -50 < y) (hy2 : y < 50) :
    MeetsSensor exPars (rowWith c1 (exTwo c1)) (rowWith c2 (exTwo c2)) i := by
  intro e he
  have h12 : (c1.val : ℝ) < c2.val := by exact_mod_cast h
  have b2 : (c2.val : ℝ) ≤ 3 := by exact_mod_cast Nat.le_of_lt_succ c2.isLt
  have b1 : (0 : ℝ) ≤ c1.val := Nat.cast_nonneg _
  obtain ⟨q, hq, rfl⟩ := row_epi' he
  rw [hi] at hq
  cases hq
  have hap : (rowWith c2 (exTwo c2)).cal.ap = defaultAddPar := rfl
  have hxh : (rowWith c2 (exTwo c2)).cal.xh = 0 := rfl
  have hyh : (rowWith c2 (exTwo c2)).cal.yh = 0 := rfl
  unfold SegmentOff
  simp only [sensorOf, hap, (C24_default_identity _ _ _).2, hxh, hyh]
  rw [tilt, if_neg (by intro hcon; linarith)]
  clear he
  norm_num [exPars]
  refine ⟨fun hcon => ?_, fun hcon => ?_, ?_, ?_⟩ <;> linarith

theorem exTwo_cloud : Cloud exPars (fun c => rowWith c (exTwo c)) 2 (fun n _ => n.val)
    (fun n c1 c2 => n.val * (((c2.val : ℝ) - c1.val) / 100)) (fun _ _ _ => 1600) where
  fit n c1 c2 h := exTwo_with h n
  meets n c1 c2 h := by
    fin_cases n
    · exact exTwo_meets h (i := 0) (y := -1000 / 105) rfl (by norm_num) (by norm_num)
    · exact exTwo_meets h (i := 1) (y := 100 / 105 + (c1.val : ℝ) / 100) rfl (by
        have b3 : (0 : ℝ) ≤ c1.val := Nat.cast_nonneg _
        linarith) (by
        have b3 : (c1.val : ℝ) ≤ 3 := by exact_mod_cast Nat.le_of_lt_succ c1.isLt
        norm_num
        linarith)
  only n m c1 c2 h hf := by
    have b2 : (c2.val : ℝ) ≤ 3 := by exact_mod_cast Nat.le_of_lt_succ c2.isLt
    have b1 : (0 : ℝ) ≤ c1.val := Nat.cast_nonneg _
    have b3 : (c1.val : ℝ) ≤ 3 := by exact_mod_cast Nat.le_of_lt_succ c1.isLt
    have b4 : (0 : ℝ) ≤ c2.val := Nat.cast_nonneg _
    obtain ⟨q, q', h1, h2, hy⟩ := row_fits hf
    rw [abs_lt] at hy
    have e1 : (exTwo c1)[0]? = some ⟨1, 50 * (1 - 10 * (c1.val : ℝ)) / 105, -1000 / 105⟩ := rfl
    have e2 : (exTwo c1)[1]? = some ⟨0, 50 * (1 - 10 * (c1.val : ℝ)) / 105, 100 / 105 + (c1.val : ℝ) / 100⟩ := rfl
    have e3 : (exTwo c2)[0]? = some ⟨1, 50 * (1 - 10 * (c2.val : ℝ)) / 105, -1000 / 105⟩ := rfl
    have e4 : (exTwo c2)[1]? = some ⟨0, 50 * (1 - 10 * (c2.val : ℝ)) / 105, 100 / 105 + (c2.val : ℝ) / 100⟩ := rfl
    fin_cases n <;> fin_cases m <;> simp only at h1 h2
    · rfl
    · exfalso
      rw [e1] at h1
      rw [e4] at h2
      cases h1
      cases h2
      simp only at hy
      linarith [hy.1, hy.2]
    · exfalso
      rw [e2] at h1
      rw [e3] at h2
      cases h1
      cases h2
      simp only at hy
      linarith [hy.1, hy.2]
    · rfl
  all c i hi := by
    have : i < 2 := by simpa [rowWith, exTwo] using hi
    exact ⟨⟨i, this⟩, rfl⟩
  once n m c e := Fin.ext e

/-- Two particles, two quadruplets, and nothing else. -/
example (srt : NpSort ℝ) : ∃ r, run srt exPars (fun c => rowWith c (exTwo c)) = .ok r ∧ r.triplets = [] ∧ r.pairs = [] ∧
    r.quads.length = 2 := by
  have heps : 0 < exPars.crit.eps0 := by norm_num [exPars]
  have hcs : 0 ≤ exPars.crit.csumg := by norm_num [exPars]
  obtain ⟨r, hr⟩ := C109_returns srt exPars _ exTwo_fine heps hcs fun c1 c2 _ i hi => row_epi_all c1 c2 i hi
  obtain ⟨h1, h2, h3, -⟩ := C145_cloud srt exTwo_fine heps hcs 33 rfl exTwo_cloud (by
    intro n
    fin_cases n <;> norm_num [six]) r hr
  exact ⟨r, hr, h1, h2, h3⟩

end Verif.FullCorr
