/-
Proofs about the flood fill of `fast_targ_rec`.
-/
import Verif.Model.Segmentation
import Verif.Spec.Segmentation
import Mathlib.Tactic.Linarith
import Mathlib.Tactic.Ring
import Mathlib.Tactic.FieldSimp
import Mathlib.Tactic.SplitIfs
import Mathlib.Algebra.BigOperators.Ring.Finset
import Mathlib.Data.Int.Interval
import Mathlib.Tactic.Tauto


namespace Verif.Seg
open Spec.Seg Relation

/-- Grey value of a pixel `(x, y)`. -/
def Image.g (im : Image) (p : Pixel) : ℤ := im.px p.2 p.1

/-- The search region is at least one pixel off the border. -/
def Par.Inside (q : Par) (im : Image) : Prop :=
  (1 ≤ q.xmin ∧ q.xmax + 1 ≤ im.w) ∧ (1 ≤ q.ymin ∧ q.ymax + 1 ≤ im.h)

abbrev Par.roi (q : Par) : Pixel → Prop := InROI q.xmin q.xmax q.ymin q.ymax

abbrev grows (im : Image) (q : Par) (U : Finset Pixel) : Pixel → Pixel → Prop :=
  Grows im.g q.thres q.disco q.roi (· ∈ U)

theorem read_ok {im : Image} {a : ℤ → ℤ → ℤ} {y x : ℤ} (h : 0 ≤ y ∧ y < im.h ∧ 0 ≤ x ∧ x < im.w) :
    im.read a y x = .ok (a y x) := by
  rw [Image.read, if_pos h]

theorem geAll_ok (ref : ℤ) : ∀ vs : List ℤ, geAll ref (vs.map Except.ok) = .ok (decide (∀ v ∈ vs, v ≤ ref))
  | [] => by simp [geAll]
  | v :: vs => by
    simp only [List.map_cons, geAll, bind, Except.bind]
    by_cases h : v ≤ ref
    · rw [if_pos h, geAll_ok ref vs]
      simp [h]
    · rw [if_neg h]
      simp [h]

theorem adj4_iff (p r : Pixel) : Adj4 p r ↔
    r = (p.1 - 1, p.2) ∨ r = (p.1 + 1, p.2) ∨ r = (p.1, p.2 - 1) ∨ r = (p.1, p.2 + 1) := by
  obtain ⟨a, b⟩ := r
  simp only [Adj4, Prod.mk.injEq]
  omega

theorem adj8_iff (p r : Pixel) : Adj8 p r ↔
    r = (p.1 - 1, p.2) ∨ r = (p.1 + 1, p.2) ∨ r = (p.1, p.2 - 1) ∨ r = (p.1, p.2 + 1) ∨
    r = (p.1 - 1, p.2 - 1) ∨ r = (p.1 - 1, p.2 + 1) ∨ r = (p.1 + 1, p.2 - 1) ∨ r = (p.1 + 1, p.2 + 1) := by
  obtain ⟨a, b⟩ := r
  obtain ⟨c, d⟩ := p
  simp only [Adj8, Prod.mk.injEq, ne_eq, abs_le]
  omega

/-- `a` is the image without the pixels of `U`. -/
def IsMasked (im : Image) (a : ℤ → ℤ → ℤ) (U : Finset Pixel) : Prop :=
  ∀ p : Pixel, a p.2 p.1 = masked im.g (· ∈ U) p

theorem isSeed_eq {im : Image} {q : Par} (hin : q.Inside im) {a : ℤ → ℤ → ℤ} {U : Finset Pixel}
    (ha : IsMasked im a U) {p : Pixel} (hp : q.roi p) [Decidable (IsPeak im.g q.thres (· ∈ U) p)] :
    isSeed im q a p.2 p.1 = .ok (decide (IsPeak im.g q.thres (· ∈ U) p)) := by
  obtain ⟨⟨h1, h2⟩, h3, h4⟩ := hin
  obtain ⟨⟨h5, h6⟩, h7, h8⟩ := hp
  rw [isSeed, read_ok (by omega)]
  simp only [bind, Except.bind]
  have key : ∀ x y, a y x = masked im.g (· ∈ U) (x, y) := fun x y => ha (x, y)
  by_cases ht : a p.2 p.1 > q.thres
  · rw [if_pos ht, read_ok (by omega), read_ok (by omega), read_ok (by omega), read_ok (by omega),
      read_ok (by omega), read_ok (by omega), read_ok (by omega), read_ok (by omega)]
    have := geAll_ok (a p.2 p.1) [a p.2 (p.1 - 1), a p.2 (p.1 + 1), a (p.2 - 1) p.1, a (p.2 + 1) p.1,
      a (p.2 - 1) (p.1 - 1), a (p.2 + 1) (p.1 - 1), a (p.2 - 1) (p.1 + 1), a (p.2 + 1) (p.1 + 1)]
    simp only [List.map_cons, List.map_nil] at this
    rw [this]
    congr 1
    rw [decide_eq_decide]
    have e : (p.1, p.2) = p := rfl
    rw [key p.1 p.2] at ht
    simp only [List.mem_cons, List.not_mem_nil, or_false, forall_eq_or_imp, forall_eq, key, e]
    constructor
    · rintro ⟨a1, a2, a3, a4, a5, a6, a7, a8⟩
      refine ⟨ht, ?_⟩
      intro r hr
      rcases (adj8_iff p r).1 hr with rfl | rfl | rfl | rfl | rfl | rfl | rfl | rfl <;> assumption
    · rintro ⟨-, h⟩
      have h8 := fun r hr => h r ((adj8_iff p r).2 hr)
      exact ⟨h8 _ (by simp), h8 _ (by simp), h8 _ (by simp), h8 _ (by simp), h8 _ (by simp), h8 _ (by simp),
        h8 _ (by simp), h8 _ (by simp)⟩
  · rw [if_neg ht]
    congr 1
    rw [eq_comm, decide_eq_false_iff_not]
    rintro ⟨h, -⟩
    rw [← ha p] at h
    exact ht h

/-- The state of a flood fill from the peak `s`; `U` are the pixels used before, `V` the pixels of the
target so far, in the order they were added, `D` those already processed. -/
structure FInv (im : Image) (q : Par) (U : Finset Pixel) (s : Pixel) (D V : List Pixel) (f : Flood) : Prop where
  img : ∀ p : Pixel, f.img0 p.2 p.1 = if p ∈ U ∨ p ∈ V then 0 else im.g p
  nodup : V.Nodup
  seed : s ∈ V
  reach : ∀ p ∈ V, ReflTransGen (grows im q U) s p
  roi : ∀ p ∈ V, q.roi p
  above : ∀ p ∈ V, q.thres < im.g p
  unused : ∀ p ∈ V, p ∉ U
  wait : V = D ++ f.wait
  sumg : f.sumg = (V.map im.g).sum
  x : f.x = (V.map fun p => p.1 * (im.g p - q.thres)).sum
  y : f.y = (V.map fun p => p.2 * (im.g p - q.thres)).sum
  numpix : f.numpix = V.length
  xa : (∃ p ∈ V, p.1 = f.xa) ∧ ∀ p ∈ V, f.xa ≤ p.1
  xb : (∃ p ∈ V, p.1 = f.xb) ∧ ∀ p ∈ V, p.1 ≤ f.xb
  ya : (∃ p ∈ V, p.2 = f.ya) ∧ ∀ p ∈ V, f.ya ≤ p.2
  yb : (∃ p ∈ V, p.2 = f.yb) ∧ ∀ p ∈ V, p.2 ≤ f.yb

theorem min_step {V : List Pixel} {c : Pixel → ℤ} {m : ℤ} {n : Pixel}
    (h : (∃ p ∈ V, c p = m) ∧ ∀ p ∈ V, m ≤ c p) :
    (∃ p ∈ V ++ [n], c p = (if c n < m then c n else m)) ∧ ∀ p ∈ V ++ [n], (if c n < m then c n else m) ≤ c p := by
  obtain ⟨⟨p, hp, e⟩, h2⟩ := h
  simp only [List.mem_append, List.mem_singleton]
  split_ifs with hn
  · refine ⟨⟨n, Or.inr rfl, rfl⟩, ?_⟩
    rintro r (hr | rfl)
    · exact hn.le.trans (h2 r hr)
    · exact le_refl _
  · refine ⟨⟨p, Or.inl hp, e⟩, ?_⟩
    rintro r (hr | rfl)
    · exact h2 r hr
    · exact not_lt.1 hn

theorem max_step {V : List Pixel} {c : Pixel → ℤ} {m : ℤ} {n : Pixel}
    (h : (∃ p ∈ V, c p = m) ∧ ∀ p ∈ V, c p ≤ m) :
    (∃ p ∈ V ++ [n], c p = (if c n > m then c n else m)) ∧ ∀ p ∈ V ++ [n], c p ≤ (if c n > m then c n else m) := by
  obtain ⟨⟨p, hp, e⟩, h2⟩ := h
  simp only [List.mem_append, List.mem_singleton]
  split_ifs with hn
  · refine ⟨⟨n, Or.inr rfl, rfl⟩, ?_⟩
    rintro r (hr | rfl)
    · exact (h2 r hr).trans (le_of_lt hn)
    · exact le_refl _
  · refine ⟨⟨p, Or.inl hp, e⟩, ?_⟩
    rintro r (hr | rfl)
    · exact h2 r hr
    · exact not_lt.1 hn

/-- A list of more than `MAX_TARGETS` distinct pixels of one blob. -/
def BigBlob (im : Image) (q : Par) (U : Finset Pixel) (s : Pixel) : Prop :=
  ∃ V : List Pixel, V.Nodup ∧ MAX_TARGETS < V.length ∧ ∀ p ∈ V, ReflTransGen (grows im q U) s p

theorem visit_spec {im : Image} {q : Par} (hin : q.Inside im) (hth : 0 ≤ q.thres) {U : Finset Pixel} {s : Pixel}
    {D V : List Pixel} {f : Flood} (inv : FInv im q U s D V f) {p n : Pixel} (hp : p ∈ V) (hn : Adj4 p n) :
    (visit im q (im.g p) n.1 n.2 f = .error .indexError ∧ BigBlob im q U s) ∨
    ∃ f' more, visit im q (im.g p) n.1 n.2 f = .ok f' ∧ FInv im q U s D (V ++ more) f' ∧
      f'.wait = f.wait ++ more ∧ (grows im q U p n → n ∈ V ++ more) := by
  have hin' := hin
  obtain ⟨⟨h1, h2⟩, h3, h4⟩ := hin
  have hproi := inv.roi p hp
  obtain ⟨⟨p1, p2⟩, p3, p4⟩ := hproi
  rw [visit]
  by_cases hout : n.1 ≥ q.xmax ∨ n.2 ≥ q.ymax ∨ n.1 < 0 ∨ n.2 < 0
  · rw [if_pos hout]
    refine Or.inr ⟨f, [], rfl, by simpa using inv, by simp, ?_⟩
    rintro ⟨-, ⟨⟨r1, r2⟩, r3, r4⟩, -⟩
    omega
  · rw [if_neg hout, read_ok (by omega)]
    simp only [bind, Except.bind, inv.img n]
    rw [joins]
    -- the pixel value
    by_cases hused : n ∈ U ∨ n ∈ V
    · rw [if_pos hused, if_neg (by omega)]
      simp only [Bool.false_eq_true, if_false]
      refine Or.inr ⟨f, [], rfl, by simpa using inv, by simp, ?_⟩
      rintro ⟨-, -, hu, -⟩
      rcases hused with h | h
      · exact absurd h hu
      · simpa using h
    · rw [if_neg hused]
      have hnU : n ∉ U := fun h => hused (Or.inl h)
      have hnV : n ∉ V := fun h => hused (Or.inr h)
      by_cases hc : im.g n > q.thres ∧ n.1 > q.xmin - 1 ∧ n.1 < q.xmax + 1 ∧ n.2 > q.ymin - 1 ∧ n.2 < q.ymax + 1
          ∧ im.g n ≤ im.g p + q.disco
      · rw [if_pos hc, read_ok (by omega), read_ok (by omega), read_ok (by omega), read_ok (by omega)]
        have := geAll_ok (im.g p + q.disco) [im.px (n.2 - 1) n.1, im.px (n.2 + 1) n.1, im.px n.2 (n.1 - 1),
          im.px n.2 (n.1 + 1)]
        simp only [List.map_cons, List.map_nil] at this
        rw [this]
        have hiff : (∀ v ∈ [im.px (n.2 - 1) n.1, im.px (n.2 + 1) n.1, im.px n.2 (n.1 - 1), im.px n.2 (n.1 + 1)],
            v ≤ im.g p + q.disco) ↔ grows im q U p n := by
          simp only [List.mem_cons, List.not_mem_nil, or_false, forall_eq_or_imp, forall_eq, Grows]
          constructor
          · rintro ⟨a1, a2, a3, a4⟩
            refine ⟨hn, ⟨⟨by omega, by omega⟩, by omega, by omega⟩, hnU, hc.1, hc.2.2.2.2.2, ?_⟩
            intro r hr
            rcases (adj4_iff n r).1 hr with rfl | rfl | rfl | rfl <;> assumption
          · rintro ⟨-, -, -, -, -, h⟩
            exact ⟨h (n.1, n.2 - 1) ((adj4_iff _ _).2 (by simp)), h (n.1, n.2 + 1) ((adj4_iff _ _).2 (by simp)),
              h (n.1 - 1, n.2) ((adj4_iff _ _).2 (by simp)), h (n.1 + 1, n.2) ((adj4_iff _ _).2 (by simp))⟩
        by_cases hg : ∀ v ∈ [im.px (n.2 - 1) n.1, im.px (n.2 + 1) n.1, im.px n.2 (n.1 - 1),
            im.px n.2 (n.1 + 1)], v ≤ im.g p + q.disco
        · rw [decide_eq_true hg]
          simp only [if_true]
          have hgr := hiff.1 hg
          have hreach : ∀ r ∈ V ++ [n], ReflTransGen (grows im q U) s r := by
            intro r hr
            rcases List.mem_append.1 hr with hr | hr
            · exact inv.reach r hr
            · rw [List.mem_singleton.1 hr]
              exact (inv.reach p hp).tail hgr
          have hnd : (V ++ [n]).Nodup := by
            rw [List.nodup_append]
            refine ⟨inv.nodup, by simp, ?_⟩
            intro a ha b hb e
            rw [List.mem_singleton.1 hb] at e
            exact hnV (e ▸ ha)
          rw [addPixel]
          by_cases hlen : f.wait.length < MAX_TARGETS
          · rw [if_pos hlen]
            refine Or.inr ⟨_, [n], rfl, ?_, rfl, fun _ => by simp⟩
            refine ⟨?_, hnd, by simp [inv.seed], hreach, ?_, ?_, ?_, ?_, ?_, ?_, ?_, ?_, min_step inv.xa,
              max_step inv.xb, min_step inv.ya, max_step inv.yb⟩
            · intro r
              simp only [clear, inv.img r, List.mem_append, List.mem_singleton]
              by_cases e : r = n
              · subst e; simp
              · have : ¬ (r.2 = n.2 ∧ r.1 = n.1) := fun h => e (Prod.ext h.2 h.1)
                rw [if_neg this]
                simp [e]
            · intro r hr
              rcases List.mem_append.1 hr with hr | hr
              · exact inv.roi r hr
              · rw [List.mem_singleton.1 hr]; exact hgr.2.1
            · intro r hr
              rcases List.mem_append.1 hr with hr | hr
              · exact inv.above r hr
              · rw [List.mem_singleton.1 hr]; exact hc.1
            · intro r hr
              rcases List.mem_append.1 hr with hr | hr
              · exact inv.unused r hr
              · rw [List.mem_singleton.1 hr]; exact hnU
            · simp [inv.wait]
            · simp [inv.sumg]
            · simp [inv.x]
            · simp [inv.y]
            · simp [inv.numpix]
          · rw [if_neg hlen]
            left
            refine ⟨rfl, V ++ [n], hnd, ?_, hreach⟩
            have := congrArg List.length inv.wait
            simp only [List.length_append, List.length_singleton] at this ⊢
            omega
        · rw [decide_eq_false hg]
          simp only [Bool.false_eq_true, if_false]
          exact Or.inr ⟨f, [], rfl, by simpa using inv, by simp, fun h => absurd (hiff.2 h) hg⟩
      · rw [if_neg hc]
        simp only [Bool.false_eq_true, if_false]
        refine Or.inr ⟨f, [], rfl, by simpa using inv, by simp, ?_⟩
        rintro ⟨-, ⟨⟨r1, r2⟩, r3, r4⟩, -, r5, r6, -⟩
        exact absurd ⟨r5, by omega, by omega, by omega, by omega, r6⟩ hc

theorem floodStep_spec {im : Image} {q : Par} (hin : q.Inside im) (hth : 0 ≤ q.thres) {U : Finset Pixel}
    {s : Pixel} {D V : List Pixel} {f : Flood} (inv : FInv im q U s D V f) {p : Pixel} {ps : List Pixel}
    (hw : f.wait = p :: ps) (hcl : ∀ d ∈ D, ∀ n, grows im q U d n → n ∈ V) :
    (floodStep im q p f = .error .indexError ∧ BigBlob im q U s) ∨
    ∃ f' V', floodStep im q p f = .ok f' ∧ FInv im q U s (D ++ [p]) V' f' ∧
      ∀ d ∈ D ++ [p], ∀ n, grows im q U d n → n ∈ V' := by
  have hpV : p ∈ V := by rw [inv.wait, hw]; simp
  have hproi := inv.roi p hpV
  obtain ⟨⟨p1, p2⟩, p3, p4⟩ := hproi
  obtain ⟨⟨h1, h2⟩, h3, h4⟩ := hin
  have hin : q.Inside im := ⟨⟨h1, h2⟩, h3, h4⟩
  rw [floodStep, read_ok (by omega)]
  simp only [bind, Except.bind]
  have e : im.px p.2 p.1 = im.g p := rfl
  rw [e]
  rcases visit_spec hin hth inv hpV (n := (p.1 - 1, p.2)) ((adj4_iff _ _).2 (by simp)) with
    ⟨r, hb⟩ | ⟨f1, m1, r, inv1, w1, g1⟩
  · left; simp only at r; rw [r]; exact ⟨rfl, hb⟩
  simp only at r; rw [r]; simp only
  rcases visit_spec hin hth inv1 (p := p) (by simp [hpV]) (n := (p.1 + 1, p.2)) ((adj4_iff _ _).2 (by simp)) with
    ⟨r, hb⟩ | ⟨f2, m2, r, inv2, w2, g2⟩
  · left; simp only at r; rw [r]; exact ⟨rfl, hb⟩
  simp only at r; rw [r]; simp only
  rcases visit_spec hin hth inv2 (p := p) (by simp [hpV]) (n := (p.1, p.2 - 1)) ((adj4_iff _ _).2 (by simp)) with
    ⟨r, hb⟩ | ⟨f3, m3, r, inv3, w3, g3⟩
  · left; simp only at r; rw [r]; exact ⟨rfl, hb⟩
  simp only at r; rw [r]; simp only
  rcases visit_spec hin hth inv3 (p := p) (by simp [hpV]) (n := (p.1, p.2 + 1)) ((adj4_iff _ _).2 (by simp)) with
    ⟨r, hb⟩ | ⟨f4, m4, r, inv4, w4, g4⟩
  · left; simp only at r; rw [r]; exact ⟨rfl, hb⟩
  simp only at r; rw [r]; simp only
  right
  refine ⟨_, V ++ m1 ++ m2 ++ m3 ++ m4, rfl, ?_, ?_⟩
  · have hw4 : f4.wait = p :: (ps ++ m1 ++ m2 ++ m3 ++ m4) := by
      rw [w4, w3, w2, w1, hw]; simp
    refine ⟨inv4.img, inv4.nodup, inv4.seed, inv4.reach, inv4.roi, inv4.above, inv4.unused, ?_, inv4.sumg,
      inv4.x, inv4.y, inv4.numpix, inv4.xa, inv4.xb, inv4.ya, inv4.yb⟩
    rw [inv4.wait, hw4]
    simp
  · intro d hd n hg
    rcases List.mem_append.1 hd with hd | hd
    · exact List.mem_append_left _ (List.mem_append_left _ (List.mem_append_left _ (List.mem_append_left _
        (hcl d hd n hg))))
    · rw [List.mem_singleton.1 hd] at hg
      rcases (adj4_iff p n).1 hg.1 with rfl | rfl | rfl | rfl
      · exact List.mem_append_left _ (List.mem_append_left _ (List.mem_append_left _ (g1 hg)))
      · exact List.mem_append_left _ (List.mem_append_left _ (g2 hg))
      · exact List.mem_append_left _ (g3 hg)
      · exact g4 hg

theorem flood_spec {im : Image} {q : Par} (hin : q.Inside im) (hth : 0 ≤ q.thres) {U : Finset Pixel}
    {s : Pixel} : ∀ (fuel : ℕ) (D V : List Pixel) (f : Flood), FInv im q U s D V f →
    (∀ d ∈ D, ∀ n, grows im q U d n → n ∈ V) →
    (flood im q fuel f = .error .indexError ∧ BigBlob im q U s) ∨
    (flood im q fuel f = .error .outOfFuel ∧ ∃ V' : List Pixel, V'.Nodup ∧ (∀ p ∈ V', q.roi p) ∧
      D.length + fuel < V'.length) ∨
    ∃ f' V', flood im q fuel f = .ok f' ∧ FInv im q U s V' V' f' ∧
      ∀ d ∈ V', ∀ n, grows im q U d n → n ∈ V'
  | fuel, D, V, f, inv, hcl => by
    cases hw : f.wait with
    | nil =>
      right; right
      have hV : V = D := by rw [inv.wait, hw]; simp
      refine ⟨f, V, ?_, by rw [← hV] at inv; exact inv, by rw [← hV] at hcl; exact hcl⟩
      cases fuel with
      | zero => rw [flood, if_pos hw]
      | succ fuel => rw [flood, hw]
    | cons p ps =>
      cases fuel with
      | zero =>
        right; left
        refine ⟨by rw [flood, hw, if_neg (by simp)], V, inv.nodup, inv.roi, ?_⟩
        have := congrArg List.length inv.wait
        rw [hw] at this
        simp at this
        omega
      | succ fuel =>
        have hunf : flood im q (fuel + 1) f = (floodStep im q p f >>= fun f => flood im q fuel f) := by
          rw [flood, hw]
        rw [hunf]
        rcases floodStep_spec hin hth inv hw hcl with ⟨r, hb⟩ | ⟨f', V', r, inv', hcl'⟩
        · left; rw [r]; exact ⟨rfl, hb⟩
        · rw [r]
          simp only [bind, Except.bind]
          have := flood_spec hin hth fuel (D ++ [p]) V' f' inv' hcl'
          simpa [Nat.add_assoc, Nat.add_comm 1] using this

theorem start_inv {im : Image} {q : Par} {U : Finset Pixel} {a : ℤ → ℤ → ℤ} (hth : 0 ≤ q.thres)
    (ha : IsMasked im a U) {p : Pixel} (hp : q.roi p) (hpk : IsPeak im.g q.thres (· ∈ U) p) :
    FInv im q U p [] [p] (startFlood q a p.2 p.1 (a p.2 p.1)) ∧ p ∉ U ∧ a p.2 p.1 = im.g p := by
  have hm := ha p
  have hnu : p ∉ U := by
    intro h
    have := hpk.1
    simp only [masked, h, if_true] at this
    omega
  have hv : a p.2 p.1 = im.g p := by rw [hm]; simp [masked, hnu]
  have hab : q.thres < im.g p := by rw [← hv, hm]; exact hpk.1
  refine ⟨⟨?_, by simp, by simp, ?_, ?_, ?_, ?_, rfl, ?_, ?_, ?_, rfl, ?_, ?_, ?_, ?_⟩, hnu, hv⟩
  · intro r
    simp only [startFlood, clear, List.mem_singleton]
    by_cases e : r = p
    · subst e; simp
    · have : ¬ (r.2 = p.2 ∧ r.1 = p.1) := fun h => e (Prod.ext h.2 h.1)
      rw [if_neg this, ha r]
      simp [masked, e]
  · intro r hr; rw [List.mem_singleton.1 hr]
  · intro r hr; rw [List.mem_singleton.1 hr]; exact hp
  · intro r hr; rw [List.mem_singleton.1 hr]; exact hab
  · intro r hr; rw [List.mem_singleton.1 hr]; exact hnu
  · simp [startFlood, hv]
  · simp [startFlood, hv]
  · simp [startFlood, hv]
  all_goals simp [startFlood]

/-- The number of pixels of the search region. -/
def Par.area (q : Par) : ℕ := (q.xmax - q.xmin).toNat * (q.ymax - q.ymin).toNat

theorem length_le_area {q : Par} {V : List Pixel} (hn : V.Nodup) (hr : ∀ p ∈ V, q.roi p) : V.length ≤ q.area := by
  rw [← List.toFinset_card_of_nodup hn]
  have hsub : V.toFinset ⊆ Finset.Ico q.xmin q.xmax ×ˢ Finset.Ico q.ymin q.ymax := by
    intro p hp
    have := hr p (List.mem_toFinset.1 hp)
    simp only [Finset.mem_product, Finset.mem_Ico]
    exact this
  refine (Finset.card_le_card hsub).trans ?_
  rw [Finset.card_product, Int.card_Ico, Int.card_Ico, Par.area]

end Verif.Seg
