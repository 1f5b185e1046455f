/-
C137: backward tracking closes the gaps of a trajectory.
-/
import Verif.Spec.Gap
import Verif.Props.BackComplete
import Verif.Props.Crowd

set_option linter.unusedSectionVars false

namespace Verif.Track
open Verif.Track.Spec Verif.Geo Verif.Geo.Spec V3

section
variable {P J C I D : Type} [Field D] [LinearOrder D]

/-- If only `k` is offered, one of its offers is the best. -/
theorem backBest_of_only {g : Geo P J C I D} {x0 x1 : P} {earlier : List P} {w : List Found} {d : D} {k : Nat}
    (h : BackOffered g x0 x1 earlier w d k) (hk : ∀ d' k', BackOffered g x0 x1 earlier w d' k' → k' = k) :
    ∃ d, BackBest g x0 x1 earlier w d k := by
  obtain ⟨f, hf, e1, x3, e2, e3, angle, acc, e4, e5, e6⟩ := h
  set F : Found → D := fun f => ((g.dist x1 x3 + g.dist x0 x1) / 2 / g.lmax + acc / g.dacc + angle / g.dangle) / (f.freq : D) with hF
  have hfin : {d | BackOffered g x0 x1 earlier w d k}.Finite := by
    refine ((w.finite_toSet).image F).subset ?_
    rintro d' ⟨f', hf', -, x3', e2', -, angle', acc', e4', -, e6'⟩
    rw [e2] at e2'
    cases e2'
    rw [e4] at e4'
    cases e4'
    exact ⟨f', (List.takeWhile_sublist _).subset hf', e6'.symm⟩
  obtain ⟨d0, h0, hmin⟩ := Set.exists_min_image _ id hfin ⟨d, ⟨f, hf, e1, x3, e2, e3, angle, acc, e4, e5, e6⟩⟩
  refine ⟨d0, h0, ?_⟩
  intro d' k' h'
  obtain rfl := hk d' k' h'
  rcases lt_or_eq_of_le (hmin d' h') with h | h
  · exact Or.inl h
  · exact Or.inr ⟨h, le_rfl⟩

end

theorem offered_of_offered {w : List Found} {n : Nat} {f : Found} (h : f ∈ offered w n) :
    f ∈ w.takeWhile (fun f => decide (f.ftnr ≠ -1)) := by
  unfold offered at h
  induction w with
  | nil => simp at h
  | cons a w ih =>
    rw [List.takeWhile_cons] at h ⊢
    split_ifs at h with h1
    · rw [if_pos (by simp only [decide_eq_true_eq] at h1 ⊢; exact h1.1)]
      rcases List.mem_cons.1 h with rfl | h
      · exact List.mem_cons_self
      · exact List.mem_cons_of_mem _ (ih h)
    · simp at h

/-- A step closes the gap. `x0` is the position in the later frame, `x1` the one of particle `i`, `x3` the one of particle `k` of the
earlier frame. -/
theorem gap_step (s : Setup) (hn : 2 ≤ s.cals.length ∧ s.cals.length ≤ 4) (him : (s.ip.imx : ℝ) ≤ 10 ^ 19 ∧ (s.ip.imy : ℝ) ≤ 10 ^ 19)
    (B D : ℝ) (hB : LongestStep s B) (hBD : B < D) (xz : V3 → Bool) (yy : V3 → ℝ) {b0 b1 b2 b3 b1' b2' : Frame V3 ℝ (Img ℝ)}
    (hc : ∀ p ∈ b1.parts, p.cands = []) (hv' : ∀ q ∈ b2.parts, q.prev = PREV_NONE ∨ 0 ≤ q.prev) (hm : Mutual b2.parts b1.parts)
    (hs : backStepFrames s.tracker xz yy b0 b1 b2 b3 = .ok (b1', b2'))
    {i k : Nat} {p q r : Part V3 ℝ} (hp : b1.parts[i]? = some p) (hnx : 0 ≤ p.next) (hpv : p.prev = PREV_NONE)
    (hr : b0.parts[p.next.toNat]? = some r) (hq : b2.parts[k]? = some q) (hqn : q.next = NEXT_NONE)
    (hv : Pos3dInBounds (p.x - q.x) s.vel)
    (hsm : ∃ φ, AngleOf (p.x - r.x) (q.x - p.x) φ ∧ Accepted s φ (norm ((q.x - p.x) - (p.x - r.x))))
    (hjoin : q.prev ≠ PREV_NONE → ∃ q4, pyGetI b3.parts q.prev = .ok q4 ∧
      ∃ φ, AngleOf (q4.x - q.x) ((q.x.smul 5 - p.x.smul 4 + r.x).smul (1 / 2) - q.x) φ ∧
        Accepted s φ (norm ((q.x.smul 5 - p.x.smul 4 + r.x).smul (1 / 2) - q4.x)))
    (haway : (∀ j p2, b1.parts[j]? = some p2 → j ≠ i → D ≤ (p2.x - q.x).norm) ∧
      ∀ j q2, b2.parts[j]? = some q2 → j ≠ k → D ≤ (p.x - q2.x).norm)
    (hseen : SeenByAll s.cams b2 (p.x.smul 2 - r.x) (s.proj (p.x.smul 2 - r.x)) k) :
    PointsBack b1'.parts i k := by
  have hg : SearchSane s.tracker := C81_search_sane s.cams _ him hn.2
  have hbound : ∀ v, s.tracker.inBounds v = true ↔ Pos3dInBounds v s.vel := fun v => by
    show @decide (Pos3dInBounds v s.vel) (Classical.propDecidable _) = true ↔ _
    exact @decide_eq_true_iff _ (Classical.propDecidable _)
  have hpred : s.tracker.predict r.x p.x = p.x.smul 2 - r.x := by
    show searchVolumeCenterMoving r.x p.x = _
    ext <;> simp [searchVolumeCenterMoving]
  obtain ⟨w, w1, -, w3⟩ := search_offers s.cams _ him hn hseen
  obtain ⟨φ, sm1, sm2⟩ := hsm
  have hang : angleAcc p.x (p.x.smul 2 - r.x) q.x = .ok (φ, ((q.x - p.x) - (p.x - r.x)).norm) := by
    rw [angleAcc_of_angleOf (φ := φ)]
    · congr 3
      ext <;> simp <;> ring
    · rw [show p.x.smul 2 - r.x - p.x = p.x - r.x by ext <;> simp <;> ring]
      exact sm1
  have hoff : ∃ d, BackOffered s.tracker r.x p.x (b2.parts.map Part.x) w d k := by
    refine ⟨_, _, offered_of_offered w3, rfl, q.x, by rw [List.getElem?_map, hq]; rfl, (hbound _).2 hv, φ, _, ?_, sm2, rfl⟩
    rw [hpred]
    exact hang
  have honly : ∀ d' k', BackOffered s.tracker r.x p.x (b2.parts.map Part.x) w d' k' → k' = k := by
    rintro d' k' ⟨f, -, -, x3, e, hin, -⟩
    by_contra hne
    rw [List.getElem?_map, Option.map_eq_some_iff] at e
    obtain ⟨q2, hq2, rfl⟩ := e
    have h1 := haway.2 k' q2 hq2 hne
    have h2 := hB _ ((hbound _).1 hin)
    have h2' : (p.x - q2.x).norm ≤ B := h2
    linarith
  obtain ⟨d0, hoff⟩ := hoff
  obtain ⟨d, hbest⟩ := backBest_of_only hoff honly
  obtain ⟨p', hp', -, key⟩ := C92_backward_complete s.tracker hg xz yy b0 b1 b2 b3 b1' b2' hc hv' hs i p r hp hnx hpv hr w
    (by rw [hpred]; exact w1)
  rcases key d k q hbest hq with ⟨h1, -⟩ | ⟨h1, h2 | ⟨j, q', hj, hq', hqj⟩ | ⟨q4, h2, h3, h4⟩⟩
  · exact ⟨p', hp', h1⟩
  · exact absurd hqn h2
  · exfalso
    obtain ⟨-, -, -, -, f5, -, f7, -, f9⟩ := backStepFrames_spec hg hc hs
    obtain ⟨pj', hj', hjk⟩ := ((f9 hm).1 k j).1 ⟨q', hq', hqj⟩
    obtain ⟨pj, hpj⟩ : ∃ pj, b1.parts[j]? = some pj := by
      have := (List.getElem?_eq_some_iff.1 hj').1
      exact ⟨_, List.getElem?_eq_getElem (by omega)⟩
    obtain ⟨pj'', e1, -, -, e2⟩ := f7 j pj hpj
    rw [hj'] at e1
    cases e1
    rcases e2 with e2 | ⟨k', q2, r2, u1, -, -, -, u5, -, -, u8, -⟩
    · obtain ⟨q3, hq3, e3⟩ := (hm.1 k j).2 ⟨pj, hpj, by rw [← e2]; exact hjk⟩
      rw [hq] at hq3
      cases hq3
      rw [hqn, NEXT_NONE] at e3
      omega
    · rw [hjk] at u1
      obtain rfl : k = k' := by exact_mod_cast u1
      rw [hq] at u5
      cases u5
      have g1 := haway.1 j pj hpj (by omega)
      have g2 : (pj.x - q.x).norm ≤ B := hB _ ((hbound _).1 u8.1)
      linarith
  · exfalso
    obtain ⟨q4', g1, φ', g2, g3⟩ := hjoin (by intro e; rw [e, PREV_NONE] at h2; omega)
    have g1' := pyGetI_nonneg h2 g1
    rw [h3] at g1'
    cases g1'
    refine h4 ⟨φ', _, ?_, g3⟩
    show angleAcc q.x q4.x ((q.x.smul 5 - p.x.smul 4 + r.x).smul 0.5) = _
    rw [show (0.5 : ℝ) = 1 / 2 by norm_num]
    exact angleAcc_of_angleOf g2

/-- What is needed to close the gap between frames `n - 1` and `n`: backward the motion is smooth, the other particles keep away, all
cameras show the particle of frame `n - 1` where it is expected; if it has a path of its own, that path continues the one found. -/
def Closable (s : Setup) (disk : Int → Frame V3 ℝ (Img ℝ)) (y : Int → V3) (num : Int → ℕ) (D : ℝ) (n : Int) : Prop :=
  BackSmoothAt s y n ∧ KeepsAway disk y num D (n - 1) ∧
  SeenByAll s.cams (disk (n - 1)) ((y n).smul 2 - y (n + 1)) (s.proj ((y n).smul 2 - y (n + 1))) (num (n - 1)) ∧
  ∀ q, (disk (n - 1)).parts[num (n - 1)]? = some q → q.prev ≠ -1 → BackJoinsAt s y n

/-- Particle `num n` of the written frame is at `y n` and linked both ways. -/
def Joined (y : Int → V3) (num : Int → ℕ) (w : Int × Frame V3 ℝ (Img ℝ)) : Prop :=
  ∃ p, w.2.parts[num w.1]? = some p ∧ p.x = y w.1 ∧ p.prev = num (w.1 - 1) ∧ p.next = num (w.1 + 1)

structure GapInv (s : Setup) (disk : Int → Frame V3 ℝ (Img ℝ)) (y : Int → V3) (num : Int → ℕ) (last : Int) (L i : ℕ)
    (r : Run (Frame V3 ℝ (Img ℝ))) : Prop where
  base : BRInv s.tracker disk last L i r
  now : ∀ a b c d, r.buf = [a, b, c, d] → PointsTo b.parts (num (last - 1 - i)) (num (last - i))
  writes : ∀ w ∈ writesOf r.log, Joined y num w

set_option maxHeartbeats 1000000 in
theorem GapInv.step (s : Setup) (hn : 2 ≤ s.cals.length ∧ s.cals.length ≤ 4)
    (him : (s.ip.imx : ℝ) ≤ 10 ^ 19 ∧ (s.ip.imy : ℝ) ≤ 10 ^ 19) (B D : ℝ) (hB : LongestStep s B) (hBD : B < D)
    (xz : V3 → Bool) (yy : V3 → ℝ) (disk : Int → Frame V3 ℝ (Img ℝ)) (last : Int) (L : ℕ)
    (hm : ∀ n, last - L ≤ n → n < last → Mutual (disk n).parts (disk (n + 1)).parts)
    (hc : ∀ n, ∀ p ∈ (disk n).parts, p.cands = [])
    (hv : ∀ p ∈ (disk (last - L)).parts, p.prev = -1 ∨ 0 ≤ p.prev) (y : Int → V3) (num : Int → ℕ)
    (hT : Trail disk y num (last - L) last)
    (hgap : ∀ n p, last - L < n → n < last → (disk n).parts[num n]? = some p → p.prev = -1 → Closable s disk y num D n)
    {i : ℕ} (hi : i + 1 < L) {r r' : Run (Frame V3 ℝ (Img ℝ))} (hI : GapInv s disk y num last L i r)
    (h : backStep disk (backBuf s.tracker xz yy) (last - L) (last - 1 - i) r = .ok r') :
    GapInv s disk y num last L (i + 1) r' := by
  have hg : SearchSane s.tracker := C81_search_sane s.cams _ him hn.2
  have hbase := BRInv.step hg hm hc hi hI.base h
  obtain ⟨⟨⟨a, b, c, d, hb, ha, hbp, hbl, hab, hcc, hdd, l, hl⟩, hch, hw⟩, hnow, hwr⟩ := hI
  have hpl : ∀ b b', backBuf s.tracker xz yy b = .ok b' → b'.length = b.length := by
    intro x x' hx
    unfold backBuf at hx
    split at hx
    · obtain ⟨s, -, hx⟩ := bind_ok hx
      cases hx; rfl
    · cases hx
  obtain ⟨a1, b1, c1, d1, h1, rfl⟩ := backStep_ok h hpl (by rw [hb]; rfl)
  rw [hb] at h1
  unfold backBuf at h1
  obtain ⟨⟨b', c'⟩, hst, h1⟩ := bind_ok h1
  cases h1
  have hcb : ∀ p ∈ b.parts, p.cands = [] := by
    intro q hq
    obtain ⟨j, hj⟩ := List.getElem?_of_mem hq
    have hlt := (List.getElem?_eq_some_iff.1 hj).1
    obtain ⟨p, hp⟩ : ∃ p, (disk (last - 1 - i)).parts[j]? = some p := ⟨_, List.getElem?_eq_getElem (by omega)⟩
    obtain ⟨nx, e, -⟩ := hbp j p hp
    rw [hj] at e
    rw [Option.some.inj e]
    exact hc _ p (List.mem_of_getElem? hp)
  have hcd : c = disk (last - 2 - i) := hcc (by omega)
  subst hcd
  have hmb : Mutual (disk (last - 2 - i)).parts b.parts := by
    have := hm (last - 2 - i) (by omega) (by omega)
    rw [show last - 2 - (i : Int) + 1 = last - 1 - i by ring] at this
    refine mutual_congr ?_ this
    exact map_eq_of_getElem? _ hbl (fun j p hp => by
      obtain ⟨nx, e, -⟩ := hbp j p hp
      exact ⟨_, e, rfl⟩)
  have hv' : ∀ q ∈ (disk (last - 2 - i)).parts, q.prev = PREV_NONE ∨ 0 ≤ q.prev := by
    intro q hq
    by_cases hf : last - 2 - (i : Int) = last - L
    · rw [hf] at hq
      exact hv q hq
    · have := (hm (last - 2 - i - 1) (by omega) (by omega)).2.2
      rw [show last - 2 - (i : Int) - 1 + 1 = last - 2 - i by ring] at this
      rcases this q hq with h | ⟨k, h, -⟩
      · exact Or.inl h
      · right; omega
  obtain ⟨n, hnn⟩ : ∃ n : Int, n = last - 1 - i := ⟨_, rfl⟩
  have hn3 : n + (i : Int) + 1 = last := by omega
  have e1 : last - 2 - (i : Int) = n - 1 := by omega
  have e2 : last - (i : Int) = n + 1 := by omega
  have e3 : last - 1 - (i : Int) = n := by omega
  clear hnn
  simp only [e1] at hst hmb hv'
  simp only [e3] at h hbp hbl hnow hbase
  simp only [e2] at ha hnow
  simp only [e3]
  obtain ⟨p, hp, hpx, hpv⟩ := hT.at_ n (by omega) (by omega)
  obtain ⟨q, hq, hqx, hqv⟩ := hT.at_ (n - 1) (by omega) (by omega)
  obtain ⟨r0, hr0, hr0x, -⟩ := hT.at_ (n + 1) (by omega) (by omega)
  obtain ⟨nx, hbn, -⟩ := hbp _ p hp
  have hnx : nx = num (n + 1) := by
    obtain ⟨pb, h1, h2⟩ := hnow _ _ _ _ hb
    rw [hbn] at h1
    cases h1
    exact h2
  subst hnx
  obtain ⟨ra, hra, hrax⟩ : ∃ ra, a.parts[num (n + 1)]? = some ra ∧ ra.x = y (n + 1) := by
    have := congrArg (fun l : List V3 => l[num (n + 1)]?) ha
    simp only [List.getElem?_map, hr0, Option.map_some, hr0x] at this
    rw [Option.map_eq_some_iff] at this
    exact this
  obtain ⟨-, -, -, -, f5, f6, f7, f8, f9⟩ := backStepFrames_spec hg hcb hst
  have f9 := f9 hmb
  obtain ⟨p', hp', hp'x, hp'n, hp'v⟩ := f7 _ _ hbn
  have hback : PointsBack b'.parts (num n) (num (n - 1)) := by
    rcases hpv with hpv | ⟨-, hpv⟩
    · obtain ⟨hsm, haw, hse, hjo⟩ := hgap n p (by omega) (by omega) hp hpv
      have hqn : q.next = NEXT_NONE := hT.gap n p q (by omega) (by omega) hp hpv hq
      refine gap_step s hn him B D hB hBD xz yy hcb hv' hmb hst (p := { p with next := (num (n + 1) : Int) }) (q := q) (r := ra)
        hbn (by simp) hpv (by simpa using hra) hq hqn ?_ ?_ ?_ ?_ ?_
      · simp only [hpx, hqx]
        exact hsm.1
      · simp only [hpx, hqx, hrax]
        exact hsm.2
      · intro hne
        rcases hqv with hqv | ⟨hlt, hqv⟩
        · exact absurd hqv hne
        · obtain ⟨q4, hq4, hq4x, -⟩ := hT.at_ (n - 2) (by omega) (by omega)
          have hde : d = disk (n - 2) := by
            rw [hdd (by omega)]
            congr 1
            omega
          refine ⟨q4, ?_, ?_⟩
          · rw [hqv, hde, show n - 1 - 1 = n - 2 by ring]
            exact pyGetI_nat hq4
          · simp only [hpx, hqx, hrax, hq4x]
            exact hjo q hq hne
      · constructor
        · intro j p2 hj hne
          have hlt := (List.getElem?_eq_some_iff.1 hj).1
          obtain ⟨pd, hpd⟩ : ∃ pd, (disk n).parts[j]? = some pd := ⟨_, List.getElem?_eq_getElem (by omega)⟩
          obtain ⟨nx, e, -⟩ := hbp j pd hpd
          rw [hj] at e
          cases e
          rw [hqx]
          refine haw.1 j pd.x ?_ ?_
          · rw [show n - 1 + 1 = n by ring, List.getElem?_map, hpd]; rfl
          · rw [show n - 1 + 1 = n by ring]; exact hne
        · intro j q2 hj hne
          have := haw.2 j q2.x (by rw [List.getElem?_map, hj]; rfl) hne
          rw [show n - 1 + 1 = n by ring] at this
          simp only [hpx]
          exact this
      · simp only [hpx, hrax]
        exact hse
    · refine ⟨p', hp', ?_⟩
      rcases hp'v with h | ⟨k, q', r', -, h, -⟩
      · rw [h]; exact hpv
      · simp only [hpv, PREV_NONE] at h
        omega
  have hwr2 : writesOf (r.log ++ [Ev.step n r.buf, Ev.write n b'] ++
      if n > last - L + 2 then [Ev.read (F := Frame V3 ℝ (Img ℝ)) (n - 3)] else []) =
      writesOf r.log ++ [(n, b')] := by
    split_ifs <;> simp [writesOf]
  refine ⟨hbase, ?_, ?_⟩
  · intro a2 b2 c2 d2 hb2
    simp only [List.cons.injEq] at hb2
    obtain ⟨rfl, rfl, -⟩ := hb2
    have := (f9.1 (num (n - 1)) (num n)).2 hback
    rw [show last - 1 - ((i + 1 : ℕ) : Int) = n - 1 by push_cast; omega, show last - ((i + 1 : ℕ) : Int) = n by push_cast; omega]
    exact this
  · simp only [hwr2]
    intro w hw'
    rw [List.mem_append, List.mem_singleton] at hw'
    rcases hw' with hw' | rfl
    · exact hwr w hw'
    · obtain ⟨p2, hp2, hp2v⟩ := hback
      rw [hp'] at hp2
      cases hp2
      exact ⟨p', hp', by rw [hp'x, hpx], hp2v, hp'n⟩

theorem GapInv.steps_all (s : Setup) (hn : 2 ≤ s.cals.length ∧ s.cals.length ≤ 4)
    (him : (s.ip.imx : ℝ) ≤ 10 ^ 19 ∧ (s.ip.imy : ℝ) ≤ 10 ^ 19) (B D : ℝ) (hB : LongestStep s B) (hBD : B < D)
    (xz : V3 → Bool) (yy : V3 → ℝ) (disk : Int → Frame V3 ℝ (Img ℝ)) (last : Int) (L : ℕ)
    (hm : ∀ n, last - L ≤ n → n < last → Mutual (disk n).parts (disk (n + 1)).parts)
    (hc : ∀ n, ∀ p ∈ (disk n).parts, p.cands = [])
    (hv : ∀ p ∈ (disk (last - L)).parts, p.prev = -1 ∨ 0 ≤ p.prev) (y : Int → V3) (num : Int → ℕ)
    (hT : Trail disk y num (last - L) last)
    (hgap : ∀ n p, last - L < n → n < last → (disk n).parts[num n]? = some p → p.prev = -1 → Closable s disk y num D n) (k : ℕ) :
    ∀ i r r', i + k + 1 = L → GapInv s disk y num last L i r →
      backSteps disk (backBuf s.tracker xz yy) (last - L) k (last - 1 - i) r = .ok r' → GapInv s disk y num last L (L - 1) r' := by
  induction k with
  | zero =>
    intro i r r' hi hI h
    cases h
    have : i = L - 1 := by omega
    subst this; exact hI
  | succ k ih =>
    intro i r r' hi hI h
    unfold backSteps at h
    obtain ⟨r1, h1, h⟩ := bind_ok h
    refine ih (i + 1) r1 r' (by omega) (GapInv.step s hn him B D hB hBD xz yy disk last L hm hc hv y num hT hgap (by omega) hI h1) ?_
    rw [← h]; congr 1; push_cast; ring

/-- C137: backward tracking closes the gaps of a trajectory. The frames `last - L .. last` are consistently linked; a particle is in
all of them, partly linked, with gaps (`Trail`), each of which can be closed (`Closable`). If the backward run returns, then in all frames
it writes under their own number, `last - 1 .. last - L + 1`, the particle is where it was and is linked to the particle of the frame
before and of the frame after. Proper for frames from disk, of which the first only has links to particles or none. -/
theorem C137_gaps_closed (s : Setup) (hn : 2 ≤ s.cals.length ∧ s.cals.length ≤ 4)
    (him : (s.ip.imx : ℝ) ≤ 10 ^ 19 ∧ (s.ip.imy : ℝ) ≤ 10 ^ 19) (B D : ℝ) (hB : LongestStep s B) (hBD : B < D)
    (xz : V3 → Bool) (yy : V3 → ℝ) (disk : Int → Frame V3 ℝ (Img ℝ)) (last : Int) (L : ℕ) (hL : 2 ≤ L)
    (hm : ∀ n, last - L ≤ n → n < last → Mutual (disk n).parts (disk (n + 1)).parts)
    (hc : ∀ n, ∀ p ∈ (disk n).parts, p.cands = [])
    (hv : ∀ p ∈ (disk (last - L)).parts, p.prev = -1 ∨ 0 ≤ p.prev) (y : Int → V3) (num : Int → ℕ)
    (hT : Trail disk y num (last - L) last)
    (hgap : ∀ n p, last - L < n → n < last → (disk n).parts[num n]? = some p → p.prev = -1 → Closable s disk y num D n)
    (a b c d : Frame V3 ℝ (Img ℝ)) (r : Run (Frame V3 ℝ (Img ℝ)))
    (h : backRun disk (backBuf s.tracker xz yy) (last - L) last [a, b, c, d] = .ok r) :
    (writesOf r.log).dropLast.map Prod.fst = (List.range (L - 1)).map (fun j : ℕ => last - 1 - (j : Int)) ∧
    ∀ n f, (n, f) ∈ (writesOf r.log).dropLast →
      ∃ p, f.parts[num n]? = some p ∧ p.x = y n ∧ p.prev = num (n - 1) ∧ p.next = num (n + 1) := by
  have hg : SearchSane s.tracker := C81_search_sane s.cams _ him hn.2
  constructor
  · obtain ⟨ws, f, e1, e2, e3, -, -⟩ := C84_backward_run_partial s.tracker hg xz yy disk last L hL hm hc a b c d r h
    rw [e1, List.dropLast_concat]
    have key : ∀ (ws : List (Int × Frame V3 ℝ (Img ℝ))) (m : Int) (g : Frame V3 ℝ (Img ℝ)), BackChain ((m, g) :: ws) →
        ws.map Prod.fst = (List.range ws.length).map (fun j : ℕ => m - 1 - (j : Int)) := by
      intro ws
      induction ws with
      | nil => intro m g _; rfl
      | cons w ws ih =>
        intro m g hch
        unfold BackChain at hch
        rw [List.isChain_cons_cons] at hch
        have := hch.1.1
        simp only at this
        rw [List.map_cons, ih w.1 w.2 hch.2, List.length_cons, List.range_succ_eq_map, List.map_cons, List.map_map]
        congr 1
        · simp; omega
        · refine List.map_congr_left fun j _ => ?_
          simp only [Function.comp, Nat.succ_eq_add_one]
          push_cast
          omega
    have hch : BackChain ((last, disk last) :: ws) := by
      unfold BackChain at e3 ⊢
      exact (List.isChain_append.1 e3).1
    rw [key ws _ _ hch, e2]
  · unfold backRun at h
    obtain ⟨r1, h1, h⟩ := bind_ok h
    have hnn : (last - 1 - (last - (L : Int))).toNat = L - 1 := by omega
    rw [hnn, backStart_eq] at h1
    have h0 : BRInv s.tracker disk last L 0 ⟨[disk last, disk (last - 1), disk (last - 2), disk (last - 3)],
          [.read last, .read (last - 1), .read (last - 2), .read (last - 3)]⟩ := by
      refine ⟨⟨_, _, _, _, rfl, by simp, ?_, by simp, ?_, ?_, ?_, ⟨[], by simp [writesOf]⟩⟩, ?_, ?_⟩
      · intro j p hp
        simp at hp
        exact ⟨p.next, hp, fun _ => rfl⟩
      · have := hm (last - 1) (by omega) (by omega)
        simpa using this
      · simp
      · simp
      · simp [writesOf, BackChain]
      · simp [writesOf]
    have hI0 : GapInv s disk y num last L 0 ⟨[disk last, disk (last - 1), disk (last - 2), disk (last - 3)],
          [.read last, .read (last - 1), .read (last - 2), .read (last - 3)]⟩ := by
      refine ⟨h0, ?_, by simp [writesOf]⟩
      intro a2 b2 c2 d2 hb2
      simp only [List.cons.injEq] at hb2
      obtain ⟨-, rfl, -⟩ := hb2
      obtain ⟨p, hp, hpv⟩ := hT.end_
      have := hm (last - 1) (by omega) (by omega)
      rw [show last - 1 + 1 = last by ring] at this
      have := (this.1 (num (last - 1)) (num last)).2 ⟨p, hp, hpv⟩
      simpa using this
    have h2 := GapInv.steps_all s hn him B D hB hBD xz yy disk last L hm hc hv y num hT hgap (L - 1) 0 _ r1 (by omega) hI0
      (by rw [← h1]; congr 1; simp)
    split_ifs at h with hz hq
    swap
    · exact absurd (by omega) hq
    obtain ⟨⟨a', b', c', d', hb, -⟩, -, -⟩ := h2.base
    have e : r = ⟨[b', c', d', a'], r1.log ++ [.write (last - L + 1) b']⟩ := by
      simp [writeFromStart, Run.next, fbNext, pyGet, bind, Except.bind, hb] at h
      rw [← h]
    subst e
    intro n f hf
    have : writesOf (r1.log ++ [Ev.write (last - L + 1) b']) = writesOf r1.log ++ [(last - L + 1, b')] := by simp [writesOf]
    simp only [this, List.dropLast_concat] at hf
    exact h2.writes _ hf

end Verif.Track
