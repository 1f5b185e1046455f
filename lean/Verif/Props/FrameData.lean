/-
C46: corrected coordinates. C65: adding a particle to a frame.
-/
import Verif.Model.FrameData
import Mathlib.Data.List.Sort
import Mathlib.Data.List.Nodup

namespace Verif.Track

/-! ### C65 -/

/-- What C65 demands of one call: a new last particle at `x` whose correspondences are the candidates
(`CORRES_NONE` where there is none), nothing else changed in the correspondence table, exactly the
candidate targets numbered with the new particle. -/
structure Spec.Added {P : Type} (f f' : AFrame P) (x : P) (cands : List Int) : Prop where
  pos : f'.pos = f.pos ++ [x]
  old : ∀ i, i < f.corr.length → f'.corr[i]? = f.corr[i]?
  new : ∃ r, f'.corr[f.corr.length]? = some r ∧ r.p.take cands.length = cands
  tnr : ∀ (cam j : Nat), (f'.tnr[cam]?).bind (fun l : List Int => l[j]?) =
    if cands[cam]? = some (j : Int) then some (f.pos.length : Int)
    else (f.tnr[cam]?).bind (fun l : List Int => l[j]?)

theorem setRow_ok {c : List Corres} {cam : Nat} {v : Int} (h : cam < c.length) :
    setRow c cam v = .ok (c.set cam { c[cam] with p := [v, v, v, v] }) := by
  simp [setRow, List.getElem?_eq_getElem h]

/-- What the table looks like while cameras below `k` have been treated: rows below `k` are filled with
that camera's candidate, the others are untouched except for their number. -/
def Filled (c0 c : List Corres) (cands : List Int) (k : Nat) : Prop :=
  c.length = c0.length ∧ ∀ i (h : i < c0.length), ∃ r, c[i]? = some r ∧
    r.p = if i < k then List.replicate 4 (cands.getD i 0) else c0[i].p

theorem addCams_spec (numParts : Int) (c0 : List Corres) (all : List Int) :
    ∀ (cands : List Int) (k : Nat) (c : List Corres) (t : List (List Int)),
    all.drop k = cands → k + cands.length ≤ c0.length → Filled c0 c all k →
    (∀ i, (h : i < cands.length) → cands[i] ≠ PT_UNUSED ∧
      ∃ ts, t[k + i]? = some ts ∧ ts ≠ [] ∧ -(ts.length : Int) ≤ cands[i] ∧ cands[i] < ts.length) →
    ∃ c' t', addCams numParts k cands c t = .ok (c', t') ∧ Filled c0 c' all (k + cands.length) ∧
      t'.length = t.length ∧
      (∀ cam, (cam < k ∨ k + cands.length ≤ cam) → t'[cam]? = t[cam]?) ∧
      (∀ i (h : i < cands.length) ts, t[k + i]? = some ts → ∃ ts', pySetI ts cands[i] numParts = .ok ts' ∧
        t'[k + i]? = some ts') ∧
      (cands ≠ [] → ∀ r ∈ c', r.nr = numParts)
  | [], k, c, t, _, _, hf, _ =>
    ⟨c, t, rfl, by simpa using hf, rfl, fun _ _ => rfl, fun i h => absurd h (by simp), fun h => absurd rfl h⟩
  | cand :: cands, k, c, t, hall, hlen, hf, hc => by
    have hk : k < c.length := by rw [hf.1]; simp at hlen; omega
    obtain ⟨hne, ts, hts, hts0, hlo, hhi⟩ := hc 0 (by simp)
    simp only [List.getElem_cons_zero, Nat.add_zero] at hne hts hlo hhi
    have hset : ∃ ts', pySetI ts cand numParts = .ok ts' := by
      simp only [pySetI]
      split_ifs
      · exact ⟨_, rfl⟩
      · omega
      · exact ⟨_, rfl⟩
      · omega
    obtain ⟨ts', hts'⟩ := hset
    have hcand : all.getD k 0 = cand := by
      have : all[k]? = some cand := by
        have := congrArg (·[0]?) hall
        simpa using this
      rw [List.getD_eq_getElem?_getD, this]; rfl
    set r0 := c[k] with hr0
    set c2 := setNr ((c.set k { r0 with p := [CORRES_NONE, CORRES_NONE, CORRES_NONE, CORRES_NONE] }).set k
      { r0 with p := [cand, cand, cand, cand] }) numParts with hc2
    have hstep : addCam numParts k cand c t = .ok (c2, t.set k ts') := by
      rw [addCam, setRow_ok hk]
      simp only [bind, Except.bind, if_pos hne, pyGet, hts, hts']
      rw [setRow_ok (by simpa using hk)]
      simp [hc2, hr0]
    have hf2 : Filled c0 c2 all (k + 1) := by
      refine ⟨by simp [hc2, setNr, hf.1], fun i hi => ?_⟩
      have hi' : i < c.length := by rw [hf.1]; exact hi
      by_cases hik : i = k
      · subst hik
        refine ⟨{ r0 with nr := numParts, p := [cand, cand, cand, cand] }, ?_, ?_⟩
        · simp [hc2, setNr, hi']
        · rw [if_pos (by omega), hcand]; rfl
      · obtain ⟨r, hr, hrp⟩ := hf.2 i hi
        refine ⟨{ r with nr := numParts }, ?_, ?_⟩
        · simp [hc2, setNr, List.getElem?_set_ne (Ne.symm hik), hr]
        · show r.p = _
          rw [hrp]
          by_cases h : i < k
          · rw [if_pos h, if_pos (by omega)]
          · rw [if_neg h, if_neg (by omega)]
    have hk' : k < t.length := by
      have := List.getElem?_eq_some_iff.1 hts
      exact this.1
    obtain ⟨c', t', e1, e2, e3, e4, e5, e6⟩ := addCams_spec numParts c0 all cands (k + 1) c2 (t.set k ts')
      (by rw [← List.drop_drop, hall]; rfl) (by simp at hlen; omega) hf2 (by
        intro i hi
        obtain ⟨a1, ts1, a2, a3⟩ := hc (i + 1) (by simpa using hi)
        refine ⟨by simpa using a1, ts1, ?_, by simpa using a3⟩
        rw [List.getElem?_set_ne (by omega), ← a2]
        congr 1; omega)
    refine ⟨c', t', ?_, ?_, ?_, ?_, ?_, ?_⟩
    · simp only [addCams, hstep, bind, Except.bind, e1]
    · rw [show k + (cand :: cands).length = k + 1 + cands.length by simp; omega]; exact e2
    · rw [e3]; simp
    · intro cam hcam
      simp only [List.length_cons] at hcam
      rw [e4 cam (by omega), List.getElem?_set_ne (by omega)]
    · intro i hi ts1 h1
      cases i with
      | zero =>
        simp only [Nat.add_zero] at h1
        rw [hts] at h1
        cases h1
        refine ⟨ts', by simpa using hts', ?_⟩
        simp only [Nat.add_zero]
        rw [e4 k (by omega)]
        simp [hk']
      | succ i =>
        have := e5 i (by simpa using hi) ts1 (by
          rw [List.getElem?_set_ne (by omega), ← h1]; congr 1; omega)
        obtain ⟨ts2, b1, b2⟩ := this
        refine ⟨ts2, by simpa using b1, ?_⟩
        rw [← b2]; congr 1; omega
    · intro _
      by_cases hcs : cands = []
      · subst hcs
        simp only [addCams, Except.ok.injEq, Prod.mk.injEq] at e1
        rw [← e1.1]
        intro r hr
        simp only [hc2, setNr, List.mem_map] at hr
        obtain ⟨r', -, rfl⟩ := hr
        rfl
      · exact e6 hcs

/-- C65, what the code does: with at least as many particles as cameras and targets in every camera,
`add_particle` succeeds and appends the position; but it overwrites the correspondences of the *first*
particles, one for each camera, with that camera's candidate in all four places, gives every particle the
same number, and gives the new particle a copy of the (old) first row, unless it is itself overwritten. In
each camera exactly the target at the candidate index is renumbered, where an absent candidate (-1) means
the last target. -/
theorem C65_effect_partial {P : Type} (f : AFrame P) (x : P) (cands : List Int) (r0 : Corres)
    (rest : List Corres) (hc : f.corr = r0 :: rest) (hn : cands.length ≤ f.corr.length)
    (hcand : ∀ i, (h : i < cands.length) → cands[i] ≠ PT_UNUSED ∧
      ∃ ts, f.tnr[i]? = some ts ∧ ts ≠ [] ∧ -(ts.length : Int) ≤ cands[i] ∧ cands[i] < ts.length) :
    ∃ f', addParticleFull f x cands = .ok f' ∧ f'.pos = f.pos ++ [x] ∧
      f'.corr.length = f.corr.length + 1 ∧
      (∀ i (h : i < f.corr.length), ∃ r, f'.corr[i]? = some r ∧
        r.p = if i < cands.length then List.replicate 4 (cands.getD i 0) else f.corr[i].p) ∧
      (∃ r, f'.corr[f.corr.length]? = some r ∧ r.p = r0.p) ∧
      (cands ≠ [] → ∀ r ∈ f'.corr, r.nr = f.pos.length) ∧
      (∀ i (h : i < cands.length) ts, f.tnr[i]? = some ts →
        ∃ ts', pySetI ts cands[i] f.pos.length = .ok ts' ∧ f'.tnr[i]? = some ts') := by
  have hlen : (resizeCorr f.corr).length = f.corr.length + 1 := by simp [resizeCorr]
  obtain ⟨c', t', e1, e2, e3, e4, e5, e6⟩ := addCams_spec f.pos.length (resizeCorr f.corr) cands cands 0
    (resizeCorr f.corr) f.tnr rfl (by omega)
    ⟨rfl, fun i hi => ⟨_, List.getElem?_eq_getElem hi, by simp⟩⟩ (by
      intro i hi
      obtain ⟨a, ts, b⟩ := hcand i hi
      exact ⟨a, ts, by simpa using b⟩)
  refine ⟨⟨f.pos ++ [x], c', t'⟩, ?_, rfl, ?_, ?_, ?_, e6, ?_⟩
  · simp only [addParticleFull, e1, bind, Except.bind]
  · show c'.length = _
    rw [e2.1, hlen]
  · intro i hi
    obtain ⟨r, h1, h2⟩ := e2.2 i (by omega)
    refine ⟨r, h1, ?_⟩
    rw [h2]
    simp only [Nat.zero_add]
    split_ifs
    · rfl
    · simp [resizeCorr, List.getElem_append_left hi]
  · obtain ⟨r, h1, h2⟩ := e2.2 f.corr.length (by omega)
    refine ⟨r, h1, ?_⟩
    rw [h2, if_neg (by omega)]
    simp [resizeCorr, hc]
  · intro i hi ts hts
    simpa using e5 i hi ts (by simpa using hts)

/-- A frame with two particles and two targets in each of two cameras. -/
def addEx : AFrame Unit := ⟨[(), ()], [⟨1, [0, 1, -1, -1]⟩, ⟨2, [1, -1, -1, -1]⟩], [[0, 1, -1], [1, 0]]⟩

/-- C65 is false: adding a particle whose only candidate is the free target of the first camera destroys
the correspondences of both old particles, and renumbers a target of the second camera that was not a
candidate. -/
theorem C65_refuted : addParticleFull addEx () [2, -1] =
      .ok ⟨[(), (), ()], [⟨2, [2, 2, 2, 2]⟩, ⟨2, [-1, -1, -1, -1]⟩, ⟨2, [0, 1, -1, -1]⟩],
        [[0, 1, 2], [1, 2]]⟩ ∧
    ¬ ∃ f', addParticleFull addEx () [2, -1] = .ok f' ∧ Spec.Added addEx f' () [2, -1] := by
  have h : addParticleFull addEx () [2, -1] =
      .ok ⟨[(), (), ()], [⟨2, [2, 2, 2, 2]⟩, ⟨2, [-1, -1, -1, -1]⟩, ⟨2, [0, 1, -1, -1]⟩],
        [[0, 1, 2], [1, 2]]⟩ := by
    rfl
  refine ⟨h, ?_⟩
  rintro ⟨f', h', hs⟩
  rw [h] at h'
  cases h'
  have := hs.old 0 (by decide)
  revert this
  decide

/-- What one camera's pass does to the rows and the numbers of the other cameras, and to its own if it has no candidate. -/
theorem addCam_effect {n : Int} {cam : Nat} {cand : Int} {c c' : List Corres} {t t' : List (List Int)}
    (h : addCam n cam cand c t = .ok (c', t')) :
    (∀ i, i ≠ cam → (c'[i]?).map (·.p) = (c[i]?).map (·.p) ∧ t'[i]? = t[i]?) ∧
    (cand = -999 → (c'[cam]?).map (·.p) = some [-1, -1, -1, -1] ∧ t'[cam]? = t[cam]?) := by
  unfold addCam at h
  by_cases hl : cam < c.length
  · rw [setRow_ok hl] at h
    simp only [bind, Except.bind] at h
    split at h
    · rename_i hne
      refine ⟨fun i hi => ?_, fun hc => absurd hc hne⟩
      cases e1 : pyGet t cam with
      | error e => rw [e1] at h; cases h
      | ok ts =>
        rw [e1] at h
        simp only at h
        cases e2 : pySetI ts cand n with
        | error e => rw [e2] at h; cases h
        | ok ts' =>
          rw [e2, setRow_ok (by simpa using hl)] at h
          simp only [Except.ok.injEq, Prod.mk.injEq] at h
          obtain ⟨rfl, rfl⟩ := h
          refine ⟨?_, List.getElem?_set_ne (Ne.symm hi)⟩
          simp only [setNr, List.getElem?_map, List.getElem?_set_ne (Ne.symm hi)]
          cases c[i]? <;> rfl
    · simp only [Except.ok.injEq, Prod.mk.injEq] at h
      obtain ⟨rfl, rfl⟩ := h
      refine ⟨fun i hi => ⟨by rw [List.getElem?_set_ne (Ne.symm hi)], rfl⟩, fun _ => ⟨?_, rfl⟩⟩
      simp only [List.getElem?_set_self hl]
      rfl
  · have : setRow c cam CORRES_NONE = .error .indexError := by
      rw [setRow, List.getElem?_eq_none (by omega)]
    rw [this] at h
    cases h

theorem addCams_effect {n : Int} : ∀ (cands : List Int) (k : Nat) (c c' : List Corres) (t t' : List (List Int)),
    addCams n k cands c t = .ok (c', t') →
    (∀ i, i < k → (c'[i]?).map (·.p) = (c[i]?).map (·.p) ∧ t'[i]? = t[i]?) ∧
    (∀ i, cands[i]? = some (-999) → (c'[k + i]?).map (·.p) = some [-1, -1, -1, -1] ∧ t'[k + i]? = t[k + i]?)
  | [], k, c, c', t, t', h => by
    simp only [addCams, Except.ok.injEq, Prod.mk.injEq] at h
    obtain ⟨rfl, rfl⟩ := h
    exact ⟨fun _ _ => ⟨rfl, rfl⟩, fun i hi => by simp at hi⟩
  | cand :: cands, k, c, c', t, t', h => by
    simp only [addCams, bind, Except.bind] at h
    cases e : addCam n k cand c t with
    | error e' => rw [e] at h; cases h
    | ok r =>
      obtain ⟨c1, t1⟩ := r
      rw [e] at h
      obtain ⟨a, b⟩ := addCams_effect cands (k + 1) c1 c' t1 t' h
      obtain ⟨a', b'⟩ := addCam_effect e
      refine ⟨fun i hi => ?_, fun i hi => ?_⟩
      · have h1 := a i (by omega)
        have h2 := a' i (by omega)
        exact ⟨h1.1.trans h2.1, h1.2.trans h2.2⟩
      · cases i with
        | zero =>
          simp only [List.getElem?_cons_zero, Option.some.injEq] at hi
          have h1 := a k (by omega)
          have h2 := b' hi
          exact ⟨h1.1.trans h2.1, h1.2.trans h2.2⟩
        | succ i =>
          have h1 := b i (by simpa using hi)
          have h2 := a' (k + (i + 1)) (by omega)
          rw [show k + 1 + i = k + (i + 1) by omega] at h1
          exact ⟨h1.1, h1.2.trans h2.2⟩

/-- C65: where a camera has no candidate (-999), none of its targets is numbered, and what is recorded for it is -1 ("no
correspondence") — but, as in `C65_refuted`, over the row of another particle. -/
theorem C65_no_candidate_partial {P : Type} (f f' : AFrame P) (x : P) (cands : List Int) (i : Nat)
    (h : addParticleFull f x cands = .ok f') (hi : cands[i]? = some (-999)) :
    f'.pos = f.pos ++ [x] ∧ f'.tnr[i]? = f.tnr[i]? ∧ ∃ r, f'.corr[i]? = some r ∧ r.p = [-1, -1, -1, -1] := by
  simp only [addParticleFull, bind, Except.bind] at h
  cases e : addCams f.pos.length 0 cands (resizeCorr f.corr) f.tnr with
  | error e' => rw [e] at h; cases h
  | ok r =>
    rw [e] at h
    simp only [Except.ok.injEq] at h
    subst h
    obtain ⟨c', t'⟩ := r
    obtain ⟨h1, h2⟩ := (addCams_effect cands 0 _ _ _ _ e).2 i hi
    rw [Nat.zero_add] at h1 h2
    refine ⟨rfl, h2, ?_⟩
    cases e3 : c'[i]? with
    | none => rw [e3] at h1; cases h1
    | some r => rw [e3] at h1; exact ⟨r, rfl, by simpa using h1⟩

/-- The second camera has no candidate. -/
example : addParticleFull addEx () [2, -999] =
    .ok ⟨[(), (), ()], [⟨2, [2, 2, 2, 2]⟩, ⟨2, [-1, -1, -1, -1]⟩, ⟨2, [0, 1, -1, -1]⟩], [[0, 1, 2], [1, 0]]⟩ := rfl

/-- A frame without particles and two cameras: adding a particle raises IndexError. -/
theorem C65_first_particle_refuted (P : Type) (x : P) (c1 c2 : Int) (cs : List Int)
    (t : List (List Int)) (f' : AFrame P) :
    addParticleFull ⟨[], [], t⟩ x (c1 :: c2 :: cs) ≠ .ok f' := by
  intro h
  simp only [addParticleFull, addCams, bind, Except.bind] at h
  have e2 : ∀ (c : List Corres) (tt : List (List Int)), c.length = 1 → addCam 0 1 c2 c tt = .error .indexError := by
    intro c tt hc
    have : c[1]? = none := List.getElem?_eq_none (by omega)
    simp [addCam, setRow, this, bind, Except.bind]
  have hl : ∀ r, addCam 0 0 c1 (resizeCorr []) t = .ok r → r.1.length = 1 := by
    intro r hr
    simp only [addCam, setRow, resizeCorr, bind, Except.bind, List.nil_append,
      List.getElem?_cons_zero, List.set_cons_zero] at hr
    split_ifs at hr
    · cases h1 : pyGet t 0 with
      | error e => rw [h1] at hr; simp at hr
      | ok ts =>
        rw [h1] at hr
        simp only at hr
        cases h2 : pySetI ts c1 0 with
        | error e => rw [h2] at hr; simp at hr
        | ok ts' =>
          rw [h2] at hr
          simp only [Except.ok.injEq] at hr
          rw [← hr]; simp [setNr]
    · simp only [Except.ok.injEq] at hr
      rw [← hr]; rfl
  cases h1 : addCam 0 0 c1 (resizeCorr []) t with
  | error e =>
    simp only [List.length_nil, Nat.cast_zero] at h
    rw [h1] at h; simp at h
  | ok r =>
    simp only [List.length_nil, Nat.cast_zero] at h
    rw [h1] at h
    simp only [Nat.zero_add, e2 r.1 r.2 (hl r h1)] at h
    simp at h

end Verif.Track

namespace Verif.Geo

/-! ### C46 -/

theorem coordLe_trans : ∀ a b c : Coord, coordLe a b → coordLe b c → coordLe a c := by
  intro a b c h1 h2
  simp only [coordLe] at *
  rcases h1 with h1 | ⟨h1, h1'⟩
  · rcases h2 with h2 | ⟨h2, -⟩
    · exact Or.inl (h1.trans h2)
    · exact Or.inl (h2 ▸ h1)
  · rcases h2 with h2 | ⟨h2, h2'⟩
    · exact Or.inl (h1 ▸ h2)
    · refine Or.inr ⟨h1.trans h2, ?_⟩
      rcases h1' with h1' | ⟨h1', h1''⟩
      · rcases h2' with h2' | ⟨h2', -⟩
        · exact Or.inl (h1'.trans h2')
        · exact Or.inl (h2' ▸ h1')
      · rcases h2' with h2' | ⟨h2', h2''⟩
        · exact Or.inl (h1' ▸ h2')
        · exact Or.inr ⟨h1'.trans h2', h1''.trans h2''⟩

theorem coordLe_total : ∀ a b : Coord, coordLe a b ∨ coordLe b a := by
  intro a b
  simp only [coordLe]
  rcases lt_trichotomy a.x b.x with h | h | h
  · exact Or.inl (Or.inl h)
  · rcases lt_trichotomy a.pnr b.pnr with k | k | k
    · exact Or.inl (Or.inr ⟨h, Or.inl k⟩)
    · rcases le_total a.y b.y with l | l
      · exact Or.inl (Or.inr ⟨h, Or.inr ⟨k, l⟩⟩)
      · exact Or.inr (Or.inr ⟨h.symm, Or.inr ⟨k.symm, l⟩⟩)
    · exact Or.inr (Or.inr ⟨h.symm, Or.inl k⟩)
  · exact Or.inr (Or.inl h)

theorem matchRows_get {ip : ImgPar} {cal : Cam} {tol : ℝ} {reset : Bool} :
    ∀ (ts : List TgtXY) (n i : Nat), (matchRows ip cal tol reset n ts)[i]?
      = (ts[i]?).map (matchRow ip cal tol reset (n + i))
  | [], n, i => by simp [matchRows]
  | t :: ts, n, 0 => by simp [matchRows]
  | t :: ts, n, i + 1 => by
    simp only [matchRows, List.getElem?_cons_succ, matchRows_get ts (n + 1) i]
    rw [show n + 1 + i = n + (i + 1) by omega]

theorem matchRows_eq (ip : ImgPar) (cal : Cam) (tol : ℝ) (reset : Bool) (ts : List TgtXY) :
    matchRows ip cal tol reset 0 ts
      = ts.zipIdx.map fun p => matchRow ip cal tol reset p.2 p.1 := by
  apply List.ext_getElem?
  intro i
  rw [matchRows_get]
  simp [List.getElem?_zipIdx]
  cases ts[i]? <;> simp

/-- C46: the result of `match_coords` is sorted by x and is a rearrangement of one row per target: the
flat coordinates of the target and its number (its index in the list, if the numbers are reset). -/
theorem C46_sorted_relabelling (ts : List TgtXY) (ip : ImgPar) (cal : Cam) (tol : ℝ) (reset : Bool) :
    (matchCoords ts ip cal tol reset).Pairwise (fun a b => a.x ≤ b.x) ∧
    (matchCoords ts ip cal tol reset).Perm (ts.zipIdx.map fun p =>
      ⟨if reset then p.2 else p.1.pnr,
       (distToFlat (pixelToMetric p.1.x p.1.y ip).1 (pixelToMetric p.1.x p.1.y ip).2 cal.xh cal.yh cal.ap
         tol).1,
       (distToFlat (pixelToMetric p.1.x p.1.y ip).1 (pixelToMetric p.1.x p.1.y ip).2 cal.xh cal.yh cal.ap
         tol).2⟩) := by
  constructor
  · have h := List.pairwise_mergeSort (le := fun a b => decide (coordLe a b))
      (fun a b c h1 h2 => by simpa using coordLe_trans a b c (by simpa using h1) (by simpa using h2))
      (fun a b => by simpa using coordLe_total a b) (matchRows ip cal tol reset 0 ts)
    refine h.imp ?_
    intro a b hab
    have hab : coordLe a b := by simpa using hab
    rcases hab with h | ⟨h, -⟩
    · exact h.le
    · exact h.le
  · rw [matchCoords, matchRows_eq]
    exact List.mergeSort_perm _ _

/-- C46: with reset numbers, the number of every row is the index of the target it was made from, and
every target has exactly one row. -/
theorem C46_numbers (ts : List TgtXY) (ip : ImgPar) (cal : Cam) (tol : ℝ) :
    ((matchCoords ts ip cal tol true).map Coord.pnr).Perm ((List.range ts.length).map (fun n : Nat => (n : Int))) ∧
    ((matchCoords ts ip cal tol true).map Coord.pnr).Nodup ∧
    (∀ c ∈ matchCoords ts ip cal tol true, ∃ t, ts[c.pnr.toNat]? = some t ∧
      (c.x, c.y) = distToFlat (pixelToMetric t.x t.y ip).1 (pixelToMetric t.x t.y ip).2 cal.xh cal.yh
        cal.ap tol) ∧
    (matchTargets true ts).map TgtXY.pnr = (List.range ts.length).map (fun n : Nat => (n : Int)) := by
  have hp := (C46_sorted_relabelling ts ip cal tol true).2
  have hr : (ts.zipIdx.map (fun p : TgtXY × Nat => (p.2 : Int))) = (List.range ts.length).map (fun n : Nat => (n : Int)) := by
    rw [List.range_eq_range', ← List.zipIdx_map_snd 0 ts, List.map_map]
    apply List.map_congr_left
    intro a _; rfl
  have h1 : ((matchCoords ts ip cal tol true).map Coord.pnr).Perm
      ((List.range ts.length).map (fun n : Nat => (n : Int))) := by
    have := hp.map Coord.pnr
    rw [List.map_map] at this
    rw [← hr]
    refine this.trans (List.Perm.of_eq ?_)
    apply List.map_congr_left
    intro a _; simp
  refine ⟨h1, ?_, ?_, ?_⟩
  · rw [h1.nodup_iff]
    exact (List.nodup_range).map (fun a b h => by exact_mod_cast h)
  · intro c hc
    have := hp.mem_iff.1 hc
    obtain ⟨p, hp1, rfl⟩ := List.mem_map.1 this
    refine ⟨p.1, ?_, rfl⟩
    have := List.mem_zipIdx_iff_getElem?.1 hp1
    simpa using this
  · rw [← hr, matchTargets, List.map_map]
    apply List.map_congr_left
    intro a _; simp

theorem putCoord_get (pnrs : List Int) (hn : pnrs.Nodup) (pos : List (ℝ × ℝ))
    (hl : pos.length = pnrs.length) (c : Coord) (i : Nat) (k : Int) (hk : pnrs[i]? = some k) :
    (putCoord pnrs pos c)[i]? = if k = c.pnr then some (c.x, c.y) else pos[i]? := by
  have hi : i < pnrs.length := (List.getElem?_eq_some_iff.1 hk).1
  unfold putCoord
  cases h : pnrs.findIdx? (fun k => k == c.pnr) with
  | none =>
    have := List.findIdx?_eq_none_iff.1 h k (List.mem_of_getElem? hk)
    rw [if_neg (by simpa using this)]
  | some j =>
    obtain ⟨hj, hj2, -⟩ := List.findIdx?_eq_some_iff_getElem.1 h
    simp only
    by_cases hij : j = i
    · subst hij
      have : k = c.pnr := by
        rw [List.getElem?_eq_getElem hj, Option.some.injEq] at hk
        rw [← hk]; simpa using hj2
      rw [if_pos this]
      simp [hl, hj]
    · rw [List.getElem?_set_ne hij, if_neg]
      intro e
      apply hij
      have h1 : pnrs[j] = pnrs[i] := by
        rw [List.getElem?_eq_getElem hi, Option.some.injEq] at hk
        rw [hk, e]; simpa using hj2
      exact (List.Nodup.getElem_inj_iff hn).1 h1

theorem putCoord_length (pnrs : List Int) (pos : List (ℝ × ℝ)) (c : Coord) :
    (putCoord pnrs pos c).length = pos.length := by
  unfold putCoord; split <;> simp

theorem foldl_put_get (pnrs : List Int) (hn : pnrs.Nodup) : ∀ (cs : List Coord) (pos : List (ℝ × ℝ)),
    pos.length = pnrs.length → (cs.map Coord.pnr).Nodup → ∀ (i : Nat) (k : Int), pnrs[i]? = some k →
    (∀ c ∈ cs, c.pnr = k → (cs.foldl (putCoord pnrs) pos)[i]? = some (c.x, c.y)) ∧
    ((∀ c ∈ cs, c.pnr ≠ k) → (cs.foldl (putCoord pnrs) pos)[i]? = pos[i]?)
  | [], pos, hl, hd, i, k, hk => by simp
  | c :: cs, pos, hl, hd, i, k, hk => by
    have hd' := List.nodup_cons.1 (by simpa using hd : (c.pnr :: cs.map Coord.pnr).Nodup)
    obtain ⟨a, b⟩ := foldl_put_get pnrs hn cs (putCoord pnrs pos c) (by rw [putCoord_length, hl]) hd'.2
      i k hk
    simp only [List.foldl_cons]
    have hg := putCoord_get pnrs hn pos hl c i k hk
    constructor
    · intro d hdm hdk
      rcases List.mem_cons.1 hdm with rfl | hdm
      · rw [b, hg, if_pos hdk.symm]
        intro e he hek
        exact hd'.1 (List.mem_map.2 ⟨e, he, by rw [hek, hdk]⟩)
      · exact a d hdm hdk
    · intro hno
      rw [b (fun d hd => hno d (List.mem_cons_of_mem _ hd)), hg,
        if_neg (fun e => hno c (by simp) e.symm)]

/-- C46: for different requested numbers and coordinates with different numbers, `get_by_pnrs` returns for
every requested number the coordinates that carry it, and the unused marker if there are none. -/
theorem C46_get_by_pnrs (cs : List Coord) (pnrs : List Int) (unused : ℝ) (hn : pnrs.Nodup)
    (hd : (cs.map Coord.pnr).Nodup) :
    (getByPnrs cs pnrs unused).length = pnrs.length ∧
    ∀ (i : Nat) (k : Int), pnrs[i]? = some k →
      (∀ c ∈ cs, c.pnr = k → (getByPnrs cs pnrs unused)[i]? = some (c.x, c.y)) ∧
      ((∀ c ∈ cs, c.pnr ≠ k) → (getByPnrs cs pnrs unused)[i]? = some (unused, unused)) := by
  constructor
  · have : ∀ (cs : List Coord) (pos : List (ℝ × ℝ)), (cs.foldl (putCoord pnrs) pos).length = pos.length := by
      intro cs
      induction cs with
      | nil => intro pos; rfl
      | cons c cs ih => intro pos; rw [List.foldl_cons, ih, putCoord_length]
    rw [getByPnrs, this]; simp
  · intro i k hk
    obtain ⟨a, b⟩ := foldl_put_get pnrs hn cs (pnrs.map fun _ => (unused, unused)) (by simp) hd i k hk
    refine ⟨a, fun h => ?_⟩
    rw [getByPnrs, b h, List.getElem?_map, hk]
    rfl

/-- C46, the round trip a user relies on: for the corrected coordinates of a target list, asking for the
numbers of any different targets returns their flat coordinates. -/
theorem C46_lookup (ts : List TgtXY) (ip : ImgPar) (cal : Cam) (tol unused : ℝ) (idx : List Nat)
    (hn : idx.Nodup) (i n : Nat) (t : TgtXY) (hi : idx[i]? = some n) (ht : ts[n]? = some t) :
    (getByPnrs (matchCoords ts ip cal tol true) (idx.map (fun m : Nat => (m : Int))) unused)[i]?
      = some (distToFlat (pixelToMetric t.x t.y ip).1 (pixelToMetric t.x t.y ip).2 cal.xh cal.yh
        cal.ap tol) := by
  obtain ⟨-, h2, h3, -⟩ := C46_numbers ts ip cal tol
  obtain ⟨-, h⟩ := C46_get_by_pnrs (matchCoords ts ip cal tol true) (idx.map (fun m : Nat => (m : Int))) unused
    (hn.map (fun a b h => by exact_mod_cast h)) h2
  have hm : ∃ c ∈ matchCoords ts ip cal tol true, c.pnr = n := by
    have hp := (C46_numbers ts ip cal tol).1
    have : (n : Int) ∈ (matchCoords ts ip cal tol true).map Coord.pnr := by
      rw [hp.mem_iff]
      exact List.mem_map.2 ⟨n, by simp; exact (List.getElem?_eq_some_iff.1 ht).1, rfl⟩
    obtain ⟨c, hc, e⟩ := List.mem_map.1 this
    exact ⟨c, hc, e⟩
  obtain ⟨c, hc, hcn⟩ := hm
  rw [(h i n (by simp [hi])).1 c hc hcn]
  obtain ⟨t', ht', e⟩ := h3 c hc
  rw [hcn] at ht'
  simp only [Int.toNat_natCast] at ht'
  rw [ht] at ht'
  cases ht'
  rw [e]

/-- Three targets, two of them looked up in reverse order. -/
example (ip : ImgPar) (cal : Cam) :
    (getByPnrs (matchCoords [⟨-999, 5, 1⟩, ⟨-999, 3, 2⟩, ⟨-999, 4, 3⟩] ip cal 0 true) [2, 0] (-1e10))[0]?
      = some (distToFlat (pixelToMetric 4 3 ip).1 (pixelToMetric 4 3 ip).2 cal.xh cal.yh cal.ap 0) :=
  C46_lookup [⟨-999, 5, 1⟩, ⟨-999, 3, 2⟩, ⟨-999, 4, 3⟩] ip cal 0 (-1e10) [2, 0] (by decide) 0 2
    ⟨-999, 4, 3⟩ rfl rfl

theorem fillArrays_eq : ∀ (cs : List Coord) (pre1 : List (ℝ × ℝ)) (pre2 : List Int) (g1 : List (ℝ × ℝ)) (g2 : List Int),
    pre1.length = pre2.length → g1.length = cs.length → g2.length = cs.length →
    fillArrays pre1.length cs (pre1 ++ g1, pre2 ++ g2) = (pre1 ++ cs.map (fun c => (c.x, c.y)), pre2 ++ cs.map Coord.pnr)
  | [], pre1, pre2, g1, g2, _, h1, h2 => by
    rw [List.length_eq_zero_iff.1 h1, List.length_eq_zero_iff.1 h2]
    rfl
  | c :: cs, pre1, pre2, g1, g2, h, h1, h2 => by
    obtain ⟨a, g1, rfl⟩ := List.exists_cons_of_length_pos (l := g1) (by rw [h1]; simp)
    obtain ⟨b, g2, rfl⟩ := List.exists_cons_of_length_pos (l := g2) (by rw [h2]; simp)
    have e1 : (pre1 ++ a :: g1).set pre1.length (c.x, c.y) = (pre1 ++ [(c.x, c.y)]) ++ g1 := by
      rw [List.set_append_right _ _ le_rfl]
      simp
    have e2 : (pre2 ++ b :: g2).set pre1.length c.pnr = (pre2 ++ [c.pnr]) ++ g2 := by
      rw [h, List.set_append_right _ _ le_rfl]
      simp
    have ih := fillArrays_eq cs (pre1 ++ [(c.x, c.y)]) (pre2 ++ [c.pnr]) g1 g2 (by simp [h]) (by simpa using h1) (by simpa using h2)
    simp only [fillArrays, e1, e2]
    simp only [List.length_append, List.length_singleton] at ih
    rw [ih]
    simp

/-- C118: `matched_coords_as_arrays` gives the positions and numbers of all matched coordinates in their order, and nothing of what was in
memory before; and if the numbers are all different, `get_by_pnrs` with these numbers gives these positions back. -/
theorem C118_arrays (cs : List Coord) (gpos : List (ℝ × ℝ)) (gpnr : List Int) (h1 : gpos.length = cs.length)
    (h2 : gpnr.length = cs.length) :
    coordsAsArrays gpos gpnr cs = (cs.map (fun c => (c.x, c.y)), cs.map Coord.pnr) ∧
    ((cs.map Coord.pnr).Nodup → ∀ unused,
      getByPnrs cs (coordsAsArrays gpos gpnr cs).2 unused = (coordsAsArrays gpos gpnr cs).1) := by
  have e : coordsAsArrays gpos gpnr cs = (cs.map (fun c => (c.x, c.y)), cs.map Coord.pnr) := by
    have := fillArrays_eq cs [] [] gpos gpnr rfl h1 h2
    simpa [coordsAsArrays] using this
  refine ⟨e, fun hn unused => ?_⟩
  rw [e]
  obtain ⟨hl, h⟩ := C46_get_by_pnrs cs (cs.map Coord.pnr) unused hn hn
  apply List.ext_getElem?
  intro i
  by_cases hi : i < cs.length
  · have hc : cs[i]? = some cs[i] := List.getElem?_eq_getElem hi
    rw [(h i cs[i].pnr (by rw [List.getElem?_map, hc]; rfl)).1 cs[i] (List.getElem_mem hi) rfl, List.getElem?_map, hc]
    rfl
  · rw [List.getElem?_eq_none (by rw [hl]; simpa using hi), List.getElem?_eq_none (by simpa using hi)]

/-- C118: for the result of `match_coords` with reset numbers the numbers are all different, so that the positions come back. -/
theorem C118_matched (ts : List TgtXY) (ip : ImgPar) (cal : Cam) (tol unused : ℝ) (gpos : List (ℝ × ℝ)) (gpnr : List Int)
    (h1 : gpos.length = ts.length) (h2 : gpnr.length = ts.length) :
    (coordsAsArrays gpos gpnr (matchCoords ts ip cal tol true)).1.length = ts.length ∧
    (coordsAsArrays gpos gpnr (matchCoords ts ip cal tol true)).2.Perm ((List.range ts.length).map (fun n : Nat => (n : Int))) ∧
    getByPnrs (matchCoords ts ip cal tol true) (coordsAsArrays gpos gpnr (matchCoords ts ip cal tol true)).2 unused =
      (coordsAsArrays gpos gpnr (matchCoords ts ip cal tol true)).1 := by
  obtain ⟨hp, hn, -, -⟩ := C46_numbers ts ip cal tol
  have hlen : (matchCoords ts ip cal tol true).length = ts.length := by simpa using hp.length_eq
  obtain ⟨e, hr⟩ := C118_arrays (matchCoords ts ip cal tol true) gpos gpnr (h1.trans hlen.symm) (h2.trans hlen.symm)
  refine ⟨by rw [e]; simpa using hlen, by rw [e]; exact hp, hr hn unused⟩

/-- Two coordinates; with equal numbers the positions do not come back. -/
example : coordsAsArrays [(7, 7), (8, 8)] [7, 8] [⟨5, 1, 2⟩, ⟨3, 4, 6⟩] = ([(1, 2), (4, 6)], [5, 3]) ∧
    getByPnrs [⟨5, 1, 2⟩, ⟨5, 4, 6⟩] [5, 5] 0 = [(4, 6), (0, 0)] := by
  refine ⟨by simp [coordsAsArrays, fillArrays], by simp [getByPnrs, putCoord, List.findIdx?_cons]⟩

end Verif.Geo
