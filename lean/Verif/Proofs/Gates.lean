/-
Every candidate registered by the search phase has a reason.
-/
import Verif.Proofs.Back
import Verif.Spec.Gates

set_option linter.unusedSectionVars false

namespace Verif.Track
open Verif.Track.Spec

section
variable {P J C I D : Type} [Field D] [LinearOrder D]

theorem gate_smooth {g : Geo P J C I D} {acc angle : D} (h : g.gate acc angle = true) : Smooth g angle acc := by
  simpa [Geo.gate, Smooth] using h

/-- `cur'` is `cur` with further candidates, all satisfying `Q`. -/
def MoreP (Q : D × Int → Prop) (cur cur' : Part P D) : Prop :=
  ∃ l, cur' = { cur with cands := cur.cands ++ l } ∧ ∀ x ∈ l, Q x

theorem MoreP.refl (Q : D × Int → Prop) (cur : Part P D) : MoreP Q cur cur := ⟨[], by simp, by simp⟩

theorem MoreP.trans {Q : D × Int → Prop} {a b c : Part P D} (h1 : MoreP Q a b) (h2 : MoreP Q b c) : MoreP Q a c := by
  obtain ⟨l, rfl, b1⟩ := h1
  obtain ⟨l', rfl, c1⟩ := h2
  refine ⟨l ++ l', by simp, ?_⟩
  intro x hx
  rcases List.mem_append.1 hx with h | h
  · exact b1 x h
  · exact c1 x h

theorem MoreP.imp {Q Q' : D × Int → Prop} {a b : Part P D} (h : MoreP Q a b) (hq : ∀ k, Q k → Q' k) :
    MoreP Q' a b := by
  obtain ⟨l, h1, h2⟩ := h
  exact ⟨l, h1, fun x hx => hq _ (h2 x hx)⟩

theorem register_moreP {Q : D × Int → Prop} {cur cur' : Part P D} {r : D} {k : Int}
    (h : cur.register r k = .ok cur') (hk : Q (r, k)) : MoreP Q cur cur' := by
  unfold Part.register at h
  split_ifs at h with hl
  cases h
  exact ⟨[(r, k)], rfl, by simpa using hk⟩

/-- The positions of a frame. -/
def Frame.xs (f : Frame P D I) : List P := f.parts.map Part.x

theorem Extends.xs {f f' : Frame P D I} (h : Extends f f') : ∃ e, f'.xs = f.xs ++ e := by
  obtain ⟨-, e, h, -⟩ := h
  exact ⟨e.map Part.x, by simp [Frame.xs, h]⟩

theorem Spec.WithAdded.trans {g : Geo P J C I D} {i i' i'' : I} (h : WithAdded g i i') (h' : WithAdded g i' i'') :
    WithAdded g i i'' := by
  induction h' with
  | same => exact h
  | add c n _ e ih => exact .add c n ih e

theorem Spec.Triangulated.mono {g : Geo P J C I D} {i i' : I} {x y : P} (h : Triangulated g i' x y) (hi : WithAdded g i i') :
    Triangulated g i x y := by
  obtain ⟨⟨img, q, v, c, h1, h2⟩, h3⟩ := h
  exact ⟨⟨img, q, v, c, hi.trans h1, h2⟩, h3⟩

theorem addParticle_img {g : Geo P J C I D} {f f' : Frame P D I} {x : P} {c : C}
    (h : addParticle g f x c = .ok f') : WithAdded g f.img f'.img := by
  unfold addParticle at h
  obtain ⟨img, h1, h⟩ := bind_ok h
  cases h
  exact .add c _ .same h1

theorem tryNew_img {g : Geo P J C I D} {ctx : Ctx P} {cur : Part P D} {b3 : Frame P D I} {s : Part P D × Frame P D I}
    (h : tryNew g ctx cur b3 = .ok s) : WithAdded g b3.img s.2.img := by
  unfold tryNew at h
  obtain ⟨⟨quali, v2, philf⟩, -, h⟩ := bind_ok h
  by_cases h1 : quali ≥ 2
  swap
  · simp only [if_neg h1] at h; cases h; exact .same
  simp only [if_pos h1] at h
  obtain ⟨x4, hx4, h⟩ := bind_ok h
  by_cases h2 : g.inVolume x4 = true ∧ g.inBounds (g.sub ctx.x3 x4) = true
  swap
  · rw [if_neg (by exact h2)] at h; cases h; exact .same
  rw [if_pos (by exact h2)] at h
  obtain ⟨⟨angle, acc⟩, ha, h⟩ := bind_ok h
  by_cases h3 : g.gate acc angle = true
  swap
  · simp only [if_neg h3] at h; cases h; exact .same
  simp only [if_pos h3] at h
  obtain ⟨cur1, h5, h⟩ := bind_ok h
  by_cases h4 : g.add = true
  · rw [if_pos h4] at h
    obtain ⟨b, h6, h⟩ := bind_ok h
    cases h
    exact addParticle_img h6
  · rw [if_neg h4] at h
    cases h
    exact .same

theorem candOne_img {g : Geo P J C I D} {x0 : Option P} {x1 x2 : P} {f : Found} {r : Part P D} {cur : Part P D}
    {b3 : Frame P D I} {s : Part P D × Frame P D I} (h : candOne g x0 x1 x2 f r cur b3 = .ok s) : WithAdded g b3.img s.2.img := by
  unfold candOne at h
  simp only at h
  obtain ⟨wn, -, h⟩ := bind_ok h
  have key : ∀ (ctx : Ctx P) (cur1 : Part P D), (do
        let s ← tryNew g ctx cur1 b3
        let cur3 ← tryPlain g ctx s.1
        .ok (cur3, s.2)) = .ok s → WithAdded g b3.img s.2.img := by
    intro ctx cur1 h
    obtain ⟨s2, h2, h⟩ := bind_ok h
    obtain ⟨cur3, h3, h⟩ := bind_ok h
    have hs : (cur3, s2.2) = s := by injection h
    rw [← hs]
    have h4 := tryNew_img h2
    exact h4
  by_cases h2 : wn.length > 1
  · rw [if_pos h2] at h
    obtain ⟨cur1, -, h⟩ := bind_ok h
    exact key _ _ h
  · rw [if_neg h2] at h
    exact key _ _ h

theorem candLoop_img {g : Geo P J C I D} {x0 : Option P} {x1 x2 : P} {b2 : Frame P D I} :
    ∀ (w : List Found) (cur : Part P D) (b3 : Frame P D I) (s : Part P D × Frame P D I),
    candLoop g x0 x1 x2 b2 w cur b3 = .ok s → WithAdded g b3.img s.2.img := by
  intro w
  induction w with
  | nil => intro cur b3 s h; simp [candLoop] at h
  | cons f rest ih =>
    intro cur b3 s h
    unfold candLoop at h
    split_ifs at h
    · cases h; exact .same
    · obtain ⟨r, -, h⟩ := bind_ok h
      obtain ⟨s', h2, h⟩ := bind_ok h
      exact (candOne_img h2).trans (ih _ _ _ h)

theorem tryAdd_img {g : Geo P J C I D} {x0 : Option P} {x1 x2 : P} {cur : Part P D} {b2 : Frame P D I}
    {s : Part P D × Frame P D I} (h : tryAdd g x0 x1 x2 cur b2 = .ok s) : WithAdded g b2.img s.2.img := by
  unfold tryAdd at h
  cases x0 with
  | none => cases h; exact .same
  | some y0 =>
    simp only at h
    by_cases h0 : g.add = true ∧ cur.cands = []
    swap
    · rw [if_neg h0] at h; cases h; exact .same
    rw [if_pos h0] at h
    obtain ⟨⟨quali, v2, philf⟩, hass, h⟩ := bind_ok h
    by_cases h1 : quali ≥ 2
    swap
    · simp only [if_neg h1] at h; cases h; exact .same
    simp only [if_pos h1] at h
    obtain ⟨x3, hx3, h⟩ := bind_ok h
    by_cases h2 : g.inVolume x3 = true ∧ g.inBounds (g.sub x2 x3) = true
    swap
    · rw [if_neg h2] at h; cases h; exact .same
    rw [if_pos h2] at h
    obtain ⟨⟨angle, acc⟩, ha, h⟩ := bind_ok h
    by_cases h3 : g.gate acc angle = true
    swap
    · simp only [if_neg h3] at h; cases h; exact .same
    simp only [if_pos h3] at h
    obtain ⟨cur1, h5, h⟩ := bind_ok h
    obtain ⟨b, h6, h⟩ := bind_ok h
    cases h
    exact addParticle_img h6

theorem searchOne_img {g : Geo P J C I D} {b0 b1 b2 b3 : Frame P D I} {h : Nat} {s : Part P D × Frame P D I × Frame P D I}
    (hs : searchOne g b0 b1 h b2 b3 = .ok s) : WithAdded g b2.img s.2.1.img ∧ WithAdded g b3.img s.2.2.img := by
  unfold searchOne at hs
  obtain ⟨p, -, hs⟩ := bind_ok hs
  obtain ⟨x0, -, hs⟩ := bind_ok hs
  obtain ⟨w, -, hs⟩ := bind_ok hs
  split_ifs at hs
  · cases hs; exact ⟨.same, .same⟩
  · obtain ⟨s1, h1, hs⟩ := bind_ok hs
    obtain ⟨s2, h2, hs⟩ := bind_ok hs
    cases hs
    exact ⟨tryAdd_img h2, candLoop_img _ _ _ _ h1⟩

theorem searchLoop_img {g : Geo P J C I D} {b0 : Frame P D I} : ∀ (l : List Nat) (b1 b2 b3 : Frame P D I)
    (s : Frame P D I × Frame P D I × Frame P D I), searchLoop g b0 l b1 b2 b3 = .ok s →
    WithAdded g b2.img s.2.1.img ∧ WithAdded g b3.img s.2.2.img := by
  intro l
  induction l with
  | nil => intro b1 b2 b3 s h; cases h; exact ⟨.same, .same⟩
  | cons a l ih =>
    intro b1 b2 b3 s h
    simp only [searchLoop] at h
    obtain ⟨⟨cur, b2a, b3a⟩, h1, h⟩ := bind_ok h
    obtain ⟨a1, a2⟩ := searchOne_img h1
    obtain ⟨i1, i2⟩ := ih _ _ _ _ h
    exact ⟨a1.trans i1, a2.trans i2⟩

theorem stepFrames_img {g : Geo P J C I D} {b0 b1 b2 b3 b1' b2' b3' : Frame P D I} {n : Nat}
    (h : stepFrames g b0 b1 b2 b3 = .ok (b1', b2', b3', n)) : WithAdded g b2.img b2'.img ∧ WithAdded g b3.img b3'.img := by
  unfold stepFrames at h
  obtain ⟨⟨c1, c2, c3⟩, h1, h⟩ := bind_ok h
  obtain ⟨⟨c, n, t⟩, h2, h⟩ := bind_ok h
  cases h
  exact searchLoop_img _ _ _ _ _ h1

theorem Spec.Reason.images {g : Geo P J C I D} {x0 : Option P} {x1 x3 : P} {i2 i3 j2 j3 : I} {l : List P} {d : D}
    (h : Reason g x0 x1 x3 i2 i3 l d) (h2 : WithAdded g j2 i2) (h3 : WithAdded g j3 i3) : Reason g x0 x1 x3 j2 j3 l d := by
  cases h with
  | continued x4 a0 c0 a1 c1 h4 hv h1 h0 hs hd => exact .continued x4 a0 c0 a1 c1 h4 hv h1 h0 hs hd
  | continuedNew x4 a c h4 hadd hv ha hs hd => exact .continuedNew x4 a c (h4.mono h3) hadd hv ha hs hd
  | plain y0 a c h0 hv ha hs hd => exact .plain y0 a c h0 hv ha hs hd
  | added y0 a c h0 hadd h3 hv ha hs hd => exact .added y0 a c h0 hadd (h3.mono h2) hv ha hs hd

theorem Spec.Reason.mono {g : Geo P J C I D} {x0 : Option P} {x1 x3 : P} {i2 i3 : I} {l l' : List P} {d : D}
    (h : Reason g x0 x1 x3 i2 i3 l d) (hs : ∃ e, l' = l ++ e) : Reason g x0 x1 x3 i2 i3 l' d := by
  obtain ⟨e, rfl⟩ := hs
  cases h with
  | continued x4 a0 c0 a1 c1 h4 hv h1 h0 hs hd =>
    exact .continued x4 a0 c0 a1 c1 (List.mem_append_left _ h4) hv h1 h0 hs hd
  | continuedNew x4 a c h4 hadd hv ha hs hd =>
    exact .continuedNew x4 a c h4 (fun e => List.mem_append_left _ (hadd e)) hv ha hs hd
  | plain y0 a c h0 hv ha hs hd => exact .plain y0 a c h0 hv ha hs hd
  | added y0 a c h0 hadd h3 hv ha hs hd => exact .added y0 a c h0 hadd h3 hv ha hs hd

theorem pyGetI_mem {α : Type} {xs : List α} {i : Int} {x : α} (h : pyGetI xs i = .ok x) : x ∈ xs := by
  unfold pyGetI pyGet at h
  split_ifs at h
  all_goals
    first
    | (split at h
       · cases h; rename_i e; exact List.mem_of_getElem? e
       · cases h)

/-- The context that `candOne` builds. -/
def mkCtx (g : Geo P J C I D) (x0 : Option P) (x1 : P) (x3 : P) (f : Found) : Ctx P :=
  ⟨x0, x1, expected g x0 x1, x3, expectedAfter g x0 x1 x3, f⟩

theorem lookAhead_reason {g : Geo P J C I D} {x0 : Option P} {x1 x3 : P} {f : Found} {b3 : Frame P D I}
    {i2 : I} {Q : D × Int → Prop} (hQ : ∀ d, Reason g x0 x1 x3 i2 b3.img b3.xs d → Q (d, f.ftnr)) :
    ∀ (w : List Found) (cur cur' : Part P D),
    lookAhead g (mkCtx g x0 x1 x3 f) b3 w cur = .ok cur' → MoreP Q cur cur' := by
  intro w
  induction w with
  | nil => intro cur cur' h; simp [lookAhead] at h
  | cons fn rest ih =>
    intro cur cur' h
    unfold lookAhead at h
    by_cases h1 : fn.ftnr = TR_UNUSED ∨ (b3.parts.length : Int) ≤ fn.ftnr
    · rw [if_pos h1] at h; cases h; exact MoreP.refl _ _
    · rw [if_neg h1] at h
      obtain ⟨q, hq, h⟩ := bind_ok h
      have hq4 : q.x ∈ b3.xs := List.mem_map_of_mem (pyGetI_mem hq)
      by_cases h2 : g.inBounds (g.sub q.x x3) = true
      · rw [if_pos (by exact h2)] at h
        obtain ⟨⟨angle1, acc1⟩, ha1, h⟩ := bind_ok h
        simp only at h
        have key : ∀ z : D × D, (if x0.isSome then g.angleAcc x1 (expected g x0 x1) x3 = .ok z
            else z = (angle1, acc1)) → (if g.gate ((z.2 + acc1) / 2) ((z.1 + angle1) / 2) = true then do
              let cur' ← cur.register (g.rr ((g.dist x1 x3 + g.dist q.x x3) / 2)
                ((z.2 + acc1) / 2) ((z.1 + angle1) / 2) (fn.freq + f.freq)) f.ftnr
              lookAhead g (mkCtx g x0 x1 x3 f) b3 rest cur'
            else lookAhead g (mkCtx g x0 x1 x3 f) b3 rest cur) = .ok cur' → MoreP Q cur cur' := by
          intro z hz h
          split_ifs at h with h4
          · obtain ⟨cur1, h5, h⟩ := bind_ok h
            refine (register_moreP h5 (hQ _ ?_)).trans (ih _ _ h)
            exact .continued q.x z.1 z.2 angle1 acc1 hq4 h2 ha1 hz (gate_smooth h4) ⟨fn.freq + f.freq, rfl⟩
          · exact ih _ _ h
        by_cases h3 : x0.isSome = true
        · rw [if_pos (by exact h3)] at h
          obtain ⟨z, hz, h⟩ := bind_ok h
          exact key z (by rw [if_pos h3]; exact hz) h
        · rw [if_neg (by exact h3)] at h
          exact key (angle1, acc1) (by rw [if_neg h3]) h
      · rw [if_neg (by exact h2)] at h
        exact ih _ _ h

theorem addParticle_xs {g : Geo P J C I D} {f f' : Frame P D I} {x : P} {c : C}
    (h : addParticle g f x c = .ok f') : f'.xs = f.xs ++ [x] := by
  unfold addParticle at h
  obtain ⟨img, -, h⟩ := bind_ok h
  cases h
  simp [Frame.xs]

theorem tryNew_reason {g : Geo P J C I D} {x0 : Option P} {x1 x3 : P} {f : Found} {cur cur' : Part P D}
    {b3 b3' : Frame P D I} {i2 : I} {Q : D × Int → Prop}
    (h : tryNew g (mkCtx g x0 x1 x3 f) cur b3 = .ok (cur', b3'))
    (hQ : ∀ d, Reason g x0 x1 x3 i2 b3.img b3'.xs d → Q (d, f.ftnr)) : MoreP Q cur cur' := by
  unfold tryNew at h
  obtain ⟨⟨quali, v2, philf⟩, hass, h⟩ := bind_ok h
  have base : (.ok (cur, b3) : Py (Part P D × Frame P D I)) = .ok (cur', b3') → MoreP Q cur cur' := by
    intro h; cases h; exact MoreP.refl _ _
  by_cases h1 : quali ≥ 2
  swap
  · simp only [if_neg h1] at h; exact base h
  simp only [if_pos h1] at h
  obtain ⟨x4, hx4, h⟩ := bind_ok h
  by_cases h2 : g.inVolume x4 = true ∧ g.inBounds (g.sub x3 x4) = true
  swap
  · rw [if_neg (by exact h2)] at h; exact base h
  rw [if_pos (by exact h2)] at h
  obtain ⟨⟨angle, acc⟩, ha, h⟩ := bind_ok h
  by_cases h3 : g.gate acc angle = true
  swap
  · simp only [if_neg h3] at h; exact base h
  simp only [if_pos h3] at h
  obtain ⟨cur1, h5, h⟩ := bind_ok h
  have tri : Triangulated g b3.img (expectedAfter g x0 x1 x3) x4 := ⟨⟨b3.img, quali, v2, philf, .same, hass, h1, hx4⟩, h2.1⟩
  by_cases h4 : g.add = true
  · rw [if_pos h4] at h
    obtain ⟨b, h6, h⟩ := bind_ok h
    cases h
    exact register_moreP h5 (hQ _ (.continuedNew x4 angle acc tri
      (fun _ => by rw [addParticle_xs h6]; simp) h2.2 ha (gate_smooth h3) ⟨quali + f.freq, rfl⟩))
  · rw [if_neg h4] at h
    cases h
    exact register_moreP h5 (hQ _ (.continuedNew x4 angle acc tri
      (fun e => absurd e h4) h2.2 ha (gate_smooth h3) ⟨quali + f.freq, rfl⟩))

theorem tryPlain_reason {g : Geo P J C I D} {x0 : Option P} {x1 x3 : P} {f : Found} {cur cur' : Part P D}
    {i2 i3 : I} {l : List P} {Q : D × Int → Prop} (hQ : ∀ d, Reason g x0 x1 x3 i2 i3 l d → Q (d, f.ftnr))
    (h : tryPlain g (mkCtx g x0 x1 x3 f) cur = .ok cur') : MoreP Q cur cur' := by
  cases x0 with
  | none => unfold tryPlain at h; cases h; exact MoreP.refl _ _
  | some y0 =>
    unfold mkCtx tryPlain at h
    simp only at h
    by_cases h1 : cur.cands = []
    swap
    · rw [if_neg h1] at h; cases h; exact MoreP.refl _ _
    rw [if_pos h1] at h
    by_cases h2 : g.inBounds (g.sub x3 x1) = true
    swap
    · rw [if_neg h2] at h; cases h; exact MoreP.refl _ _
    rw [if_pos h2] at h
    obtain ⟨⟨angle, acc⟩, ha, h⟩ := bind_ok h
    simp only at h
    split_ifs at h with h3
    · exact register_moreP h (hQ _ (.plain y0 angle acc rfl h2 ha (gate_smooth h3) ⟨f.freq, rfl⟩))
    · cases h; exact MoreP.refl _ _

theorem candOne_reason {g : Geo P J C I D} {x0 : Option P} {x1 : P} {f : Found} {r : Part P D}
    {cur : Part P D} {b3 : Frame P D I} {s : Part P D × Frame P D I} {i2 : I} {Q : D × Int → Prop}
    (h : candOne g x0 x1 (expected g x0 x1) f r cur b3 = .ok s)
    (hQ : ∀ d, Reason g x0 x1 r.x i2 b3.img s.2.xs d → Q (d, f.ftnr)) : MoreP Q cur s.1 := by
  have hext := (candOne_more (Q := fun _ => True) trivial h).2
  have hmk : (⟨x0, x1, expected g x0 x1, r.x, g.ahead x0 x1 r.x, f⟩ : Ctx P) = mkCtx g x0 x1 r.x f := by
    unfold mkCtx
    cases x0 <;> rfl
  have hah : g.ahead x0 x1 r.x = expectedAfter g x0 x1 r.x := by cases x0 <;> rfl
  unfold candOne at h
  simp only [hmk] at h
  obtain ⟨wn, -, h⟩ := bind_ok h
  have key : ∀ cur1, MoreP Q cur cur1 →
      (do
        let s ← tryNew g (mkCtx g x0 x1 r.x f) cur1 b3
        let cur3 ← tryPlain g (mkCtx g x0 x1 r.x f) s.1
        .ok (cur3, s.2)) = .ok s → MoreP Q cur s.1 := by
    intro cur1 hm h
    obtain ⟨⟨cur2, b3''⟩, h2, h⟩ := bind_ok h
    obtain ⟨cur3, h3, h⟩ := bind_ok h
    cases h
    exact (hm.trans (tryNew_reason h2 hQ)).trans (tryPlain_reason hQ h3)
  by_cases h2 : wn.length > 1
  · rw [if_pos h2] at h
    obtain ⟨cur1, h3, h⟩ := bind_ok h
    exact key cur1 (lookAhead_reason (fun d hd => hQ d (hd.mono hext.xs)) _ _ _ h3) h
  · rw [if_neg h2] at h
    exact key cur (MoreP.refl _ _) h

/-- What the candidate search promises about a candidate `(d, k)`. -/
def Promise (g : Geo P J C I D) (x0 : Option P) (x1 : P) (i2 i3 : I) (next after : List P) (x : D × Int) : Prop :=
  ∃ (k : Nat) (x3 : P), x.2 = k ∧ next[k]? = some x3 ∧ Reason g x0 x1 x3 i2 i3 after x.1

theorem Promise.images {g : Geo P J C I D} {x0 : Option P} {x1 : P} {i2 i3 j2 j3 : I} {next after : List P} {x : D × Int}
    (h : Promise g x0 x1 i2 i3 next after x) (h2 : WithAdded g j2 i2) (h3 : WithAdded g j3 i3) :
    Promise g x0 x1 j2 j3 next after x := by
  obtain ⟨k, x3, a1, a2, a3⟩ := h
  exact ⟨k, x3, a1, a2, a3.images h2 h3⟩

theorem Promise.mono {g : Geo P J C I D} {x0 : Option P} {x1 : P} {i2 i3 : I} {next after next' after' : List P} {x : D × Int}
    (h : Promise g x0 x1 i2 i3 next after x) (hn : ∃ e, next' = next ++ e) (ha : ∃ e, after' = after ++ e) :
    Promise g x0 x1 i2 i3 next' after' x := by
  obtain ⟨k, x3, h1, h2, h3⟩ := h
  obtain ⟨e, rfl⟩ := hn
  refine ⟨k, x3, h1, ?_, h3.mono ha⟩
  have := (List.getElem?_eq_some_iff.1 h2).1
  rw [List.getElem?_append_left this, h2]

theorem candLoop_reason {g : Geo P J C I D} {x0 : Option P} {x1 : P} {b2 : Frame P D I} :
    ∀ (w : List Found) (cur : Part P D) (b3 : Frame P D I) (s : Part P D × Frame P D I),
    (∀ f ∈ w, -1 ≤ f.ftnr) →
    candLoop g x0 x1 (expected g x0 x1) b2 w cur b3 = .ok s →
    MoreP (Promise g x0 x1 b2.img b3.img b2.xs s.2.xs) cur s.1 := by
  intro w
  induction w with
  | nil => intro cur b3 s _ h; simp [candLoop] at h
  | cons f rest ih =>
    intro cur b3 s hw h
    unfold candLoop at h
    by_cases h1 : f.ftnr = TR_UNUSED ∨ (b2.parts.length : Int) ≤ f.ftnr
    · rw [if_pos h1] at h; cases h; exact MoreP.refl _ _
    · rw [if_neg h1] at h
      have hf := hw f (by simp)
      have hQ : 0 ≤ f.ftnr ∧ f.ftnr < b2.parts.length := by
        simp only [TR_UNUSED, not_or, not_le] at h1
        exact ⟨by omega, h1.2⟩
      obtain ⟨k, hk⟩ := Int.eq_ofNat_of_zero_le hQ.1
      obtain ⟨r, hr, h⟩ := bind_ok h
      obtain ⟨s', h2, h⟩ := bind_ok h
      have hw' : ∀ f ∈ rest, -1 ≤ f.ftnr := fun f hf => hw f (by simp [hf])
      have hext := (candLoop_more _ _ _ _ hw' h).2
      have hr' : b2.parts[k]? = some r := by
        rw [hk] at hr
        have hlt : k < b2.parts.length := by omega
        rw [pyGetI_nat (List.getElem?_eq_getElem hlt)] at hr
        rw [List.getElem?_eq_getElem hlt, Except.ok.inj hr]
      have hx : b2.xs[k]? = some r.x := by simp [Frame.xs, hr']
      have a1 := candOne_reason (i2 := b2.img) (Q := Promise g x0 x1 b2.img b3.img b2.xs s.2.xs) h2
        (fun d hd => ⟨k, r.x, hk, hx, hd.mono hext.xs⟩)
      exact a1.trans ((ih _ _ _ hw' h).imp fun _ hp => hp.images .same (candOne_img h2))

theorem tryAdd_reason {g : Geo P J C I D} {x0 : Option P} {x1 : P} {cur cur' : Part P D} {l : List P} {i3 : I}
    {b2 b2' : Frame P D I} (h : tryAdd g x0 x1 (expected g x0 x1) cur b2 = .ok (cur', b2')) :
    MoreP (Promise g x0 x1 b2.img i3 b2'.xs l) cur cur' := by
  have base : (.ok (cur, b2) : Py (Part P D × Frame P D I)) = .ok (cur', b2') →
      MoreP (Promise g x0 x1 b2.img i3 b2'.xs l) cur cur' := by
    intro h; cases h; exact MoreP.refl _ _
  cases x0 with
  | none => exact base h
  | some y0 =>
    unfold tryAdd at h
    simp only at h
    by_cases h0 : g.add = true ∧ cur.cands = []
    swap
    · rw [if_neg h0] at h; exact base h
    rw [if_pos h0] at h
    obtain ⟨⟨quali, v2, philf⟩, hass, h⟩ := bind_ok h
    by_cases h1 : quali ≥ 2
    swap
    · simp only [if_neg h1] at h; exact base h
    simp only [if_pos h1] at h
    obtain ⟨x3, hx3, h⟩ := bind_ok h
    by_cases h2 : g.inVolume x3 = true ∧ g.inBounds (g.sub (expected g (some y0) x1) x3) = true
    swap
    · rw [if_neg h2] at h; exact base h
    rw [if_pos h2] at h
    obtain ⟨⟨angle, acc⟩, ha, h⟩ := bind_ok h
    by_cases h3 : g.gate acc angle = true
    swap
    · simp only [if_neg h3] at h; exact base h
    simp only [if_pos h3] at h
    obtain ⟨cur1, h5, h⟩ := bind_ok h
    obtain ⟨b, h6, h⟩ := bind_ok h
    cases h
    refine register_moreP h5 ⟨b2.parts.length, x3, rfl, ?_, ?_⟩
    · rw [addParticle_xs h6]
      simp [Frame.xs]
    · exact .added y0 angle acc rfl h0.1 ⟨⟨b2.img, quali, v2, philf, .same, hass, h1, hx3⟩, h2.1⟩ h2.2 ha (gate_smooth h3)
        ⟨quali, rfl⟩

theorem searchOne_reason {g : Geo P J C I D} (hg : SearchSane g) {b0 b1 b2 b3 b2' b3' : Frame P D I}
    {h : Nat} {cur p : Part P D} {x0 : Option P} (hp : b1.parts[h]? = some p) (hx : prevPos b0 p = .ok x0)
    (hs : searchOne g b0 b1 h b2 b3 = .ok (cur, b2', b3')) :
    ∀ x ∈ cur.cands, Promise g x0 p.x b2.img b3.img b2'.xs b3'.xs x := by
  unfold searchOne at hs
  rw [pyGet_some hp] at hs
  obtain ⟨p', e, hs⟩ := bind_ok hs
  cases e
  rw [hx] at hs
  obtain ⟨x0', e, hs⟩ := bind_ok hs
  cases e
  have hc : g.centre x0 p.x = expected g x0 p.x := by cases x0 <;> rfl
  obtain ⟨w, hw, hs⟩ := bind_ok hs
  rw [hc] at hs
  by_cases h1 : w.length = 1
  · rw [if_pos h1] at hs
    cases hs
    simp
  · rw [if_neg h1] at hs
    obtain ⟨⟨cur1, b3a⟩, h2, hs⟩ := bind_ok hs
    obtain ⟨⟨cur2, b2a⟩, h3, hs⟩ := bind_ok hs
    cases hs
    have a1 := candLoop_reason _ _ _ _ (hg _ _ _ _ hw) h2
    have a2 := tryAdd_reason (l := b3a.xs) (i3 := b3.img) h3
    have a3 := (tryAdd_more h3).2
    have a1' : MoreP (Promise g x0 p.x b2.img b3.img b2a.xs b3a.xs) { p with cands := [] } cur1 :=
      a1.imp (fun k hk => hk.mono a3.xs ⟨[], by simp⟩)
    obtain ⟨l, e1, e2⟩ := a1'.trans a2
    rw [e1]
    simpa using e2

/-- The search phase: every candidate of every particle is backed by a reason. -/
theorem searchLoop_reason {g : Geo P J C I D} (hg : SearchSane g) {b0 : Frame P D I} (k : Nat) :
    ∀ (m : Nat) (b1 b2 b3 b1' b2' b3' : Frame P D I), m + k = b1.parts.length →
    searchLoop g b0 (List.range' m k) b1 b2 b3 = .ok (b1', b2', b3') →
    ∀ h p, b1.parts[h]? = some p → m ≤ h → ∃ x0 p', prevPos b0 p = .ok x0 ∧ b1'.parts[h]? = some p' ∧
      ∀ x ∈ p'.cands, Promise g x0 p.x b2.img b3.img b2'.xs b3'.xs x := by
  induction k with
  | zero =>
    intro m b1 b2 b3 b1' b2' b3' hm hs h p hp hh
    have := (List.getElem?_eq_some_iff.1 hp).1
    omega
  | succ k ih =>
    intro m b1 b2 b3 b1' b2' b3' hm hs h q hq hmh
    rw [List.range'_succ] at hs
    simp only [searchLoop] at hs
    obtain ⟨⟨cur, b2a, b3a⟩, h1, hs⟩ := bind_ok hs
    simp only at hs
    have hmlt : m < b1.parts.length := by omega
    obtain ⟨f2, f3, f4, f5, f6⟩ := searchLoop_spec hg k (m + 1) _ _ _ _ _ _ (by simp; omega) hs
    by_cases hhm : m = h
    · subst hhm
      have hx : ∃ x0, prevPos b0 q = .ok x0 := by
        unfold searchOne at h1
        rw [pyGet_some hq] at h1
        obtain ⟨p', e, h1⟩ := bind_ok h1
        cases e
        obtain ⟨x0, hx, -⟩ := bind_ok h1
        exact ⟨x0, hx⟩
      obtain ⟨x0, hx⟩ := hx
      refine ⟨x0, cur, hx, (f6 m cur (by simp [hmlt])).1 (by omega), ?_⟩
      intro x hxc
      exact (searchOne_reason hg hq hx h1 x hxc).mono f2.xs f3.xs
    · have hq' : ({ b1 with parts := b1.parts.set m cur } : Frame P D I).parts[h]? = some q := by
        simp only; rw [List.getElem?_set_ne hhm]; exact hq
      obtain ⟨x0, p', a1, a2, a3⟩ := ih (m + 1) _ _ _ _ _ _ (by simp; omega) hs h q hq' (by omega)
      obtain ⟨k2, k3⟩ := searchOne_img h1
      exact ⟨x0, p', a1, a2, fun x hx => (a3 x hx).images k2 k3⟩

theorem prevPos_spec {b0 : Frame P D I} {p : Part P D} {x0 : Option P} (h : prevPos b0 p = .ok x0) :
    Predecessor b0.xs p x0 := by
  unfold prevPos at h
  unfold Predecessor
  by_cases hp : p.prev ≥ 0
  · rw [if_pos hp] at h
    rw [if_neg (by omega)]
    obtain ⟨r, hr, h⟩ := bind_ok h
    cases h
    refine ⟨by simp, ?_⟩
    unfold pyGetI at hr
    rw [if_pos hp] at hr
    unfold pyGet at hr
    split at hr
    · rename_i e; cases hr
      simp [Frame.xs, e]
    · cases hr
  · rw [if_neg hp] at h
    rw [if_pos (by omega)]
    cases h; rfl

end
end Verif.Track
