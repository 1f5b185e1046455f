/-
C106, C107: calibration block files and the four points of the manual orientation.
-/
import Verif.Model.CalBlock
import Verif.Spec.Text
import Verif.Proofs.Text

namespace Verif.IO
open Text Verif.Spec

/-! ### Specification -/

/-- A line of a block file: number and position, `k` decimals. -/
def blockLine (k : ℕ) (p : RefPt) : List Char :=
  joinSp [intStr p.pnr, fixedStr k p.pos.x, fixedStr k p.pos.y, fixedStr k p.pos.z]

/-- A block file: one line per point. -/
def blockText (k : ℕ) (ps : List RefPt) : List Char := ps.flatMap fun p => blockLine k p ++ ['\n']

/-- Position `q` is `p` to `k` decimals. -/
def PosRounded (k : ℕ) (p q : Pos3) : Prop := Rounded k p.x q.x ∧ Rounded k p.y q.y ∧ Rounded k p.z q.z

/-- The four numbers are different and each is the number of one of `n` points (counted from 1). -/
def FourOf (n : ℕ) (a b c d : ℤ) : Prop :=
  (∀ v ∈ [a, b, c, d], 1 ≤ v ∧ v ≤ n) ∧ [a, b, c, d].Nodup

/-! ### Proof -/

theorem bind_okc {α β : Type} {x : Py α} {f : α → Py β} {b : β} (h : (x >>= f) = .ok b) : ∃ a, x = .ok a ∧ f a = .ok b := by
  cases x with
  | error e => cases h
  | ok a => exact ⟨a, rfl, h⟩

theorem mapM_cons_py {α β : Type} (f : α → Py β) (a : α) (l : List α) :
    (a :: l).mapM f = (do let b ← f a; let bs ← l.mapM f; .ok (b :: bs)) := by
  rw [List.mapM_cons]; rfl

theorem mapM_ok_of {α β : Type} {f : α → Py β} {g : α → β} : ∀ {l : List α}, (∀ a ∈ l, f a = .ok (g a)) → l.mapM f = .ok (l.map g)
  | [], _ => rfl
  | a :: l, h => by
    rw [mapM_cons_py, h a (by simp), mapM_ok_of (l := l) (fun x hx => h x (by simp [hx]))]
    rfl

theorem mapM_ok_inv {α β : Type} {f : α → Py β} : ∀ {l : List α} {bs : List β}, l.mapM f = .ok bs →
    bs.length = l.length ∧ ∀ (i : ℕ) (a : α), l[i]? = some a → ∃ b, bs[i]? = some b ∧ f a = .ok b
  | [], bs, h => by cases h; simp
  | a :: l, bs, h => by
    rw [mapM_cons_py] at h
    obtain ⟨b, h1, h⟩ := bind_okc h
    obtain ⟨bs', h2, h⟩ := bind_okc h
    cases h
    obtain ⟨e1, e2⟩ := mapM_ok_inv h2
    refine ⟨by simp [e1], ?_⟩
    intro i a' hi
    cases i with
    | zero => simp at hi; subst hi; exact ⟨b, rfl, h1⟩
    | succ i => simpa using e2 i a' (by simpa using hi)

theorem blockLine_fields (k : ℕ) (p : RefPt) : List.Forall₂ IsField
    [intStr p.pnr, fixedStr k p.pos.x, fixedStr k p.pos.y, fixedStr k p.pos.z]
    [intStr p.pnr, fixedStr k p.pos.x, fixedStr k p.pos.y, fixedStr k p.pos.z] :=
  .cons (intStr_word _).field (.cons (fixedStr_word _ _).field (.cons (fixedStr_word _ _).field
    (.cons (fixedStr_word _ _).field .nil)))

theorem calLine_block {k : ℕ} (hk : 0 < k) (p : RefPt) :
    calLine (blockLine k p) = .ok ⟨p.pnr, ⟨rnd k p.pos.x, rnd k p.pos.y, rnd k p.pos.z⟩⟩ := by
  unfold calLine blockLine
  simp only [words_joinSp (blockLine_fields k p), pyGet, List.getElem?_cons_zero, List.getElem?_cons_succ, bind, Except.bind,
    parseInt_intStr, parseFloat_fixedStr hk]

theorem fixLine_block {k : ℕ} (hk : 0 < k) (p : RefPt) :
    fixLine (blockLine k p) = .ok ⟨rnd k p.pos.x, rnd k p.pos.y, rnd k p.pos.z⟩ := by
  unfold fixLine blockLine
  simp only [words_joinSp (blockLine_fields k p), pyGet, List.getElem?_cons_zero, List.getElem?_cons_succ, bind, Except.bind,
    parseFloat_fixedStr hk]

theorem lines_block (k : ℕ) (ps : List RefPt) : lines (blockText k ps) = ps.map (blockLine k) :=
  lines_flatMap _ (fun p => joinSp_no_nl (blockLine_fields k p)) ps

theorem forall₂_map_self {α β : Type} {R : α → β → Prop} {g : α → β} (h : ∀ a, R a (g a)) : ∀ l : List α, List.Forall₂ R l (l.map g)
  | [] => .nil
  | a :: l => .cons (h a) (forall₂_map_self h l)

/-- C106, what holds (partial): the calibration reader returns the points of a file with one line per point, in the order of the
file, with their numbers and their positions as written. Missing: the same file cannot be used for the manual orientation
(`C106_manual_refuted`, `C106_counted_refuted`). -/
theorem C106_points_partial {k : ℕ} (hk : 0 < k) (fs : FS) (name : List Char) (ps : List RefPt)
    (h : fs name = some (blockText k ps)) :
    ∃ qs, sgReadCalblock fs name = .ok qs ∧ List.Forall₂ (fun p q => q.pnr = p.pnr ∧ PosRounded k p.pos q.pos) ps qs := by
  refine ⟨ps.map fun p => ⟨p.pnr, ⟨rnd k p.pos.x, rnd k p.pos.y, rnd k p.pos.z⟩⟩, ?_,
    forall₂_map_self (fun p => ⟨rfl, rnd_rounded _ _, rnd_rounded _ _, rnd_rounded _ _⟩) ps⟩
  have e : (lines (blockText k ps)).mapM calLine = .ok (ps.map fun p => ⟨p.pnr, ⟨rnd k p.pos.x, rnd k p.pos.y, rnd k p.pos.z⟩⟩) := by
    rw [lines_block]
    have := mapM_ok_of (f := calLine) (g := fun l => match calLine l with | .ok q => q | .error _ => ⟨0, ⟨0, 0, 0⟩⟩)
      (l := ps.map (blockLine k)) (by
        intro a ha
        obtain ⟨p, -, rfl⟩ := List.mem_map.1 ha
        simp only [calLine_block hk])
    rw [this, List.map_map]
    congr 1
    refine List.map_congr_left fun p _ => ?_
    simp only [Function.comp, calLine_block hk]
  simp only [sgReadCalblock, h, e]

/-- C106: all points or none. What is returned has one point for every line of the file, or is empty. -/
theorem C106_all_or_none (fs : FS) (name s : List Char) (hs : fs name = some s) (qs : List RefPt)
    (h : sgReadCalblock fs name = .ok qs) : qs = [] ∨ qs.length = (lines s).length := by
  unfold sgReadCalblock at h
  rw [hs] at h
  simp only at h
  split at h
  · next ps hps =>
    cases h
    exact Or.inr (mapM_ok_inv hps).1
  · cases h; exact Or.inl rfl
  · cases h

theorem calLine_words {l : List Char} {p : RefPt} (h : calLine l = .ok p) : 4 ≤ (words l).length := by
  unfold calLine at h
  simp only at h
  obtain ⟨w0, -, h⟩ := bind_okc h
  obtain ⟨n, -, h⟩ := bind_okc h
  obtain ⟨w1, -, h⟩ := bind_okc h
  obtain ⟨x, -, h⟩ := bind_okc h
  obtain ⟨w2, -, h⟩ := bind_okc h
  obtain ⟨y, -, h⟩ := bind_okc h
  obtain ⟨w3, h3, h⟩ := bind_okc h
  unfold pyGet at h3
  split at h3
  · next e => exact (List.getElem?_eq_some_iff.1 e).1
  · cases h3

/-- C106 is false: a file from which the calibration reads at least one point is refused by the manual orientation (ValueError),
for every camera and every file of point numbers: it takes the first line for the number of points. -/
theorem C106_manual_refuted (fs : FS) (name : List Char) (p : RefPt) (ps : List RefPt)
    (h : sgReadCalblock fs name = .ok (p :: ps)) (manOri : List Char) (cam : ℕ) (nr : List ℤ)
    (hm : readNrs fs manOri cam = .ok nr) : readManOriFix fs name manOri cam = .error .valueError := by
  unfold sgReadCalblock at h
  split at h
  · cases h
  next s hs =>
  split at h
  · next qs hqs =>
    cases h
    have e := mapM_ok_inv hqs
    have hl : ∃ l, (lines s)[0]? = some l :=
      ⟨_, List.getElem?_eq_getElem (by
        have := e.1
        simp only [List.length_cons] at this
        omega)⟩
    obtain ⟨l, hl⟩ := hl
    obtain ⟨b, -, hb⟩ := e.2 0 l hl
    have h4 := calLine_words hb
    have hi : pyInt l = .error .valueError := by
      unfold pyInt
      split
      · next w hw => rw [hw] at h4; simp at h4
      · rfl
    unfold readManOriFix
    rw [hm]
    simp only [bind, Except.bind]
    have : oReadCalblock fs name = .error .valueError := by
      simp only [oReadCalblock, FS.read, hs, pyGet, hl, hi, bind, Except.bind]
    rw [this]
  · cases h
  · cases h

/-- C106 is false the other way round: a file that the manual orientation can read makes the calibration reader raise. -/
theorem C106_counted_refuted (fs : FS) (name : List Char) (r : List Pos3 × ℕ) (h : oReadCalblock fs name = .ok r) :
    sgReadCalblock fs name = .error .indexError := by
  unfold oReadCalblock at h
  obtain ⟨s, h1, h⟩ := bind_okc h
  obtain ⟨l, h2, h⟩ := bind_okc h
  obtain ⟨n, h3, h⟩ := bind_okc h
  have hs : fs name = some s := by
    unfold FS.read at h1
    split at h1
    · next e => cases h1; exact e
    · cases h1
  have hl : ∃ rest, lines s = l :: rest := by
    unfold pyGet at h2
    split at h2
    · next e =>
      cases h2
      cases hh : lines s with
      | nil => rw [hh] at e; simp at e
      | cons a rest => rw [hh] at e; simp at e; exact ⟨rest, by rw [e]⟩
    · cases h2
  obtain ⟨rest, hl⟩ := hl
  unfold pyInt at h3
  split at h3
  · next w hw =>
    have : calLine l = .error .indexError := by
      simp only [calLine, hw, pyGet, List.getElem?_cons_zero, List.getElem?_cons_succ, List.getElem?_nil, bind, Except.bind, h3]
    simp only [sgReadCalblock, hs, hl, mapM_cons_py, this, bind, Except.bind]
  · cases h3

/-! ### C107 -/

/-- What `read_man_ori_fix` reads: block file `s` has the number of points in its first line, and then one line for every point
(which may have any number), with the positions `ps`. -/
def CountedBlock (s : List Char) (ps : List Pos3) : Prop :=
  ∃ first rest, lines s = first :: rest ∧ pyInt first = .ok (ps.length : ℤ) ∧ rest.mapM fixLine = .ok ps

theorem fixLoop_spec : ∀ (ls : List (List Char)) (ps done todo : List Pos3), ls.mapM fixLine = .ok ps → todo.length = ps.length →
    fixLoop ls done.length (done ++ todo) = .ok (done ++ ps)
  | [], ps, done, todo, h, hl => by
    cases h
    have : todo = [] := List.eq_nil_of_length_eq_zero (by simpa using hl)
    subst this
    rfl
  | l :: ls, ps, done, todo, h, hl => by
    rw [mapM_cons_py] at h
    obtain ⟨p, h1, h⟩ := bind_okc h
    obtain ⟨ps', h2, h⟩ := bind_okc h
    cases h
    cases todo with
    | nil => simp at hl
    | cons t todo =>
      have ih := fixLoop_spec ls ps' (done ++ [p]) todo h2 (by simpa using hl)
      unfold fixLoop
      rw [h1]
      simp only [bind, Except.bind]
      rw [if_pos (by simp)]
      have e1 : (done ++ t :: todo).set done.length p = done ++ [p] ++ todo := by simp
      rw [e1]
      simpa using ih

theorem oRead_counted {fs : FS} {name s : List Char} {ps : List Pos3} (hs : fs name = some s) (hb : CountedBlock s ps) :
    oReadCalblock fs name = .ok (ps, ps.length) := by
  obtain ⟨first, rest, h1, h2, h3⟩ := hb
  have e := fixLoop_spec rest ps [] (List.replicate ps.length ⟨0, 0, 0⟩) h3 (by simp)
  simp only [List.length_nil, List.nil_append] at e
  simp only [oReadCalblock, FS.read, hs, h1, pyGet, List.getElem?_cons_zero, h2, bind, Except.bind, List.tail_cons, Int.toNat_natCast, e]
  rw [if_neg (by omega)]

/-- The rows of `fix4` after the points `0 .. m - 1` have been looked at. -/
def rowOf (ps : List Pos3) (m : ℕ) (v : ℤ) : Pos3 :=
  if 1 ≤ v ∧ v ≤ m then (ps[(v - 1).toNat]?).getD ⟨0, 0, 0⟩ else ⟨0, 0, 0⟩

theorem findNr_four (a b c d : ℤ) (more : List ℤ) (pnr : ℕ) :
    findNr (a :: b :: c :: d :: more) pnr [0, 1, 2, 3] = .ok (
      if (pnr : ℤ) = a - 1 then some 0 else if (pnr : ℤ) = b - 1 then some 1 else
      if (pnr : ℤ) = c - 1 then some 2 else if (pnr : ℤ) = d - 1 then some 3 else none) := by
  simp only [findNr, pyGet, List.getElem?_cons_zero, List.getElem?_cons_succ, bind, Except.bind]
  split_ifs <;> rfl

/-- How many of the points `0 .. m - 1` are among the four. -/
def hits (a b c d : ℤ) (m : ℕ) : ℕ := (List.range m).countP fun (p : ℕ) => decide ((p : ℤ) + 1 ∈ [a, b, c, d])

theorem hits_succ (a b c d : ℤ) (m : ℕ) :
    hits a b c d (m + 1) = hits a b c d m + (if (m : ℤ) + 1 ∈ [a, b, c, d] then 1 else 0) := by
  unfold hits
  rw [List.range_succ, List.countP_append]
  simp [List.countP_cons]

theorem hits_le (a b c d : ℤ) (m : ℕ) : hits a b c d m ≤ m := by
  unfold hits
  exact (List.countP_le_length).trans (by simp)

theorem hits_four {a b c d : ℤ} {n : ℕ} : hits a b c d n = 4 ↔ FourOf n a b c d := by
  classical
  have h1 : hits a b c d n = ((Finset.range n).filter fun p : ℕ => (p : ℤ) + 1 ∈ [a, b, c, d]).card := by
    unfold hits
    rw [List.countP_eq_length_filter]
    rfl
  have h2 : ((Finset.range n).filter fun p : ℕ => (p : ℤ) + 1 ∈ [a, b, c, d]).card =
      ([a, b, c, d].toFinset.filter fun v : ℤ => 1 ≤ v ∧ v ≤ (n : ℤ)).card := by
    refine Finset.card_bij (fun p _ => (p : ℤ) + 1) ?_ ?_ ?_
    · intro p hp
      simp only [Finset.mem_filter, Finset.mem_range, List.mem_toFinset] at hp ⊢
      exact ⟨hp.2, by omega, by omega⟩
    · intro p _ q _ h
      omega
    · intro v hv
      simp only [Finset.mem_filter, List.mem_toFinset] at hv
      refine ⟨(v - 1).toNat, ?_, by omega⟩
      have e : (((v - 1).toNat : ℕ) : ℤ) + 1 = v := by omega
      simp only [Finset.mem_filter, Finset.mem_range]
      rw [e]
      exact ⟨by omega, hv.1⟩
  rw [h1, h2]
  have h3 : [a, b, c, d].toFinset.card ≤ 4 := (List.toFinset_card_le _).trans (by simp)
  have h4 := Finset.card_filter_le [a, b, c, d].toFinset (fun v : ℤ => 1 ≤ v ∧ v ≤ (n : ℤ))
  constructor
  · intro h
    have hc : [a, b, c, d].toFinset.card = 4 := by omega
    refine ⟨?_, ?_⟩
    · have := (Finset.card_filter_eq_iff).1 (h.trans hc.symm)
      intro v hv
      exact this v (List.mem_toFinset.2 hv)
    · rw [← Multiset.coe_nodup, ← Multiset.dedup_card_eq_card_iff_nodup]
      exact hc
  · rintro ⟨g1, g2⟩
    rw [Finset.filter_true_of_mem (fun v hv => g1 v (List.mem_toFinset.1 hv)), List.toFinset_card_of_nodup g2]
    rfl

theorem rowOf_succ_ne (ps : List Pos3) (m : ℕ) {v : ℤ} (h : (m : ℤ) ≠ v - 1) : rowOf ps (m + 1) v = rowOf ps m v := by
  unfold rowOf
  have : (1 ≤ v ∧ v ≤ ((m + 1 : ℕ) : ℤ)) ↔ (1 ≤ v ∧ v ≤ (m : ℤ)) := by push_cast; omega
  simp only [this]

theorem rowOf_succ_eq {ps : List Pos3} {m : ℕ} {v : ℤ} {p : Pos3} (h : (m : ℤ) = v - 1) (hp : ps[m]? = some p) :
    rowOf ps (m + 1) v = p := by
  unfold rowOf
  rw [if_pos (by push_cast; omega)]
  have : (v - 1).toNat = m := by omega
  rw [this, hp]
  rfl

theorem matchNrs_spec (a b c d : ℤ) (more : List ℤ) (ps : List Pos3) :
    ∀ (k m : ℕ) (fix4 : List Pos3), m + k = ps.length →
      ([a, b, c, d].Nodup → fix4 = [rowOf ps m a, rowOf ps m b, rowOf ps m c, rowOf ps m d]) →
      ∃ fix4', matchNrs (a :: b :: c :: d :: more) ps ps.length (List.range' m k) fix4 (hits a b c d m) =
          .ok (fix4', hits a b c d ps.length) ∧
        ([a, b, c, d].Nodup → fix4' = [rowOf ps ps.length a, rowOf ps ps.length b, rowOf ps ps.length c, rowOf ps ps.length d]) := by
  intro k
  induction k with
  | zero =>
    intro m fix4 hm hf
    have : m = ps.length := by omega
    subst this
    exact ⟨fix4, rfl, hf⟩
  | succ k ih =>
    intro m fix4 hm hf
    have hlt : m < ps.length := by omega
    have hp : ps[m]? = some ps[m] := List.getElem?_eq_getElem hlt
    have hle := hits_le a b c d m
    rw [List.range'_succ]
    unfold matchNrs
    rw [findNr_four]
    simp only [bind, Except.bind]
    -- one point found in row `i`
    have found : ∀ (i : ℕ) (fix4n : List Pos3), (m : ℤ) + 1 ∈ [a, b, c, d] → fix4.set i ps[m] = fix4n →
        ([a, b, c, d].Nodup → fix4n = [rowOf ps (m + 1) a, rowOf ps (m + 1) b, rowOf ps (m + 1) c, rowOf ps (m + 1) d]) →
        ∃ fix4', (if hits a b c d m + 1 ≥ ps.length then Except.ok (fix4.set i ps[m], hits a b c d m + 1)
            else matchNrs (a :: b :: c :: d :: more) ps ps.length (List.range' (m + 1) k) (fix4.set i ps[m]) (hits a b c d m + 1)) =
          (Except.ok (fix4', hits a b c d ps.length) : Py (List Pos3 × ℕ)) ∧
        ([a, b, c, d].Nodup → fix4' = [rowOf ps ps.length a, rowOf ps ps.length b, rowOf ps ps.length c, rowOf ps ps.length d]) := by
      intro i fix4n hmem he hn
      have hh : hits a b c d (m + 1) = hits a b c d m + 1 := by rw [hits_succ, if_pos hmem]
      rw [he, ← hh]
      have := hits_le a b c d (m + 1)
      split_ifs with hc
      · have e : m + 1 = ps.length := by omega
        rw [e] at hn
        rw [e]
        exact ⟨fix4n, rfl, hn⟩
      · exact ih (m + 1) fix4n (by omega) hn
    have mem_of : ∀ v, v ∈ [a, b, c, d] → (m : ℤ) = v - 1 → (m : ℤ) + 1 ∈ [a, b, c, d] := by
      intro v hv e
      have : (m : ℤ) + 1 = v := by omega
      rw [this]
      exact hv
    have hget : pyGet ps m = .ok ps[m] := by simp [pyGet, hp]
    by_cases h0 : (m : ℤ) = a - 1
    · simp only [if_pos h0, hget]
      refine found 0 _ (mem_of a (by simp) h0) rfl fun hnd => ?_
      rw [hf hnd]
      simp only [List.nodup_cons, List.mem_cons, List.not_mem_nil, not_or, or_false] at hnd
      rw [rowOf_succ_eq h0 hp, rowOf_succ_ne ps m (v := b) (by omega), rowOf_succ_ne ps m (v := c) (by omega),
        rowOf_succ_ne ps m (v := d) (by omega)]
      rfl
    · by_cases h1 : (m : ℤ) = b - 1
      · simp only [if_neg h0, if_pos h1, hget]
        refine found 1 _ (mem_of b (by simp) h1) rfl fun hnd => ?_
        rw [hf hnd]
        simp only [List.nodup_cons, List.mem_cons, List.not_mem_nil, not_or, or_false] at hnd
        rw [rowOf_succ_eq h1 hp, rowOf_succ_ne ps m (v := a) (by omega), rowOf_succ_ne ps m (v := c) (by omega),
          rowOf_succ_ne ps m (v := d) (by omega)]
        rfl
      · by_cases h2 : (m : ℤ) = c - 1
        · simp only [if_neg h0, if_neg h1, if_pos h2, hget]
          refine found 2 _ (mem_of c (by simp) h2) rfl fun hnd => ?_
          rw [hf hnd]
          simp only [List.nodup_cons, List.mem_cons, List.not_mem_nil, not_or, or_false] at hnd
          rw [rowOf_succ_eq h2 hp, rowOf_succ_ne ps m (v := a) (by omega), rowOf_succ_ne ps m (v := b) (by omega),
            rowOf_succ_ne ps m (v := d) (by omega)]
          rfl
        · by_cases h3 : (m : ℤ) = d - 1
          · simp only [if_neg h0, if_neg h1, if_neg h2, if_pos h3, hget]
            refine found 3 _ (mem_of d (by simp) h3) rfl fun hnd => ?_
            rw [hf hnd]
            simp only [List.nodup_cons, List.mem_cons, List.not_mem_nil, not_or, or_false] at hnd
            rw [rowOf_succ_eq h3 hp, rowOf_succ_ne ps m (v := a) (by omega), rowOf_succ_ne ps m (v := b) (by omega),
              rowOf_succ_ne ps m (v := c) (by omega)]
            rfl
          · simp only [if_neg h0, if_neg h1, if_neg h2, if_neg h3]
            have hh : hits a b c d (m + 1) = hits a b c d m := by
              rw [hits_succ, if_neg]
              · rfl
              · simp only [List.mem_cons, List.not_mem_nil, or_false, not_or]
                omega
            rw [if_neg (by omega), ← hh]
            refine ih (m + 1) fix4 (by omega) fun hnd => ?_
            rw [hf hnd, rowOf_succ_ne ps m h0, rowOf_succ_ne ps m h1, rowOf_succ_ne ps m h2, rowOf_succ_ne ps m h3]

/-- C107, what holds (partial): if the block file has the number of points (at least four) and a line for each, and the line of
camera `cam` in the other file names at least four points, then the manual orientation gets, row by row, the points on the lines
with these numbers, or nothing if two of the first four numbers are equal or one is not a line number. Missing: the points are
counted, their numbers in the file are not looked at (`C107_numbers_refuted`), and a file that ends early is taken
(`C107_short_refuted`). -/
theorem C107_points_partial (fs : FS) (calblock manOri s : List Char) (cam : ℕ) (a b c d : ℤ) (more : List ℤ) (ps : List Pos3)
    (hs : fs calblock = some s) (hb : CountedBlock s ps) (h4 : 4 ≤ ps.length)
    (hm : readNrs fs manOri cam = .ok (a :: b :: c :: d :: more)) :
    (FourOf ps.length a b c d → ∃ pa pb pc pd, readManOriFix fs calblock manOri cam = .ok (some [pa, pb, pc, pd]) ∧
      ps[(a - 1).toNat]? = some pa ∧ ps[(b - 1).toNat]? = some pb ∧ ps[(c - 1).toNat]? = some pc ∧ ps[(d - 1).toNat]? = some pd) ∧
    (¬ FourOf ps.length a b c d → readManOriFix fs calblock manOri cam = .ok none) := by
  have h0 : hits a b c d 0 = 0 := rfl
  obtain ⟨fix4, e1, e2⟩ := matchNrs_spec a b c d more ps ps.length 0 (List.replicate 4 ⟨0, 0, 0⟩) (by omega) (by
    intro _
    have : ∀ v, rowOf ps 0 v = ⟨0, 0, 0⟩ := fun v => by unfold rowOf; rw [if_neg (by omega)]
    simp only [this]
    rfl)
  rw [h0, ← List.range_eq_range'] at e1
  have key : readManOriFix fs calblock manOri cam = .ok (if hits a b c d ps.length = 4 then some fix4 else none) := by
    unfold readManOriFix
    rw [hm, oRead_counted hs hb]
    simp only [bind, Except.bind]
    rw [if_neg (by omega), e1]
  constructor
  · intro hf
    have row : ∀ v ∈ [a, b, c, d], ∃ p, ps[(v - 1).toNat]? = some p ∧ rowOf ps ps.length v = p := by
      intro v hv
      obtain ⟨g1, g2⟩ := hf.1 v hv
      have hlt : (v - 1).toNat < ps.length := by omega
      refine ⟨ps[(v - 1).toNat], List.getElem?_eq_getElem hlt, ?_⟩
      unfold rowOf
      rw [if_pos ⟨g1, g2⟩, List.getElem?_eq_getElem hlt]
      rfl
    obtain ⟨pa, a1, a2⟩ := row a (by simp)
    obtain ⟨pb, b1, b2⟩ := row b (by simp)
    obtain ⟨pc, c1, c2⟩ := row c (by simp)
    obtain ⟨pd, d1, d2⟩ := row d (by simp)
    refine ⟨pa, pb, pc, pd, ?_, a1, b1, c1, d1⟩
    rw [key, if_pos (hits_four.2 hf), e2 hf.2, a2, b2, c2, d2]
  · intro hf
    rw [key, if_neg (fun h => hf (hits_four.1 h))]

/-- A block file with its number of points in the first line. -/
def countedText (k : ℕ) (ps : List RefPt) : List Char := intStr ps.length ++ '\n' :: blockText k ps

theorem counted_block {k : ℕ} (hk : 0 < k) (ps : List RefPt) :
    CountedBlock (countedText k ps) (ps.map fun p => ⟨rnd k p.pos.x, rnd k p.pos.y, rnd k p.pos.z⟩) := by
  refine ⟨intStr ps.length, ps.map (blockLine k), ?_, ?_, ?_⟩
  · unfold countedText
    rw [lines_cons (intStr_word _).no_nl, lines_block]
  · rw [pyInt_intStr, List.length_map]
  · have := mapM_ok_of (f := fixLine) (g := fun l => match fixLine l with | .ok q => q | .error _ => ⟨0, 0, 0⟩)
      (l := ps.map (blockLine k)) (by
        intro a ha
        obtain ⟨p, -, rfl⟩ := List.mem_map.1 ha
        simp only [fixLine_block hk])
    rw [this, List.map_map]
    congr 1
    refine List.map_congr_left fun p _ => ?_
    simp only [Function.comp, fixLine_block hk]

/-- C107 is false: the numbers of the points in the block file do not matter. Renumber the points of any file in any way, and
the manual orientation still gets the same positions. -/
theorem C107_numbers_refuted {k : ℕ} (hk : 0 < k) (fs fs' : FS) (calblock manOri : List Char) (cam : ℕ) (ps ps' : List RefPt)
    (hs : fs calblock = some (countedText k ps)) (hs' : fs' calblock = some (countedText k ps'))
    (hp : ps.map RefPt.pos = ps'.map RefPt.pos) (hm : fs manOri = fs' manOri) :
    readManOriFix fs calblock manOri cam = readManOriFix fs' calblock manOri cam := by
  have h1 := oRead_counted hs (counted_block hk ps)
  have h2 := oRead_counted hs' (counted_block hk ps')
  have e : (ps.map fun p => (⟨rnd k p.pos.x, rnd k p.pos.y, rnd k p.pos.z⟩ : Pos3)) =
      ps'.map fun p => ⟨rnd k p.pos.x, rnd k p.pos.y, rnd k p.pos.z⟩ := by
    have := congrArg (List.map fun q : Pos3 => (⟨rnd k q.x, rnd k q.y, rnd k q.z⟩ : Pos3)) hp
    simp only [List.map_map] at this
    exact this
  rw [e] at h1
  have hn : readNrs fs manOri cam = readNrs fs' manOri cam := by simp only [readNrs, FS.read, hm]
  simp only [readManOriFix, hn, h1, h2]

/-- C107: a file whose point 1 is on line 2 and the other way round. -/
def swappedBlock : List Char := "4\n2 10.0 0.0 0.0\n1 20.0 0.0 0.0\n3 30.0 0.0 0.0\n4 40.0 0.0 0.0\n".toList

/-- A disk with a block file and a file that names the points 1 2 3 4 for the first camera. -/
def demoDisk (block : List Char) : FS := fun n => if n = ['b'] then some block else if n = ['m'] then some "1 2 3 4\n".toList else none

/-- C107, witness: for the points 1 2 3 4 the first row is the position of the point with number 2. -/
theorem C107_swapped_refuted : readManOriFix (demoDisk swappedBlock) ['b'] ['m'] 0 =
    .ok (some [⟨10, 0, 0⟩, ⟨20, 0, 0⟩, ⟨30, 0, 0⟩, ⟨40, 0, 0⟩]) := by decide +kernel

/-- C107 is false for a file that ends early: the first line says `n` points, there are lines for fewer; a point without a line is
put at the origin. -/
theorem C107_short_refuted : readManOriFix (demoDisk "4\n1 10.0 0.0 0.0\n2 20.0 0.0 0.0\n".toList) ['b'] ['m'] 0 =
    .ok (some [⟨10, 0, 0⟩, ⟨20, 0, 0⟩, ⟨0, 0, 0⟩, ⟨0, 0, 0⟩]) := by decide +kernel

/-- The hypotheses of C107_points_partial: four points, two cameras, the second one names 4 2 3 1. -/
example : CountedBlock (countedText 3 [⟨1, ⟨1, 0, 0⟩⟩, ⟨2, ⟨2, 0, 0⟩⟩, ⟨3, ⟨3, 0, 0⟩⟩, ⟨4, ⟨4, 0, 1 / 2⟩⟩])
      [⟨rnd 3 1, rnd 3 0, rnd 3 0⟩, ⟨rnd 3 2, rnd 3 0, rnd 3 0⟩, ⟨rnd 3 3, rnd 3 0, rnd 3 0⟩, ⟨rnd 3 4, rnd 3 0, rnd 3 (1 / 2)⟩] ∧
    readNrs (fun _ => some "1 2 3 4\n4 2 3 1 9\n".toList) [] 1 = .ok [4, 2, 3, 1, 9] ∧ FourOf 4 4 2 3 1 := by
  refine ⟨counted_block (by norm_num) _, by decide +kernel, ?_, by decide⟩
  intro v hv
  simp only [List.mem_cons, List.not_mem_nil, or_false] at hv
  omega

/-- The hypotheses of C106: a file with two points. -/
example : sgReadCalblock (fun _ => some "1 0.5 0.0 0.0\n7 -2.0 1.0 0.0\n".toList) [] =
      .ok [⟨1, ⟨1 / 2, 0, 0⟩⟩, ⟨7, ⟨-2, 1, 0⟩⟩] ∧
    readNrs (demoDisk swappedBlock) ['m'] 0 = .ok [1, 2, 3, 4] ∧
    oReadCalblock (demoDisk swappedBlock) ['b'] = .ok ([⟨10, 0, 0⟩, ⟨20, 0, 0⟩, ⟨30, 0, 0⟩, ⟨40, 0, 0⟩], 4) := by
  refine ⟨by decide +kernel, by decide +kernel, by decide +kernel⟩

end Verif.IO
