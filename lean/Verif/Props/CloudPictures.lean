/-
C149: from inexact pictures of a swarm to its trajectories.
-/
import Verif.Spec.CloudPictures
import Verif.Props.Cloud
import Verif.Props.PicturesTrack

namespace Verif.FullCorr

open Verif.Geo Verif.Geo.V3 Verif.Geo.Spec Verif.Search Verif.Search.Spec Verif.Corr Verif.Corr.Spec

/-! ### From the unsorted to the sorted coordinates -/

theorem fitsWith_sorted {p : Pars} {tol : ℝ} {a b : Pic} {i j : ℕ} {q r : Search.Coord} (hq : (a.data p.ip tol).crd[i]? = some q)
    (hr : (b.data p.ip tol).crd[j]? = some r) {d w : ℝ}
    (h : FitsWith p (a.unsorted p.ip tol) (b.unsorted p.ip tol) q.pnr r.pnr d w) :
    FitsWith p (a.data p.ip tol) (b.data p.ip tol) i j d w := by
  obtain ⟨e, q', s, u, t, h1, h2, h3, h4, h5, h6, h7⟩ := h
  have e1 := row_of hq
  have e2 := row_of hr
  rw [h2] at e1
  rw [h4] at e2
  cases e1
  cases e2
  obtain ⟨c, t', g1, g2, g3⟩ := h6
  rw [h4] at g1
  cases g1
  exact ⟨e, _, s, _, t, (epi_unsorted hq e).2 h1, hq, h3, hr, h5, ⟨_, t', hr, g2, g3⟩, h7⟩

theorem fits_unsorted {p : Pars} {tol : ℝ} {a b : Pic} {i j : ℕ} {q r : Search.Coord} (hq : (a.data p.ip tol).crd[i]? = some q)
    (hr : (b.data p.ip tol).crd[j]? = some r) (h : Fits p (a.data p.ip tol) (b.data p.ip tol) i j) :
    Fits p (a.unsorted p.ip tol) (b.unsorted p.ip tol) q.pnr r.pnr := by
  obtain ⟨e, q', s, h1, h2, h3, c, t, g1, g2, g3⟩ := h
  rw [hq] at h2
  cases h2
  rw [hr] at g1
  cases g1
  exact ⟨e, q, s, (epi_unsorted hq e).1 h1, row_of hq, h3, r, t, row_of hr, g2, g3⟩

variable {p : Pars} {tol : ℝ} {pics : Fin 4 → Pic} {N : ℕ} {P : Fin N → V3} {m : Fin N → Fin 4 → ℕ} {t : Fin N → Fin 4 → Det}
  {d w : Fin N → Fin 4 → Fin 4 → ℝ} {cm δ σ : ℝ} {ray : Fin N → Fin 4 → Ray}

/-- The row of the target `t` with number `n`. -/
noncomputable def rowAt (p : Pars) (tol : ℝ) (pics : Fin 4 → Pic) (c : Fin 4) (n : ℕ) (t : Det) : Search.Coord :=
  ⟨n, (flatPos p.ip tol (pics c).cal t).1, (flatPos p.ip tol (pics c).cal t).2⟩

theorem PicturedCloud.rows (h : PicturedCloud p tol pics N P m t d w cm δ σ ray) :
    ∃ k : Fin N → Fin 4 → ℕ, (∀ n c, ((pics c).data p.ip tol).crd[k n c]? = some (rowAt p tol pics c (m n c) (t n c))) ∧
      Cloud p (fun c => (pics c).data p.ip tol) N k d w := by
  have key : ∀ n c, ∃ i : ℕ, ((pics c).data p.ip tol).crd[i]? = some (rowAt p tol pics c (m n c) (t n c)) := by
    intro n c
    obtain ⟨i, q, h1, h2⟩ := row_exists (ip := p.ip) (tol := tol) (List.getElem?_eq_some_iff.1 (h.target n c)).1
    refine ⟨i, ?_⟩
    have h3 := row_of h1
    rw [h2, unsorted_get, h.target n c, Option.map_some] at h3
    rw [h1, ← h3]
    rfl
  choose k hk using key
  refine ⟨k, hk, ?_, ?_, ?_, ?_, ?_⟩
  · intro n c1 c2 hc
    exact fitsWith_sorted (hk n c1) (hk n c2) (h.fit n c1 c2 hc)
  · intro n c1 c2 hc e he
    exact h.meets n c1 c2 hc e ((epi_unsorted (hk n c1) e).1 he)
  · intro n l c1 c2 hc hf
    exact h.only n l c1 c2 hc (fits_unsorted (hk n c1) (hk l c2) hf)
  · intro c i hi
    have hg := List.getElem?_eq_getElem hi
    have h1 := row_of hg
    rw [unsorted_get, Option.map_eq_some_iff] at h1
    obtain ⟨u, hu, -⟩ := h1
    obtain ⟨n, hn⟩ := h.all c _ (List.getElem?_eq_some_iff.1 hu).1
    exact ⟨n, row_inj (hk n c) hg hn⟩
  · intro n l c e
    have h1 := hk n c
    rw [e, hk l c] at h1
    have := congrArg Search.Coord.pnr (Option.some.inj h1)
    exact (h.once l n c this).symm

theorem finRange_get {α : Type} (f : Fin 4 → α) (c : Fin 4) : ((List.finRange 4).map f)[c.val]? = some (f c) := by
  fin_cases c <;> rfl

/-- What `py_correspondences` returns for the pictures of a cloud. -/
theorem cloud_out (srt : NpSort ℝ) (heps : 0 < p.crit.eps0) (hcs : 0 ≤ p.crit.csumg) (hcm : p.corrmin = .fin cm) (hσ : 0 < σ)
    (h : PicturedCloud p tol pics N P m t d w cm δ σ ray) :
    ∃ o, pyCorrespondences srt p (fun c => (pics c).data p.ip tol) = .ok o ∧ o.total = N ∧ (∀ c, (listed o c).length = N) ∧
      (∀ c, (o.tnr c).length = N) ∧
      ∃ pos : Fin N → ℕ, Function.Injective pos ∧ (∀ n, pos n < N) ∧
        (∀ n c, (listed o c)[pos n]? = some ((m n c : Int), ((t n c).x, (t n c).y))) ∧ (∀ n c, (o.tnr c)[m n c]? = some (pos n : Int)) ∧
        (∀ n c, ((pics c).lookup p.ip tol ((listed o c).map Prod.fst))[pos n]? = some (flatPos p.ip tol (pics c).cal (t n c))) ∧
        ∀ n, ∃ (e : ℝ) (M : V3), pointPosition ((List.finRange 4).map fun c => flatPos p.ip tol (pics c).cal (t n c)) 4 p.mm
          ((List.finRange 4).map fun c => (pics c).cal) = .ok (some (e, M)) ∧ (M - P n).norm ≤ δ * (1 + 2 / σ) := by
  have hd : ∀ c, DataFine ((pics c).data p.ip tol) := fun c => data_fine (h.fine c) p.ip tol
  obtain ⟨k, hk, hcl⟩ := h.rows
  obtain ⟨r, hr⟩ := C109_returns srt p (fun c => (pics c).data p.ip tol) hd heps hcs (by
    intro c1 c2 hc i hi
    obtain ⟨n, rfl⟩ := hcl.all c1 i hi
    obtain ⟨e, -, -, -, -, he, -⟩ := hcl.fit n c1 c2 hc
    exact ⟨e, he⟩)
  obtain ⟨ht, hp, hN, pos, hinj, hall⟩ := C145_cloud srt hd heps hcs cm hcm hcl h.score r hr
  have ho := py_eq srt hd heps hcs hr
  obtain ⟨o, ho', hdist⟩ := C110_distribution srt p (fun c => (pics c).data p.ip tol) hd heps hcs (by
    intro c1 c2 hc i hi
    obtain ⟨n, rfl⟩ := hcl.all c1 i hi
    obtain ⟨e, -, -, -, -, he, -⟩ := hcl.fit n c1 c2 hc
    exact ⟨e, he⟩)
  rw [ho, ht, hp] at ho'
  have hq : ∀ c, (listed o c) = r.quads.map (ent ((pics c).data p.ip tol) c) := by
    intro c
    cases ho'
    simp [listed]
  have htot : o.total = N := by
    cases ho'
    simp [hN]
  have htnr : o.tnr = r.tnr := by cases ho'; rfl
  have hlist : ∀ n c, (listed o c)[pos n]? = some ((m n c : Int), ((t n c).x, (t n c).y)) := by
    intro n c
    obtain ⟨T, hT, hTk, -⟩ := hall n
    obtain ⟨xy, h1, h2⟩ := ent_some (hd c) (hTk c) (hk n c)
    rw [hq c, List.getElem?_map, hT, Option.map_some, h2]
    have h3 : ((pics c).dets.map fun t => (t.x, t.y))[m n c]? = some xy := h1
    rw [List.getElem?_map, h.target n c, Option.map_some, Option.some.injEq] at h3
    rw [← h3]
    rfl
  have hpos : ∀ n, pos n < N := by
    intro n
    obtain ⟨T, hT, -⟩ := hall n
    have := (List.getElem?_eq_some_iff.1 hT).1
    omega
  have hlen : ∀ c, (listed o c).length = N := fun c => by rw [hq, List.length_map, hN]
  have hsurj : ∀ i, i < N → ∃ n, pos n = i := by
    intro i hi
    have hs : Function.Surjective (fun n : Fin N => (⟨pos n, hpos n⟩ : Fin N)) :=
      Finite.surjective_of_injective fun a b e => hinj (by simpa using e)
    obtain ⟨n, hn⟩ := hs ⟨i, hi⟩
    exact ⟨n, by simpa using congrArg Fin.val hn⟩
  have htn : ∀ n c, (o.tnr c)[m n c]? = some (pos n : Int) := by
    intro n c
    obtain ⟨T, -, -, h3⟩ := hall n
    rw [htnr]
    exact h3 c _ (hk n c)
  have hdl : ∀ c, (pics c).dets.length = N := by
    intro c
    have hb : Function.Bijective (fun n : Fin N => (⟨m n c, (List.getElem?_eq_some_iff.1 (h.target n c)).1⟩ : Fin (pics c).dets.length)) := by
      constructor
      · intro a b e
        exact h.once a b c (by simpa using e)
      · intro i
        obtain ⟨n, hn⟩ := h.all c i i.isLt
        exact ⟨n, Fin.ext hn⟩
    have := Fintype.card_of_bijective hb
    simpa using this.symm
  refine ⟨o, by rw [ho, ht, hp]; exact ho', htot, hlen, ?_, pos, hinj, hpos, hlist, htn, ?_, ?_⟩
  · intro c
    have hge : ∀ i, i < N → i < (o.tnr c).length := by
      intro i hi
      rw [← hdl c] at hi
      obtain ⟨n, rfl⟩ := h.all c i hi
      exact (List.getElem?_eq_some_iff.1 (htn n c)).1
    have h2 := hdist.keep c N (by
      intro xy hm
      obtain ⟨i, hi⟩ := List.mem_iff_getElem?.1 hm
      obtain ⟨n, rfl⟩ := hsurj i (by rw [← hlen c]; exact (List.getElem?_eq_some_iff.1 hi).1)
      rw [hlist n c] at hi
      have := congrArg Prod.fst (Option.some.inj hi)
      simp only at this
      have h5 := (List.getElem?_eq_some_iff.1 (h.target n c)).1
      rw [hdl c] at h5
      omega)
    have h3 : ((pics c).data p.ip tol).tnr[N]? = none := by
      rw [List.getElem?_eq_none_iff, (hd c).tnrs, data_length, hdl c]
    have h2 : (o.tnr c)[N]? = ((pics c).data p.ip tol).tnr[N]? := h2
    rw [h3, List.getElem?_eq_none_iff] at h2
    by_contra hne
    have := hge (o.tnr c).length (by omega)
    omega
  · intro n c
    have hnd : ((listed o c).map Prod.fst).Nodup := by
      have := quads_nodup srt hd heps hcs ho c
      simp only at this
      rw [hq c]
      exact this
    obtain ⟨-, h2, -⟩ := C46_numbers (pics c).pixels p.ip (pics c).cal tol
    obtain ⟨-, hg⟩ := C46_get_by_pnrs ((pics c).matched p.ip tol) ((listed o c).map Prod.fst) coordUnused hnd h2
    have hkc := hk n c
    simp only [Pic.data, List.getElem?_map, Option.map_eq_some_iff] at hkc
    obtain ⟨r, hr, he⟩ := hkc
    simp only [rowAt, Search.Coord.mk.injEq] at he
    have hr0 := matched_pos (List.mem_of_getElem? hr)
    have := (hg (pos n) (m n c) (by rw [List.getElem?_map, hlist n c]; rfl)).1 r (List.mem_of_getElem? hr) (by omega)
    rw [Pic.lookup, this, he.2.1, he.2.2]
  · intro n
    obtain ⟨q, e, M, h1, h2, -, -, h4⟩ := hcl.position P δ σ hσ ray (by
      intro n c q hq
      rw [hk n c] at hq
      cases hq
      exact h.sight n c) h.near h.cross (by
      intro c q hq
      obtain ⟨i, hi⟩ := List.mem_iff_getElem?.1 hq
      obtain ⟨n, rfl⟩ := hcl.all c i (List.getElem?_eq_some_iff.1 hi).1
      rw [hk n c] at hi
      cases hi
      exact h.mark n c) n
    refine ⟨e, M, ?_, h4⟩
    rw [← h2]
    congr 1
    refine List.map_congr_left fun c _ => ?_
    have := h1 c
    rw [hk n c] at this
    rw [← Option.some.inj this]
    rfl

/-- C149, one frame: any media, any lenses, inexact targets. `py_correspondences` of the pictures of a cloud returns, its results can be recorded as a
frame, and every frame recorded from them holds exactly the particles of the cloud, each within `δ (1 + 2/σ)` of its true position, with its
own targets. -/
theorem C149_frame (srt : NpSort ℝ) (heps : 0 < p.crit.eps0) (hcs : 0 ≤ p.crit.csumg) (hcm : p.corrmin = .fin cm) (hσ : 0 < σ)
    (h : PicturedCloud p tol pics N P m t d w cm δ σ ray) :
    ∃ o, pyCorrespondences srt p (fun c => (pics c).data p.ip tol) = .ok o ∧ (∃ f, Recorded p tol pics o f) ∧
      ∀ f, Recorded p tol pics o f → ∃ pos, HoldsCloud f N P m t (δ * (1 + 2 / σ)) pos := by
  obtain ⟨o, ho, htot, hlen, hlt, pos, hinj, hpos, hlist, htn, hlook, hpt⟩ := cloud_out srt heps hcs hcm hσ h
  have hsurj : ∀ i, i < N → ∃ n, pos n = i := by
    intro i hi
    have hs : Function.Surjective (fun n : Fin N => (⟨pos n, hpos n⟩ : Fin N)) :=
      Finite.surjective_of_injective fun a b e => hinj (by simpa using e)
    obtain ⟨n, hn⟩ := hs ⟨i, hi⟩
    exact ⟨n, by simpa using congrArg Fin.val hn⟩
  have hdl : ∀ c, (pics c).dets.length = N := by
    intro c
    have hb : Function.Bijective (fun n : Fin N => (⟨m n c, (List.getElem?_eq_some_iff.1 (h.target n c)).1⟩ : Fin (pics c).dets.length)) := by
      constructor
      · intro a b e
        exact h.once a b c (by simpa using e)
      · intro i
        obtain ⟨n, hn⟩ := h.all c i i.isLt
        exact ⟨n, Fin.ext hn⟩
    have := Fintype.card_of_bijective hb
    simpa using this.symm
  choose e M hM hnear using hpt
  refine ⟨o, ho, ?_, ?_⟩
  · have hinv : ∀ i : Fin N, ∃ n, pos n = i := fun i => hsurj i i.isLt
    choose inv hi using hinv
    have hget : ∀ {α : Type} (g : Fin N → α) (j : ℕ) (a : α), ((List.finRange N).map g)[j]? = some a → ∃ n, pos n = j ∧
        ∃ hj : j < N, a = g ⟨j, hj⟩ ∧ inv ⟨j, hj⟩ = n := by
      intro α g j a ha
      rw [List.getElem?_map, Option.map_eq_some_iff] at ha
      obtain ⟨i, h1, rfl⟩ := ha
      obtain ⟨hj, rfl⟩ := List.getElem?_eq_some_iff.1 h1
      have hj' : j < N := by simpa using hj
      refine ⟨inv ⟨j, hj'⟩, hi _, hj', ?_, rfl⟩
      congr 1
      simp
    refine ⟨⟨0, (List.finRange N).map fun i => ⟨M (inv i), -1, -2, [], 0⟩,
      ⟨(List.finRange 4).map fun c =>
        List.zipWith (fun (t : Det) (k : Int) => (⟨t.x, t.y, k⟩ : Search.Tgt ℝ)) (pics c).dets (o.tnr c),
        (List.finRange N).map fun i => ⟨0, (List.finRange 4).map fun c => (m (inv i) c : Int)⟩, ?_⟩⟩, ?_, ?_, ?_, ?_, ?_⟩
    · intro ts hts u hu
      obtain ⟨c, -, rfl⟩ := List.mem_map.1 hts
      obtain ⟨i, hi⟩ := List.mem_iff_getElem?.1 hu
      rw [List.getElem?_zipWith] at hi
      split at hi
      · rename_i a b h1 h2
        obtain ⟨n, rfl⟩ := h.all c i (List.getElem?_eq_some_iff.1 h1).1
        rw [htn n c] at h2
        cases h2
        cases hi
        simp only
        omega
      · cases hi
    · simp [htot]
    · intro j q hq
      obtain ⟨n, rfl, hj, rfl, hn⟩ := hget _ _ _ hq
      refine ⟨rfl, rfl, fun c => flatPos p.ip tol (pics c).cal (t n c), e n, fun c => hlook n c, ?_⟩
      simp only [hn]
      exact hM n
    · rfl
    · simp [htot]
    · intro j r hr
      obtain ⟨n, rfl, hj, rfl, hn⟩ := hget _ _ _ hr
      refine ⟨by simp, fun c => ⟨_, hlist n c, ?_⟩⟩
      simp only [hn]
      exact finRange_get _ c
  · intro f hf
    refine ⟨pos, ?_, hinj, ?_, ?_, ?_, ?_⟩
    · rw [hf.count, htot]
    · intro n
      have hl : pos n < f.parts.length := by rw [hf.count, htot]; exact hpos n
      have hq := List.getElem?_eq_getElem hl
      obtain ⟨h1, h2, v, e', h3, h4⟩ := hf.place _ _ hq
      refine ⟨_, hq, h1, h2, ?_⟩
      have hv : v = fun c => flatPos p.ip tol (pics c).cal (t n c) := by
        funext c
        have := h3 c
        rw [hlook n c] at this
        exact (Option.some.inj this).symm
      rw [hv, hM n] at h4
      simp only [Except.ok.injEq, Option.some.injEq, Prod.mk.injEq] at h4
      rw [← h4.2]
      exact hnear n
    · rw [hf.targets]
      simp
    · intro c ts hts
      rw [hf.targets, finRange_get] at hts
      cases hts
      refine ⟨by rw [List.length_zipWith, hdl c, hlt c, min_self], fun n => ?_⟩
      rw [List.getElem?_zipWith, h.target n c, htn n c]
    · intro n
      have hl : pos n < f.img.corr.length := by rw [hf.rows, htot]; exact hpos n
      have hq := List.getElem?_eq_getElem hl
      obtain ⟨h1, h2⟩ := hf.row _ _ hq
      refine ⟨_, hq, ?_⟩
      refine List.ext_getElem? fun i => ?_
      by_cases hi : i < 4
      · obtain ⟨e', h3, h4⟩ := h2 ⟨i, hi⟩
        rw [hlist n ⟨i, hi⟩] at h3
        cases h3
        rw [h4]
        exact (finRange_get (fun c => (m n c : Int)) ⟨i, hi⟩).symm
      · rw [List.getElem?_eq_none (by omega), List.getElem?_eq_none (by simp; omega)]

end Verif.FullCorr
