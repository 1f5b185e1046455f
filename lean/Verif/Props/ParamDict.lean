/-
C45, C74, C75: parameter sets as dictionaries, YAML files, comparisons (parameters.py).
-/
import Verif.Model.ParamDict
import Mathlib.Data.List.Perm.Basic
import Mathlib.Data.List.Nodup

namespace Verif.IO

theorem lookup_mem : ∀ {d : Dict} {k : String} {v : Val}, d.lookup k = some v → (k, v) ∈ d
  | [], k, v, h => by simp at h
  | (k', v') :: d, k, v, h => by
    rw [List.lookup_cons] at h
    by_cases e : k = k'
    · subst e
      simp at h
      simp [h]
    · have : (k == k') = false := by simpa using e
      rw [this] at h
      exact List.mem_cons_of_mem _ (lookup_mem h)

theorem mem_lookup : ∀ {d : Dict} {k : String} {v : Val}, (d.map Prod.fst).Nodup → (k, v) ∈ d → d.lookup k = some v
  | [], k, v, _, h => by simp at h
  | (k', v') :: d, k, v, hn, h => by
    rw [List.map_cons, List.nodup_cons] at hn
    rw [List.lookup_cons]
    rcases List.mem_cons.mp h with e | e
    · cases e; simp
    · have : k ≠ k' := by
        rintro rfl
        exact hn.1 (List.mem_map.mpr ⟨_, e, rfl⟩)
      have h2 : (k == k') = false := by simpa using this
      rw [h2]
      exact mem_lookup hn.2 e

theorem lookup_perm {d d' : Dict} (h : d.Perm d') (hn : (d'.map Prod.fst).Nodup) (k : String) :
    d.lookup k = d'.lookup k := by
  have hn' : (d.map Prod.fst).Nodup := (h.map Prod.fst).nodup_iff.mpr hn
  apply Option.ext
  intro v
  exact ⟨fun e => mem_lookup hn (h.mem_iff.mp (lookup_mem e)), fun e => mem_lookup hn' (h.mem_iff.mpr (lookup_mem e))⟩

theorem lookup_set : ∀ (d : Dict) (k k' : String) (v : Val),
    (d.set k v).lookup k' = if k' = k then some v else d.lookup k'
  | [], k, k', v => by
    rw [Dict.set, List.lookup_cons]
    by_cases e : k' = k
    · simp [e]
    · have : (k' == k) = false := by simpa using e
      simp [this, e]
  | (a, b) :: d, k, k', v => by
    rw [Dict.set]
    by_cases e : a = k
    · subst e
      rw [if_pos rfl, List.lookup_cons, List.lookup_cons]
      by_cases e : k' = a
      · simp [e]
      · have : (k' == a) = false := by simpa using e
        simp [this, e]
    · rw [if_neg e, List.lookup_cons, List.lookup_cons, lookup_set d k k' v]
      by_cases e2 : k' = a
      · subst e2; simp [e]
      · have : (k' == a) = false := by simpa using e2
        simp [this]

theorem all_set (f : String → Bool) : ∀ (d : Dict) (k : String) (v : Val), f k = true →
    d.all (fun p => f p.1) = true → (d.set k v).all (fun p => f p.1) = true
  | [], k, v, hk, _ => by simp [Dict.set, hk]
  | (a, b) :: d, k, v, hk, h => by
    rw [Dict.set]
    rw [List.all_cons, Bool.and_eq_true] at h
    split
    · rw [List.all_cons, h.2, hk]; rfl
    · rw [List.all_cons, h.1, all_set f d k v hk h.2]; rfl

theorem controlToDict_nodup (c : ControlObj) : ((controlToDict c).map Prod.fst).Nodup := by
  simp [controlToDict]

theorem mm_new_asDict (m : MMPar) (d : Dict) (hd : d.Perm (mmAsDict m)) :
    mmNew d = if m.n2.length ≠ m.d.length then .error .valueError else .ok m := by
  have hl := lookup_perm hd (by simp [mmAsDict])
  have hk : d.all (fun p => ["nlay", "n1", "n2", "d", "n3"].contains p.1) = true := by
    rw [List.all_eq_true]
    intro p hp
    have := hd.mem_iff.mp hp
    revert p
    have : ∀ p ∈ mmAsDict m, ["nlay", "n1", "n2", "d", "n3"].contains p.1 = true := by simp [mmAsDict]
    exact fun p _ hp => this p hp
  simp only [mmNew, checkKeys, kwInt, kwFloat, kwFloats, hl]
  rw [if_pos hk]
  rfl

/-- The fields of the result of `ControlPar(**d)`. -/
theorem controlNew_perm (c : ControlObj) (d : Dict) (v : Val)
    (hl : ∀ k, d.lookup k = if k = "mm" then some v else (controlToDict c).lookup k)
    (hk : d.all (fun p => controlFields.contains p.1) = true) : controlNew d = .ok { c with mm := v } := by
  simp only [controlNew, checkKeys, kwInt, kwFloat, kwStrs, hl]
  rw [if_pos hk]
  rfl

theorem perm_keys {c : ControlObj} {d : Dict} (hd : d.Perm (controlToDict c)) :
    d.all (fun p => controlFields.contains p.1) = true := by
  rw [List.all_eq_true]
  intro p hp
  have h1 := hd.mem_iff.mp hp
  have : ∀ p ∈ controlToDict c, controlFields.contains p.1 = true := by simp [controlToDict, controlFields]
  exact this p h1

theorem lookup_mm {c : ControlObj} {d : Dict} (hd : d.Perm (controlToDict c)) :
    d.lookup "mm" = some (asDictMM c.mm) := by
  rw [lookup_perm hd (controlToDict_nodup c)]
  rfl

theorem fromDict_perm (c : ControlPar) (d : Dict) (hd : d.Perm (controlToDict c.obj))
    (h : c.mm.n2.length = c.mm.d.length) : controlFromDict d = (d.set "mm" (.mm c.mm), .ok c.obj) := by
  rw [controlFromDict, lookup_mm hd]
  have e : mmFromDict ((some (asDictMM c.obj.mm)).getD (.dict [])) = .ok c.mm := by
    simp only [ControlPar.obj, asDictMM, Option.getD_some, mmFromDict]
    rw [mm_new_asDict c.mm _ (List.Perm.refl _), if_neg (by simpa using h)]
  rw [e]
  simp only
  rw [controlNew_perm c.obj (d.set "mm" (.mm c.mm)) (.mm c.mm)]
  · rfl
  · intro k
    rw [lookup_set, lookup_perm hd (controlToDict_nodup _)]
  · exact all_set _ d "mm" _ (by decide) (perm_keys hd)

/-- C45: a control parameter set whose layers have as many indices as thicknesses survives
`from_dict(to_dict(c))`, in whatever order the dictionary keeps its keys. -/
theorem C45_roundtrip_partial (c : ControlPar) (d : Dict) (hd : d.Perm (controlToDict c.obj))
    (h : c.mm.n2.length = c.mm.d.length) : (controlFromDict d).2 = .ok c.obj := by
  rw [fromDict_perm c d hd h]

/-- C45, refuted for other layers (which the constructor refuses, but `set` on the lists does not): ValueError. -/
theorem C45_layers_refuted (c : ControlPar) (h : c.mm.n2.length ≠ c.mm.d.length) :
    (controlFromDict (controlToDict c.obj)).2 = .error .valueError := by
  rw [controlFromDict, lookup_mm (List.Perm.refl _)]
  have e : mmFromDict ((some (asDictMM c.obj.mm)).getD (.dict [])) = .error .valueError := by
    simp only [ControlPar.obj, asDictMM, Option.getD_some, mmFromDict]
    rw [mm_new_asDict c.mm _ (List.Perm.refl _), if_pos h]
  rw [e]

/-- C45, refuted: `from_dict` changes the dictionary it is given, so that a second `from_dict` of the same
dictionary raises a TypeError. -/
theorem C45_reuse_refuted (c : ControlPar) (h : c.mm.n2.length = c.mm.d.length) :
    (controlFromDict (controlFromDict (controlToDict c.obj)).1).2 = .error .typeError := by
  rw [fromDict_perm c _ (List.Perm.refl _) h, controlFromDict, lookup_set]
  rfl

/-- C45: keys that are left out get the default values. -/
theorem C45_defaults : (controlFromDict []).2 =
    .ok (ControlPar.obj ⟨0, [], [], 1, 0, 1, 0, 0, 0, 0, 0, ⟨1, 1, [1], [0], 1⟩⟩) := rfl

/-- C74: multimedia parameters survive the YAML file (any order of the keys). -/
theorem C74_multimedia (m : MMPar) (d : Dict) (hd : d.Perm (mmAsDict m)) (h : m.n2.length = m.d.length) :
    mmFromYaml d = .ok m := by
  rw [mmFromYaml, mm_new_asDict m d hd, if_neg (by simpa using h)]

/-- C74: of a control parameter set, all fields but the multimedia parameters survive the YAML file. -/
theorem C74_control_partial (c : ControlPar) (d : Dict) (hd : d.Perm (controlToDict c.obj)) :
    controlFromYaml d = .ok { c.obj with mm := .dict (mmAsDict c.mm) } := by
  apply controlNew_perm c.obj d
  · intro k
    rw [lookup_perm hd (controlToDict_nodup _)]
    split
    · rename_i h; subst h; rfl
    · rfl
  · exact perm_keys hd

/-- C74, refuted: after `ControlPar.from_yaml` of a file written by `to_yaml`, the multimedia parameters are a
plain dictionary: the object is not the one written, and its refractive index cannot be used. -/
theorem C74_control_refuted (c : ControlPar) (d : Dict) (hd : d.Perm (controlToDict c.obj)) :
    ∃ o, controlFromYaml d = .ok o ∧ o ≠ c.obj ∧ c.obj.n1 = .ok c.mm.n1 ∧ o.n1 = .error .other := by
  refine ⟨_, C74_control_partial c d hd, ?_, rfl, rfl⟩
  intro e
  have := congrArg ControlObj.mm e
  simp [ControlPar.obj] at this

/-- C75: `compare_control_par` is true exactly for equal parameter sets. -/
theorem C75_control (a b : ControlPar) : compareControl a b = true ↔ a = b := by
  cases a; cases b
  simp only [compareControl, Bool.and_eq_true, decide_eq_true_iff, ControlPar.mk.injEq]
  tauto

/-- C75: `compare_mm_np` is true exactly for equal parameter sets when both have one layer. -/
theorem C75_mm_partial (a b : MMPar) (ha : a.n2.length = 1) (hb : b.n2.length = 1) (ha' : a.d.length = 1)
    (hb' : b.d.length = 1) : ∃ r, compareMM a b = .ok r ∧ (r = true ↔ a = b) := by
  obtain ⟨p, hp⟩ := List.length_eq_one_iff.mp ha
  obtain ⟨q, hq⟩ := List.length_eq_one_iff.mp hb
  obtain ⟨p', hp'⟩ := List.length_eq_one_iff.mp ha'
  obtain ⟨q', hq'⟩ := List.length_eq_one_iff.mp hb'
  refine ⟨decide ((a.nlay, a.n1, a.n3, p, p') = (b.nlay, b.n1, b.n3, q, q')), ?_, ?_⟩
  · simp only [compareMM, hp, hq, hp', hq']
    rfl
  · cases a; cases b
    simp only [decide_eq_true_iff] at *
    subst hp hq hp' hq'
    simp only [Prod.mk.injEq, MMPar.mk.injEq, List.cons.injEq, and_true]
    tauto

/-- C75, refuted: two sets that differ in a second layer compare as equal, whatever the layers are. -/
theorem C75_mm_refuted (nlay : ℤ) (n1 n3 a b : ℚ) (as bs as' bs' : List ℚ) (h : as ≠ as') :
    compareMM ⟨nlay, n1, a :: as, b :: bs, n3⟩ ⟨nlay, n1, a :: as', b :: bs', n3⟩ = .ok true ∧
      (⟨nlay, n1, a :: as, b :: bs, n3⟩ : MMPar) ≠ ⟨nlay, n1, a :: as', b :: bs', n3⟩ := by
  refine ⟨by simp [compareMM, pyGet, bind, Except.bind], ?_⟩
  intro e
  simp at e
  exact h e.1

/-! Concrete cases. -/

/-- A control parameter set with two layers. -/
def exControl : ControlPar :=
  ⟨2, [['a'], ['b']], [['c'], ['d']], 1, 0, 1, 1280, 1024, 12 / 1000, 12 / 1000, 0,
    ⟨2, 1, [149 / 100, 133 / 100], [5, 3], 133 / 100⟩⟩

example : exControl.mm.n2.length = exControl.mm.d.length := rfl
example : (controlFromDict (controlToDict exControl.obj).reverse).2 = .ok exControl.obj :=
  C45_roundtrip_partial _ _ (List.reverse_perm _) rfl
example : ∃ c : ControlPar, c.mm.n2.length ≠ c.mm.d.length :=
  ⟨{ exControl with mm := ⟨1, 1, [1, 2], [0], 1⟩ }, by decide⟩

end Verif.IO
