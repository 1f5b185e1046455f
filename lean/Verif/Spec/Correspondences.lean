/-
Vocabulary for stating the correspondence properties (C01-C07), independent of how the
model computes.
-/
import Verif.Model.Correspondences

namespace Verif.Corr.Spec
open Verif.Corr

variable {K : Type} [Field K] [LinearOrder K]

/-- The n-tuple contains target number `k` of camera `c` (cameras `0 .. numCams-1`). -/
def Uses (numCams : Nat) (t : NTuple K) (c : Fin 4) (k : Nat) : Prop :=
  c.val < numCams ∧ t.p c = (k : Int)

instance (n : Nat) (t : NTuple K) (c : Fin 4) (k : Nat) : Decidable (Uses n t c k) := by
  unfold Uses; infer_instance

/-- Number of tuples of `T` that contain target `k` of camera `c`. -/
def useCount (n : Nat) (T : List (NTuple K)) (c : Fin 4) (k : Nat) : Nat :=
  T.countP (fun t => decide (Uses n t c k))

/-- Two n-tuples share a target in some camera. -/
def Share (numCams : Nat) (s t : NTuple K) : Prop :=
  ∃ c k, Uses numCams s c k ∧ Uses numCams t c k

/-- Value of the usage mark of target `k` in camera `c` (0 outside the table). -/
def mark (u : Usage) (c : Fin 4) (k : Nat) : Nat := ((u c)[k]?).getD 0

/-- The n-tuple contains a target already marked used. -/
def Taken (numCams : Nat) (u : Usage) (t : NTuple K) : Prop :=
  ∃ c k, Uses numCams t c k ∧ 0 < mark u c k

/-- All target numbers of the tuple lie inside the usage table. -/
def InTable (numCams : Nat) (u : Usage) (t : NTuple K) : Prop :=
  ∀ c k, Uses numCams t c k → k < (u c).length

/-- Slot `s` is a link from target `i` of camera `c1` to target `s.p2` of camera `c2`. -/
def Link (A : Adj K) (c1 c2 : Fin 4) (i : Nat) (s : Slot K) : Prop := s ∈ (A c1 c2 i).valid

/-- `t` is a consistent quadruplet: its targets are pairwise linked in all six camera pairs, its
correlation is sum of link correlations over sum of link distances, and it is not `<= accept`. -/
def IsQuad (A : Adj K) (numTargets : Nat) (accept : Fl K) (t : NTuple K) : Prop :=
  ∃ p1 p2 p3 p4 : Nat, ∃ s12 s13 s14 s23 s24 s34 : Slot K,
    p1 < numTargets ∧ t.p = ![(p1 : Int), p2, p3, p4] ∧
    (Link A 0 1 p1 s12 ∧ s12.p2 = p2) ∧ (Link A 0 2 p1 s13 ∧ s13.p2 = p3) ∧
    (Link A 0 3 p1 s14 ∧ s14.p2 = p4) ∧ (Link A 1 2 p2 s23 ∧ s23.p2 = p3) ∧
    (Link A 1 3 p2 s24 ∧ s24.p2 = p4) ∧ (Link A 2 3 p3 s34 ∧ s34.p2 = p4) ∧
    t.corr = Fl.npDiv (s12.corr + s13.corr + s14.corr + s23.corr + s24.corr + s34.corr)
      (s12.dist + s13.dist + s14.dist + s23.dist + s24.dist + s34.dist) ∧
    t.corr.npLe accept = false

/-- `t` is a consistent triplet of the unused targets `p1, p2, p3` of cameras `c1 < c2 < c3`,
with the three pairwise links `s12 s13 s23`; the fourth camera holds -2. -/
def IsTriplet (A : Adj K) (numTargets : Fin 4 → Nat) (accept : Fl K) (u : Usage) (t : NTuple K) : Prop :=
  ∃ c1 c2 c3 : Fin 4, ∃ p1 p2 p3 : Nat, ∃ s12 s13 s23 : Slot K,
    c1 < c2 ∧ c2 < c3 ∧ p1 < numTargets c1 ∧
    t.p c1 = p1 ∧ t.p c2 = p2 ∧ t.p c3 = p3 ∧ (∀ c, c ≠ c1 → c ≠ c2 → c ≠ c3 → t.p c = -2) ∧
    mark u c1 p1 = 0 ∧ mark u c2 p2 = 0 ∧ mark u c3 p3 = 0 ∧
    (Link A c1 c2 p1 s12 ∧ s12.p2 = p2) ∧ (Link A c1 c3 p1 s13 ∧ s13.p2 = p3) ∧
    (Link A c2 c3 p2 s23 ∧ s23.p2 = p3) ∧
    t.corr = Fl.npDiv (s12.corr + s13.corr + s23.corr) (s12.dist + s13.dist + s23.dist) ∧
    t.corr.npLe accept = false

/-- `t` is an unambiguous pair: `p1` of camera `c1` has exactly one candidate in camera `c2`,
both are unused, and the correlation is not `<= accept`. -/
def IsPair (A : Adj K) (numTargets : Fin 4 → Nat) (accept : Fl K) (u : Usage) (t : NTuple K) : Prop :=
  ∃ c1 c2 : Fin 4, ∃ p1 : Nat, ∃ s : Slot K,
    c1 < c2 ∧ p1 < numTargets c1 ∧ (A c1 c2 p1).valid = [s] ∧
    t.p c1 = p1 ∧ t.p c2 = s.p2 ∧ (∀ c, c ≠ c1 → c ≠ c2 → t.p c = -2) ∧
    mark u c1 p1 = 0 ∧ mark u c2 s.p2 = 0 ∧
    t.corr = Fl.npDiv s.corr s.dist ∧ t.corr.npLe accept = false

/-- Shape of the adjacency lists that `match_pairs` builds: rows of existing targets are labelled
with their own index, hold `MAXCAND` slots of which `n` are valid, and link to existing targets. -/
def WF (A : Adj K) (numTargets : Fin 4 → Nat) : Prop :=
  ∀ c1 c2 : Fin 4, c1 < c2 → ∀ i, i < numTargets c1 →
    (A c1 c2 i).p1 = i ∧ (A c1 c2 i).slots.length = MAXCAND ∧ (A c1 c2 i).n ≤ MAXCAND ∧
    (∀ s ∈ (A c1 c2 i).valid, s.p2 < numTargets c2) ∧
    (∀ s ∈ (A c1 c2 i).slots.drop (A c1 c2 i).n, s = Slot.zero)

end Verif.Corr.Spec
