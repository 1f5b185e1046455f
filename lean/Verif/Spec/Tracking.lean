/-
Vocabulary for the tracking properties, independent of how the model computes.
-/
import Verif.Model.TrackStep

namespace Verif.Track.Spec
open Verif.Track

section
variable {P D : Type} [LinearOrder D]

/-- `(d, k)` is the best registered candidate of `p`: smallest decision value, then smallest
particle number. -/
def BestOf (p : Part P D) (d : D) (k : Int) : Prop :=
  (d, k) ∈ p.cands ∧ ∀ x ∈ p.cands, d < x.1 ∨ (d = x.1 ∧ k ≤ x.2)

/-- Particle `h` of the list `c` has best candidate `k` with decision value `d`. -/
def BestAt (c : List (Part P D)) (h : Nat) (d : D) (k : Int) : Prop :=
  ∃ p, c[h]? = some p ∧ BestOf p d k

/-- Particle `h` of `c` points forward to `k`. -/
def PointsTo (c : List (Part P D)) (h : Nat) (k : Int) : Prop :=
  ∃ p, c[h]? = some p ∧ p.next = k

/-- Particle `k` of `n` points back to `h`. -/
def PointsBack (n : List (Part P D)) (k : Nat) (h : Int) : Prop :=
  ∃ q, n[k]? = some q ∧ q.prev = h

/-- The links between two consecutive frames agree: `h` points to `k` iff `k` points back to `h`,
and a particle either has no link or points to an existing particle. -/
def Mutual (c n : List (Part P D)) : Prop :=
  (∀ h k : Nat, PointsTo c h k ↔ PointsBack n k h) ∧
  (∀ p ∈ c, p.next = NEXT_NONE ∨ ∃ k : Nat, p.next = k ∧ k < n.length) ∧
  (∀ q ∈ n, q.prev = PREV_NONE ∨ ∃ h : Nat, q.prev = h ∧ h < c.length)

/-- Same particles: equal length and positions. -/
def SamePositions (c c' : List (Part P D)) : Prop := c'.map Part.x = c.map Part.x

/-- Number of particles with a forward link. -/
def numLinks (c : List (Part P D)) : Nat := c.countP (fun p => decide (p.next ≠ NEXT_NONE))

end

section
variable {P D I : Type}

/-- The particles of `f` start with those of `f0` (same positions, same order). -/
def KeepsPositions (f0 f : Frame P D I) : Prop :=
  ∃ e, f.parts.map Part.x = f0.parts.map Part.x ++ e

/-- Consecutive written frames agree on their links. -/
def LinkChain [LinearOrder D] (l : List (Int × Frame P D I)) : Prop :=
  List.IsChain (fun f g => Mutual f.2.parts g.2.parts) l

end

/-- Frame numbers read in a run, in order. -/
def readsOf {F : Type} : List (Ev F) → List Int
  | [] => []
  | .read n :: l => n :: readsOf l
  | _ :: l => readsOf l

/-- File number and frame written, in order. -/
def writesOf {F : Type} : List (Ev F) → List (Int × F)
  | [] => []
  | .write n f :: l => (n, f) :: writesOf l
  | _ :: l => writesOf l

/-- Step number and buffer of every computing step, in order. -/
def stepsOf {F : Type} : List (Ev F) → List (Int × List F)
  | [] => []
  | .step n b :: l => (n, b) :: stepsOf l
  | _ :: l => stepsOf l

/-- The integers `a, a+1, ..., a+n-1`. -/
def intRange (a : Int) (n : Nat) : List Int := (List.range n).map (fun (i : Nat) => a + i)

/-- Camera `j` (records 4j..4j+3) found correspondence number `k`. -/
def SeenBy (a : List FP) (j : Nat) (k : Int) : Prop :=
  ∃ i, i < 4 ∧ (a[4 * j + i]?).map FP.ftnr = some k

instance (a : List FP) (j : Nat) (k : Int) : Decidable (SeenBy a j k) := by
  unfold SeenBy; infer_instance

/-- Number of cameras that found `k`. -/
def camCount (a : List FP) (numCams : Nat) (k : Int) : Nat :=
  ((List.range numCams).filter (fun j => decide (SeenBy a j k))).length

/-- Records as registration leaves them: four per camera, no frequency counted yet, a camera flag
only where that camera found the number. -/
def FreshRows (a : List FP) (numCams : Nat) : Prop :=
  a.length = 4 * numCams ∧ numCams ≤ 4 ∧
  ∀ r ∈ a, r.freq = 0 ∧ r.cams.length = 4 ∧
    ∀ j : Nat, r.cams[j]? = some true → SeenBy a j r.ftnr

end Verif.Track.Spec
