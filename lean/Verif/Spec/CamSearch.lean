/-
Vocabulary for C80, C81: what the searches over all cameras should find.
-/
import Verif.Model.CamSearch
import Verif.Spec.Search
import Verif.Spec.Tracking

namespace Verif.Track.Spec
open Verif.Track

section
variable {K : Type} [Field K] [LinearOrder K]

/-- Target `i` of camera `cam` is free (no particle uses it) and within 3 pixels, in each direction, of the pixel
position `px`, which is in the image. -/
def FreeNear {P : Type} (c : Cams P K) (targets : List (List (Search.Tgt K))) (px : K × K) (cam i : Nat) : Prop :=
  (0 ≤ px.1 ∧ px.1 ≤ c.imx ∧ 0 ≤ px.2 ∧ px.2 ≤ c.imy) ∧
  ∃ ts, targets[cam]? = some ts ∧ Search.Spec.InWindowFree ts px.1 px.2 3 3 3 3 c.imx c.imy i

/-- Target `i` is such a target, and none is nearer. -/
def NearestFree {P : Type} (c : Cams P K) (targets : List (List (Search.Tgt K))) (px : K × K) (cam i : Nat)
    (t : Search.Tgt K) : Prop :=
  FreeNear c targets px cam i ∧ ∃ ts, targets[cam]? = some ts ∧ ts[i]? = some t ∧
    ∀ j t', FreeNear c targets px cam j → ts[j]? = some t' →
      (px.1 - t.x) ^ 2 + (px.2 - t.y) ^ 2 ≤ (px.1 - t'.x) ^ 2 + (px.2 - t'.y) ^ 2

/-- Camera `cam` has a target of particle `k` in the search rectangle `a` around `v`. -/
def InRect {P : Type} (c : Cams P K) (targets : List (List (Search.Tgt K))) (v : K × K) (a : Rect K) (cam : Nat)
    (k : Int) : Prop :=
  ∃ ts j t, targets[cam]? = some ts ∧ ts[j]? = some t ∧ t.tnr = k ∧
    Search.Spec.InWindow ts v.1 v.2 a.left a.right a.up a.down c.imx c.imy j

/-- The last target of camera `cam` is the one of particle `k`. -/
def IsLast (targets : List (List (Search.Tgt K))) (cam : Nat) (k : Int) : Prop :=
  ∃ ts t, targets[cam]? = some ts ∧ ts.getLast? = some t ∧ t.tnr = k

end

end Verif.Track.Spec
