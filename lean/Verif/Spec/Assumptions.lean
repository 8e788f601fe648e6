import Verif.Spec.Walk
import Verif.Model.DomainMap

/-
What is assumed of the raster and of the external libraries by the theorems about the walk.
-/
namespace PyProm
open Spec

/-- Assumed behaviour of `KDTree.query` with respect to the plain distance `hyp`: one answer
per query point, the index of a nearest tree point together with its distance. -/
def KdOk (query : KdQuery) (hyp : Pt → Pt → Rat) : Prop :=
  ∀ tree pts, tree ≠ [] → (query tree pts).length = pts.length ∧
    ∀ (i : Nat) (q : Pt) (a : Rat × Nat), pts[i]? = some q → (query tree pts)[i]? = some a →
      ∃ t, tree[a.2]? = some t ∧ a.1 = hyp q t ∧ ∀ t' ∈ tree, hyp q t ≤ hyp q t'

/-- What is assumed of the nearest point map on raster cells: it is defined on its first list and its
values are in the second. -/
def NearOk (d : DataMap) (near : List P3 → List P3 → Except PyErr (P3 → Option P3)) : Prop :=
  ∀ us them, them ≠ [] → (∀ p ∈ us, InB d p.xy) → (∀ p ∈ them, InB d p.xy) →
    ∃ m, near us them = .ok m ∧ ∀ u ∈ us, ∃ t ∈ them, m u = some t

/-- Environment conditions for a walk. -/
structure EnvOk (E : WalkEnv) : Prop where
  low : NodataLow E.d
  pos : Upward E.w
  near : NearOk E.d E.near

/-- The raster is not rotated, has pixels of nonzero size, and coordinates are computed without
rounding. -/
structure Unrotated (d : DataMap) : Prop where
  gt1 : d.gt1 ≠ 0
  gt5 : d.gt5 ≠ 0
  gt2 : d.gt2 = 0
  gt4 : d.gt4 = 0
  exact : ∀ r, d.fl r = r

/-- The coordinates of a cell lead back to this cell. That is so for rasters that are not rotated, also
with rounded arithmetic (`C129_back`). -/
def Findable (d : DataMap) : Prop := ∀ q, InB d q → d.latLongToXY (latOf d q) (lonOf d q) = some q

/-- Conditions on the search for closest pairs. -/
def PairOk (d : DataMap) (fc : PairSearch) : Prop :=
  ∃ query hyp dist, KdOk query hyp ∧ fc = realSearch query dist ∧
    ∀ a b : P3, InB d a.xy → InB d b.xy → dist a b < maxsize

/-- Conditions on everything a run uses. -/
structure RunOk (E : SaddleEnv) : Prop where
  env : EnvOk E.toWalkEnv
  geo : Findable E.d
  fuel : E.d.size < E.fuel
  fc : PairOk E.d E.fc
  find : ∀ f u t, (E.find f u t).nodes.head? = some (MPt.ofP3 u) ∧
    (E.find f u t).nodes.getLast? = some (MPt.ofP3 t)

end PyProm
