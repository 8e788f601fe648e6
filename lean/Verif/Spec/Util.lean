import Verif.Model.Util

/-
Specification vocabulary for the helpers in util.py and for FastLookup.
-/
namespace PyProm.Spec

/-- `orig` arises from `short` by repeating characters. -/
def RepeatOf {α : Type} (short orig : List α) : Prop :=
  ∃ ns : List Nat, ns.length = short.length ∧ (∀ n ∈ ns, 0 < n) ∧
    orig = (List.zipWith (fun n a => List.replicate n a) ns short).flatten

variable {K V : Type} [DecidableEq K]

/-- What the calls have stored at a coordinate last; `none` if nothing. -/
def stored (x y : K) : List (FOp K V) → Option (FVal V)
  | [] => none
  | op :: ops => match stored x y ops with
    | some v => some v
    | none => match op with
      | .set x' y' v => if x' = x ∧ y' = y then some v else none
      | .remove x' y' => if x' = x ∧ y' = y then some .none else none
      | .get _ _ => none

/-- Coordinates of a point. -/
def ptCoords : FPt K V → K × K
  | .tup2 x y | .tup3 x y _ | .grid x y _ | .base x y | .spot x y _ | .coord x y => (x, y)

/-- Value that a point brings along, or `True`. -/
def ptValue (onlyExistence : Bool) : FPt K V → FVal V
  | .tup3 _ _ v | .grid _ _ v | .spot _ _ v => if onlyExistence then .true else .val v
  | _ => .true

/-- Two points are of the same kind. -/
def sameKind : FPt K V → FPt K V → Prop
  | .tup2 _ _, .tup2 _ _ | .tup3 _ _ _, .tup3 _ _ _ | .grid _ _ _, .grid _ _ _ | .base _ _, .base _ _
  | .spot _ _ _, .spot _ _ _ | .coord _ _, .coord _ _ => True
  | _, _ => False

/-- Value of the last of the points at a coordinate. -/
def lastAt (onlyExistence : Bool) (x y : K) (pts : List (FPt K V)) : Option (FVal V) :=
  (pts.filter fun p => ptCoords p = (x, y)).getLast?.map (ptValue onlyExistence)

/-- Updating a hash object with two pieces is updating it with their concatenation. -/
structure Streaming {H B : Type} (upd : H → List B → H) : Prop where
  nil : ∀ h, upd h [] = h
  append : ∀ h a b, upd (upd h a) b = upd h (a ++ b)

end PyProm.Spec
