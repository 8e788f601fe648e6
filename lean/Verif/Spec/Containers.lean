import Verif.Spec.Components
import Verif.Model.Equality

/-
Specification vocabulary for containers of points.
-/
namespace PyProm.Spec

/-- `p` attains the least elevation of `l`. -/
def IsLowest {α} (elev : α → Rat) (l : List α) (p : α) : Prop := ∀ q ∈ l, elev p ≤ elev q

/-- `p` attains the greatest elevation of `l`. -/
def IsHighest {α} (elev : α → Rat) (l : List α) (p : α) : Prop := ∀ q ∈ l, elev q ≤ elev p

instance {α} (elev : α → Rat) (l : List α) (p : α) : Decidable (IsLowest elev l p) := by
  unfold IsLowest; infer_instance

instance {α} (elev : α → Rat) (l : List α) (p : α) : Decidable (IsHighest elev l p) := by
  unfold IsHighest; infer_instance

/-- Step to a touching member of `S` of the same height. -/
def LevelIn (S : List P3) (a b : P3) : Prop := Adj a.xy b.xy ∧ b ∈ S ∧ b.e = a.e

/-- No member of `S` touching `p` is higher. -/
def NoHigher (S : List P3) (p : P3) : Prop := ∀ r ∈ S, Adj p.xy r.xy → r.e ≤ p.e

instance (S : List P3) (p : P3) : Decidable (NoHigher S p) := by unfold NoHigher; infer_instance

/-- `p` belongs to a connected group of equal height of which no point has a higher neighbour, all
within `S`. -/
def Pseudo (S : List P3) (p : P3) : Prop :=
  p ∈ S ∧ ∀ q, Relation.ReflTransGen (LevelIn S) p q → NoHigher S q

end PyProm.Spec
