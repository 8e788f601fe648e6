import Verif.Model.Loader
import Mathlib.Algebra.Order.Ring.Rat

/-
Specification of loading: what a dataset declares about its unit of height
-/
namespace PyProm.Spec

/-- The band asked for declares its heights to be in metres. -/
def SaysMetres (d : Dataset) (i : Nat) : Prop :=
  ∃ b, 0 < i ∧ d.bands[i - 1]? = some b ∧
    ∃ w ∈ ["m", "meter", "metre", "meters", "metres"], b.unit.map Char.toLower = w.toList

/-- The band asked for declares its heights to be in feet. -/
def SaysFeet (d : Dataset) (i : Nat) : Prop :=
  ∃ b, 0 < i ∧ d.bands[i - 1]? = some b ∧
    ∃ w ∈ ["ft", "feet", "foot", "us_survey_foot", "us-ft", "us survey foot"], b.unit.map Char.toLower = w.toList

/-- The reference system is projected, in metres. -/
def GridMetres (d : Dataset) : Prop := ∃ f, d.srs = .projected f ∧ |f - 1| < 1 / 1000000000

/-- The reference system is projected, in feet. -/
def GridFeet (d : Dataset) : Prop := ∃ f, d.srs = .projected f ∧ |f - 3048 / 10000| < 1 / 1000000

end PyProm.Spec
