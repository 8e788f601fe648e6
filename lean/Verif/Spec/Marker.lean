import Verif.Spec.RunHeights
import Verif.Spec.Assumptions

/-
A raster in which the heights of the data are converted, while cells without data get any marker that is still
below all data.
-/
namespace PyProm.Spec

/-- The height of some data cell. -/
def Ground (d : DataMap) (h : Rat) : Prop := ∃ p, Data d p ∧ el d p = h

/-- Comparing heights gives the same before and after `φ`, and heights of data are
multiplied by `a` and moved by `b`. -/
structure ConvertsData (φ : Rat → Rat) (a b : Rat) (d : DataMap) : Prop where
  inc : Increasing φ
  pos : 0 < a
  data : ∀ h, Ground d h → φ h = a * h + b

end PyProm.Spec
