import Verif.Spec.RunHeights

/-
Slopes computed with rounding.
-/
namespace PyProm.Spec

/-- Slopes to touching cells are computed up to the relative error `ε`; `len` are the true lengths. -/
def Rounded (ε : Rat) (len : Int → Int → Rat) (w : Int → Int → Rat → Rat) : Prop :=
  ∀ s r, Adj (0, 0) s → 0 ≤ r → (1 - ε) * (r / len s.1 s.2) ≤ w s.1 s.2 r ∧ w s.1 s.2 r ≤ (1 + ε) * (r / len s.1 s.2)

/-- Slopes that are equal are computed equal, for rises between heights of the raster. -/
def Fair (d : DataMap) (len : Int → Int → Rat) (w : Int → Int → Rat → Rat) : Prop :=
  ∀ s t p e e', Adj (0, 0) s → Adj (0, 0) t → Occurs d p → Occurs d e → Occurs d e' → p ≤ e → p ≤ e' →
    (e - p) / len s.1 s.2 = (e' - p) / len t.1 t.2 → w s.1 s.2 (e - p) = w t.1 t.2 (e' - p)

/-- Slopes from the same height that are not equal differ by more than rounding can hide. -/
def Distinct (ε : Rat) (d : DataMap) (len : Int → Int → Rat) : Prop :=
  ∀ s t p e e', Adj (0, 0) s → Adj (0, 0) t → Occurs d p → Occurs d e → Occurs d e' → p ≤ e → p ≤ e' →
    (e - p) / len s.1 s.2 < (e' - p) / len t.1 t.2 →
      (1 + ε) * ((e - p) / len s.1 s.2) < (1 - ε) * ((e' - p) / len t.1 t.2)

end PyProm.Spec
