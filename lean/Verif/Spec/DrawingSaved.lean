import Verif.Model.DrawingSaved
import Mathlib.Data.List.Forall2

/-
Specification of drawings that agree
-/
namespace PyProm.Spec

/-- The documents have the same styles and the same folders with the same placemarks; only the summit domains may be in another
order. -/
structure SameDrawing (a b : KmlDoc) : Prop where
  styles : b.styles = a.styles
  folders : List.Forall₂ (fun f g => g.1 = f.1 ∧ (g.2 = f.2 ∨ f.1 = "SummitDomains".toList ∧ g.2.Perm f.2)) a.folders b.folders

end PyProm.Spec
