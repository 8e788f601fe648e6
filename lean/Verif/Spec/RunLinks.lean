import Verif.Spec.DomainMap
import Mathlib.Data.List.Forall2

/-
Specification vocabulary: the linkers of one saddle or runoff of a map.
-/
namespace PyProm
open Spec

/-- The linkers of the map that belong to object `k`, in the order of the map. -/
def linkersOf (m : DMap) (k : Nat) : List LinkRec :=
  (m.linkers.filterMap fun i => m.st.store[i]?).filter fun l => decide (l.saddle = k)

/-- Summit `D` can be reached from the cell `p` without descent. -/
def ClimbsTo (d : DataMap) (sites : List Pt) (p : Pt) (D : Nat) : Prop :=
  ∃ site top, sites[D]? = some site ∧ Flat d site top ∧ Ascends d p top

/-- `ls` has one linker of object `k` per neighbourhood in `hs`, in order, each to a summit that can be
reached without descent from the first point of the neighbourhood. -/
def OneEach (d : DataMap) (sites : List Pt) (k : Nat) (hs : List (List P3)) (ls : List LinkRec) : Prop :=
  List.Forall₂ (fun c l => l.saddle = k ∧ ∃ h0, c.head? = some h0 ∧ ClimbsTo d sites h0.xy l.summit) hs ls

end PyProm
