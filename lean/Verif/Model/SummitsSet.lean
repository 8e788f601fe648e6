import Verif.Model.Graph

/-
Saddle.summits_set, saddle.py:241-247
-/
namespace PyProm

/-- `Saddle.summits_set`, saddle.py:241-247: the set of the summits of the linkers of a saddle, disqualified or not. The model keeps the
order of first insertion, and the theorems speak of members only. -/
def FNet.summitsSet (N : FNet) (k : Nat) : List Nat := uniqueSummits N ((N.sadLinks k).map fun i => (N.link i).1)

end PyProm
