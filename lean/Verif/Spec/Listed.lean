import Verif.Spec.DomainMap

/-
Specification vocabulary: which linkers of a map are listed by their ends.
-/
namespace PyProm
open Spec

/-- The two features compare equal with `==` (C50: same location to six digits and same elevation). -/
def ComparesEqual (f g : Feature) : Prop := seEq f.lat f.lon f.elevation g.lat g.lon g.elevation = true

/-- The feature of object `k` is on the edge, or was split off another saddle. -/
def AtEdge (m : DMap) (k : Nat) : Prop := ∃ o, m.st.objs[k]? = some o ∧ (o.f.edge = true ∨ o.parent ≠ none)

/-- An earlier linker than `i` belongs to the same summit, and its saddle compares equal to that of `l`. -/
def EarlierSaddle (m : DMap) (i : Nat) (l : LinkRec) : Prop := ∃ j ∈ m.linkers, j < i ∧ ∃ (a : LinkRec) (s t : SObj),
  m.st.store[j]? = some a ∧ a.summit = l.summit ∧ m.st.objs[a.saddle]? = some s ∧ m.st.objs[l.saddle]? = some t ∧
  ComparesEqual s.f t.f

/-- An earlier linker than `i` belongs to the same saddle, and its summit compares equal to that of `l`. -/
def EarlierSummit (m : DMap) (i : Nat) (l : LinkRec) : Prop := ∃ j ∈ m.linkers, j < i ∧ ∃ (a : LinkRec) (s t : Feature),
  m.st.store[j]? = some a ∧ a.saddle = l.saddle ∧ m.summits[a.summit]? = some s ∧ m.summits[l.summit]? = some t ∧
  ComparesEqual s t

end PyProm
