import Verif.Model.Serial
import Verif.Spec.Faithful
import Mathlib.Logic.Relation

/-
Specification of what can be read off a map that was loaded from a file: heights of summits, saddles and linkers
-/
namespace PyProm.Spec

/-- The loaded map has linkers from one saddle or runoff, which is not disqualified and not lower than `h`, to the summits `a` and
`b`. -/
def FileCrosses (s : LState) (h : Rat) (a b : Nat) : Prop :=
  ∃ (t : LSaddle) (i j : Nat) (l l' : LLinker), s.linkers[i]? = some l ∧ s.linkers[j]? = some l' ∧ l.summit = a ∧ l'.summit = b ∧
    l.saddle = l'.saddle ∧ s.saddles[l.saddle]? = some t ∧ t.disqualified = false ∧ h ≤ t.ele

/-- One can go from summit `a` to summit `b` of the loaded map along linkers, over saddles and runoffs that are not disqualified
and not lower than `h`. -/
def FileConnected (s : LState) (h : Rat) (a b : Nat) : Prop := Relation.ReflTransGen (FileCrosses s h) a b

/-- Summit `b` of the loaded map is higher than summit `a`. -/
def FileHigher (s : LState) (a b : Nat) : Prop :=
  ∃ ta tb, s.summits[a]? = some ta ∧ s.summits[b]? = some tb ∧ ta.ele < tb.ele

/-- The loaded map `s` has the heights of the summits at `sites`, and tells of every one of them how far down one has to go to get to
higher ground, and to the other summits. If higher ground can be reached at all, the lowest point of the best way has the height of a
saddle of the loaded map that is not disqualified. -/
def TellsProminence (d : DataMap) (sites : List Pt) (s : LState) : Prop :=
  s.summits.length = sites.length ∧ ∀ (a : Nat) (p : Pt), sites[a]? = some p →
    (∃ t, s.summits[a]? = some t ∧ t.ele = el d p) ∧
    (∀ x, (∃ q, el d p < el d q ∧ Passable d x p q) ↔ ∃ b, FileHigher s a b ∧ FileConnected s x a b) ∧
    ((∃ x q, el d p < el d q ∧ Passable d x p q) → ∃ t ∈ s.saddles, t.disqualified = false ∧
      ∀ x, (∃ q, el d p < el d q ∧ Passable d x p q) ↔ x ≤ t.ele) ∧
    ∀ b q, sites[b]? = some q → ∀ x, x ≤ el d p → (FileConnected s x a b ↔ Passable d x p q)

end PyProm.Spec
