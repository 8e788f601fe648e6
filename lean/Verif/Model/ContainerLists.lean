import Verif.Model.Basin

/-
Lists of members of SummitsContainer and SaddlesContainer: multipoints, disqualified
-/
namespace PyProm

/-- The truth value of the attribute `multipoint`: None is false, a MultiPoint is true if it has points (multipoint.py:181-186). -/
def Feature.hasMulti (f : Feature) : Bool :=
  match f.multipoint with
  | none => false
  | some l => !l.isEmpty

/-- `multipoints` of SummitsContainer and SaddlesContainer, summits.py:109-117, saddles.py:209-217, for a list of members. -/
def multipoints (fs : List Feature) : List Feature := fs.filter (·.hasMulti)

/-- `multipoints` of the saddles of a map, saddles.py:209-217. -/
def DMap.saddleMultis (m : DMap) : List Nat := m.saddles.filter fun k => ((m.st.objs[k]?).map (·.f.hasMulti)).getD false

/-- `disqualified` of the saddles of a map, saddles.py:200-207. -/
def DMap.disqualifiedSaddles (m : DMap) (f : Flags) : List Nat := m.saddles.filter f.saddleDisq

end PyProm
