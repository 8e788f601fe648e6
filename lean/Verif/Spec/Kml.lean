import Verif.Model.Kml

/-
Specification of the KML writer: the features that were passed and what of them a document has to show
-/
namespace PyProm.Spec

/-- The first element of the list for each key, in order. -/
def firsts {α β : Type} [DecidableEq β] (key : α → β) : List α → List α :=
  List.foldl (fun acc a => if key a ∈ acc.map key then acc else acc ++ [a]) []

/-- All features in an item, one by one. -/
def features : KItem → List KLeaf
  | .leaf l => [l]
  | .container ls => ls
  | .map li sa su ru dom => li ++ sa ++ su ++ ru ++ dom

/-- The features that are shown as a summit. -/
def asSummit : KLeaf → Option KSpot
  | .summit s => some s
  | _ => none

/-- The features that are shown as a runoff. -/
def asRunoff : KLeaf → Option KSpot
  | .runoff s => some s
  | _ => none

/-- The features that are shown as a saddle, with the flag. -/
def asSaddle : KLeaf → Option (KSpot × Bool)
  | .saddle s d => some (s, d)
  | _ => none

/-- The features that are shown as a spot elevation. -/
def asSpot : KLeaf → Option KSpot
  | .spot s => some s
  | _ => none

/-- The linkers with their ends. -/
def asLine : KLeaf → Option (Nat × KSpot × KSpot)
  | .linker i a b => some (i, a, b)
  | _ => none

/-- The domains. -/
def asDomain : KLeaf → Option (Nat × KSpot)
  | .domain i s => some (i, s)
  | _ => none

/-- Objects of a list at one location are one object. -/
def Separate (l : List KSpot) : Prop := ∀ a ∈ l, ∀ b ∈ l, a.lat = b.lat → a.lon = b.lon → a = b

/-- Different coordinates have different texts. -/
structure WktOk (w : Wkt) : Prop where
  point : ∀ a b c d, w.point a b = w.point c d → a = c ∧ b = d
  line : ∀ a b c d, w.line a b = w.line c d → a = c ∧ b = d

end PyProm.Spec
