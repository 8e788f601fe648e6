import Verif.Spec.Network
import Verif.Model.DivideTree

/-
Specification of the region of a summit and of its boundary
-/
namespace PyProm.Spec

/-- From summit `a` linker `i` leads to a saddle that is not disqualified and not at the edge, and from there linker `j`, another
one, leads on. -/
structure Passage (N : FNet) (f : Flags) (a i j : Nat) : Prop where
  first : i ∈ N.sumLinks a
  open1 : f.linkDisq i = false
  saddle : ¬ SaddleOut f (N.link i).2
  inner : N.edge (.saddle (N.link i).2) = false
  second : j ∈ N.sadLinks (N.link i).2
  open2 : f.linkDisq j = false
  other : j ≠ i

/-- Linkers `i` and `j` join summit `a` over a saddle with a summit that is not higher. -/
def Falls (N : FNet) (f : Flags) (a i j : Nat) : Prop :=
  Passage N f a i j ∧ N.elev (.summit (N.link j).1) ≤ N.elev (.summit a)

/-- Linkers `i` and `j` join summit `a` over a saddle with a higher summit. -/
def Rises (N : FNet) (f : Flags) (a i j : Nat) : Prop :=
  Passage N f a i j ∧ N.elev (.summit a) < N.elev (.summit (N.link j).1)

/-- Paths of linkers from summit `m` to summit `b` that never lead to a higher summit nor to one at the edge. -/
inductive Descent (N : FNet) (f : Flags) (m : Nat) : List Nat → Nat → Prop
  | start : Descent N f m [] m
  | step {p a i j} : Descent N f m p a → Falls N f a i j → N.edge (.summit (N.link j).1) = false →
      Descent N f m (p ++ [i, j]) (N.link j).1

/-- The region of summit `m`: the summits on such paths. -/
def InRegion (N : FNet) (f : Flags) (m b : Nat) : Prop := ∃ p, Descent N f m p b

/-- Linker `i` of summit `a` leads to a saddle at the edge of the map. -/
def EdgeSaddle (N : FNet) (f : Flags) (a i : Nat) : Prop :=
  i ∈ N.sumLinks a ∧ f.linkDisq i = false ∧ ¬ SaddleOut f (N.link i).2 ∧ N.edge (.saddle (N.link i).2) = true

/-- Linkers `i` and `j` join summit `a` over a saddle with a summit at the edge of the map that is not higher. -/
def EdgeSummit (N : FNet) (f : Flags) (a i j : Nat) : Prop :=
  Falls N f a i j ∧ N.edge (.summit (N.link j).1) = true

/-- A path of the region of `m` with one more linker that ends at saddle `k` with the edge of the map behind it. -/
def EndsAtEdge (N : FNet) (f : Flags) (m : Nat) (q : LprPath) : Prop :=
  ∃ p b i, q.path = p ++ [i] ∧ q.saddle = (N.link i).2 ∧ Descent N f m p b ∧
    (EdgeSaddle N f b i ∨ ∃ j, EdgeSummit N f b i j)

/-- A path of the region of `m` with one more linker that ends at saddle `k` with a higher summit behind it. -/
def EndsAtRise (N : FNet) (f : Flags) (m : Nat) (q : LprPath) : Prop :=
  ∃ p b i, q.path = p ++ [i] ∧ q.saddle = (N.link i).2 ∧ Descent N f m p b ∧ ∃ j, Rises N f b i j

/-- Summits list only linkers that lead to them. -/
def OwnLinkers (N : FNet) : Prop := ∀ D, ∀ i ∈ N.sumLinks D, (N.link i).1 = D

/-- Nothing in the list is, or compares equal to, summit `m`. -/
def NoneLike (N : FNet) (m : Nat) (l : List Nat) : Prop := ∀ y ∈ l, y ≠ m ∧ N.eq (.summit y) (.summit m) = false

/-- The paths `ps` and the flag `e` tell all of the boundary of the region of `m`: every saddle at the edge of the map, every summit
at the edge and every higher summit outside the region that can be reached from a summit of the region over one saddle. -/
structure BoundaryTold (N : FNet) (f : Flags) (m : Nat) (ps : List LprPath) (e : Bool) : Prop where
  edgeSaddle : ∀ b, InRegion N f m b → ∀ i, EdgeSaddle N f b i → e = true ∧ ∃ p, ⟨p ++ [i], (N.link i).2⟩ ∈ ps
  edgeSummit : ∀ b, InRegion N f m b → ∀ i j, EdgeSummit N f b i j → ¬ InRegion N f m (N.link j).1 →
    e = true ∧ ∃ p, ⟨p ++ [i], (N.link i).2⟩ ∈ ps
  rises : ∀ b, InRegion N f m b → ∀ i j, Rises N f b i j → ¬ InRegion N f m (N.link j).1 → ∃ p, ⟨p ++ [i], (N.link i).2⟩ ∈ ps

end PyProm.Spec
