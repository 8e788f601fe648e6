import Mathlib.Combinatorics.SimpleGraph.Acyclic

/-
Specification vocabulary: a list of links as a graph on the numbers below N.
-/
namespace PyProm.Spec

/-- The graph on `0 .. N-1` with one edge per listed pair, direction ignored. -/
def linkGraph (N : Nat) (E : List (Nat × Nat)) : SimpleGraph (Fin N) where
  Adj i j := i ≠ j ∧ ((i.1, j.1) ∈ E ∨ (j.1, i.1) ∈ E)
  symm := ⟨fun _ _ h => ⟨h.1.symm, h.2.symm⟩⟩
  loopless := ⟨fun _ h => h.1 rfl⟩

/-- The links form a spanning tree of `0 .. N-1`: one link less than there are nodes, and the
graph is connected and has no cycle. -/
def SpanningTree (N : Nat) (E : List (Nat × Nat)) : Prop :=
  E.length + 1 = N ∧ (∀ e ∈ E, e.1 < N ∧ e.2 < N) ∧ (linkGraph N E).IsTree

end PyProm.Spec
