import Verif.Spec.Terrain

namespace PyProm.Spec

instance (p q : Pt) : Decidable (Adj p q) := by unfold Adj; infer_instance

/-- One step between touching members of the point set `S`. -/
def Link (S : List P3) (a b : P3) : Prop := Adj a.xy b.xy ∧ b ∈ S

/-- `b` is reached from `a` through touching members of `S`. -/
def Conn (S : List P3) (a b : P3) : Prop := Relation.ReflTransGen (Link S) a b

/-- `L` lists the 8-connected components of the point set `S`, each point once. -/
structure IsComponents (S : List P3) (L : List (List P3)) : Prop where
  nodup : L.flatten.Nodup
  mem : ∀ p, p ∈ L.flatten ↔ p ∈ S
  nonempty : ∀ c ∈ L, c ≠ []
  sameIff : ∀ a ∈ S, ∀ b ∈ S, (∃ c ∈ L, a ∈ c ∧ b ∈ c) ↔ Conn S a b

/-- Two point lists touch. -/
def ListsTouch (c l : List P3) : Prop := ∃ p ∈ c, ∃ q ∈ l, Adj p.xy q.xy

instance (c l : List P3) : Decidable (ListsTouch c l) := by unfold ListsTouch; infer_instance

/-- Two lists have touching points. -/
def Touch (ls : List (List P3)) (a b : Nat) : Prop := ListsTouch (ls.getD a []) (ls.getD b [])

/-- No coordinate occurs in two of the lists. -/
def DisjointLists (ls : List (List P3)) : Prop :=
  ∀ i j, ∀ p ∈ ls.getD i [], ∀ q ∈ ls.getD j [], p.xy = q.xy → i = j

/-- Number of members of `ls` that touch `c`. -/
def touchCount (ls : List (List P3)) (c : List P3) : Nat :=
  (ls.filter fun l => decide (ListsTouch c l)).length

end PyProm.Spec
