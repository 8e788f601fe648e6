import Verif.Spec.DomainMap
import Verif.Spec.Network

/-
Specification vocabulary: ways over the terrain above a level, and ways through the network of a map.
-/
namespace PyProm.Spec

/-- One can go from `p` to `q` over touching data cells, none of them lower than `h`. -/
def Passable (d : DataMap) (h : Rat) (p q : Pt) : Prop :=
  Data d p ∧ h ≤ el d p ∧ Relation.ReflTransGen (fun a b => Adj a b ∧ Data d b ∧ h ≤ el d b) p q

/-- The map has linkers from one saddle or runoff, which satisfies `P` and is not lower than `h`, to the
summits `a` and `b`. -/
def Crosses (m : DMap) (P : Nat → Prop) (h : Rat) (a b : Nat) : Prop :=
  ∃ (k : Nat) (o : SObj) (i j : Nat), P k ∧ m.st.objs[k]? = some o ∧ h ≤ o.f.elevation ∧
    i ∈ m.linkers ∧ m.st.store[i]? = some ⟨a, k⟩ ∧ j ∈ m.linkers ∧ m.st.store[j]? = some ⟨b, k⟩

/-- One can go from summit `a` to summit `b` along linkers of the map, over saddles and runoffs that satisfy
`P` and are not lower than `h`. -/
def NetConnected (m : DMap) (P : Nat → Prop) (h : Rat) (a b : Nat) : Prop :=
  Relation.ReflTransGen (Crosses m P h) a b

/-- Saddle `k` is one of the map, not on its edge and not disqualified. -/
def LiveSaddle (m : DMap) (k : Nat) : Prop :=
  k ∈ m.saddles ∧ ∃ o : SObj, m.st.objs[k]? = some o ∧ o.f.edge = false ∧ o.disq = none

/-- None of the edge saddles among `fs` that are not lower than `h` has high neighbours to which one can go from `p` without
going below `h`. -/
def ClearOfEdge (d : DataMap) (fs : List Feature) (h : Rat) (p : Pt) : Prop :=
  ∀ f ∈ fs, f.edge = true → h ≤ f.elevation → ∀ c ∈ f.hpn, ∀ x ∈ c, ¬ Passable d h p x.xy

/-- The cells `ps` are data cells, one of every area of data cells. -/
structure Areas (d : DataMap) (ps : List Pt) : Prop where
  data : ∀ p ∈ ps, Data d p
  apart : ps.Pairwise fun p q => ∀ h, ¬ Passable d h p q
  all : ∀ q, Data d q → ∃ p ∈ ps, ∃ h, Passable d h p q

/-- The saddles of the map that are neither disqualified nor on the edge. -/
def liveSaddles (m : DMap) (f : Flags) : List Nat :=
  m.saddles.filter fun k => !f.saddleDisq k && !m.net.edge (.saddle k)

end PyProm.Spec
