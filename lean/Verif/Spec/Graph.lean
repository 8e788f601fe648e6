import Verif.Spec.Network
import Verif.Model.Graph

/-
Specification vocabulary for operations on the walked network: families of saddles, selection for
purging, linkers held at both ends, summits that share a saddle.
-/
namespace PyProm.Spec

/-- The parent of saddle `k`. -/
def parentOf (m : DMap) (k : Nat) : Option Nat := m.st.objs[k]?.bind (·.parent)

/-- The children of saddle `k`. -/
def childrenOf (m : DMap) (k : Nat) : List Nat := (m.st.objs[k]?.map (·.children)).getD []

/-- The saddles have the same location (to six digits) and elevation. -/
def SamePlace (m : DMap) (j k : Nat) : Prop := ∃ s t : SObj, m.st.objs[j]? = some s ∧ m.st.objs[k]? = some t ∧
  round6 s.f.lat = round6 t.f.lat ∧ round6 s.f.lon = round6 t.f.lon ∧ s.f.elevation = t.f.elevation

/-- Parents list their children and only those. -/
def FamilyOk (m : DMap) : Prop := ∀ j p, j ∈ childrenOf m p ↔ parentOf m j = some p

/-- Different children of a saddle differ in location or elevation. -/
def SiblingsApart (m : DMap) : Prop := ∀ p x y, x ∈ childrenOf m p → y ∈ childrenOf m p → SamePlace m x y → x = y

/-- The saddle is to be purged: a basin saddle if those are asked for (with alternatives only if all
are), or a single-source saddle if those are. -/
def Selected (f : Flags) (single basin all : Bool) (k : Nat) : Prop :=
  (f.basin k = true ∧ (all = true ∨ (basin = true ∧ f.alts (.saddle k) = []))) ∨
    (f.single k = true ∧ single = true)

/-- Alternatives are saddles, mutual, and told apart by location or elevation. -/
structure AltsOk (m : DMap) (f : Flags) : Prop where
  saddle : ∀ n, ∀ x ∈ f.alts (.saddle n), ∃ y, x = .saddle y
  symm : ∀ j k, Node.saddle j ∈ f.alts (.saddle k) ↔ Node.saddle k ∈ f.alts (.saddle j)
  apart : ∀ n x y, Node.saddle x ∈ f.alts (.saddle n) → Node.saddle y ∈ f.alts (.saddle n) →
    SamePlace m x y → x = y

/-- Every linker is listed by the saddle and by the summit it joins, and nowhere else. -/
structure Bidirectional (N : FNet) : Prop where
  sad : ∀ k, ∀ i ∈ N.sadLinks k, (N.link i).2 = k ∧ i ∈ N.sumLinks (N.link i).1
  sum : ∀ D, ∀ i ∈ N.sumLinks D, (N.link i).1 = D ∧ i ∈ N.sadLinks (N.link i).2

/-- The linker takes part: it is not disqualified, or disqualified ones are not left out. -/
def Live (f : Flags) (skip : Bool) (i : Nat) : Prop := skip = true → f.linkDisq i = false

/-- Saddle `k` and summit `D` are joined by a linker that takes part. -/
def LiveLinked (N : FNet) (f : Flags) (skip : Bool) (k D : Nat) : Prop :=
  ∃ i ∈ N.sadLinks k, Live f skip i ∧ (N.link i).1 = D

end PyProm.Spec
