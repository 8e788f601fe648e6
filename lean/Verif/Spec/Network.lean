import Verif.Model.Basin
import Mathlib.Logic.Relation
import Mathlib.Data.List.Chain

/-
Specification vocabulary for the feature network: which features are out, cycles, connection of
summits over saddles.
-/
namespace PyProm.Spec

/-- The saddle is disqualified: by override, otherwise as single-source or basin saddle. -/
def SaddleOut (f : Flags) (k : Nat) : Prop :=
  f.over k = some true ∨ (f.over k = none ∧ (f.single k = true ∨ f.basin k = true))

/-- The feature is neither disqualified nor an edge feature. -/
def Alive (N : FNet) (f : Flags) : Node → Prop
  | .summit D => N.sumDisq D = false ∧ N.edge (.summit D) = false
  | .saddle k => ¬ SaddleOut f k ∧ N.edge (.saddle k) = false

/-- Saddle `k` has a linker to summit `D`. -/
def Linked (N : FNet) (k D : Nat) : Prop := ∃ i ∈ N.sadLinks k, (N.link i).1 = D

/-- Two features are joined by a linker. -/
def Joined (N : FNet) : Node → Node → Prop
  | .summit D, .saddle k => Linked N k D
  | .saddle k, .summit D => Linked N k D
  | _, _ => False

/-- A closed tour through distinct features satisfying `P`, each joined to the next. -/
structure Cycle (N : FNet) (P : Node → Prop) (c : List Node) : Prop where
  long : 3 ≤ c.length
  nodup : c.Nodup
  chain : c.IsChain (Joined N)
  closed : ∀ a ∈ c.getLast?, ∀ b ∈ c.head?, Joined N a b
  mem : ∀ n ∈ c, P n

/-- Summits `a` and `b` are connected over saddles satisfying `P` and summits satisfying `Q`. -/
def ConnectedBy (N : FNet) (Q P : Nat → Prop) (a b : Nat) : Prop :=
  Relation.ReflTransGen (fun a b => Q a ∧ Q b ∧ ∃ k, P k ∧ Linked N k a ∧ Linked N k b) a b

/-- What is assumed of a network and of the saddles which are not edge features: their linkers are held
at both ends, once; their summits are higher; none has more than two linkers; all that are not disqualified are analysed;
different summits are different in sets and equal locations have equal elevations; nothing has
been exempted by hand from disqualification. -/
structure NetOk (N : FNet) (saddles : List Nat) (f : Flags) : Prop where
  sad : ∀ k, N.edge (.saddle k) = false → ∀ i ∈ N.sadLinks k, (N.link i).2 = k ∧ i ∈ N.sumLinks (N.link i).1
  sum : ∀ D, ∀ i ∈ N.sumLinks D, N.edge (.saddle (N.link i).2) = false →
    (N.link i).1 = D ∧ i ∈ N.sadLinks (N.link i).2
  sumOnce : ∀ D, (N.sumLinks D).Nodup
  two : ∀ k, N.edge (.saddle k) = false → (N.sadLinks k).length ≤ 2
  above : ∀ k D, N.edge (.saddle k) = false → Linked N k D → N.elev (.saddle k) < N.elev (.summit D)
  range : ∀ k D, N.edge (.saddle k) = false → Linked N k D → k < N.nSaddles ∧ D < N.nSummits
  bound : ∀ k ∈ saddles, k < N.nSaddles
  listed : ∀ k D, Alive N f (.saddle k) → Linked N k D → k ∈ saddles
  eqElev : ∀ a b, N.eq a b = true → N.elev a = N.elev b
  setEq : ∀ k a b, N.edge (.saddle k) = false → Linked N k a → Linked N k b → (N.setEq a b = true ↔ a = b)
  over : ∀ k, f.over k ≠ some false

/-- What is assumed for termination only: the linkers lead to features of the map, saddles which are not
edge features are lower than the summits they are linked with, and nothing has been exempted by
hand from disqualification. Linkers may be held at one end only, in any number. -/
structure NetFin (N : FNet) (saddles : List Nat) (f : Flags) : Prop where
  sum : ∀ D, ∀ i ∈ N.sumLinks D, (N.link i).2 < N.nSaddles ∧
    (N.edge (.saddle (N.link i).2) = false → N.elev (.saddle (N.link i).2) < N.elev (.summit D))
  sad : ∀ k, N.edge (.saddle k) = false → ∀ i ∈ N.sadLinks k, (N.link i).1 < N.nSummits ∧
    N.elev (.saddle k) < N.elev (.summit (N.link i).1)
  bound : ∀ k ∈ saddles, k < N.nSaddles
  over : ∀ k, f.over k ≠ some false

/-- No two summits have the same location (to six digits) and elevation. -/
def SummitsApart (fs : List Feature) : Prop := ∀ (a b : Nat) (s t : Feature), fs[a]? = some s → fs[b]? = some t →
  a ≠ b → ¬ (round6 s.lat = round6 t.lat ∧ round6 s.lon = round6 t.lon ∧ s.elevation = t.elevation)

/-- Every linker of the map whose saddle is not an edge feature is listed by its summit and by its
saddle. -/
def LinkersHeld (m : DMap) : Prop := ∀ i ∈ m.linkers, ∀ (l : LinkRec) (o : SObj), m.st.store[i]? = some l →
  m.st.objs[l.saddle]? = some o → o.f.edge = false → i ∈ m.st.sumLinks l.summit ∧ i ∈ m.st.sadLinks l.saddle

/-- Every linker of the map whose saddle is not an edge feature is listed by both its summit and its saddle or by neither of them,
and the saddle lists one that joins the same two features. -/
def LinkersPaired (m : DMap) : Prop := ∀ i ∈ m.linkers, ∀ (l : LinkRec) (o : SObj), m.st.store[i]? = some l →
  m.st.objs[l.saddle]? = some o → o.f.edge = false →
    (i ∈ m.st.sumLinks l.summit ↔ i ∈ m.st.sadLinks l.saddle) ∧ ∃ j ∈ m.st.sadLinks l.saddle, m.st.store[j]? = some l

/-- No saddle that was split off another one, and is off the edge, has the location (to six digits) and elevation of a different
saddle or runoff that was linked with the same summit before it. -/
def SaddlesApart (m : DMap) : Prop := ∀ i ∈ m.linkers, ∀ j ∈ m.linkers, i < j → ∀ (a b : LinkRec) (s t : SObj),
  m.st.store[i]? = some a → m.st.store[j]? = some b → a.summit = b.summit → m.st.objs[a.saddle]? = some s →
  m.st.objs[b.saddle]? = some t → t.f.edge = false → t.parent ≠ none →
  (round6 s.f.lat = round6 t.f.lat ∧ round6 s.f.lon = round6 t.f.lon ∧ s.f.elevation = t.f.elevation) → a.saddle = b.saddle

/-- No saddle is on the edge, or none that was split off another one coincides with an earlier one. -/
def Untwinned (D : Discovered) (m : DMap) : Prop := (∀ f ∈ D.saddles, f.edge = false) ∨ SaddlesApart m

theorem LinkersHeld.paired {m : DMap} (h : LinkersHeld m) : LinkersPaired m := fun i hi l o hl ho he =>
  ⟨⟨fun _ => (h i hi l o hl ho he).2, fun _ => (h i hi l o hl ho he).1⟩, i, (h i hi l o hl ho he).2, hl⟩

end PyProm.Spec
