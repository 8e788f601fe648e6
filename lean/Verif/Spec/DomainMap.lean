import Verif.Spec.Assumptions

/-
Specification vocabulary for domain maps: places of summits, split saddles, results of a walk.
-/
namespace PyProm
open Spec

/-- Cells of the summit with number `k`. -/
def SummitArea (d : DataMap) (sites : List Pt) (k : Nat) (p : Pt) : Prop :=
  ∃ q, sites[k]? = some q ∧ Flat d q p

/-- `sites` are the places of the summits `summits`, one in each area without higher neighbour. -/
structure SummitsAt (d : DataMap) (sites : List Pt) (summits : List Feature) : Prop where
  each : List.Forall₂ (SummitFor d) sites summits
  top : ∀ q ∈ sites, Data d q ∧ IsTop d q
  once : sites.Pairwise (fun a b => ¬ Flat d a b)
  all : ∀ p, Data d p → IsTop d p → ∃ q ∈ sites, Flat d q p

/-- `c` is the child saddle made of the high points `l` and `r`: it has the elevation of `f`; its place
is that of `f` if `f` is a single point, else that of a cell of the area of `f` nearest to the point
half way between `l` and `r`. -/
def IsChild (d : DataMap) (f : Feature) (l r : P3) (c : Feature) : Prop :=
  c.kind = .saddle ∧ c.elevation = f.elevation ∧ c.edge = false ∧ c.multipoint = none ∧
  c.hpn = [[l], [r]] ∧
  ((f.multipoint.getD [] = [] ∧ c.lat = f.lat ∧ c.lon = f.lon) ∨
   ∃ m ∈ f.multipoint.getD [],
    c.lat = latOf d (m.x, m.y) ∧ c.lon = lonOf d (m.x, m.y) ∧
    ∀ m' ∈ f.multipoint.getD [],
      ((l.x + r.x : Rat) / 2 - m.x) ^ 2 + ((l.y + r.y : Rat) / 2 - m.y) ^ 2 ≤
      ((l.x + r.x : Rat) / 2 - m'.x) ^ 2 + ((l.y + r.y : Rat) / 2 - m'.y) ^ 2)

/-- A synthetic saddle made for `f`. -/
structure SynthOf (f g : Feature) : Prop where
  kind : g.kind = .saddle
  edge : g.edge = false
  elev : g.elevation = f.elevation
  two : g.hpn.length = 2
  ne : ∀ c ∈ g.hpn, c ≠ []
  high : ∀ c ∈ g.hpn, ∀ p ∈ c, ∃ c' ∈ f.hpn, p ∈ c'
  mp : g.multipoint = none

/-- The k-th linker of saddle `sid` leads to a summit that can be reached without descent from the
first point of its k-th high neighbourhood, and is known to that summit. -/
def Complete (E : SaddleEnv) (sites : List Pt) (s : CSt) (sid : Nat) (o : SObj) : Prop :=
  List.Forall₂ (fun (c : List P3) (i : Nat) => ∃ h0 D top, c.head? = some h0 ∧
    s.store[i]? = some ⟨D, sid⟩ ∧ i ∈ s.sumLinks D ∧ SummitArea E.d sites D top ∧
    Ascends E.d h0.xy top)
    o.f.hpn (s.sadLinks sid)

/-- What walking one feature adds to the list of walked objects: the synthetic saddles of an inner
feature, a runoff once or twice, an edge saddle after the saddles made from it. -/
def Outcome (o : SObj) (base : Nat) (s' : CSt) (new : List Nat) : Prop :=
  if o.f.edge = false then
    new.length + 1 = o.f.hpn.length ∧ new.Nodup ∧
    ∀ k ∈ new, ∃ o', s'.objs[k]? = some o' ∧ SynthOf o.f o'.f ∧ o'.parent = none
  else if o.f.kind = .runoff then
    (new = [base, base] ∧ ∃ ob, s'.objs[base]? = some ob ∧ ob.disq = some true ∧
      ob.children = o.children ++ [base]) ∨ (o.f.hpn = [] ∧ new = [base])
  else ∃ ids, new = ids ++ [base] ∧ ids.length + 1 = o.f.hpn.length ∧ ids.Nodup ∧
    (∀ k ∈ ids, ∃ o', s'.objs[k]? = some o' ∧ SynthOf o.f o'.f ∧ o'.parent = some base) ∧
    ∃ ob, s'.objs[base]? = some ob ∧ ob.disq = some true ∧
      ob.children = o.children ++ (if o.f.hpn.length > 2 then ids ++ ids else ids)

/-- The place of a saddle rebuilt from two high neighbourhoods: that of a single point saddle, else
that of a cell of its area nearest to the (truncated) middle of a point of either neighbourhood. -/
def RebuiltPlace (d : DataMap) (f g : Feature) : Prop :=
  (f.multipoint.getD [] = [] ∧ g.lat = f.lat ∧ g.lon = f.lon) ∨
  ∃ a ∈ f.hpn.getD 0 [], ∃ b ∈ f.hpn.getD 1 [], ∃ m ∈ f.multipoint.getD [],
    g.lat = latOf d (m.x, m.y) ∧ g.lon = lonOf d (m.x, m.y) ∧
    ∀ m' ∈ f.multipoint.getD [],
      ((((a.x + b.x).tdiv 2 : Int) : Rat) - m.x) ^ 2 + ((((a.y + b.y).tdiv 2 : Int) : Rat) - m.y) ^ 2 ≤
      ((((a.x + b.x).tdiv 2 : Int) : Rat) - m'.x) ^ 2 + ((((a.y + b.y).tdiv 2 : Int) : Rat) - m'.y) ^ 2

/-- What rebuilding makes of the saddle `o` with index `k`: `new` are the indices it is replaced by. -/
def Rebuilt (d : DataMap) (o : SObj) (k : Nat) (objs : List SObj) (new : List Nat) : Prop :=
  ∃ ids : List Nat, ids.length + 1 = o.f.hpn.length ∧ ids.Nodup ∧
    (∀ i ∈ ids, ∃ o', objs[i]? = some o' ∧ SynthOf o.f o'.f ∧
      o'.parent = (if o.f.edge then some k else none) ∧ o'.children = [] ∧ o'.disq = none ∧
      ((∃ l r, IsChild d o.f l r o'.f) ∨ RebuiltPlace d o.f o'.f)) ∧
    (if o.f.edge then new = ids ++ [k] ∧
        objs[k]? = some { o with children := o.children ++ ids, disq := some true }
      else new = ids ∧ objs[k]? = some o)

/-- How the saddles of the map come from the discovered ones. -/
def FromSaddles (d : DataMap) (rebuild : Bool) (fs : List Feature) (m : DMap) : Prop :=
  if rebuild then
    ∃ news : List (List Nat), m.saddles = news.flatten ∧
      List.Forall₂ (fun (x : Feature × Nat) new => Rebuilt d { f := x.1 } x.2 m.st.objs new) fs.zipIdx news
  else List.Forall₂ (fun f k => m.st.objs[k]? = some { f := f }) fs m.saddles

end PyProm
