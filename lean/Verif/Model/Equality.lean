import Verif.Model.Discovery
import Verif.Model.Location

/-
Model of equality, order and hashing of locations and of their containers:
/repo/pyprom/lib/locations/base_coordinate.py, spot_elevation.py, base_gridpoint.py, gridpoint.py,
saddle.py and lib/containers/base_gridpoint.py, spot_elevation.py, multipoint.py, perimeter.py,
linker.py
-/
namespace PyProm

/-- `BaseCoordinate.__eq__`, base_coordinate.py:68-87. -/
def bcEq (lat lon lat' lon' : Rat) : Bool :=
  decide (eqCoord lat = eqCoord lat') && decide (eqCoord lon = eqCoord lon')

/-- `BaseCoordinate.__ne__`, base_coordinate.py:89-99. -/
def bcNe (lat lon lat' lon' : Rat) : Bool :=
  !(decide (round6 lat = round6 lat') && decide (round6 lon = round6 lon'))

/-- `BaseCoordinate.__hash__`, base_coordinate.py:101-108. `hash` is Python's hash of a pair of
numbers. -/
def bcHash (hash : Int × Int → Int) (lat lon : Rat) : Int := hash (round6 lat, round6 lon)

/-- `SpotElevation.__hash__`, spot_elevation.py:195-206; also that of Summit. -/
def seHash (hash : Int × Int × Rat → Int) (lat lon e : Rat) : Int :=
  hash (round6 lat, round6 lon, e)

/-- `Saddle.__hash__`, saddle.py:412-423. The hash of a tuple asks each element for its hash; the
elements are lists, which have none (TypeError). `pair` is the hash of a pair, `nil` that of `()`.
`super(SpotElevation, self)` is BaseCoordinate, so the elevation does not enter. -/
def saddleHash (hash pair : Int × Int → Int) (nil : Int) (lat lon : Rat) (hpn : List (List P3)) :
    Except PyErr Int :=
  match hpn with
  | [] => .ok (pair (bcHash hash lat lon, nil))
  | _ :: _ => .error .typeError

/-- `BaseGridPoint.__eq__`, base_gridpoint.py:124-136; `!=` is its negation by Python's default. -/
def bgEq (a b : Pt) : Bool := decide (a.1 = b.1) && decide (a.2 = b.2)

/-- `BaseGridPoint.__lt__`, base_gridpoint.py:108-122. -/
def bgLt (a b : Pt) : Bool := decide (a.1 + a.2 < b.1 + b.2)

/-- `GridPoint.__eq__`, gridpoint.py:90-100. -/
def gpEq (a b : P3) : Bool := decide (a.x = b.x) && decide (a.y = b.y) && decide (a.e = b.e)

/-- `GridPoint.__ne__`, gridpoint.py:102-112. -/
def gpNe (a b : P3) : Bool := !(decide (a.x = b.x) && decide (a.y = b.y) && decide (a.e = b.e))

/-- `GridPoint.__lt__`, gridpoint.py:114-123. -/
def gpLt (a b : P3) : Bool := decide (a.e < b.e)

/-! ### Lists -/

/-- Insertion before the first element that is not smaller. -/
def pyInsert {α} (lt : α → α → Bool) (a : α) : List α → List α
  | [] => [a]
  | b :: l => if lt b a then b :: pyInsert lt a l else a :: b :: l

/-- `sorted(l)`: a stable sort that only asks `<`. -/
def pySorted {α} (lt : α → α → Bool) : List α → List α
  | [] => []
  | a :: l => pyInsert lt a (pySorted lt l)

/-- `==` of two lists: same length, equal members. `!=` of two lists is its negation; it does not
call `!=` of the members. Two references to one object count as equal without asking `==`, which
makes no difference for reflexive `==`. -/
def pyListEq {α} (eq : α → α → Bool) : List α → List α → Bool
  | [], [] => true
  | a :: l, b :: m => eq a b && pyListEq eq l m
  | _, _ => false

/-! ### Containers -/

/-- A location with elevation as held in SpotElevationContainers (spot_elevation.py:33-58). Ids are
strings; they are only compared, so the model uses numbers. -/
structure Spot where
  lat : Rat
  lon : Rat
  e : Rat
  id : Nat
deriving DecidableEq, Repr

/-- `SpotElevation.__eq__` on objects. -/
def Spot.eq (a b : Spot) : Bool := seEq a.lat a.lon a.e b.lat b.lon b.e

/-- `SpotElevation.__lt__`, spot_elevation.py:182-193. -/
def Spot.lt (a b : Spot) : Bool := decide (a.e < b.e)

/-- `SpotElevationContainer.__eq__`, containers/spot_elevation.py:325-337. -/
def spotsEq (a b : List Spot) : Bool := pyListEq Spot.eq (pySorted Spot.lt a) (pySorted Spot.lt b)

/-- `SpotElevationContainer.__ne__`, containers/spot_elevation.py:339-351. -/
def spotsNe (a b : List Spot) : Bool := !pyListEq Spot.eq (pySorted Spot.lt a) (pySorted Spot.lt b)

/-- `BaseGridPointContainer.__eq__`, containers/base_gridpoint.py:116-128. -/
def bgcEq (a b : List Pt) : Bool := pyListEq bgEq (pySorted bgLt a) (pySorted bgLt b)

/-- `BaseGridPointContainer.__hash__`, containers/base_gridpoint.py:107-114. -/
def bgcHash (hash : List Pt → Int) (a : List Pt) : Int := hash (pySorted bgLt a)

/-- The same for a GridPointContainer, which inherits it. -/
def gpcEq (a b : List P3) : Bool := pyListEq gpEq (pySorted gpLt a) (pySorted gpLt b)

/-- `BaseGridPointContainer.__ne__` for a GridPointContainer, containers/base_gridpoint.py:130-142. -/
def gpcNe (a b : List P3) : Bool := !pyListEq gpEq (pySorted gpLt a) (pySorted gpLt b)

/-- `__hash__` for a GridPointContainer. -/
def gpcHash (hash : List P3 → Int) (a : List P3) : Int := hash (pySorted gpLt a)

/-- `<` of the tuples in a MultiPoint: lexicographic, and a tuple is greater than its proper
prefixes. -/
def mptLt (a b : MPt) : Bool :=
  if a.x = b.x then
    if a.y = b.y then
      match a.e, b.e with
      | none, some _ => true
      | some e, some e' => decide (e < e')
      | _, none => false
    else decide (a.y < b.y)
  else decide (a.x < b.x)

/-- `MultiPoint.__eq__`, multipoint.py:210-222. -/
def multiEq (a b : List MPt) : Bool :=
  pyListEq (fun p q => decide (p = q)) (pySorted mptLt a) (pySorted mptLt b)

/-- `<` of 3-tuples. -/
def p3Lt (a b : P3) : Bool :=
  if a.x = b.x then if a.y = b.y then decide (a.e < b.e) else decide (a.y < b.y)
  else decide (a.x < b.x)

/-- `Perimeter.__eq__`, perimeter.py:171-185. -/
def perimEq (a b : List P3) : Bool :=
  pyListEq (fun p q => decide (p = q)) (pySorted p3Lt a) (pySorted p3Lt b)

end PyProm
