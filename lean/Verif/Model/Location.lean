import Verif.Model.Coords

/-
Model of equality of locations: /repo/pyprom/lib/locations/base_coordinate.py and
spot_elevation.py
-/
namespace PyProm

/-- `round(r, 6)`, as the number of millionths. Python rounds the decimal value of the float, ties
to even. -/
def round6 (r : Rat) : Int := pyRound (r * 1000000)

/-- The local of `__eq__`: `None` when the coordinate is falsy, i.e. zero
(base_coordinate.py:77-85, spot_elevation.py:155-163). -/
def eqCoord (r : Rat) : Option Int := if r = 0 then none else some (round6 r)

/-- `SpotElevation.__eq__`, spot_elevation.py:147-166. -/
def seEq (lat lon e lat' lon' e' : Rat) : Bool :=
  decide (eqCoord lat = eqCoord lat') && decide (eqCoord lon = eqCoord lon') && decide (e = e')

/-- `SpotElevation.__ne__`, spot_elevation.py:168-180. -/
def seNe (lat lon e lat' lon' e' : Rat) : Bool :=
  !(decide (round6 lat = round6 lat') && decide (round6 lon = round6 lon') && decide (e = e'))

end PyProm
