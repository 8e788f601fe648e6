import Verif.Model.Coords

/-
Model of the outline of a domain, /repo/pyprom/lib/containers/summit_domain.py
-/
namespace PyProm

/-- `SummitDomain.shape`, summit_domain.py:234-244: the polygons handed to `unary_union`. The union itself is not modelled;
shapely is taken to return the set of positions covered by the polygons. -/
def domainShape (d : DataMap) (pts : List Pt) : List (List (Rat × Rat)) := pts.map fun p => d.pointGeom p.1 p.2

end PyProm
