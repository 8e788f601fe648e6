import Verif.Spec.Walk
import Verif.Model.Location
import Verif.Model.Discovery

/-
Specification vocabulary for the shape of summit domains.
-/
namespace PyProm.Spec

/-- Wherever the ground does not rise directly, it is the top: every data cell has a higher neighbour or
belongs to an area without higher neighbour. Flat shoulders are excluded, flat summits are not. -/
def NoShelves (d : DataMap) : Prop :=
  ∀ p, Data d p → (∃ q, Adj p q ∧ Data d q ∧ el d p < el d q) ∨ IsTop d p

/-- From `p` the place `t` is reached without descent, every cell entered on the way being one of `pts`. -/
def ReachedIn (d : DataMap) (pts : List Pt) (p t : Pt) : Prop :=
  Relation.ReflTransGen (fun a b => UpStep d a b ∧ b ∈ pts) p t

/-- Where a linker of a saddle or runoff begins: at the first point of one of its high neighbourhoods, or at its own
cell if it has none. -/
def StartsAt (d : DataMap) (f : Feature) (p : Pt) : Prop :=
  (∃ e ∈ f.hpn, ∃ h ∈ e.head?, p = h.xy) ∨ (f.hpn = [] ∧ d.latLongToXY f.lat f.lon = some p)

end PyProm.Spec
