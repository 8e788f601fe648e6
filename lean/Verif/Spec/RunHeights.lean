import Verif.Spec.Heights
import Verif.Model.Basin

/-
A complete run with heights given in another unit or above another datum: what the map then is, and when
two runs make the same choices where Python leaves them open.
-/
namespace PyProm.Spec

/-- Another unit and datum: heights times `a`, plus `b`. -/
def Converts (φ : Rat → Rat) (a b : Rat) : Prop := 0 < a ∧ ∀ h, φ h = a * h + b

/-- A feature with all heights passed through `φ`. -/
def scaleF (φ : Rat → Rat) (f : Feature) : Feature :=
  { f with
    elevation := φ f.elevation
    multipoint := f.multipoint.map (List.map (scaleM φ))
    edgePoints := f.edgePoints.map (scale3 φ)
    hpn := f.hpn.map (List.map (scale3 φ)) }

/-- A map with all heights passed through `φ`: same linkers, domains and families. -/
def scaleMap (φ : Rat → Rat) (m : DMap) : DMap :=
  { m with
    summits := m.summits.map (scaleF φ)
    st := { m.st with objs := m.st.objs.map fun o => { o with f := scaleF φ o.f } } }

/-- Two analyses take elements out of sets in the same order and find paths of the same cost. -/
structure SameOrders (φ : Rat → Rat) (o o' : Oracle) : Prop where
  pop : ∀ i l, o'.pop i (l.map (scale3 φ)) = o.pop i l
  cost : ∀ pts a b, o'.cost (pts.map (scaleM φ)) (scaleM φ a) (scaleM φ b) = o.cost pts a b

/-- Two searches for nearest points pick the same points; distances do not depend on heights. -/
def SameNear (φ : Rat → Rat) (near near' : List P3 → List P3 → Except PyErr (P3 → Option P3)) : Prop :=
  ∀ us them,
    (∃ e, near us them = .error e ∧ near' (us.map (scale3 φ)) (them.map (scale3 φ)) = .error e) ∨
    ∃ m m', near us them = .ok m ∧ near' (us.map (scale3 φ)) (them.map (scale3 φ)) = .ok m' ∧
      ∀ p, m' (scale3 φ p) = (m p).map (scale3 φ)

/-- Two searches for closest pairs pick the same pairs. -/
def SamePairs (φ : Rat → Rat) (fc fc' : PairSearch) : Prop :=
  ∀ us them, fc' (us.map (scale3 φ)) (them.map (scale3 φ)) =
    ((fc us them).1.map (Prod.map (scale3 φ) (scale3 φ)), (fc us them).2)

/-- A height that occurs in the raster, or the nodata marker. -/
def Occurs (d : DataMap) (h : Rat) : Prop := (∃ p, InB d p ∧ el d p = h) ∨ d.nodata = some h

/-- Computed slopes up to touching cells compare alike for heights `h` and for heights `φ h`, among heights with the
property `A`. -/
structure SameSlopes (φ : Rat → Rat) (A : Rat → Prop) (w w' : Int → Int → Rat → Rat) : Prop where
  neg : ∀ s p e, Adj (0, 0) s → A p → A e → p ≤ e → (w' s.1 s.2 (φ e - φ p) < 0 ↔ w s.1 s.2 (e - p) < 0)
  lt : ∀ s t p e e', Adj (0, 0) s → Adj (0, 0) t → A p → A e → A e' → p ≤ e → p ≤ e' →
    (w' s.1 s.2 (φ e - φ p) < w' t.1 t.2 (φ e' - φ p) ↔ w s.1 s.2 (e - p) < w t.1 t.2 (e' - p))

/-- The second run is on the converted raster and makes the same choices as the first. -/
structure SameChoices (φ : Rat → Rat) (E E' : SaddleEnv) : Prop where
  raster : E'.d = rescaled φ E.d
  near : SameNear φ E.near E'.near
  pairs : SamePairs φ E.fc E'.fc
  paths : ∀ f a b, E'.find (scaleF φ f) (scale3 φ a) (scale3 φ b) =
    { cost := (E.find f a b).cost, nodes := (E.find f a b).nodes.map (scaleM φ) }
  fuel : E'.fuel = E.fuel

end PyProm.Spec
