import Verif.Proof.Elsewhere
import Verif.Props.RunHeights

/-! C114: the same raster at another place. -/
namespace PyProm
open Spec

/-! ### C114 -/

/-- C114: a complete run on the same raster with another geotransform (another place, rows counted northwards instead of
southwards) ends as the run on the raster itself: with the same exception, or with the same map in which every feature
is as many rows and columns from the new origin as it was from the old one, and with the same saddles and linkers
disqualified. Neighbouring cells are to differ by more than a millionth of a degree in both, and both runs are to use
the same slopes and distances between cells: for the code these depend on the pixel sizes, but not on their signs nor on
the place. -/
theorem C114_run (g : DataMap) (E E' : SaddleEnv) (hE : SameElsewhere g E E') (hd : Coarse E.d) (hg : Coarse g)
    (o : Pt → Oracle) (order : List Pt) (rebuild : Bool) (fuel : Nat) :
    DMap.run E' o order rebuild fuel =
      (DMap.run E o order rebuild fuel).map fun r => (placeMap (newLat E.d g) (newLon E.d g) r.1, r.2) :=
  run_new hE hd hg o order rebuild fuel

/-- C114, walking again: any further walk on the map of a run, also from selected saddles only, gives the same result
on the moved map. -/
theorem C114_walk (g : DataMap) (E E' : SaddleEnv) (hE : SameElsewhere g E E') (hd : Coarse E.d) (hg : Coarse g)
    (o : Pt → Oracle) (order : List Pt) (rebuild : Bool) (m : DMap)
    (hm : DMap.runSparse E o order rebuild = .ok m) (sel : List Nat) :
    DMap.walk E' (placeMap (newLat E.d g) (newLon E.d g) m) sel =
      (DMap.walk E m sel).map fun r => (placeMap (newLat E.d g) (newLon E.d g) r.1, r.2) :=
  walk_new hE hd hg (runSparse_onGrid hd.geo hm) sel

/-- C114, cells: a feature of the map that is at a cell of the first raster is at the same cell of the second. -/
theorem C114_cells (d g : DataMap) (hd : Unrotated d) (hg : Unrotated g) (f : Feature) (p : Pt) :
    LocatedAt (laid g d) p (placeF (newLat d g) (newLon d g) f) ↔ LocatedAt d p f := by
  have key : ∀ a b s t x : Rat, t ≠ 0 → s ≠ 0 → (b + (x - a) / s * t = b + p.1 * t ↔ x = a + p.1 * s) := by
    intro a b s t x ht hs
    rw [add_right_inj, mul_left_inj' ht, div_eq_iff hs, sub_eq_iff_eq_add']
  have key' : ∀ a b s t x : Rat, t ≠ 0 → s ≠ 0 → (b + (x - a) / s * t = b + p.2 * t ↔ x = a + p.2 * s) := by
    intro a b s t x ht hs
    rw [add_right_inj, mul_left_inj' ht, div_eq_iff hs, sub_eq_iff_eq_add']
  unfold LocatedAt
  show (newLat d g f.lat = latOf g p ∧ newLon d g f.lon = lonOf g p ∧
    f.elevation = el d p) ↔ _
  unfold latOf lonOf
  rw [hd.gt4, hd.gt2, hg.gt4, hg.gt2]
  simp only [mul_zero, add_zero, hd.exact, hg.exact]
  unfold newLat newLon
  rw [key _ _ _ _ _ hg.gt5 hd.gt5, key' _ _ _ _ _ hg.gt1 hd.gt1]

/-- The raster moved north by `a` and east by `b` degrees. -/
def Spec.shifted (a b : Rat) (d : DataMap) : DataMap := { d with gt3 := d.gt3 + a, gt0 := d.gt0 + b }

/-- C114, moving only: if the raster is moved north by `a` and east by `b` degrees, every feature is. -/
theorem C114_shift (a b : Rat) (E : SaddleEnv) (hd : Coarse E.d)
    (hf : ∀ f f' : Feature, f.multipoint = f'.multipoint → f.hpn = f'.hpn → E.find f = E.find f')
    (o : Pt → Oracle) (order : List Pt) (rebuild : Bool) (fuel : Nat) :
    DMap.run { E with d := shifted a b E.d } o order rebuild fuel =
      (DMap.run E o order rebuild fuel).map fun r => (placeMap (· + a) (· + b) r.1, r.2) := by
  have h1 : newLat E.d (shifted a b E.d) = (· + a) := funext fun x => by
    unfold newLat shifted
    rw [div_mul_cancel₀ _ hd.geo.gt5]
    ring
  have h2 : newLon E.d (shifted a b E.d) = (· + b) := funext fun x => by
    unfold newLon shifted
    rw [div_mul_cancel₀ _ hd.geo.gt1]
    ring
  have := C114_run (shifted a b E.d) E { E with d := shifted a b E.d }
    ⟨rfl, rfl, rfl, rfl, fun f => hf _ _ rfl rfl, rfl⟩ hd ⟨⟨hd.geo.gt1, hd.geo.gt5, hd.geo.gt2, hd.geo.gt4, hd.geo.exact⟩, hd.lat, hd.lon⟩
    o order rebuild fuel
  rw [h1, h2] at this
  exact this

/-! Instances: a raster moved and with smaller pixels. -/

def exPlace : DataMap := { DataMap.ofRows exRows with gt0 := -72, gt1 := 1 / 1200, gt3 := 44, gt5 := -1 / 1200 }

theorem exPlace_coarse : Coarse exPlace where
  geo := ⟨by decide +kernel, by decide +kernel, rfl, rfl, fun _ => rfl⟩
  lat := by decide +kernel
  lon := by decide +kernel

theorem exRows_coarse : Coarse (DataMap.ofRows exRows) where
  geo := ⟨by decide +kernel, by decide +kernel, rfl, rfl, fun _ => rfl⟩
  lat := by decide +kernel
  lon := by decide +kernel

theorem exElsewhere : SameElsewhere exPlace (exRun (DataMap.ofRows exRows)) (exRun exPlace) :=
  ⟨rfl, rfl, rfl, rfl, fun _ => rfl, rfl⟩

/-- Instance of `C114_run`. -/
example : DMap.run (exRun exPlace) (fun _ => exOracle) exPlace.cells true 100 =
    (DMap.run (exRun (DataMap.ofRows exRows)) (fun _ => exOracle) exPlace.cells true 100).map fun r =>
      (placeMap (newLat (DataMap.ofRows exRows) exPlace) (newLon (DataMap.ofRows exRows) exPlace) r.1, r.2) :=
  C114_run _ _ _ exElsewhere exRows_coarse exPlace_coarse _ _ _ _

/-- The run of the instance finishes, and its summits lie at the new place. -/
example : (DMap.run (exRun exPlace) (fun _ => exOracle) exPlace.cells true 100).toOption.map
    (fun r => decide (r.1.summits ≠ []) && r.1.summits.all fun f => decide (43 < f.lat) && decide (f.lon < -71)) =
      some true := by
  decide +kernel

/-- Instance of `C114_walk` and `C114_shift`: the hypotheses hold. -/
example : ∃ m, DMap.runSparse (exRun exPlace) (fun _ => exOracle) exPlace.cells true = .ok m := by
  have h : (DMap.runSparse (exRun exPlace) (fun _ => exOracle) exPlace.cells true).toOption.map
    (fun _ => ()) = some () := by decide +kernel
  cases hr : DMap.runSparse (exRun exPlace) (fun _ => exOracle) exPlace.cells true with
  | error e =>
    rw [hr] at h
    cases h
  | ok m => exact ⟨m, rfl⟩

example : ∀ f f' : Feature, f.multipoint = f'.multipoint → f.hpn = f'.hpn →
    (exRun exPlace).find f = (exRun exPlace).find f' := fun _ _ _ _ => rfl

/-- Two summits of the same height with a dip between them, on pixels of a fifth of a millionth of a degree. -/
def exTiny : DataMap :=
  { DataMap.ofRows [[2, 1, 2]] with gt0 := 1, gt1 := 1 / 5000000, gt3 := 1, gt5 := -1 / 5000000 }

/-- C114, the limit: where neighbouring cells differ by less than a millionth of a degree, moving the raster changes the
map. Here the saddle between two summits is linked to both or to only one of them. -/
theorem C114_only_coarse : ∃ (E : SaddleEnv) (a b : Rat), RunOk E ∧
    (DMap.run { E with d := shifted a b E.d } (fun _ => exOracle) E.d.cells false 100).toOption.map
      (fun r => (r.1.st.sadLinks 7).length) = some 2 ∧
    (DMap.run E (fun _ => exOracle) E.d.cells false 100).toOption.map
      (fun r => (r.1.st.sadLinks 7).length) = some 1 :=
  ⟨exRun exTiny, 3 / 10000000, 3 / 10000000,
    exRun_ok _ (by intro v hv; cases hv) ⟨by decide +kernel, by decide +kernel, rfl, rfl, fun _ => rfl⟩ (by decide),
    by decide +kernel, by decide +kernel⟩

end PyProm
