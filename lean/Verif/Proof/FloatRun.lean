import Verif.Spec.Floats
import Verif.Proof.Elsewhere
import Verif.Props.Places
import Verif.Props.Floats

/-
Runs with rounded coordinates
-/
namespace PyProm
open Spec

/-- The feature is at a cell, and so are its area and, if it has an area, the high points around it. -/
def Housed (d : DataMap) (f : Feature) : Prop :=
  Placed (fun _ q => InB d q) d f ∧ ((∃ m ms, f.multipoint = some (m :: ms)) → ∀ p ∈ f.hpn.flatten, InB d p.xy)

theorem housed_split {E : SaddleEnv} (hp : PathsInside E) {f : Feature} {fs : List Feature} (hf : Housed E.d f)
    (h : generateSynthetic E f = .ok (some fs)) : ∀ g ∈ fs, Housed E.d g := by
  intro g hg
  refine ⟨breeds_placed hf.1 (fun _ hm a b n hn => ?_) fs h g hg, ?_⟩
  · obtain ⟨u, hu, t, ht, hmem⟩ := saddleHighPath_mem hn
    rcases hp f u hu t ht n hmem with ⟨pts, e1, e2⟩ | ⟨p, hp, rfl⟩
    · exact hf.1.2 pts e1 n e2
    · exact hf.2 hm p hp
  · rintro ⟨m, ms, hm⟩
    exfalso
    have : g.multipoint = none := by
      unfold generateSynthetic at h
      split at h
      · cases h
      · split at h
        · obtain ⟨cs, hc, h⟩ := bind_ok h
          cases h
          unfold generateChildSaddles at hc
          obtain ⟨links, _, hc⟩ := bind_ok hc
          obtain ⟨l, _, hl⟩ := mapM_mem hc g hg
          unfold childSaddle at hl
          split at hl
          · cases hl
          · split at hl
            · obtain ⟨_, _, hl⟩ := bind_ok hl
              cases hl; rfl
            · cases hl; rfl
        · split at h
          · obtain ⟨_, _, h⟩ := bind_ok h
            obtain ⟨_, _, h⟩ := bind_ok h
            obtain ⟨_, _, h⟩ := bind_ok h
            cases h
            rw [List.mem_singleton.1 hg]; rfl
          · obtain ⟨_, _, h⟩ := bind_ok h
            cases h
            rw [List.mem_singleton.1 hg]; rfl
    rw [this] at hm
    cases hm

theorem discover_housed {d : DataMap} {fc : PairSearch} (hfc : PairOk d fc) {o : Pt → Oracle} {order : List Pt}
    (ho : IsScan d order) {rebuild : Bool} {m : DMap} (h : DMap.discover d fc o order rebuild = .ok m) :
    (∀ f ∈ m.summits, Housed d f) ∧ AllK (Housed d) m.st := by
  obtain ⟨D, cs, m', sites, h1, h2, h3, hf, hsum, _, _⟩ := discover_spec hfc o order ho rebuild
  cases (h3.symm.trans h : Except.ok _ = Except.ok _)
  refine ⟨fun f hf => ?_, fun ob hob => ⟨discover_onMap ho h1 h2 h3 ob hob, fun _ p hp => ?_⟩⟩
  · rw [hsum] at hf
    obtain ⟨⟨q, a, b, _⟩, c, e⟩ := analyze_places ho h1 f (by simp [hf])
    exact ⟨⟨⟨q, a, b⟩, e⟩, fun _ => c⟩
  · obtain ⟨c, hc, hpc⟩ := List.mem_flatten.1 hp
    exact (((hf.ok ob hob).high c hc).2 p hpc).1.1

/-- What is assumed of the two rasters: the first is not rotated and not rounded, the second is not rotated, and cells
can be found and told apart by their coordinates on both. -/
structure RoundedPair (g d : DataMap) : Prop where
  geo : Unrotated d
  told : Told d
  gt2 : g.gt2 = 0
  gt4 : g.gt4 = 0
  zero : g.fl 0 = 0
  findable' : Findable (laid g d)
  told' : Told (laid g d)

variable {g d : DataMap}

theorem roundLat_cell (h : RoundedPair g d) (q : Pt) : roundLat d g (latOf d q) = latOf (laid g d) q := by
  unfold roundLat latOf
  have := h.geo.gt5
  simp only [h.geo.exact, h.geo.gt4, mul_zero, add_zero, laid, h.gt4, h.zero]
  rw [add_sub_cancel_left, mul_div_assoc, div_self this, mul_one]

theorem roundLon_cell (h : RoundedPair g d) (q : Pt) : roundLon d g (lonOf d q) = lonOf (laid g d) q := by
  unfold roundLon lonOf
  have := h.geo.gt1
  simp only [h.geo.exact, h.geo.gt2, mul_zero, add_zero, laid, h.gt2, h.zero]
  rw [add_sub_cancel_left, mul_div_assoc, div_self this, mul_one]

theorem out_rounded (h : RoundedPair g d) (x y : Int) : (laid g d).xyToLatLon x y =
    (roundLat d g (d.xyToLatLon x y).1, roundLon d g (d.xyToLatLon x y).2) :=
  Prod.ext (roundLat_cell h (x, y)).symm (roundLon_cell h (x, y)).symm

theorem back_rounded (h : RoundedPair g d) {f : Feature} (hf : OnMap d f) :
    (laid g d).latLongToXY (roundLat d g f.lat) (roundLon d g f.lon) = d.latLongToXY f.lat f.lon := by
  obtain ⟨q, hq, e1, e2⟩ := hf
  rw [e1, e2, roundLat_cell h, roundLon_cell h, h.findable' q hq, h.geo.findable q hq]

theorem eqCoord_round6 {a b : Rat} (h : eqCoord a = eqCoord b) : round6 a = round6 b := ((eqCoord_iff a b).1 h).1

theorem seEq_cells {d : DataMap} (hd : Told d) {p q : Pt} (hp : InB d p) (hq : InB d q) (e e' : Rat) :
    seEq (latOf d p) (lonOf d p) e (latOf d q) (lonOf d q) e' = decide (p = q ∧ e = e') := by
  unfold seEq
  rw [← Bool.decide_and, ← Bool.decide_and]
  refine decide_eq_decide.2 ⟨fun h => ⟨hd p q hp hq (eqCoord_round6 h.1.1) (eqCoord_round6 h.1.2), h.2⟩, ?_⟩
  rintro ⟨rfl, rfl⟩
  exact ⟨⟨rfl, rfl⟩, rfl⟩

theorem seNe_cells {d : DataMap} (hd : Told d) {p q : Pt} (hp : InB d p) (hq : InB d q) (e e' : Rat) :
    seNe (latOf d p) (lonOf d p) e (latOf d q) (lonOf d q) e' = !decide (p = q ∧ e = e') := by
  unfold seNe
  rw [← Bool.decide_and, ← Bool.decide_and]
  refine congrArg _ (decide_eq_decide.2 ⟨fun h => ⟨hd p q hp hq h.1.1 h.1.2, h.2⟩, ?_⟩)
  rintro ⟨rfl, rfl⟩
  exact ⟨⟨rfl, rfl⟩, rfl⟩

theorem seEq_rounded (h : RoundedPair g d) {f f' : Feature} (hf : OnMap d f) (hf' : OnMap d f') :
    seEq (roundLat d g f.lat) (roundLon d g f.lon) f.elevation (roundLat d g f'.lat) (roundLon d g f'.lon) f'.elevation =
      seEq f.lat f.lon f.elevation f'.lat f'.lon f'.elevation := by
  obtain ⟨p, hp, e1, e2⟩ := hf
  obtain ⟨q, hq, e3, e4⟩ := hf'
  rw [e1, e2, e3, e4, roundLat_cell h, roundLon_cell h, roundLat_cell h, roundLon_cell h, seEq_cells h.told hp hq,
    seEq_cells h.told' hp hq]

theorem seNe_rounded (h : RoundedPair g d) {f f' : Feature} (hf : OnMap d f) (hf' : OnMap d f') :
    seNe (roundLat d g f.lat) (roundLon d g f.lon) f.elevation (roundLat d g f'.lat) (roundLon d g f'.lon) f'.elevation =
      seNe f.lat f.lon f.elevation f'.lat f'.lon f'.elevation := by
  obtain ⟨p, hp, e1, e2⟩ := hf
  obtain ⟨q, hq, e3, e4⟩ := hf'
  rw [e1, e2, e3, e4, roundLat_cell h, roundLon_cell h, roundLat_cell h, roundLon_cell h, seNe_cells h.told hp hq,
    seNe_cells h.told' hp hq]

theorem envLaid_rounded {E E' : SaddleEnv} (hE : SameRounded g E E') (h : RoundedPair g E.d) (hp : PathsInside E)
    {m : DMap} (hm : ∀ f ∈ m.summits, Housed E.d f) :
    EnvLaid g (roundLat E.d g) (roundLon E.d g) (Housed E.d) { E with summits := m.summits }
      { E' with summits := (placeMap (roundLat E.d g) (roundLon E.d g) m).summits } where
  raster := hE.raster
  slopes := hE.slopes
  near := hE.near
  pairs := hE.pairs
  paths := hE.paths
  fuel := hE.fuel
  summits := rfl
  out := out_rounded h
  back := fun _ hf => back_rounded h hf.1.1
  eq := fun _ _ hf hf' => seEq_rounded h hf.1.1 hf'.1.1
  tops := hm
  split := fun _ _ hf hs => housed_split (E := { E with summits := m.summits }) hp hf hs

theorem walk_housed {E : SaddleEnv} (hp : PathsInside E) {m : DMap} (tops : ∀ f ∈ m.summits, Housed E.d f)
    (objs : AllK (Housed E.d) m.st) {sel : List Nat} {r : DMap × Option (List Nat × List Nat)}
    (h : DMap.walk E m sel = .ok r) : (∀ f ∈ r.1.summits, Housed E.d f) ∧ AllK (Housed E.d) r.1.st := by
  unfold DMap.walk at h
  obtain ⟨w, _, h5⟩ := bind_ok h
  obtain ⟨⟨q, s⟩, h6, h7⟩ := bind_ok h5
  have hs : AllK (Housed E.d) s := by
    unfold climbFromSaddles at h6
    obtain ⟨s', h8, h9⟩ := bind_ok h6
    cases h9
    refine foldlM_allK (fun s k s' hs h => walkFeature_allK (A := fun _ => True) ?_ hs h) _ _ _ ?_ h8
    · exact ⟨fun _ _ _ _ _ _ _ _ => trivial, fun _ _ hf h => housed_split (E := { E with summits := m.summits }) hp hf h⟩
    · exact objs
  dsimp only at h7
  split at h7 <;> cases h7 <;> exact ⟨tops, hs⟩

theorem runSparse_housed {E : SaddleEnv} (hfc : PairOk E.d E.fc) (hp : PathsInside E) {o : Pt → Oracle} {order : List Pt}
    (ho : IsScan E.d order) {rebuild : Bool} {m : DMap} (h : DMap.runSparse E o order rebuild = .ok m) :
    (∀ f ∈ m.summits, Housed E.d f) ∧ AllK (Housed E.d) m.st := by
  unfold DMap.runSparse at h
  obtain ⟨m0, h1, h2⟩ := bind_ok h
  obtain ⟨r, h3, h4⟩ := bind_ok h2
  cases h4
  have := discover_housed hfc ho h1
  exact walk_housed hp this.1 this.2 h3

theorem runSparse_rounded {E E' : SaddleEnv} (hE : SameRounded g E E') (h : RoundedPair g E.d) (hfc : PairOk E.d E.fc)
    (hp : PathsInside E) (o : Pt → Oracle) (order : List Pt) (ho : IsScan E.d order) (rebuild : Bool) :
    DMap.runSparse E' o order rebuild =
      (DMap.runSparse E o order rebuild).map (placeMap (roundLat E.d g) (roundLon E.d g)) := by
  unfold DMap.runSparse
  rw [hE.raster, hE.pairs, discover_laid (out_rounded h)]
  simp only [bind, Except.bind]
  cases hm : DMap.discover E.d E.fc o order rebuild with
  | error e => rfl
  | ok m =>
    have k := discover_housed hfc ho hm
    simp only [Except.map]
    rw [walk_laid m (envLaid_rounded hE h hp k.1) k.2]
    cases m.walk E [] <;> rfl

theorem run_rounded {E E' : SaddleEnv} (hE : SameRounded g E E') (h : RoundedPair g E.d) (hfc : PairOk E.d E.fc)
    (hp : PathsInside E) (o : Pt → Oracle) (order : List Pt) (ho : IsScan E.d order) (rebuild : Bool) (fuel : Nat) :
    DMap.run E' o order rebuild fuel =
      (DMap.run E o order rebuild fuel).map fun r => (placeMap (roundLat E.d g) (roundLon E.d g) r.1, r.2) := by
  unfold DMap.run
  rw [runSparse_rounded hE h hfc hp o order ho]
  simp only [bind, Except.bind]
  cases hm : DMap.runSparse E o order rebuild with
  | error e => rfl
  | ok m =>
    have k := runSparse_housed hfc hp ho hm
    simp only [Except.map]
    unfold DMap.detectBasins
    rw [flags_laid, net_laid (K := Housed E.d) (fun _ _ hf hf' => seEq_rounded h hf.1.1 hf'.1.1)
      (fun _ _ hf hf' => seNe_rounded h hf.1.1 hf'.1.1) k.1 k.2]
    rw [show (placeMap (roundLat E.d g) (roundLon E.d g) m).saddles = m.saddles from rfl]
    cases disqualifyBasinSaddles m.net fuel m.saddles m.flags <;> rfl

end PyProm
