import Verif.Model.Points
import Verif.Props.Grid
import Verif.Props.Containers
import Verif.Props.SaddleNet
import Verif.Props.Run
import Verif.Props.RunSerial

/-
Views of domains, conversions of points, prominence of linkers, files: C82-C85 and additions to C02, C25,
C37, C50.
-/
namespace PyProm
open Spec

/-! ### C82: views of a SummitDomain -/

theorem mapM_some_of {α β : Type} {f : α → Option β} {g : α → β} (l : List α) (h : ∀ a ∈ l, f a = some (g a)) :
    l.mapM f = some (l.map g) := by
  induction l with
  | nil => rfl
  | cons a l ih =>
    rw [List.mapM_cons, h a (by simp), ih fun b hb => h b (by simp [hb])]
    rfl

/-- C82 for the views with elevation. The view as GridPoints gives each listed cell with its elevation in the
raster, in order; the view as SpotElevations gives the same cells in the same order: looking up its
coordinates finds the cell and its elevation. Missing for the claim: the views without elevation. -/
theorem C82_views_partial (d : DataMap) (pts : List Pt) (h : ∀ p ∈ pts, Data d p) :
    ∃ gp sp, domainGridPoints d pts = some gp ∧ domainSpotElevations d pts = some sp ∧
      gp.map P3.xy = pts ∧ (∀ g ∈ gp, g.e = el d g.xy) ∧ sp.map (·.2.2) = gp.map (·.e) ∧
      (Findable d → sp.map (fun s => d.latLongToXY s.1 s.2.1) = pts.map some ∧
        ∀ s ∈ sp, d.elevation s.1 s.2.1 = some s.2.2) := by
  refine ⟨pts.map fun p => ⟨p.1, p.2, el d p⟩,
    pts.map fun p => ((d.xyToLatLon p.1 p.2).1, (d.xyToLatLon p.1 p.2).2, el d p), ?_, ?_, ?_, ?_, ?_, ?_⟩
  · exact mapM_some_of pts fun p hp => by rw [get_data (h p hp).1]; rfl
  · exact mapM_some_of pts fun p hp => by rw [get_data (h p hp).1]; rfl
  · rw [List.map_map]
    exact (List.map_congr_left fun p _ => rfl).trans (List.map_id _)
  · intro g hg
    obtain ⟨p, _, rfl⟩ := List.mem_map.1 hg
    rfl
  · simp
  · intro hu
    have back : ∀ p ∈ pts, d.latLongToXY (d.xyToLatLon p.1 p.2).1 (d.xyToLatLon p.1 p.2).2 = some p :=
      fun p hp => hu p (h p hp).1
    refine ⟨?_, fun s hs => ?_⟩
    · rw [List.map_map]
      exact List.map_congr_left back
    · obtain ⟨p, hp, rfl⟩ := List.mem_map.1 hs
      unfold DataMap.elevation
      rw [back p hp]
      exact get_data (h p hp).1

/-- C82 on the result of a run: all cells listed by the domain of a summit are data cells, so the views above
never fail. -/
theorem C82_run_partial (E : SaddleEnv) (hE : RunOk E) (o : Pt → Oracle) (order : List Pt) (ho : IsScan E.d order)
    (rebuild : Bool) :
    ∃ m, DMap.runSparse E o order rebuild = .ok m ∧ ∀ D ∈ m.domains, ∃ pts gp sp, m.domPoints D = some pts ∧
      domainGridPoints E.d pts = some gp ∧ domainSpotElevations E.d pts = some sp ∧ gp.map P3.xy = pts ∧
      (∀ g ∈ gp, Data E.d g.xy ∧ g.e = el E.d g.xy) ∧
      sp.map (fun s => (E.d.latLongToXY s.1 s.2.1, s.2.2)) = gp.map fun g => (some g.xy, g.e) := by
  obtain ⟨_, _, m0, m, _, _, _, _, _, _, _, _, _, h8, h9⟩ := run_spec hE o order ho rebuild
  refine ⟨m, h8, fun D hD => ?_⟩
  have hlt : D < m0.summits.length := by
    rw [h9.domains] at hD
    obtain ⟨l, hl, rfl⟩ := (h9.inv.doms.2 D).1 hD
    obtain ⟨sf, _, e1, _⟩ := h9.inv.links l hl
    exact lt_of_getElem? e1
  have hpts : ∀ p ∈ m.st.w.points D, Data E.d p := fun p hp => (h9.inv.w.asc D p hp).1
  obtain ⟨gp, sp, a1, a2, a3, a4, a5, a6⟩ := C82_views_partial E.d _ hpts
  obtain ⟨b1, b2⟩ := a6 hE.geo
  refine ⟨_, gp, sp, by rw [h9.points, if_pos hlt], a1, a2, a3, fun g hg => ⟨hpts _ ?_, a4 g hg⟩, ?_⟩
  · rw [← a3]
    exact List.mem_map_of_mem hg
  · rw [show sp.map (fun s => (E.d.latLongToXY s.1 s.2.1, s.2.2)) =
        (sp.map fun s => E.d.latLongToXY s.1 s.2.1).zip (sp.map (·.2.2)) by rw [List.zip_map']]
    rw [b1, a5, ← a3, List.map_map, List.zip_map']
    rfl

/-- C82 fails for `members` and `baseCoordinate`: the coordinates of the grid are passed on as latitude and
longitude. In every raster whose rows are not one degree apart to the north, for every domain with points in two
rows, some member is not at the place of its point. -/
theorem C82_members_refuted (d : DataMap) (hu : Unrotated d) (h5 : d.gt5 ≠ 1) (pts : List Pt) (p q : Pt)
    (hp : p ∈ pts) (hq : q ∈ pts) (hne : p.1 ≠ q.1) :
    domainBaseCoordinates pts ≠ pts.map fun p => d.xyToLatLon p.1 p.2 := by
  intro he
  have key : ∀ p ∈ pts, ((p.1 : Rat), (p.2 : Rat)) = d.xyToLatLon p.1 p.2 := List.map_inj_left.1 he
  have e1 := congrArg Prod.fst (key p hp)
  have e2 := congrArg Prod.fst (key q hq)
  simp only [DataMap.xyToLatLon, hu.gt4, hu.exact, mul_zero, add_zero] at e1 e2
  have : ((p.1 : Rat) - q.1) * (1 - d.gt5) = 0 := by linarith
  rcases mul_eq_zero.1 this with h | h
  · exact hne (by exact_mod_cast sub_eq_zero.1 h)
  · exact h5 (by linarith)

/-- C82 fails for `baseGridPoint`: the coordinates of the grid are converted once more. In every raster with
columns less than half a degree apart, for every domain with points in two columns, the cells are not those of
the domain. -/
theorem C82_baseGridPoint_refuted (d : DataMap) (hx : ∀ r, d.fl r = r) (h1 : |d.gt1| < 1 / 2) (pts : List Pt) (p q : Pt)
    (hp : p ∈ pts) (hq : q ∈ pts) (hne : p.2 ≠ q.2) : domainBaseGridPoints d pts ≠ some pts := by
  intro he
  have key : ∀ p ∈ pts, d.latLongToXY p.1 p.2 = some p := by
    have hl : ∀ l l' : List Pt, l.mapM (fun p : Pt => d.latLongToXY p.1 p.2) = some l' →
        l.map (fun p : Pt => d.latLongToXY p.1 p.2) = l'.map some := by
      intro l
      induction l with
      | nil => intro l' h; simp at h; subst h; rfl
      | cons a l ih =>
        intro l' h
        simp only [List.mapM_cons, Option.bind_eq_bind, Option.bind_eq_some_iff] at h
        obtain ⟨x, hx, r, hr, e⟩ := h
        cases e
        rw [List.map_cons, hx, ih r hr]
        rfl
    exact List.map_inj_left.1 (hl pts pts he)
  have one : ∀ r ∈ pts, ∃ a : Rat, |a| ≤ 1 / 2 ∧ (a + r.2) * d.gt1 = r.2 - d.gt0 := by
    intro r hr
    have := key r hr
    unfold DataMap.latLongToXY at this
    split at this
    · cases this
    · rename_i hz
      simp only [hx, Option.some.injEq] at this
      have e := congrArg Prod.snd this
      dsimp only at e
      have hs := (pyRound_spec (((r.2 : Rat) - d.gt0) / d.gt1)).1
      rw [e] at hs
      refine ⟨_, hs, ?_⟩
      have : d.gt1 ≠ 0 := fun h => hz (.inl h)
      field_simp
      ring
  obtain ⟨a, ha, ea⟩ := one p hp
  obtain ⟨b, hb, eb⟩ := one q hq
  have hd : (1 : Rat) ≤ |(p.2 : Rat) - q.2| := by
    have : (1 : Int) ≤ |p.2 - q.2| := Int.one_le_abs (sub_ne_zero.2 hne)
    exact_mod_cast this
  have e : (a - b + (p.2 - q.2)) * d.gt1 = (p.2 : Rat) - q.2 := by linarith
  have hab : |a - b + ((p.2 : Rat) - q.2)| ≤ 1 + |(p.2 : Rat) - q.2| := by
    have h1 := abs_add_le (a - b) ((p.2 : Rat) - q.2)
    have h2 := abs_sub a b
    linarith
  have := congrArg abs e
  rw [abs_mul] at this
  nlinarith [abs_nonneg (a - b + ((p.2 : Rat) - q.2)), abs_nonneg d.gt1]

/-- Instances: a one third arcsecond raster, and a domain with two points. -/
example : ∃ d : DataMap, Unrotated d ∧ d.gt5 ≠ 1 ∧ |d.gt1| < 1 / 2 ∧ (∀ p ∈ [((0, 0) : Pt), (1, 1)], Data d p) ∧
    domainGridPoints d [(0, 0), (1, 1)] = some [⟨0, 0, 1⟩, ⟨1, 1, 4⟩] :=
  ⟨{ DataMap.ofRows [[1, 2], [3, 4]] with gt0 := -72, gt1 := 1 / 10800, gt3 := 45, gt5 := -1 / 10800 },
    ⟨by decide +kernel, by decide +kernel, by decide +kernel, by decide +kernel, fun _ => rfl⟩, by decide +kernel,
    by decide +kernel, by unfold Spec.Data Spec.InB; decide +kernel, by decide +kernel⟩

/-! ### C83: conversions of points -/

/-- C83: a GridPoint converted to a SpotElevation and back is the same. A SpotElevation converted to a GridPoint
and back keeps its elevation and moves by at most half a pixel on each axis. The coordinates of a MultiPoint find
its cells. Missing for the claim: rotated rasters. -/
theorem C83_conversions_partial (d : DataMap) (hu : Unrotated d) :
    (∀ p : P3, toGridPoint d (p.toSpot d) = some p) ∧
    (∀ lat lon e, ∃ p, toGridPoint d (lat, lon, e) = some p ∧ (p.toSpot d).2.2 = e ∧
      |lat - (p.toSpot d).1| ≤ |d.gt5| / 2 ∧ |lon - (p.toSpot d).2.1| ≤ |d.gt1| / 2) ∧
    (∀ pts : List MPt, (multiLatLong d pts).map (fun l => d.latLongToXY l.1 l.2) = pts.map fun m => some (m.x, m.y)) ∧
    (∀ (e : Rat) (pts : List MPt), (multiWithElevation e pts).map (fun p => (p.xy, p.e)) = pts.map fun m => ((m.x, m.y), e)) := by
  have back : ∀ x y, d.latLongToXY (d.xyToLatLon x y).1 (d.xyToLatLon x y).2 = some (x, y) := by
    intro x y
    have := C02_roundtrip d hu.gt1 hu.gt5 hu.gt2 hu.gt4 hu.exact x y 0 0 (by simpa using hu.gt5) (by simpa using hu.gt1)
    rwa [add_zero, add_zero] at this
  refine ⟨fun p => ?_, fun lat lon e => ?_, fun pts => ?_, fun e pts => ?_⟩
  · simp only [toGridPoint, P3.toSpot, back]
    rfl
  · obtain ⟨x, y, h1, h2, h3, _⟩ := C02_nearest d hu.gt1 hu.gt5 hu.gt2 hu.gt4 hu.exact lat lon
    exact ⟨⟨x, y, e⟩, by simp only [toGridPoint, h1]; rfl, rfl, h2, h3⟩
  · unfold multiLatLong
    rw [List.map_map]
    exact List.map_congr_left fun m _ => back m.x m.y
  · unfold multiWithElevation
    rw [List.map_map]
    exact List.map_congr_left fun m _ => rfl

/-- C83 fails on every rotated raster: some cell does not come back. -/
theorem C83_rotated_refuted (d : DataMap) (hx : ∀ r, d.fl r = r) (h : d.gt2 ≠ 0 ∨ d.gt4 ≠ 0) :
    ∃ p : P3, toGridPoint d (p.toSpot d) ≠ some p := by
  by_cases hz : d.gt1 = 0 ∨ d.gt5 = 0
  · exact ⟨⟨0, 0, 0⟩, by simp [toGridPoint, DataMap.latLongToXY, hz]⟩
  have far : ∀ g : Rat, g ≠ 0 → ∃ n : Int, 1 / 2 < |(n : Rat) * g| := by
    intro g hg
    refine ⟨(1 / |g|).floor + 1, ?_⟩
    have h1 : 1 / |g| < ((1 / |g|).floor + 1 : Int) := Rat.lt_floor_add_one _
    have hp := abs_pos.2 hg
    have h2 : 0 < 1 / |g| := by positivity
    rw [abs_mul, abs_of_pos (lt_trans h2 h1)]
    have := mul_lt_mul_of_pos_right h1 hp
    rw [div_mul_cancel₀ _ (ne_of_gt hp)] at this
    linarith
  have hne : d.gt1 ≠ 0 ∧ d.gt5 ≠ 0 := by tauto
  rcases h with h | h
  · obtain ⟨n, hn⟩ := far (d.gt2 / d.gt1) (div_ne_zero h hne.1)
    refine ⟨⟨n, 0, 0⟩, fun he => ?_⟩
    simp only [toGridPoint, P3.toSpot, DataMap.latLongToXY, DataMap.xyToLatLon, if_neg hz, hx, Option.map_some,
      Option.some.injEq, P3.mk.injEq] at he
    have hs := (pyRound_spec ((d.gt0 + ((0 : Int) : Rat) * d.gt1 + (n : Rat) * d.gt2 - d.gt0) / d.gt1)).1
    rw [he.2.1] at hs
    have e : (d.gt0 + ((0 : Int) : Rat) * d.gt1 + (n : Rat) * d.gt2 - d.gt0) / d.gt1 - ((0 : Int) : Rat) =
        n * (d.gt2 / d.gt1) := by
      push_cast
      ring
    rw [e] at hs
    linarith
  · obtain ⟨n, hn⟩ := far (d.gt4 / d.gt5) (div_ne_zero h hne.2)
    refine ⟨⟨0, n, 0⟩, fun he => ?_⟩
    simp only [toGridPoint, P3.toSpot, DataMap.latLongToXY, DataMap.xyToLatLon, if_neg hz, hx, Option.map_some,
      Option.some.injEq, P3.mk.injEq] at he
    have hs := (pyRound_spec ((d.gt3 + (n : Rat) * d.gt4 + ((0 : Int) : Rat) * d.gt5 - d.gt3) / d.gt5)).1
    rw [he.1] at hs
    have e : (d.gt3 + (n : Rat) * d.gt4 + ((0 : Int) : Rat) * d.gt5 - d.gt3) / d.gt5 - ((0 : Int) : Rat) =
        n * (d.gt4 / d.gt5) := by
      push_cast
      ring
    rw [e] at hs
    linarith

/-- Instance: a cell and a place next to it. -/
example : ∃ d : DataMap, Unrotated d ∧ toGridPoint d (44, -71, 5) = some ⟨0, 0, 5⟩ ∧
    toGridPoint d (44 - 1 / 10 , -71, 5) = some ⟨360, 0, 5⟩ :=
  ⟨{ DataMap.ofRows [[1, 2], [3, 4]] with gt0 := -71, gt1 := 1 / 3600, gt3 := 44, gt5 := -1 / 3600 },
    ⟨by decide +kernel, by decide +kernel, by decide +kernel, by decide +kernel, fun _ => rfl⟩, by decide +kernel, by decide +kernel⟩

/-! ### C84: prominence of a linker -/

/-- C84: the prominence in feet is that in metres divided by the length of a foot, 0.3048 m; so both have the same
sign, and linkers are ordered the same way by both. -/
theorem C84_feet (saddle summit saddle' summit' : Spot) :
    linkPromFt saddle summit * (3048 / 10000) = linkProm saddle summit ∧
    (0 < linkPromFt saddle summit ↔ saddle.e < summit.e) ∧
    (linkPromFt saddle summit < linkPromFt saddle' summit' ↔ linkProm saddle summit < linkProm saddle' summit') := by
  have key : ∀ a b : Spot, linkPromFt a b * (3048 / 10000) = linkProm a b := by
    intro a b
    simp only [linkPromFt, linkProm, Spot.feet, metersPerFoot]
    ring
  refine ⟨key _ _, ?_, ?_⟩
  · have := key saddle summit
    unfold linkProm at this
    constructor <;> intro h <;> linarith
  · have h1 := key saddle summit
    have h2 := key saddle' summit'
    constructor <;> intro h <;> linarith

/-- C84 on the result of a run: no linker has a negative prominence, and it is positive unless the linker belongs to
a runoff without high neighbourhood, and such runoffs do occur with prominence
zero (`C20_summit_like_refuted`). -/
theorem C84_run (E : SaddleEnv) (hE : RunOk E) (o : Pt → Oracle) (order : List Pt)
    (ho : IsScan E.d order) (rebuild : Bool) :
    ∃ m, DMap.runSparse E o order rebuild = .ok m ∧ ∀ i ∈ m.linkers, ∃ l sf ob,
      m.st.store[i]? = some l ∧ m.summits[l.summit]? = some sf ∧ m.st.objs[l.saddle]? = some ob ∧
      ∀ (sad top : Spot), sad.e = ob.f.elevation → top.e = sf.elevation →
        0 ≤ linkPromFt sad top ∧ ((ob.f.hpn ≠ [] ∨ ob.f.kind ≠ .runoff) → 0 < linkProm sad top ∧ 0 < linkPromFt sad top) := by
  obtain ⟨m, h1, h2⟩ := C20_linkers_rise_partial E hE o order ho rebuild
  refine ⟨m, h1, fun i hi => ?_⟩
  obtain ⟨l, sf, ob, a1, a2, a3, a4⟩ := h2 i hi
  refine ⟨l, sf, ob, a1, a2, a3, fun sad top e1 e2 => ?_⟩
  have hf := (C84_feet sad top sad top).1
  have hp : linkProm sad top = sf.elevation - ob.f.elevation := by rw [linkProm, e1, e2]
  rcases a4 with ⟨_, h⟩ | ⟨b1, b2, h⟩
  · exact ⟨by linarith, fun _ => ⟨by linarith, by linarith⟩⟩
  · exact ⟨by linarith, fun hn => absurd hn (by tauto)⟩

example : linkProm ⟨0, 0, 3048, 1⟩ ⟨0, 0, 6096, 2⟩ = 3048 ∧ linkPromFt ⟨0, 0, 3048, 1⟩ ⟨0, 0, 6096, 2⟩ = 10000 := by
  decide +kernel

/-! ### C85: files -/

theorem pyEndsWith_iff (name ext : String) : pyEndsWith name ext = true ↔ ∃ stem, name = stem ++ ext := by
  unfold pyEndsWith
  rw [List.isSuffixOf_iff_suffix]
  constructor
  · rintro ⟨t, h⟩
    exact ⟨String.ofList t, by rw [← String.toList_inj, String.toList_append, String.toList_ofList, h]⟩
  · rintro ⟨stem, rfl⟩
    exact ⟨stem.toList, by rw [String.toList_append]⟩

/-- C85 for names with the extension: what is written can be read under the same name, whatever was there before. For
other names it can be read under the name with the extension. No other file changes. Missing for the claim: reading
under a name without extension, see `C85_extension_refuted`. -/
theorem C85_read_partial (expand : String → String) (zip : List UInt8 → List UInt8)
    (unzip : List UInt8 → Option (List UInt8)) (hz : ∀ b, unzip (zip b) = some b) (fs : Files) (name : String)
    (data : List UInt8) :
    ((∃ stem, expand name = stem ++ ".dom") →
      readDomain expand unzip (writeDomain expand zip fs name data) name = some data ∧
      ∀ f, f ≠ expand name → writeDomain expand zip fs name data f = fs f) ∧
    ((¬ ∃ stem, expand name = stem ++ ".dom") →
      (∀ other, expand other = expand name ++ ".dom" →
        readDomain expand unzip (writeDomain expand zip fs name data) other = some data) ∧
      ∀ f, f ≠ expand name ++ ".dom" → writeDomain expand zip fs name data f = fs f) := by
  rw [← pyEndsWith_iff]
  refine ⟨fun h => ⟨?_, fun f hf => ?_⟩, fun h => ⟨fun other he => ?_, fun f hf => ?_⟩⟩
  · simp [readDomain, writeDomain, domainExtension, h, hz]
  · simp [writeDomain, domainExtension, h, hf]
  · simp [readDomain, writeDomain, domainExtension, h, hz, he]
  · simp [writeDomain, domainExtension, h, hf]

/-- C85 fails for every name without the extension: `write` adds it, `read` does not. Reading under the name that was
written gives what was there before: nothing, or an older file. -/
theorem C85_extension_refuted (expand : String → String) (zip : List UInt8 → List UInt8)
    (unzip : List UInt8 → Option (List UInt8)) (fs : Files) (name : String) (data : List UInt8)
    (h : ¬ ∃ stem, expand name = stem ++ ".dom") :
    readDomain expand unzip (writeDomain expand zip fs name data) name = readDomain expand unzip fs name := by
  rw [← pyEndsWith_iff] at h
  have hne : expand name ≠ expand name ++ ".dom" := by
    intro he
    have := congrArg String.length he
    rw [String.length_append] at this
    have : (".dom" : String).length = 4 := by decide
    omega
  simp [readDomain, writeDomain, domainExtension, h, hne]

example : (∃ stem, "maps/a.dom" = stem ++ ".dom") ∧ ¬ ∃ stem, "maps/a" = stem ++ ".dom" := by
  rw [← pyEndsWith_iff, ← pyEndsWith_iff]
  decide +kernel

/-! ### Additions to C25 -/

theorem gpcClosest_eq (hyp : Pt → Pt → Rat) (c o : GPC) :
    GPC.findClosest hyp c o =
      (let r := closestPairBrute (fun p q => hyp p.xy q.xy) c.points o.points; (r.1.map (·.1), r.1.map (·.2), r.2)) := by
  have inner : ∀ (m : P3) (l : List P3) (r : Option (P3 × P3) × Rat),
      l.foldl (fun (s : Option P3 × Option P3 × Rat) t =>
        if hyp m.xy t.xy < s.2.2 then (some m, some t, hyp m.xy t.xy) else s) (r.1.map (·.1), r.1.map (·.2), r.2) =
      (let r' := l.foldl (fun best t => minStep (fun q : P3 × P3 => hyp q.1.xy q.2.xy) best (m, t)) r
       (r'.1.map (·.1), r'.1.map (·.2), r'.2)) := by
    intro m l
    induction l with
    | nil => intro r; rfl
    | cons t l ih =>
      intro r
      simp only [List.foldl_cons]
      rw [← ih]
      congr 1
      unfold minStep
      dsimp only
      split <;> rfl
  have outer : ∀ (l : List P3) (r : Option (P3 × P3) × Rat),
      l.foldl (fun s m => o.points.foldl (fun (s : Option P3 × Option P3 × Rat) t =>
        if hyp m.xy t.xy < s.2.2 then (some m, some t, hyp m.xy t.xy) else s) s) (r.1.map (·.1), r.1.map (·.2), r.2) =
      (let r' := l.foldl (fun best m => o.points.foldl
         (fun best t => minStep (fun q : P3 × P3 => hyp q.1.xy q.2.xy) best (m, t)) best) r
       (r'.1.map (·.1), r'.1.map (·.2), r'.2)) := by
    intro l
    induction l with
    | nil => intro r; rfl
    | cons m l ih =>
      intro r
      simp only [List.foldl_cons]
      rw [inner m o.points r]
      exact ih _
  exact outer c.points (none, maxsize)

/-- C25 for containers: `findClosestPoints` gives a pair of members with the least distance, and that distance. -/
theorem C25_container (hyp : Pt → Pt → Rat) (c o : GPC) (hc : c.points ≠ []) (ho : o.points ≠ [])
    (hM : ∀ a ∈ c.points, ∀ b ∈ o.points, hyp a.xy b.xy < maxsize) :
    ∃ a b, GPC.findClosest hyp c o = (some a, some b, hyp a.xy b.xy) ∧ a ∈ c.points ∧ b ∈ o.points ∧
      ∀ a' ∈ c.points, ∀ b' ∈ o.points, hyp a.xy b.xy ≤ hyp a'.xy b'.xy := by
  obtain ⟨a, b, h1, h2, h3, h4, _⟩ := C25_pair (fun p q => hyp p.xy q.xy) c.points o.points hc ho hM
  exact ⟨a, b, by rw [gpcClosest_eq, h1]; rfl, h2, h3, h4⟩

example : GPC.findClosest axisDist (.mk' [⟨0, 0, 1⟩, ⟨5, 5, 1⟩]) (.mk' [⟨9, 9, 1⟩, ⟨5, 7, 2⟩]) =
    (some ⟨5, 5, 1⟩, some ⟨5, 7, 2⟩, 2) := by decide +kernel

/-! ### Additions to C37 -/

theorem linkObjEq_key (a b : Spot × Spot) :
    linkObjEq a b = true ↔ (locKey a.1, locKey a.2) = (locKey b.1, locKey b.2) := by
  unfold linkObjEq
  rw [pyListEq_iff spotEq_key]
  simp

/-- C37 for Linkers: `==` is an equivalence, `!=` its negation. Linkers of saddles without high neighbourhoods that are
equal have equal hashes. -/
theorem C37_linker_partial (hash pair : Int × Int → Int) (nil : Int) (hash3 : Int × Int × Rat → Int) (hint : Int → Int) :
    BEquiv linkObjEq ∧ (∀ a b, linkObjNe a b = !linkObjEq a b) ∧
    ∀ a b, linkObjEq a b = true → linkObjHash hash pair nil hash3 hint a [] = linkObjHash hash pair nil hash3 hint b [] := by
  refine ⟨.ofKey _ linkObjEq_key, fun _ _ => rfl, fun a b h => ?_⟩
  rw [linkObjEq_key, Prod.mk.injEq, ← spotEq_key, ← spotEq_key] at h
  have h1 := (C37_hash hash3 hash a.1 b.1).1 h.1
  have h2 : bcHash hash a.2.lat a.2.lon = bcHash hash b.2.lat b.2.lon := by
    refine (C37_hash hash3 hash a.2 b.2).2 ?_
    have h2 := h.2
    rw [Spot.eq, seEq_iff] at h2
    rw [bcEq_iff]
    simp only [Prod.mk.injEq] at h2 ⊢
    exact ⟨h2.1, h2.2.1⟩
  simp only [linkObjHash, saddleHash, h1, h2]

/-- C37 fails for Linkers of saddles with high neighbourhoods: they have no hash. -/
theorem C37_linker_hash_refuted (hash pair : Int × Int → Int) (nil : Int) (hash3 : Int × Int × Rat → Int)
    (hint : Int → Int) (a : Spot × Spot) (hpn : List (List P3)) (h : hpn ≠ []) :
    linkObjHash hash pair nil hash3 hint a hpn = .error .typeError := by
  cases hpn with
  | nil => exact absurd rfl h
  | cons l hpn => rfl

theorem domObjEq_key (a b : DomObj) : a.eq b = true ↔
    (locKey a.summit, (pySorted Spot.lt a.saddles).map locKey, pySorted p3Lt a.points) =
    (locKey b.summit, (pySorted Spot.lt b.saddles).map locKey, pySorted p3Lt b.points) := by
  unfold DomObj.eq
  rw [Bool.and_eq_true, Bool.and_eq_true, spotEq_key, ← spotsEq, spotsEq_iff, perimEq_iff]
  simp only [Prod.mk.injEq, and_assoc]

/-- C37 for SummitDomains: `==` is an equivalence, equal domains have equal hashes, and the order in which points were
listed does not matter. The order of the saddles does not matter if saddles of one elevation are equal. -/
theorem C37_domain_partial (hash3 : Int × Int × Rat → Int) :
    BEquiv DomObj.eq ∧ (∀ a b : DomObj, a.eq b = true → a.hash hash3 = b.hash hash3) ∧
    (∀ a : DomObj, ∀ l, l.Perm a.points → a.eq { a with points := l } = true) ∧
    ∀ a : DomObj, ∀ l : List Spot, a.saddles.Perm l →
      (∀ s ∈ a.saddles, ∀ t ∈ a.saddles, s.e = t.e → s.eq t = true) → a.eq { a with saddles := l } = true := by
  refine ⟨.ofKey _ domObjEq_key, fun a b h => ?_, fun a l h => ?_, fun a l h ht => ?_⟩
  · rw [domObjEq_key, Prod.mk.injEq, ← spotEq_key] at h
    exact (C37_hash hash3 (fun _ => 0) a.summit b.summit).1 h.1
  · rw [domObjEq_key]
    have := (perimEq_iff a.points l).1 ((C37_order_perimeter a.points l).2 h.symm)
    simp only [this]
  · rw [domObjEq_key]
    have := (spotsEq_iff a.saddles l).1 (C37_order_spots_partial h ht)
    simp only [this]

/-- C37 fails for SummitDomains: two saddles of one elevation in the other order make domains unequal. -/
theorem C37_domain_order_refuted (s : Spot) (p q : Spot) (pts : List P3) (he : p.e = q.e) (hn : p.eq q = false) :
    DomObj.eq ⟨s, [p, q], pts⟩ ⟨s, [q, p], pts⟩ = false := by
  rw [← Bool.not_eq_true, domObjEq_key]
  have e : ∀ p q : Spot, p.e = q.e → pySorted Spot.lt [p, q] = [p, q] := by
    intro p q he
    simp [pySorted, pyInsert, Spot.lt, he]
  dsimp only
  rw [e p q he, e q p he.symm]
  intro h
  simp only [List.map_cons, List.map_nil, Prod.mk.injEq, List.cons.injEq] at h
  rw [(spotEq_key p q).2 h.2.1.1] at hn
  cases hn

example : DomObj.eq ⟨⟨1, 2, 9, 1⟩, [⟨1, 1, 5, 2⟩, ⟨1, 2, 5, 3⟩], []⟩ ⟨⟨1, 2, 9, 1⟩, [⟨1, 2, 5, 3⟩, ⟨1, 1, 5, 2⟩], []⟩ = false := by
  decide +kernel

/-! ### Addition to C50 -/

/-- C50: the two conversions of arcseconds undo each other. -/
theorem C50_arcseconds (r : Rat) : arcToSeconds (secondsToArc r) = r ∧ secondsToArc (arcToSeconds r) = r := by
  constructor <;> unfold arcToSeconds secondsToArc <;> ring

end PyProm
