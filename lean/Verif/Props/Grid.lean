import Verif.Proof.Blob
import Verif.Proof.Neighbors
import Verif.Model.Coords
import Mathlib.Tactic.Linarith
import Mathlib.Tactic.FieldSimp
import Mathlib.Tactic.Ring
import Mathlib.Data.Rat.Floor

/-
Property theorems about raster access: C01, C02, C57, C58.
-/
namespace PyProm
open Spec

/-! ### C01 -/

/-- `iterateFull` yields the eight touching coordinates clockwise from `(x-1, y)`. -/
theorem C01_order (d : DataMap) (x y : Int) :
    (d.iterateFull x y).map (fun n => (n.1, n.2.1)) =
      [(x - 1, y), (x - 1, y + 1), (x, y + 1), (x + 1, y + 1), (x + 1, y), (x + 1, y - 1),
        (x, y - 1), (x - 1, y - 1)] := by
  have h : ∀ n : Int, n + -1 = n - 1 := fun n => by omega
  unfold DataMap.iterateFull DataMap.iterate fullShift
  simp only [List.map_cons, List.map_nil, List.cons.injEq, h, Int.add_zero, and_true]
  refine ⟨?_, ?_, ?_, ?_, ?_, ?_, ?_, ?_⟩ <;> (split <;> rfl)

/-- The coordinates are exactly the touching ones, each once. -/
theorem C01_exact (d : DataMap) (x y : Int) :
    ((d.iterateFull x y).map (fun n => (n.1, n.2.1))).Nodup ∧
    ∀ q, q ∈ (d.iterateFull x y).map (fun n => (n.1, n.2.1)) ↔ Adj (x, y) q := by
  rw [C01_order]
  constructor
  · simp only [List.nodup_cons, List.mem_cons, Prod.mk.injEq, List.not_mem_nil, or_false]
    refine ⟨?_, ?_, ?_, ?_, ?_, ?_, ?_, not_false, List.nodup_nil⟩ <;> omega
  · rintro ⟨a, b⟩
    simp only [List.mem_cons, Prod.mk.injEq, List.not_mem_nil, or_false, Adj, ne_eq]
    omega

/-- Inside the raster the stored elevation is yielded, outside the nodata marker (never a
wrapped value). -/
theorem C01_values (d : DataMap) (x y x' y' : Int) (oe : Option Rat)
    (h : (x', y', oe) ∈ d.iterateFull x y) :
    (InB d (x', y') → oe = some (d.cell x' y')) ∧ (¬ InB d (x', y') → oe = d.nodata) := by
  rcases ((mem_iterateFull _ _ _ _ _ _).1 h).2 with ⟨h1, h2⟩ | ⟨h1, h2⟩
  · exact ⟨fun _ => h2, fun c => absurd h1 c⟩
  · exact ⟨fun c => absurd c h1, fun _ => h2⟩

/-- Orthogonal and diagonal iteration split the full one, with the same values. -/
theorem C01_split (d : DataMap) (x y : Int) :
    (∀ n, n ∈ d.iterateFull x y ↔ n ∈ d.iterateOrthogonal x y ∨ n ∈ d.iterateDiagonal x y) ∧
    (d.iterateOrthogonal x y).map (fun n => (n.1, n.2.1)) =
      [(x - 1, y), (x, y + 1), (x + 1, y), (x, y - 1)] ∧
    (d.iterateDiagonal x y).map (fun n => (n.1, n.2.1)) =
      [(x - 1, y + 1), (x + 1, y + 1), (x + 1, y - 1), (x - 1, y - 1)] := by
  have h : ∀ n : Int, n + -1 = n - 1 := fun n => by omega
  refine ⟨?_, ?_, ?_⟩
  · intro n
    simp only [DataMap.iterateFull, DataMap.iterateOrthogonal, DataMap.iterateDiagonal,
      DataMap.iterate, fullShift, orthogonalShift, diagonalShift, List.map_cons, List.map_nil,
      List.mem_cons, List.not_mem_nil, or_false]
    tauto
  · simp only [DataMap.iterateOrthogonal, DataMap.iterate, orthogonalShift, List.map_cons,
      List.map_nil, List.cons.injEq, h, Int.add_zero, and_true]
    refine ⟨?_, ?_, ?_, ?_⟩ <;> (split <;> rfl)
  · simp only [DataMap.iterateDiagonal, DataMap.iterate, diagonalShift, List.map_cons,
      List.map_nil, List.cons.injEq, h, and_true]
    refine ⟨?_, ?_, ?_, ?_⟩ <;> (split <;> rfl)

/-- Instance: the corner of a 2x2 raster. -/
example : (DataMap.ofRows [[1, 2], [3, 4]] (some (-9))).iterateFull 0 0 =
    [(-1, 0, some (-9)), (-1, 1, some (-9)), (0, 1, some 2), (1, 1, some 4), (1, 0, some 3),
      (1, -1, some (-9)), (0, -1, some (-9)), (-1, -1, some (-9))] := by decide +kernel

/-! ### C02 -/

theorem pyRound_near (n : Int) (r : Rat) (h1 : (n : Rat) - 1 / 2 < r) (h2 : r < n + 1 / 2) :
    pyRound r = n := by
  unfold pyRound
  have hf : (r.floor : Rat) ≤ r := Rat.floor_le r
  have hg : r < r.floor + 1 := by
    have := Rat.lt_floor_add_one r
    push_cast at this
    exact this
  have c1 : r.floor = n ∨ r.floor = n - 1 := by
    have a : (r.floor : Rat) < n + 1 := by linarith
    have b : (n : Rat) - 2 < r.floor := by linarith
    have a' : r.floor < n + 1 := by exact_mod_cast a
    have b' : n - 2 < r.floor := by exact_mod_cast b
    omega
  dsimp only
  rcases c1 with h | h
  · rw [h] at hf hg ⊢
    rw [if_pos (by linarith)]
  · rw [h] at hf hg ⊢
    push_cast at hf hg ⊢
    rw [if_neg (by linarith), if_pos (by linarith)]
    omega

/-- Grid → geographic → grid is the identity for an axis aligned geotransform, also when the
geographic coordinates are off by less than half a pixel. -/
theorem C02_roundtrip (d : DataMap) (h1 : d.gt1 ≠ 0) (h5 : d.gt5 ≠ 0) (h2 : d.gt2 = 0)
    (h4 : d.gt4 = 0) (he : ∀ r, d.fl r = r) (x y : Int) (δlat δlon : Rat)
    (hlat : |δlat| < |d.gt5| / 2) (hlon : |δlon| < |d.gt1| / 2) :
    d.latLongToXY ((d.xyToLatLon x y).1 + δlat) ((d.xyToLatLon x y).2 + δlon) = some (x, y) := by
  unfold DataMap.latLongToXY DataMap.xyToLatLon
  rw [if_neg (by tauto)]
  simp only [he]
  rw [h2, h4]
  have key : ∀ (g δ : Rat) (n : Int), g ≠ 0 → |δ| < |g| / 2 →
      (n : Rat) - 1 / 2 < n + δ / g ∧ (n : Rat) + δ / g < n + 1 / 2 := by
    intro g δ n hg hd
    have : |δ / g| < 1 / 2 := by
      rw [abs_div, div_lt_iff₀ (abs_pos.2 hg)]
      linarith
    rw [abs_lt] at this
    constructor <;> linarith
  have e1 : (d.gt0 + (y : Rat) * d.gt1 + (x : Rat) * 0 + δlon - d.gt0) / d.gt1 = y + δlon / d.gt1 := by
    field_simp
    ring
  have e2 : (d.gt3 + (y : Rat) * 0 + (x : Rat) * d.gt5 + δlat - d.gt3) / d.gt5 = x + δlat / d.gt5 := by
    field_simp
    ring
  rw [e1, e2]
  rw [pyRound_near y _ (key _ _ _ h1 hlon).1 (key _ _ _ h1 hlon).2,
    pyRound_near x _ (key _ _ _ h5 hlat).1 (key _ _ _ h5 hlat).2]

theorem pyRound_spec (r : Rat) : |r - pyRound r| ≤ 1 / 2 ∧ (|r - pyRound r| = 1 / 2 → pyRound r % 2 = 0) := by
  have hf : (r.floor : Rat) ≤ r := Rat.floor_le r
  have hg : r < r.floor + 1 := by
    have := Rat.lt_floor_add_one r
    push_cast at this
    exact this
  unfold pyRound
  dsimp only
  split
  · rw [abs_of_nonneg (by linarith)]
    exact ⟨by linarith, fun h => by linarith⟩
  · split
    · push_cast
      rw [abs_of_nonpos (by linarith)]
      exact ⟨by linarith, fun h => by linarith⟩
    · split
      · rename_i h
        rw [abs_of_nonneg (by linarith)]
        exact ⟨by linarith, fun _ => h⟩
      · push_cast
        rw [abs_of_nonpos (by linarith)]
        exact ⟨by linarith, fun _ => by omega⟩

/-- Any geographic position goes to a cell at most half a pixel away on each axis; exactly half way
the even index wins. -/
theorem C02_nearest (d : DataMap) (h1 : d.gt1 ≠ 0) (h5 : d.gt5 ≠ 0) (h2 : d.gt2 = 0)
    (h4 : d.gt4 = 0) (he : ∀ r, d.fl r = r) (lat lon : Rat) :
    ∃ x y, d.latLongToXY lat lon = some (x, y) ∧
      |lat - (d.xyToLatLon x y).1| ≤ |d.gt5| / 2 ∧ |lon - (d.xyToLatLon x y).2| ≤ |d.gt1| / 2 ∧
      (|lat - (d.xyToLatLon x y).1| = |d.gt5| / 2 → x % 2 = 0) ∧
      (|lon - (d.xyToLatLon x y).2| = |d.gt1| / 2 → y % 2 = 0) := by
  have key : ∀ (g a b : Rat), g ≠ 0 →
      |a - (b + (pyRound ((a - b) / g) : Rat) * g)| ≤ |g| / 2 ∧
      (|a - (b + (pyRound ((a - b) / g) : Rat) * g)| = |g| / 2 → pyRound ((a - b) / g) % 2 = 0) := by
    intro g a b hg
    have hp := abs_pos.2 hg
    have e : a - (b + (pyRound ((a - b) / g) : Rat) * g) =
        ((a - b) / g - pyRound ((a - b) / g)) * g := by
      field_simp
      ring
    obtain ⟨r1, r2⟩ := pyRound_spec ((a - b) / g)
    rw [e, abs_mul]
    constructor
    · calc _ ≤ 1 / 2 * |g| := mul_le_mul_of_nonneg_right r1 (le_of_lt hp)
        _ = |g| / 2 := by ring
    · intro h
      apply r2
      have h' : |(a - b) / g - pyRound ((a - b) / g)| * |g| = 1 / 2 * |g| := by rw [h]; ring
      exact mul_right_cancel₀ (ne_of_gt hp) h'
  refine ⟨pyRound ((lat - d.gt3) / d.gt5), pyRound ((lon - d.gt0) / d.gt1), ?_, ?_⟩
  · unfold DataMap.latLongToXY
    rw [if_neg (by tauto)]
    simp only [he]
  · unfold DataMap.xyToLatLon
    simp only [he]
    rw [h2, h4]
    simp only [mul_zero, add_zero]
    exact ⟨(key _ lat _ h5).1, (key _ lon _ h1).1, (key _ lat _ h5).2, (key _ lon _ h1).2⟩

/-- Consequence: looking up the elevation at the coordinates of a cell returns its value. -/
theorem C02_elevation (d : DataMap) (h1 : d.gt1 ≠ 0) (h5 : d.gt5 ≠ 0) (h2 : d.gt2 = 0)
    (h4 : d.gt4 = 0) (he : ∀ r, d.fl r = r) (x y : Int) (hb : InB d (x, y)) :
    d.elevation (d.xyToLatLon x y).1 (d.xyToLatLon x y).2 = some (d.cell x y) := by
  have := C02_roundtrip d h1 h5 h2 h4 he x y 0 0 (by simpa using h5) (by simpa using h1)
  rw [add_zero, add_zero] at this
  unfold DataMap.elevation
  rw [this]
  obtain ⟨a, b, c, e⟩ := hb
  dsimp only at a b c e
  simp only [Option.bind_some, DataMap.get, npIndex]
  rw [if_pos ⟨a, b⟩, if_pos ⟨c, e⟩]

/-- The rotation terms are ignored on the way back: with a rotated geotransform the round trip
fails. -/
theorem C02_rotated_refuted : ∃ d : DataMap, d.gt1 ≠ 0 ∧ d.gt5 ≠ 0 ∧
    d.latLongToXY (d.xyToLatLon 1 0).1 (d.xyToLatLon 1 0).2 ≠ some (1, 0) :=
  ⟨{ DataMap.ofRows [[1, 2], [3, 4]] with gt2 := 1 }, by decide +kernel⟩

/-- Instance: a 1/3600 degree grid. -/
example : ∃ d : DataMap, d.gt1 ≠ 0 ∧ d.gt5 ≠ 0 ∧ d.gt2 = 0 ∧ d.gt4 = 0 ∧ d.gt1 = 1 / 3600 ∧
    d.latLongToXY ((d.xyToLatLon 7 5).1 + 1 / 10000) ((d.xyToLatLon 7 5).2 - 1 / 10000) =
      some (7, 5) :=
  ⟨{ DataMap.ofRows [[1, 2], [3, 4]] with gt0 := -72, gt1 := 1 / 3600, gt3 := 45, gt5 := -1 / 3600 },
    by decide +kernel⟩

/-! ### C57: subsets -/

/-- A subset shows the same terrain at the same geographic position. -/
theorem C57_subset (d : DataMap) (he : ∀ r, d.fl r = r) (x y : Int) (xs ys : Nat) (i j : Int) :
    (d.subset x y xs ys).cell i j = d.cell (x + i) (y + j) ∧
    (d.subset x y xs ys).xyToLatLon i j = d.xyToLatLon (x + i) (y + j) ∧
    (d.subset x y xs ys).nodata = d.nodata := by
  refine ⟨rfl, ?_, rfl⟩
  simp only [DataMap.subset, gdalTranslateWin, DataMap.xyToLatLon, he, Prod.mk.injEq]
  push_cast
  constructor <;> ring

/-- A subset has the requested number of rows and columns, and a window inside the raster only
shows raster cells. -/
theorem C57_window (d : DataMap) (x y : Int) (xs ys : Nat) (hx : 0 < xs) (hy : 0 < ys)
    (h0 : 0 ≤ x) (h1 : 0 ≤ y) (h2 : x + xs ≤ d.maxX + 1) (h3 : y + ys ≤ d.maxY + 1) :
    (d.subset x y xs ys).maxX + 1 = xs ∧ (d.subset x y xs ys).maxY + 1 = ys ∧
    ∀ p, InB (d.subset x y xs ys) p → InB d (x + p.1, y + p.2) := by
  simp only [DataMap.subset, gdalTranslateWin, InB]
  refine ⟨by omega, by omega, fun p hp => ?_⟩
  omega

example : ((DataMap.ofRows [[1, 2, 3], [4, 5, 6]]).subset 0 1 2 2).cell 1 1 = 6 := by decide +kernel

/-! ### C58: cell polygons tile the plane -/

/-- The polygon of a cell has its four corners half way to the diagonal neighbours. -/
theorem C58_corners (d : DataMap) (he : ∀ r, d.fl r = r) (x y : Int) :
    d.pointGeom x y =
      [(d.gt0 + (y + 1 / 2) * d.gt1 + (x - 1 / 2) * d.gt2,
        d.gt3 + (y + 1 / 2) * d.gt4 + (x - 1 / 2) * d.gt5),
       (d.gt0 + (y + 1 / 2) * d.gt1 + (x + 1 / 2) * d.gt2,
        d.gt3 + (y + 1 / 2) * d.gt4 + (x + 1 / 2) * d.gt5),
       (d.gt0 + (y - 1 / 2) * d.gt1 + (x + 1 / 2) * d.gt2,
        d.gt3 + (y - 1 / 2) * d.gt4 + (x + 1 / 2) * d.gt5),
       (d.gt0 + (y - 1 / 2) * d.gt1 + (x - 1 / 2) * d.gt2,
        d.gt3 + (y - 1 / 2) * d.gt4 + (x - 1 / 2) * d.gt5)] := by
  have hm : (d.iterateDiagonal x y).map (fun n => (n.1, n.2.1)) = _ := (C01_split d x y).2.2
  have : d.pointGeom x y = ((d.iterateDiagonal x y).map (fun n => (n.1, n.2.1))).map fun q =>
      (((d.xyToLatLon x y).2 + (d.xyToLatLon q.1 q.2).2) / 2,
        ((d.xyToLatLon x y).1 + (d.xyToLatLon q.1 q.2).1) / 2) := by
    rw [List.map_map]
    unfold DataMap.pointGeom
    simp only [he]
    rfl
  rw [this, hm]
  simp only [List.map_cons, List.map_nil, DataMap.xyToLatLon, he, List.cons.injEq, Prod.mk.injEq, and_true]
  push_cast
  refine ⟨⟨?_, ?_⟩, ⟨?_, ?_⟩, ⟨?_, ?_⟩, ⟨?_, ?_⟩⟩ <;> ring

/-- Horizontally and vertically neighbouring cells share an edge: the second edge of one is the
reverse of the fourth edge of the other. -/
theorem C58_tiling (d : DataMap) (he : ∀ r, d.fl r = r) (x y : Int) (a b c e a' b' c' e' a'' b'' c'' e'' : Rat × Rat)
    (h : d.pointGeom x y = [a, b, c, e]) (h' : d.pointGeom x (y + 1) = [a', b', c', e'])
    (h'' : d.pointGeom (x + 1) y = [a'', b'', c'', e'']) :
    (a = e' ∧ b = c') ∧ (b = a'' ∧ c = e'') := by
  rw [C58_corners d he] at h h' h''
  simp only [List.cons.injEq, and_true] at h h' h''
  obtain ⟨rfl, rfl, rfl, rfl⟩ := h
  obtain ⟨rfl, rfl, rfl, rfl⟩ := h'
  obtain ⟨rfl, rfl, rfl, rfl⟩ := h''
  simp only [Prod.mk.injEq]
  push_cast
  refine ⟨⟨⟨?_, ?_⟩, ⟨?_, ?_⟩⟩, ⟨⟨?_, ?_⟩, ⟨?_, ?_⟩⟩⟩ <;> ring

/-- With rounding as well, if the raster is not rotated: the common corners are computed from the same
numbers. -/
theorem C58_tiling_rounded (d : DataMap) (h2 : d.gt2 = 0) (h4 : d.gt4 = 0) (x y : Int)
    (a b c e a' b' c' e' a'' b'' c'' e'' : Rat × Rat)
    (h : d.pointGeom x y = [a, b, c, e]) (h' : d.pointGeom x (y + 1) = [a', b', c', e'])
    (h'' : d.pointGeom (x + 1) y = [a'', b'', c'', e'']) :
    (a = e' ∧ b = c') ∧ (b = a'' ∧ c = e'') := by
  have key : ∀ x y : Int, d.pointGeom x y =
      [(x - 1, y + 1), (x + 1, y + 1), (x + 1, y - 1), (x - 1, y - 1)].map fun q : Pt =>
      (d.fl (d.fl ((d.xyToLatLon 0 y).2 + (d.xyToLatLon 0 q.2).2) / 2),
        d.fl (d.fl ((d.xyToLatLon x 0).1 + (d.xyToLatLon q.1 0).1) / 2)) := by
    intro x y
    rw [← (C01_split d x y).2.2, List.map_map]
    simp only [DataMap.pointGeom, DataMap.xyToLatLon, h2, h4, mul_zero]
    rfl
  rw [key] at h h' h''
  simp only [List.map_cons, List.map_nil, List.cons.injEq, and_true, add_sub_cancel_right] at h h' h''
  obtain ⟨rfl, rfl, rfl, rfl⟩ := h
  obtain ⟨rfl, rfl, rfl, rfl⟩ := h'
  obtain ⟨rfl, rfl, rfl, rfl⟩ := h''
  simp only [Prod.mk.injEq, and_true, true_and]
  refine ⟨⟨?_, ?_⟩, ?_, ?_⟩ <;> rw [add_comm]

example : (DataMap.ofRows [[1]]).pointGeom 0 0 =
    [(1/2, 1/2), (1/2, -1/2), (-1/2, -1/2), (-1/2, 1/2)] := by decide +kernel

end PyProm
