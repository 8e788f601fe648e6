import Verif.Proof.Blob
import Verif.Proof.Neighbors

/-
Property theorems about flat areas and neighbourhoods: C03 - C07.
-/
namespace PyProm
open Spec

/-! ### C03, C04, C05 -/

/-- C03: exploring the flat area of a data cell always finishes and returns exactly the flat
area, each point once, with the cell's elevation. -/
theorem C03_blob_points (d : DataMap) (p : Pt) (hd : Data d p) :
    ∃ b, equalHeightBlob d p.1 p.2 (el d p) = some b ∧ b.elevation = el d p ∧
      b.points.Nodup ∧ ∀ q, q ∈ b.points ↔ Flat d p q := by
  obtain ⟨b, h, s⟩ := equalHeightBlob_spec d p hd
  exact ⟨b, h, s.elevation, s.nodup, s.points⟩

/-- C04: the perimeter is the set of strictly higher data cells touching the area, each once and
with its own elevation. -/
theorem C04_perimeter (d : DataMap) (p : Pt) (hd : Data d p) (b : Blob)
    (hb : equalHeightBlob d p.1 p.2 (el d p) = some b) :
    (b.perim.map P3.xy).Nodup ∧
    ∀ q, q ∈ b.perim ↔
      (Data d q.xy ∧ q.e = el d q.xy ∧ el d p < el d q.xy ∧ ∃ m, Flat d p m ∧ Adj m q.xy) := by
  obtain ⟨b', h, s⟩ := equalHeightBlob_spec d p hd
  rw [hb] at h
  simp only [Option.some.injEq] at h
  subst h
  refine ⟨s.perimNodup, fun q => ?_⟩
  rw [s.perim, HighRim, Rim]
  constructor
  · rintro ⟨⟨⟨a, _, c⟩, e⟩, f⟩
    exact ⟨a, f, e, c⟩
  · rintro ⟨a, f, e, c⟩
    exact ⟨⟨⟨a, fun h => by rw [h] at e; exact absurd e Rat.lt_irrefl, c⟩, e⟩, f⟩

/-- C05: edge flag, border points of the area and border points around the area. -/
theorem C05_edges (d : DataMap) (p : Pt) (hd : Data d p) (b : Blob)
    (hb : equalHeightBlob d p.1 p.2 (el d p) = some b) :
    (b.mapEdge = true ↔ ∃ q, Flat d p q ∧ Border d q) ∧
    b.edgePoints.Nodup ∧
    (∀ q, q ∈ b.edgePoints ↔ Flat d p q.xy ∧ Border d q.xy ∧ q.e = el d q.xy) ∧
    b.mapEdgePoints.Nodup ∧
    (∀ q, q ∈ b.mapEdgePoints ↔
      (Data d q.xy ∧ el d q.xy ≠ el d p ∧ Border d q.xy ∧ q.e = el d q.xy ∧
        ∃ m, Flat d p m ∧ Adj m q.xy)) := by
  obtain ⟨b', h, s⟩ := equalHeightBlob_spec d p hd
  rw [hb] at h
  simp only [Option.some.injEq] at h
  subst h
  refine ⟨s.mapEdge, s.edgeNodup, s.edgePoints, s.mapEdgeNodup, fun q => ?_⟩
  rw [s.mapEdgePoints, Rim]
  tauto

/-- Instance: an L-shaped plateau of height 5 in a raster with a nodata cell. -/
def exFlat : DataMap :=
  DataMap.ofRows [[1, 5, 9], [5, 5, -1], [2, 3, 4]] (some (-1))

example : Data exFlat (1, 0) := by
  refine ⟨?_, ?_⟩
  · simp [InB, exFlat, DataMap.ofRows]
  · decide +kernel

example : equalHeightBlob exFlat 1 0 5 = some
    { points := [(1, 0), (0, 1), (1, 1)], elevation := 5, perim := [⟨0, 2, 9⟩], mapEdge := true,
      mapEdgePoints := [⟨0, 0, 1⟩, ⟨2, 1, 3⟩, ⟨2, 0, 2⟩, ⟨0, 2, 9⟩, ⟨2, 2, 4⟩],
      edgePoints := [⟨1, 0, 5⟩, ⟨0, 1, 5⟩] } := by decide +kernel

/-! ### C06 -/

/-- C06: for every pop order of the Python set, the neighbourhoods partition the points into
their 8-connected components. -/
theorem C06_components (pop : List P3 → Nat) (points : List P3)
    (hu : ∀ p ∈ points, ∀ q ∈ points, p.xy = q.xy → p = q)
    (hnn : ∀ p ∈ points, 0 ≤ p.x ∧ 0 ≤ p.y) :
    ∃ L, contiguousNeighbors pop points = .ok L ∧ L.flatten.Nodup ∧
      (∀ p, p ∈ L.flatten ↔ p ∈ points) ∧ (∀ c ∈ L, c ≠ []) ∧
      (∀ a ∈ points, ∀ b ∈ points, (∃ c ∈ L, a ∈ c ∧ b ∈ c) ↔ Conn points a b) := by
  obtain ⟨L, h, c⟩ := contiguousNeighbors_spec pop points hu hnn
  exact ⟨L, h, c.nodup, c.mem, c.nonempty, c.sameIff⟩

/-- Instance: two components, two different pop orders. -/
example : contiguousNeighbors (fun _ => 0) [⟨0, 0, 1⟩, ⟨1, 1, 2⟩, ⟨5, 5, 3⟩] =
    .ok [[⟨0, 0, 1⟩, ⟨1, 1, 2⟩], [⟨5, 5, 3⟩]] := by decide +kernel
example : contiguousNeighbors (fun l => l.length - 1) [⟨0, 0, 1⟩, ⟨1, 1, 2⟩, ⟨5, 5, 3⟩] =
    .ok [[⟨5, 5, 3⟩], [⟨1, 1, 2⟩, ⟨0, 0, 1⟩]] := by decide +kernel

/-! ### C07 -/

/-- C07: the report has one entry per neighbourhood that touches a later one, listing each later
touching neighbourhood exactly once. -/
theorem C07_touching (d : DataMap) (ls : List (List P3)) (hd : DisjointLists ls) :
    ((touchingNeighborhoods d ls).map Prod.fst).Nodup ∧
    (∀ kv ∈ touchingNeighborhoods d ls, kv.2.Nodup ∧ kv.2 ≠ []) ∧
    (∀ us them, (∃ ts, (us, ts) ∈ touchingNeighborhoods d ls ∧ them ∈ ts) ↔
      us < them ∧ Touch ls us them) := by
  have t := touchingNeighborhoods_spec d ls hd
  refine ⟨t.keys, t.vals, fun us them => ?_⟩
  constructor
  · intro h
    have := t.sound us them h
    exact ⟨this.1, this.2.2⟩
  · rintro ⟨h1, h2⟩
    refine t.complete us them ?_ h1 h2
    obtain ⟨p, hp, _⟩ := h2
    by_contra hc
    rw [List.getD_eq_getElem?_getD, List.getElem?_eq_none (by omega)] at hp
    simp at hp

example : touchingNeighborhoods (DataMap.ofRows [[1, 2, 3], [4, 5, 6], [7, 8, 9]])
    [[⟨0, 0, 1⟩], [⟨0, 1, 2⟩, ⟨0, 2, 3⟩], [⟨1, 0, 4⟩], [⟨2, 2, 9⟩]] =
    [(0, [1, 2]), (1, [2])] := by decide +kernel

end PyProm
