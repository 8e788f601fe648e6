import Verif.Model.Measure
import Verif.Model.Equality
import Verif.Props.SaddleNet
import Verif.Props.Containers
import Mathlib.Tactic.Ring
import Mathlib.Tactic.Linarith
import Mathlib.Algebra.Order.Ring.Rat

/-
C89: distances on the map. C90: positions in containers.
-/
namespace PyProm
open Spec

/-! ### C89 -/

/-- Spec: square of the distance of two places, in degrees. -/
def Spec.degreesSq (a b : Rat × Rat) : Rat := (a.1 - b.1) ^ 2 + (a.2 - b.2) ^ 2

/-- Spec: raster with north up, as loaded from common files, coordinates not rounded. -/
def Spec.NorthUp (d : DataMap) : Prop := d.gt2 = 0 ∧ d.gt4 = 0 ∧ ∀ r, d.fl r = r

/-- The distance of two cells by their coordinates. -/
theorem northUp_degreesSq {d : DataMap} (hn : NorthUp d) (p q : Pt) :
    degreesSq (d.xyToLatLon p.1 p.2) (d.xyToLatLon q.1 q.2) =
      (((p.1 - q.1 : Int) : Rat) * d.gt5) ^ 2 + (((p.2 - q.2 : Int) : Rat) * d.gt1) ^ 2 := by
  obtain ⟨h2, h4, he⟩ := hn
  simp only [degreesSq, DataMap.xyToLatLon, h2, h4, he]
  push_cast
  ring

/-- C89 (where it holds): on a raster with north up and square cells the distance of two cells is that of their
coordinates. Missing: other rasters, see below. -/
theorem C89_square_partial (d : DataMap) (hn : NorthUp d) (hs : d.gt1 ^ 2 = d.gt5 ^ 2) (p q : Pt) :
    d.distanceSq p q = degreesSq (d.xyToLatLon p.1 p.2) (d.xyToLatLon q.1 q.2) := by
  rw [northUp_degreesSq hn]
  simp only [DataMap.distanceSq, mul_pow, hs]

/-- C89 fails on every raster with north up whose cells are not square: rows are measured with the width of a cell
and columns with its height. Two cells have the right distance exactly if they are as many rows as columns apart,
and of the two direct neighbours of a cell, across and down, always the wrong one is reported to be nearer. -/
theorem C89_oblong_refuted (d : DataMap) (hn : NorthUp d) (hs : d.gt1 ^ 2 ≠ d.gt5 ^ 2) :
    (∀ p q : Pt, d.distanceSq p q = degreesSq (d.xyToLatLon p.1 p.2) (d.xyToLatLon q.1 q.2) ↔
      (p.1 - q.1) ^ 2 = (p.2 - q.2) ^ 2) ∧
    ∀ p : Pt, d.distanceSq p (p.1 + 1, p.2) < d.distanceSq p (p.1, p.2 + 1) ↔
      degreesSq (d.xyToLatLon p.1 p.2) (d.xyToLatLon p.1 (p.2 + 1)) <
        degreesSq (d.xyToLatLon p.1 p.2) (d.xyToLatLon (p.1 + 1) p.2) := by
  constructor
  · intro p q
    rw [northUp_degreesSq hn]
    have key : d.distanceSq p q - ((((p.1 - q.1 : Int) : Rat) * d.gt5) ^ 2 + (((p.2 - q.2 : Int) : Rat) * d.gt1) ^ 2) =
        ((((p.1 - q.1) ^ 2 - (p.2 - q.2) ^ 2 : Int)) : Rat) * (d.gt1 ^ 2 - d.gt5 ^ 2) := by
      simp only [DataMap.distanceSq]
      push_cast
      ring
    rw [← sub_eq_zero, key, mul_eq_zero, sub_eq_zero, ← sub_eq_zero (a := (p.1 - q.1) ^ 2)]
    constructor
    · rintro (h | h)
      · exact_mod_cast h
      · exact absurd h hs
    · intro h
      left
      exact_mod_cast h
  · intro p
    have e1 := northUp_degreesSq hn p (p.1, p.2 + 1)
    have e2 := northUp_degreesSq hn p (p.1 + 1, p.2)
    dsimp only at e1 e2
    rw [e1, e2]
    simp only [DataMap.distanceSq]
    push_cast
    constructor <;> intro h <;> nlinarith [h]

/-- C89, what follows for the search of closest points on every such raster: of the cells below and beside the first
cell it takes the farther one by coordinates. `dist` is any way to measure that grows with `distanceSq`. -/
theorem C89_closest_refuted (d : DataMap) (hn : NorthUp d) (hs : d.gt1 ^ 2 ≠ d.gt5 ^ 2) (e : Rat) (query : KdQuery)
    (dist : P3 → P3 → Rat) (hmono : ∀ p q p' q', dist p q < dist p' q' ↔ d.distanceSq p.xy q.xy < d.distanceSq p'.xy q'.xy)
    (hmax : ∀ q ∈ [(⟨1, 0, e⟩ : P3), ⟨0, 1, e⟩], dist ⟨0, 0, e⟩ q < maxsize) :
    ∃ t v, findClosestPoints query dist [⟨0, 0, e⟩] [⟨1, 0, e⟩, ⟨0, 1, e⟩] = .ok (some (⟨0, 0, e⟩, t), v) ∧
      ∃ t' ∈ [(⟨1, 0, e⟩ : P3), ⟨0, 1, e⟩],
        degreesSq (d.xyToLatLon 0 0) (d.xyToLatLon t'.x t'.y) < degreesSq (d.xyToLatLon 0 0) (d.xyToLatLon t.x t.y) := by
  have e1 := northUp_degreesSq hn (0, 0) (0, 1)
  have e2 := northUp_degreesSq hn (0, 0) (1, 0)
  dsimp only at e1 e2
  have hlt : dist ⟨0, 0, e⟩ ⟨0, 1, e⟩ < dist ⟨0, 0, e⟩ ⟨1, 0, e⟩ ↔ d.gt5 ^ 2 < d.gt1 ^ 2 := by
    rw [hmono]
    simp only [DataMap.distanceSq, P3.xy]
    norm_num
  have hm1 := hmax ⟨1, 0, e⟩ (by simp)
  unfold findClosestPoints
  rw [if_pos (by simp)]
  simp only [closestPairBrute, List.foldl_cons, List.foldl_nil, minStep, hm1, if_true]
  by_cases h : d.gt5 ^ 2 < d.gt1 ^ 2
  · rw [if_pos (hlt.2 h)]
    refine ⟨⟨0, 1, e⟩, _, rfl, ⟨1, 0, e⟩, by simp, ?_⟩
    dsimp only
    rw [e1, e2]
    norm_num
    exact h
  · rw [if_neg (fun hc => h (hlt.1 hc))]
    refine ⟨⟨1, 0, e⟩, _, rfl, ⟨0, 1, e⟩, by simp, ?_⟩
    dsimp only
    rw [e1, e2]
    norm_num
    exact lt_of_le_of_ne (not_lt.1 h) hs

/-- Instances of C89: a raster of square cells, and one whose cells are twice as high as wide. -/
example : NorthUp (DataMap.ofRows [[1, 2], [3, 4]]) ∧
    (DataMap.ofRows [[1, 2], [3, 4]]).gt1 ^ 2 = (DataMap.ofRows [[1, 2], [3, 4]]).gt5 ^ 2 :=
  ⟨⟨rfl, rfl, fun _ => rfl⟩, by decide +kernel⟩

/-- See above. -/
def exOblong : DataMap := { DataMap.ofRows [[1, 2], [3, 4]] with gt5 := -2 }

example : NorthUp exOblong ∧ exOblong.gt1 ^ 2 ≠ exOblong.gt5 ^ 2 ∧
    exOblong.distanceSq (0, 0) (1, 0) = 1 ∧ exOblong.distanceSq (0, 0) (0, 1) = 4 ∧
    degreesSq (exOblong.xyToLatLon 0 0) (exOblong.xyToLatLon 1 0) = 4 ∧
    ∀ q ∈ [(⟨1, 0, 7⟩ : P3), ⟨0, 1, 7⟩], exOblong.distanceSq (0, 0) q.xy < maxsize :=
  ⟨⟨rfl, rfl, fun _ => rfl⟩, by decide +kernel⟩

/-- The distance of grid points in points: symmetric, zero exactly on the same cell, one exactly to the four direct
neighbours, and less than two exactly to the cells that touch. -/
theorem C89_grid (p q : Pt) :
    gridDistanceSq p q = gridDistanceSq q p ∧ (gridDistanceSq p q = 0 ↔ p = q) ∧
    (gridDistanceSq p q = 1 ↔ (q.1 - p.1, q.2 - p.2) ∈ orthogonalShift) ∧
    (0 < gridDistanceSq p q ∧ gridDistanceSq p q < 4 ↔ (q.1 - p.1, q.2 - p.2) ∈ fullShift) := by
  obtain ⟨a, b⟩ := p
  obtain ⟨c, e⟩ := q
  have nn : ∀ x : Int, 0 ≤ x ^ 2 := fun x => by positivity
  have small : ∀ x : Int, x ^ 2 < 4 → x = -1 ∨ x = 0 ∨ x = 1 := by
    intro x hx
    have h1 : x < 2 := by nlinarith
    have h2 : -2 < x := by nlinarith
    omega
  simp only [gridDistanceSq, Prod.mk.injEq]
  generalize hu : c - a = u
  generalize hv : e - b = v
  have ha : a - c = -u := by omega
  have hb : b - e = -v := by omega
  rw [ha, hb]
  have hs : (-u) ^ 2 + (-v) ^ 2 = u ^ 2 + v ^ 2 := by ring
  rw [hs]
  refine ⟨rfl, ⟨fun h => ?_, fun h => ?_⟩, ?_, ?_⟩
  · have h1 := nn u; have h2 := nn v
    have hu0 : u ^ 2 = 0 := by omega
    have hv0 : v ^ 2 = 0 := by omega
    rw [pow_eq_zero_iff (by decide)] at hu0 hv0
    omega
  · have : u = 0 ∧ v = 0 := by omega
    rw [this.1, this.2]
    rfl
  · constructor
    · intro h
      have h1 := nn u; have h2 := nn v
      rcases small u (by omega) with rfl | rfl | rfl <;> rcases small v (by omega) with rfl | rfl | rfl <;>
        first | (exfalso; revert h; decide) | decide
    · intro h
      simp only [orthogonalShift, List.mem_cons, Prod.mk.injEq, List.not_mem_nil, or_false] at h
      rcases h with ⟨rfl, rfl⟩ | ⟨rfl, rfl⟩ | ⟨rfl, rfl⟩ | ⟨rfl, rfl⟩ <;> decide
  · constructor
    · rintro ⟨h, h'⟩
      have h1 := nn u; have h2 := nn v
      rcases small u (by omega) with rfl | rfl | rfl <;> rcases small v (by omega) with rfl | rfl | rfl <;>
        first | (exfalso; revert h; decide) | decide
    · intro h
      simp only [fullShift, List.mem_cons, Prod.mk.injEq, List.not_mem_nil, or_false] at h
      rcases h with ⟨rfl, rfl⟩ | ⟨rfl, rfl⟩ | ⟨rfl, rfl⟩ | ⟨rfl, rfl⟩ | ⟨rfl, rfl⟩ | ⟨rfl, rfl⟩ | ⟨rfl, rfl⟩ | ⟨rfl, rfl⟩ <;>
        decide

/-! ### C90 -/

/-- Position of the first member with a property. -/
theorem findIdx_first {α : Type} (P : α → Bool) (l : List α) :
    (∀ i, l.findIdx? P = some i ↔ (∃ t, l[i]? = some t ∧ P t = true) ∧ ∀ (j : Nat) t, j < i → l[j]? = some t → P t = false) ∧
    (l.findIdx? P = none ↔ ∀ t ∈ l, P t = false) := by
  refine ⟨fun i => ?_, by simp⟩
  rw [List.findIdx?_eq_some_iff_getElem]
  constructor
  · rintro ⟨h, h1, h2⟩
    refine ⟨⟨_, List.getElem?_eq_getElem h, h1⟩, fun j t hj ht => ?_⟩
    rw [List.getElem?_eq_getElem (by omega)] at ht
    cases ht
    simpa using h2 j hj
  · rintro ⟨⟨t, h1, h2⟩, h3⟩
    obtain ⟨h, e⟩ := List.getElem?_eq_some_iff.1 h1
    refine ⟨h, by rw [e]; exact h2, fun j hj => ?_⟩
    have := h3 j _ hj (List.getElem?_eq_getElem (by omega))
    simpa using this

/-- Spec: the same place to six digits, where exactly zero is only the same as exactly zero, and the same elevation. -/
def Spec.SameSpot (a b : Spot) : Prop :=
  (round6 a.lat = round6 b.lat ∧ (a.lat = 0 ↔ b.lat = 0)) ∧ (round6 a.lon = round6 b.lon ∧ (a.lon = 0 ↔ b.lon = 0)) ∧ a.e = b.e

theorem Spec.SameSpot.refl (a : Spot) : SameSpot a a := ⟨⟨rfl, Iff.rfl⟩, ⟨rfl, Iff.rfl⟩, rfl⟩

theorem spotEq_same (a b : Spot) : a.eq b = true ↔ SameSpot a b := by
  rw [Spot.eq, seEq_iff, Prod.mk.injEq, Prod.mk.injEq, eqCoord_iff, eqCoord_iff]
  exact Iff.rfl

/-- C90: `index` of a container of spot elevations gives the first position whose member has the place and the
elevation of the argument, and nothing exactly if there is none; so every member is found, at its own position unless
an earlier member has the same place and elevation. -/
theorem C90_spots (c : SContainer) (s : Spot) :
    (∀ i, c.index s = some i ↔ (∃ t, c.points[i]? = some t ∧ SameSpot t s) ∧
      ∀ (j : Nat) t, j < i → c.points[j]? = some t → ¬ SameSpot t s) ∧
    (c.index s = none ↔ ∀ t ∈ c.points, ¬ SameSpot t s) ∧
    ∀ i, c.points[i]? = some s → ∃ k ≤ i, c.index s = some k ∧
      (k = i ↔ ∀ (j : Nat) t, j < i → c.points[j]? = some t → ¬ SameSpot t s) := by
  obtain ⟨h1, h2⟩ := findIdx_first (fun x => x.eq s) c.points
  have hf : ∀ t : Spot, t.eq s = false ↔ ¬ SameSpot t s := fun t => by rw [← spotEq_same, Bool.not_eq_true]
  have hi : ∀ i, c.index s = some i ↔ (∃ t, c.points[i]? = some t ∧ SameSpot t s) ∧
      ∀ (j : Nat) t, j < i → c.points[j]? = some t → ¬ SameSpot t s := by
    intro i
    have := h1 i
    simp only [spotEq_same, hf] at this
    exact this
  have hn : c.index s = none ↔ ∀ t ∈ c.points, ¬ SameSpot t s := by
    simp only [hf] at h2
    exact h2
  refine ⟨hi, hn, fun i h => ?_⟩
  cases hk : c.index s with
  | none => exact absurd (SameSpot.refl s) (hn.1 hk s (List.mem_of_getElem? h))
  | some k =>
    obtain ⟨⟨t, ht, hs⟩, hlt⟩ := (hi k).1 hk
    have hle : k ≤ i := by
      by_contra hc
      exact hlt i s (by omega) h (SameSpot.refl s)
    refine ⟨k, hle, rfl, ?_, fun hno => ?_⟩
    · rintro rfl
      exact hlt
    · by_contra hne
      exact hno k t (by omega) ht hs

/-- C90 for grid points: `index` gives the first position of the same cell (and elevation, for points that have one),
and nothing exactly if there is none. -/
theorem C90_grid (l : List Pt) (p : Pt) (l' : List P3) (p' : P3) :
    (∀ i, indexOf bgEq l p = some i ↔ l[i]? = some p ∧ ∀ j < i, l[j]? ≠ some p) ∧ (indexOf bgEq l p = none ↔ p ∉ l) ∧
    (∀ i, indexOf gpEq l' p' = some i ↔ l'[i]? = some p' ∧ ∀ j < i, l'[j]? ≠ some p') ∧
      (indexOf gpEq l' p' = none ↔ p' ∉ l') := by
  have gen : ∀ {α : Type} (eq : α → α → Bool) (_ : ∀ a b, eq a b = true ↔ a = b) (l : List α) (p : α),
      (∀ i, indexOf eq l p = some i ↔ l[i]? = some p ∧ ∀ j < i, l[j]? ≠ some p) ∧ (indexOf eq l p = none ↔ p ∉ l) := by
    intro α eq heq l p
    have hf : ∀ a b, eq a b = false ↔ a ≠ b := fun a b => by rw [← Bool.not_eq_true, heq]
    obtain ⟨h1, h2⟩ := findIdx_first (fun y => eq y p) l
    simp only [heq, hf] at h1 h2
    refine ⟨fun i => ?_, ?_⟩
    · refine (h1 i).trans ⟨fun ⟨⟨t, ht, e⟩, h⟩ => ⟨e ▸ ht, fun j hj hc => h j p hj hc rfl⟩,
        fun ⟨ht, h⟩ => ⟨⟨p, ht, rfl⟩, fun j t hj hc e => h j hj (e ▸ hc)⟩⟩
    · exact h2.trans ⟨fun h hm => h p hm rfl, fun h t ht e => h (e ▸ ht)⟩
  have hb : ∀ a b, bgEq a b = true ↔ a = b := by
    rintro ⟨a, b⟩ ⟨c, e⟩
    simp [bgEq]
  have hg : ∀ a b, gpEq a b = true ↔ a = b := by
    rintro ⟨a, b, e⟩ ⟨a', b', e'⟩
    simp [gpEq, and_assoc]
  exact ⟨(gen bgEq hb l p).1, (gen bgEq hb l p).2, (gen gpEq hg l' p').1, (gen gpEq hg l' p').2⟩

/-- Instances of C90: a second member at the same place is found at the first position. -/
example : (SContainer.mk' [⟨1, 1, 10, 1⟩, ⟨3, 1, 10, 2⟩, ⟨1, 1, 10, 3⟩]).index ⟨1, 1, 10, 3⟩ = some 0 ∧
    (SContainer.mk' [⟨1, 1, 10, 1⟩, ⟨3, 1, 10, 2⟩]).index ⟨3, 1, 10, 2⟩ = some 1 ∧
    indexOf bgEq [(0, 1), (2, 3), (2, 3)] (2, 3) = some 1 := by decide +kernel

end PyProm
