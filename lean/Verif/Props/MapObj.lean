import Verif.Model.MapObj
import Verif.Props.Grid
import Verif.Props.Serial
import Verif.Props.Loader
import Verif.Spec.Assumptions

/-
C101: replacing the heights of a data map. C102: a DomainMap can be made from a loader.
-/
namespace PyProm
open Spec

/-! ### C101 -/

/-- `a` has as many rows and columns as `d`. -/
def Spec.SameShape (a : Arr) (d : DataMap) : Prop := a.rows = d.maxX + 1 ∧ a.cols = d.maxY + 1

/-- C101, the map itself: exactly an array of the shape of the map is accepted; all lookups, by cell or by
coordinates, then give the new heights; coordinates, corners and the nodata value are as before. -/
theorem C101_override_partial (m : MapObj) (a : Arr) :
    ((∃ m', m.override a = some m') ↔ SameShape a m.now) ∧
    ∀ m', m.override a = some m' →
      (∀ p, InB m.now p → m'.now.get p.1 p.2 = some (a.cell p.1 p.2)) ∧
      (∀ p, ¬ InB m'.now p ↔ ¬ InB m.now p) ∧
      (Unrotated m.now → ∀ p, InB m.now p →
        m'.now.elevation (m.now.xyToLatLon p.1 p.2).1 (m.now.xyToLatLon p.1 p.2).2 = some (a.cell p.1 p.2)) ∧
      (∀ x y, m'.now.xyToLatLon x y = m.now.xyToLatLon x y) ∧
      (∀ lat lon, m'.now.latLongToXY lat lon = m.now.latLongToXY lat lon) ∧
      m'.now.lowerRight = m.now.lowerRight ∧ m'.now.nodata = m.now.nodata := by
  constructor
  · unfold MapObj.override SameShape
    constructor
    · rintro ⟨m', h⟩
      by_contra hc
      rw [if_neg hc] at h
      cases h
    · intro h
      exact ⟨_, if_pos h⟩
  · intro m' h
    unfold MapObj.override at h
    split at h
    · cases h
      refine ⟨?_, fun p => Iff.rfl, ?_, fun _ _ => rfl, fun _ _ => rfl, rfl, rfl⟩
      · rintro p ⟨h1, h2, h3, h4⟩
        simp only [DataMap.get, npIndex]
        rw [if_pos ⟨h1, by omega⟩, if_pos ⟨h3, by omega⟩]
      · rintro ⟨g1, g2, g3, g4, g5⟩ p hp
        exact C02_elevation { m.now with cell := a.cell } g1 g2 g3 g4 g5 p.1 p.2 hp
    · cases h

/-- C101 fails for subsets: they are cut out of the file. After any number of replacements a subset shows
the heights of the file, so wherever the heights put in place differ from those of the file inside the window, the
subset does not show the height of the map. -/
theorem C101_subset_refuted (fpr : List (List Rat) → Fingerprint) (src : DataMap) (arrs : List Arr) (m : MapObj)
    (hm : arrs.foldlM MapObj.override (.create fpr src) = some m) (x y : Int) (xs ys : Nat) :
    m.subset fpr x y xs ys = (MapObj.create fpr src).subset fpr x y xs ys ∧
    ∀ i j : Nat, i < xs → j < ys → m.now.cell (x + i) (y + j) ≠ src.cell (x + i) (y + j) →
      (m.subset fpr x y xs ys).now.get i j ≠ some (m.now.cell (x + i) (y + j)) := by
  have hs : ∀ (arrs : List Arr) (m0 m : MapObj), arrs.foldlM MapObj.override m0 = some m → m.source = m0.source := by
    intro arrs
    induction arrs with
    | nil => intro m0 m h; cases h; rfl
    | cons a arrs ih =>
      intro m0 m h
      rw [List.foldlM_cons, Option.bind_eq_bind, Option.bind_eq_some_iff] at h
      obtain ⟨m1, h1, h2⟩ := h
      rw [ih m1 m h2]
      unfold MapObj.override at h1
      split at h1
      · cases h1; rfl
      · cases h1
  have h := hs arrs _ m hm
  constructor
  · unfold MapObj.subset
    rw [h]
  · intro i j hi hj hne hc
    apply hne
    have hsub : (m.subset fpr x y xs ys).now = src.subset x y xs ys := by
      unfold MapObj.subset
      rw [h]
      rfl
    rw [hsub] at hc
    have hx : npIndex (src.subset x y xs ys).maxX ((i : Nat) : Int) = some (i : Int) := by
      unfold npIndex
      rw [if_pos]
      simp only [DataMap.subset, gdalTranslateWin]
      omega
    have hy : npIndex (src.subset x y xs ys).maxY ((j : Nat) : Int) = some (j : Int) := by
      unfold npIndex
      rw [if_pos]
      simp only [DataMap.subset, gdalTranslateWin]
      omega
    unfold DataMap.get at hc
    rw [hx, hy] at hc
    exact (Option.some.inj hc).symm

/-- C101 fails for saved maps: the fingerprint stays that of the file, so a map of the replaced heights is
accepted for the raster of the file, whatever the heights are. -/
theorem C101_fingerprint_refuted (fpr : List (List Rat) → Fingerprint) (src : DataMap) (a : Arr) (m : MapObj)
    (hm : (MapObj.create fpr src).override a = some m) (r : LMap) (hr : Spec.Closed r) :
    ∃ v l, r.toDict m.fp = .ok v ∧ LState.fromDict v.cbor (MapObj.create fpr src).fp = .ok l := by
  have : m.fp = (MapObj.create fpr src).fp := by
    unfold MapObj.override at hm
    split at hm
    · cases hm; rfl
    · cases hm
  rw [this]
  obtain ⟨v, s, n, h1, h2, _⟩ := C45_load_partial r hr (MapObj.create fpr src).fp
  exact ⟨v, _, h1, h2⟩

/-- Heights replaced in a 2 by 2 raster: the hypotheses are met, the heights differ and the subset shows the
old one. -/
example : ∃ m, [(⟨2, 2, fun _ _ => 7⟩ : Arr)].foldlM MapObj.override
      (.create (fun _ => ⟨0, 0⟩) (DataMap.ofRows [[1, 2], [3, 4]])) = some m ∧
    m.now.cell 1 1 = 7 ∧ (m.subset (fun _ => ⟨0, 0⟩) 1 1 1 1).now.get 0 0 = some 4 := by
  refine ⟨_, rfl, rfl, ?_⟩
  decide +kernel

/-! ### C102 -/

/-- C102 fails: a loader has no attribute `datamap`, so a DomainMap cannot be made from any loader. -/
theorem C102_loader_refuted (g : Gdal) (src : Dataset) (i : Nat) (force : Option Units) (minc : Confidence)
    {d : Dataset} (_ : load g src i force minc = .ok d) :
    (LoaderObj.mk src d).attr "datamap" = .error .attributeError ∧
    (MapData.loader ⟨src, d⟩).resolve = .error .attributeError := ⟨rfl, rfl⟩

/-- C102 through the data map: the DataMap made by a loader is accepted, and the map is one of the first band
of the warped file. Nothing else is accepted. -/
theorem C102_datamap_partial (g : Gdal) (src : Dataset) (i : Nat) (force : Option Units) (minc : Confidence)
    {d : Dataset} (hl : load g src i force minc = .ok d) {b : Band} (hb : (g.warp src).bands.head? = some b) :
    ∃ m, (LoaderObj.mk src d).toDataMap = .ok m ∧ (MapData.datamap m).resolve = .ok m ∧
      (∀ x y, m.cell x y = b.cell x y) ∧ m.nodata = b.nodata ∧
      (0 < (g.warp src).height → m.maxX + 1 = (g.warp src).height) ∧
      (0 < (g.warp src).width → m.maxY + 1 = (g.warp src).width) ∧
      MapData.other.resolve = .error .typeError := by
  have hd : d = g.warp src := by
    unfold load loadWith at hl
    split at hl
    · cases hl
    · split at hl
      · exact (Except.ok.inj hl).symm
      · split at hl
        · cases hl
        · exact (Except.ok.inj hl).symm
  subst hd
  have hband : (g.warp src).band 1 = .ok b := by
    unfold Dataset.band
    rw [if_neg (by omega)]
    rw [List.head?_eq_getElem?] at hb
    rw [hb]
  have ht : (LoaderObj.mk src (g.warp src)).toDataMap = (g.warp src).toDataMap := rfl
  rw [ht]
  unfold Dataset.toDataMap
  rw [hband]
  refine ⟨_, rfl, rfl, fun _ _ => rfl, rfl, fun h => ?_, fun h => ?_, rfl⟩
  · show (g.warp src).height - 1 + 1 = _; omega
  · show (g.warp src).width - 1 + 1 = _; omega

/-- The hypotheses are met by the raster in metres of the loader's examples. -/
example : ∃ d b, load exGdal exMetres 1 none .medium = .ok d ∧ (exGdal.warp exMetres).bands.head? = some b := by
  refine ⟨_, _, rfl, rfl⟩

/-! ### C45: for which heights a saved map is accepted -/

namespace Spec

/-- Of an axis of `n` items numpy prints item `i`, if it summarises. -/
def ShownItem (n i : Nat) : Prop := n ≤ 6 ∨ i < 3 ∨ n ≤ i + 3

/-- Cell `p` is among the cells of `d` that numpy prints: all up to 1000 cells, else those that are among the first or last three of
their row and column, if these are longer than six. -/
def ShownCell (d : DataMap) (p : Pt) : Prop :=
  (d.maxX + 1) * (d.maxY + 1) ≤ 1000 ∨ (ShownItem (d.maxX + 1) p.1.toNat ∧ ShownItem (d.maxY + 1) p.2.toNat)

end Spec

theorem visAxis_map {α β : Type} (h : α → β) (l : List α) : (visAxis l).map (Option.map h) = visAxis (l.map h) := by
  unfold visAxis
  rw [List.length_map]
  split
  · simp [List.map_take, List.map_drop]
  · simp

theorem visAxis_range {α : Type} (n : Nat) (f g : Nat → α) :
    visAxis ((List.range n).map f) = visAxis ((List.range n).map g) ↔ ∀ i < n, ShownItem n i → f i = g i := by
  unfold visAxis ShownItem
  simp only [List.length_map, List.length_range]
  have inj : Function.Injective (List.map (some : α → Option α)) := List.map_injective_iff.2 (Option.some_injective α)
  split
  · rename_i hn
    have e : ∀ k : Nat → α, (List.range n).map k = (List.range 3).map k ++ ((List.range (n - 6)).map fun i => k (i + 3)) ++
        (List.range 3).map fun i => k (i + (n - 3)) := by
      intro k
      apply List.ext_getElem
      · simp only [List.length_map, List.length_range, List.length_append]
        omega
      · intro i h1 h2
        simp only [List.length_map, List.length_range] at h1
        simp only [List.getElem_map, List.getElem_range, List.getElem_append, List.length_append, List.length_map, List.length_range]
        split
        · split
          · rfl
          · congr 1
            omega
        · congr 1
          omega
    have et : ∀ k : Nat → α, ((List.range n).map k).take 3 = (List.range 3).map k := by
      intro k
      rw [e k, List.append_assoc, List.take_left' (by simp)]
    have ed : ∀ k : Nat → α, ((List.range n).map k).drop (n - 3) = (List.range 3).map fun i => k (i + (n - 3)) := by
      intro k
      rw [e k, List.drop_left' (by simp only [List.length_append, List.length_map, List.length_range]; omega)]
    rw [et, et, ed, ed]
    constructor
    · intro h i hi hs
      have h1 := List.append_inj' h (by simp)
      have h2 := List.append_inj' h1.1 (by simp)
      have h3 := List.map_inj_left.1 (inj h2.1)
      have h4 := List.map_inj_left.1 (inj h1.2)
      rcases hs with hs | hs | hs
      · omega
      · exact h3 i (List.mem_range.2 hs)
      · have := h4 (i - (n - 3)) (List.mem_range.2 (by omega))
        rwa [Nat.sub_add_cancel (by omega)] at this
    · intro h
      have h3 : (List.range 3).map f = (List.range 3).map g :=
        List.map_inj_left.2 fun i hi => h i (by have := List.mem_range.1 hi; omega) (.inr (.inl (List.mem_range.1 hi)))
      have h4 : ((List.range 3).map fun i => f (i + (n - 3))) = (List.range 3).map fun i => g (i + (n - 3)) :=
        List.map_inj_left.2 fun i hi => h _ (by have := List.mem_range.1 hi; omega) (.inr (.inr (by omega)))
      rw [h3, h4]
  · rename_i hn
    rw [inj.eq_iff, List.map_inj_left]
    constructor
    · intro h i hi _
      exact h i (List.mem_range.2 hi)
    · intro h i hi
      exact h i (List.mem_range.1 hi) (.inl (by omega))

theorem rows_size (d : DataMap) : ((rowsOf d).map List.length).sum = (d.maxX + 1) * (d.maxY + 1) := by
  unfold rowsOf
  rw [List.map_map]
  have : (List.length ∘ fun (x : Nat) => (List.range (d.maxY + 1)).map fun (y : Nat) => d.cell x y) = fun _ => d.maxY + 1 := by
    funext x
    simp
  rw [this, List.map_const', List.sum_replicate, List.length_range]
  rfl

/-- What numpy prints of two rasters of the same size is the same exactly if their shown cells have the same heights. -/
theorem printed_iff {d d' : DataMap} (hx : d'.maxX = d.maxX) (hy : d'.maxY = d.maxY) :
    printed (rowsOf d) = printed (rowsOf d') ↔ ∀ p, InB d p → ShownCell d p → el d p = el d' p := by
  have hcells : (∀ p, InB d p → ShownCell d p → el d p = el d' p) ↔ ∀ i < d.maxX + 1, ∀ j < d.maxY + 1,
      ShownCell d ((i : Int), (j : Int)) → d.cell i j = d'.cell i j := by
    constructor
    · intro h i hi j hj hs
      exact h ((i : Int), (j : Int)) (by simp only [InB]; omega) hs
    · rintro h ⟨x, y⟩ ⟨h1, h2, h3, h4⟩ hs
      dsimp only at h1 h2 h3 h4
      obtain ⟨i, rfl⟩ := Int.eq_ofNat_of_zero_le h1
      obtain ⟨j, rfl⟩ := Int.eq_ofNat_of_zero_le h3
      exact h i (by omega) j (by omega) hs
  rw [hcells]
  unfold printed
  rw [rows_size, rows_size, hx, hy]
  split
  · rename_i hbig
    rw [visAxis_map, visAxis_map]
    unfold rowsOf
    rw [hx, hy, List.map_map, List.map_map, visAxis_range]
    simp only [Function.comp_apply, visAxis_range]
    constructor
    · intro h i hi j hj hs
      rcases hs with hs | hs
      · omega
      · exact h i hi (by simpa using hs.1) j hj (by simpa using hs.2)
    · intro h i hi hsi j hj hsj
      exact h i hi j hj (.inr ⟨by simpa using hsi, by simpa using hsj⟩)
  · rename_i hsmall
    have inj : Function.Injective fun r : List Rat => some (r.map some) := by
      intro a b h
      exact (List.map_injective_iff.2 (Option.some_injective Rat)) (Option.some.inj h)
    rw [(List.map_injective_iff.2 inj).eq_iff]
    unfold rowsOf
    rw [hx, hy, List.map_inj_left]
    constructor
    · intro h i hi j hj _
      exact List.map_inj_left.1 (h i (List.mem_range.2 hi)) j (List.mem_range.2 hj)
    · intro h i hi
      refine List.map_inj_left.2 fun j hj => ?_
      exact h i (List.mem_range.1 hi) j (List.mem_range.1 hj) (.inl (by omega))

/-- C45, heights. Missing for the claim: cells that numpy does not print (`C45_hidden_cells_refuted`). A map saved for one data map is
accepted, in one process, for another one of the same size out of files with the same checksum exactly if all cells that numpy prints
have the same heights, provided that different printed cells
do not have the same text and texts not the same hash. Up to 1000 cells all are
printed. -/
theorem C45_heights_partial {File} (r : LMap) (hr : Spec.Closed r) (md5 : File → Nat) (hash : String → Int)
    (fmt : List (Option (List (Option Rat))) → String) (file file' : File)
    (hf : md5 file = md5 file') (d d' : DataMap) (hx : d'.maxX = d.maxX) (hy : d'.maxY = d.maxY)
    (hinj : hash (fmt (printed (rowsOf d'))) = hash (fmt (printed (rowsOf d))) → printed (rowsOf d') = printed (rowsOf d)) :
    ∃ v, r.toDict (MapObj.create (fingerprint md5 hash fmt file) d).fp = .ok v ∧
      ((∃ l, LState.fromDict v.cbor (MapObj.create (fingerprint md5 hash fmt file') d').fp = .ok l) ↔
        ∀ p, InB d p → ShownCell d p → el d p = el d' p) ∧
      ((d.maxX + 1) * (d.maxY + 1) ≤ 1000 → ∀ p, ShownCell d p) := by
  obtain ⟨v, s, n, h1, h2, _, h3, _⟩ := C45_load_partial r hr (MapObj.create (fingerprint md5 hash fmt file) d).fp
  refine ⟨v, h1, ?_, fun h _ => .inl h⟩
  rw [← printed_iff hx hy]
  constructor
  · rintro ⟨l, hl⟩
    by_contra hne
    have := h3 (MapObj.create (fingerprint md5 hash fmt file') d').fp (fun e => hne ?_)
    · rw [this] at hl
      cases hl
    · exact (hinj (congrArg Fingerprint.hash e)).symm
  · intro hp
    refine ⟨(s, n), ?_⟩
    rw [← h2]
    unfold MapObj.create fingerprint
    rw [hp, hf]

/-- C45 fails for rasters of more than 1000 cells: whatever the heights of the cells that numpy does not print are, a map saved for one
raster is accepted for the other. -/
theorem C45_hidden_cells_refuted {File} (r : LMap) (hr : Spec.Closed r) (md5 : File → Nat) (hash : String → Int)
    (fmt : List (Option (List (Option Rat))) → String) (file : File) (d d' : DataMap) (hx : d'.maxX = d.maxX) (hy : d'.maxY = d.maxY)
    (h : ∀ p, InB d p → ShownCell d p → el d p = el d' p) :
    ∃ v l, r.toDict (MapObj.create (fingerprint md5 hash fmt file) d).fp = .ok v ∧
      LState.fromDict v.cbor (MapObj.create (fingerprint md5 hash fmt file) d').fp = .ok l := by
  obtain ⟨v, l, h1, h2⟩ := C45_same_process_partial r hr md5 hash fmt file (rowsOf d)
  refine ⟨v, l, h1, ?_⟩
  rw [← h2]
  unfold MapObj.create fingerprint
  rw [(printed_iff hx hy).2 h]

/-- Two rasters of 32 by 32 cells that differ in a cell that is not printed, and one that differs in a printed one. -/
example : (¬ ShownCell (DataMap.ofRows (exWide 10 10)) (10, 10)) ∧ ¬ ShownCell (DataMap.ofRows (exWide 10 10)) (20, 20) ∧
    ShownCell (DataMap.ofRows (exWide 10 10)) (30, 1) ∧
    el (DataMap.ofRows (exWide 10 10)) (10, 10) ≠ el (DataMap.ofRows (exWide 20 20)) (10, 10) ∧
    el (DataMap.ofRows (exWide 10 10)) (30, 1) ≠ el (DataMap.ofRows (exWide 30 1)) (30, 1) ∧
    printed (rowsOf (DataMap.ofRows (exWide 10 10))) = printed (rowsOf (DataMap.ofRows (exWide 20 20))) ∧
    printed (rowsOf (DataMap.ofRows (exWide 10 10))) ≠ printed (rowsOf (DataMap.ofRows (exWide 30 1))) := by
  refine ⟨?_, ?_, ?_, by decide +kernel, by decide +kernel, by decide +kernel, by decide +kernel⟩ <;>
    unfold ShownCell ShownItem <;> decide +kernel

end PyProm
