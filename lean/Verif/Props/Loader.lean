import Verif.Spec.Loader
import Mathlib.Tactic.Linarith

/-
Properties of the raster loader (C49, C72, C73).
-/
namespace PyProm
open Spec

theorem abs'_eq (r : Rat) : Rat.abs' r = |r| := by
  unfold Rat.abs'
  split
  · rename_i h; rw [abs_of_neg h]
  · rename_i h; rw [abs_of_nonneg (not_lt.1 h)]

theorem toLower_ne_U (c : Char) : c.toLower ≠ 'U' := by
  intro h
  have h1 : c.toLower.toNat = 85 := by rw [h]; rfl
  unfold Char.toLower at h1
  split at h1
  · rename_i hc
    simp only [Char.toNat, UInt32.le_iff_toNat_le] at h1 hc
    have := hc.1
    have := hc.2
    simp [UInt32.toNat_add] at *
    omega
  · rename_i hc
    apply hc
    simp only [Char.toNat, UInt32.le_iff_toNat_le] at h1 ⊢
    simp [h1]

theorem band_ok {d : Dataset} {i : Nat} {b : Band} (h0 : 0 < i) (h : d.bands[i - 1]? = some b) : d.band i = .ok b := by
  unfold Dataset.band
  rw [if_neg (by omega), h]

theorem band_eq_ok {d : Dataset} {i : Nat} {b : Band} (h : d.band i = .ok b) : 0 < i ∧ d.bands[i - 1]? = some b := by
  unfold Dataset.band at h
  split at h
  · cases h
  · cases hb : d.bands[i - 1]? with
    | none => rw [hb] at h; cases h
    | some b' =>
      rw [hb] at h
      injection h with h
      subst h
      exact ⟨by omega, rfl⟩

theorem mem_meters {d : Dataset} {i : Nat} {b : Band} (h : d.band i = .ok b) :
    b.unit.map Char.toLower ∈ gdalMeters ↔ SaysMetres d i := by
  obtain ⟨h0, h1⟩ := band_eq_ok h
  unfold gdalMeters SaysMetres
  rw [List.mem_map]
  constructor
  · rintro ⟨w, hw, e⟩
    exact ⟨b, h0, h1, w, hw, e.symm⟩
  · rintro ⟨b', _, h2, w, hw, e⟩
    rw [h1] at h2
    injection h2 with h2
    subst h2
    exact ⟨w, hw, e.symm⟩

theorem mem_feet {d : Dataset} {i : Nat} {b : Band} (h : d.band i = .ok b) :
    b.unit.map Char.toLower ∈ gdalFeet ↔ SaysFeet d i := by
  obtain ⟨h0, h1⟩ := band_eq_ok h
  unfold gdalFeet SaysFeet
  rw [List.mem_map]
  constructor
  · rintro ⟨w, hw, e⟩
    refine ⟨b, h0, h1, w, ?_, e.symm⟩
    have : w ≠ "US survey foot" := by
      rintro rfl
      cases hu : b.unit with
      | nil => rw [hu] at e; simp at e
      | cons c l =>
        rw [hu, List.map_cons] at e
        have h2 : 'U' = c.toLower := by
          have h3 : "US survey foot".toList = 'U' :: "S survey foot".toList := by decide +kernel
          rw [h3] at e
          exact (List.cons.inj e).1
        exact toLower_ne_U c h2.symm
    simp only [List.mem_cons, List.not_mem_nil, or_false] at hw ⊢
    tauto
  · rintro ⟨b', _, h2, w, hw, e⟩
    rw [h1] at h2
    injection h2 with h2
    subst h2
    refine ⟨w, ?_, e.symm⟩
    simp only [List.mem_cons, List.not_mem_nil, or_false] at hw ⊢
    tauto

/-- No band says both. -/
theorem not_both {d : Dataset} {i : Nat} (h : SaysMetres d i) : ¬ SaysFeet d i := by
  intro h'
  obtain ⟨b, h0, h1, _⟩ := id h'
  have hb := band_ok h0 h1
  have a := (mem_meters hb).2 h
  have c := (mem_feet hb).2 h'
  have : ∀ w ∈ gdalMeters, w ∉ gdalFeet := by decide +kernel
  exact this _ a c

/-- The reference system and its hint. -/
theorem unitOfSrs_spec (d : Dataset) :
    (GridMetres d ∧ unitOfSrs d.srs = some .meters) ∨ (¬ GridMetres d ∧ GridFeet d ∧ unitOfSrs d.srs = some .feet) ∨
    (¬ GridMetres d ∧ ¬ GridFeet d ∧ unitOfSrs d.srs = none) := by
  unfold GridMetres GridFeet
  cases d.srs with
  | none => simp [unitOfSrs]
  | geographic => simp [unitOfSrs]
  | projected f =>
    simp only [Srs.projected.injEq, exists_eq_left', unitOfSrs, abs'_eq, loaderMetresPerFoot]
    by_cases a : |f - 1| < 1 / 1000000000
    · exact .inl ⟨a, if_pos a⟩
    · rw [if_neg a]
      by_cases c : |f - 3048 / 10000| < 1 / 1000000
      · exact .inr (.inl ⟨a, c, if_pos c⟩)
      · exact .inr (.inr ⟨a, c, if_neg c⟩)

/-- The band and the unit it declares. -/
theorem unitOfBand_spec {d : Dataset} {i : Nat} {b : Band} (h : d.band i = .ok b) :
    (SaysMetres d i ∧ unitOfBand b = some .meters) ∨
    (¬ SaysMetres d i ∧ SaysFeet d i ∧ unitOfBand b = some .feet) ∨
    (¬ SaysMetres d i ∧ ¬ SaysFeet d i ∧ unitOfBand b = none) := by
  unfold unitOfBand
  rw [← mem_meters h, ← mem_feet h]
  by_cases a : b.unit.map Char.toLower ∈ gdalMeters
  · exact .inl ⟨a, if_pos a⟩
  · rw [if_neg a]
    by_cases c : b.unit.map Char.toLower ∈ gdalFeet
    · exact .inr (.inl ⟨a, c, if_pos c⟩)
    · exact .inr (.inr ⟨a, c, if_neg c⟩)

/-- What detection finds, by cases. -/
theorem detect_cases (g : Gdal) (d : Dataset) (i : Nat) (b : Band) (h : d.band i = .ok b) :
    (SaysMetres d i ∧ detectUnit g d i = .ok (.meters, .high)) ∨
    (¬ SaysMetres d i ∧ SaysFeet d i ∧ detectUnit g d i = .ok (.feet, .high)) ∨
    (¬ SaysMetres d i ∧ ¬ SaysFeet d i ∧
      ((GridMetres d ∧ detectUnit g d i = .ok (.meters, .medium)) ∨
       (¬ GridMetres d ∧ GridFeet d ∧ detectUnit g d i = .ok (.feet, .medium)) ∨
       (¬ GridMetres d ∧ ¬ GridFeet d ∧
         ((∃ e, detectUnit g d i = .error e) ∨ detectUnit g d i = .ok (.unknown, .low) ∨
          detectUnit g d i = .ok (.feet, .medium) ∨ detectUnit g d i = .ok (.meters, .low))))) := by
  unfold detectUnit
  rw [h]
  dsimp only [bind, Except.bind]
  rcases unitOfBand_spec h with ⟨a, e⟩ | ⟨a, a', e⟩ | ⟨a, a', e⟩
  · rw [e]; exact .inl ⟨a, rfl⟩
  · rw [e]; exact .inr (.inl ⟨a, a', rfl⟩)
  · rw [e]
    refine .inr (.inr ⟨a, a', ?_⟩)
    dsimp only
    rcases unitOfSrs_spec d with ⟨c, e⟩ | ⟨c, c', e⟩ | ⟨c, c', e⟩
    · rw [e]; exact .inl ⟨c, rfl⟩
    · rw [e]; exact .inr (.inl ⟨c, c', rfl⟩)
    · rw [e]
      refine .inr (.inr ⟨c, c', ?_⟩)
      dsimp only
      cases g.read d b _ _ with
      | error e => exact .inl ⟨e, rfl⟩
      | ok arr =>
        dsimp only
        unfold unitOfHeights
        split
        · exact .inr (.inl rfl)
        · split
          · exact .inr (.inr (.inl rfl))
          · exact .inr (.inr (.inr rfl))

theorem metricate_eq (d : Dataset) (i : Nat) : metricate d i = .error .attributeError := by
  unfold metricate Dataset.band
  split
  · rfl
  · cases d.bands[i - 1]? <;> rfl

theorem confidence_not_lt (c minc : Confidence) : ¬ c.value < minc.value ↔ minc = .low ∨ c = .high ∨ minc = c := by
  cases c <;> cases minc <;> decide

/-! ### C49 -/

/-- C49, metres: a raster whose unit was detected, with enough confidence, as metres, or is declared to be metres by the
user, is loaded, with nothing done to it but the warp to latitude and longitude. -/
theorem C49_metres_partial (g : Gdal) (src : Dataset) (i : Nat) (minc : Confidence) :
    (SaysMetres src i → load g src i none minc = .ok (g.warp src)) ∧
    load g src i (some .meters) minc = .ok (g.warp src) ∧
    (∀ c, detectUnit g src i = .ok (.meters, c) → (minc = .low ∨ c = .high ∨ minc = c) →
      load g src i none minc = .ok (g.warp src)) := by
  have h3 : ∀ c, detectUnit g src i = .ok (.meters, c) → (minc = .low ∨ c = .high ∨ minc = c) →
      load g src i none minc = .ok (g.warp src) := by
    intro c h hc
    unfold load loadWith chooseUnits
    dsimp only
    rw [h]
    dsimp only
    rw [if_neg]
    · dsimp only
      rw [if_pos rfl]
    · rintro (h | h)
      · exact (confidence_not_lt c minc).2 hc h
      · cases h
  refine ⟨?_, rfl, h3⟩
  rintro ⟨b, h0, h1, hw⟩
  have hb := band_ok h0 h1
  rcases detect_cases g src i b hb with ⟨_, h⟩ | ⟨h, _⟩ | ⟨h, _⟩
  · exact h3 _ h (.inr (.inl rfl))
  · exact absurd ⟨b, h0, h1, hw⟩ h
  · exact absurd ⟨b, h0, h1, hw⟩ h

/-- C49, feet, fails for every raster: one that is detected as feet, or is declared to be in feet by the user, cannot be
loaded. -/
theorem C49_feet_refuted (g : Gdal) (src : Dataset) (i : Nat) (minc : Confidence) :
    (∀ c, detectUnit g src i = .ok (.feet, c) → ∃ e, load g src i none minc = .error e) ∧
    (SaysFeet src i → load g src i none minc = .error (.py .attributeError)) ∧
    (∀ u, u ≠ .meters → load g src i (some u) minc = .error (.py .attributeError)) := by
  have key : ∀ c, detectUnit g src i = .ok (.feet, c) → load g src i none minc =
      if c.value < minc.value ∨ Units.feet = .unknown then .error .refused else .error (.py .attributeError) := by
    intro c h
    unfold load loadWith chooseUnits
    dsimp only
    rw [h]
    dsimp only
    by_cases hc : c.value < minc.value ∨ Units.feet = .unknown
    · rw [if_pos hc, if_pos hc]
    · rw [if_neg hc, if_neg hc]
      dsimp only
      rw [if_neg (by decide), metricate_eq]
  refine ⟨fun c h => ?_, ?_, ?_⟩
  · rw [key c h]
    split <;> exact ⟨_, rfl⟩
  · intro hf
    have : detectUnit g src i = .ok (.feet, .high) := by
      obtain ⟨b, h0, h1, _⟩ := id hf
      rcases detect_cases g src i b (band_ok h0 h1) with ⟨h, _⟩ | ⟨_, _, h⟩ | ⟨_, h, _⟩
      · exact absurd hf (not_both h)
      · exact h
      · exact absurd hf h
    rw [key _ this, if_neg]
    rintro (h | h)
    · exact (confidence_not_lt .high minc).2 (.inr (.inl rfl)) h
    · cases h
  · intro u hu
    unfold load loadWith chooseUnits
    dsimp only
    rw [if_neg hu, metricate_eq]

/-- C49 would fail with any conversion in place of the one that raises: the converted dataset is thrown away and the
source is warped instead. -/
theorem C49_conversion_lost_refuted (conv : Dataset → Nat → Except PyErr Dataset) (g : Gdal) (src d : Dataset) (i : Nat)
    (force : Option Units) (minc : Confidence) (h : loadWith conv g src i force minc = .ok d) : d = g.warp src := by
  unfold loadWith at h
  cases hc : chooseUnits g src i force minc with
  | error e => rw [hc] at h; cases h
  | ok u =>
    rw [hc] at h
    dsimp only at h
    split at h
    · injection h with h; exact h.symm
    · cases hv : conv src i with
      | error e => rw [hv] at h; cases h
      | ok d' =>
        rw [hv] at h
        injection h with h
        exact h.symm

/-- A raster of two cells in feet. -/
def exFeet : Dataset :=
  ⟨2, 1, [⟨"Foot".toList, none, fun _ y => if y = 0 then 1000 else 2000⟩], 0, 1, 0, 0, 0, -1, .geographic⟩

/-- A raster of two cells in metres with a second band in an unknown unit. -/
def exMetres : Dataset :=
  ⟨2, 1, [⟨"m".toList, none, fun _ y => if y = 0 then 300 else 600⟩, ⟨[], none, fun _ _ => 7⟩], 0, 1, 0, 0, 0, -1,
    .geographic⟩

/-- GDAL on these: reading gives the cells of the first row, percentiles are the first and the last value, and warping
does nothing. -/
def exGdal : Gdal :=
  ⟨fun _ b w _ => .ok ((List.range w).map fun y : Nat => b.cell 0 y), fun l p => if p < 50 then l.headD 0 else l.getLastD 0,
    id⟩

/-- Instances of C49. The raster in feet would, with the conversion repaired, be loaded in feet: 1000 m at its first
cell in place of 304.8 m. -/
example : SaysMetres exMetres 1 ∧ SaysFeet exFeet 1 ∧
    (load exGdal exMetres 1 none .medium).toOption.map (fun d => (d.toDataMap.toOption.map fun m => m.cell 0 0)) =
      some (some 300) ∧
    (load exGdal exFeet 1 none .medium).toOption.isNone = true ∧
    (loadWith metricateIntended exGdal exFeet 1 none .medium).toOption.map
      (fun d => (d.toDataMap.toOption.map fun m => m.cell 0 0)) = some (some 1000) ∧
    (metricateIntended exFeet 1).toOption.map (fun d => (d.toDataMap.toOption.map fun m => m.cell 0 0)) =
      some (some (3048 / 10)) :=
  ⟨⟨_, by decide, rfl, "m", by decide, by decide +kernel⟩, ⟨_, by decide, rfl, "foot", by decide, by decide +kernel⟩,
    by decide +kernel, by decide +kernel, by decide +kernel, by decide +kernel⟩

/-! ### C72 -/

/-- C72: with the default settings a raster is loaded exactly if the band says metres, or says nothing of the kind and the
grid is in metres. -/
theorem C72_default_units (g : Gdal) (src d : Dataset) (i : Nat) (hi : 0 < i ∧ i ≤ src.bands.length) :
    load g src i none .medium = .ok d ↔
      d = g.warp src ∧ (SaysMetres src i ∨ (¬ SaysFeet src i ∧ GridMetres src)) := by
  have hb : src.band i = .ok src.bands[i - 1] := band_ok hi.1 (by rw [List.getElem?_eq_getElem])
  have bad : ∀ e, (Except.error e : Except GLoadErr Dataset) = .ok d ↔ False := fun e => by simp
  have good : ∀ c, detectUnit g src i = .ok (.meters, c) → (c = .high ∨ .medium = c) →
      load g src i none .medium = .ok (g.warp src) := fun c h hc => (C49_metres_partial g src i .medium).2.2 c h (.inr hc)
  have feet := (C49_feet_refuted g src i .medium).1
  rcases detect_cases g src i _ hb with ⟨h, e⟩ | ⟨h, h', e⟩ | ⟨h, h', ⟨k, e⟩ | ⟨k, k', e⟩ | ⟨k, k', e⟩⟩
  · rw [good _ e (.inl rfl)]
    simp [h, eq_comm]
  · obtain ⟨x, hx⟩ := feet _ e
    rw [hx, bad]
    simp [h, h']
  · rw [good _ e (.inr rfl)]
    simp [h', k, eq_comm]
  · obtain ⟨x, hx⟩ := feet _ e
    rw [hx, bad]
    simp [h, k]
  · have : ∃ x, load g src i none .medium = .error x := by
      rcases e with ⟨x, e⟩ | e | e | e
      · refine ⟨.py x, ?_⟩
        unfold load loadWith chooseUnits
        dsimp only
        rw [e]
      · refine ⟨.refused, ?_⟩
        unfold load loadWith chooseUnits
        dsimp only
        rw [e]
        rfl
      · exact feet _ e
      · refine ⟨.refused, ?_⟩
        unfold load loadWith chooseUnits
        dsimp only
        rw [e]
        rfl
    obtain ⟨x, hx⟩ := this
    rw [hx, bad]
    simp [h, k]

/-- C72, other settings: without an override every loaded raster was detected as metres with at least the confidence
asked for. -/
theorem C72_confidence (g : Gdal) (src d : Dataset) (i : Nat) (minc : Confidence)
    (h : load g src i none minc = .ok d) :
    ∃ c, detectUnit g src i = .ok (.meters, c) ∧ (minc = .low ∨ c = .high ∨ minc = c) := by
  unfold load loadWith chooseUnits at h
  dsimp only at h
  cases hd : detectUnit g src i with
  | error e => rw [hd] at h; cases h
  | ok r =>
    obtain ⟨u, c⟩ := r
    rw [hd] at h
    dsimp only at h
    by_cases hc : c.value < minc.value ∨ u = .unknown
    · rw [if_pos hc] at h; cases h
    · rw [if_neg hc] at h
      dsimp only at h
      by_cases hu : u = .meters
      · subst hu
        exact ⟨c, rfl, (confidence_not_lt c minc).1 fun x => hc (.inl x)⟩
      · rw [if_neg hu, metricate_eq] at h
        cases h

/-- The sampling step of a raster: the side of the largest square that gives about 100000 samples, at least 1. -/
def Spec.IsStep (d : Dataset) (s : Nat) : Prop :=
  1 ≤ s ∧ (s = 1 ∨ s * s * 100000 ≤ d.width * d.height) ∧ d.width * d.height < (s + 1) * (s + 1) * 100000

theorem sampleStep_eq {d : Dataset} {s : Nat} (h : IsStep d s) : sampleStep d 100000 = s := by
  obtain ⟨h1, h2, h3⟩ := h
  unfold sampleStep
  generalize hn : d.width * d.height = n at *
  have hlt : n / 100000 < (s + 1) * (s + 1) := (Nat.div_lt_iff_lt_mul (by omega)).2 h3
  have hu : Nat.sqrt (n / 100000) < s + 1 := Nat.sqrt_lt.2 hlt
  rcases h2 with rfl | h2
  · omega
  · have : s ≤ Nat.sqrt (n / 100000) := Nat.le_sqrt.2 ((Nat.le_div_iff_mul_le (by omega)).2 h2)
    omega

/-- The heights of the sample that are not nodata. -/
def Spec.IsHeights (nodata : Option Rat) (arr heights : List Rat) : Prop :=
  heights.Sublist arr ∧ (∀ h ∈ heights, nodata ≠ some h) ∧ ∀ h, nodata ≠ some h → heights.count h = arr.count h

theorem dropNodata_heights (nodata : Option Rat) (arr : List Rat) : IsHeights nodata arr (dropNodata nodata arr) := by
  unfold IsHeights dropNodata
  cases nodata with
  | none => exact ⟨List.Sublist.refl _, by simp, by simp⟩
  | some n =>
    refine ⟨List.filter_sublist, fun h hh => ?_, fun h hh => ?_⟩
    · have := (List.mem_filter.1 hh).2
      simp only [decide_eq_true_eq] at this
      exact fun e => this (Option.some.inj e).symm
    · exact List.count_filter (by
        simp only [decide_eq_true_eq]
        exact fun e => hh (by rw [e]))

/-- C72 where neither the band nor the grid tells the unit and the lowest confidence is asked for: the sample is read at
the reduced size, and the raster is loaded exactly if the sample has heights and these range over at most 8900 between
the first and the last hundredth. -/
theorem C72_heights (g : Gdal) (src d : Dataset) (i s : Nat) (b : Band) (arr : List Rat)
    (hi : 0 < i) (hb : src.bands[i - 1]? = some b) (hm : ¬ SaysMetres src i) (hf : ¬ SaysFeet src i)
    (gm : ¬ GridMetres src) (gf : ¬ GridFeet src) (hs : IsStep src s)
    (hr : g.read src b (src.width / s) (src.height / s) = .ok arr) :
    ∃ heights, IsHeights b.nodata arr heights ∧
      (load g src i none .low = .ok d ↔
        d = g.warp src ∧ heights ≠ [] ∧ g.percentile heights 99 - g.percentile heights 1 ≤ 8900) := by
  refine ⟨dropNodata b.nodata arr, dropNodata_heights _ _, ?_⟩
  have hd : detectUnit g src i = .ok (unitOfHeights g (dropNodata b.nodata arr)) := by
    unfold detectUnit
    rw [band_ok hi hb]
    dsimp only [bind, Except.bind]
    rcases unitOfBand_spec (band_ok hi hb) with ⟨a, _⟩ | ⟨_, a, _⟩ | ⟨_, _, e⟩
    · exact absurd a hm
    · exact absurd a hf
    · rw [e]
      dsimp only
      rcases unitOfSrs_spec src with ⟨a, _⟩ | ⟨_, a, _⟩ | ⟨_, _, e⟩
      · exact absurd a gm
      · exact absurd a gf
      · rw [e, sampleStep_eq hs, hr]
  generalize dropNodata b.nodata arr = hts at hd
  unfold load loadWith chooseUnits
  dsimp only
  rw [hd]
  unfold unitOfHeights
  by_cases h1 : hts = []
  · subst h1
    simp
  · have h1' : hts.isEmpty = false := by simpa using h1
    rw [h1']
    by_cases h2 : g.percentile hts 99 - g.percentile hts 1 > 8900
    · have h3 : ¬ g.percentile hts 99 - g.percentile hts 1 ≤ 8900 := not_le.2 h2
      simp only [Bool.false_eq_true, if_false, if_pos h2, h3, and_false, iff_false]
      have : ¬ (Confidence.medium.value < Confidence.low.value ∨ Units.feet = Units.unknown) := by decide
      rw [if_neg this]
      simp [metricate_eq]
    · have h3 : g.percentile hts 99 - g.percentile hts 1 ≤ 8900 := not_lt.1 h2
      simp [if_neg h2, h1, h3, eq_comm]

/-- Instances: the second band of the raster above has no unit; it is refused, accepted at the lowest confidence, and
accepted if the grid is in metres. -/
example : (match load exGdal exMetres 2 none .medium with
      | .error e => some e
      | .ok _ => none) = some .refused ∧
    (load exGdal exMetres 2 none .low).toOption.isSome = true ∧
    (load exGdal { exMetres with srs := .projected 1 } 2 none .medium).toOption.isSome = true :=
  ⟨by decide +kernel, by decide +kernel, by decide +kernel⟩

/-- The conditions of `C72_heights` are met by the second band of that raster. -/
example : IsStep exMetres 1 ∧ ¬ GridMetres exMetres ∧ ¬ GridFeet exMetres ∧
    exGdal.read exMetres ⟨[], none, fun _ _ => 7⟩ (2 / 1) (1 / 1) = .ok [7, 7] ∧
    (∀ b, exMetres.bands[2 - 1]? = some b → b.unit = []) := by
  refine ⟨⟨by decide, by decide, by decide⟩, ?_, ?_, rfl, ?_⟩
  · simp [GridMetres, exMetres]
  · simp [GridFeet, exMetres]
  · intro b hb
    cases hb
    rfl

/-! ### C73 -/

/-- C73 for the first band. -/
theorem C73_first_band_partial (g : Gdal) (src d : Dataset) (force : Option Units) (minc : Confidence)
    (h : load g src 1 force minc = .ok d) (b : Band) (hb : (g.warp src).band 1 = .ok b) :
    ∃ m, d.toDataMap = .ok m ∧ m.nodata = b.nodata ∧ ∀ x y, m.cell x y = b.cell x y := by
  rw [C49_conversion_lost_refuted _ _ _ _ _ _ _ h]
  unfold Dataset.toDataMap
  rw [hb]
  exact ⟨_, rfl, rfl, fun _ _ => rfl⟩

/-- C73 fails: whichever band is asked for, the data map holds the first. -/
theorem C73_band_refuted : ∃ d m b, load exGdal exMetres 2 (some .meters) .medium = .ok d ∧ d.toDataMap = .ok m ∧
    exMetres.band 2 = .ok b ∧ m.cell 0 0 ≠ b.cell 0 0 :=
  ⟨_, _, _, rfl, rfl, rfl, by decide +kernel⟩

end PyProm
