import Verif.Proof.Marker
import Verif.Props.RunHeights
import Mathlib.Tactic.IntervalCases

/-! C108: the value of the nodata marker. -/
namespace PyProm
open Spec

/-- C108: a run on a raster in which the heights of data are converted to another unit and datum (or left as they
are) and the nodata marker is replaced by any other value below all data ends with the same map with heights
converted, and with the same saddles and linkers disqualified. All that is needed of the conversion is that heights,
and slopes between data, compare alike, see `C108_slopes`. -/
theorem C108_run (φ : Rat → Rat) (E E' : SaddleEnv) (hR : RunOk E) (hφ : Increasing φ)
    (hE : SameChoices φ E E') (hw : SameSlopes φ (Ground E.d) E.w E'.w) (o o' : Pt → Oracle) (ho : ∀ p, SameOrders φ (o p) (o' p)) (order : List Pt)
    (hs : IsScan E.d order) (rebuild : Bool) (fuel : Nat) :
    DMap.run E' o' order rebuild fuel =
      (DMap.run E o order rebuild fuel).map fun r => (scaleMap φ r.1, r.2) :=
  run_marker hR hφ hE hw ho order hs rebuild fuel

/-- C108, slopes of data compare alike. -/
theorem C108_slopes (φ : Rat → Rat) (a b : Rat) (d : DataMap) (hc : ConvertsData φ a b d) (len : Int → Int → Rat) :
    SameSlopes φ (Ground d) (exactSlope len) (exactSlope len) :=
  slopes_convert hc.data hc.pos fun _ _ _ _ => mul_div_assoc _ _ _

theorem exists_min_data (d : DataMap) : (∀ p, ¬ Data d p) ∨ ∃ q, Data d q ∧ ∀ p, Data d p → el d q ≤ el d p := by
  have key : ∀ l : List Pt, (∀ p ∈ l, ¬ Data d p) ∨ ∃ q, Data d q ∧ ∀ p ∈ l, Data d p → el d q ≤ el d p := by
    intro l
    induction l with
    | nil => exact .inl fun p hp => (nomatch hp)
    | cons r l ih =>
      by_cases hr : Data d r
      · rcases ih with h | ⟨q, hq, h⟩
        · refine .inr ⟨r, hr, fun p hp hd => ?_⟩
          rcases List.mem_cons.1 hp with rfl | hp
          · exact le_refl _
          · exact absurd hd (h p hp)
        · rcases le_total (el d q) (el d r) with h' | h'
          · refine .inr ⟨q, hq, fun p hp hd => ?_⟩
            rcases List.mem_cons.1 hp with rfl | hp
            · exact h'
            · exact h p hp hd
          · refine .inr ⟨r, hr, fun p hp hd => ?_⟩
            rcases List.mem_cons.1 hp with rfl | hp
            · exact le_refl _
            · exact h'.trans (h p hp hd)
      · rcases ih with h | ⟨q, hq, h⟩
        · refine .inl fun p hp => ?_
          rcases List.mem_cons.1 hp with rfl | hp
          · exact hr
          · exact h p hp
        · refine .inr ⟨q, hq, fun p hp hd => ?_⟩
          rcases List.mem_cons.1 hp with rfl | hp
          · exact absurd hd hr
          · exact h p hp hd
  rcases key d.cells with h | ⟨q, hq, h⟩
  · exact .inl fun p hp => h p ((mem_cells d p).2 hp.1) hp
  · exact .inr ⟨q, hq, fun p hp => h p ((mem_cells d p).2 hp.1) hp⟩

/-- C108, any marker will do: for every value below the converted data there is such a conversion. Its raster has
converted heights where there are data, and the new marker exactly where there are none. -/
theorem C108_any_marker (d : DataMap) (v v' a b : Rat) (hv : d.nodata = some v) (hl : NodataLow d) (ha : 0 < a)
    (hv' : ∀ p, Data d p → v' < a * el d p + b) :
    ∃ φ, ConvertsData φ a b d ∧ (rescaled φ d).nodata = some v' ∧ NodataLow (rescaled φ d) ∧
      (∀ p, Data (rescaled φ d) p ↔ Data d p) ∧ (∀ p, Data d p → el (rescaled φ d) p = a * el d p + b) ∧
      ∀ p, InB d p → ¬ Data d p → el (rescaled φ d) p = v' := by
  have main : ∃ φ, ConvertsData φ a b d ∧ φ v = v' := by
    rcases exists_min_data d with h | ⟨q, hq, h⟩
    · refine ⟨fun h => a * h + (v' - a * v), ⟨fun x y hxy => ?_, ha, fun _ ⟨p, hp, _⟩ => absurd hp (h p)⟩, by ring⟩
      show a * x + _ < a * y + _
      have := mul_lt_mul_of_pos_left hxy ha
      linarith
    · have hμ := hl v hv q hq
      have hμ' := hv' q hq
      generalize el d q = μ at h hμ hμ'
      have hk : 0 < (a * μ + b - v') / (μ - v) := div_pos (by linarith) (by linarith)
      generalize hkk : (a * μ + b - v') / (μ - v) = k at hk
      refine ⟨fun x => if x < μ then a * μ + b - (μ - x) * k else a * x + b, ⟨fun x y hxy => ?_, ha, ?_⟩, ?_⟩
      · have h1 := mul_lt_mul_of_pos_left hxy ha
        by_cases hx : x < μ
        · rw [if_pos hx]
          have h2 := mul_pos (sub_pos.2 hx) hk
          by_cases hy : y < μ
          · rw [if_pos hy]
            have := mul_pos (sub_pos.2 hxy) hk
            nlinarith
          · rw [if_neg hy]
            have := mul_le_mul_of_nonneg_left (not_lt.1 hy) ha.le
            linarith
        · rw [if_neg hx, if_neg (not_lt.2 ((not_lt.1 hx).trans hxy.le))]
          linarith
      · rintro x ⟨p, hp, rfl⟩
        exact if_neg (not_lt.2 (h p hp))
      · show (if v < μ then _ else _) = _
        rw [if_pos hμ, ← hkk, mul_div_cancel₀ _ (ne_of_gt (by linarith : (0 : Rat) < μ - v))]
        ring
  obtain ⟨φ, hφ, hφv⟩ := main
  have hd : ∀ p, Data (rescaled φ d) p ↔ Data d p := by
    intro p
    refine and_congr Iff.rfl (not_congr ?_)
    show some (φ (el d p)) = d.nodata.map φ ↔ _
    rw [hv, Option.map_some, Option.some.injEq, Option.some.injEq, inc_inj hφ.inc]
  have he : ∀ p, Data d p → el (rescaled φ d) p = a * el d p + b := fun p hp => hφ.data _ ⟨p, hp, rfl⟩
  have hn : (rescaled φ d).nodata = some v' := by
    show d.nodata.map φ = _
    rw [hv, Option.map_some, hφv]
  refine ⟨φ, hφ, hn, fun w hw p hp => ?_, hd, he, fun p hp hnd => ?_⟩
  · rw [hn] at hw
    cases hw
    rw [he p ((hd p).1 hp)]
    exact hv' p ((hd p).1 hp)
  · show φ (el d p) = v'
    have : el d p = v := by
      by_contra hne
      exact hnd ⟨hp, fun h => hne (by rw [hv] at h; exact Option.some.inj h)⟩
    rw [this, hφv]

/-- C108, what a user reads off: if only the marker is changed, every feature keeps its kind, its place and its
height; except that a runoff in a corner without data shows the marker itself as its height. High points of saddles
keep their heights without exception. -/
theorem C108_read (φ : Rat → Rat) (E : SaddleEnv) (hR : RunOk E) (hc : ConvertsData φ 1 0 E.d) (o : Pt → Oracle)
    (order : List Pt) (hs : IsScan E.d order) (rebuild : Bool) (m : DMap)
    (hm : DMap.runSparse E o order rebuild = .ok m) :
    (scaleMap φ m).st.store = m.st.store ∧ (scaleMap φ m).domPoints = m.domPoints ∧
    (scaleMap φ m).saddles = m.saddles ∧ (scaleMap φ m).runoffs = m.runoffs ∧ (scaleMap φ m).linkers = m.linkers ∧
    ∀ n f, m.feature n = some f → ∃ f', (scaleMap φ m).feature n = some f' ∧ f'.kind = f.kind ∧ f'.lat = f.lat ∧
      f'.lon = f.lon ∧ f'.edge = f.edge ∧ (f.kind ≠ .summit → f'.hpn = f.hpn) ∧
      (f'.elevation = f.elevation ∨
        f.kind = .runoff ∧ some f.elevation = E.d.nodata ∧ some f'.elevation = (rescaled φ E.d).nodata) := by
  have hid : ∀ p, Data E.d p → φ (el E.d p) = el E.d p := fun p hp => by
    rw [hc.data _ ⟨p, hp, rfl⟩]
    ring
  refine ⟨rfl, rfl, rfl, rfl, rfl, fun n f hf => ⟨scaleF φ f, by rw [feature_scaled, hf]; rfl, rfl, rfl, rfl, rfl, ?_, ?_⟩⟩
  · intro hk
    have h := (run_heights hR hs hm hf).1 hk
    show f.hpn.map (List.map (scale3 φ)) = f.hpn
    conv_rhs => rw [← List.map_id f.hpn]
    refine List.map_congr_left fun c hcm => ?_
    show c.map (scale3 φ) = c
    conv_rhs => rw [← List.map_id c]
    refine List.map_congr_left fun p hp => ?_
    obtain ⟨h1, h2⟩ := h c hcm p hp
    show (⟨p.x, p.y, φ p.e⟩ : P3) = p
    rw [h2, hid _ h1, ← h2]
  · rcases (run_heights hR hs hm hf).2 with ⟨p, h1, h2⟩ | ⟨h1, q, _, h3, h4⟩
    · left
      show φ f.elevation = f.elevation
      rw [h2, hid p h1]
    · right
      refine ⟨h1, by rw [h4.2.2]; exact h3, ?_⟩
      show some (φ f.elevation) = E.d.nodata.map φ
      rw [h4.2.2, ← h3]
      rfl

/-- Two summits, a saddle and a cell without data, marked by `v`. -/
def exHole (v : Rat) : DataMap :=
  { DataMap.ofRows [[2, 2, 2, 2, 2, 2, 2], [2, 7, 5, 3, 6, 2, 2], [2, 2, v, 2, 2, 2, 2], [2, 2, 2, 2, 2, 2, 2]] with
    nodata := some v }

theorem exHole_el (v : Rat) (p : Pt) (h : InB (exHole v) p) :
    (p = (2, 2) ∧ el (exHole v) p = v) ∨ (p ≠ (2, 2) ∧ 2 ≤ el (exHole 0) p ∧ el (exHole v) p = el (exHole 0) p) := by
  obtain ⟨x, y⟩ := p
  obtain ⟨h1, h2, h3, h4⟩ := h
  have key : ∀ i ∈ List.range 4, ∀ j ∈ List.range 7, ((i : Int), (j : Int)) ≠ ((2, 2) : Pt) →
      2 ≤ el (exHole 0) ((i : Int), (j : Int)) := by decide +kernel
  change x ≤ (3 : Int) at h2
  change y ≤ (6 : Int) at h4
  change 0 ≤ x at h1
  change 0 ≤ y at h3
  obtain ⟨i, rfl⟩ := Int.eq_ofNat_of_zero_le h1
  obtain ⟨j, rfl⟩ := Int.eq_ofNat_of_zero_le h3
  by_cases hp : (((i : Int), (j : Int)) : Pt) = (2, 2)
  · refine .inl ⟨hp, ?_⟩
    rw [hp]
    rfl
  · refine .inr ⟨hp, key i (List.mem_range.2 (by omega)) j (List.mem_range.2 (by omega)) hp, ?_⟩
    have hi : i < 4 := by omega
    have hj : j < 7 := by omega
    interval_cases i <;> interval_cases j <;> first | rfl | exact absurd rfl hp

theorem exHole_low {v : Rat} (hv : v < 2) : NodataLow (exHole v) := by
  intro w hw p hp
  cases hw
  rcases exHole_el v p hp.1 with ⟨_, h⟩ | ⟨_, h1, h2⟩
  · exact absurd (by rw [h]; rfl) hp.2
  · rw [h2]
    exact lt_of_lt_of_le hv h1

theorem exHole_ok {v : Rat} (hv : v < 2) : RunOk (exRun (exHole v)) :=
  exRun_ok _ (exHole_low hv) ⟨show (exHole 0).gt1 ≠ 0 by decide +kernel,
    show (exHole 0).gt5 ≠ 0 by decide +kernel, rfl, rfl, fun _ => rfl⟩
    (show ((((exHole 0).maxX + (exHole 0).maxY) ^ 2 : Nat) : Rat) < maxsize by unfold maxsize; decide +kernel)

/-- Instance of `C108_run`: in place of -99 the marker can be any value below the data. -/
example (v' : Rat) (hv' : v' < 2) : ∃ φ, ConvertsData φ 1 0 (exHole (-99)) ∧
    (rescaled φ (exHole (-99))).nodata = some v' ∧
    DMap.run (exRun (rescaled φ (exHole (-99)))) (fun _ => exOracle) (exHole (-99)).cells true 100 =
      (DMap.run (exRun (exHole (-99))) (fun _ => exOracle) (exHole (-99)).cells true 100).map fun r =>
        (scaleMap φ r.1, r.2) := by
  obtain ⟨φ, h1, h2, _⟩ := C108_any_marker (exHole (-99)) (-99) v' 1 0 rfl (exHole_low (by norm_num)) one_pos (by
    intro p hp
    rcases exHole_el _ p hp.1 with ⟨_, h⟩ | ⟨_, h3, h4⟩
    · exact absurd (by rw [h]; rfl) hp.2
    · rw [h4]
      linarith)
  exact ⟨φ, h1, h2, C108_run φ _ _ (exHole_ok (by norm_num)) h1.inc (exRun_same h1.inc _) (C108_slopes φ 1 0 _ h1 _) _ _
    (fun _ => ⟨fun _ _ => rfl, fun _ _ _ => rfl⟩) _ (isScan_cells _) _ _⟩

/-- The limits of C108: a marker above data is climbed as if it were ground. Here both runs are on the same data, but
with the marker 9 one of the two linkers of the saddle is lost. -/
theorem C108_only_low : (∀ p, Data (exHole 9) p ↔ Data (exHole (-99)) p) ∧
    (∀ p, Data (exHole 9) p → el (exHole 9) p = el (exHole (-99)) p) ∧
    (DMap.runSparse (exRun (exHole (-99))) (fun _ => exOracle) (exHole (-99)).cells true).toOption.map
      (fun m => (m.saddles, m.linkers.map fun i => m.net.link i)) = some ([6], [(1, 6), (0, 6)]) ∧
    (DMap.runSparse (exRun (exHole 9)) (fun _ => exOracle) (exHole 9).cells true).toOption.map
      (fun m => (m.saddles, m.linkers.map fun i => m.net.link i)) = some ([6], [(1, 6)]) := by
  have hdata : ∀ v p, v = 9 ∨ v = -99 → (Data (exHole v) p ↔ InB (exHole 0) p ∧ p ≠ (2, 2)) := by
    intro v p hv
    refine ⟨fun ⟨h1, h2⟩ => ⟨h1, ?_⟩, fun ⟨h1, h2⟩ => ⟨h1, ?_⟩⟩
    · rcases exHole_el v p h1 with ⟨_, h⟩ | ⟨h, _⟩
      · exact absurd (by rw [h]; rfl) h2
      · exact h
    · rcases exHole_el v p h1 with ⟨h, _⟩ | ⟨_, h3, h4⟩
      · exact absurd h h2
      · rw [h4]
        intro h
        have h : el (exHole 0) p = v := Option.some.inj h
        obtain ⟨h1, h2', h3', h4'⟩ := h1
        have key : ∀ i ∈ List.range 4, ∀ j ∈ List.range 7, el (exHole 0) ((i : Int), (j : Int)) ≠ 9 ∧
            el (exHole 0) ((i : Int), (j : Int)) ≠ -99 := by decide +kernel
        obtain ⟨x, y⟩ := p
        change x ≤ (3 : Int) at h2'
        change y ≤ (6 : Int) at h4'
        change 0 ≤ x at h1
        change 0 ≤ y at h3'
        obtain ⟨i, rfl⟩ := Int.eq_ofNat_of_zero_le h1
        obtain ⟨j, rfl⟩ := Int.eq_ofNat_of_zero_le h3'
        have := key i (List.mem_range.2 (by omega)) j (List.mem_range.2 (by omega))
        rcases hv with rfl | rfl
        · exact this.1 h
        · exact this.2 h
  refine ⟨fun p => (hdata 9 p (.inl rfl)).trans (hdata (-99) p (.inr rfl)).symm, fun p hp => ?_, by decide +kernel,
    by decide +kernel⟩
  have hne := ((hdata 9 p (.inl rfl)).1 hp).2
  rcases exHole_el 9 p hp.1 with ⟨h, _⟩ | ⟨_, _, h⟩
  · exact absurd h hne
  · rcases exHole_el (-99) p hp.1 with ⟨h', _⟩ | ⟨_, _, h'⟩
    · exact absurd h' hne
    · rw [h, h']

end PyProm
