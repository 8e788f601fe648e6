import Verif.Spec.Rounding
import Verif.Props.RunHeights
import Verif.Props.Turned

/-! C113: slopes computed with rounding. -/
namespace PyProm
open Spec

/-! ### Conversions that change nothing -/

theorem scale3_id : scale3 id = id := rfl

theorem scaleM_id : scaleM id = id := funext fun p => by
  unfold scaleM
  rw [Option.map_id]
  rfl

theorem scaleF_id : scaleF id = id := funext fun f => by
  unfold scaleF
  rw [scaleM_id, scale3_id, List.map_id_fun, Option.map_id, List.map_id, List.map_id_fun, List.map_id]
  rfl

theorem scaleMap_id (m : DMap) : scaleMap id m = m := by
  unfold scaleMap
  rw [scaleF_id, List.map_id]
  have : m.st.objs.map (fun o => { o with f := id o.f }) = m.st.objs := List.map_id _
  rw [this]

theorem rescaled_id (d : DataMap) : rescaled id d = d := by
  unfold rescaled
  rw [Option.map_id]
  rfl

theorem sameChoices_slopes (E : SaddleEnv) (w : Int → Int → Rat → Rat) : SameChoices id E { E with w := w } where
  raster := (rescaled_id _).symm
  near := by
    intro us them
    rw [scale3_id, List.map_id, List.map_id]
    cases E.near us them with
    | error e => exact .inl ⟨e, rfl, rfl⟩
    | ok m => exact .inr ⟨m, m, rfl, rfl, fun p => by rw [Option.map_id]; rfl⟩
  pairs := by
    intro us them
    rw [scale3_id, List.map_id, List.map_id, Prod.map_id, Option.map_id]
    rfl
  paths := by
    intro f a b
    rw [scaleF_id, scale3_id, scaleM_id, List.map_id]
    rfl
  fuel := rfl

theorem sameOrders_self (o : Oracle) : SameOrders id o o where
  pop := fun i l => by rw [scale3_id, List.map_id]
  cost := fun pts a b => by
    rw [scaleM_id, List.map_id]
    rfl

/-! ### C113 -/

section
variable {ε : Rat} {len : Int → Int → Rat} {w : Int → Int → Rat → Rat}

/-- C113: slopes computed with an error below 100 % are good enough for everything that is shown of runs. -/
theorem C113_upward (hε : ε < 1) (hl : PosLength len) (hw : Rounded ε len w) : Upward w := by
  intro s hs
  refine ⟨?_, fun r hr => ?_⟩
  · have h := hw s 0 hs le_rfl
    rw [zero_div, mul_zero, mul_zero] at h
    exact le_antisymm h.2 h.1
  · exact lt_of_lt_of_le (mul_pos (by linarith) (div_pos hr (hl s hs))) (hw s r hs hr.le).1

/-- C113, the choice of the way up: whatever is not lower around a cell, its true slope exceeds that of the chosen
neighbour at most by the rounding error. -/
theorem C113_choice (hε : ε < 1) (hl : PosLength len) (hw : Rounded ε len w) (d : DataMap) (p : Pt) (hp : InB d p)
    (q : P3) (h : steepestNeighbor d w p.1 p.2 = .ok (some q)) :
    Adj p q.xy ∧ Seen d q.xy q.e ∧ el d p ≤ q.e ∧ ∀ r e, Adj p r → Seen d r e → el d p ≤ e →
      (1 - ε) * slope d (exactSlope len) p r e ≤ (1 + ε) * slope d (exactSlope len) p q.xy q.e := by
  rcases C56_steepest d w (C113_upward hε hl hw) p hp with ⟨h1, _⟩ | ⟨q', e', _, _, h1, _, h2, h3, h4, h5, _⟩
  · rw [h] at h1
    cases h1
  · rw [h] at h1
    cases h1
    refine ⟨h2, h3, h4, fun r e hr hs he => ?_⟩
    have a := (hw _ _ (adj_shift hr) (sub_nonneg.2 he)).1
    have b := (hw _ _ (adj_shift h2) (sub_nonneg.2 h4)).2
    exact a.trans ((h5 r e hr hs he).trans b)

/-- C113, the whole run: if slopes that differ at all differ by more than the rounding error, and equal ones are
computed equal, then the run ends exactly as it would without rounding. -/
theorem C113_run (hε : ε < 1) (E : SaddleEnv) (hl : PosLength len) (hw : Rounded ε len w)
    (hf : Fair E.d len w) (hd : Distinct ε E.d len) (o : Pt → Oracle) (order : List Pt) (rebuild : Bool) (fuel : Nat) :
    DMap.run { E with w := w } o order rebuild fuel =
      DMap.run { E with w := exactSlope len } o order rebuild fuel := by
  have hs : SameSlopes id (Occurs E.d) (exactSlope len) w := by
    have pos : ∀ s r, Adj (0, 0) s → 0 ≤ r → 0 ≤ r / len s.1 s.2 := fun s r hs hr => div_nonneg hr (hl s hs).le
    refine ⟨fun s p e hs _ _ hle => ?_, fun s t p e e' hs ht hp he he' hle hle' => ?_⟩
    · have h1 := pos s (e - p) hs (sub_nonneg.2 hle)
      have h2 := (hw s (e - p) hs (sub_nonneg.2 hle)).1
      have h3 : 0 ≤ (1 - ε) * ((e - p) / len s.1 s.2) := mul_nonneg (by linarith) h1
      exact ⟨fun h => absurd (h3.trans h2) (not_le.2 h), fun h => absurd h1 (not_le.2 h)⟩
    · have a := hw s (e - p) hs (sub_nonneg.2 hle)
      have b := hw t (e' - p) ht (sub_nonneg.2 hle')
      show w s.1 s.2 (e - p) < w t.1 t.2 (e' - p) ↔ (e - p) / len s.1 s.2 < (e' - p) / len t.1 t.2
      rcases lt_trichotomy ((e - p) / len s.1 s.2) ((e' - p) / len t.1 t.2) with h | h | h
      · exact ⟨fun _ => h, fun _ => a.2.trans_lt ((hd s t p e e' hs ht hp he he' hle hle' h).trans_le b.1)⟩
      · rw [hf s t p e e' hs ht hp he he' hle hle' h, h]
        exact ⟨fun h => absurd h (lt_irrefl _), fun h => absurd h (lt_irrefl _)⟩
      · have := b.2.trans_lt ((hd t s p e' e ht hs hp he' he hle' hle h).trans_le a.1)
        exact ⟨fun h' => absurd (h'.trans this) (lt_irrefl _), fun h' => absurd (h'.trans h) (lt_irrefl _)⟩
  have := C107_run id (fun _ _ h => h) { E with w := exactSlope len } { E with w := w }
    (sameChoices_slopes { E with w := exactSlope len } w) hs o o (fun p => sameOrders_self (o p)) order rebuild fuel
  rw [this]
  cases DMap.run { E with w := exactSlope len } o order rebuild fuel with
  | error e => rfl
  | ok r => simp only [Except.map, scaleMap_id]

/-- C113, what no rounding can change: two runs that are alike except for their rounding errors have the same summits,
connected at the same heights. -/
theorem C113_network {ε' : Rat} {w' : Int → Int → Rat → Rat} (hε : ε < 1) (hε' : ε' < 1) (hl : PosLength len)
    (hw : Rounded ε len w) (hw' : Rounded ε' len w') (E : SaddleEnv) (hE : RunOk E) (o : Pt → Oracle) (order : List Pt)
    (ho : IsScan E.d order) (rebuild : Bool) :
    ∃ m m', DMap.runSparse { E with w := w } o order rebuild = .ok m ∧
      DMap.runSparse { E with w := w' } o order rebuild = .ok m' ∧ m'.summits = m.summits ∧
      ∀ (a b : Nat) f g, m.summits[a]? = some f → m.summits[b]? = some g → ∀ h ≤ f.elevation,
        (NetConnected m (LiveSaddle m) h a b ↔ NetConnected m' (LiveSaddle m') h a b) := by
  have ok : ∀ {ε : Rat} {w : Int → Int → Rat → Rat}, ε < 1 → Rounded ε len w → RunOk { E with w := w } :=
    fun h1 h2 => ⟨⟨hE.env.low, C113_upward h1 hl h2, hE.env.near⟩, hE.geo, hE.fuel, hE.fc, hE.find⟩
  have k := ok hε hw
  have k' := ok hε' hw'
  obtain ⟨m, sites, h1, h2, h3⟩ := C77_faithful _ k o order ho rebuild
  obtain ⟨m', sites', g1, g2, g3⟩ := C77_faithful _ k' o order ho rebuild
  have hsum : m'.summits = m.summits := by
    obtain ⟨_, _, m0, m1, _, _, _, _, a3, _, _, _, _, a8, a9⟩ := run_spec k o order ho rebuild
    obtain ⟨_, _, m0', m1', _, _, _, _, b3, _, _, _, _, b8, b9⟩ := run_spec k' o order ho rebuild
    cases (a8.symm.trans h1 : Except.ok _ = Except.ok _)
    cases (b8.symm.trans g1 : Except.ok _ = Except.ok _)
    cases (a3.symm.trans b3 : Except.ok _ = Except.ok _)
    rw [a9.summits, b9.summits]
  rw [hsum] at g2
  obtain rfl := sites_same hE.geo h2 g2
  refine ⟨m, m', h1, g1, hsum, fun a b f g ha hb h hh => ?_⟩
  have site : ∀ (a : Nat) (f : Feature), m.summits[a]? = some f → ∃ p, sites[a]? = some p ∧ SummitFor E.d p f := by
    intro a f ha
    have hl := lt_of_getElem? ha
    rw [← h2.each.length_eq] at hl
    obtain ⟨s, s1, s2⟩ := forall₂_getElem? h2.each (List.getElem?_eq_getElem hl)
    rw [ha] at s1
    cases s1
    exact ⟨_, List.getElem?_eq_getElem hl, s2⟩
  obtain ⟨p, hp, hf⟩ := site a f ha
  obtain ⟨q, hq, _⟩ := site b g hb
  rw [hf.located.2.2] at hh
  rw [h3 h a b p q hp hq hh, g3 h a b p q hp hq hh]

end

/-! Instances: slopes that are up to one percent too large. -/

def exRounded (x y : Int) (r : Rat) : Rat :=
  let q := exactSlope exLen x y r
  q * (1 + (q - q.floor) / 100)

theorem exRounded_ok : Rounded (1 / 100) exLen exRounded := by
  intro s r hs hr
  have hq : 0 ≤ r / exLen s.1 s.2 := div_nonneg hr (exLen_pos s hs).le
  unfold exRounded exactSlope
  generalize r / exLen s.1 s.2 = q at hq ⊢
  dsimp only
  have h1 : (q.floor : Rat) ≤ q := Rat.floor_le q
  have h2 : q < q.floor + 1 := by exact_mod_cast Rat.lt_floor_add_one q
  constructor
  · rw [mul_comm]
    exact mul_le_mul_of_nonneg_left (by linarith) hq
  · rw [mul_comm (1 + 1 / 100)]
    exact mul_le_mul_of_nonneg_left (by linarith) hq

theorem exRounded_fair (d : DataMap) : Fair d exLen exRounded := by
  intro s t p e e' _ _ _ _ _ _ _ h
  unfold exRounded exactSlope
  rw [h]

theorem exRounded_distinct : Distinct (1 / 100) (DataMap.ofRows exRows) exLen := by
  have key : ∀ s ∈ ring (0, 0), ∀ t ∈ ring (0, 0), ∀ p ∈ [(1 : Rat), 2, 3, 5, 8, 9], ∀ e ∈ [(1 : Rat), 2, 3, 5, 8, 9],
      ∀ e' ∈ [(1 : Rat), 2, 3, 5, 8, 9], p ≤ e → p ≤ e' → (e - p) / exLen s.1 s.2 < (e' - p) / exLen t.1 t.2 →
        (1 + 1 / 100) * ((e - p) / exLen s.1 s.2) < (1 - 1 / 100) * ((e' - p) / exLen t.1 t.2) := by decide +kernel
  have mem : ∀ h, Occurs (DataMap.ofRows exRows) h → h ∈ [(1 : Rat), 2, 3, 5, 8, 9] := by
    have all : ∀ p ∈ (DataMap.ofRows exRows).cells, el (DataMap.ofRows exRows) p ∈ [(1 : Rat), 2, 3, 5, 8, 9] := by
      decide +kernel
    rintro h (⟨p, hp, rfl⟩ | hn)
    · exact all p ((mem_cells _ p).2 hp)
    · cases hn
  intro s t p e e' hs ht hp he he' hle hle' h
  exact key s (mem_ring.2 hs) t (mem_ring.2 ht) p (mem p hp) e (mem e he) e' (mem e' he') hle hle' h

/-- Instance of `C113_run`. -/
example : DMap.run { exRun (DataMap.ofRows exRows) with w := exRounded } (fun _ => exOracle)
    (DataMap.ofRows exRows).cells true 100 = DMap.run (exRun (DataMap.ofRows exRows)) (fun _ => exOracle)
      (DataMap.ofRows exRows).cells true 100 :=
  C113_run (by norm_num) (exRun (DataMap.ofRows exRows)) exLen_pos exRounded_ok (exRounded_fair _) exRounded_distinct
    _ _ _ _

/-- Instance of `C113_choice`: with an error of up to ten percent the way up is to the north, although it is a little
steeper to the northeast. -/
def exCoarse (x y : Int) (r : Rat) : Rat :=
  let q := exactSlope exLen x y r
  if 2 < q ∧ q ≤ 11 / 5 then 2 else q

theorem exCoarse_ok : Rounded (1 / 10) exLen exCoarse := by
  intro s r hs hr
  have hq : 0 ≤ r / exLen s.1 s.2 := div_nonneg hr (exLen_pos s hs).le
  unfold exCoarse exactSlope
  generalize r / exLen s.1 s.2 = q at hq ⊢
  dsimp only
  split
  · rename_i h
    exact ⟨by linarith, by linarith⟩
  · exact ⟨by linarith, by linarith⟩

example : (steepestNeighbor (DataMap.ofRows [[0, 3, 26/5], [0, 1, 0], [0, 0, 0]]) exCoarse 1 1).toOption =
    some (some ⟨0, 1, 3⟩) ∧ (steepestNeighbor (DataMap.ofRows [[0, 3, 26/5], [0, 1, 0], [0, 0, 0]])
      (exactSlope exLen) 1 1).toOption = some (some ⟨0, 2, 26/5⟩) := by decide +kernel

/-- A raster with ways up of almost the same slope. -/
def exClose : List (List Rat) := [[0, 0, 0, 0, 0, 0, 0], [0, 3, 5, 31/5, 4, 6, 0], [0, 3, 0, 2, 1, 1/5, 0],
  [0, 3, 2, 11/5, 21/5, 5, 0], [0, 0, 0, 0, 0, 0, 0]]

/-- The limits of C113: where two ways up are almost equally steep, a rounding error can lead up the other one, and a
saddle be linked to another summit. Rounding is what decides this: both runs are on the same raster and alike in all
else. -/
theorem C113_only_distinct : ∃ (E : SaddleEnv) (ε : Rat) (len : Int → Int → Rat) (w : Int → Int → Rat → Rat)
    (o : Pt → Oracle) (order : List Pt) (m m' : DMap),
    RunOk E ∧ E.w = exactSlope len ∧ ε < 1 ∧ PosLength len ∧ Rounded ε len w ∧ Fair E.d len w ∧ IsScan E.d order ∧
    DMap.runSparse E o order false = .ok m ∧ DMap.runSparse { E with w := w } o order false = .ok m' ∧
    m'.linkers = m.linkers ∧ m'.st.store ≠ m.st.store := by
  have h1 : (exMap exClose false).toOption.map (fun m => (m.linkers, m.st.store)) =
      some ([0, 1, 2, 3], [⟨1, 6⟩, ⟨0, 6⟩, ⟨2, 7⟩, ⟨0, 7⟩]) := by decide +kernel
  have h2 : (DMap.runSparse { exRun (DataMap.ofRows exClose) with w := exCoarse } (fun _ => exOracle)
      (DataMap.ofRows exClose).cells false).toOption.map (fun m => (m.linkers, m.st.store)) =
      some ([0, 1, 2, 3], [⟨1, 6⟩, ⟨0, 6⟩, ⟨2, 7⟩, ⟨1, 7⟩]) := by decide +kernel
  cases hr : exMap exClose false with
  | error e =>
    rw [hr] at h1
    cases h1
  | ok m =>
    cases hr' : DMap.runSparse { exRun (DataMap.ofRows exClose) with w := exCoarse } (fun _ => exOracle)
        (DataMap.ofRows exClose).cells false with
    | error e =>
      rw [hr'] at h2
      cases h2
    | ok m' =>
      rw [hr] at h1
      rw [hr'] at h2
      simp only [Except.toOption, Option.map_some, Option.some.injEq, Prod.mk.injEq] at h1 h2
      refine ⟨exRun (DataMap.ofRows exClose), 1 / 10, exLen, exCoarse, fun _ => exOracle, (DataMap.ofRows exClose).cells,
        m, m', exRun_plain _ (by unfold maxsize; decide +kernel), rfl, by norm_num, exLen_pos, exCoarse_ok, ?_,
        isScan_cells _, hr, hr', h2.1.trans h1.1.symm, by rw [h1.2, h2.2]; decide⟩
      intro s t p e e' _ _ _ _ _ _ _ h
      unfold exCoarse exactSlope
      rw [h]

/-- Instance of `C113_network`: the two runs above, although linkers differ. -/
example : ∃ m m', DMap.runSparse { exRun (DataMap.ofRows exClose) with w := exCoarse } (fun _ => exOracle)
      (DataMap.ofRows exClose).cells false = .ok m ∧
    DMap.runSparse
      { exRun (DataMap.ofRows exClose) with w := exactSlope exLen } (fun _ => exOracle) (DataMap.ofRows exClose).cells false = .ok m' ∧ m'.summits = m.summits ∧
      ∀ (a b : Nat) f g, m.summits[a]? = some f → m.summits[b]? = some g → ∀ h ≤ f.elevation,
        (NetConnected m (LiveSaddle m) h a b ↔ NetConnected m' (LiveSaddle m') h a b) :=
  C113_network (ε' := 0) (by norm_num) (by norm_num) exLen_pos exCoarse_ok
    (fun _ _ _ _ => by rw [sub_zero, add_zero, one_mul]; exact ⟨le_rfl, le_rfl⟩) _
    (exRun_plain _ (by unfold maxsize; decide +kernel)) _ _ (isScan_cells _) _

end PyProm
