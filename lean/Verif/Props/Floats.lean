import Verif.Spec.Floats
import Verif.Props.Apart
import Verif.Props.Outline
import Mathlib.Tactic.Positivity
import Mathlib.Tactic.Linarith
import Mathlib.Tactic.Ring
import Mathlib.Tactic.FieldSimp

/-
C129: coordinates computed with floating-point numbers.
-/
namespace PyProm
open Spec

variable {u : Rat} {fl : Rat → Rat}

theorem roundedBy_zero (h : RoundedBy u fl) : fl 0 = 0 := by
  have := h 0
  rw [abs_zero, mul_zero, sub_zero] at this
  exact abs_nonpos_iff.1 this

/-- The error of a rounded result near `c`. -/
theorem rounded_near (h : RoundedBy u fl) (h0 : 0 ≤ u) (h1 : u ≤ 1 / 1000) {r c S e : Rat} (hS : |c| ≤ S)
    (he : |r - c| ≤ e) : |fl r - c| ≤ e + u * S + e / 1000 := by
  have hr : |r| ≤ S + e := by
    calc |r| = |(r - c) + c| := by rw [sub_add_cancel]
      _ ≤ |r - c| + |c| := abs_add_le _ _
      _ ≤ S + e := by linarith
  have he0 : 0 ≤ e := le_trans (abs_nonneg _) he
  have h2 : |fl r - r| ≤ u * S + e / 1000 := by
    refine le_trans (h r) (le_trans (mul_le_mul_of_nonneg_left hr h0) ?_)
    have := mul_le_mul_of_nonneg_right h1 he0
    linarith
  calc |fl r - c| = |(fl r - r) + (r - c)| := by rw [sub_add_sub_cancel]
    _ ≤ |fl r - r| + |r - c| := abs_add_le _ _
    _ ≤ _ := by linarith

/-- The index found from a coordinate, along one axis. -/
theorem axis_back (h : RoundedBy u fl) (h0 : 0 ≤ u) (h1 : u ≤ 1 / 1000) {o g y S l : Rat} (hS : |o| + |y * g| ≤ S)
    (hl : |l - (o + y * g)| ≤ 4 * (u * S)) (hg : g ≠ 0) : |fl (fl (l - o) / g) - y| ≤ 8 * (u * S) / |g| := by
  have hS0 : 0 ≤ S := le_trans (add_nonneg (abs_nonneg _) (abs_nonneg _)) hS
  have ht0 : 0 ≤ u * S := mul_nonneg h0 hS0
  have hy : |y * g| ≤ S := le_trans (le_add_of_nonneg_left (abs_nonneg o)) hS
  have b1 : |(l - o) - y * g| ≤ 4 * (u * S) := by rwa [sub_sub]
  have b2 := rounded_near h h0 h1 hy b1
  have hp : 0 < |g| := abs_pos.2 hg
  have b3 : |fl (l - o) / g - y| ≤ (6 * (u * S)) / |g| := by
    have : fl (l - o) / g - y = (fl (l - o) - y * g) / g := by field_simp
    rw [this, abs_div]
    exact div_le_div_of_nonneg_right (by linarith) hp.le
  have hy' : |y| ≤ S / |g| := by
    rw [le_div_iff₀ hp, ← abs_mul]; exact hy
  have b4 := rounded_near h h0 h1 hy' b3
  refine le_trans b4 ?_
  have : 6 * (u * S) / |g| + u * (S / |g|) + 6 * (u * S) / |g| / 1000 = (6 * (u * S) + u * S + 6 * (u * S) / 1000) / |g| := by
    field_simp
  rw [this]
  exact div_le_div_of_nonneg_right (by linarith) hp.le

theorem axis_bound {o g : Rat} {n : Nat} {y : Int} (h0 : 0 ≤ y) (h1 : y ≤ n) :
    |o| + |(y : Rat) * g| ≤ |o| + n * |g| := by
  have h2 : (0 : Rat) ≤ (y : Rat) := by exact_mod_cast h0
  have h3 : (y : Rat) ≤ n := by exact_mod_cast h1
  rw [abs_mul, abs_of_nonneg h2]
  have := mul_le_mul_of_nonneg_right h3 (abs_nonneg g)
  linarith

theorem lon_near {d : DataMap} (hd : FineFloats u d) {q : Pt} (hq : InB d q) :
    |lonOf d q - (d.gt0 + q.2 * d.gt1)| ≤ 4 * (u * (|d.gt0| + d.maxY * |d.gt1|)) := by
  have hS := axis_bound (o := d.gt0) (g := d.gt1) hq.2.2.1 hq.2.2.2
  set S := |d.gt0| + d.maxY * |d.gt1| with hSe
  have hS0 : 0 ≤ S := le_trans (add_nonneg (abs_nonneg _) (abs_nonneg _)) hS
  have ht0 : 0 ≤ u * S := mul_nonneg hd.nonneg hS0
  have hc : |d.gt0 + q.2 * d.gt1| ≤ S := le_trans (abs_add_le _ _) hS
  have a1 : |d.fl (q.2 * d.gt1) - q.2 * d.gt1| ≤ u * S :=
    le_trans (hd.rounded _) (mul_le_mul_of_nonneg_left (le_trans (le_add_of_nonneg_left (abs_nonneg _)) hS) hd.nonneg)
  have a2 : |(d.gt0 + d.fl (q.2 * d.gt1)) - (d.gt0 + q.2 * d.gt1)| ≤ u * S := by rwa [add_sub_add_left_eq_sub]
  have a3 := rounded_near hd.rounded hd.nonneg hd.small hc a2
  have a4 := rounded_near hd.rounded hd.nonneg hd.small hc a3
  unfold lonOf
  rw [hd.gt2, mul_zero, roundedBy_zero hd.rounded, add_zero]
  linarith

theorem lat_near {d : DataMap} (hd : FineFloats u d) {q : Pt} (hq : InB d q) :
    |latOf d q - (d.gt3 + q.1 * d.gt5)| ≤ 4 * (u * (|d.gt3| + d.maxX * |d.gt5|)) := by
  have hS := axis_bound (o := d.gt3) (g := d.gt5) hq.1 hq.2.1
  set S := |d.gt3| + d.maxX * |d.gt5| with hSe
  have hS0 : 0 ≤ S := le_trans (add_nonneg (abs_nonneg _) (abs_nonneg _)) hS
  have ht0 : 0 ≤ u * S := mul_nonneg hd.nonneg hS0
  have hc : |d.gt3 + q.1 * d.gt5| ≤ S := le_trans (abs_add_le _ _) hS
  have a1 : |(d.fl d.gt3 + d.fl (q.1 * d.gt5)) - (d.gt3 + q.1 * d.gt5)| ≤ u * S := by
    rw [add_sub_add_comm]
    refine le_trans (abs_add_le _ _) (le_trans (add_le_add (hd.rounded _) (hd.rounded _)) ?_)
    rw [← mul_add]
    exact mul_le_mul_of_nonneg_left hS hd.nonneg
  have a2 := rounded_near hd.rounded hd.nonneg hd.small hc a1
  unfold latOf
  rw [hd.gt4, mul_zero, roundedBy_zero hd.rounded, add_zero]
  linarith

/-- C129, positions: the coordinates of a cell are right up to four units of rounding. -/
theorem C129_near (u : Rat) (d : DataMap) (hd : FineFloats u d) (q : Pt) (hq : InB d q) :
    |(d.xyToLatLon q.1 q.2).1 - (d.gt3 + q.1 * d.gt5)| ≤ 4 * (u * (|d.gt3| + d.maxX * |d.gt5|)) ∧
    |(d.xyToLatLon q.1 q.2).2 - (d.gt0 + q.2 * d.gt1)| ≤ 4 * (u * (|d.gt0| + d.maxY * |d.gt1|)) :=
  ⟨lat_near hd hq, lon_near hd hq⟩

theorem half_of_less {t g : Rat} (h : 16 * t < g) (hg : 0 < g) : 8 * t / g < 1 / 2 := by
  rw [div_lt_iff₀ hg]; linarith

theorem pos_of_fine {u o g : Rat} {n : Nat} (h0 : 0 ≤ u) (h : 16 * (u * (|o| + n * |g|)) < |g|) : 0 < |g| :=
  lt_of_le_of_lt (mul_nonneg (by decide) (mul_nonneg h0 (add_nonneg (abs_nonneg _)
    (mul_nonneg (Nat.cast_nonneg _) (abs_nonneg _))))) h

/-- C129, round trip: the rounded coordinates of a cell, looked up with rounded arithmetic, lead back to
this cell. So runs have what they assume of positions (`RunOk`). -/
theorem C129_back (u : Rat) (d : DataMap) (hd : FineFloats u d) : Findable d := by
  intro q hq
  have g1 := pos_of_fine hd.nonneg hd.lon
  have g5 := pos_of_fine hd.nonneg hd.lat
  unfold DataMap.latLongToXY
  rw [if_neg (not_or.2 ⟨abs_pos.1 g1, abs_pos.1 g5⟩)]
  have k1 := axis_back hd.rounded hd.nonneg hd.small (axis_bound hq.1 hq.2.1) (lat_near hd hq) (abs_pos.1 g5)
  have k2 := axis_back hd.rounded hd.nonneg hd.small (axis_bound hq.2.2.1 hq.2.2.2) (lon_near hd hq) (abs_pos.1 g1)
  have e1 := pyRound_of_near (lt_of_le_of_lt k1 (half_of_less hd.lat g5))
  have e2 := pyRound_of_near (lt_of_le_of_lt k2 (half_of_less hd.lon g1))
  simp only [e1, e2]

theorem axis_lookup (h : RoundedBy u fl) (h0 : 0 ≤ u) {o g l : Rat} {n : Nat} {y : Int} (hy0 : 0 ≤ y)
    (hy1 : y ≤ n) (hl : |l - (o + y * g)| + 16 * (u * (|o| + (n + 1) * |g|)) < |g| / 2) (hp : 0 < |g|) :
    |fl (fl (l - o) / g) - y| < 1 / 2 := by
  have hS := axis_bound (o := o) (g := g) hy0 hy1
  obtain ⟨W, hW⟩ : ∃ W, W = |o| + (n + 1) * |g| := ⟨_, rfl⟩
  have hW1 : W = |o| + n * |g| + |g| := by rw [hW]; ring
  have ho := abs_nonneg o
  have hd0 := abs_nonneg (l - (o + y * g))
  have hn : 0 ≤ (n : Rat) * |g| := mul_nonneg (Nat.cast_nonneg _) hp.le
  rw [← hW] at hl
  have hw0 : 0 ≤ u * W := mul_nonneg h0 (by linarith)
  have hcW : |(y : Rat) * g| ≤ W := by linarith
  have hgW : u * |g| ≤ u * W := mul_le_mul_of_nonneg_left (by linarith) h0
  obtain ⟨e, he⟩ : ∃ e, e = |l - (o + y * g)| := ⟨_, rfl⟩
  rw [← he] at hl hd0
  have hue : u * e ≤ u * W / 2 := by
    have := mul_le_mul_of_nonneg_left (show e ≤ |g| / 2 by linarith) h0
    linarith
  have a1 : |(l - o) - y * g| ≤ e := by rw [sub_sub, he]
  have a2 : |l - o| ≤ W + e := by
    have := abs_add_le ((l - o) - y * g) (y * g)
    rw [sub_add_cancel] at this
    linarith
  have a3 : |fl (l - o) - (l - o)| ≤ 3 / 2 * (u * W) := by
    refine le_trans (h _) (le_trans (mul_le_mul_of_nonneg_left a2 h0) ?_)
    linarith
  have a4 : |fl (l - o) - y * g| ≤ e + 3 / 2 * (u * W) := by
    have := abs_add_le (fl (l - o) - (l - o)) ((l - o) - y * g)
    rw [sub_add_sub_cancel] at this
    linarith
  have hg : g ≠ 0 := abs_pos.1 hp
  have b1 : |fl (l - o)| ≤ W + |g| := by
    have := abs_add_le (fl (l - o) - y * g) (y * g)
    rw [sub_add_cancel] at this
    linarith
  have b2 : |fl (fl (l - o) / g) - fl (l - o) / g| * |g| ≤ 2 * (u * W) := by
    have := mul_le_mul_of_nonneg_right (h (fl (l - o) / g)) hp.le
    rw [abs_div, mul_assoc, div_mul_cancel₀ _ hp.ne'] at this
    have h3 := mul_le_mul_of_nonneg_left b1 h0
    linarith
  have b3 : |fl (l - o) / g - y| * |g| ≤ e + 3 / 2 * (u * W) := by
    rw [← abs_mul, sub_mul, div_mul_cancel₀ _ hg]
    exact a4
  have b4 := abs_add_le (fl (fl (l - o) / g) - fl (l - o) / g) (fl (l - o) / g - y)
  rw [sub_add_sub_cancel] at b4
  have b5 := mul_le_mul_of_nonneg_right b4 hp.le
  rw [add_mul] at b5
  have : |fl (fl (l - o) / g) - y| * |g| < 1 / 2 * |g| := by linarith
  exact lt_of_mul_lt_mul_right this hp.le

/-- C129, lookup: a position that is less than half a pixel, by sixteen units of rounding, away from the centre of a cell
is looked up as this cell. -/
theorem C129_lookup (u : Rat) (d : DataMap) (hd : FineFloats u d) (q : Pt) (hq : InB d q) (lat lon : Rat)
    (h1 : |lat - (d.gt3 + q.1 * d.gt5)| + 16 * (u * (|d.gt3| + (d.maxX + 1) * |d.gt5|)) < |d.gt5| / 2)
    (h2 : |lon - (d.gt0 + q.2 * d.gt1)| + 16 * (u * (|d.gt0| + (d.maxY + 1) * |d.gt1|)) < |d.gt1| / 2) :
    d.latLongToXY lat lon = some q := by
  have g1 := pos_of_fine hd.nonneg hd.lon
  have g5 := pos_of_fine hd.nonneg hd.lat
  unfold DataMap.latLongToXY
  rw [if_neg (not_or.2 ⟨abs_pos.1 g1, abs_pos.1 g5⟩)]
  have e1 := pyRound_of_near (axis_lookup hd.rounded hd.nonneg hq.1 hq.2.1 h1 g5)
  have e2 := pyRound_of_near (axis_lookup hd.rounded hd.nonneg hq.2.2.1 hq.2.2.2 h2 g1)
  simp only [e1, e2]

/-- C129, elevations: the elevation looked up at the coordinates of a cell is the elevation of this cell. -/
theorem C129_elevation (u : Rat) (d : DataMap) (hd : FineFloats u d) (q : Pt) (hq : InB d q) :
    d.elevation (d.xyToLatLon q.1 q.2).1 (d.xyToLatLon q.1 q.2).2 = d.get q.1 q.2 := by
  have := C129_back u d hd q hq
  unfold DataMap.elevation
  show (d.latLongToXY (latOf d q) (lonOf d q)).bind _ = _
  rw [this]; rfl

theorem axis_told {a b c o g t : Rat} {i j : Int} (ha : |a - (o + i * g)| ≤ 4 * t) (hb : |b - (o + j * g)| ≤ 4 * t)
    (hc : |a - b| ≤ c) (h : c + 8 * t < |g|) : i = j := by
  by_contra hne
  have h1 : (1 : Rat) ≤ |(i : Rat) - j| := by
    have : (1 : Int) ≤ |i - j| := Int.one_le_abs (sub_ne_zero.2 hne)
    exact_mod_cast this
  have h2 : |g| ≤ |(i - j) * g| := by
    rw [abs_mul]
    have := mul_le_mul_of_nonneg_right h1 (abs_nonneg g)
    linarith
  have h3 : ((i : Rat) - j) * g = (a - b) - (a - (o + i * g)) + (b - (o + j * g)) := by ring
  rw [h3] at h2
  have h4 := abs_add_le ((a - b) - (a - (o + i * g))) (b - (o + j * g))
  have h5 := abs_sub (a - b) (a - (o + i * g))
  linarith

theorem round6_close {a b : Rat} (h : round6 a = round6 b) : |a - b| ≤ 1 / 1000000 := by
  have h1 := (pyRound_spec (a * 1000000)).1
  have h2 := (pyRound_spec (b * 1000000)).1
  unfold round6 at h
  rw [h] at h1
  rw [abs_le] at *
  constructor <;> linarith

/-- C129, identity: if a pixel is larger than a millionth by eight units of rounding, then different cells have
different coordinates, to six decimals. -/
theorem C129_told (u : Rat) (d : DataMap) (hd : FineFloats u d)
    (h1 : 1 / 1000000 + 8 * (u * (|d.gt0| + d.maxY * |d.gt1|)) < |d.gt1|)
    (h5 : 1 / 1000000 + 8 * (u * (|d.gt3| + d.maxX * |d.gt5|)) < |d.gt5|) : Told d := by
  intro p q hp hq e1 e2
  exact Prod.ext (axis_told (lat_near hd hp) (lat_near hd hq) (round6_close e1) h5)
    (axis_told (lon_near hd hp) (lon_near hd hq) (round6_close e2) h1)

/-- Double precision is off by at most a part of 2⁻⁵³. -/
theorem C129_double : RoundedBy (1 / 2 ^ 53) double := by
  intro r
  unfold double
  by_cases h : r = 0
  · simp [h]
  · rw [if_neg h]
    have hp : 0 < |r| := abs_pos.2 h
    have hlog := Int.zpow_log_le_self (b := 2) (by decide) hp
    set e := Int.log 2 |r| - 52 with he
    have h2 : (0 : Rat) < 2 ^ e := zpow_pos (by decide) _
    have h1 := (pyRound_spec (r / 2 ^ e)).1
    have h3 : |(pyRound (r / 2 ^ e) : Rat) * 2 ^ e - r| = |r / 2 ^ e - pyRound (r / 2 ^ e)| * 2 ^ e := by
      rw [← abs_of_pos h2, ← abs_mul, abs_of_pos h2, sub_mul, div_mul_cancel₀ _ h2.ne', abs_sub_comm]
    rw [h3]
    have h4 : ((2 : Nat) : Rat) ^ Int.log 2 |r| = 2 ^ e * 2 ^ 52 := by
      have : Int.log 2 |r| = e + 52 := by omega
      rw [this, Nat.cast_ofNat, zpow_add₀ (by decide)]
      rfl
    rw [h4] at hlog
    have := mul_le_mul_of_nonneg_right h1 h2.le
    have h5 : (1 : Rat) / 2 ^ 53 * |r| ≥ 1 / 2 ^ 53 * (2 ^ e * 2 ^ 52) := mul_le_mul_of_nonneg_left hlog (by positivity)
    have h6 : (1 : Rat) / 2 ^ 53 * (2 ^ e * 2 ^ 52) = 1 / 2 * 2 ^ e := by ring
    linarith

theorem pyRound_le {r s : Rat} (h : r ≤ s) : pyRound r ≤ pyRound s := by
  by_contra hn
  have h1 := abs_le.1 (pyRound_spec r).1
  have h2 := abs_le.1 (pyRound_spec s).1
  have h3 : (pyRound s : Rat) + 1 ≤ pyRound r := by
    have : pyRound s + 1 ≤ pyRound r := by omega
    exact_mod_cast this
  have : r = s := by linarith
  rw [this] at hn
  exact hn le_rfl

theorem pyRound_whole (n : Int) : pyRound n = n := pyRound_of_near (by simp)

theorem pyRound_minus (r : Rat) : pyRound (-r) = -pyRound r := by
  have h1 := abs_le.1 (pyRound_spec r).1
  have h2 := abs_le.1 (pyRound_spec (-r)).1
  by_contra hne
  rcases lt_or_gt_of_ne hne with h | h
  · have h3 : (pyRound (-r) : Rat) + 1 ≤ -pyRound r := by
      have : pyRound (-r) + 1 ≤ -pyRound r := by omega
      exact_mod_cast this
    have e1 : |r - pyRound r| = 1 / 2 := by rw [abs_of_pos] <;> linarith
    have e2 : |-r - pyRound (-r)| = 1 / 2 := by rw [abs_of_pos] <;> linarith
    have k1 := (pyRound_spec r).2 e1
    have k2 := (pyRound_spec (-r)).2 e2
    have h4 : (pyRound (-r) : Rat) + 1 = -pyRound r := by linarith
    have h5 : pyRound (-r) + 1 = -pyRound r := by exact_mod_cast h4
    omega
  · have h3 : -(pyRound r : Rat) + 1 ≤ pyRound (-r) := by
      have : -pyRound r + 1 ≤ pyRound (-r) := by omega
      exact_mod_cast this
    have e1 : |r - pyRound r| = 1 / 2 := by rw [abs_of_neg] <;> linarith
    have e2 : |-r - pyRound (-r)| = 1 / 2 := by rw [abs_of_neg] <;> linarith
    have k1 := (pyRound_spec r).2 e1
    have k2 := (pyRound_spec (-r)).2 e2
    have h4 : -(pyRound r : Rat) + 1 = pyRound (-r) := by linarith
    have h5 : -pyRound r + 1 = pyRound (-r) := by exact_mod_cast h4
    omega

theorem double_neg (r : Rat) : double (-r) = -double r := by
  unfold double
  by_cases h : r = 0
  · simp [h]
  · rw [if_neg h, if_neg (neg_ne_zero.2 h), abs_neg, neg_div, pyRound_minus]
    push_cast
    ring

/-- A positive number stays between the powers of two around it. -/
theorem double_binade {r : Rat} (h : 0 < r) : (2 : Rat) ^ Int.log 2 r ≤ double r ∧ double r ≤ 2 ^ (Int.log 2 r + 1) := by
  have h1 := Int.zpow_log_le_self (b := 2) (by decide) h
  have h2 := Int.lt_zpow_succ_log_self (b := 2) (by decide) r
  rw [Nat.cast_ofNat] at h1 h2
  unfold double
  rw [if_neg h.ne', abs_of_pos h]
  generalize Int.log 2 r = a at *
  have hp : (0 : Rat) < 2 ^ (a - 52) := zpow_pos (by decide) _
  have e1 : (2 : Rat) ^ a = ((2 ^ 52 : Int) : Rat) * 2 ^ (a - 52) := by
    have : a = 52 + (a - 52) := by omega
    conv_lhs => rw [this, zpow_add₀ (by decide)]
    norm_num
  have e2 : (2 : Rat) ^ (a + 1) = ((2 ^ 53 : Int) : Rat) * 2 ^ (a - 52) := by
    rw [zpow_add_one₀ (by decide), e1]
    push_cast
    ring
  rw [e2] at h2 ⊢
  rw [e1] at h1 ⊢
  constructor
  · refine mul_le_mul_of_nonneg_right ?_ hp.le
    have := pyRound_le ((le_div_iff₀ hp).2 h1)
    rw [pyRound_whole] at this
    exact_mod_cast this
  · refine mul_le_mul_of_nonneg_right ?_ hp.le
    have := pyRound_le ((div_le_iff₀ hp).2 h2.le)
    rw [pyRound_whole] at this
    exact_mod_cast this

theorem double_mono_pos {r s : Rat} (h : 0 < r) (hs : r ≤ s) : double r ≤ double s := by
  have hs0 := lt_of_lt_of_le h hs
  have hl : Int.log 2 r ≤ Int.log 2 s := Int.log_mono_right h hs
  rcases hl.lt_or_eq with hl | hl
  · refine le_trans (double_binade h).2 (le_trans ?_ (double_binade hs0).1)
    exact zpow_le_zpow_right₀ (by decide) hl
  · unfold double
    rw [if_neg h.ne', if_neg hs0.ne', abs_of_pos h, abs_of_pos hs0, hl]
    have hp : (0 : Rat) < 2 ^ (Int.log 2 s - 52) := zpow_pos (by decide) _
    refine mul_le_mul_of_nonneg_right ?_ hp.le
    exact_mod_cast pyRound_le (div_le_div_of_nonneg_right hs hp.le)

theorem double_pos {r : Rat} (h : 0 < r) : 0 < double r := lt_of_lt_of_le (zpow_pos (by decide) _) (double_binade h).1

/-- Rounding to double precision keeps the order, as C100 asks. -/
theorem C129_monotone : Monotone double := by
  intro r s hs
  rcases lt_trichotomy r 0 with h | h | h
  · rcases lt_trichotomy s 0 with h' | h' | h'
    · have := double_mono_pos (neg_pos.2 h') (neg_le_neg hs)
      rw [double_neg, double_neg] at this
      exact neg_le_neg_iff.1 this
    · have := double_pos (neg_pos.2 h)
      rw [double_neg] at this
      rw [h', roundedBy_zero C129_double]
      linarith
    · have h1 := double_pos (neg_pos.2 h)
      have h2 := double_pos h'
      rw [double_neg] at h1
      linarith
  · rw [h, roundedBy_zero C129_double]
    rcases (h ▸ hs).lt_or_eq with h' | h'
    · exact (double_pos h').le
    · rw [← h', roundedBy_zero C129_double]
  · exact double_mono_pos h hs

/-- C129, runs: a run on a raster in double precision, not rotated, meets what the theorems about runs assume
of positions; the rest are the same conditions as without rounding. -/
theorem C129_run (E : SaddleEnv) (hd : FineFloats (1 / 2 ^ 53) E.d) (h1 : EnvOk E.toWalkEnv) (h2 : E.d.size < E.fuel)
    (h3 : PairOk E.d E.fc) (h4 : ∀ f u t, (E.find f u t).nodes.head? = some (MPt.ofP3 u) ∧
      (E.find f u t).nodes.getLast? = some (MPt.ofP3 t)) : RunOk E := ⟨h1, C129_back _ _ hd, h2, h3, h4⟩

/-- A raster of one degree in steps of a second of arc, in double precision, whatever its heights. -/
def exDegree (cell : Int → Int → Rat) : DataMap where
  maxX := 3600
  maxY := 3600
  cell := cell
  nodata := none
  gt0 := -72
  gt1 := double (1 / 3600)
  gt3 := 45
  gt5 := -double (1 / 3600)
  fl := double

/-- The hypotheses hold there. -/
theorem exDegree_fine (cell : Int → Int → Rat) : FineFloats (1 / 2 ^ 53) (exDegree cell) :=
  ⟨by decide +kernel, by decide +kernel, C129_double, rfl, rfl, by simp only [exDegree]; decide +kernel, by simp only [exDegree]; decide +kernel⟩

example (cell : Int → Int → Rat) : Told (exDegree cell) ∧ Findable (exDegree cell) ∧ Monotone (exDegree cell).fl :=
  ⟨C129_told _ _ (exDegree_fine cell) (by simp only [exDegree]; decide +kernel) (by simp only [exDegree]; decide +kernel),
    C129_back _ _ (exDegree_fine cell), C129_monotone⟩

/-- A position four tenths of a pixel off is found. -/
example (cell : Int → Int → Rat) : (exDegree cell).latLongToXY (45 - 17 / 36000) (-72 + 26 / 36000) = some (2, 3) :=
  C129_lookup _ _ (exDegree_fine cell) (2, 3) ⟨by decide, by simp [exDegree], by decide, by simp [exDegree]⟩ _ _
    (by simp only [exDegree]; decide +kernel) (by simp only [exDegree]; decide +kernel)

/-- Its coordinates are not exact: the cell (1, 1) is at 44.99972222222222 degrees, off by less than 10⁻¹⁴. -/
example : ((exDegree fun _ _ => 0).xyToLatLon 1 1).1 ≠ 45 - 1 / 3600 ∧
    |((exDegree fun _ _ => 0).xyToLatLon 1 1).1 - (45 - 1 / 3600)| < 1 / 10 ^ 14 := by
  decide +kernel

/-- The two peaks of `exRows` on such a grid. -/
def exFloat : DataMap := laid (exDegree fun _ _ => 0) (DataMap.ofRows exRows)

theorem exFloat_fine : FineFloats (1 / 2 ^ 53) exFloat :=
  ⟨by decide +kernel, by decide +kernel, C129_double, rfl, rfl, by unfold exFloat; decide +kernel, by unfold exFloat; decide +kernel⟩

theorem exFloat_ok : RunOk (exRun exFloat) :=
  exRun_findable _ (by intro v hv; simp [exFloat, laid, DataMap.ofRows] at hv) (C129_back _ _ exFloat_fine)
    (by unfold maxsize; decide +kernel)

/-! ### Parts of a raster -/

theorem axis_origin (h0 : 0 ≤ u) (h1 : u ≤ 1 / 1000) {o o' g : Rat} {a : Int} {m N : Nat} (ha : 0 ≤ a) (hm : a + m ≤ N)
    (ho : |o' - (o + a * g)| ≤ 4 * (u * (|o| + N * |g|))) :
    u * (|o'| + m * |g|) ≤ 1004 / 1000 * (u * (|o| + N * |g|)) := by
  have hS0 : 0 ≤ |o| + N * |g| := add_nonneg (abs_nonneg _) (mul_nonneg (Nat.cast_nonneg _) (abs_nonneg _))
  have h2 : |o'| ≤ |o| + a * |g| + 4 * (u * (|o| + N * |g|)) := by
    have e1 := abs_add_le (o' - (o + a * g)) (o + a * g)
    have e2 := abs_add_le o (a * g)
    rw [sub_add_cancel] at e1
    rw [abs_mul, abs_of_nonneg (show (0 : Rat) ≤ a by exact_mod_cast ha)] at e2
    linarith
  have h3 : ((a : Rat) + m) * |g| ≤ N * |g| := mul_le_mul_of_nonneg_right (by exact_mod_cast hm) (abs_nonneg _)
  have h4 : |o'| + m * |g| ≤ (|o| + N * |g|) + 4 * (u * (|o| + N * |g|)) := by
    rw [add_mul] at h3
    linarith
  have h5 := mul_le_mul_of_nonneg_left h4 h0
  have h6 := mul_le_mul_of_nonneg_right h1 (mul_nonneg h0 hS0)
  linarith

theorem subset_gt0 (d : DataMap) (x y : Int) (xs ys : Nat) : (d.subset x y xs ys).gt0 = lonOf d (x, y) := rfl

theorem subset_gt3 (d : DataMap) (x y : Int) (xs ys : Nat) : (d.subset x y xs ys).gt3 = latOf d (x, y) := rfl

/-- C129 for parts: a part of a raster is again one whose rounding errors are small, if seventeen units are less than a
pixel. -/
theorem C129_subset (u : Rat) (d : DataMap) (hd : FineFloats u d) (x y : Int) (xs ys : Nat) (hx : 0 < xs) (hy : 0 < ys)
    (h0 : 0 ≤ x) (h1 : 0 ≤ y) (h2 : x + xs ≤ d.maxX + 1) (h3 : y + ys ≤ d.maxY + 1)
    (hlon : 17 * (u * (|d.gt0| + d.maxY * |d.gt1|)) < |d.gt1|)
    (hlat : 17 * (u * (|d.gt3| + d.maxX * |d.gt5|)) < |d.gt5|) : FineFloats u (d.subset x y xs ys) := by
  have hin : InB d (x, y) := ⟨h0, by show x ≤ (d.maxX : Int); omega, h1, by show y ≤ (d.maxY : Int); omega⟩
  have k1 := axis_origin (o := d.gt0) (o' := lonOf d (x, y)) (g := d.gt1) (a := y) (m := ys - 1) (N := d.maxY) hd.nonneg hd.small h1
    (by omega) (lon_near hd hin)
  have k2 := axis_origin (o := d.gt3) (o' := latOf d (x, y)) (g := d.gt5) (a := x) (m := xs - 1) (N := d.maxX) hd.nonneg hd.small h0
    (by omega) (lat_near hd hin)
  have p1 : 0 ≤ u * (|d.gt0| + d.maxY * |d.gt1|) := mul_nonneg hd.nonneg (add_nonneg (abs_nonneg _)
    (mul_nonneg (Nat.cast_nonneg _) (abs_nonneg _)))
  have p2 : 0 ≤ u * (|d.gt3| + d.maxX * |d.gt5|) := mul_nonneg hd.nonneg (add_nonneg (abs_nonneg _)
    (mul_nonneg (Nat.cast_nonneg _) (abs_nonneg _)))
  refine ⟨hd.nonneg, hd.small, hd.rounded, hd.gt2, hd.gt4, ?_, ?_⟩
  · rw [subset_gt0, show (d.subset x y xs ys).maxY = ys - 1 from rfl, show (d.subset x y xs ys).gt1 = d.gt1 from rfl]
    linarith
  · rw [subset_gt3, show (d.subset x y xs ys).maxX = xs - 1 from rfl, show (d.subset x y xs ys).gt5 = d.gt5 from rfl]
    linarith

/-- Positions in a part: each cell of a part has the coordinates of the cell of the whole, up to thirteen units of rounding. -/
theorem C129_subset_near (u : Rat) (d : DataMap) (hd : FineFloats u d) (x y : Int) (xs ys : Nat) (hx : 0 < xs) (hy : 0 < ys)
    (h0 : 0 ≤ x) (h1 : 0 ≤ y) (h2 : x + xs ≤ d.maxX + 1) (h3 : y + ys ≤ d.maxY + 1)
    (hlon : 17 * (u * (|d.gt0| + d.maxY * |d.gt1|)) < |d.gt1|)
    (hlat : 17 * (u * (|d.gt3| + d.maxX * |d.gt5|)) < |d.gt5|) (i j : Int) (hij : InB (d.subset x y xs ys) (i, j)) :
    |((d.subset x y xs ys).xyToLatLon i j).1 - (d.xyToLatLon (x + i) (y + j)).1| ≤ 13 * (u * (|d.gt3| + d.maxX * |d.gt5|)) ∧
    |((d.subset x y xs ys).xyToLatLon i j).2 - (d.xyToLatLon (x + i) (y + j)).2| ≤ 13 * (u * (|d.gt0| + d.maxY * |d.gt1|)) := by
  have hs := C129_subset u d hd x y xs ys hx hy h0 h1 h2 h3 hlon hlat
  have hin : InB d (x, y) := ⟨h0, by show x ≤ (d.maxX : Int); omega, h1, by show y ≤ (d.maxY : Int); omega⟩
  have b := hij
  obtain ⟨b1, b2, b3, b4⟩ := b
  have b2' : i ≤ ((xs - 1 : Nat) : Int) := b2
  have b4' : j ≤ ((ys - 1 : Nat) : Int) := b4
  have b1' : 0 ≤ i := b1
  have b3' : 0 ≤ j := b3
  have hin' : InB d (x + i, y + j) := ⟨by show 0 ≤ x + i; omega, by show x + i ≤ (d.maxX : Int); omega, by show 0 ≤ y + j; omega,
    by show y + j ≤ (d.maxY : Int); omega⟩
  have k1 := axis_origin (o := d.gt0) (o' := lonOf d (x, y)) (g := d.gt1) (a := y) (m := ys - 1) (N := d.maxY) hd.nonneg hd.small h1
    (by omega) (lon_near hd hin)
  have k2 := axis_origin (o := d.gt3) (o' := latOf d (x, y)) (g := d.gt5) (a := x) (m := xs - 1) (N := d.maxX) hd.nonneg hd.small h0
    (by omega) (lat_near hd hin)
  have p1 : 0 ≤ u * (|d.gt0| + d.maxY * |d.gt1|) := mul_nonneg hd.nonneg (add_nonneg (abs_nonneg _)
    (mul_nonneg (Nat.cast_nonneg _) (abs_nonneg _)))
  have p2 : 0 ≤ u * (|d.gt3| + d.maxX * |d.gt5|) := mul_nonneg hd.nonneg (add_nonneg (abs_nonneg _)
    (mul_nonneg (Nat.cast_nonneg _) (abs_nonneg _)))
  constructor
  · have a1 : |latOf (d.subset x y xs ys) (i, j) - (latOf d (x, y) + i * d.gt5)| ≤
        4 * (u * (|latOf d (x, y)| + (xs - 1 : Nat) * |d.gt5|)) := by
      have := lat_near hs hij
      rwa [subset_gt3, show (d.subset x y xs ys).maxX = xs - 1 from rfl, show (d.subset x y xs ys).gt5 = d.gt5 from rfl] at this
    have a2 := lat_near hd hin
    have a3 := lat_near hd hin'
    show |latOf (d.subset x y xs ys) (i, j) - latOf d (x + i, y + j)| ≤ _
    generalize latOf (d.subset x y xs ys) (i, j) = A at *
    generalize latOf d (x + i, y + j) = B at *
    generalize latOf d (x, y) = C at *
    push_cast at *
    rw [abs_le] at *
    constructor <;> linarith
  · have a1 : |lonOf (d.subset x y xs ys) (i, j) - (lonOf d (x, y) + j * d.gt1)| ≤
        4 * (u * (|lonOf d (x, y)| + (ys - 1 : Nat) * |d.gt1|)) := by
      have := lon_near hs hij
      rwa [subset_gt0, show (d.subset x y xs ys).maxY = ys - 1 from rfl, show (d.subset x y xs ys).gt1 = d.gt1 from rfl] at this
    have a2 := lon_near hd hin
    have a3 := lon_near hd hin'
    show |lonOf (d.subset x y xs ys) (i, j) - lonOf d (x + i, y + j)| ≤ _
    generalize lonOf (d.subset x y xs ys) (i, j) = A at *
    generalize lonOf d (x + i, y + j) = B at *
    generalize lonOf d (x, y) = C at *
    push_cast at *
    rw [abs_le] at *
    constructor <;> linarith

example (cell : Int → Int → Rat) : FineFloats (1 / 2 ^ 53) ((exDegree cell).subset 1000 1000 100 100) :=
  C129_subset _ _ (exDegree_fine cell) 1000 1000 100 100 (by decide) (by decide) (by decide) (by decide) (by simp [exDegree])
    (by simp [exDegree]) (by simp only [exDegree]; decide +kernel) (by simp only [exDegree]; decide +kernel)

end PyProm
