import Verif.Spec.Util
import Verif.Props.Grid
import Mathlib.Data.List.Chain
import Mathlib.Tactic.Tauto

/-
Properties of the helpers in util.py (C50, C51, C70, C71) and of FastLookup (C52, C69).
-/
namespace PyProm
open Spec

/-! ### C50 -/

theorem truncRat_nonneg {r : Rat} (h : 0 ≤ r) : (truncRat r : Rat) ≤ r ∧ r < truncRat r + 1 ∧ 0 ≤ truncRat r := by
  unfold truncRat
  rw [if_neg (not_lt.2 h)]
  have hg : r < r.floor + 1 := by
    have := Rat.lt_floor_add_one r
    push_cast at this
    exact this
  refine ⟨Rat.floor_le r, hg, ?_⟩
  have : (-1 : Rat) < r.floor := by linarith
  have : (-1 : Int) < r.floor := by exact_mod_cast this
  omega

theorem truncRat_neg {r : Rat} (h : r < 0) : r ≤ truncRat r ∧ (truncRat r : Rat) < r + 1 ∧ truncRat r ≤ 0 := by
  have h' : (0 : Rat) ≤ -r := by linarith
  obtain ⟨a, b, c⟩ := truncRat_nonneg h'
  have e : truncRat r = -truncRat (-r) := by
    unfold truncRat
    rw [if_pos h, if_neg (not_lt.2 h')]
  rw [e]
  push_cast
  refine ⟨by linarith, by linarith, by omega⟩

theorem absRat_eq (r : Rat) : absRat r = |r| := by
  unfold absRat
  split
  · rename_i h; rw [abs_of_neg h]
  · rename_i h; rw [abs_of_nonneg (not_lt.1 h)]

/-- C50, degrees to minutes and seconds: the degrees are those of the coordinate, cut off towards zero, and the
minutes and seconds, both from 0 to 60, make up the rest. -/
theorem C50_minutes_seconds (c : Rat) :
    |c - (toDms c).1| < 1 ∧ |((toDms c).1 : Rat)| ≤ |c| ∧ 0 ≤ c * (toDms c).1 ∧
    0 ≤ (toDms c).2.1 ∧ (toDms c).2.1 < 60 ∧ 0 ≤ (toDms c).2.2 ∧ (toDms c).2.2 < 60 ∧
    |c - (toDms c).1| = (toDms c).2.1 / 60 + (toDms c).2.2 / 3600 := by
  have h1 : |c - (toDms c).1| < 1 ∧ |((toDms c).1 : Rat)| ≤ |c| ∧ 0 ≤ c * (toDms c).1 := by
    unfold toDms
    dsimp only
    rcases lt_or_ge c 0 with h | h
    · obtain ⟨a, b, d⟩ := truncRat_neg h
      have d' : (truncRat c : Rat) ≤ 0 := by exact_mod_cast d
      rw [abs_of_nonpos (by linarith), abs_of_nonpos d', abs_of_neg h]
      exact ⟨by linarith, by linarith, mul_nonneg_of_nonpos_of_nonpos h.le d'⟩
    · obtain ⟨a, b, d⟩ := truncRat_nonneg h
      have d' : (0 : Rat) ≤ truncRat c := by exact_mod_cast d
      rw [abs_of_nonneg (by linarith), abs_of_nonneg d', abs_of_nonneg h]
      exact ⟨by linarith, a, mul_nonneg h d'⟩
  refine ⟨h1.1, h1.2.1, h1.2.2, ?_⟩
  have h2 := h1.1
  unfold toDms at h2 ⊢
  dsimp only at h2 ⊢
  rw [absRat_eq]
  have hm : 0 ≤ |c - (truncRat c : Rat)| * 60 := mul_nonneg (abs_nonneg _) (by norm_num)
  obtain ⟨a, b, d⟩ := truncRat_nonneg hm
  refine ⟨d, ?_, ?_, ?_, ?_⟩
  · have : (truncRat (|c - (truncRat c : Rat)| * 60) : Rat) < 60 := by linarith
    exact_mod_cast this
  · linarith
  · linarith
  · ring

/-- Converting there and back. -/
def dmsBack (c : Rat) : Rat := ofDms (toDms c).1 (toDms c).2.1 (toDms c).2.2

theorem dmsBack_eq (c : Rat) : dmsBack c = round6 ((toDms c).1 + |c - (toDms c).1|) / 1000000 := by
  obtain ⟨_, _, _, _, _, _, _, h⟩ := C50_minutes_seconds c
  unfold dmsBack ofDms
  rw [h]
  congr 3
  ring

theorem round6_int (n : Int) : round6 ((n : Rat) / 1000000) = n := by
  unfold round6
  rw [div_mul_cancel₀ _ (by norm_num)]
  exact pyRound_near n n (by linarith) (by linarith)

/-- C50 for coordinates that are not negative: back within half a millionth of a degree, and exactly if the
coordinate has at most six decimals. -/
theorem C50_nonneg_partial (c : Rat) (hc : 0 ≤ c) :
    |dmsBack c - c| ≤ 1 / 2000000 ∧ (∀ n : Int, c = n / 1000000 → dmsBack c = c) := by
  have h : dmsBack c = round6 c / 1000000 := by
    rw [dmsBack_eq]
    have h : (toDms c).1 = truncRat c := rfl
    rw [h, abs_of_nonneg (by linarith [(truncRat_nonneg hc).1])]
    congr 3
    ring
  rw [h]
  refine ⟨?_, fun n hn => by rw [hn, round6_int]⟩
  have := (pyRound_spec (c * 1000000)).1
  unfold round6
  rw [abs_sub_comm] at this
  have e : (pyRound (c * 1000000) : Rat) / 1000000 - c = (pyRound (c * 1000000) - c * 1000000) / 1000000 := by ring
  rw [e, abs_div, abs_of_pos (show (0 : Rat) < 1000000 by norm_num), div_le_iff₀ (by norm_num)]
  linarith

/-- C50 holds for negative coordinates in whole degrees. -/
theorem C50_whole_degrees_partial (n : Int) : dmsBack n = n := by
  rcases le_or_gt 0 n with h | h
  · refine (C50_nonneg_partial n (by exact_mod_cast h)).2 (n * 1000000) ?_
    push_cast; ring
  · have h' : (n : Rat) < 0 := by exact_mod_cast h
    obtain ⟨a, b, _⟩ := truncRat_neg h'
    have e : truncRat (n : Rat) = n := by
      have a' : n ≤ truncRat (n : Rat) := by exact_mod_cast a
      have b' : truncRat (n : Rat) < n + 1 := by exact_mod_cast b
      omega
    rw [dmsBack_eq]
    have h : (toDms (n : Rat)).1 = truncRat n := rfl
    rw [h, e]
    simp only [sub_self, abs_zero, add_zero]
    have : (n : Rat) = ((n * 1000000 : Int) : Rat) / 1000000 := by push_cast; ring
    rw [this, round6_int]

/-- Instances: both conversions of 44.123457 and of -71. -/
example : toDms (44123457 / 1000000) = (44, 7, 244452 / 10000) ∧
    dmsBack (44123457 / 1000000) = 44123457 / 1000000 ∧ dmsBack (-71) = -71 := by decide +kernel

/-- C50 fails for every negative coordinate with six decimals that is not a whole number of degrees. -/
theorem C50_negative_refuted (n : Int) (hn : n < 0) (hd : ¬ (1000000 : Int) ∣ n) :
    dmsBack (n / 1000000) ≠ n / 1000000 := by
  have h' : ((n : Rat) / 1000000) < 0 := div_neg_of_neg_of_pos (by exact_mod_cast hn) (by norm_num)
  obtain ⟨a, _, _⟩ := truncRat_neg h'
  set t := truncRat ((n : Rat) / 1000000) with ht
  have h0 : (toDms ((n : Rat) / 1000000)).1 = t := rfl
  rw [dmsBack_eq, h0, abs_of_nonpos (by linarith)]
  have e : (t : Rat) + -((n : Rat) / 1000000 - t) = ((2 * t * 1000000 - n : Int) : Rat) / 1000000 := by
    push_cast; ring
  rw [e, round6_int]
  intro hc
  have hc2 : ((2 * t * 1000000 - n : Int) : Rat) = n := by
    have := (div_left_inj' (show (1000000 : Rat) ≠ 0 by norm_num)).1 hc
    exact this
  have hc3 : 2 * t * 1000000 - n = n := by exact_mod_cast hc2
  exact hd ⟨t, by omega⟩

/-- Minus one and a half degrees come back as minus one half. -/
example : toDms (-3 / 2) = (-1, 30, 0) ∧ dmsBack (-3 / 2) = -1 / 2 := by decide +kernel

/-! ### C51 -/

theorem groupby_spec {α : Type} [DecidableEq α] (s : List α) :
    (∀ g ∈ groupby s, g.2 = List.replicate g.2.length g.1 ∧ g.2 ≠ []) ∧
    ((groupby s).map (·.1)).IsChain (· ≠ ·) ∧ ((groupby s).map (·.2)).flatten = s := by
  induction s with
  | nil => simp [groupby]
  | cons a l ih =>
    obtain ⟨h1, h2, h3⟩ := ih
    unfold groupby
    cases hg : groupby l with
    | nil =>
      rw [hg] at h3
      have h3 : l = [] := by simpa using h3.symm
      subst h3
      simp
    | cons e gs =>
      obtain ⟨b, g⟩ := e
      rw [hg] at h1 h2 h3
      dsimp only
      by_cases hab : a = b
      · subst hab
        rw [if_pos rfl]
        refine ⟨?_, h2, by simpa using h3⟩
        intro x hx
        rcases List.mem_cons.1 hx with rfl | hx
        · refine ⟨?_, by simp⟩
          dsimp only
          rw [List.length_cons, List.replicate_succ, ← (h1 (a, g) (by simp)).1]
        · exact h1 x (by simp [hx])
      · rw [if_neg hab]
        refine ⟨?_, ?_, by simpa using h3⟩
        · intro x hx
          rcases List.mem_cons.1 hx with rfl | hx
          · simp
          · exact h1 x hx
        · rw [List.map_cons, List.map_cons, List.isChain_cons_cons]
          exact ⟨hab, h2⟩

theorem groupby_chain {α : Type} [DecidableEq α] (s : List α) (h : s.IsChain (· ≠ ·)) :
    groupby s = s.map fun a => (a, [a]) := by
  induction s with
  | nil => rfl
  | cons a l ih =>
    unfold groupby
    cases l with
    | nil => simp [groupby]
    | cons b l =>
      rw [List.isChain_cons_cons] at h
      rw [ih h.2]
      simp [h.1]

/-- C51: neighbouring characters of the result differ, the original is the result with characters repeated, and
compressing again changes nothing. -/
theorem C51_compress {α : Type} [DecidableEq α] (s : List α) :
    (compressChars s).IsChain (· ≠ ·) ∧ RepeatOf (compressChars s) s ∧
    compressChars (compressChars s) = compressChars s := by
  obtain ⟨h1, h2, h3⟩ := groupby_spec s
  refine ⟨h2, ⟨(groupby s).map fun g => g.2.length, by simp [compressChars], ?_, ?_⟩, ?_⟩
  · intro n hn
    obtain ⟨g, hg, rfl⟩ := List.mem_map.1 hn
    exact List.length_pos_iff.2 (h1 g hg).2
  · conv_lhs => rw [← h3]
    unfold compressChars
    congr 1
    rw [List.zipWith_map, List.zipWith_self]
    exact List.map_congr_left fun g hg => (h1 g hg).1
  · unfold compressChars
    rw [groupby_chain _ h2, List.map_map]
    simp [Function.comp_def]

/-- The compressed string is the only one without equal neighbours that the original is a repetition of. -/
theorem C51_unique {α : Type} [DecidableEq α] (s t : List α) (h : t.IsChain (· ≠ ·)) (hr : RepeatOf t s) :
    t = compressChars s := by
  obtain ⟨ns, h1, h2, rfl⟩ := hr
  induction t generalizing ns with
  | nil =>
    cases ns with
    | nil => rfl
    | cons n ns => simp at h1
  | cons a t ih =>
    cases ns with
    | nil => simp at h1
    | cons n ns =>
      have ih' := ih (List.IsChain.tail h) ns (by simpa using h1) fun m hm => h2 m (by simp [hm])
      simp only [List.zipWith_cons_cons, List.flatten_cons]
      obtain ⟨m, rfl⟩ : ∃ m, n = m + 1 := ⟨n - 1, by have := h2 n (by simp); omega⟩
      clear h1 h2
      generalize (List.zipWith (fun n a => List.replicate n a) ns t).flatten = r at ih'
      induction m with
      | zero =>
        simp only [Nat.zero_add, List.replicate_one, List.cons_append, List.nil_append]
        unfold compressChars at ih' ⊢
        unfold groupby
        cases hg : groupby r with
        | nil => rw [hg] at ih'; subst ih'; simp
        | cons e gs =>
          rw [hg] at ih'
          subst ih'
          rw [List.map_cons, List.isChain_cons_cons] at h
          dsimp only
          rw [if_neg h.1]
          simp
      | succ m ihm =>
        rw [List.replicate_succ, List.cons_append]
        unfold compressChars at ihm ⊢
        rw [groupby]
        have : ∃ g gs, groupby (List.replicate (m + 1) a ++ r) = (a, g) :: gs := by
          cases hg : groupby (List.replicate (m + 1) a ++ r) with
          | nil => rw [hg] at ihm; cases ihm
          | cons e gs =>
            rw [hg] at ihm
            simp only [List.map_cons, List.cons.injEq] at ihm
            exact ⟨e.2, gs, by rw [ihm.1]⟩
        obtain ⟨g, gs, hg⟩ := this
        rw [hg] at ihm ⊢
        dsimp only
        rw [if_pos rfl]
        simpa using ihm

/-- Instance, the one of the docstring: HHLHHHLL becomes HLHL. -/
example : compressChars "HHLHHHLL".toList = "HLHL".toList ∧ "HLHL".toList.IsChain (· ≠ ·) := by decide +kernel

/-! ### C52 -/

section lookup
variable {K V : Type} [DecidableEq K]

theorem PyDict.get_upd {β : Type} (d : PyDict K β) (k k' : K) (g : Option β → β) :
    PyDict.get (PyDict.upd k g d) k' = if k = k' then some (g (PyDict.get d k)) else PyDict.get d k' := by
  induction d with
  | nil =>
    unfold PyDict.upd PyDict.get
    by_cases h : k = k' <;> simp [h]
  | cons e d ih =>
    obtain ⟨a, b⟩ := e
    unfold PyDict.upd
    by_cases hak : a = k
    · subst hak
      rw [if_pos rfl]
      unfold PyDict.get
      by_cases h : a = k' <;> simp [h]
    · rw [if_neg hak]
      unfold PyDict.get at ih ⊢
      by_cases h : a = k'
      · subst h
        simp [Ne.symm hak]
      · simp [h, ih, hak]

theorem PyDict.get_snoc {β : Type} (d : PyDict K β) (k k' : K) (b : β) (h : PyDict.get d k = none) :
    PyDict.get (d ++ [(k, b)]) k' = if k = k' then some b else PyDict.get d k' := by
  unfold PyDict.get at h ⊢
  rw [List.find?_append]
  by_cases hk : k = k'
  · subst hk
    rw [Option.map_eq_none_iff] at h
    simp [h]
  · simp [hk]

/-- What a lookup holds at a coordinate. -/
def FastLookup.at (s : FastLookup K V) (x y : K) : Option (FVal V) :=
  (PyDict.get s.hash x).bind fun r => PyDict.get r y

theorem FastLookup.row_ok (s : FastLookup K V) (hs : s.auto = true) (x : K) :
    ∃ s' r, s.row x = .ok (s', r) ∧ s'.auto = true ∧ s'.default = s.default ∧ PyDict.get s'.hash x = some r ∧
      ∀ x' y', s'.at x' y' = s.at x' y' := by
  unfold FastLookup.row
  cases h : PyDict.get s.hash x with
  | some r => exact ⟨s, r, rfl, hs, rfl, h, fun _ _ => rfl⟩
  | none =>
    dsimp only
    rw [if_pos hs]
    refine ⟨_, [], rfl, hs, rfl, ?_, fun x' y' => ?_⟩
    · dsimp only
      rw [PyDict.get_snoc _ _ _ _ h, if_pos rfl]
    · unfold FastLookup.at
      dsimp only
      rw [PyDict.get_snoc _ _ _ _ h]
      split
      · rename_i hx
        rw [← hx, h]
        rfl
      · rfl

theorem FastLookup.set_ok (s : FastLookup K V) (hs : s.auto = true) (x y : K) (v : FVal V) :
    ∃ s', s.set x y v = .ok s' ∧ s'.auto = true ∧ s'.default = s.default ∧
      ∀ x' y', s'.at x' y' = if x = x' ∧ y = y' then some v else s.at x' y' := by
  obtain ⟨s1, r, h1, h2, h3, h4, h5⟩ := s.row_ok hs x
  unfold FastLookup.set
  rw [h1]
  dsimp only [bind, Except.bind]
  refine ⟨_, rfl, h2, h3, fun x' y' => ?_⟩
  rw [← h5]
  unfold FastLookup.at
  dsimp only
  rw [PyDict.get_upd]
  by_cases hx : x = x'
  · subst hx
    rw [if_pos rfl, h4]
    simp only [Option.bind_some, PyDict.get_upd, true_and]
  · rw [if_neg hx, if_neg (by tauto)]

theorem FastLookup.get_ok (s : FastLookup K V) (hs : s.auto = true) (x y : K) :
    ∃ s', s.get x y = .ok (s', (s.at x y).getD s.default) ∧ s'.auto = true ∧ s'.default = s.default ∧
      ∀ x' y', s'.at x' y' = s.at x' y' := by
  obtain ⟨s1, r, h1, h2, h3, h4, h5⟩ := s.row_ok hs x
  unfold FastLookup.get
  rw [h1]
  dsimp only [bind, Except.bind]
  refine ⟨s1, ?_, h2, h3, h5⟩
  rw [← h5 x y, ← h3]
  unfold FastLookup.at
  rw [h4]
  rfl

/-- C52: whatever a lookup was built from, after any sequence of set, remove and get, get returns the value stored
last at the coordinate (None after a removal), and what it returned before if nothing was stored there;
no call fails. The hash is the lookup's own, or a `defaultdict`. -/
theorem C52_map (s : FastLookup K V) (hs : s.auto = true) (ops : List (FOp K V)) :
    ∃ s', ops.foldlM FOp.run s = .ok s' ∧ ∀ x y, ∃ s0 s1 v, s.get x y = .ok (s0, v) ∧
      s'.get x y = .ok (s1, (stored x y ops).getD v) := by
  have key : ∀ (ops : List (FOp K V)) (s : FastLookup K V), s.auto = true →
      ∃ s', ops.foldlM FOp.run s = .ok s' ∧ s'.auto = true ∧ s'.default = s.default ∧
        ∀ x y, s'.at x y = (stored x y ops).or (s.at x y) := by
    intro ops
    induction ops with
    | nil => intro s hs; exact ⟨s, rfl, hs, rfl, fun _ _ => by simp [stored]⟩
    | cons op ops ih =>
      intro s hs
      have h1 : ∃ s1, FOp.run s op = .ok s1 ∧ s1.auto = true ∧ s1.default = s.default ∧
          ∀ x y, s1.at x y = (stored x y [op]).or (s.at x y) := by
        cases op with
        | set x y v =>
          obtain ⟨s1, a, b, c, d⟩ := s.set_ok hs x y v
          refine ⟨s1, a, b, c, fun x' y' => ?_⟩
          rw [d]
          simp only [stored]
          split <;> simp
        | remove x y =>
          obtain ⟨s1, a, b, c, d⟩ := s.set_ok hs x y .none
          refine ⟨s1, a, b, c, fun x' y' => ?_⟩
          rw [d]
          simp only [stored]
          split <;> simp
        | get x y =>
          obtain ⟨s1, a, b, c, d⟩ := s.get_ok hs x y
          refine ⟨s1, ?_, b, c, fun x' y' => ?_⟩
          · show (s.get x y >>= fun r => pure r.1) = _
            rw [a]; rfl
          · rw [d]; simp [stored]
      obtain ⟨s1, a, b, c, d⟩ := h1
      obtain ⟨s', a', b', c', d'⟩ := ih s1 b
      refine ⟨s', ?_, b', c'.trans c, fun x y => ?_⟩
      · rw [List.foldlM_cons, a]; exact a'
      · rw [d', d]
        simp only [stored]
        cases stored x y ops <;> simp
  obtain ⟨s', a, b, c, d⟩ := key ops s hs
  refine ⟨s', a, fun x y => ?_⟩
  obtain ⟨s0, g1, _⟩ := s.get_ok hs x y
  obtain ⟨s1, g2, _⟩ := s'.get_ok b x y
  refine ⟨s0, s1, _, g1, ?_⟩
  rw [g2, d, c]
  cases stored x y ops <;> simp

/-- C52, new lookups: built from points of one kind, get returns the value of the last point at the coordinate
(True for points without value or if only existence is asked for), and the default elsewhere. -/
theorem C52_built (pts : List (FPt K V)) (d : FVal V) (oe : Bool) (hk : ∀ p ∈ pts, ∀ q ∈ pts, sameKind p q) :
    ∃ s, FastLookup.new pts none d oe = .ok s ∧ s.auto = true ∧
      ∀ x y, ∃ s', s.get x y = .ok (s', (lastAt oe x y pts).getD d) := by
  have key : ∀ (first : FPt K V) (l : List (FPt K V)) (s : FastLookup K V), s.auto = true →
      (∀ p ∈ l, sameKind first p) → ∃ s', l.foldlM (fun s p => do
        let (xy, v) ← first.entry oe p
        s.set xy.1 xy.2 v) s = .ok s' ∧ s'.auto = true ∧ s'.default = s.default ∧
        ∀ x y, s'.at x y = (lastAt oe x y l).or (s.at x y) := by
    intro first l
    induction l with
    | nil => intro s hs _; exact ⟨s, rfl, hs, rfl, fun _ _ => by simp [lastAt]⟩
    | cons p l ih =>
      intro s hs hl
      have he : first.entry oe p = .ok (ptCoords p, ptValue oe p) := by
        have := hl p (by simp)
        unfold FPt.entry
        cases first <;> cases p <;> simp [sameKind] at this <;> cases oe <;> rfl
      obtain ⟨s1, a, b, c, e⟩ := s.set_ok hs (ptCoords p).1 (ptCoords p).2 (ptValue oe p)
      obtain ⟨s', a', b', c', e'⟩ := ih s1 b fun q hq => hl q (by simp [hq])
      refine ⟨s', ?_, b', c'.trans c, fun x y => ?_⟩
      · rw [List.foldlM_cons, he]
        dsimp only [bind, Except.bind]
        rw [a]
        exact a'
      · rw [e', e]
        unfold lastAt
        rw [List.filter_cons]
        have hiff : ((ptCoords p).1 = x ∧ (ptCoords p).2 = y) ↔ ptCoords p = (x, y) := by
          rw [Prod.ext_iff]
        by_cases hp : ptCoords p = (x, y)
        · rw [if_pos (hiff.2 hp), if_pos (by simpa using hp), List.getLast?_cons]
          cases (l.filter fun p => ptCoords p = (x, y)).getLast? <;> simp
        · rw [if_neg (fun h => hp (hiff.1 h)), if_neg (by simpa using hp)]
  unfold FastLookup.new
  cases pts with
  | nil =>
    refine ⟨⟨[], true, d⟩, rfl, rfl, fun x y => ?_⟩
    obtain ⟨s', h, _⟩ := FastLookup.get_ok (⟨[], true, d⟩ : FastLookup K V) rfl x y
    exact ⟨s', h⟩
  | cons first l =>
    obtain ⟨s', a, b, c, e⟩ := key first (first :: l) ⟨[], true, d⟩ rfl fun p hp => hk first (by simp) p hp
    refine ⟨s', a, b, fun x y => ?_⟩
    obtain ⟨s'', h, _⟩ := s'.get_ok b x y
    refine ⟨s'', ?_⟩
    rw [h, e, c]
    have : (⟨[], true, d⟩ : FastLookup K V).at x y = none := rfl
    rw [this]
    simp

/-- C52, lookups on a given hash: get returns what the hash holds, and the default elsewhere; where the hash has no
row, it does so only if the hash is a `defaultdict`, otherwise it raises KeyError. Points are not read. -/
theorem C52_prebuilt (pts : List (FPt K V)) (h : PyDict K (PyDict K (FVal V))) (auto : Bool) (d : FVal V) (oe : Bool)
    (hne : h ≠ []) :
    ∃ s, FastLookup.new pts (some (h, auto)) d oe = .ok s ∧
      (∀ x y r, (h.find? fun e => e.1 = x) = some (x, r) → ∃ s',
        s.get x y = .ok (s', ((r.find? fun e => e.1 = y).map (·.2)).getD d)) ∧
      (∀ x y, (∀ e ∈ h, e.1 ≠ x) → (auto = true → ∃ s', s.get x y = .ok (s', d)) ∧
        (auto = false → s.get x y = .error .keyError)) := by
  cases h with
  | nil => exact absurd rfl hne
  | cons e h =>
    refine ⟨⟨e :: h, auto, d⟩, rfl, fun x y r hr => ?_, fun x y hx => ?_⟩
    · have e1 : PyDict.get (e :: h) x = some r := by
        unfold PyDict.get
        rw [hr]
        rfl
      refine ⟨⟨e :: h, auto, d⟩, ?_⟩
      unfold FastLookup.get FastLookup.row
      dsimp only
      rw [e1]
      rfl
    · have e1 : PyDict.get (e :: h) x = none := by
        unfold PyDict.get
        rw [Option.map_eq_none_iff, List.find?_eq_none]
        intro a ha
        simpa using hx a ha
      constructor
      · rintro rfl
        refine ⟨⟨(e :: h) ++ [(x, [])], true, d⟩, ?_⟩
        unfold FastLookup.get FastLookup.row
        dsimp only
        rw [e1]
        rfl
      · rintro rfl
        unfold FastLookup.get FastLookup.row
        dsimp only
        rw [e1]
        rfl

/-- Instance of `C52_prebuilt`: two rows, a plain dict. -/
example : ((FastLookup.new [.tup2 9 9] (some ([(1, [(2, .val 5)]), (3, [(4, .val 6)])], false)) .none false :
      Except PyErr (FastLookup Int Int)) >>= fun s => do
    pure ((← s.get 3 4).2, (← s.get 1 9).2)).toOption = some (.val 6, .none) := by decide +kernel

/-- Instances of C52: set, overwritten, removed and never stored. -/
example : ∃ s, ([.set 1 2 (.val 7), .set 1 3 (.val 8), .get 5 5, .set 1 2 (.val 9), .remove 1 3] :
      List (FOp Int Int)).foldlM FOp.run ⟨[], true, .none⟩ = .ok s ∧
    (s.get 1 2).toOption.map (·.2) = some (.val 9) ∧ (s.get 1 3).toOption.map (·.2) = some .none ∧
    (s.get 2 2).toOption.map (·.2) = some .none := ⟨_, rfl, by decide +kernel, by decide +kernel, by decide +kernel⟩

example : ((FastLookup.new [.grid 1 2 5, .grid 1 3 6, .grid 1 2 7] none .none false : Except PyErr (FastLookup Int Int)) >>=
    fun s => s.get 1 2).toOption.map (·.2) = some (.val 7) := by decide +kernel

/-- C52 fails for a lookup with a default: after removal None is returned, not the default. -/
theorem C52_removed_refuted : ∃ s s', ([.set 1 2 (.val 7), .remove 1 2] : List (FOp Int Int)).foldlM FOp.run
      ⟨[], true, .true⟩ = .ok s ∧ s.get 1 2 = .ok (s', .none) ∧ s.default = .true :=
  ⟨_, _, rfl, rfl, rfl⟩

/-- C52 fails for a lookup on a prebuilt plain dict: a coordinate in a new row can be neither stored nor read. -/
theorem C52_plain_dict_refuted : ∃ s : FastLookup Int Int,
    FastLookup.new [] (some ([(1, [(2, .val 7)])], false)) .none false = .ok s ∧
    s.set 3 4 (.val 8) = .error .keyError ∧ s.get 3 4 = .error .keyError ∧
    (s.get 1 2).toOption.map (·.2) = some (.val 7) := ⟨_, rfl, rfl, rfl, by decide +kernel⟩

/-! ### C69 -/

/-- C69 fails whenever there is something to return: slicing raises AttributeError as soon as a row is within the
bounds. -/
theorem C69_slice_refuted [LE K] [DecidableRel (α := K) (· ≤ ·)] (s : FastLookup K V) (lx ly ux uy x y : K)
    (v : FVal V) (h : s.at x y = some v) (h1 : lx ≤ x) (h2 : x ≤ ux) :
    s.slice lx ly ux uy = .error .attributeError := by
  unfold FastLookup.slice
  rw [if_pos]
  unfold FastLookup.at at h
  cases hr : PyDict.get s.hash x with
  | none => rw [hr] at h; cases h
  | some r =>
    unfold PyDict.get at hr
    obtain ⟨e, he, _⟩ := Option.map_eq_some_iff.1 hr
    rw [List.any_eq_true]
    have := List.find?_some he
    simp only [decide_eq_true_eq] at this
    exact ⟨e, List.mem_of_find?_eq_some he, by simp [this, h1, h2]⟩

/-- C69 where nothing is within the bounds: the slice is empty and keeps the default. -/
theorem C69_empty_partial [LE K] [DecidableRel (α := K) (· ≤ ·)] (s : FastLookup K V) (lx ly ux uy : K)
    (h : ∀ r ∈ s.hash, ¬ (r.1 ≤ ux ∧ lx ≤ r.1)) :
    ∃ s', s.slice lx ly ux uy = .ok s' ∧ s'.default = s.default ∧ ∀ x y, s'.at x y = none := by
  unfold FastLookup.slice
  rw [if_neg]
  · exact ⟨_, rfl, rfl, fun _ _ => rfl⟩
  · rw [List.any_eq_true]
    rintro ⟨r, hr, hc⟩
    simp only [Bool.and_eq_true, decide_eq_true_eq] at hc
    exact h r hr hc

/-- Instance: a lookup with one entry, inside the bounds and outside of them. -/
example : ∃ s : FastLookup Int Int, FastLookup.new [.tup3 1 2 7] none .none false = .ok s ∧
    s.slice 0 0 5 5 = .error .attributeError ∧ (s.slice 2 0 5 5).toOption.map (·.hash) = some [] :=
  ⟨_, rfl, rfl, by decide +kernel⟩

end lookup

/-! ### C70 -/

/-- C70: the list of a coordinate hash holds exactly the coordinates of the hash, each once. -/
theorem C70_hash_list {α : Type} (h : List (Int × List (Int × α))) (hn : (h.map (·.1)).Nodup)
    (hr : ∀ r ∈ h, (r.2.map (·.1)).Nodup) :
    (hashToList h).Nodup ∧ ∀ x y, (x, y) ∈ hashToList h ↔ ∃ r v, (x, r) ∈ h ∧ (y, v) ∈ r := by
  constructor
  · unfold hashToList
    rw [List.nodup_flatMap]
    refine ⟨fun r hr' => ?_, ?_⟩
    · have := hr r hr'
      rw [show (r.2.map fun c => (r.1, c.1)) = (r.2.map (·.1)).map fun y => (r.1, y) by simp [Function.comp_def]]
      exact this.map fun a b hab => by simpa using hab
    · have := List.pairwise_map.1 hn
      refine this.imp fun {a b} hab => ?_
      intro p hp hq
      obtain ⟨c, _, rfl⟩ := List.mem_map.1 hp
      obtain ⟨c', _, e⟩ := List.mem_map.1 hq
      simp only [Prod.mk.injEq] at e
      exact hab e.1.symm
  · intro x y
    unfold hashToList
    simp only [List.mem_flatMap, List.mem_map, Prod.mk.injEq]
    constructor
    · rintro ⟨r, h1, c, h2, rfl, rfl⟩
      exact ⟨r.2, c.2, h1, h2⟩
    · rintro ⟨r, v, h1, h2⟩
      exact ⟨(x, r), h1, (y, v), h2, rfl, rfl⟩

/-- Instance. -/
example : hashToList [(1, [(2, true), (5, true)]), (0, [(7, true)])] = [(1, 2), (1, 5), (0, 7)] := by decide +kernel

/-! ### C71 -/

theorem checksumLoop_all {H B : Type} {upd : H → List B → H} (hu : Streaming upd) {n : Nat} (hn : 0 < n) :
    ∀ (fuel : Nat) (h : H) (file : List B), file.length < fuel → checksumLoop upd n fuel h file = upd h file := by
  intro fuel
  induction fuel with
  | zero => intro h file hf; omega
  | succ fuel ih =>
    intro h file hf
    unfold checksumLoop
    dsimp only
    cases file with
    | nil => simp [hu.nil]
    | cons b file =>
      rw [if_neg]
      · rw [ih, hu.append, List.take_append_drop]
        simp only [List.length_drop, List.length_cons] at hf ⊢
        omega
      · obtain ⟨k, rfl⟩ : ∃ k, n = k + 1 := ⟨n - 1, by omega⟩
        simp

/-- C71: the checksum is the digest of the whole file, whatever positive chunk size is chosen. -/
theorem C71_checksum {H B D : Type} (init : H) (upd : H → List B → H) (digest : H → D) (hu : Streaming upd)
    (blockSize chunkBlocks : Nat) (h1 : 0 < blockSize) (h2 : 0 < chunkBlocks) (file : List B) :
    checksum init upd digest blockSize chunkBlocks file = digest (upd init file) := by
  unfold checksum
  rw [checksumLoop_all hu (Nat.mul_pos h2 h1) _ _ _ (Nat.lt_succ_self _)]

/-- Instance: collecting the bytes, in chunks of two. -/
example : Streaming (fun (h : List Nat) b => h ++ b) ∧
    checksum [] (fun (h : List Nat) b => h ++ b) List.sum 2 1 [3, 1, 4, 1, 5] = 14 :=
  ⟨⟨by simp, by simp⟩, by decide +kernel⟩

/-- With a chunk size of zero blocks nothing is read: all files have one checksum. -/
theorem C71_zero_blocks_refuted {H B D : Type} (init : H) (upd : H → List B → H) (digest : H → D) (blockSize : Nat)
    (file : List B) : checksum init upd digest blockSize 0 file = digest init := by
  unfold checksum checksumLoop
  simp

end PyProm
