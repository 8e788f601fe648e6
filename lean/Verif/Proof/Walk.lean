import Verif.Spec.Assumptions
import Verif.Model.Walk
import Verif.Proof.Discovery
import Verif.Proof.Closest
import Verif.Spec.Walk
import Mathlib.Data.List.Chain

/-
Climbing: termination, ascent, domain bookkeeping.
-/
namespace PyProm
open Spec

/-! ### Steepest neighbour -/

/-- A neighbour that is not skipped. -/
def Cand (pe : Rat) (n : Nbr) (e : Rat) : Prop := n.2.2 = some e ∧ pe ≤ e

theorem steepFold_spec (w : Int → Int → Rat → Rat) (x y : Int) (pe : Rat) (l : List Nbr)
    (hw : ∀ n ∈ l, ∀ r, 0 ≤ r → 0 ≤ w (x - n.1) (y - n.2.1) r) :
    (l.foldl (steepStep w x y pe) (none, -1) = (none, -1) ∧ ∀ n ∈ l, ∀ e, ¬ Cand pe n e) ∨
    ∃ pre n post e, l = pre ++ n :: post ∧ Cand pe n e ∧
      l.foldl (steepStep w x y pe) (none, -1) =
        (some ⟨n.1, n.2.1, e⟩, w (x - n.1) (y - n.2.1) (e - pe)) ∧
      (∀ m ∈ pre, ∀ e', Cand pe m e' →
        w (x - m.1) (y - m.2.1) (e' - pe) < w (x - n.1) (y - n.2.1) (e - pe)) ∧
      ∀ m ∈ post, ∀ e', Cand pe m e' →
        w (x - m.1) (y - m.2.1) (e' - pe) ≤ w (x - n.1) (y - n.2.1) (e - pe) := by
  induction l using List.reverseRecOn with
  | nil => left; simp
  | append_singleton l a ih =>
    have ih := ih fun n hn => hw n (List.mem_append_left _ hn)
    have hwa := hw a (by simp)
    rw [List.foldl_append]
    simp only [List.foldl_cons, List.foldl_nil]
    -- one step
    have step : ∀ best : Option P3 × Rat, (∃ e, Cand pe a e ∧
        steepStep w x y pe best a = if best.2 < w (x - a.1) (y - a.2.1) (e - pe) then
          (some ⟨a.1, a.2.1, e⟩, w (x - a.1) (y - a.2.1) (e - pe)) else best) ∨
        ((∀ e, ¬ Cand pe a e) ∧ steepStep w x y pe best a = best) := by
      intro best
      unfold steepStep Cand
      cases ha : a.2.2 with
      | none => right; simp
      | some e =>
        simp only [Option.some.injEq]
        by_cases hlt : e < pe
        · right
          refine ⟨fun e' h => ?_, by rw [if_pos hlt]⟩
          rw [← h.1] at h
          exact absurd hlt (not_lt.2 h.2)
        · left
          refine ⟨e, ⟨rfl, not_lt.1 hlt⟩, ?_⟩
          rw [if_neg hlt]
          have : ¬ w (x - a.1) (y - a.2.1) (e - pe) < 0 := by
            rw [not_lt]
            exact hwa _ (sub_nonneg.2 (not_lt.1 hlt))
          rw [if_neg this]
    have candU : ∀ e e', Cand pe a e → Cand pe a e' → e = e' := by
      intro e e' h h'
      have := h.1.symm.trans h'.1
      simpa using this
    rcases ih with ⟨h, hno⟩ | ⟨pre, n, post, e, hl, hc, h, hpre, hpost⟩
    · rw [h]
      rcases step (none, -1) with ⟨e, hc, hs⟩ | ⟨hn, hs⟩
      · rw [hs, if_pos]
        · refine .inr ⟨l, a, [], e, rfl, hc, rfl, fun m hm e' hc' => absurd hc' (hno m hm e'), by simp⟩
        · have : (0 : Rat) ≤ w (x - a.1) (y - a.2.1) (e - pe) :=
            hwa _ (sub_nonneg.2 hc.2)
          simp only
          linarith
      · rw [hs]
        refine .inl ⟨rfl, fun m hm e => ?_⟩
        rcases List.mem_append.1 hm with h1 | h1
        · exact hno m h1 e
        · rw [List.mem_singleton.1 h1]; exact hn e
    · rw [h]
      rcases step (some ⟨n.1, n.2.1, e⟩, w (x - n.1) (y - n.2.1) (e - pe)) with ⟨e2, hc2, hs⟩ | ⟨hn, hs⟩
      · rw [hs]
        dsimp only
        by_cases hlt : w (x - n.1) (y - n.2.1) (e - pe) < w (x - a.1) (y - a.2.1) (e2 - pe)
        · rw [if_pos hlt]
          refine .inr ⟨l, a, [], e2, rfl, hc2, rfl, fun m hm e' hc' => ?_, by simp⟩
          rw [hl] at hm
          rcases List.mem_append.1 hm with h1 | h1
          · exact lt_trans (hpre m h1 e' hc') hlt
          · rcases List.mem_cons.1 h1 with rfl | h1
            · have : e' = e := by simpa using hc'.1.symm.trans hc.1
              rw [this]; exact hlt
            · exact lt_of_le_of_lt (hpost m h1 e' hc') hlt
        · rw [if_neg hlt]
          refine .inr ⟨pre, n, post ++ [a], e, by rw [hl]; simp, hc, rfl, hpre, fun m hm e' hc' => ?_⟩
          rcases List.mem_append.1 hm with h1 | h1
          · exact hpost m h1 e' hc'
          · rw [List.mem_singleton.1 h1] at hc' ⊢
            rw [candU e' e2 hc' hc2]
            exact not_lt.1 hlt
      · rw [hs]
        refine .inr ⟨pre, n, post ++ [a], e, by rw [hl]; simp, hc, rfl, hpre, fun m hm e' hc' => ?_⟩
        rcases List.mem_append.1 hm with h1 | h1
        · exact hpost m h1 e' hc'
        · rw [List.mem_singleton.1 h1] at hc'
          exact absurd hc' (hn e')

theorem get_data {d : DataMap} {p : Pt} (h : InB d p) : d.get p.1 p.2 = some (el d p) := by
  obtain ⟨a, b, c, e⟩ := h
  simp only [DataMap.get, npIndex]
  rw [if_pos ⟨a, b⟩, if_pos ⟨c, e⟩]
  rfl

theorem adj_shift {p q : Pt} (h : Adj p q) : Adj (0, 0) (p.1 - q.1, p.2 - q.2) := by
  obtain ⟨h0, h⟩ := h
  refine ⟨fun c => h0 ?_, ?_⟩
  · simp only [Prod.mk.injEq] at c
    exact Prod.ext (by omega) (by omega)
  · simp only; omega

theorem iterateFull_pos {d : DataMap} {w : Int → Int → Rat → Rat} (hw : Upward w) (p : Pt) :
    ∀ n ∈ d.iterateFull p.1 p.2, ∀ r, 0 ≤ r → 0 ≤ w (p.1 - n.1) (p.2 - n.2.1) r := by
  rintro ⟨x, y, oe⟩ hn r hr
  have h := hw _ (adj_shift ((mem_iterateFull d p.1 p.2 x y oe).1 hn).1)
  rcases hr.eq_or_lt with rfl | hr
  · exact h.1.ge
  · exact (h.2 r hr).le

/-- With low nodata the neighbours that are not skipped are data cells. -/
theorem cand_data {d : DataMap} (hl : NodataLow d) {p : Pt} (hp : Data d p) {n : Nbr}
    (hn : n ∈ d.iterateFull p.1 p.2) {e : Rat} (hc : Cand (el d p) n e) :
    Adj p (n.1, n.2.1) ∧ Data d (n.1, n.2.1) ∧ e = el d (n.1, n.2.1) ∧ el d p ≤ e := by
  obtain ⟨x, y, oe⟩ := n
  obtain ⟨h1, h2⟩ := hc
  simp only at h1
  subst h1
  have hne : some e ≠ d.nodata := by
    intro h
    exact absurd (hl e h.symm p hp) (not_lt.2 h2)
  obtain ⟨a, b, c⟩ := (mem_iterateFull_data d p.1 p.2 x y e hne).1 hn
  exact ⟨a, b, c, h2⟩

theorem steepest_spec {d : DataMap} (hl : NodataLow d) {w : Int → Int → Rat → Rat} (hw : Upward w)
    {p : Pt} (hp : Data d p) :
    (steepestNeighbor d w p.1 p.2 = .ok none ∧ ∀ q, Adj p q → Data d q → el d q < el d p) ∨
    ∃ sn : P3, steepestNeighbor d w p.1 p.2 = .ok (some sn) ∧ sn.e = el d sn.xy ∧
      Steepest d w p sn.xy := by
  unfold steepestNeighbor
  rw [get_data hp.1]
  dsimp only
  have memq : ∀ q, Adj p q → Data d q → (q.1, q.2, some (el d q)) ∈ d.iterateFull p.1 p.2 := by
    intro q ha hd
    exact (mem_iterateFull_data d p.1 p.2 q.1 q.2 (el d q) hd.2).2 ⟨ha, hd, rfl⟩
  rcases steepFold_spec w p.1 p.2 (el d p) (d.iterateFull p.1 p.2) (iterateFull_pos hw p) with
    ⟨h, hno⟩ | ⟨pre, n, post, e, hl', hc, h, hpre, hpost⟩
  · left
    rw [h]
    refine ⟨rfl, fun q ha hd => ?_⟩
    by_contra hge
    exact hno _ (memq q ha hd) (el d q) ⟨rfl, not_lt.1 hge⟩
  · right
    rw [h]
    have hn : n ∈ d.iterateFull p.1 p.2 := by rw [hl']; simp
    obtain ⟨a, b, c, f⟩ := cand_data hl hp hn hc
    refine ⟨⟨n.1, n.2.1, e⟩, rfl, c, a, b, le_of_le_of_eq f c, fun q ha hd hle => ?_⟩
    have hq := memq q ha hd
    rw [hl'] at hq
    have hcq : Cand (el d p) (q.1, q.2, some (el d q)) (el d q) := ⟨rfl, hle⟩
    have key : ∀ m ∈ pre ++ n :: post, ∀ e', Cand (el d p) m e' →
        w (p.1 - m.1) (p.2 - m.2.1) (e' - el d p) ≤ w (p.1 - n.1) (p.2 - n.2.1) (e - el d p) := by
      intro m hm e' hc'
      rcases List.mem_append.1 hm with h1 | h1
      · exact le_of_lt (hpre m h1 e' hc')
      · rcases List.mem_cons.1 h1 with rfl | h1
        · have : e' = e := by simpa using hc'.1.symm.trans hc.1
          rw [this]
        · exact hpost m h1 e' hc'
    have := key _ hq _ hcq
    unfold slope
    change _ ≤ w _ _ (el d (n.1, n.2.1) - el d p)
    rw [← c]
    exact this

/-- A strictly higher neighbour makes the steepest step strictly rising. -/
theorem steepest_rises {d : DataMap} {w : Int → Int → Rat → Rat} (hw : Upward w) {p q : Pt} {r : Pt}
    (ha : Adj p q) (hr : Adj p r) (hlt : el d p < el d q) (hge : el d p ≤ el d r)
    (hle : slope d w p q (el d q) ≤ slope d w p r (el d r)) : el d p < el d r := by
  unfold slope at hle
  have h1 := (hw _ (adj_shift ha)).2 _ (sub_pos.2 hlt)
  rcases hge.eq_or_lt with h | h
  · rw [← h, sub_self, (hw _ (adj_shift hr)).1] at hle
    exact absurd (lt_of_lt_of_le h1 hle) (lt_irrefl _)
  · exact h

/-! ### Domain bookkeeping -/

theorem extend_lookup (s : WSt) (D : Nat) (ps : List Pt) (q : Pt) :
    (s.extend D ps).lookup q = if q ∈ ps then some D else s.lookup q := by
  unfold WSt.extend
  induction ps generalizing s with
  | nil => simp
  | cons p ps ih =>
    rw [List.foldl_cons, ih]
    simp only [WSt.append, List.mem_cons]
    by_cases h1 : q ∈ ps
    · simp [h1]
    · by_cases h2 : q = p
      · simp [h2]
      · simp [h1, h2]

theorem extend_points (s : WSt) (D : Nat) (ps : List Pt) (k : Nat) :
    (s.extend D ps).points k = if k = D then s.points k ++ ps else s.points k := by
  unfold WSt.extend
  induction ps generalizing s with
  | nil => simp
  | cons p ps ih =>
    rw [List.foldl_cons, ih]
    simp only [WSt.append]
    by_cases h : k = D
    · simp [h]
    · simp [h]

/-- Invariant of a walk. `S k` are the cells of summit `k`. -/
structure WInv (d : DataMap) (S : Nat → Pt → Prop) (s : WSt) : Prop where
  tops : ∀ p, Data d p → IsTop d p → ∃ D, s.lookup p = some D
  sound : ∀ p D, s.lookup p = some D → Data d p ∧ ∃ q, S D q ∧ Ascends d p q
  listed : ∀ k p, p ∈ s.points k → ∃ D, s.lookup p = some D
  nodup : ∀ k, (s.points k).Nodup
  disj : ∀ j k p, p ∈ s.points j → p ∈ s.points k → j = k
  asc : ∀ k p, p ∈ s.points k → Data d p ∧ ∃ q, S k q ∧ Ascends d p q

/-- Number of cells strictly above `e`. -/
def above (d : DataMap) (e : Rat) : Nat := (d.cells.filter fun p => decide (e < el d p)).length

theorem above_lt {d : DataMap} {e : Rat} {p : Pt} (hp : InB d p) (h : e < el d p) :
    above d (el d p) < above d e := by
  unfold above
  have sub : (d.cells.filter fun q => decide (el d p < el d q)).Sublist
      (d.cells.filter fun q => decide (e < el d q)) := by
    have : (d.cells.filter fun q => decide (el d p < el d q)) =
        (d.cells.filter fun q => decide (e < el d q)).filter fun q => decide (el d p < el d q) := by
      rw [List.filter_filter]
      refine List.filter_congr fun q _ => ?_
      by_cases h1 : el d p < el d q
      · simp [h1, lt_trans h h1]
      · simp [h1]
    rw [this]
    exact List.filter_sublist
  refine lt_of_le_of_ne sub.length_le fun hlen => ?_
  have heq := sub.eq_of_length hlen
  have : p ∈ d.cells.filter fun q => decide (e < el d q) :=
    List.mem_filter.2 ⟨(mem_cells d p).2 hp, by simpa using h⟩
  rw [← heq] at this
  have := (List.mem_filter.1 this).2
  simp at this

theorem above_le_size (d : DataMap) (e : Rat) : above d e ≤ d.size := by
  rw [← length_cells]
  exact List.length_filter_le _ _

theorem Spec.Flat.ascends {d : DataMap} {p q : Pt} (h : Flat d p q) : Ascends d p q := by
  induction h with
  | refl => exact .refl
  | tail _ h2 ih => exact ih.tail ⟨h2.1, h2.2.1, le_of_eq h2.2.2.symm⟩

/-- From any member of a flat area one can ascend to every higher cell touching the area. -/
theorem highRim_ascends {d : DataMap} {p q r : Pt} (hp : Data d p) (hq : Flat d p q)
    (hr : HighRim d p r) : Ascends d q r := by
  obtain ⟨⟨hrd, _, m, hm, ha⟩, hlt⟩ := hr
  refine (Flat.ascends ((Flat.symm hp hq).trans hm)).tail ⟨ha, hrd, ?_⟩
  rw [(flat_data hp hm).2]
  exact le_of_lt hlt

theorem assignFlat_spec {m : P3 → Option P3} {high : List P3} : ∀ (ms : List P3) (s : WSt),
    (∀ u ∈ ms, ∃ t ∈ high, m u = some t) → (∀ t ∈ high, ∃ D, s.lookup t.xy = some D) →
    (∀ u ∈ ms, ∀ t ∈ high, u.xy ≠ t.xy) →
    ∃ s', assignFlat m ms s = .ok s' ∧ s'.points = s.points ∧
      (∀ q, (∀ u ∈ ms, u.xy ≠ q) → s'.lookup q = s.lookup q) ∧
      ∀ u ∈ ms, ∃ t ∈ high, ∃ D, s.lookup t.xy = some D ∧ s'.lookup u.xy = some D := by
  intro ms
  induction ms with
  | nil => intro s _ _ _; exact ⟨s, rfl, rfl, fun _ _ => rfl, by simp⟩
  | cons u ms ih =>
    intro s h1 h2 h3
    obtain ⟨t, ht, hm⟩ := h1 u (by simp)
    obtain ⟨D, hD⟩ := h2 t ht
    have keep : ∀ t ∈ high, (if t.xy = u.xy then some D else s.lookup t.xy) = s.lookup t.xy := by
      intro t ht
      rw [if_neg fun h => h3 u (by simp) t ht h.symm]
    obtain ⟨s', e1, e2, e3, e4⟩ := ih
      { s with lookup := fun q => if q = u.xy then some D else s.lookup q }
      (fun v hv => h1 v (List.mem_cons_of_mem _ hv))
      (fun t ht => by simp only; rw [keep t ht]; exact h2 t ht)
      (fun v hv => h3 v (List.mem_cons_of_mem _ hv))
    refine ⟨s', ?_, e2, ?_, ?_⟩
    · unfold assignFlat
      rw [hm]
      dsimp only
      rw [hD]
      exact e1
    · intro q hq
      rw [e3 q fun v hv => hq v (List.mem_cons_of_mem _ hv)]
      simp only
      rw [if_neg fun h => hq u (by simp) h.symm]
    · intro v hv
      by_cases hvm : ∃ v' ∈ ms, v'.xy = v.xy
      · obtain ⟨v', hv', hxy⟩ := hvm
        obtain ⟨t', ht', D', hD', hl⟩ := e4 v' hv'
        simp only at hD'
        rw [keep t' ht'] at hD'
        exact ⟨t', ht', D', hD', by rw [← hxy]; exact hl⟩
      · push Not at hvm
        rcases List.mem_cons.1 hv with rfl | hv
        · refine ⟨t, ht, D, hD, ?_⟩
          rw [e3 v.xy hvm]
          simp
        · exact absurd rfl (hvm v hv)

/-- Outcome of a climb. -/
structure Climbed (E : WalkEnv) (S : Nat → Pt → Prop) (s : WSt) (climbed : List Pt) (cur : P3)
    (D : Nat) (s' : WSt) : Prop where
  inv : WInv E.d S s'
  keep : ∀ p, (∃ k, s.lookup p = some k) → ∃ k, s'.lookup p = some k
  path : ∃ old tail, s'.points D = old ++ (climbed ++ tail) ∧
    List.IsChain (RiseStep E.d E.w) (climbed ++ tail) ∧
    (∀ q ∈ climbed ++ tail, s'.lookup q = some D) ∧
    ∃ last ∈ (climbed ++ tail).getLast?, ∃ q, Steepest E.d E.w last q ∧ s'.lookup q = some D
  news : ∀ k p, p ∈ s'.points k → p ∈ s.points k ∨ p ∈ climbed ∨ cur.e < el E.d p

theorem extend_inv {E : WalkEnv} {S : Nat → Pt → Prop} {s : WSt} (hs : WInv E.d S s) {climbed : List Pt}
    {D : Nat} (hn : climbed.Nodup) (hd : ∀ p ∈ climbed, Data E.d p)
    (hl : ∀ k, ∀ p ∈ climbed, p ∉ s.points k) (ha : ∀ p ∈ climbed, ∃ q, S D q ∧ Ascends E.d p q) :
    WInv E.d S (s.extend D climbed) := by
  constructor
  · intro p h1 h2
    rw [extend_lookup]
    split
    · exact ⟨D, rfl⟩
    · exact hs.tops p h1 h2
  · intro p k h
    rw [extend_lookup] at h
    split at h
    · rename_i hp
      simp only [Option.some.injEq] at h
      subst h
      exact ⟨hd p hp, ha p hp⟩
    · exact hs.sound p k h
  · intro k p h
    rw [extend_lookup]
    split
    · exact ⟨D, rfl⟩
    · rename_i hp
      rw [extend_points] at h
      split at h
      · rcases List.mem_append.1 h with h | h
        · exact hs.listed k p h
        · exact absurd h hp
      · exact hs.listed k p h
  · intro k
    rw [extend_points]
    split
    · refine List.nodup_append.2 ⟨hs.nodup k, hn, fun a ha b hb hab => ?_⟩
      exact hl k b hb (hab ▸ ha)
    · exact hs.nodup k
  · intro j k p hj hk
    rw [extend_points] at hj hk
    by_cases hjD : j = D
    · by_cases hkD : k = D
      · rw [hjD, hkD]
      · rw [if_pos hjD] at hj
        rw [if_neg hkD] at hk
        rcases List.mem_append.1 hj with h | h
        · exact hs.disj j k p h hk
        · exact absurd hk (hl k p h)
    · rw [if_neg hjD] at hj
      by_cases hkD : k = D
      · rw [if_pos hkD] at hk
        rcases List.mem_append.1 hk with h | h
        · exact hs.disj j k p hj h
        · exact absurd hj (hl j p h)
      · rw [if_neg hkD] at hk
        exact hs.disj j k p hj hk
  · intro k p hp
    rw [extend_points] at hp
    split at hp
    · rename_i hk
      rcases List.mem_append.1 hp with h | h
      · exact hs.asc k p h
      · rw [hk]; exact ⟨hd p h, ha p h⟩
    · exact hs.asc k p hp

/-- Precondition of the climb loop. -/
structure Climbing (E : WalkEnv) (s : WSt) (climbed : List Pt) (cur : P3) : Prop where
  data : Data E.d cur.xy
  elev : cur.e = el E.d cur.xy
  last : climbed.getLast? = some cur.xy
  chain : List.IsChain (RiseStep E.d E.w) climbed
  mem : ∀ p ∈ climbed, Data E.d p ∧ s.lookup p = none ∧ el E.d p ≤ cur.e ∧ Ascends E.d p cur.xy
  nodup : climbed.Nodup

/-- What one climb guarantees, from any state satisfying the invariant. -/
def ClimbOk (E : WalkEnv) (S : Nat → Pt → Prop) (n : Nat) : Prop :=
  ∀ (s : WSt) (climbed : List Pt) (cur : P3), WInv E.d S s → Climbing E s climbed cur →
    above E.d cur.e < n →
    ∃ D s', climbLoop E n s climbed cur = .ok (some D, s') ∧ Climbed E S s climbed cur D s'

theorem Climbing.start {E : WalkEnv} {s : WSt} {p : P3} (hd : Data E.d p.xy) (he : p.e = el E.d p.xy)
    (hl : s.lookup p.xy = none) : Climbing E s [p.xy] p where
  data := hd
  elev := he
  last := rfl
  chain := by simp
  mem := by
    intro q hq
    rw [List.mem_singleton.1 hq]
    exact ⟨hd, hl, le_of_eq he.symm, .refl⟩
  nodup := by simp

/-- Climbing from several points, one after the other. -/
theorem climbAll_spec {E : WalkEnv} {S : Nat → Pt → Prop} {n : Nat} (hC : ClimbOk E S n) :
    ∀ (ps : List P3) (s : WSt), WInv E.d S s →
      (∀ p ∈ ps, Data E.d p.xy ∧ p.e = el E.d p.xy ∧ above E.d p.e < n) →
      ∃ s', climbAll (climbLoop E n) ps s = .ok s' ∧ WInv E.d S s' ∧
        (∀ p, (∃ k, s.lookup p = some k) → ∃ k, s'.lookup p = some k) ∧
        (∀ p ∈ ps, ∃ k, s'.lookup p.xy = some k) ∧
        ∀ k q, q ∈ s'.points k → q ∈ s.points k ∨ ∃ p ∈ ps, p.e ≤ el E.d q := by
  intro ps
  induction ps with
  | nil => intro s hs _; exact ⟨s, rfl, hs, fun _ h => h, by simp, fun _ _ h => .inl h⟩
  | cons p ps ih =>
    intro s hs hp
    obtain ⟨h1, h2, h3⟩ := hp p (by simp)
    have hp' := fun q hq => hp q (List.mem_cons_of_mem _ hq)
    cases hl : s.lookup p.xy with
    | some D =>
      obtain ⟨s', e1, e2, e3, e4, e5⟩ := ih s hs hp'
      refine ⟨s', ?_, e2, e3, ?_, fun k q hq => (e5 k q hq).imp_right
        fun ⟨x, hx, hle⟩ => ⟨x, List.mem_cons_of_mem _ hx, hle⟩⟩
      · unfold climbAll; rw [hl]; exact e1
      · intro q hq
        rcases List.mem_cons.1 hq with rfl | hq
        · exact e3 _ ⟨D, hl⟩
        · exact e4 q hq
    | none =>
      obtain ⟨D, s1, c1, c2⟩ := hC s [p.xy] p hs (.start h1 h2 hl) h3
      obtain ⟨s', e1, e2, e3, e4, e5⟩ := ih s1 c2.inv hp'
      refine ⟨s', ?_, e2, fun q hq => e3 q (c2.keep q hq), ?_, ?_⟩
      · unfold climbAll
        rw [hl]
        dsimp only
        rw [c1]
        exact e1
      · intro q hq
        rcases List.mem_cons.1 hq with rfl | hq
        · obtain ⟨old, tail, _, _, hall, _⟩ := c2.path
          exact e3 _ ⟨D, hall _ (by simp)⟩
        · exact e4 q hq
      · intro k q hq
        rcases e5 k q hq with h | ⟨x, hx, hle⟩
        · rcases c2.news k q h with h | h | h
          · exact .inl h
          · rw [List.mem_singleton.1 h]
            exact .inr ⟨p, by simp, le_of_eq h2⟩
          · exact .inr ⟨p, by simp, le_of_lt h⟩
        · exact .inr ⟨x, List.mem_cons_of_mem _ hx, hle⟩

theorem climbLoop_spec {E : WalkEnv} (hE : EnvOk E) (S : Nat → Pt → Prop) : ∀ n, ClimbOk E S n := by
  intro n
  induction n with
  | zero => intro s climbed cur _ _ h; omega
  | succ n ih =>
    intro s climbed cur hs hc hab
    have hcl : cur.xy ∈ climbed := List.mem_of_getLast? hc.last
    have hnl := (hc.mem _ hcl).2.1
    have hnotlisted : ∀ k, ∀ p ∈ climbed, p ∉ s.points k := by
      intro k p hp hk
      obtain ⟨D, hD⟩ := hs.listed k p hk
      rw [(hc.mem p hp).2.1] at hD
      simp at hD
    unfold climbLoop
    rcases steepest_spec hE.low hE.pos hc.data with ⟨h, hall⟩ | ⟨sn, h, he, hst⟩
    · -- a single-cell top is in the table
      exfalso
      obtain ⟨D, hD⟩ := hs.tops cur.xy hc.data (by
        rintro r ⟨⟨hr, hne, m, hm, ham⟩, hlt⟩
        have hmc : m = cur.xy := by
          rcases Relation.ReflTransGen.cases_head hm with h | ⟨c, hlev, _⟩
          · exact h.symm
          · have := hall c hlev.1 hlev.2.1
            rw [hlev.2.2] at this
            exact absurd this (lt_irrefl _)
        rw [hmc] at ham
        exact lt_irrefl _ (lt_trans hlt (hall r ham hr)))
      rw [hnl] at hD
      simp at hD
    · rw [show steepestNeighbor E.d E.w cur.x cur.y = .ok (some sn) from h]
      dsimp only
      have hd : Data E.d sn.xy := hst.2.1
      have hup : UpStep E.d cur.xy sn.xy := ⟨hst.1, hd, hst.2.2.1⟩
      have hle : cur.e ≤ sn.e := by rw [hc.elev, he]; exact hst.2.2.1
      cases hls : s.lookup sn.xy with
      | some D =>
        dsimp only
        refine ⟨D, _, rfl, ?_⟩
        obtain ⟨_, t, ht, hasc⟩ := hs.sound _ _ hls
        constructor
        · refine extend_inv hs hc.nodup (fun p hp => (hc.mem p hp).1) hnotlisted fun p hp => ?_
          exact ⟨t, ht, ((hc.mem p hp).2.2.2.tail hup).trans hasc⟩
        · rintro p ⟨k, hk⟩
          rw [extend_lookup]
          split
          · exact ⟨D, rfl⟩
          · exact ⟨k, hk⟩
        · refine ⟨s.points D, [], ?_, ?_, ?_, ?_⟩
          · rw [extend_points, if_pos rfl]; simp
          · simpa using hc.chain
          · intro q hq
            rw [extend_lookup, if_pos (by simpa using hq)]
          · refine ⟨cur.xy, by simpa using hc.last, sn.xy, hst, ?_⟩
            rw [extend_lookup]
            split
            · rfl
            · exact hls
        · intro k p hp
          rw [extend_points] at hp
          split at hp
          · rcases List.mem_append.1 hp with h | h
            · exact .inl h
            · exact .inr (.inl h)
          · exact .inl hp
      | none =>
        dsimp only
        by_cases heq : sn.e = cur.e
        · rw [if_pos heq]
          -- the flat area entered at sn
          obtain ⟨b, hb, hbs⟩ := equalHeightBlob_spec E.d sn.xy hd
          rw [show equalHeightBlob E.d sn.x sn.y sn.e = some b by rw [he]; exact hb]
          dsimp only
          have hfilt : (b.perim.filter fun p => decide (p.e > sn.e)) = b.perim := by
            refine List.filter_eq_self.2 fun p hp => ?_
            obtain ⟨h1, h2⟩ := (hbs.perim p).1 hp
            rw [h2, he]
            simpa using h1.2
          rw [hfilt]
          have hperim : ∀ p ∈ b.perim, Data E.d p.xy ∧ p.e = el E.d p.xy ∧ cur.e < p.e := by
            intro p hp
            obtain ⟨h1, h2⟩ := (hbs.perim p).1 hp
            refine ⟨h1.1.1, h2, ?_⟩
            rw [← heq, he, h2]
            exact h1.2
          have hne : b.perim ≠ [] := by
            intro hnil
            obtain ⟨D, hD⟩ := hs.tops sn.xy hd (by
              intro r hr
              have : (⟨r.1, r.2, el E.d r⟩ : P3) ∈ b.perim := (hbs.perim _).2 ⟨hr, rfl⟩
              rw [hnil] at this
              simp at this)
            rw [hls] at hD
            simp at hD
          obtain ⟨s1, e1, e2, e3, e4, e5⟩ := climbAll_spec ih b.perim s hs (by
            intro p hp
            obtain ⟨h1, h2, h3⟩ := hperim p hp
            refine ⟨h1, h2, ?_⟩
            rw [h2] at h3 ⊢
            have := above_lt h1.1 h3
            omega)
          rw [e1]
          dsimp only
          generalize hmem : (b.points.map fun p => (⟨p.1, p.2, b.elevation⟩ : P3)) = members
          have hmx : ∀ u ∈ members, Flat E.d sn.xy u.xy := by
            intro u hu
            rw [← hmem] at hu
            obtain ⟨p, hp, rfl⟩ := List.mem_map.1 hu
            exact (hbs.points p).1 hp
          have hmx' : ∀ q, Flat E.d sn.xy q → ∃ u ∈ members, u.xy = q := by
            intro q hq
            refine ⟨⟨q.1, q.2, b.elevation⟩, ?_, rfl⟩
            rw [← hmem]
            exact List.mem_map.2 ⟨q, (hbs.points q).2 hq, rfl⟩
          obtain ⟨m, hm, hmv⟩ := hE.near members b.perim hne
            (fun u hu => (flat_data hd (hmx u hu)).1.1) (fun t ht => (hperim t ht).1.1)
          rw [hm]
          dsimp only
          have hsep : ∀ u ∈ members, ∀ t ∈ b.perim, u.xy ≠ t.xy := by
            intro u hu t ht hxy
            obtain ⟨_, h2, h3⟩ := hperim t ht
            have := (flat_data hd (hmx u hu)).2
            rw [hxy, ← h2, ← he, heq] at this
            rw [this] at h3
            exact lt_irrefl _ h3
          obtain ⟨s2, a1, a2, a3, a4⟩ := assignFlat_spec members s1 hmv e4 hsep
          rw [a1]
          dsimp only
          obtain ⟨u0, hu0, hu0x⟩ := hmx' sn.xy .refl
          obtain ⟨t0, ht0, D, hD0, hD⟩ := a4 u0 hu0
          rw [hu0x] at hD
          rw [hD]
          dsimp only
          have hlook2 : ∀ p k, s2.lookup p = some k →
              (s1.lookup p = some k ∧ ∀ u ∈ members, u.xy ≠ p) ∨
              (Flat E.d sn.xy p ∧ ∃ t ∈ b.perim, s1.lookup t.xy = some k) := by
            intro p k hpk
            by_cases hpm : ∃ u ∈ members, u.xy = p
            · obtain ⟨u, hu, rfl⟩ := hpm
              obtain ⟨t, ht, D', hD', hl'⟩ := a4 u hu
              rw [hpk] at hl'
              simp only [Option.some.injEq] at hl'
              subst hl'
              exact .inr ⟨hmx u hu, t, ht, hD'⟩
            · push Not at hpm
              rw [a3 p hpm] at hpk
              exact .inl ⟨hpk, hpm⟩
          have hkeep2 : ∀ p, (∃ k, s1.lookup p = some k) → ∃ k, s2.lookup p = some k := by
            rintro p ⟨k, hk⟩
            by_cases hpm : ∃ u ∈ members, u.xy = p
            · obtain ⟨u, hu, rfl⟩ := hpm
              obtain ⟨t, ht, D', _, hl'⟩ := a4 u hu
              exact ⟨D', hl'⟩
            · push Not at hpm
              rw [a3 p hpm]
              exact ⟨k, hk⟩
          have inv2 : WInv E.d S s2 := by
            constructor
            · intro p h1 h2; exact hkeep2 p (e2.tops p h1 h2)
            · intro p k hpk
              rcases hlook2 p k hpk with ⟨h1, _⟩ | ⟨hf, t, ht, htk⟩
              · exact e2.sound p k h1
              · refine ⟨(flat_data hd hf).1, ?_⟩
                obtain ⟨_, q, hq, hasc⟩ := e2.sound _ _ htk
                exact ⟨q, hq, (highRim_ascends hd hf ((hbs.perim t).1 ht).1).trans hasc⟩
            · intro k p hp
              rw [a2] at hp
              exact hkeep2 p (e2.listed k p hp)
            · intro k; rw [a2]; exact e2.nodup k
            · intro j k p hj hk
              rw [a2] at hj hk
              exact e2.disj j k p hj hk
            · intro k p hp
              rw [a2] at hp
              exact e2.asc k p hp
          have hnews : ∀ k p, p ∈ s2.points k → p ∈ s.points k ∨ cur.e < el E.d p := by
            intro k p hp
            rw [a2] at hp
            rcases e5 k p hp with h | ⟨x, hx, hle⟩
            · exact .inl h
            · exact .inr (lt_of_lt_of_le (hperim x hx).2.2 hle)
          refine ⟨D, _, rfl, ?_⟩
          obtain ⟨_, t, ht, hasc⟩ := inv2.sound _ _ hD
          constructor
          · refine extend_inv inv2 hc.nodup (fun p hp => (hc.mem p hp).1) ?_ fun p hp => ?_
            · intro k p hp hk
              rcases hnews k p hk with h | h
              · exact hnotlisted k p hp h
              · exact absurd (hc.mem p hp).2.2.1 (not_le.2 h)
            · exact ⟨t, ht, ((hc.mem p hp).2.2.2.tail hup).trans hasc⟩
          · intro p hp
            obtain ⟨k, hk⟩ := hkeep2 p (e3 p hp)
            rw [extend_lookup]
            split
            · exact ⟨D, rfl⟩
            · exact ⟨k, hk⟩
          · refine ⟨s2.points D, [], ?_, ?_, ?_, ?_⟩
            · rw [extend_points, if_pos rfl]; simp
            · simpa using hc.chain
            · intro q hq
              rw [extend_lookup, if_pos (by simpa using hq)]
            · refine ⟨cur.xy, by simpa using hc.last, sn.xy, hst, ?_⟩
              rw [extend_lookup]
              split
              · rfl
              · exact hD
          · intro k p hp
            rw [extend_points] at hp
            have := hnews k p
            split at hp
            · rcases List.mem_append.1 hp with h | h
              · exact (this h).imp_right .inr
              · exact .inr (.inl h)
            · exact (this hp).imp_right .inr
        · rw [if_neg heq]
          have hlt : cur.e < sn.e := lt_of_le_of_ne hle fun h => heq h.symm
          have hrise : RiseStep E.d E.w cur.xy sn.xy := ⟨hst, by rw [← hc.elev, ← he]; exact hlt⟩
          have hc' : Climbing E s (climbed ++ [sn.xy]) sn := by
            refine ⟨hd, he, by simp, ?_, ?_, ?_⟩
            · refine List.isChain_append.2 ⟨hc.chain, by simp, ?_⟩
              intro x hx y hy
              rw [hc.last] at hx
              simp at hx hy
              rw [← hx, ← hy]
              exact hrise
            · intro p hp
              rcases List.mem_append.1 hp with hp | hp
              · obtain ⟨h1, h2, h3, h4⟩ := hc.mem p hp
                exact ⟨h1, h2, le_trans h3 hle, h4.tail hup⟩
              · rw [List.mem_singleton.1 hp]
                exact ⟨hd, hls, le_of_eq he.symm, .refl⟩
            · refine List.nodup_append.2 ⟨hc.nodup, by simp, fun a ha b hb hab => ?_⟩
              rw [List.mem_singleton.1 hb] at hab
              have := (hc.mem a ha).2.2.1
              rw [hab, ← he] at this
              exact absurd this (not_le.2 hlt)
          obtain ⟨D, s', g1, g2⟩ := ih s (climbed ++ [sn.xy]) sn hs hc' (by
            have hlt' := hlt
            rw [he] at hlt' ⊢
            have := above_lt hd.1 hlt'
            omega)
          refine ⟨D, s', g1, g2.inv, g2.keep, ?_, ?_⟩
          · obtain ⟨old, tail, p1, p2, p3, p4⟩ := g2.path
            refine ⟨old, sn.xy :: tail, ?_, ?_, ?_, ?_⟩
            · rw [p1]; simp
            · simpa using p2
            · intro q hq; exact p3 q (by simpa using hq)
            · simpa using p4
          · intro k p hp
            rcases g2.news k p hp with h | h | h
            · exact .inl h
            · rcases List.mem_append.1 h with h | h
              · exact .inr (.inl h)
              · rw [List.mem_singleton.1 h, ← he]
                exact .inr (.inr hlt)
            · exact .inr (.inr (lt_trans hlt h))

end PyProm
