import Verif.Proof.Grid
import Verif.Spec.Containers
import Verif.Model.Containers
import Mathlib.Algebra.Order.Ring.Rat
import Mathlib.Tactic.Linarith
import Mathlib.Data.List.Perm.Basic

namespace PyProm
open Spec

/-! ### Extremes -/

/-- What the loop of `lowest`/`highest` computes: `h` is the best value seen so far. -/
theorem extremeLoop_spec {α} (elev : α → Rat) (better : Rat → Rat → Bool) (le : Rat → Rat → Prop)
    [DecidableRel le]
    (hb : ∀ a b, better a b = true ↔ ¬ le b a) (refl : ∀ a, le a a) (anti : ∀ a b, le a b → le b a → a = b)
    (trans : ∀ a b c, le a b → le b c → le a c) (tot : ∀ a b, le a b ∨ le b a) :
    ∀ (ps done : List α) (h : Rat),
      (∀ q ∈ done, le h (elev q)) → (∃ q ∈ done ++ ps, elev q = h) →
      (extremeLoop elev better ps (h, done.filter fun p => decide (elev p = h))).2 =
        (done ++ ps).filter fun p => decide (∀ q ∈ done ++ ps, le (elev p) (elev q)) := by
  intro ps
  induction ps with
  | nil =>
    intro done h h1 h2
    simp only [extremeLoop, List.append_nil] at h2 ⊢
    refine List.filter_congr fun p hp => ?_
    simp only [decide_eq_decide]
    constructor
    · intro he q hq; rw [he]; exact h1 q hq
    · intro hl
      obtain ⟨q, hq, e⟩ := h2
      exact anti _ _ (e ▸ hl q hq) (h1 p hp)
  | cons p ps ih =>
    intro done h h1 h2
    have key : done ++ p :: ps = (done ++ [p]) ++ ps := by simp
    rw [extremeLoop]
    split
    · next hb' =>
      rw [hb] at hb'
      have hl : le (elev p) h := (tot (elev p) h).resolve_right hb'
      have e1 : ([p] : List α) = (done ++ [p]).filter fun x => decide (elev x = elev p) := by
        rw [List.filter_append]
        have : done.filter (fun x => decide (elev x = elev p)) = [] := by
          rw [List.filter_eq_nil_iff]
          intro q hq he
          have := h1 q hq
          rw [of_decide_eq_true he] at this
          exact hb' this
        rw [this]; simp
      rw [e1, key]
      apply ih
      · intro q hq
        rcases List.mem_append.1 hq with hq | hq
        · exact trans _ _ _ hl (h1 q hq)
        · rw [List.mem_singleton.1 hq]; exact refl _
      · exact ⟨p, by simp, rfl⟩
    · next hb' =>
      rw [hb, not_not] at hb'
      have h1' : ∀ q ∈ done ++ [p], le h (elev q) := by
        intro q hq
        rcases List.mem_append.1 hq with hq | hq
        · exact h1 q hq
        · rw [List.mem_singleton.1 hq]; exact hb'
      have h2' : ∃ q ∈ (done ++ [p]) ++ ps, elev q = h := by rwa [← key]
      split
      · next he =>
        have e1 : (done.filter fun x => decide (elev x = h)) ++ [p] =
            (done ++ [p]).filter fun x => decide (elev x = h) := by
          rw [List.filter_append]; simp [he]
        rw [e1, key]
        exact ih _ _ h1' h2'
      · next he =>
        have e1 : (done.filter fun x => decide (elev x = h)) =
            (done ++ [p]).filter fun x => decide (elev x = h) := by
          rw [List.filter_append]; simp [he]
        rw [e1, key]
        exact ih _ _ h1' h2'

theorem lowestOf_spec {α} (elev : α → Rat) (ps : List α) (h : ps ≠ []) :
    lowestOf elev ps = .ok (ps.filter fun p => decide (IsLowest elev ps p)) := by
  cases ps with
  | nil => exact absurd rfl h
  | cons p ps =>
    simp only [lowestOf]
    have := extremeLoop_spec elev (fun a b => decide (a < b)) (· ≤ ·) (by simp) (fun _ => le_refl _)
      (fun _ _ => le_antisymm) (fun _ _ _ => le_trans) le_total (p :: ps) [] (elev p) (by simp)
      ⟨p, by simp, rfl⟩
    simp only [List.filter_nil, List.nil_append] at this
    rw [this]
    rfl

theorem highestOf_spec {α} (elev : α → Rat) (ps : List α) (h : ps ≠ []) :
    highestOf elev ps = .ok (ps.filter fun p => decide (IsHighest elev ps p)) := by
  cases ps with
  | nil => exact absurd rfl h
  | cons p ps =>
    simp only [highestOf]
    have := extremeLoop_spec elev (fun a b => decide (a > b)) (fun a b => b ≤ a) (by simp) (fun _ => le_refl _)
      (fun _ _ a b => le_antisymm b a) (fun _ _ _ a b => le_trans b a) (fun a b => le_total b a) (p :: ps) []
      (elev p) (by simp) ⟨p, by simp, rfl⟩
    simp only [List.filter_nil, List.nil_append] at this
    rw [this]
    rfl

theorem highestLoop_eq (ps : List P3) : ∀ a, highestLoop ps a = extremeLoop P3.e (fun a b => decide (a > b)) ps a := by
  induction ps with
  | nil => intro a; rfl
  | cons p ps ih =>
    intro ⟨h, acc⟩
    simp only [highestLoop, extremeLoop, decide_eq_true_eq]
    split
    · exact ih _
    · split <;> exact ih _

theorem highestP3_eq (ps : List P3) : highestP3 ps = highestOf P3.e ps := by
  cases ps with
  | nil => rfl
  | cons p ps => simp only [highestP3, highestOf, highestLoop_eq]

/-! ### Lookup by id -/

theorem lookupPut_fold (l : List Spot) : ∀ (f : Nat → Option Spot) (i : Nat),
    l.foldl lookupPut f i = ((l.filter fun s => decide (s.id = i)).getLast?).or (f i) := by
  induction l with
  | nil => intro f i; simp
  | cons s l ih =>
    intro f i
    rw [List.foldl_cons, ih, List.filter_cons]
    by_cases h : s.id = i
    · simp only [h, decide_true, if_true, lookupPut]
      rw [List.getLast?_cons]
      cases (l.filter fun s => decide (s.id = i)).getLast? <;> simp
    · have h' : ¬ i = s.id := fun e => h e.symm
      simp [h, h', lookupPut]

/-- The lookup table agrees with the points: it holds the last point with each id. -/
def LookupOk (c : SContainer) : Prop :=
  ∀ i, c.lookup i = (c.points.filter fun s => decide (s.id = i)).getLast?

theorem LookupOk.mk' (l : List Spot) : LookupOk (.mk' l) := by
  intro i
  simp only [SContainer.mk', lookupPut_fold]
  simp

theorem LookupOk.extend {c : SContainer} (h : LookupOk c) (l : List Spot) : LookupOk (c.extend l) := by
  intro i
  simp only [SContainer.extend, lookupPut_fold, h i, List.filter_append, List.getLast?_append]

theorem LookupOk.append {c : SContainer} (h : LookupOk c) (s : Spot) : LookupOk (c.append s) := h.extend [s]

theorem filter_id {l : List Spot} (h : (l.map (·.id)).Nodup) {s : Spot} (hs : s ∈ l) :
    l.filter (fun x => decide (x.id = s.id)) = [s] := by
  induction l with
  | nil => cases hs
  | cons a l ih =>
    simp only [List.map_cons, List.nodup_cons] at h
    rcases List.mem_cons.1 hs with rfl | hs
    · rw [List.filter_cons]
      simp only [decide_true, if_true]
      congr 1
      rw [List.filter_eq_nil_iff]
      intro x hx he
      exact h.1 (List.mem_map.2 ⟨x, hx, by simpa using he⟩)
    · rw [List.filter_cons]
      have : a.id ≠ s.id := fun e => h.1 (List.mem_map.2 ⟨s, hs, e.symm⟩)
      simp only [this, decide_false, Bool.false_eq_true, if_false]
      exact ih h.2 hs

end PyProm
