import Verif.Model.Equality
import Mathlib.Algebra.Order.Ring.Rat
import Mathlib.Tactic.Linarith
import Mathlib.Data.List.Perm.Basic

namespace PyProm

/-! ### Coordinates -/

theorem round6_zero : round6 0 = 0 := by decide +kernel

/-- The locals of `__eq__` agree exactly if the rounded values do and none or both are zero. -/
theorem eqCoord_iff (a b : Rat) : eqCoord a = eqCoord b ↔ round6 a = round6 b ∧ (a = 0 ↔ b = 0) := by
  unfold eqCoord
  by_cases ha : a = 0 <;> by_cases hb : b = 0 <;> simp [ha, hb]

theorem seEq_iff (lat lon e lat' lon' e' : Rat) : seEq lat lon e lat' lon' e' = true ↔
    (eqCoord lat, eqCoord lon, e) = (eqCoord lat', eqCoord lon', e') := by
  simp [seEq, and_assoc]

theorem seNe_iff (lat lon e lat' lon' e' : Rat) : seNe lat lon e lat' lon' e' = true ↔
    ¬ (round6 lat, round6 lon, e) = (round6 lat', round6 lon', e') := by
  simp only [seNe, Bool.not_eq_true', Bool.and_eq_false_iff, decide_eq_false_iff_not, Prod.mk.injEq]
  tauto

theorem bcEq_iff (lat lon lat' lon' : Rat) : bcEq lat lon lat' lon' = true ↔
    (eqCoord lat, eqCoord lon) = (eqCoord lat', eqCoord lon') := by
  simp [bcEq]

theorem bcNe_iff (lat lon lat' lon' : Rat) : bcNe lat lon lat' lon' = true ↔
    ¬ (round6 lat, round6 lon) = (round6 lat', round6 lon') := by
  simp only [bcNe, Bool.not_eq_true', Bool.and_eq_false_iff, decide_eq_false_iff_not, Prod.mk.injEq]
  tauto

theorem bgEq_iff (a b : Pt) : bgEq a b = true ↔ a = b := by
  simp [bgEq, Prod.ext_iff]

theorem gpEq_iff (a b : P3) : gpEq a b = true ↔ a = b := by
  cases a; cases b; simp [gpEq, and_assoc]

theorem gpNe_eq (a b : P3) : gpNe a b = !gpEq a b := rfl

/-! ### Lists -/

theorem pyInsert_perm {α} (lt : α → α → Bool) (a : α) : ∀ l, (pyInsert lt a l).Perm (a :: l)
  | [] => .refl _
  | b :: l => by
    rw [pyInsert]
    split
    · exact ((pyInsert_perm lt a l).cons b).trans (.swap a b l)
    · exact .refl _

theorem pySorted_perm {α} (lt : α → α → Bool) : ∀ l, (pySorted lt l).Perm l
  | [] => .refl _
  | a :: l => (pyInsert_perm lt a _).trans ((pySorted_perm lt l).cons a)

/-- The order `<` leaves after sorting. -/
theorem pyInsert_sorted {α} {lt : α → α → Bool} (asymm : ∀ a b, lt a b = true → lt b a = false)
    (trans : ∀ a b c, lt b a = false → lt c b = false → lt c a = false) (a : α) :
    ∀ l, l.Pairwise (fun x y => lt y x = false) →
      (pyInsert lt a l).Pairwise (fun x y => lt y x = false)
  | [], _ => by simp [pyInsert]
  | b :: l, h => by
    rw [List.pairwise_cons] at h
    rw [pyInsert]
    split
    · next hl =>
      rw [List.pairwise_cons]
      refine ⟨fun x hx => ?_, pyInsert_sorted asymm trans a l h.2⟩
      rcases List.mem_cons.1 ((pyInsert_perm lt a l).mem_iff.1 hx) with rfl | hx
      · exact asymm _ _ hl
      · exact h.1 x hx
    · next hl =>
      have hl : lt b a = false := by simpa using hl
      rw [List.pairwise_cons]
      refine ⟨fun x hx => ?_, List.pairwise_cons.2 h⟩
      rcases List.mem_cons.1 hx with rfl | hx
      · exact hl
      · exact trans _ _ _ hl (h.1 x hx)

theorem pySorted_sorted {α} {lt : α → α → Bool} (asymm : ∀ a b, lt a b = true → lt b a = false)
    (trans : ∀ a b c, lt b a = false → lt c b = false → lt c a = false) :
    ∀ l, (pySorted lt l).Pairwise (fun x y => lt y x = false)
  | [] => .nil
  | a :: l => pyInsert_sorted asymm trans a _ (pySorted_sorted asymm trans l)

theorem pyInsert_map {α β} {lt : α → α → Bool} {lt' : β → β → Bool} {f : α → β}
    (h : ∀ a b, lt a b = lt' (f a) (f b)) (a : α) : ∀ l, (pyInsert lt a l).map f = pyInsert lt' (f a) (l.map f)
  | [] => rfl
  | b :: l => by
    rw [pyInsert, List.map_cons, pyInsert, ← h]
    split
    · rw [List.map_cons, pyInsert_map h]
    · rfl

theorem pySorted_map {α β} {lt : α → α → Bool} {lt' : β → β → Bool} {f : α → β}
    (h : ∀ a b, lt a b = lt' (f a) (f b)) : ∀ l, (pySorted lt l).map f = pySorted lt' (l.map f)
  | [] => rfl
  | a :: l => by rw [pySorted, pyInsert_map h, pySorted_map h]; rfl

/-- `==` of lists when `==` of members compares keys. -/
theorem pyListEq_iff {α β} {eq : α → α → Bool} {key : α → β} (h : ∀ a b, eq a b = true ↔ key a = key b) :
    ∀ l m, pyListEq eq l m = true ↔ l.map key = m.map key
  | [], [] => by simp [pyListEq]
  | [], _ :: _ => by simp [pyListEq]
  | _ :: _, [] => by simp [pyListEq]
  | a :: l, b :: m => by simp [pyListEq, h, pyListEq_iff h l m]

/-- Sorting forgets the order of the list if members that `<` does not tell apart are the same. -/
theorem pySorted_perm_eq {α} {lt : α → α → Bool} (asymm : ∀ a b, lt a b = true → lt b a = false)
    (trans : ∀ a b c, lt b a = false → lt c b = false → lt c a = false) {l m : List α}
    (tie : ∀ a ∈ l, ∀ b ∈ l, lt a b = false → lt b a = false → a = b) (h : l.Perm m) :
    pySorted lt l = pySorted lt m := by
  refine List.Perm.eq_of_pairwise (le := fun x y => lt y x = false) ?_ (pySorted_sorted asymm trans l)
    (pySorted_sorted asymm trans m) ((pySorted_perm lt l).trans (h.trans (pySorted_perm lt m).symm))
  intro a b ha hb h1 h2
  exact tie a ((pySorted_perm lt l).mem_iff.1 ha) b (h.mem_iff.2 ((pySorted_perm lt m).mem_iff.1 hb)) h2 h1

/-- With a total order equality of the sorted lists is equality of the multisets. -/
theorem pySorted_eq_iff {α} {lt : α → α → Bool} (asymm : ∀ a b, lt a b = true → lt b a = false)
    (trans : ∀ a b c, lt b a = false → lt c b = false → lt c a = false)
    (tie : ∀ a b, lt a b = false → lt b a = false → a = b) (l m : List α) :
    pySorted lt l = pySorted lt m ↔ l.Perm m := by
  constructor
  · intro h
    exact (pySorted_perm lt l).symm.trans (h ▸ pySorted_perm lt m)
  · exact pySorted_perm_eq asymm trans fun a _ b _ => tie a b

/-! ### The orders of the code -/

theorem mptLt_iff (a b : MPt) : mptLt a b = true ↔ a.x < b.x ∨ (a.x = b.x ∧ (a.y < b.y ∨ (a.y = b.y ∧
    match a.e, b.e with
    | none, some _ => True
    | some e, some e' => e < e'
    | _, none => False))) := by
  obtain ⟨x, y, e⟩ := a
  obtain ⟨x', y', e'⟩ := b
  simp only [mptLt]
  by_cases hx : x = x'
  · by_cases hy : y = y'
    · cases e <;> cases e' <;> simp [hx, hy]
    · simp [hx, hy]
  · simp [hx]

theorem mptLt_asymm (a b : MPt) (h : mptLt a b = true) : mptLt b a = false := by
  rw [← Bool.not_eq_true, mptLt_iff]
  rw [mptLt_iff] at h
  obtain ⟨x, y, e⟩ := a
  obtain ⟨x', y', e'⟩ := b
  cases e <;> cases e'
  · simp only [and_false, or_false] at h ⊢; omega
  · simp only [and_true, and_false, or_false] at h ⊢; omega
  · simp only [and_true, and_false, or_false] at h ⊢; omega
  · simp only at h ⊢
    rintro (h1 | ⟨h1, h2 | ⟨h2, h3⟩⟩)
    · omega
    · omega
    · rcases h with h | ⟨h, h' | ⟨h', h''⟩⟩
      · omega
      · omega
      · exact absurd (lt_trans h'' h3) (lt_irrefl _)

theorem mptLt_trans (a b c : MPt) (h1 : mptLt b a = false) (h2 : mptLt c b = false) : mptLt c a = false := by
  rw [← Bool.not_eq_true, mptLt_iff] at h1 h2 ⊢
  obtain ⟨x, y, e⟩ := a
  obtain ⟨x', y', e'⟩ := b
  obtain ⟨x'', y'', e''⟩ := c
  intro h3
  by_cases hx : x'' < x
  · have : ¬ x' < x := fun h => h1 (Or.inl h)
    exact h2 (Or.inl (by simp only; omega))
  · obtain ⟨ex, h3⟩ := h3.resolve_left hx
    simp only at ex
    have e1 : ¬ x' < x := fun h => h1 (Or.inl h)
    have e2 : ¬ x'' < x' := fun h => h2 (Or.inl h)
    have ex1 : x' = x := by omega
    have ex2 : x'' = x' := by omega
    have h1' := fun h => h1 (Or.inr ⟨ex1, h⟩)
    have h2' := fun h => h2 (Or.inr ⟨ex2, h⟩)
    by_cases hy : y'' < y
    · have : ¬ y' < y := fun h => h1' (Or.inl h)
      exact h2' (Or.inl (by simp only; omega))
    · obtain ⟨ey, h3⟩ := h3.resolve_left hy
      simp only at ey
      have e1 : ¬ y' < y := fun h => h1' (Or.inl h)
      have e2 : ¬ y'' < y' := fun h => h2' (Or.inl h)
      have ey1 : y' = y := by omega
      have ey2 : y'' = y' := by omega
      have h1'' := fun h => h1' (Or.inr ⟨ey1, h⟩)
      have h2'' := fun h => h2' (Or.inr ⟨ey2, h⟩)
      cases e <;> cases e' <;> cases e'' <;> simp_all
      linarith

theorem mptLt_tie (a b : MPt) (h1 : mptLt a b = false) (h2 : mptLt b a = false) : a = b := by
  rw [← Bool.not_eq_true, mptLt_iff] at h1 h2
  obtain ⟨x, y, e⟩ := a
  obtain ⟨x', y', e'⟩ := b
  have hx : x = x' := by
    rcases lt_trichotomy x x' with h | h | h
    · exact absurd (Or.inl h) h1
    · exact h
    · exact absurd (Or.inl h) h2
  subst hx
  have hy : y = y' := by
    rcases lt_trichotomy y y' with h | h | h
    · exact absurd (Or.inr ⟨rfl, Or.inl h⟩) h1
    · exact h
    · exact absurd (Or.inr ⟨rfl, Or.inl h⟩) h2
  subst hy
  cases e <;> cases e' <;> simp_all
  linarith

/-- A 3-tuple as an entry of a MultiPoint. -/
def P3.toMPt (p : P3) : MPt := ⟨p.x, p.y, some p.e⟩

theorem p3Lt_eq (a b : P3) : p3Lt a b = mptLt a.toMPt b.toMPt := by
  rfl

theorem P3.toMPt_inj {a b : P3} (h : a.toMPt = b.toMPt) : a = b := by
  cases a; cases b; simpa [P3.toMPt] using h

end PyProm
