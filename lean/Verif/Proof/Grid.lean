import Verif.Spec.Terrain
import Mathlib.Data.List.Perm.Subperm
import Mathlib.Data.List.Nodup

namespace PyProm
open Spec

theorem inbounds_iff (d : DataMap) (x y : Int) : d.inbounds x y = true ↔ InB d (x, y) := by
  simp [DataMap.inbounds, InB, and_assoc]

theorem isMapEdge_iff (d : DataMap) (x y : Int) : d.isMapEdge x y = true ↔ Border d (x, y) := by
  simp [DataMap.isMapEdge, Border, or_assoc]

theorem mem_fullShift (s : Pt) : s ∈ fullShift ↔ Adj (0, 0) s := by
  obtain ⟨a, b⟩ := s
  simp only [fullShift, Adj, List.mem_cons, List.not_mem_nil, or_false, Prod.mk.injEq, ne_eq]
  omega

/-- Every yielded neighbour. -/
theorem mem_iterateFull (d : DataMap) (x y x' y' : Int) (oe : Option Rat) :
    (x', y', oe) ∈ d.iterateFull x y ↔
      Adj (x, y) (x', y') ∧
        ((InB d (x', y') ∧ oe = some (d.cell x' y')) ∨ (¬ InB d (x', y') ∧ oe = d.nodata)) := by
  unfold DataMap.iterateFull DataMap.iterate
  simp only [List.mem_map]
  constructor
  · rintro ⟨⟨a, b⟩, hs, h⟩
    rw [mem_fullShift] at hs
    by_cases hb : d.inbounds (x + a) (y + b) = true
    · simp only [hb, if_true, Prod.mk.injEq] at h
      obtain ⟨rfl, rfl, rfl⟩ := h
      refine ⟨?_, Or.inl ⟨(inbounds_iff _ _ _).1 hb, rfl⟩⟩
      simp only [Adj, ne_eq, Prod.mk.injEq] at hs ⊢
      omega
    · simp only [hb] at h
      have hb' : ¬ InB d (x + a, y + b) := fun c => hb ((inbounds_iff _ _ _).2 c)
      simp only [Bool.false_eq_true, if_false, Prod.mk.injEq] at h
      obtain ⟨rfl, rfl, rfl⟩ := h
      refine ⟨?_, Or.inr ⟨hb', rfl⟩⟩
      simp only [Adj, ne_eq, Prod.mk.injEq] at hs ⊢
      omega
  · rintro ⟨hadj, h⟩
    refine ⟨(x' - x, y' - y), ?_, ?_⟩
    · rw [mem_fullShift]
      simp only [Adj, ne_eq, Prod.mk.injEq] at hadj ⊢
      omega
    · have e1 : x + (x' - x) = x' := by omega
      have e2 : y + (y' - y) = y' := by omega
      simp only [e1, e2]
      rcases h with ⟨hb, rfl⟩ | ⟨hb, rfl⟩
      · rw [if_pos ((inbounds_iff _ _ _).2 hb)]
      · rw [if_neg (fun c => hb ((inbounds_iff _ _ _).1 c))]

/-- A yielded neighbour with a usable elevation is a data cell of the raster. -/
theorem mem_iterateFull_data (d : DataMap) (x y x' y' : Int) (e : Rat)
    (hn : some e ≠ d.nodata) :
    (x', y', some e) ∈ d.iterateFull x y ↔
      Adj (x, y) (x', y') ∧ Data d (x', y') ∧ e = el d (x', y') := by
  rw [mem_iterateFull]
  constructor
  · rintro ⟨h, ⟨h1, h2⟩ | ⟨h1, h2⟩⟩
    · simp only [Option.some.injEq] at h2
      subst h2
      exact ⟨h, ⟨h1, hn⟩, rfl⟩
    · exact absurd h2 hn
  · rintro ⟨h, ⟨h1, h2⟩, rfl⟩
    exact ⟨h, Or.inl ⟨h1, rfl⟩⟩

theorem Spec.Adj.symm {p q : Pt} (h : Adj p q) : Adj q p := by
  obtain ⟨h0, h⟩ := h
  refine ⟨fun c => h0 c.symm, ?_⟩
  omega

theorem mem_cells (d : DataMap) (p : Pt) : p ∈ d.cells ↔ InB d p := by
  obtain ⟨x, y⟩ := p
  simp only [DataMap.cells, List.mem_flatMap, List.mem_map, List.mem_range, InB, Prod.mk.injEq]
  constructor
  · rintro ⟨i, hi, j, hj, rfl, rfl⟩
    omega
  · rintro ⟨h1, h2, h3, h4⟩
    exact ⟨x.toNat, by omega, y.toNat, by omega, by omega, by omega⟩

theorem length_cells (d : DataMap) : d.cells.length = d.size := by
  simp [DataMap.cells, DataMap.size, List.length_flatMap]

theorem nodup_cells (d : DataMap) : d.cells.Nodup := by
  unfold DataMap.cells
  rw [List.nodup_flatMap]
  constructor
  · intro i _
    refine List.Nodup.map ?_ List.nodup_range
    intro a b h
    simp only [Prod.mk.injEq] at h
    omega
  · refine List.Pairwise.imp ?_ (List.nodup_range)
    intro a b hab
    simp only [Function.onFun, List.disjoint_left, List.mem_map, not_exists, not_and]
    rintro _ ⟨j, _, rfl⟩ k _ h
    simp only [Prod.mk.injEq] at h
    omega

theorem mem_setAdd {α} [DecidableEq α] (l : List α) (a b : α) :
    b ∈ setAdd l a ↔ b ∈ l ∨ b = a := by
  unfold setAdd
  split
  · constructor
    · exact Or.inl
    · rintro (h | rfl) <;> assumption
  · simp

theorem nodup_setAdd {α} [DecidableEq α] (l : List α) (a : α) (h : l.Nodup) :
    (setAdd l a).Nodup := by
  unfold setAdd
  split
  · exact h
  · rename_i hn
    rw [List.nodup_append]
    refine ⟨h, by simp, ?_⟩
    intro b hb c hc
    simp only [List.mem_singleton] at hc
    subst hc
    rintro rfl
    exact hn hb

theorem foldl_setAdd_spec {α} [DecidableEq α] (l acc : List α) (h : acc.Nodup) :
    (l.foldl setAdd acc).Nodup ∧ ∀ a, a ∈ l.foldl setAdd acc ↔ a ∈ acc ∨ a ∈ l := by
  induction l generalizing acc with
  | nil => simp [h]
  | cons b l ih =>
    obtain ⟨h1, h2⟩ := ih (setAdd acc b) (nodup_setAdd acc b h)
    refine ⟨h1, fun a => ?_⟩
    rw [List.foldl_cons, h2, mem_setAdd, List.mem_cons, or_assoc]

theorem nodup_toSet {α} [DecidableEq α] (l : List α) : (toSet l).Nodup :=
  (foldl_setAdd_spec l [] .nil).1

theorem mem_toSet {α} [DecidableEq α] (l : List α) (a : α) : a ∈ toSet l ↔ a ∈ l := by
  rw [toSet, (foldl_setAdd_spec l [] .nil).2]
  simp

/-- Distinct raster coordinates are at most `size` many. -/
theorem nodup_length_le_size (d : DataMap) (l : List Pt) (hn : l.Nodup)
    (h : ∀ p ∈ l, InB d p) : l.length ≤ d.size := by
  rw [← length_cells]
  exact (List.subperm_of_subset hn (fun p hp => (mem_cells d p).2 (h p hp))).length_le

end PyProm
