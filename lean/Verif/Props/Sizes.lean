import Verif.Proof.Sizes
import Verif.Props.Apart

/-
C124: how many features and linkers a raster of a given size can have.
-/
namespace PyProm
open Spec

/-- The block of four cells that a cell belongs to. -/
def blockOf (p : Pt) : Nat × Nat := (p.1.toNat / 2, p.2.toNat / 2)

/-- Cells of one block are the same or touch. -/
theorem block_near {d : DataMap} {p q : Pt} (hp : InB d p) (hq : InB d q) (h : blockOf p = blockOf q) : p = q ∨ Adj p q := by
  by_cases e : p = q
  · exact .inl e
  · right
    obtain ⟨x, y⟩ := p
    obtain ⟨x', y'⟩ := q
    simp only [blockOf, Prod.mk.injEq] at h
    simp only [InB] at hp hq
    refine ⟨e, ?_⟩
    dsimp only
    omega

/-- Touching tops are of one flat area. -/
theorem tops_flat {d : DataMap} {p q : Pt} (hp : Data d p) (hq : Data d q) (tp : IsTop d p) (tq : IsTop d q) (h : p = q ∨ Adj p q) :
    Flat d p q := by
  rcases h with rfl | h
  · exact .refl
  · have h1 : ¬ el d p < el d q := fun hlt => tp q ⟨⟨hq, hlt.ne', p, .refl, h⟩, hlt⟩
    have h2 : ¬ el d q < el d p := fun hlt => tq p ⟨⟨hp, hlt.ne', q, .refl, h.symm⟩, hlt⟩
    exact .single ⟨h, hq, le_antisymm (not_lt.1 h1) (not_lt.1 h2)⟩

/-- C124, discovery: there is at most one summit for every block of two by two cells, and not more summits and saddles together
than cells. The saddles together have at most four high neighbourhoods for every cell, and there are not more runoffs than cells. -/
theorem C124_discovery (d : DataMap) (o : Pt → Oracle) (order : List Pt) (ho : IsScan d order) :
    ∃ D, analyze d o order = .ok D ∧ D.summits.length ≤ (d.maxX / 2 + 1) * (d.maxY / 2 + 1) ∧
      D.summits.length + D.saddles.length ≤ (d.maxX + 1) * (d.maxY + 1) ∧
      (D.saddles.map fun f => f.hpn.length).sum ≤ 4 * ((d.maxX + 1) * (d.maxY + 1)) ∧
      D.runoffs.length ≤ (d.maxX + 1) * (d.maxY + 1) := by
  obtain ⟨D, as, h1, h2, h3, h4, _⟩ := C09_summit_complete d o order ho
  obtain ⟨D', bs, g1, g2, g3, g4, _⟩ := C10_saddles d o order ho
  cases (g1.symm.trans h1 : Except.ok _ = Except.ok _)
  obtain ⟨D', k1, k2, _, k4⟩ := analyze_sizes d o order ho
  cases (k1.symm.trans h1 : Except.ok _ = Except.ok _)
  refine ⟨D, h1, ?_, ?_, k2, k4⟩
  · rw [← h2.length_eq, ← List.length_map (f := blockOf)]
    have hsub : (as.map blockOf).length ≤ ((List.range (d.maxX / 2 + 1)).product (List.range (d.maxY / 2 + 1))).length := by
      refine List.Nodup.length_le_of_subset ?_ ?_
      · unfold List.Nodup
        rw [List.pairwise_map]
        refine h4.imp_of_mem fun {a b} ha hb hno e => hno ?_
        exact tops_flat (h3 a ha).1 (h3 b hb).1 (h3 a ha).2 (h3 b hb).2 (block_near (h3 a ha).1.1 (h3 b hb).1.1 e)
      · intro x hx
        obtain ⟨p, hp, rfl⟩ := List.mem_map.1 hx
        obtain ⟨a1, a2, a3, a4⟩ := (h3 p hp).1.1
        refine List.mem_product.2 ⟨List.mem_range.2 ?_, List.mem_range.2 ?_⟩ <;> omega
    have hl := List.length_product (List.range (d.maxX / 2 + 1)) (List.range (d.maxY / 2 + 1))
    simp only [List.length_range] at hl
    exact hsub.trans (le_of_eq hl)
  · rw [← h2.length_eq, ← g2.length_eq, ← List.length_append]
    refine le_trans (List.Nodup.length_le_of_subset (l₂ := d.cells) ?_ ?_) (le_of_eq (length_cells d))
    · unfold List.Nodup
      rw [List.pairwise_append]
      refine ⟨h4.imp fun {a b} h (e : a = b) => h (e ▸ .refl), g4.imp fun {a b} h (e : a = b) => h (e ▸ .refl), fun p hp q hq e => ?_⟩
      subst e
      obtain ⟨a, _, ha, _⟩ := (g3 p hq).2
      exact (h3 p hp).2 a ha
    · intro p hp
      rcases List.mem_append.1 hp with hp | hp
      · exact (mem_cells _ _).2 (h3 p hp).1.1
      · exact (mem_cells _ _).2 (g3 p hp).1.1

/-- C124, runs: the number of linkers and of walked features of a run is bounded by a fixed multiple of the number of cells. -/
theorem C124_run (E : SaddleEnv) (hE : RunOk E) (o : Pt → Oracle) (order : List Pt) (ho : IsScan E.d order) (rebuild : Bool) :
    ∃ m, DMap.runSparse E o order rebuild = .ok m ∧
      m.linkers.length ≤ (if rebuild then 32 else 20) * ((E.d.maxX + 1) * (E.d.maxY + 1)) + 8 ∧
      m.saddles.length + m.runoffs.length ≤ (if rebuild then 10 else 6) * ((E.d.maxX + 1) * (E.d.maxY + 1)) + 8 :=
  run_sizes hE o order ho rebuild

/-- The raster of `a + 1` by `b + 1` peaks, with a low cell between any two of them. -/
def peaks (a b : Nat) : DataMap :=
  { DataMap.ofRows [[0]] with
    maxX := 2 * a
    maxY := 2 * b
    cell := fun x y => if x % 2 = 0 ∧ y % 2 = 0 then 1 else 0 }

theorem peaks_el {a b : Nat} (p : Pt) : el (peaks a b) p = if p.1 % 2 = 0 ∧ p.2 % 2 = 0 then 1 else 0 := rfl

theorem peaks_top {a b : Nat} {p : Pt} (h : p.1 % 2 = 0 ∧ p.2 % 2 = 0) : IsTop (peaks a b) p := by
  intro r hr
  have := hr.2
  rw [peaks_el, peaks_el, if_pos h] at this
  split at this
  · exact absurd this (by decide)
  · exact absurd this (by decide)

theorem peaks_alone {a b : Nat} {p q : Pt} (h : p.1 % 2 = 0 ∧ p.2 % 2 = 0) (hf : Flat (peaks a b) p q) : q = p := by
  induction hf with
  | refl => rfl
  | tail _ hs ih =>
    subst ih
    obtain ⟨⟨h0, h1, h2, h3, h4⟩, _, he⟩ := hs
    rw [peaks_el, peaks_el, if_pos h] at he
    split at he
    · rename_i hq
      exfalso
      apply h0
      apply Prod.ext <;> omega
    · exact absurd he (by decide)

/-- C124, tightness: the bound on the number of summits is attained at every size: there are rasters of any number of rows and
columns of peaks that have one summit for each of them. -/
theorem C124_attained (a b : Nat) (o : Pt → Oracle) (order : List Pt) (ho : IsScan (peaks a b) order) :
    ∃ D, analyze (peaks a b) o order = .ok D ∧ D.summits.length = (a + 1) * (b + 1) ∧
      ((peaks a b).maxX / 2 + 1) * ((peaks a b).maxY / 2 + 1) = (a + 1) * (b + 1) := by
  obtain ⟨D, as, h1, h2, h3, h4, h5⟩ := C09_summit_complete (peaks a b) o order ho
  obtain ⟨D', g1, g2, _⟩ := C124_discovery (peaks a b) o order ho
  cases (g1.symm.trans h1 : Except.ok _ = Except.ok _)
  have e : ((peaks a b).maxX / 2 + 1) * ((peaks a b).maxY / 2 + 1) = (a + 1) * (b + 1) := by
    simp only [peaks, Nat.mul_div_cancel_left _ (by omega : 0 < 2)]
  refine ⟨D, h1, le_antisymm (e ▸ g2) ?_, e⟩
  rw [← h2.length_eq]
  let F : Nat × Nat → Pt := fun x => (2 * (x.1 : Int), 2 * (x.2 : Int))
  have hl := List.length_product (List.range (a + 1)) (List.range (b + 1))
  simp only [List.length_range] at hl
  have hl : ((List.range (a + 1)).product (List.range (b + 1))).length = (a + 1) * (b + 1) := hl
  rw [← hl, ← List.length_map (f := F)]
  refine List.Nodup.length_le_of_subset ?_ ?_
  · refine List.Nodup.map ?_ (List.nodup_range.product List.nodup_range)
    rintro ⟨x, y⟩ ⟨x', y'⟩ h
    simp only [F, Prod.mk.injEq] at h ⊢
    omega
  · intro p hp
    obtain ⟨⟨x, y⟩, hx, rfl⟩ := List.mem_map.1 hp
    obtain ⟨hx, hy⟩ := List.mem_product.1 hx
    have hx := List.mem_range.1 hx
    have hy := List.mem_range.1 hy
    have hev : (F (x, y)).1 % 2 = 0 ∧ (F (x, y)).2 % 2 = 0 := by
      simp only [F]
      omega
    have hd : Data (peaks a b) (F (x, y)) := by
      refine ⟨?_, by simp [peaks, DataMap.ofRows]⟩
      simp only [InB, F, peaks]
      omega
    obtain ⟨q, hq, hf⟩ := h5 _ hd (peaks_top hev)
    rw [← peaks_alone hev (hf.symm (h3 q hq).1)]
    exact hq

/-- C124 applies to a scan of the peaks in any order; here the one of the code, with four summits on three by three cells. -/
example : IsScan (peaks 1 1) (peaks 1 1).cells ∧ (analyze (peaks 1 1) (fun _ => exOracle) (peaks 1 1).cells).toOption.map (fun D =>
    (D.summits.length, D.saddles.length, D.saddles.map fun f => f.hpn.length, D.runoffs.length)) = some (4, 1, [4], 4) :=
  ⟨isScan_cells _, by decide +kernel⟩

/-- A run on that raster makes linkers and features well within the bounds. -/
example : RunOk (exRun (peaks 1 1)) ∧ (DMap.runSparse (exRun (peaks 1 1)) (fun _ => exOracle) (peaks 1 1).cells true).toOption.map (fun m =>
    (m.linkers.length, m.saddles.length, m.runoffs.length)) = some (20, 7, 16) := by
  refine ⟨exRun_ok _ (by intro v hv; cases hv) ⟨by decide +kernel, by decide +kernel, rfl, rfl, fun _ => rfl⟩ (by decide +kernel), ?_⟩
  decide +kernel

end PyProm
