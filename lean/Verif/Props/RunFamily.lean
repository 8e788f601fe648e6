import Verif.Proof.RunFamily
import Verif.Props.RunBasin
import Verif.Props.Graph

/-
Parents and children after complete runs (C67), members of the containers (C68); C39 on complete runs.
-/
namespace PyProm
open Spec

/-- What is known about families after a run. -/
theorem run_family {E : SaddleEnv} (hE : RunOk E) (o : Pt → Oracle) (order : List Pt) (ho : IsScan E.d order)
    (rebuild : Bool) :
    ∃ m0 m sites news, DMap.runSparse E o order rebuild = .ok m ∧ Fresh E.d sites m0 ∧
      WalkedMap E sites m0 m news ∧ FamSt (∀ k, par m0.st.objs k = none) [] m.st ∧
      (rebuild = false → ∀ k, par m0.st.objs k = none) := by
  obtain ⟨D, corners, m0, m, sites, news, h1, h2, h3, h4, h5, h6, h7, h8, h9⟩ := run_spec hE o order ho rebuild
  have hw : m0.walk E [] = .ok (m, none) := by
    obtain ⟨m', _, w1, _⟩ := walk_spec hE h4
    have h8' := h8
    unfold DMap.runSparse at h8'
    rw [h3] at h8'
    dsimp only [bind, Except.bind] at h8'
    rw [w1] at h8'
    cases h8'
    exact w1
  obtain ⟨f1, f2, f3⟩ := discover_fam h3
  exact ⟨m0, m, sites, news, h8, h4, h9, walk_fam hE h4 f1 f2 hw, f3⟩

theorem WalkedMap.mem_saddles {E : SaddleEnv} {sites : List Pt} {m0 m : DMap} {news : List (List Nat)}
    (h : WalkedMap E sites m0 m news) (k : Nat) :
    k ∈ m.saddles ↔ k ∈ m.st.walked ∧ nonRunoff m.st.objs k = true := by
  rw [h.saddles]
  exact List.mem_filter

theorem WalkedMap.mem_runoffs {E : SaddleEnv} {sites : List Pt} {m0 m : DMap} {news : List (List Nat)}
    (h : WalkedMap E sites m0 m news) (k : Nat) :
    k ∈ m.runoffs ↔ k ∈ m.st.walked ∧ nonRunoff m.st.objs k = false := by
  rw [h.runoffs]
  unfold sortWalked nonRunoff
  rw [List.mem_filter]
  cases m.st.objs[k]? <;> simp

/-! ### C67 -/

/-- C67, first part: after every run, with and without rebuilding, a saddle lists another as its child exactly
if that one names it as its parent. -/
theorem C67_families_agree (E : SaddleEnv) (hE : RunOk E) (o : Pt → Oracle) (order : List Pt)
    (ho : IsScan E.d order) (rebuild : Bool) :
    ∃ m, DMap.runSparse E o order rebuild = .ok m ∧ FamilyOk m := by
  obtain ⟨_, m, _, _, h1, _, _, h4, _⟩ := run_family hE o order ho rebuild
  exact ⟨m, h1, h4.fam⟩

/-- C67, second part (without rebuilding): parent and child are both saddles or both runoffs of the map. -/
theorem C67_family_members_partial (E : SaddleEnv) (hE : RunOk E) (o : Pt → Oracle) (order : List Pt)
    (ho : IsScan E.d order) :
    ∃ m, DMap.runSparse E o order false = .ok m ∧ ∀ j p, parentOf m j = some p →
      (j ∈ m.saddles ∧ p ∈ m.saddles) ∨ (j ∈ m.runoffs ∧ p ∈ m.runoffs) := by
  obtain ⟨m0, m, _, _, h1, _, h3, h4, h5⟩ := run_family hE o order ho false
  refine ⟨m, h1, fun j p hp => ?_⟩
  obtain ⟨g1, g2, oj, op, g3, g4, g5, _⟩ := h4.closed (h5 rfl) j p hp
  have hk : nonRunoff m.st.objs j = nonRunoff m.st.objs p := by
    unfold nonRunoff
    rw [g3, g4]
    dsimp only
    rw [g5]
  rw [h3.mem_saddles, h3.mem_saddles, h3.mem_runoffs, h3.mem_runoffs, ← hk]
  cases nonRunoff m.st.objs j
  · exact .inr ⟨⟨g1, rfl⟩, g2, rfl⟩
  · exact .inl ⟨⟨g1, rfl⟩, g2, rfl⟩

/-- Two summits with an edge saddle between them. -/
def exPass : List (List Rat) := [[5, 1, 5], [0, 0, 0]]

example : RunOk (exRun (DataMap.ofRows exPass)) ∧ IsScan (DataMap.ofRows exPass) (DataMap.ofRows exPass).cells :=
  ⟨exRun_plain _ (by unfold maxsize; decide +kernel), isScan_cells _⟩

/-- Instance of C67: saddle 7 is the child of the edge saddle 0. -/
example : (exMap exPass false).toOption.map (fun m => (m.saddles, parentOf m 7, childrenOf m 0)) =
    some ([7, 0], some 0, [7]) := by decide +kernel

/-- C67 fails with rebuilding: the edge saddle lists a child that is no saddle of the map. -/
theorem C67_child_outside_refuted : ∃ m, exMap exPass true = .ok m ∧
    0 ∈ m.saddles ∧ 7 ∈ childrenOf m 0 ∧ parentOf m 7 = some 0 ∧ 7 ∉ m.saddles ++ m.runoffs := by
  have h : (exMap exPass true).toOption.map (fun m =>
      decide (0 ∈ m.saddles ∧ 7 ∈ childrenOf m 0 ∧ parentOf m 7 = some 0 ∧ 7 ∉ m.saddles ++ m.runoffs)) = some true := by
    decide +kernel
  cases hm : exMap exPass true with
  | error e => rw [hm] at h; cases h
  | ok m =>
    rw [hm] at h
    exact ⟨m, rfl, by simpa [Except.toOption] using h⟩

/-- C67 fails: a runoff is its own parent. -/
theorem C67_own_parent_refuted : ∃ m, exMap exPass false = .ok m ∧ 1 ∈ m.runoffs ∧ parentOf m 1 = some 1 := by
  have h : (exMap exPass false).toOption.map (fun m => decide (1 ∈ m.runoffs ∧ parentOf m 1 = some 1)) = some true := by
    decide +kernel
  cases hm : exMap exPass false with
  | error e => rw [hm] at h; cases h
  | ok m =>
    rw [hm] at h
    exact ⟨m, rfl, by simpa [Except.toOption] using h⟩

/-! ### C68 -/

/-- C68: after every run, with and without rebuilding, each linker of the map joins one of its summits with one
of its saddles or runoffs, and no saddle is listed twice. -/
theorem C68_containers_closed (E : SaddleEnv) (hE : RunOk E) (o : Pt → Oracle) (order : List Pt)
    (ho : IsScan E.d order) (rebuild : Bool) :
    ∃ m, DMap.runSparse E o order rebuild = .ok m ∧ m.saddles.Nodup ∧
      ∀ i ∈ m.linkers, ∃ l, m.st.store[i]? = some l ∧ l.summit < m.summits.length ∧
        l.saddle ∈ m.saddles ++ m.runoffs := by
  obtain ⟨m0, m, _, _, h1, _, h3, h4, h5⟩ := run_family hE o order ho rebuild
  refine ⟨m, h1, ?_, fun i hi => ?_⟩
  · rw [h3.saddles]
    exact h4.once
  · rw [h3.linkers, h3.inv.lk, List.mem_range] at hi
    refine ⟨_, List.getElem?_eq_getElem hi, ?_, ?_⟩
    · obtain ⟨sf, _, g1, _⟩ := h3.link (List.getElem?_eq_getElem hi)
      exact lt_of_getElem? g1
    · have := h4.store _ (List.getElem_mem hi)
      rw [List.mem_append, h3.mem_saddles, h3.mem_runoffs]
      cases nonRunoff m.st.objs m.st.store[i].saddle
      · exact .inr ⟨this, rfl⟩
      · exact .inl ⟨this, rfl⟩

/-- Instance of C68: linkers lead to saddle 7 and to runoffs. -/
example : (exMap exPass false).toOption.map (fun m => (m.saddles, m.linkers.map fun i => m.st.store[i]?.map (·.saddle))) =
    some ([7, 0], [some 7, some 7, some 1, some 2, some 5, some 6]) := by decide +kernel

/-! ### C39 on complete runs -/

/-- C39 after a run: if no sibling of a saddle is at the same place, soft deletion leaves it without parent and
children, its children without parent, and every other family as it was. -/
theorem C39_run_partial (E : SaddleEnv) (hE : RunOk E) (o : Pt → Oracle) (order : List Pt)
    (ho : IsScan E.d order) (rebuild : Bool) :
    ∃ m, DMap.runSparse E o order rebuild = .ok m ∧ ∀ (f : Flags) k,
      (∀ p, parentOf m k = some p → ∀ x ∈ childrenOf m p, SamePlace m x k → x = k) →
      (∀ j, parentOf (m.softDelete f k).1 j = if j = k ∨ parentOf m j = some k then none else parentOf m j) ∧
      (∀ j, childrenOf (m.softDelete f k).1 j =
        if j = k then [] else (childrenOf m j).filter fun x => decide (x ≠ k)) ∧
      FamilyOk (m.softDelete f k).1 := by
  obtain ⟨m, h1, h2⟩ := C67_families_agree E hE o order ho rebuild
  refine ⟨m, h1, fun f k hk => ?_⟩
  obtain ⟨a, b, c, _⟩ := C39_soft_delete_partial m f k h2 hk
  exact ⟨a, b, c⟩

/-- Instance: saddle 7 is the only child of the edge saddle 0. -/
example : (exMap exPass false).toOption.map (fun m => childrenOf m 0 = [7] ∧ parentOf m 7 = some 0) = some True := by
  have h : (exMap exPass false).toOption.map (fun m => decide (childrenOf m 0 = [7] ∧ parentOf m 7 = some 0)) = some true := by
    decide +kernel
  cases hm : exMap exPass false with
  | error e => rw [hm] at h; cases h
  | ok m => rw [hm] at h; simpa [Except.toOption] using h

end PyProm
