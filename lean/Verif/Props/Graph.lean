import Verif.Proof.Graph
import Verif.Props.RunBasin

/-
Properties of operations on the walked network: C38 (purging), C39 (soft deletion, emancipation), C42
(neighbour queries).
-/
namespace PyProm
open Spec

/-! ### C39: emancipation and soft deletion -/

/-- C39, emancipation (where it holds): if no sibling is at the same place, emancipating removes exactly the saddle
from its parent's children and its own parent, and changes nothing else. What is missing: co-located
siblings, see below. -/
theorem C39_emancipate_partial (m : DMap) (k : Nat)
    (hk : ∀ p, parentOf m k = some p → ∀ x ∈ childrenOf m p, SamePlace m x k → x = k) :
    (∀ j, parentOf (m.emancipate k) j = if j = k then none else parentOf m j) ∧
    (∀ j, childrenOf (m.emancipate k) j =
      if parentOf m k = some j then (childrenOf m j).filter (fun x => decide (x ≠ k)) else childrenOf m j) ∧
    (m.emancipate k).net = m.net ∧ (m.emancipate k).saddles = m.saddles ∧
    (m.emancipate k).runoffs = m.runoffs ∧ (m.emancipate k).linkers = m.linkers ∧
    (m.emancipate k).st.domSaddles = m.st.domSaddles := by
  have hs := emancipate_same m k
  refine ⟨emancipate_parent m k, fun j => ?_, hs.net, hs.saddles, hs.runoffs, hs.linkers, emancipate_doms m k⟩
  rw [emancipate_children]
  split
  · rename_i hp
    obtain ⟨o, ho⟩ := lt_of_parent hp
    exact filter_ne_eq ho (hk j hp)
  · rfl

/-- C39, soft deletion (where it holds): in consistent families, if no sibling is at the same place, soft deletion
leaves the saddle without parent and children, its children without parent, its siblings with their
parent, and every other family as it was; the saddle and all its linkers are disqualified, no other
saddle and no other linker. -/
theorem C39_soft_delete_partial (m : DMap) (f : Flags) (k : Nat) (hF : FamilyOk m)
    (hk : ∀ p, parentOf m k = some p → ∀ x ∈ childrenOf m p, SamePlace m x k → x = k) :
    (∀ j, parentOf (m.softDelete f k).1 j = if j = k ∨ parentOf m j = some k then none else parentOf m j) ∧
    (∀ j, childrenOf (m.softDelete f k).1 j =
      if j = k then [] else (childrenOf m j).filter fun x => decide (x ≠ k)) ∧
    FamilyOk (m.softDelete f k).1 ∧ (m.softDelete f k).1.net = m.net ∧
    SaddleOut (m.softDelete f k).2 k ∧
    (∀ j, j ≠ k → (SaddleOut (m.softDelete f k).2 j ↔ SaddleOut f j)) ∧
    ∀ i, (m.softDelete f k).2.linkDisq i = true ↔ f.linkDisq i = true ∨ i ∈ m.st.sadLinks k := by
  have h := fun j => softDelete_exact f hF hk j
  refine ⟨fun j => (h j).1, fun j => (h j).2, fun j p => ?_, (softDelete_same m f k).net, ?_, fun j hj => ?_, fun i => ?_⟩
  · rw [(h j).1, (h p).2]
    by_cases e1 : p = k
    · simp only [e1, if_true, List.not_mem_nil, false_iff]
      split
      · simp
      · rename_i hn
        exact fun hc => hn (.inr hc)
    · simp only [e1, if_false, List.mem_filter, decide_eq_true_eq, hF j p]
      constructor
      · rintro ⟨x, y⟩
        rw [if_neg, x]
        rintro (z | z)
        · exact y z
        · rw [x] at z
          exact e1 (by simpa using z)
      · intro h
        split at h
        · cases h
        · rename_i hn
          exact ⟨h, fun z => hn (.inl z)⟩
  · exact .inl (by simp [DMap.softDelete, disqualifySelf])
  · unfold SaddleOut DMap.softDelete disqualifySelf
    simp [hj]
  · unfold DMap.softDelete disqualifySelf
    simp only [Bool.or_eq_true, decide_eq_true_eq, or_comm]
    exact Iff.rfl

/-- A family: saddle 0 with the children 1 and 2 at different places. -/
def exFamily (a b : Rat) : DMap where
  summits := []
  st := CSt.start [{ f := { kind := .saddle, lat := 0, lon := 0, elevation := 5, multipoint := none, edge := true,
                            edgePoints := [], hpn := [] }, children := [1, 2] },
    { f := { kind := .saddle, lat := a, lon := 0, elevation := 5, multipoint := none, edge := false,
             edgePoints := [], hpn := [] }, parent := some 0 },
    { f := { kind := .saddle, lat := b, lon := 0, elevation := 5, multipoint := none, edge := false,
             edgePoints := [], hpn := [] }, parent := some 0 }]
  domPoints _ := none
  saddles := [0, 1, 2]
  runoffs := []
  linkers := []
  domains := []

theorem exFamily_ok (a b : Rat) : FamilyOk (exFamily a b) := by
  intro j p
  match j, p with
  | 0, 0 | 0, 1 | 0, 2 | 1, 0 | 1, 1 | 1, 2 | 2, 0 | 2, 1 | 2, 2 => simp [childrenOf, parentOf, exFamily, CSt.start]
  | 0, p + 3 | 1, p + 3 | 2, p + 3 => simp [childrenOf, parentOf, exFamily, CSt.start]
  | j + 3, 0 | j + 3, 1 | j + 3, 2 => simp [childrenOf, parentOf, exFamily, CSt.start]
  | j + 3, p + 3 => simp [childrenOf, parentOf, exFamily, CSt.start]

theorem exFamily_apart : SiblingsApart (exFamily 1 2) := by
  intro p x y hx hy hxy
  have hp := (exFamily_ok 1 2 x p).1 hx
  have hq := (exFamily_ok 1 2 y p).1 hy
  have hr : ∀ j q, parentOf (exFamily 1 2) j = some q → j = 1 ∨ j = 2 := by
    intro j q hj
    match j with
    | 0 => simp [parentOf, exFamily, CSt.start] at hj
    | 1 => exact .inl rfl
    | 2 => exact .inr rfl
    | j + 3 => simp [parentOf, exFamily, CSt.start] at hj
  have h12 : (exFamily 1 2).ne (.saddle 1) (.saddle 2) = true ∧ (exFamily 1 2).ne (.saddle 2) (.saddle 1) = true := by
    decide +kernel
  rw [← samePlace_iff] at hxy
  rcases hr x p hp with rfl | rfl <;> rcases hr y p hq with rfl | rfl
  · rfl
  · rw [h12.1] at hxy; cases hxy
  · rw [h12.2] at hxy; cases hxy
  · rfl

/-- The family meets the conditions of C39, and deleting 1 leaves 2 with its parent. -/
example : FamilyOk (exFamily 1 2) ∧ SiblingsApart (exFamily 1 2) ∧
    childrenOf ((exFamily 1 2).softDelete newFlags 1).1 0 = [2] :=
  ⟨exFamily_ok 1 2, exFamily_apart, by decide +kernel⟩

/-- C39 fails on a complete run: the children 15 and 17 of saddle 1 are at the same place, so emancipating 15
also removes 17 from the children of 1, while 17 still names 1 as parent. -/
theorem C39_emancipate_refuted :
    (exFull [[9, 5, 8, 5, 7], [1, 4, 1, 5, 1], [7, 5, 9, 1, 9]] false 99).toOption.map (fun r =>
      ((childrenOf r.1 1, parentOf r.1 15, parentOf r.1 17),
        childrenOf (r.1.emancipate 15) 1, parentOf (r.1.emancipate 15) 15, parentOf (r.1.emancipate 15) 17)) =
    some (([15, 16, 17, 15, 16, 17], some 1, some 1), [16, 16], none, some 1) := by decide +kernel

/-- Soft deletion has the same fault. -/
theorem C39_soft_delete_refuted :
    (exFull [[9, 5, 8, 5, 7], [1, 4, 1, 5, 1], [7, 5, 9, 1, 9]] false 99).toOption.map (fun r =>
      (childrenOf (r.1.softDelete r.2 15).1 1, parentOf (r.1.softDelete r.2 15).1 17)) =
    some ([16, 16], some 1) := by decide +kernel

/-! ### C38: purging -/

/-- C38, what is removed: the saddles of the purged map are those not selected, in order; its linkers are those
listed by them; the removed saddles and all their linkers are disqualified, all other saddles and
linkers stay as they were; links, summits and runoffs are untouched. -/
theorem C38_purge_exact (m : DMap) (f : Flags) (single basin all : Bool) :
    let m' := (m.purge f single basin all).1
    let f' := (m.purge f single basin all).2
    m'.saddles.Sublist m.saddles ∧
    (∀ k, (Selected f single basin all k → k ∉ m'.saddles) ∧
      (¬ Selected f single basin all k → m'.saddles.count k = m.saddles.count k)) ∧
    m'.linkers = m'.saddles.flatMap m.st.sadLinks ∧
    (∀ k, (k ∈ m.saddles ∧ Selected f single basin all k → SaddleOut f' k) ∧
      (¬ (k ∈ m.saddles ∧ Selected f single basin all k) → (SaddleOut f' k ↔ SaddleOut f k))) ∧
    (∀ i, f'.linkDisq i = true ↔ f.linkDisq i = true ∨
      ∃ k ∈ m.saddles, Selected f single basin all k ∧ i ∈ m.st.sadLinks k) ∧
    m'.net = m.net ∧ m'.summits = m.summits ∧ m'.runoffs = m.runoffs := by
  rw [purge_eq]
  have hs := culls_same (m.saddles.filter (purgeSelects f single basin all)) (m, f)
  obtain ⟨h1, h2, h3, h4⟩ := culls_flags (m.saddles.filter (purgeSelects f single basin all)) (m, f)
  have hmem : ∀ k, k ∈ m.saddles.filter (purgeSelects f single basin all) ↔
      k ∈ m.saddles ∧ Selected f single basin all k := fun k => by
    rw [List.mem_filter, purgeSelects_iff]
  dsimp only
  refine ⟨List.filter_sublist, fun k => ⟨fun hk hm => ?_, fun hk => ?_⟩, rfl, fun k => ⟨fun hk => ?_, fun hk => ?_⟩,
    fun i => ?_, hs.net, hs.summits, hs.runoffs⟩
  · have := (List.mem_filter.1 hm).2
    rw [(purgeSelects_iff f single basin all k).2 hk] at this
    cases this
  · refine List.count_filter ?_
    rw [← purgeSelects_iff] at hk
    simpa using hk
  · exact .inl (by rw [h3, if_pos ((hmem k).2 hk)])
  · unfold SaddleOut
    rw [h1, h2, h3, if_neg (fun h => hk ((hmem k).1 h))]
  · rw [h4]
    simp only [hmem]
    constructor
    · rintro (h | ⟨k, ⟨a, b⟩, c⟩)
      · exact .inl h
      · exact .inr ⟨k, a, b, c⟩
    · rintro (h | ⟨k, a, b, c⟩)
      · exact .inl h
      · exact .inr ⟨k, ⟨a, b⟩, c⟩

/-- Instance of C38: of the four saddles of the crater the basin saddle 9 is removed, with the linkers 2 and 3. -/
example : (exFull exCrater false 17).toOption.map (fun r => ((r.1.saddles, r.1.linkers),
    (r.1.purge r.2 true true false).1.saddles, (r.1.purge r.2 true true false).1.linkers)) =
    some (([8, 9, 10, 11], [0, 1, 2, 3, 4, 5, 6, 7]), [8, 10, 11], [0, 1, 4, 5, 6, 7]) := by decide +kernel

/-- C38 for complete runs: after purging with any options every linker of the map joins a saddle of the map with
a summit of the map. -/
theorem C38_run_linkers (E : SaddleEnv) (hE : RunOk E) (o : Pt → Oracle) (order : List Pt)
    (ho : IsScan E.d order) (rebuild : Bool) (fuel : Nat) (m : DMap) (f : Flags)
    (hr : DMap.run E o order rebuild fuel = .ok (m, f)) (single basin all : Bool) :
    ∀ i ∈ (m.purge f single basin all).1.linkers, ∃ l, (m.purge f single basin all).1.st.store[i]? = some l ∧
      l.saddle ∈ (m.purge f single basin all).1.saddles ∧
      l.summit < (m.purge f single basin all).1.summits.length := by
  obtain ⟨_, m0, m1, sites, news, _, h8, h9, _, _⟩ := run_links hE o order ho rebuild
  have : m1 = m := by
    unfold DMap.run at hr
    rw [h8] at hr
    obtain ⟨m2, e1, e2⟩ := bind_ok hr
    obtain ⟨f', _, e2⟩ := bind_ok e2
    cases e1; cases e2; rfl
  subst this
  have hs := culls_same (m1.saddles.filter (purgeSelects f single basin all)) (m1, f)
  rw [purge_eq]
  dsimp only
  intro i hi
  obtain ⟨k, hk, hi⟩ := List.mem_flatMap.1 hi
  obtain ⟨l, hl, e⟩ := h9.inv.sad k i hi
  refine ⟨l, by rw [hs.store]; exact hl, by rw [e]; exact hk, ?_⟩
  rw [hs.summits]
  obtain ⟨sf, _, h1, _⟩ := h9.link hl
  exact lt_of_getElem? h1

/-- C38, references between saddles (where they are kept consistent): if families are consistent, alternatives
mutual, and siblings and alternatives apart, no remaining saddle has a removed one as parent, child
or alternative, and all other relations are kept. -/
theorem C38_references_partial (m : DMap) (f : Flags) (single basin all : Bool) (hF : FamilyOk m)
    (hA : SiblingsApart m) (hf : AltsOk m f) (hb : ∀ k ∈ m.saddles, k < m.st.objs.length) :
    let m' := (m.purge f single basin all).1
    let f' := (m.purge f single basin all).2
    let Gone := fun k => k ∈ m.saddles ∧ Selected f single basin all k
    ∀ j, ¬ Gone j →
      (∀ p, parentOf m' j = some p ↔ parentOf m j = some p ∧ ¬ Gone p) ∧
      (∀ c, c ∈ childrenOf m' j ↔ c ∈ childrenOf m j ∧ ¬ Gone c) ∧
      (∀ k, Node.saddle k ∈ f'.alts (.saddle j) ↔ Node.saddle k ∈ f.alts (.saddle j) ∧ ¬ Gone k) := by
  rw [purge_eq]
  set l := m.saddles.filter (purgeSelects f single basin all) with hl
  have hmem : ∀ k, k ∈ l ↔ k ∈ m.saddles ∧ Selected f single basin all k := fun k => by
    rw [hl, List.mem_filter, purgeSelects_iff]
  obtain ⟨_, h1⟩ := culls_family l (m, f) hF hA
  have h2 := culls_alts l (m, f) (fun k hk => hb k ((hmem k).1 hk).1) hf
  dsimp only
  intro j hj
  have hj' : j ∉ l := fun h => hj ((hmem j).1 h)
  refine ⟨fun p => ?_, fun c => ?_, fun k => ?_⟩
  · have := (h1 j).1
    change parentOf (l.foldl cull (m, f)).1 j = some p ↔ _
    rw [this]
    simp only [hj', false_or, ← hmem]
    constructor
    · intro h
      split at h
      · cases h
      · rename_i hn
        exact ⟨h, fun hp => hn ⟨p, hp, h⟩⟩
    · rintro ⟨h, hp⟩
      rw [if_neg, h]
      rintro ⟨q, hq, e⟩
      rw [h] at e
      exact hp (by simpa using (Option.some.inj e) ▸ hq)
  · have := (h1 j).2
    change c ∈ childrenOf (l.foldl cull (m, f)).1 j ↔ _
    rw [this, if_neg hj', List.mem_filter, decide_eq_true_eq, ← hmem]
  · rw [h2 j, if_neg hj', List.mem_filter, ← hmem]
    simp only [List.all_eq_true, decide_eq_true_eq, ne_eq, Node.saddle.injEq]
    constructor
    · rintro ⟨a, b⟩
      exact ⟨a, fun hk => b k hk rfl⟩
    · rintro ⟨a, b⟩
      exact ⟨a, fun x hx e => b (e ▸ hx)⟩

/-- C38, domains (where they are known to the saddle): if every saddle of a domain has a linker to its summit,
then after purging a domain lists exactly the saddles it listed before which are not at the place of a
removed saddle of this domain; in particular no removed one. -/
theorem C38_domains_partial (m : DMap) (f : Flags) (single basin all : Bool)
    (hd : ∀ D, ∀ k ∈ m.st.domSaddles D, (m.domPoints D).isSome ∧ Linked m.net k D)
    (hb : ∀ k ∈ m.saddles, k < m.st.objs.length) :
    let m' := (m.purge f single basin all).1
    ∀ D, (m'.st.domSaddles D).Sublist (m.st.domSaddles D) ∧
      (∀ k ∈ m.saddles, Selected f single basin all k → k ∉ m'.st.domSaddles D) ∧
      ∀ x ∈ m.st.domSaddles D, x ∉ m'.st.domSaddles D →
        ∃ k ∈ m.saddles, Selected f single basin all k ∧ Linked m.net k D ∧ SamePlace m x k := by
  rw [purge_eq]
  have h := culls_doms (m.saddles.filter (purgeSelects f single basin all)) (m, f)
  have hdom : ∀ k D, D ∈ m.domainsOf k ↔ Linked m.net k D ∧ (m.domPoints D).isSome := by
    intro k D
    simp only [DMap.domainsOf, List.mem_filter, List.mem_map]
    exact Iff.rfl
  dsimp only
  intro D
  rw [h D]
  refine ⟨List.filter_sublist, fun k hk hs hm => ?_, fun x hx hn => ?_⟩
  · obtain ⟨h1, h2⟩ := List.mem_filter.1 hm
    obtain ⟨a, b⟩ := hd D k h1
    have := List.all_eq_true.1 h2 k (List.mem_filter.2 ⟨hk, (purgeSelects_iff f single basin all k).2 hs⟩)
    rw [(samePlace_iff m k k).2 (SamePlace.self (List.getElem?_eq_getElem (hb k hk)))] at this
    simp [(hdom k D).2 ⟨b, a⟩] at this
  · have : ¬ _ := fun hc => hn (List.mem_filter.2 ⟨hx, hc⟩)
    simp only [List.all_eq_true, not_forall] at this
    obtain ⟨k, hk, hc⟩ := this
    simp only [Bool.or_eq_true, Bool.not_eq_true', decide_eq_false_iff_not, not_or, not_not, Bool.not_eq_true] at hc
    obtain ⟨k1, k2⟩ := List.mem_filter.1 hk
    exact ⟨k, k1, (purgeSelects_iff f single basin all k).1 k2, ((hdom k D).1 hc.1).1, (samePlace_iff m x k).1 hc.2⟩

/-- C38 for complete runs: if summits are apart, purging leaves no removed saddle in any domain. -/
theorem C38_run_domains_partial (E : SaddleEnv) (hE : RunOk E) (o : Pt → Oracle) (order : List Pt)
    (ho : IsScan E.d order) (rebuild : Bool) (fuel : Nat) (m : DMap) (f : Flags)
    (hr : DMap.run E o order rebuild fuel = .ok (m, f)) (hS : SummitsApart m.summits) (single basin all : Bool) :
    ∀ D, ∀ k ∈ m.saddles, k ∉ (m.purge f single basin all).1.saddles →
      k ∉ (m.purge f single basin all).1.st.domSaddles D := by
  obtain ⟨_, m0, m1, sites, news, _, h8, h9, _, _⟩ := run_links hE o order ho rebuild
  have : m1 = m := by
    unfold DMap.run at hr
    rw [h8] at hr
    obtain ⟨m2, e1, e2⟩ := bind_ok hr
    obtain ⟨f', _, e2⟩ := bind_ok e2
    cases e1; cases e2; rfl
  subst this
  intro D k hk hn
  have hsel : Selected f single basin all k := by
    by_contra hc
    have := ((C38_purge_exact m1 f single basin all).2.1 k).2 hc
    exact hn (List.count_pos_iff.1 (by rw [this]; exact List.count_pos_iff.2 hk))
  refine ((C38_domains_partial m1 f single basin all (fun D k hk => ?_) h9.netFin.bound) D).2.1 k hk hsel
  rw [h9.inv.dsad] at hk
  obtain ⟨l, hlf, rfl⟩ := List.mem_map.1 hk
  obtain ⟨hl, hD⟩ := List.mem_filter.1 hlf
  simp only [decide_eq_true_eq] at hD
  subst hD
  obtain ⟨j, hj⟩ := List.mem_iff_getElem?.1 (show l ∈ m1.st.store from hl)
  obtain ⟨sf, _, h1, _⟩ := h9.link hj
  refine ⟨?_, ?_⟩
  · rw [h9.points, if_pos (by rw [← h9.summits]; exact lt_of_getElem? h1)]; rfl
  · have h2 := (h9.inv.ends l hl).2
    unfold linkIn at h2
    obtain ⟨i, hi, hc⟩ := List.any_eq_true.1 h2
    obtain ⟨l', hl', hk'⟩ := h9.inv.sad _ i hi
    rw [hl'] at hc
    refine ⟨i, hi, ?_⟩
    rw [net_link hl']
    by_contra hne
    unfold linkEq at hc
    dsimp only at hc
    rw [← h9.summits] at hc
    obtain ⟨sf', _, h1', _⟩ := h9.link hl'
    rw [h1, h1'] at hc
    split at hc
    · rename_i s t u v e1 e2 _ _
      cases e1; cases e2
      simp only [Bool.and_eq_true] at hc
      exact hS _ _ _ _ h1' h1 hne (seEq_round hc.1)
    · cases hc

/-- The crater meets the conditions. -/
example : ∃ m f, exFull exCrater false 17 = .ok (m, f) ∧ SummitsApart m.summits := by
  have h : (exFull exCrater false 17).toOption.map (fun r => decide (r.1.summits.map fun s =>
      (round6 s.lat, round6 s.lon, s.elevation)).Nodup) = some true := by decide +kernel
  cases hr : exFull exCrater false 17 with
  | error e => rw [hr] at h; cases h
  | ok r =>
    rw [hr] at h
    exact ⟨r.1, r.2, rfl, summitsApart_of_nodup (by simpa [Except.toOption] using h)⟩

/-- C38 fails for summits: summit 0 of the crater still lists the (disqualified) linker 2 to the removed saddle 9. -/
theorem C38_summit_refuted : (exFull exCrater false 17).toOption.map (fun r =>
    (decide (9 ∈ r.1.saddles), decide (9 ∈ (r.1.purge r.2 true true false).1.saddles),
      ((r.1.purge r.2 true true false).1.net.sumLinks 0).map (r.1.purge r.2 true true false).1.net.link)) =
    some (true, false, [(0, 8), (0, 9)]) := by decide +kernel

/-- C38 fails for linkers: nothing is removed from this map, but its linkers 2 and 3 (of the runoffs 1 and 2) are
gone. -/
theorem C38_runoff_linkers_refuted : (exFull exRows false 99).toOption.map (fun r =>
    ((r.1.saddles, (r.1.purge r.2 true true false).1.saddles), (r.1.linkers, (r.1.purge r.2 true true false).1.linkers),
      [2, 3].map r.1.net.link, r.1.runoffs)) =
    some (([7], [7]), ([0, 1, 2, 3], [0, 1]), [(1, 1), (0, 2)], [1, 1, 2, 2, 3, 4, 5, 6]) := by decide +kernel

/-- A raster with an edge saddle whose two children are at the same place. -/
def exSame : List (List Rat) := [[5, 4, 7, 3, 2], [6, 7, 9, 0, 9], [1, 9, 2, 5, 2], [8, 6, 8, 0, 5], [9, 4, 5, 3, 3]]

/-- C38 fails for domains and families: only saddle 15 is purged; saddle 14 at the same place remains, but the
domain of summit 0 and its parent 1 do not list it any more. -/
theorem C38_co_located_refuted : (exFull exSame false 99).toOption.map (fun r =>
    ((r.1.saddles, (r.1.purge r.2 true true false).1.saddles),
     (r.1.st.domSaddles 0, (r.1.purge r.2 true true false).1.st.domSaddles 0),
     (childrenOf r.1 1, childrenOf (r.1.purge r.2 true true false).1 1),
     parentOf (r.1.purge r.2 true true false).1 14)) =
    some (([13, 0, 14, 15, 1, 16, 2, 17, 3], [13, 0, 14, 1, 16, 2, 17, 3]),
     ([13, 14, 15, 15, 16, 17, 4, 5, 8], [13, 16, 17, 4, 5, 8]), ([14, 15, 14, 15], []), some 1) := by decide +kernel

/-- C38 fails for alternatives: saddle 13 remains, and so does its alternative 14, which is purged. -/
theorem C38_alternatives_refuted :
    (exFull [[3, 6, 6, 2, 5], [5, 4, 3, 8, 2], [0, 7, 5, 5, 7], [0, 2, 9, 2, 2], [4, 5, 2, 4, 4]] true 99).toOption.map
      (fun r => ((r.1.saddles, (r.1.purge r.2 true true true).1.saddles),
        (r.1.purge r.2 true true true).2.alts (.saddle 13))) =
    some (([12, 13, 0, 14], [13, 0]), [.saddle 14]) := by decide +kernel

/-- Instance of the conditions of `C38_references_partial` and `C38_domains_partial`: a family with two mutual
alternatives, one of which is purged. -/
example : ∃ f : Flags, FamilyOk (exFamily 1 2) ∧ SiblingsApart (exFamily 1 2) ∧ AltsOk (exFamily 1 2) f ∧
    Selected f true true true 1 ∧ Node.saddle 1 ∈ f.alts (.saddle 2) := by
  refine ⟨{ newFlags with
    basin := fun k => k == 1
    alts := fun n => if n = .saddle 1 then [.saddle 2] else if n = .saddle 2 then [.saddle 1] else [] },
    exFamily_ok 1 2, exFamily_apart, ⟨fun n x hx => ?_, fun j k => ?_, fun n x y hx hy _ => ?_⟩, ?_, by simp⟩
  · dsimp only at hx
    split at hx
    · exact ⟨2, by simpa using hx⟩
    · split at hx
      · exact ⟨1, by simpa using hx⟩
      · cases hx
  · by_cases a : j = 1 <;> by_cases b : j = 2 <;> by_cases c : k = 1 <;> by_cases d : k = 2 <;> simp_all
  · dsimp only at hx hy
    split at hx
    · rename_i e
      rw [if_pos e] at hy
      simp only [List.mem_singleton, Node.saddle.injEq] at hx hy
      rw [hx, hy]
    · rename_i e
      rw [if_neg e] at hy
      split at hx
      · rename_i e
        rw [if_pos e] at hy
        simp only [List.mem_singleton, Node.saddle.injEq] at hx hy
        rw [hx, hy]
      · cases hx
  · exact .inl (by simp)

/-! ### C42: neighbour queries -/

/-- C42, features: with linkers held at both ends, a summit is among the feature neighbours of a saddle exactly if
the saddle is among those of the summit. -/
theorem C42_feature_neighbors (N : FNet) (hN : Bidirectional N) (k D : Nat) :
    (Node.summit D ∈ N.nbrs (.saddle k) ↔ Node.saddle k ∈ N.nbrs (.summit D)) ∧
    (Node.summit D ∈ N.nbrs (.saddle k) ↔ Linked N k D) := by
  have h1 : Node.summit D ∈ N.nbrs (.saddle k) ↔ Linked N k D := by
    simp [FNet.nbrs, Linked]
  refine ⟨?_, h1⟩
  rw [h1]
  simp only [FNet.nbrs, List.mem_map, Node.saddle.injEq]
  constructor
  · rintro ⟨i, hi, rfl⟩
    obtain ⟨e, h⟩ := hN.sad k i hi
    exact ⟨i, h, e⟩
  · rintro ⟨i, hi, rfl⟩
    obtain ⟨e, h⟩ := hN.sum D i hi
    exact ⟨i, h, e⟩

/-- C42, one linker: a linker that takes part leads to the saddles (summits) which have a linker that takes part and
shares its summit (saddle); a linker that does not take part leads nowhere. -/
theorem C42_via_linker (N : FNet) (hN : Bidirectional N) (f : Flags) (skip : Bool) (i : Nat) :
    (∀ k, k ∈ N.saddlesVia f skip (fun _ => false) i ↔ Live f skip i ∧ LiveLinked N f skip k (N.link i).1) ∧
    (∀ D, D ∈ N.summitsVia f skip (fun _ => false) i ↔ Live f skip i ∧ LiveLinked N f skip (N.link i).2 D) := by
  have hok : ∀ j, linkerOk f skip (fun _ => false) j = true ↔ Live f skip j := by
    intro j; unfold linkerOk Live; cases skip <;> cases f.linkDisq j <;> simp
  have hlive : (skip && f.linkDisq i) = true ↔ ¬ Live f skip i := by
    unfold Live; cases skip <;> cases f.linkDisq i <;> simp
  constructor
  · intro k
    unfold FNet.saddlesVia
    by_cases h : Live f skip i
    · rw [if_neg (fun hc => hlive.1 hc h), if_neg (by simp)]
      simp only [List.mem_map, List.mem_filter, hok, LiveLinked, h, true_and]
      constructor
      · rintro ⟨j, ⟨hj, hl⟩, rfl⟩
        obtain ⟨e, h⟩ := hN.sum _ j hj
        exact ⟨j, h, hl, e⟩
      · rintro ⟨j, hj, hl, e⟩
        obtain ⟨e', h⟩ := hN.sad _ j hj
        exact ⟨j, ⟨e ▸ h, hl⟩, e'⟩
    · rw [if_pos (hlive.2 h)]
      simp [h]
  · intro D
    unfold FNet.summitsVia
    by_cases h : Live f skip i
    · rw [if_neg (fun hc => hlive.1 hc h), if_neg (by simp)]
      simp only [List.mem_map, List.mem_filter, hok, LiveLinked, h, true_and, and_assoc]
    · rw [if_pos (hlive.2 h)]
      simp [h]

/-- Exempt linkers are treated as disqualified ones: neither followed nor started from. -/
theorem C42_exempt (N : FNet) (f : Flags) (skip : Bool) (exempt : Nat → Bool) (i : Nat) :
    N.saddlesVia f skip exempt i =
      (if exempt i ∨ (skip = true ∧ f.linkDisq i = true) then [] else
        ((N.sumLinks (N.link i).1).filter fun j =>
          !exempt j && !(skip && f.linkDisq j)).map fun j => (N.link j).2) ∧
    N.summitsVia f skip exempt i =
      (if exempt i ∨ (skip = true ∧ f.linkDisq i = true) then [] else
        ((N.sadLinks (N.link i).2).filter fun j =>
          !exempt j && !(skip && f.linkDisq j)).map fun j => (N.link j).1) := by
  have hok : linkerOk f skip exempt = fun j => !exempt j && !(skip && f.linkDisq j) := by
    funext j; unfold linkerOk; cases skip <;> cases f.linkDisq j <;> cases exempt j <;> rfl
  unfold FNet.saddlesVia FNet.summitsVia
  rw [hok]
  cases skip <;> cases f.linkDisq i <;> cases exempt i <;> simp

/-- C42, other linkers: the linkers to the features beyond this linker's summit (saddle) are those of that summit
(saddle), without itself if asked, and without disqualified ones if asked. -/
theorem C42_other_linkers (N : FNet) (f : Flags) (excl skip : Bool) (i j : Nat) :
    (j ∈ N.linkersViaSummit f excl skip i ↔ j ∈ N.sumLinks (N.link i).1 ∧ Live f skip j ∧ (excl = true → i ≠ j)) ∧
    (j ∈ N.linkersViaSaddle f excl skip i ↔ j ∈ N.sadLinks (N.link i).2 ∧ Live f skip j ∧ (excl = true → i ≠ j)) := by
  have hok : linkerOk f skip (fun _ => false) j = true ↔ Live f skip j := by
    unfold linkerOk Live; cases skip <;> cases f.linkDisq j <;> simp
  unfold FNet.linkersViaSummit FNet.linkersViaSaddle
  constructor <;>
    simp only [List.mem_filter, Bool.and_eq_true, hok, Bool.not_eq_true', Bool.and_eq_false_iff,
      decide_eq_false_iff_not] <;> cases excl <;> simp

/-- C42, saddles: with linkers held at both ends, `all_neighbors` of a saddle holds the saddles that share a
summit with it over linkers that take part; the relation is symmetric. -/
theorem C42_saddle_all_neighbors (N : FNet) (hN : Bidirectional N) (f : Flags) (skip : Bool) (k k' : Nat) :
    (k' ∈ N.saddleAllNbrs f skip k ↔ ∃ D, LiveLinked N f skip k D ∧ LiveLinked N f skip k' D) ∧
    (k' ∈ N.saddleAllNbrs f skip k ↔ k ∈ N.saddleAllNbrs f skip k') := by
  have key : ∀ k k', k' ∈ N.saddleAllNbrs f skip k ↔ ∃ D, LiveLinked N f skip k D ∧ LiveLinked N f skip k' D := by
    intro k k'
    have : k' ∈ N.saddleAllNbrs f skip k ↔
        ∃ i ∈ N.sadLinks k, k' ∈ N.saddlesVia f skip (fun _ => false) i := by
      unfold FNet.saddleAllNbrs
      cases skip
      · simp
      · simp only [if_true, List.mem_flatMap, List.mem_filter]
        constructor
        · rintro ⟨i, ⟨a, _⟩, b⟩
          exact ⟨i, a, b⟩
        · rintro ⟨i, a, b⟩
          have := (((C42_via_linker N hN f true i).1 k').1 b).1 rfl
          exact ⟨i, ⟨a, by simp [this]⟩, b⟩
    rw [this]
    simp only [(C42_via_linker N hN f skip _).1]
    constructor
    · rintro ⟨i, hi, hl, h⟩
      exact ⟨_, ⟨i, hi, hl, rfl⟩, h⟩
    · rintro ⟨D, ⟨i, hi, hl, rfl⟩, h⟩
      exact ⟨i, hi, hl, h⟩
  refine ⟨key k k', ?_⟩
  rw [key, key]
  exact ⟨fun ⟨D, a, b⟩ => ⟨D, b, a⟩, fun ⟨D, a, b⟩ => ⟨D, b, a⟩⟩

/-- C42, summits: likewise for `all_neighbors` of a summit. -/
theorem C42_summit_all_neighbors (N : FNet) (hN : Bidirectional N) (f : Flags) (skip : Bool) (D D' : Nat) :
    (D' ∈ N.summitAllNbrs f skip D ↔ ∃ k, LiveLinked N f skip k D ∧ LiveLinked N f skip k D') ∧
    (D' ∈ N.summitAllNbrs f skip D ↔ D ∈ N.summitAllNbrs f skip D') := by
  have key : ∀ D D', D' ∈ N.summitAllNbrs f skip D ↔ ∃ k, LiveLinked N f skip k D ∧ LiveLinked N f skip k D' := by
    intro D D'
    have : D' ∈ N.summitAllNbrs f skip D ↔
        ∃ i ∈ N.sumLinks D, D' ∈ N.summitsVia f skip (fun _ => false) i := by
      unfold FNet.summitAllNbrs
      cases skip
      · simp
      · simp only [if_true, List.mem_flatMap, List.mem_filter]
        constructor
        · rintro ⟨i, ⟨a, _⟩, b⟩
          exact ⟨i, a, b⟩
        · rintro ⟨i, a, b⟩
          have := (((C42_via_linker N hN f true i).2 D').1 b).1 rfl
          exact ⟨i, ⟨a, by simp [this]⟩, b⟩
    rw [this]
    simp only [(C42_via_linker N hN f skip _).2]
    constructor
    · rintro ⟨i, hi, hl, h⟩
      obtain ⟨e1, e2⟩ := hN.sum D i hi
      exact ⟨_, ⟨i, e2, hl, e1⟩, h⟩
    · rintro ⟨k, ⟨i, hi, hl, rfl⟩, h⟩
      obtain ⟨e1, e2⟩ := hN.sad k i hi
      exact ⟨i, e2, hl, by rw [e1]; exact h⟩
  refine ⟨key D D', ?_⟩
  rw [key, key]
  exact ⟨fun ⟨D, a, b⟩ => ⟨D, b, a⟩, fun ⟨D, a, b⟩ => ⟨D, b, a⟩⟩

/-- C42, neighbours of a summit: without duplicates, without the summit itself, and (if different summits are told
apart) exactly the summits that share a saddle with it over live linkers, a symmetric relation. -/
theorem C42_summit_neighbors (N : FNet) (hN : Bidirectional N) (f : Flags)
    (hs : ∀ k l a b, Linked N k a → Linked N l b → (N.setEq a b = true ↔ a = b)) (D D' : Nat) :
    (N.summitNbrs f D).Nodup ∧
    (D' ∈ N.summitNbrs f D ↔ D' ≠ D ∧ ∃ k, LiveLinked N f true k D ∧ LiveLinked N f true k D') ∧
    (D' ∈ N.summitNbrs f D ↔ D ∈ N.summitNbrs f D') := by
  have hfold : ∀ (l acc : List Nat), (∀ x ∈ l ++ acc, ∃ k, Linked N k x) → acc.Nodup →
      (l.foldl (fun acc x => if acc.any (fun y => N.setEq x y) then acc else acc ++ [x]) acc).Nodup ∧
      ∀ z, z ∈ l.foldl (fun acc x => if acc.any (fun y => N.setEq x y) then acc else acc ++ [x]) acc ↔
        z ∈ acc ∨ z ∈ l := by
    intro l
    induction l with
    | nil => intro acc _ hn; exact ⟨hn, by simp⟩
    | cons a l ih =>
      intro acc hl hn
      obtain ⟨ka, hka⟩ := hl a (by simp)
      have hany : acc.any (fun y => N.setEq a y) = true ↔ a ∈ acc := by
        rw [List.any_eq_true]
        constructor
        · rintro ⟨y, hy, he⟩
          obtain ⟨ky, hky⟩ := hl y (by simp [hy])
          rw [(hs _ _ _ _ hka hky).1 he]
          exact hy
        · intro h
          exact ⟨a, h, (hs _ _ _ _ hka hka).2 rfl⟩
      rw [List.foldl_cons]
      by_cases h : a ∈ acc
      · rw [if_pos (hany.2 h)]
        obtain ⟨g1, g2⟩ := ih acc (fun x hx => hl x (by simp at hx ⊢; tauto)) hn
        refine ⟨g1, fun z => ?_⟩
        rw [g2, List.mem_cons]
        constructor
        · tauto
        · rintro (h' | rfl | h')
          · exact .inl h'
          · exact .inl h
          · exact .inr h'
      · rw [if_neg (fun hc => h (hany.1 hc))]
        obtain ⟨g1, g2⟩ := ih (acc ++ [a]) (fun x hx => hl x (by simp at hx ⊢; tauto))
          (by rw [List.nodup_append]; exact ⟨hn, by simp, fun x hx y hy e => by
            rw [List.mem_singleton] at hy; exact h (hy ▸ e ▸ hx)⟩)
        refine ⟨g1, fun z => ?_⟩
        rw [g2]
        simp [or_assoc]
  have hlk : ∀ D, ∀ x ∈ N.summitAllNbrs f true D, ∃ k, Linked N k x := by
    intro D x hx
    obtain ⟨k, _, i, hi, _, e⟩ := (C42_summit_all_neighbors N hN f true D x).1.1 hx
    exact ⟨k, i, hi, e⟩
  have key : ∀ D D', D' ∈ N.summitNbrs f D ↔
      D' ≠ D ∧ ∃ k, LiveLinked N f true k D ∧ LiveLinked N f true k D' := by
    intro D D'
    obtain ⟨_, g2⟩ := hfold (N.summitAllNbrs f true D) [] (fun x hx => hlk D x (by simpa using hx)) (by simp)
    unfold FNet.summitNbrs uniqueSummits
    rw [List.mem_filter, g2, (C42_summit_all_neighbors N hN f true D D').1]
    simp only [List.not_mem_nil, false_or, Bool.not_eq_true']
    constructor
    · rintro ⟨⟨k, h1, h2⟩, h3⟩
      refine ⟨?_, k, h1, h2⟩
      rintro rfl
      obtain ⟨i, hi, _, e⟩ := h1
      rw [(hs k k _ _ ⟨i, hi, e⟩ ⟨i, hi, e⟩).2 rfl] at h3
      cases h3
    · rintro ⟨h3, k, h1, h2⟩
      refine ⟨⟨k, h1, h2⟩, ?_⟩
      obtain ⟨i, hi, _, e⟩ := h1
      obtain ⟨i', hi', _, e'⟩ := h2
      by_contra hc
      simp only [Bool.not_eq_false] at hc
      exact h3 ((hs k k _ _ ⟨i', hi', e'⟩ ⟨i, hi, e⟩).1 hc)
  refine ⟨?_, key D D', ?_⟩
  · obtain ⟨g1, _⟩ := hfold (N.summitAllNbrs f true D) [] (fun x hx => hlk D x (by simpa using hx)) (by simp)
    exact g1.filter _
  · rw [key, key]
    exact ⟨fun ⟨a, k, b, c⟩ => ⟨a.symm, k, c, b⟩, fun ⟨a, k, b, c⟩ => ⟨a.symm, k, c, b⟩⟩

/-- Networks given by lists are held at both ends. -/
theorem netOf_bidirectional (tops sads : List Rat) (links : List (Nat × Nat)) (edge : List Nat)
    (same : List (Nat × Nat)) : Bidirectional (netOf tops sads links edge same) where
  sad k i hi := by
    simp only [netOf, List.mem_filter, List.mem_range, decide_eq_true_eq] at hi ⊢
    exact ⟨hi.2, hi.1, trivial⟩
  sum D i hi := by
    simp only [netOf, List.mem_filter, List.mem_range, decide_eq_true_eq] at hi ⊢
    exact ⟨hi.2, hi.1, trivial⟩

/-- Instance of C42: the ring of three summits meets the conditions; each summit has the other two as neighbours,
and one less after the linkers of saddle 0 have been disqualified. -/
example : Bidirectional exNet ∧ (∀ k l a b, Linked exNet k a → Linked exNet l b → (exNet.setEq a b = true ↔ a = b)) ∧
    exNet.summitNbrs newFlags 0 = [1, 2] ∧
    exNet.summitNbrs (disqualifySelf exNet newFlags 0 true false) 0 = [2] ∧
    exNet.saddleAllNbrs newFlags true 0 = [0, 2, 0, 1, 3, 3] :=
  ⟨netOf_bidirectional _ _ _ _ _, fun _ _ a b _ _ => by simp [exNet, netOf], by decide +kernel, by decide +kernel,
    by decide +kernel⟩

/-- C42 fails for duplicates: two linkers between the same features put the summit twice among the feature
neighbours of the saddle. -/
theorem C42_duplicates_refuted : (netOf [30, 40] [10] [(0, 0), (1, 0), (1, 0)]).nbrs (.saddle 0) =
    [.summit 0, .summit 1, .summit 1] := by decide +kernel

/-- C42 fails for `Saddle.neighbors`: on the map of any complete run it raises TypeError for every saddle, because
saddles with high neighbourhoods cannot be hashed. -/
theorem C42_saddle_neighbors_refuted (E : SaddleEnv) (hE : RunOk E) (o : Pt → Oracle) (order : List Pt)
    (ho : IsScan E.d order) (rebuild : Bool) (fuel : Nat) (m : DMap) (f : Flags)
    (hr : DMap.run E o order rebuild fuel = .ok (m, f)) (g : Flags) :
    ∀ k ∈ m.saddles, m.saddleNbrs g k = .error .typeError := by
  obtain ⟨_, m0, m1, sites, news, _, h8, h9, _, _⟩ := run_links hE o order ho rebuild
  have : m1 = m := by
    unfold DMap.run at hr
    rw [h8] at hr
    obtain ⟨m2, e1, e2⟩ := bind_ok hr
    obtain ⟨f', _, e2⟩ := bind_ok e2
    cases e1; cases e2; rfl
  subst this
  intro k hk
  rw [h9.saddles] at hk
  obtain ⟨hw, hkind⟩ := List.mem_filter.1 hk
  obtain ⟨ob, hob⟩ : ∃ ob, m1.st.objs[k]? = some ob := ⟨_, List.getElem?_eq_getElem (h9.inv.walked k hw)⟩
  have hf := h9.inv.objs ob (List.mem_of_getElem? hob)
  have hk2 : ob.f.kind ≠ .runoff := by simpa [hob] using hkind
  have hk3 := hf.kind
  have h2 : 2 ≤ ob.f.hpn.length := hf.saddle (by cases h : ob.f.kind <;> simp_all)
  have : m1.hashable k = false := by
    unfold DMap.hashable
    rw [hob]
    cases h : ob.f.hpn with
    | nil => rw [h] at h2; simp at h2
    | cons _ _ => simp [h]
  unfold DMap.saddleNbrs
  simp [this]

/-- The crater has saddles to which this applies. -/
example : (exFull exCrater false 17).toOption.map (fun r => (r.1.saddles, (r.1.saddleNbrs r.2 8).toOption)) =
    some ([8, 9, 10, 11], none) := by decide +kernel

/-- Two saddles of the map that Python takes for the same in a set: same rounded position (which is hashed), and equal
as features. -/
def Spec.SameInSet (m : DMap) (a b : Nat) : Prop :=
  ∃ s t, m.st.objs[a]? = some s ∧ m.st.objs[b]? = some t ∧ round6 s.f.lat = round6 t.f.lat ∧
    round6 s.f.lon = round6 t.f.lon ∧ eqCoord s.f.lat = eqCoord t.f.lat ∧ eqCoord s.f.lon = eqCoord t.f.lon ∧
    s.f.elevation = t.f.elevation

theorem sadSetEq_iff (m : DMap) (a b : Nat) :
    sadSetEq m.st.objs[a]? m.st.objs[b]? = true ↔ SameInSet m a b := by
  unfold sadSetEq SameInSet
  cases m.st.objs[a]? with
  | none => simp
  | some s =>
    cases m.st.objs[b]? with
    | none => simp
    | some t => simp [seEq, and_assoc]

theorem uniq_fold {eq : Nat → Nat → Bool} (hr : ∀ x y, eq x y = true → eq y x = true) : ∀ (l acc : List Nat),
    acc.Pairwise (fun a b => eq b a = false) →
    (∀ x ∈ l, eq x x = true) →
    let r := l.foldl (fun acc x => if acc.any (fun y => eq x y) then acc else acc ++ [x]) acc
    r.Pairwise (fun a b => eq b a = false) ∧ (∀ x ∈ r, x ∈ acc ∨ x ∈ l) ∧ (∀ x ∈ acc, x ∈ r) ∧
      ∀ x ∈ l, ∃ y ∈ r, eq x y = true
  | [], acc, h, _ => ⟨h, fun x hx => .inl hx, fun x hx => hx, fun x hx => nomatch hx⟩
  | a :: l, acc, h, hrefl => by
    rw [List.foldl_cons]
    by_cases ha : (acc.any fun y => eq a y) = true
    · rw [if_pos ha]
      obtain ⟨g1, g2, g3, g4⟩ := uniq_fold hr l acc h (fun x hx => hrefl x (by simp [hx]))
      refine ⟨g1, fun x hx => ?_, g3, fun x hx => ?_⟩
      · rcases g2 x hx with h | h
        · exact .inl h
        · exact .inr (by simp [h])
      · rcases List.mem_cons.1 hx with e | hx
        · subst e
          obtain ⟨y, hy, he⟩ := List.any_eq_true.1 ha
          exact ⟨y, g3 y hy, he⟩
        · exact g4 x hx
    · rw [if_neg ha]
      have hp : (acc ++ [a]).Pairwise (fun a b => eq b a = false) := by
        rw [List.pairwise_append]
        refine ⟨h, by simp, fun x hx y hy => ?_⟩
        rw [List.mem_singleton.1 hy]
        by_contra hc
        exact ha (List.any_eq_true.2 ⟨x, hx, by simpa using hc⟩)
      obtain ⟨g1, g2, g3, g4⟩ := uniq_fold hr l (acc ++ [a]) hp (fun x hx => hrefl x (by simp [hx]))
      refine ⟨g1, fun x hx => ?_, fun x hx => g3 x (by simp [hx]), fun x hx => ?_⟩
      · rcases g2 x hx with h | h
        · rcases List.mem_append.1 h with h | h
          · exact .inl h
          · exact .inr (by simp [List.mem_singleton.1 h])
        · exact .inr (by simp [h])
      · rcases List.mem_cons.1 hx with e | hx
        · subst e
          exact ⟨x, g3 x (by simp), hrefl x (by simp)⟩
        · exact g4 x hx

/-- C42 (saddles without high neighbourhoods, such as saddles made by hand or loaded from a file): `Saddle.neighbors`
returns exactly one representative of each saddle connected through a summit that is not the saddle itself, where
saddles that are the same in a set count once. Missing: saddles with high neighbourhoods
(`C42_saddle_neighbors_refuted`). -/
theorem C42_saddle_neighbors_partial (m : DMap) (f : Flags) (k : Nat)
    (hobj : ∀ x ∈ m.net.saddleAllNbrs f true k, ∃ o, m.st.objs[x]? = some o ∧ o.f.hpn = [])
    (hk : ∃ o, m.st.objs[k]? = some o ∧ o.f.hpn = []) :
    ∃ l, m.saddleNbrs f k = .ok l ∧ (∀ x ∈ l, x ∈ m.net.saddleAllNbrs f true k ∧ ¬ SameInSet m x k) ∧
      l.Pairwise (fun a b => ¬ SameInSet m b a) ∧
      ∀ x ∈ m.net.saddleAllNbrs f true k, ¬ SameInSet m x k → ∃ y ∈ l, SameInSet m x y := by
  have hh : ∀ x, (∃ o, m.st.objs[x]? = some o ∧ o.f.hpn = []) → m.hashable x = true := by
    rintro x ⟨o, ho, e⟩
    simp [DMap.hashable, ho, e]
  have hall : (m.net.saddleAllNbrs f true k).all m.hashable = true :=
    List.all_eq_true.2 fun x hx => hh x (hobj x hx)
  have symm : ∀ x y, SameInSet m x y → SameInSet m y x := by
    rintro x y ⟨s, t, h1, h2, a, b, c, d, e⟩
    exact ⟨t, s, h2, h1, a.symm, b.symm, c.symm, d.symm, e.symm⟩
  have trans : ∀ x y z, SameInSet m x y → SameInSet m y z → SameInSet m x z := by
    rintro x y z ⟨s, t, h1, h2, a, b, c, d, e⟩ ⟨t', u, h2', h3, a', b', c', d', e'⟩
    cases h2.symm.trans h2'
    exact ⟨s, u, h1, h3, a.trans a', b.trans b', c.trans c', d.trans d', e.trans e'⟩
  have fls : ∀ x y, sadSetEq m.st.objs[x]? m.st.objs[y]? = false ↔ ¬ SameInSet m x y := by
    intro x y
    rw [← sadSetEq_iff, Bool.not_eq_true]
  obtain ⟨g1, g2, _, g4⟩ := uniq_fold (eq := fun a b => sadSetEq m.st.objs[a]? m.st.objs[b]?)
    (fun x y h => (sadSetEq_iff m y x).2 (symm _ _ ((sadSetEq_iff m x y).1 h))) (m.net.saddleAllNbrs f true k) []
    List.Pairwise.nil (fun x hx => by
      obtain ⟨o, ho, _⟩ := hobj x hx
      exact (sadSetEq_iff m x x).2 ⟨o, o, ho, ho, rfl, rfl, rfl, rfl, rfl⟩)
  refine ⟨((m.net.saddleAllNbrs f true k).foldl (fun acc x =>
      if acc.any (fun y => sadSetEq m.st.objs[x]? m.st.objs[y]?) then acc else acc ++ [x]) []).filter
      fun x => !sadSetEq m.st.objs[x]? m.st.objs[k]?, ?_, ?_, ?_, ?_⟩
  · unfold DMap.saddleNbrs
    simp only [hall, hh k hk, Bool.not_true, Bool.or_self, Bool.false_eq_true, if_false]
  · intro x hx
    obtain ⟨h1, h2⟩ := List.mem_filter.1 hx
    refine ⟨by simpa using g2 x h1, (fls x k).1 (by simpa using h2)⟩
  · exact (g1.imp (S := fun a b => ¬ SameInSet m b a) (fun {a b} h => (fls b a).1 h)).filter _
  · intro x hx hxk
    obtain ⟨y, hy, he⟩ := g4 x hx
    have hxy := (sadSetEq_iff m x y).1 he
    exact ⟨y, List.mem_filter.2 ⟨hy, by
      have := (fls y k).2 (fun h => hxk (trans _ _ _ hxy h))
      simpa using this⟩, hxy⟩

/-- A summit with a linker to each of the three saddles of the family, without high neighbourhoods; two of them are at
the same place. -/
def exHand : DMap := { exFamily 1 1 with
  summits := [⟨.summit, 0, 1, 9, none, false, [], []⟩]
  st := { (exFamily 1 1).st with
    store := [⟨0, 0⟩, ⟨0, 1⟩, ⟨0, 2⟩]
    sumLinks := fun D => if D = 0 then [0, 1, 2] else []
    sadLinks := fun k => if k < 3 then [k] else [] }
  linkers := [0, 1, 2] }

/-- Instance: two neighbours at the same place count once. -/
example : exHand.net.saddleAllNbrs newFlags true 0 = [0, 1, 2] ∧
    (exHand.saddleNbrs newFlags 0).toOption = some [1] ∧
    (∀ x ∈ [0, 1, 2], ∃ o, exHand.st.objs[x]? = some o ∧ o.f.hpn = []) :=
  ⟨by decide +kernel, by decide +kernel, fun x hx => by
    simp only [List.mem_cons, List.not_mem_nil, or_false] at hx
    rcases hx with rfl | rfl | rfl <;> exact ⟨_, rfl, rfl⟩⟩

end PyProm
