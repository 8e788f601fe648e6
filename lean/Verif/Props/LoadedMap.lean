import Verif.Proof.LoadedMap
import Verif.Props.WalkTwice

/-
C132: walking a map that was loaded from a file.
-/
namespace PyProm
open Spec

/-- What was loaded of a run, as a map. -/
theorem loaded_map {E : SaddleEnv} (hE : RunOk E) (o : Pt → Oracle) (order : List Pt) (ho : IsScan E.d order) (rebuild : Bool) :
    ∃ D m, analyze E.d o order = .ok D ∧ DMap.runSparse E o order rebuild = .ok m ∧
      ((rebuild = false ∨ ∀ f ∈ D.saddles, f.edge = false) →
        ∀ (ids : ObjIds), ids.Distinct → ∀ f, RunFlags E o order rebuild m f → ∀ fp,
        ∃ v s n sites, (m.toL E.d f ids).toDict fp = .ok v ∧ LState.fromDict v.cbor fp = .ok (s, n) ∧
          SummitsAt E.d sites (s.toDMap n).summits ∧ (s.toDMap n).summits.length = m.summits.length ∧
          (∀ D ∈ m.domains, (s.toDMap n).domPoints D = m.domPoints D ∧ (m.domPoints D).isSome) ∧
          (s.toDMap n).saddles ++ (s.toDMap n).runoffs = List.range (m.saddles ++ m.runoffs).length ∧
          (s.toDMap n).st.objs.length = (m.saddles ++ m.runoffs).length ∧
          ∀ (P : Nat) k, (m.saddles ++ m.runoffs)[P]? = some k → ∃ ob ob', m.st.objs[k]? = some ob ∧
            (s.toDMap n).st.objs[P]? = some ob' ∧ FeatOk E.d ob'.f ∧ ob'.f.hpn = ob.f.hpn ∧ ob'.f.edge = ob.f.edge ∧
            (ob'.f.edge = false → ob'.f.hpn.length = 2 ∧ ob'.f.multipoint = none)) := by
  obtain ⟨D, m, h1, h2, h3⟩ := C76_run_saved_partial E hE o order ho rebuild
  obtain ⟨D', m', h1', h2', h4⟩ := C76_content_partial E hE o order ho rebuild
  cases (h1.symm.trans h1' : Except.ok _ = Except.ok _)
  cases (h2.symm.trans h2' : Except.ok _ = Except.ok _)
  obtain ⟨_, _, m0, m', sites, news, _, _, g3, g4, _, _, _, g8, g9⟩ := run_spec hE o order ho rebuild
  cases (h2.symm.trans g8 : Except.ok _ = Except.ok _)
  refine ⟨D, m, h1, h2, fun he ids hi f hf fp => ?_⟩
  obtain ⟨v, s, n, a1, a2, a3, _, _, _, _, _, _, _, a11⟩ := h3 he ids hi f hf fp
  obtain ⟨v', s', n', b1, b2, b3, b4, b5, b6, b7, b8, b9, b10⟩ := h4 he ids hi f hf fp
  cases (a1.symm.trans b1 : Except.ok _ = Except.ok _)
  cases (a2.symm.trans b2 : Except.ok _ = Except.ok _)
  have hlen : (s.toDMap n).summits.length = m.summits.length := by
    rw [← b3]
    exact List.length_map _
  refine ⟨v, s, n, sites, a1, a2, ?_, hlen, ?_, ?_, ?_, ?_⟩
  · refine ⟨?_, g4.tops.top, g4.tops.once, g4.tops.all⟩
    have hE0 := g4.tops.each
    rw [← g9.summits] at hE0
    rw [List.forall₂_iff_get]
    refine ⟨hE0.length_eq.trans hlen.symm, fun i hi1 hi2 => ?_⟩
    have hi3 : i < m.summits.length := by omega
    obtain ⟨t, ht, hs⟩ := b7 i _ (List.getElem?_eq_getElem hi3)
    have hq := (List.forall₂_iff_get.1 hE0).2 i hi1 hi3
    have hg : (s.toDMap n).summits[i]? = some t.feature := by
      change (s.summits.map LSummit.feature)[i]? = _
      rw [List.getElem?_map, ht]
      rfl
    rw [List.getElem?_eq_getElem hi2] at hg
    have hg := Option.some.inj hg
    change SummitFor E.d _ (s.toDMap n).summits[i]
    rw [hg]
    exact summitShown_for hs hq
  · intro D hD
    obtain ⟨q, hq⟩ := List.mem_iff_getElem?.1 hD
    obtain ⟨t, pts, c1, c2, c3, c4, _⟩ := b10 q D hq
    have c6 := a11 q D hq
    refine ⟨?_, by rw [c3]; rfl⟩
    rw [c3]
    change Option.map _ ((s.summits[D]?.bind (·.domain)).bind (s.domains[·]?)) = _
    obtain ⟨t', ht', e'⟩ := Option.map_eq_some_iff.1 c6
    rw [ht', Option.bind_some, e', Option.bind_some, c1, Option.map_some, c4, List.map_map]
    simp only [Function.comp_def, MPt.ofPt]
    simp
  · change List.range n ++ (List.range (s.saddles.length - n)).map (n + ·) = _
    rw [← List.range_add, b4, List.length_append]
    congr 1
    omega
  · change (s.saddles.map _).length = _
    rw [List.length_map, b4, List.length_append]
  · intro P k hP
    obtain ⟨ob, t, c1, c2, c3⟩ := b8 P k hP
    have hf := g9.inv.objs ob (List.mem_of_getElem? c1)
    obtain ⟨c4, c5⟩ := saddleShown_ok c3 hf
    refine ⟨ob, { f := t.feature, parent := t.parent, children := t.children, disq := t.over }, c1, ?_, c4, c3.hpn, c3.edge, ?_⟩
    · change (s.saddles.map _)[P]? = _
      rw [List.getElem?_map, c2]
      rfl
    · intro hed
      have hkw : k ∈ m.st.walked := by
        rcases List.mem_append.1 (List.mem_of_getElem? hP) with h | h
        · exact ((g9.mem_saddles k).1 h).1
        · exact ((g9.mem_runoffs k).1 h).1
      have := walked_inner g9 hkw c1 (c3.edge.symm.trans hed)
      refine ⟨(congrArg List.length c3.hpn).trans this.1, ?_⟩
      change t.mp.map MultiObj.cells = none
      rw [areaShown_cells c3.area, this.2]
      rfl

/-- C132 fails for every run whose summits all have linkers: after its map was saved and loaded, walking the loaded map raises,
or leaves it without linkers and domains. The saddles it can be walked from are those of the file. -/
theorem C132_every_refuted (E : SaddleEnv) (hE : RunOk E) (o : Pt → Oracle) (order : List Pt) (ho : IsScan E.d order)
    (rebuild : Bool) :
    ∃ D m, analyze E.d o order = .ok D ∧ DMap.runSparse E o order rebuild = .ok m ∧
      ((rebuild = false ∨ ∀ f ∈ D.saddles, f.edge = false) → (∀ D < m.summits.length, D ∈ m.domains) →
        ∀ (ids : ObjIds), ids.Distinct → ∀ f, RunFlags E o order rebuild m f → ∀ fp,
        ∃ v s n, (m.toL E.d f ids).toDict fp = .ok v ∧ LState.fromDict v.cbor fp = .ok (s, n) ∧
          ∀ E' sel m' r, (s.toDMap n).walk E' sel = .ok (m', r) → m'.linkers = [] ∧ m'.domains = []) := by
  obtain ⟨D, m, h1, h2, h3⟩ := loaded_map hE o order ho rebuild
  refine ⟨D, m, h1, h2, fun he hall ids hi f hf fp => ?_⟩
  obtain ⟨v, s, n, sites, a1, a2, _, a4, a5, _⟩ := h3 he ids hi f hf fp
  refine ⟨v, s, n, a1, a2, fun E' sel m' r hr => ?_⟩
  obtain ⟨_, g1, g2, _⟩ := DMap.walk_blank (fun k hk => by
    obtain ⟨b1, b2⟩ := a5 k (hall k (by omega))
    rw [b1]; exact b2) hr
  exact ⟨g1, g2⟩

/-- C132, what remains. Missing: the linkers and domains (`C132_every_refuted`). For a run whose summits all have linkers, walking
the loaded map goes through if and only if walking the map itself again does: if every climb rises strictly to a single cell. What
the loaded summits, saddles and domains know of each other is then kept. -/
theorem C132_again_partial (E : SaddleEnv) (hE : RunOk E) (o : Pt → Oracle) (order : List Pt) (ho : IsScan E.d order)
    (rebuild : Bool) :
    ∃ D m, analyze E.d o order = .ok D ∧ DMap.runSparse E o order rebuild = .ok m ∧
      ((rebuild = false ∨ ∀ f ∈ D.saddles, f.edge = false) → (∀ D < m.summits.length, D ∈ m.domains) →
        ∀ (ids : ObjIds), ids.Distinct → ∀ f, RunFlags E o order rebuild m f → ∀ fp,
        ∃ v s n, (m.toL E.d f ids).toDict fp = .ok v ∧ LState.fromDict v.cbor fp = .ok (s, n) ∧
          ((∃ r, (s.toDMap n).walk E [] = .ok r) ↔ ∀ k ∈ m.saddles ++ m.runoffs, ∀ ob, m.st.objs[k]? = some ob →
            ∀ c ∈ ob.f.hpn, ∀ p, ClimbedFrom ob.f c p → RisesToPeak E.d E.w p.xy) ∧
          ((∃ r, (s.toDMap n).walk E [] = .ok r) ↔ ∃ r, m.walk E [] = .ok r) ∧
          ∀ sel m' r, (s.toDMap n).walk E sel = .ok (m', r) → LinksKept (s.toDMap n) m') := by
  obtain ⟨D, m, h1, h2, h3⟩ := loaded_map hE o order ho rebuild
  obtain ⟨m', h2', h4⟩ := C93_again_partial E hE o order ho rebuild
  cases (h2.symm.trans h2' : Except.ok _ = Except.ok _)
  refine ⟨D, m, h1, h2, fun he hall ids hi f hf fp => ?_⟩
  obtain ⟨v, s, n, sites, a1, a2, a3, a4, a5, a6, a7, a8⟩ := h3 he ids hi f hf fp
  have hdom : ∀ k < (s.toDMap n).summits.length, ((s.toDMap n).domPoints k).isSome := fun k hk => by
    obtain ⟨b1, b2⟩ := a5 k (hall k (by omega))
    rw [b1]; exact b2
  have key := DMap.walk_again_iff (hE.senv a3) hdom (fun ob' hob' => by
    obtain ⟨P, hP⟩ := List.mem_iff_getElem?.1 hob'
    have hlt := lt_of_getElem? hP
    rw [a7] at hlt
    obtain ⟨_, ob2, _, g2, g3, _⟩ := a8 P _ (List.getElem?_eq_getElem hlt)
    rw [hP] at g2
    cases g2
    exact g3) (fun P hP => by
    rw [a6, List.mem_range] at hP
    obtain ⟨_, ob2, _, g2, _, _, _, g6⟩ := a8 P _ (List.getElem?_eq_getElem hP)
    exact ⟨ob2, g2, g6⟩)
  have key2 : (∃ r, (s.toDMap n).walk E [] = .ok r) ↔ ∀ k ∈ m.saddles ++ m.runoffs, ∀ ob, m.st.objs[k]? = some ob →
      ∀ c ∈ ob.f.hpn, ∀ p, ClimbedFrom ob.f c p → RisesToPeak E.d E.w p.xy := by
    rw [key]
    constructor
    · intro h k hk ob hob c hc p hp
      obtain ⟨P, hP⟩ := List.mem_iff_getElem?.1 hk
      obtain ⟨ob1, ob2, g1, g2, _, g4, g5, _⟩ := a8 P k hP
      rw [hob] at g1
      cases g1
      refine h P (by rw [a6, List.mem_range]; exact lt_of_getElem? hP) ob2 g2 c (by rw [g4]; exact hc) p ?_
      exact ⟨hp.1, by rw [g5]; exact hp.2⟩
    · intro h P hP ob2 hob2 c hc p hp
      rw [a6, List.mem_range] at hP
      obtain ⟨ob1, ob2', g1, g2, _, g4, g5, _⟩ := a8 P _ (List.getElem?_eq_getElem hP)
      rw [hob2] at g2
      cases g2
      refine h _ (List.getElem_mem hP) ob1 g1 c (by rw [← g4]; exact hc) p ?_
      exact ⟨hp.1, by rw [← g5]; exact hp.2⟩
  refine ⟨v, s, n, a1, a2, key2, key2.trans h4.symm, fun sel m' r hr => ?_⟩
  obtain ⟨a, _, _, b, c, d, e, f, g⟩ := DMap.walk_blank hdom hr
  exact ⟨a, b, c, d, e, f, g⟩

/-- Saving a run, loading it, and walking what was loaded. -/
def rewalk (rows : List (List Rat)) : Option (Nat × Option (Nat × Nat)) :=
  match exFull rows false 99 with
  | .error _ => none
  | .ok (m, f) =>
    match (m.toL (DataMap.ofRows rows) f exIds).toDict ⟨7, 8⟩ with
    | .error _ => none
    | .ok v => match LState.fromDict v.cbor ⟨7, 8⟩ with
      | .error _ => none
      | .ok (s, n) => some ((s.toDMap n).linkers.length,
          ((s.toDMap n).walk (exRun (DataMap.ofRows rows)) []).toOption.map fun r => (r.1.linkers.length, r.1.saddles.length))

/-- Instance for both: all summits have linkers; the loaded map has them, and has none after the walk. -/
example : RunOk (exRun (DataMap.ofRows exUneven)) ∧
    (DMap.runSparse (exRun (DataMap.ofRows exUneven)) (fun _ => exOracle) (DataMap.ofRows exUneven).cells false).toOption.map
      (fun m => (m.summits.length, decide (0 ∈ m.domains ∧ 1 ∈ m.domains))) = some (2, true) := by
  refine ⟨exRun_plain _ (by unfold maxsize; decide +kernel), by decide +kernel⟩

example : rewalk exUneven = some (2, some (0, 1)) := by decide +kernel

/-- With summits of several cells the walk of the loaded map raises. -/
example : rewalk exFlatTops = some (2, none) := by decide +kernel

end PyProm
