import Verif.Proof.Resaved
import Verif.Props.RunSerial

/-
C104: loaded maps are saved and loaded again without change.
-/
namespace PyProm
open Spec

namespace Spec

/-- `t` is the summit `s`, perhaps with another number for its domain. -/
def SameSummit (s t : LSummit) : Prop := { s with domain := none } = { t with domain := none }

/-- The domain of the summit with position `P`. -/
def domainOf (s : LState) (P : Nat) : Option LDomain := (s.summits[P]?.bind (·.domain)).bind (s.domains[·]?)

/-- The states have the same summits, saddles, runoffs and linkers, with the same attributes and references. -/
structure SameLoaded (s t : LState) : Prop where
  saddles : t.saddles = s.saddles
  linkers : t.linkers = s.linkers
  summits : List.Forall₂ SameSummit s.summits t.summits

end Spec

theorem lastPos_nodup {l : List Nat} (hl : l.Nodup) {k i : Nat} (h : l[k]? = some i) : lastPos l i = some k := by
  obtain ⟨j, hj⟩ := lastPos_mem (List.mem_of_getElem? h)
  rw [hj]
  have := posOf_nodup hl h
  unfold posOf at this
  rw [hj] at this
  exact congrArg some this

theorem domState_summits (A : List LSummit) (B : List LSaddle) (ls : List LLinker) (ds es : List LDomain)
    (hA : ∀ x ∈ A, x.domain = none) :
    SameLoaded (domState (linkState A B ls) ds) (domState (linkState A B ls) es) ∧
      ∀ ds, ∀ P < A.length, domainOf (domState (linkState A B ls) ds) P = (lastPos (ds.map LDomain.summit) P).bind (ds[·]?) := by
  constructor
  · refine ⟨rfl, rfl, ?_⟩
    rw [List.forall₂_iff_get]
    simp [domState, SameSummit]
  · intro ds P hP
    unfold domainOf
    simp only [domState, linkState, List.getElem?_mapIdx, List.getElem?_eq_getElem hP, Option.map_some,
      Option.bind_some, hA _ (List.getElem_mem hP), Option.or_none]

/-- Objects with the same ids, flags and references give the same file. -/
theorem toDict_same {s t : LState} (h : SameLoaded s t) (n : Nat) {ds : List Nat}
    (hd : t.domains.map some = ds.map (s.domains[·]?)) (fp : Fingerprint) :
    (t.toMap n (List.range t.domains.length)).toDict fp = (s.toMap n ds).toDict fp := by
  have hlen := h.summits.length_eq
  have hsum : ∀ P, SameSummit ((s.toMap n ds).sum P) ((t.toMap n (List.range t.domains.length)).sum P) := by
    intro P
    show SameSummit (s.summits[P]?.getD .blank) (t.summits[P]?.getD .blank)
    cases hP : s.summits[P]? with
    | none =>
      rw [List.getElem?_eq_none (by rw [← hlen]; exact List.getElem?_eq_none_iff.1 hP)]
      rfl
    | some x =>
      obtain ⟨y, h1, h2⟩ := forall₂_getElem? h.summits hP
      rw [h1]
      exact h2
  have e1 : (t.toMap n (List.range t.domains.length)).linkId = (s.toMap n ds).linkId := by
    funext i
    show (t.linkers[i]?.getD .blank).id = (s.linkers[i]?.getD .blank).id
    rw [h.linkers]
  have e2 : (t.toMap n (List.range t.domains.length)).sumId = (s.toMap n ds).sumId := by
    funext P
    exact (congrArg LSummit.id (hsum P)).symm
  have e3 : (t.toMap n (List.range t.domains.length)).sadId = (s.toMap n ds).sadId := by
    funext i
    show (t.saddles[i]?.getD .blank).id = (s.saddles[i]?.getD .blank).id
    rw [h.saddles]
  have e4 : (t.toMap n (List.range t.domains.length)).sad = (s.toMap n ds).sad := by
    funext i
    show t.saddles[i]?.getD .blank = s.saddles[i]?.getD .blank
    rw [h.saddles]
  have e5 : (t.toMap n (List.range t.domains.length)).link = (s.toMap n ds).link := by
    funext i
    show t.linkers[i]?.getD .blank = s.linkers[i]?.getD .blank
    rw [h.linkers]
  have f1 : (t.toMap n (List.range t.domains.length)).summitsToDict = (s.toMap n ds).summitsToDict := by
    unfold LMap.summitsToDict
    have : (t.toMap n (List.range t.domains.length)).summits = (s.toMap n ds).summits := by
      show List.range t.summits.length = List.range s.summits.length
      rw [hlen]
    rw [this, e1]
    congr 1
    congr 1
    funext P
    have := congrArg (LSummit.toDict (s.toMap n ds).linkId) (hsum P)
    exact this.symm
  have f2 : ∀ key ks, (t.toMap n (List.range t.domains.length)).saddlesToDict key ks = (s.toMap n ds).saddlesToDict key ks := by
    intro key ks
    unfold LMap.saddlesToDict
    rw [e1, e3, e4]
  have f3 : PyVal.ofList (fun i => ((t.toMap n (List.range t.domains.length)).dom i).toDict (s.toMap n ds).sumId
      (s.toMap n ds).sadId) (t.toMap n (List.range t.domains.length)).domains =
      PyVal.ofList (fun i => ((s.toMap n ds).dom i).toDict (s.toMap n ds).sumId (s.toMap n ds).sadId) (s.toMap n ds).domains := by
    unfold PyVal.ofList
    congr 1
    apply List.ext_getElem?
    intro q
    show ((List.range t.domains.length).map _)[q]? = (ds.map _)[q]?
    have hq := congrArg (·[q]?) hd
    simp only [List.getElem?_map] at hq
    rw [List.getElem?_map, List.getElem?_map]
    cases hi : ds[q]? with
    | none =>
      rw [hi] at hq
      cases ht : t.domains[q]? with
      | none => rw [List.getElem?_eq_none (by simpa using List.getElem?_eq_none_iff.1 ht)]; rfl
      | some d => rw [ht] at hq; cases hq
    | some i =>
      rw [hi] at hq
      cases ht : t.domains[q]? with
      | none => rw [ht] at hq; cases hq
      | some d =>
        rw [ht] at hq
        simp only [Option.map_some, Option.some.injEq] at hq
        rw [List.getElem?_range (lt_of_getElem? ht)]
        simp only [Option.map_some, Option.some.injEq]
        show (t.domains[q]?.getD .blank).toDict _ _ = (s.domains[i]?.getD .blank).toDict _ _
        rw [ht, ← hq]
  have f4 : (t.toMap n (List.range t.domains.length)).runoffs = (s.toMap n ds).runoffs := by
    show (List.range (t.saddles.length - n)).map _ = (List.range (s.saddles.length - n)).map _
    rw [h.saddles]
  have f5 : (t.toMap n (List.range t.domains.length)).linkers = (s.toMap n ds).linkers := by
    show List.range t.linkers.length = List.range s.linkers.length
    rw [h.linkers]
  unfold LMap.toDict
  rw [f1, f2, f2, e2, e3, e5, f3, f4, f5]
  rfl

/-- C104: a map whose references stay in its containers is saved and loaded; the loaded map can be saved and loaded again, and
comes back the same: the same summits, saddles, runoffs and linkers at the same places with the same attributes and
references, and the same domains in the order `ds` in which the set of domains listed them. Every summit has the domain it
had, if no summit has two and the set lists all. The file that the third map is saved to is the file it was loaded from. -/
theorem C104_again (m : LMap) (h : Spec.Closed m) (fp : Fingerprint) :
    ∃ v s, m.toDict fp = .ok v ∧ LState.fromDict v.cbor fp = .ok (s, m.saddles.length) ∧
      s.domains.length = m.domains.length ∧
      ∀ ds : List Nat, (∀ i ∈ ds, i < s.domains.length) → ∃ v' t, (s.toMap m.saddles.length ds).toDict fp = .ok v' ∧
        LState.fromDict v'.cbor fp = .ok (t, m.saddles.length) ∧ SameLoaded s t ∧
        t.domains.map some = ds.map (s.domains[·]?) ∧
        (ds = List.range s.domains.length → t = s) ∧
        (ds.Perm (List.range s.domains.length) → (m.domains.map fun i => (m.dom i).summit).Nodup →
          ∀ P, domainOf t P = domainOf s P) ∧
        (t.toMap m.saddles.length (List.range t.domains.length)).toDict fp = .ok v' := by
  have hL := h.loads
  obtain ⟨v, h1, h2, _⟩ := m.load hL fp
  have hdl : m.loaded.domains.length = m.domains.length := by simp [LMap.loaded, domState]
  refine ⟨v, m.loaded, h1, h2, hdl, fun ds hds => ?_⟩
  have hds' : ∀ i ∈ ds, i < m.domains.length := fun i hi => hdl ▸ hds i hi
  obtain ⟨v', g1, g2, _⟩ := (m.again ds).load (again_loads hL hds') fp
  have hn : (m.again ds).saddles.length = m.saddles.length := by simp [LState.toMap]
  rw [hn] at g2
  have hA : ∀ x ∈ m.baseSummits, x.domain = none := by
    intro x hx
    obtain ⟨D, _, rfl⟩ := List.mem_map.1 hx
    rfl
  have e0 : m.loaded = domState (linkState m.baseSummits m.baseSaddles m.loaded.linkers) m.loaded.domains := rfl
  have e1 := again_loaded hL ds
  have ed := again_domains hL hds'
  obtain ⟨s1, s2⟩ := domState_summits m.baseSummits m.baseSaddles m.loaded.linkers m.loaded.domains
    (m.again ds).loaded.domains hA
  have hS : SameLoaded m.loaded (m.again ds).loaded := by
    rw [e1]
    exact s1
  refine ⟨v', (m.again ds).loaded, g1, g2, hS, ed, ?_, ?_, ?_⟩
  · intro hr
    have : (m.again ds).loaded.domains = m.loaded.domains := by
      apply List.map_injective_iff.2 (Option.some_injective _)
      rw [ed, hr]
      apply List.ext_getElem?
      intro i
      rw [List.getElem?_map, List.getElem?_map]
      cases hi : m.loaded.domains[i]? with
      | none => rw [List.getElem?_eq_none (by simpa using List.getElem?_eq_none_iff.1 hi)]; rfl
      | some d => rw [List.getElem?_range (lt_of_getElem? hi)]; exact congrArg some hi
    rw [e1, this]
    rfl
  · intro hp hnd P
    have hnd1 : (m.loaded.domains.map LDomain.summit).Nodup := by
      have : m.loaded.domains.map LDomain.summit = (m.domains.map fun i => (m.dom i).summit).map fun D =>
          posOf (m.summits.map m.sumId) (m.sumId D) := by
        show (m.domains.map _).map _ = _
        rw [List.map_map, List.map_map]
        rfl
      rw [this]
      refine List.Nodup.map_on (fun a ha b hb hab => ?_) hnd
      obtain ⟨i, hi, rfl⟩ := List.mem_map.1 ha
      obtain ⟨j, hj, rfl⟩ := List.mem_map.1 hb
      have p1 := again_pos_sum ds (h.domains i hi).1
      have p2 := again_pos_sum ds (h.domains j hj).1
      rw [hab] at p1
      exact ids_inj h.summitIds (h.domains i hi).1 (h.domains j hj).1 (p1.symm.trans p2)
    have hperm : (m.again ds).loaded.domains.Perm m.loaded.domains := by
      have : ((m.again ds).loaded.domains.map some).Perm (m.loaded.domains.map some) := by
        rw [ed]
        refine (hp.map _).trans ?_
        rw [show (List.range m.loaded.domains.length).map (m.loaded.domains[·]?) = m.loaded.domains.map some from ?_]
        apply List.ext_getElem?
        intro i
        rw [List.getElem?_map, List.getElem?_map]
        cases hi : m.loaded.domains[i]? with
        | none => rw [List.getElem?_eq_none (by simpa using List.getElem?_eq_none_iff.1 hi)]; rfl
        | some d => rw [List.getElem?_range (lt_of_getElem? hi)]; exact congrArg some hi
      have := this.filterMap id
      simpa using this
    have hnd2 : ((m.again ds).loaded.domains.map LDomain.summit).Nodup := (hperm.map _).nodup_iff.2 hnd1
    by_cases hP : P < m.baseSummits.length
    · have key : ∀ (A B : List LDomain), A.Perm B → (A.map LDomain.summit).Nodup → (B.map LDomain.summit).Nodup →
          ∀ d, (lastPos (A.map LDomain.summit) P).bind (A[·]?) = some d →
            (lastPos (B.map LDomain.summit) P).bind (B[·]?) = some d := by
        intro A B hAB hA hB d hd
        obtain ⟨k, k1, k2⟩ := Option.bind_eq_some_iff.1 hd
        have hdP : d.summit = P := by
          have := ((lastPos_some _ _ _).1 k1).1
          rw [List.getElem?_map, k2] at this
          simpa using this
        obtain ⟨j, hj⟩ := List.getElem?_of_mem (hAB.subset (List.mem_of_getElem? k2))
        have : lastPos (B.map LDomain.summit) P = some j := lastPos_nodup hB (by rw [List.getElem?_map, hj, ← hdP]; rfl)
        rw [this]
        exact hj
      have a1 : domainOf (m.again ds).loaded P = _ := (congrArg (domainOf · P) e1).trans (s2 _ P hP)
      have a2 : domainOf m.loaded P = _ := s2 m.loaded.domains P hP
      rw [a1, a2]
      apply Option.ext
      intro d
      exact ⟨key _ _ hperm hnd2 hnd1 d, key _ _ hperm.symm hnd1 hnd2 d⟩
    · have hl1 : m.loaded.summits[P]? = none := by
        rw [loaded_summit_get, List.getElem?_eq_none (by simpa [LMap.baseSummits] using hP)]
        rfl
      have hl2 : (m.again ds).loaded.summits[P]? = none := by
        rw [List.getElem?_eq_none_iff] at hl1 ⊢
        rw [← hS.summits.length_eq]
        exact hl1
      unfold domainOf
      rw [hl1, hl2]
      rfl
  · rw [toDict_same hS m.saddles.length ed fp]
    exact g1

/-- C104 for the results of runs: the map is saved, loaded, saved and loaded; the second loaded map is the first, with the domains
in the order the set listed them. Excepted are runs that rebuild edge saddles, which cannot be loaded at all (C76). -/
theorem C104_runs (E : SaddleEnv) (hE : RunOk E) (o : Pt → Oracle) (order : List Pt)
    (ho : IsScan E.d order) (rebuild : Bool) :
    ∃ D m, analyze E.d o order = .ok D ∧ DMap.runSparse E o order rebuild = .ok m ∧
      ((rebuild = false ∨ ∀ f ∈ D.saddles, f.edge = false) →
        ∀ (ids : ObjIds), ids.Distinct → ∀ f, RunFlags E o order rebuild m f → ∀ fp,
        ∃ v s n, (m.toL E.d f ids).toDict fp = .ok v ∧ LState.fromDict v.cbor fp = .ok (s, n) ∧
          ∀ ds : List Nat, ds.Perm (List.range s.domains.length) → ∃ v' t, (s.toMap n ds).toDict fp = .ok v' ∧
            LState.fromDict v'.cbor fp = .ok (t, n) ∧ SameLoaded s t ∧ t.domains.map some = ds.map (s.domains[·]?) ∧
            (∀ P, domainOf t P = domainOf s P) ∧ (t.toMap n (List.range t.domains.length)).toDict fp = .ok v') := by
  obtain ⟨D, m, h1, h2, ⟨sites, m0, news, hw⟩, h3⟩ := run_closed hE o order ho rebuild
  refine ⟨D, m, h1, h2, fun he ids hi f hf fp => ?_⟩
  obtain ⟨c1, c2⟩ := h3 he ids hi
  have hc : Spec.Closed (m.toL E.d f ids) := by
    rcases hf with rfl | ⟨fuel, hr⟩
    · exact c1
    · exact (c2 fuel f hr).1
  obtain ⟨v, s, g1, g2, _, g3⟩ := C104_again _ hc fp
  refine ⟨v, s, _, g1, g2, fun ds hp => ?_⟩
  obtain ⟨v', t, a1, a2, a3, a4, _, a5, a6⟩ := g3 ds (fun i hi => List.mem_range.1 (hp.subset hi))
  have hnd : ((m.toL E.d f ids).domains.map fun i => ((m.toL E.d f ids).dom i).summit).Nodup := by
    show (m.domains.map id).Nodup
    rw [List.map_id, hw.domains]
    exact hw.inv.doms.1
  exact ⟨v', t, a1, a2, a3, a4, a5 hp hnd, a6⟩

/-- Instance of C104: the map of C44 is loaded and comes back with its four linkers. -/
example : ∃ v s, (exSaved 6 [(0, 0), (1, 0), (0, 1), (1, 2)]).toDict ⟨1, 2⟩ = .ok v ∧
    LState.fromDict v.cbor ⟨1, 2⟩ = .ok (s, 2) ∧ ∃ v' t, (s.toMap 2 [1, 0]).toDict ⟨1, 2⟩ = .ok v' ∧
    LState.fromDict v'.cbor ⟨1, 2⟩ = .ok (t, 2) ∧ SameLoaded s t := by
  obtain ⟨v, s, h1, h2, h3, h4⟩ := C104_again _ exSaved_closed ⟨1, 2⟩
  obtain ⟨v', t, g1, g2, g3, _⟩ := h4 [1, 0] (by rw [h3]; decide)
  exact ⟨v, s, h1, h2, v', t, g1, g2, g3⟩

end PyProm
