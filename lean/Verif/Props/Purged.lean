import Verif.Proof.Purged
import Verif.Proof.LoadErr
import Verif.Props.RunSerial
import Verif.Props.History

/-
Saving and loading maps after any sequence of basin detections and purges (C92).
-/
namespace PyProm
open Spec

/-- Everything the map refers to is in its containers. -/
structure Spec.RefsKept (m : LMap) : Prop where
  family : ∀ k ∈ m.saddles, (∀ c ∈ (m.sad k).children, c ∈ m.saddles) ∧
    (∀ c, (m.sad k).parent = some c → c ∈ m.saddles) ∧ ∀ c ∈ (m.sad k).alts, c ∈ m.saddles
  linkers : ∀ i ∈ m.linkers, (m.link i).summit ∈ m.summits ∧ (m.link i).saddle ∈ m.saddles ++ m.runoffs
  domains : ∀ i ∈ m.domains, (m.dom i).summit ∈ m.summits ∧ ∀ k ∈ (m.dom i).saddles, k ∈ m.saddles ++ m.runoffs

/-- C45, exactly. A map with different ids for different objects, each saddle listed once, can always be saved. It can
be loaded if everything it refers to is in it; otherwise loading stops with a KeyError. -/
theorem C45_references_exact (m : LMap) (hsum : Function.Injective m.sumId) (hsad : Function.Injective m.sadId)
    (hnd : m.saddles.Nodup) (hs : ∀ D ∈ m.summits, ∀ a, (m.sum D).mp = some a → AreaSound a)
    (hk : ∀ k ∈ m.saddles ++ m.runoffs, ∀ a, (m.sad k).mp = some a → AreaSound a) (fp : Fingerprint) :
    ∃ v, m.toDict fp = .ok v ∧ ((∃ r, LState.fromDict v.cbor fp = .ok r) ↔ Spec.RefsKept m) ∧
      (¬ Spec.RefsKept m → LState.fromDict v.cbor fp = .error (.py .keyError)) := by
  have m1 : ∀ (l : List Nat) a, m.sadId a ∈ l.map m.sadId ↔ a ∈ l := fun l a =>
    ⟨fun h => by obtain ⟨b, hb, e⟩ := List.mem_map.1 h; exact hsad e ▸ hb, List.mem_map_of_mem⟩
  have m2 : ∀ (l : List Nat) a, m.sumId a ∈ l.map m.sumId ↔ a ∈ l := fun l a =>
    ⟨fun h => by obtain ⟨b, hb, e⟩ := List.mem_map.1 h; exact hsum e ▸ hb, List.mem_map_of_mem⟩
  by_cases hr : Spec.RefsKept m
  · obtain ⟨v, h1, h2, _⟩ := m.load ⟨hnd.map hsad, hr.family, hr.linkers, hr.domains, fun D hD => areas_load (hs D hD),
      fun k h => areas_load (hk k h)⟩ fp
    exact ⟨v, h1, ⟨fun _ => hr, fun _ => ⟨_, h2⟩⟩, fun h => absurd hr h⟩
  · have hn : ¬ m.RefsIn := by
      refine fun h => hr ⟨fun k hk => ?_, fun i hi => ?_, fun i hi => ?_⟩
      · have := fun c hc => (m1 _ c).1 (h.family k hk c hc)
        exact ⟨fun c hc => this c (.inl hc), fun c hc => this c (.inr (.inl hc)), fun c hc => this c (.inr (.inr hc))⟩
      · obtain ⟨a, b⟩ := h.linkers i hi
        exact ⟨(m2 _ _).1 a, (m1 _ _).1 b⟩
      · obtain ⟨a, b⟩ := h.domains i hi
        exact ⟨(m2 _ _).1 a, fun k hk => (m1 _ _).1 (b k hk)⟩
    obtain ⟨v, h1, h2⟩ := m.load_miss hn (hnd.map hsad) (fun _ _ _ _ _ _ e => hsad e)
      (fun D hD => areas_load (hs D hD)) (fun k h => areas_load (hk k h)) fp
    refine ⟨v, h1, ⟨fun ⟨r, e⟩ => ?_, fun h => absurd h hr⟩, fun _ => h2⟩
    rw [h2] at e
    cases e

/-- Saved runs have different ids for different objects; for their areas see `run_savable`. Below, `exCrater` is an
instance that is loaded and `exAlts` one that is not. -/
example (m : DMap) (d : DataMap) (f : Flags) : Function.Injective (m.toL d f exIds).sumId ∧
    Function.Injective (m.toL d f exIds).sadId := ⟨exIds_distinct.sum, exIds_distinct.sad⟩

/-- What is left of the map `m` after some calls: the saddles in their order without some, all summits, runoffs and
domains, each domain with the saddles that are left, and the linkers between these. -/
structure Spec.LeftOf (m m1 : DMap) : Prop where
  summits : m1.summits = m.summits
  runoffs : m1.runoffs = m.runoffs
  domains : m1.domains = m.domains
  points : m1.domPoints = m.domPoints
  saddles : m1.saddles.Sublist m.saddles
  features : ∀ (k : Nat) (o : SObj), m.st.objs[k]? = some o → ∃ o1 : SObj, m1.st.objs[k]? = some o1 ∧ o1.f = o.f
  members : ∀ D, (m1.st.domSaddles D).Sublist (m.st.domSaddles D)
  linkers : ∀ i ∈ m1.linkers, i ∈ m.linkers

theorem Leftover.left {m m1 : DMap} {f1 : Flags} (h : Leftover m m1 f1) : Spec.LeftOf m m1 := by
  refine ⟨h.summits, h.runoffs, h.domains, h.pts, h.sub, fun k o ho => ?_, h.doms, fun i hi => (h.link i hi).1⟩
  have := congrArg (·[k]?) h.feat
  simp only [List.getElem?_map, ho, Option.map_some, Option.map_eq_some_iff] at this
  exact this

/-- The map `m1` with the flags `f1` can be saved and loaded. Everything comes back: summits, saddles, runoffs in their
places with their attributes, saddles with their families and alternatives, linkers and domains with the same ends. -/
def Spec.SavedWhole (d : DataMap) (m1 : DMap) (f1 : Flags) (ids : ObjIds) (fp : Fingerprint) : Prop :=
  ∃ v s n, (m1.toL d f1 ids).toDict fp = .ok v ∧ LState.fromDict v.cbor fp = .ok (s, n) ∧
    n = m1.saddles.length ∧ s.summits.length = m1.summits.length ∧
    s.saddles.length = m1.saddles.length + m1.runoffs.length ∧
    (∀ D < m1.summits.length, ∃ t, s.summits[D]? = some t ∧ SummitKept ((m1.toL d f1 ids).sum D) t) ∧
    (∀ (P : Nat) k, (m1.saddles ++ m1.runoffs)[P]? = some k →
      ∃ t, s.saddles[P]? = some t ∧ SaddleKept ((m1.toL d f1 ids).sad k) t) ∧
    FamilyKept (m1.toL d f1 ids) m1.saddles (s.saddles.take n) ∧ LinkersKept (m1.toL d f1 ids) s ∧
    DomainsKept (m1.toL d f1 ids) s ∧
    ∀ (q : Nat) D, m1.domains[q]? = some D → s.summits[D]?.map (·.domain) = some (some q)

theorem Leftover.whole {E : SaddleEnv} {m m1 : DMap} {f1 : Flags} (hs : Savable E m) (h : Leftover m m1 f1)
    (hp : ∀ k ∈ m1.saddles, ∀ c, parentOf m1 k = some c → c ∈ m1.saddles)
    (hf : ∀ k ∈ m1.saddles, ∀ c, Node.saddle c ∈ f1.alts (.saddle k) → c ∈ m1.saddles) {ids : ObjIds} (hi : ids.Distinct)
    (fp : Fingerprint) : Spec.SavedWhole E.d m1 f1 ids fp := by
  have hc := h.saved hs hp hf hi
  have hnr : ∀ k, k ∈ m1.saddles ++ m1.runoffs → nonRunoff m1.st.objs k = nonRunoff m.st.objs k := by
    intro k _
    unfold nonRunoff
    have := congrArg (·[k]?) h.feat
    simp only [List.getElem?_map] at this
    cases h1 : m1.st.objs[k]? with
    | none =>
      rw [h1] at this
      cases h2 : m.st.objs[k]? with
      | none => rfl
      | some o => rw [h2] at this; cases this
    | some o1 =>
      rw [h1] at this
      cases h2 : m.st.objs[k]? with
      | none => rw [h2] at this; cases this
      | some o =>
        rw [h2] at this
        simp only [Option.map_some, Option.some.injEq] at this
        dsimp only
        rw [this]
  obtain ⟨v, s, n, l1, l2, l3, _, l5, l6, l7, l8, l9, l10, l11, l12⟩ := C45_load_partial _ hc fp
  have l5' : s.summits.length = m1.summits.length := by
    rw [l5]
    exact List.length_range
  refine ⟨v, s, n, l1, l2, l3, l5', l6, ?_, ?_, l9, l10, l11, ?_⟩
  · intro D hD
    refine ⟨s.summits[D]'(by omega), List.getElem?_eq_getElem _, l7 D D _ ?_ (List.getElem?_eq_getElem _) rfl⟩
    change (List.range m1.summits.length)[D]? = some D
    rw [List.getElem?_range hD]
  · intro P k hP
    have hlt : P < s.saddles.length := by
      rw [l6]
      have := lt_of_getElem? hP
      rwa [List.length_append] at this
    have hk := List.mem_of_getElem? hP
    refine ⟨s.saddles[P], List.getElem?_eq_getElem _, l8 P k _ hP (List.getElem?_eq_getElem _) ?_ ?_ ?_⟩
    · have hkind : ((m1.toL E.d f1 ids).sad k).runoff = !nonRunoff m1.st.objs k := by
        change decide ((m1.st.objs[k]?.getD { f := .blank }).f.kind = .runoff) = _
        unfold nonRunoff
        cases m1.st.objs[k]? with
        | none => simp [Feature.blank, mkSummit]
        | some o => simp
      rw [hkind, l3, show (m1.toL E.d f1 ids).saddles = m1.saddles from rfl, hnr k hk]
      by_cases hPn : P < m1.saddles.length
      · rw [List.getElem?_append_left hPn] at hP
        rw [hs.saddles k (h.sub.subset (List.mem_of_getElem? hP))]
        symm
        simpa using hPn
      · rw [List.getElem?_append_right (by omega)] at hP
        rw [hs.runoffs k (h.runoffs ▸ List.mem_of_getElem? hP)]
        symm
        simpa using hPn
    · intro hr
      change decide ((m1.st.objs[k]?.getD { f := .blank }).f.kind = .runoff) = true at hr
      change (m1.st.objs[k]?.getD { f := .blank }).f.edge = true
      cases ho : m1.st.objs[k]? with
      | none => rw [ho] at hr; simp [Feature.blank, mkSummit] at hr
      | some ob =>
        rw [ho] at hr
        have hr := of_decide_eq_true hr
        have hin : ob.f ∈ m.st.objs.map (·.f) := by
          rw [← h.feat]
          exact List.mem_map_of_mem (List.mem_of_getElem? ho)
        obtain ⟨ob', g1, g2⟩ := List.mem_map.1 hin
        cases hed : ob.f.edge with
        | true => simp [hed]
        | false =>
          simp only [Option.getD_some] at hr
          rw [← g2] at hr hed
          exact absurd hr (hs.inner ob' g1 hed)
    · intro h'
      exact absurd h' (h.over k)
  · intro q D hq
    have hD : D < m1.summits.length := by
      have := (hc.domains D (List.mem_of_getElem? hq)).1
      exact List.mem_range.1 this
    refine l12 q D D hq ?_ ?_
    · change (List.range m1.summits.length)[D]? = some D
      rw [List.getElem?_range hD]
    · change (m1.domains.map fun i => i).Nodup
      rw [List.map_id', h.domains]
      exact hs.domOnce

/-- C92. Missing: rebuilt edge saddles (`C76_rebuilt_refuted`), summits at the same place (to six digits), and purging
with `all_basin_saddles` (`C92_all_partial`, `C92_all_refuted`). For all other runs: no sequence of basin detections and
purges of single summit or basin saddles fails, and what is left can be saved and loaded as a whole. -/
theorem C92_purged_partial (E : SaddleEnv) (hE : RunOk E) (o : Pt → Oracle) (order : List Pt)
    (ho : IsScan E.d order) (rebuild : Bool) :
    ∃ D m, analyze E.d o order = .ok D ∧ DMap.runSparse E o order rebuild = .ok m ∧
      ((rebuild = false ∨ ∀ f ∈ D.saddles, f.edge = false) → SummitsApart m.summits →
        ∀ fuel, m.saddles.length + m.st.objs.length < fuel → ∀ cs : List MapCall, (∀ c ∈ cs, c.Plain) →
          ∃ m1 f1, DMap.calls fuel (m, m.flags) cs = .ok (m1, f1) ∧ Spec.LeftOf m m1 ∧
            ∀ (ids : ObjIds), ids.Distinct → ∀ fp, Spec.SavedWhole E.d m1 f1 ids fp) := by
  obtain ⟨D, _, m0, m, _, _, h1, _, _, _, _, _, _, h8, _⟩ := run_spec hE o order ho rebuild
  refine ⟨D, m, h1, h8, fun he hS fuel hfuel cs hcs => ?_⟩
  have hs := run_savable hE o order ho rebuild h1 h8 he hS
  obtain ⟨m1, f1, c1, c2⟩ := Keeps.calls (W := True) hs.base hfuel cs (fun _ => hcs) (Keeps.start hs.base)
  refine ⟨m1, f1, c1, c2.held.left, fun ids hi fp => c2.held.whole hs (c2.parent hs.base) (fun k hk c hc => ?_) hi fp⟩
  obtain ⟨k', hk', e, _⟩ := c2.own trivial _ (c2.alts trivial _ _ hc)
  cases e
  exact hk'

/-- C92 for all options. Missing: rebuilt edge saddles and summits at the same place, as for `C92_purged_partial`. What is
left can be saved; it is loaded as a whole if no saddle that is left lists a removed one among its alternatives,
otherwise loading stops with a KeyError. -/
theorem C92_all_partial (E : SaddleEnv) (hE : RunOk E) (o : Pt → Oracle) (order : List Pt)
    (ho : IsScan E.d order) (rebuild : Bool) :
    ∃ D m, analyze E.d o order = .ok D ∧ DMap.runSparse E o order rebuild = .ok m ∧
      ((rebuild = false ∨ ∀ f ∈ D.saddles, f.edge = false) → SummitsApart m.summits →
        ∀ fuel, m.saddles.length + m.st.objs.length < fuel → ∀ cs : List MapCall,
          ∃ m1 f1, DMap.calls fuel (m, m.flags) cs = .ok (m1, f1) ∧ Spec.LeftOf m m1 ∧
            ∀ (ids : ObjIds), ids.Distinct → ∀ fp,
              ((∀ k ∈ m1.saddles, ∀ c, Node.saddle c ∈ f1.alts (.saddle k) → c ∈ m1.saddles) →
                Spec.SavedWhole E.d m1 f1 ids fp) ∧
              ((∃ k ∈ m1.saddles, ∃ c, Node.saddle c ∈ f1.alts (.saddle k) ∧ c ∉ m1.saddles) →
                ∃ v, (m1.toL E.d f1 ids).toDict fp = .ok v ∧ LState.fromDict v.cbor fp = .error (.py .keyError))) := by
  obtain ⟨D, _, m0, m, _, _, h1, _, _, _, _, _, _, h8, _⟩ := run_spec hE o order ho rebuild
  refine ⟨D, m, h1, h8, fun he hS fuel hfuel cs => ?_⟩
  have hs := run_savable hE o order ho rebuild h1 h8 he hS
  obtain ⟨m1, f1, c1, c2⟩ := Keeps.calls (W := False) hs.base hfuel cs (fun w => w.elim) (Keeps.start hs.base)
  refine ⟨m1, f1, c1, c2.held.left, fun ids hi fp => ⟨fun hc => c2.held.whole hs (c2.parent hs.base) hc hi fp, fun ⟨k, hk, c, hc, hn⟩ => ?_⟩⟩
  -- without the alternatives the map is closed
  have c3 : Keeps False m m1 { f1 with alts := fun _ => [] } := ⟨c2.summits, c2.feat, c2.pts, c2.net, c2.runoffs,
    c2.domains, c2.sub, c2.out, c2.link, c2.kids, c2.par, c2.child, c2.doms, c2.domIn, c2.over, c2.stay, c2.prot,
    c2.single, fun w => w.elim, fun w => w.elim⟩
  have hcl := c3.held.saved hs (c3.parent hs.base) (fun _ _ _ h => (nomatch h)) hi
  refine LMap.load_miss (m1.toL E.d f1 ids) (fun hr => ?_) hcl.saddleIds (fun k _ c _ k' _ e => hi.sad e)
    (fun D hD => areas_load (hcl.summitAreas D hD)) (fun k hk => areas_load (hcl.saddleAreas k hk)) fp
  obtain ⟨k', hk', e⟩ := List.mem_map.1 (hr.family k hk c (.inr (.inr (mem_saddleNos.2 hc))))
  rw [hi.sad e] at hk'
  exact hn hk'

/-- Saving and loading the map after calls on the result of a run without basin detection: the saddles left, and those
that are loaded. -/
def rerunCalls (rows : List (List Rat)) (cs : List MapCall) : Except LoadErr (List Nat × LState) :=
  match exFull rows false 99 with
  | .error e => .error (.py e)
  | .ok (m, _) =>
    match DMap.calls 99 (m, m.flags) cs with
    | .error e => .error (.py e)
    | .ok (m, f) =>
      match (m.toL (DataMap.ofRows rows) f exIds).toDict ⟨7, 8⟩ with
      | .error e => .error (.py e)
      | .ok v => (LState.fromDict v.cbor ⟨7, 8⟩).map fun r => (m.saddles, r.1)

/-- Instance of C92: the crater meets the conditions. Its basin saddle (9) is detected and purged; after loading,
the first and third of the summits have one linker instead of two. -/
example : (rerunCalls exCrater [.detect, .purge true true false, .detect]).toOption.map (fun r =>
    (r.1, r.2.saddles.length, r.2.summits.map fun t => t.links.length)) =
    some ([8, 10, 11], 7, [1, 2, 1, 2]) := by decide +kernel

/-- A raster with two basin saddles (14, 15) that have alternatives. -/
def exAlts : List (List Rat) := [[0,0,0,0,0,0,0], [0,3,0,0,0,0,0], [0,2,0,2,0,0,0], [2,0,1,0,1,3,0], [0,2,3,0,2,0,0],
  [0,0,0,1,0,2,3]]

/-- C92 fails for purging with `all_basin_saddles`: two saddles are removed that others list as alternatives, and the
map cannot be loaded, though summits are apart and nothing was rebuilt. -/
theorem C92_all_refuted :
    (match rerunCalls exAlts [.detect, .purge true true true] with
      | .error (.py .keyError) => true
      | _ => false) = true ∧
    (exFull exAlts false 99).toOption.map (fun r => (decide (r.1.summits.map fun s =>
      (round6 s.lat, round6 s.lon, s.elevation)).Nodup,
      (r.1.purge r.2 true true true).1.saddles.map fun k => (k, saddleNos (r.2.alts (.saddle k))))) =
    some (true, [(12, []), (13, [15, 14, 17]), (16, []), (3, []), (17, [15, 13, 14])]) := by decide +kernel

end PyProm
