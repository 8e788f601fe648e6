import Verif.Props.Prominence
import Verif.Props.Turned
import Verif.Props.RunSerial
import Verif.Props.DrawingSaved
import Verif.Props.Purged
import Verif.Props.History
import Verif.Spec.FileProminence

/-
C133: the prominence of summits can be read off a file
-/
namespace PyProm
open Spec

/-- What is loaded from the file of the map `m` with the flags `f`, in terms of the map. -/
structure FileAs (m : DMap) (f : Flags) (s : LState) : Prop where
  summits : s.summits.length = m.summits.length
  sum : ∀ (D : Nat) g, m.summits[D]? = some g → ∃ t, s.summits[D]? = some t ∧ t.ele = g.elevation
  sad : ∀ (P : Nat) k, (m.saddles ++ m.runoffs)[P]? = some k → ∃ t, s.saddles[P]? = some t ∧ t.disqualified = f.saddleDisq k ∧
    t.ele = m.net.elev (.saddle k)
  links : s.linkers.length = m.linkers.length
  link : ∀ (q : Nat) i, m.linkers[q]? = some i → ∃ t, s.linkers[q]? = some t ∧ t.summit = (m.net.link i).1 ∧
    (m.saddles ++ m.runoffs)[t.saddle]? = some (m.net.link i).2
  same : ∀ (q q' : Nat) i j t t', m.linkers[q]? = some i → m.linkers[q']? = some j → s.linkers[q]? = some t →
    s.linkers[q']? = some t' → (m.net.link i).2 = (m.net.link j).2 → t.saddle = t'.saddle

/-- Every map that can be saved as a whole is loaded so. -/
theorem file_as {E : SaddleEnv} {m : DMap} {f : Flags} {ids : ObjIds} {fp : Fingerprint} (hc : Spec.Closed (m.toL E.d f ids))
    (hw : SavedWhole E.d m f ids fp) :
    ∃ v s n, (m.toL E.d f ids).toDict fp = .ok v ∧ LState.fromDict v.cbor fp = .ok (s, n) ∧ FileAs m f s := by
  obtain ⟨v, s, n, q1, q2, q3, q4, q5, q6, q7, q8, q9, _⟩ := hw
  obtain ⟨v', e1, e2, _⟩ := (m.toL E.d f ids).load hc.loads fp
  cases (e1.symm.trans q1 : Except.ok _ = Except.ok _)
  cases (e2.symm.trans q2 : Except.ok _ = Except.ok _)
  have key : ∀ (q : Nat) i, m.linkers[q]? = some i → ∃ t, (m.toL E.d f ids).loaded.linkers[q]? = some t ∧
      t.summit = posOf ((m.toL E.d f ids).summits.map (m.toL E.d f ids).sumId) ((m.toL E.d f ids).sumId (m.net.link i).1) ∧
      t.saddle = posOf (((m.toL E.d f ids).saddles ++ (m.toL E.d f ids).runoffs).map (m.toL E.d f ids).sadId)
        ((m.toL E.d f ids).sadId (m.net.link i).2) := by
    intro q i hq
    have llink : (m.toL E.d f ids).loaded.linkers = (m.toL E.d f ids).linkers.map ((m.toL E.d f ids).loadedLinker
        ((m.toL E.d f ids).summits.map (m.toL E.d f ids).sumId)
        (((m.toL E.d f ids).saddles ++ (m.toL E.d f ids).runoffs).map (m.toL E.d f ids).sadId)) := rfl
    have hq' : (m.toL E.d f ids).linkers[q]? = some i := hq
    rw [llink, List.getElem?_map, hq']
    exact ⟨_, rfl, rfl, rfl⟩
  refine ⟨v, _, _, q1, e2, q4, fun D g hg => ?_, fun P k hP => ?_, ?_, fun q i hq => ?_, fun q q' i j t t' hq hq' ht ht' e => ?_⟩
  · obtain ⟨t, t1, t2⟩ := q6 D (lt_of_getElem? hg)
    refine ⟨t, t1, t2.ele.trans ?_⟩
    change (m.summits[D]?.getD .blank).elevation = _
    rw [hg]
    rfl
  · obtain ⟨t, t1, t2⟩ := q7 P k hP
    refine ⟨t, t1, t2.disq, t2.ele.trans ?_⟩
    change (m.st.objs[k]?.getD { f := .blank }).f.elevation = ((m.st.objs[k]?.map (·.f)).map (·.elevation)).getD 0
    cases m.st.objs[k]? <;> rfl
  · have := congrArg List.length q9
    rwa [List.length_map, List.length_map] at this
  · obtain ⟨t, t1, t2, t3⟩ := key q i hq
    obtain ⟨c1, c2⟩ := hc.linkers i (List.mem_of_getElem? hq)
    refine ⟨t, t1, ?_, ?_⟩
    · have h := posOf_summit hc c1
      change (List.range m.summits.length)[posOf _ _]? = some (m.net.link i).1 at h
      rw [t2]
      have hl := lt_of_getElem? h
      rw [List.length_range] at hl
      rw [List.getElem?_range hl] at h
      exact Option.some.inj h
    · rw [t3]
      exact posOf_saddle hc c2
  · obtain ⟨u, u1, _, u3⟩ := key q i hq
    obtain ⟨u', u1', _, u3'⟩ := key q' j hq'
    rw [ht] at u1
    rw [ht'] at u1'
    cases u1
    cases u1'
    rw [u3, u3', e]

theorem FileAs.higher {m : DMap} {f : Flags} {s : LState} (h : FileAs m f s) {a b : Nat} :
    FileHigher s a b ↔ HigherSummit m a b := by
  constructor
  · rintro ⟨ta, tb, h1, h2, h3⟩
    have ha := lt_of_getElem? h1
    have hb := lt_of_getElem? h2
    rw [h.summits] at ha hb
    obtain ⟨ta', a1, a2⟩ := h.sum a _ (List.getElem?_eq_getElem ha)
    obtain ⟨tb', b1, b2⟩ := h.sum b _ (List.getElem?_eq_getElem hb)
    rw [h1] at a1
    rw [h2] at b1
    cases a1
    cases b1
    exact ⟨_, _, List.getElem?_eq_getElem ha, List.getElem?_eq_getElem hb, by rw [← a2, ← b2]; exact h3⟩
  · rintro ⟨sa, sb, h1, h2, h3⟩
    obtain ⟨ta, a1, a2⟩ := h.sum a _ h1
    obtain ⟨tb, b1, b2⟩ := h.sum b _ h2
    exact ⟨ta, tb, a1, b1, by rw [a2, b2]; exact h3⟩

/-- Saddle `k` and summit `D` are the ends of a linker of the map. -/
def DMap.ends (m : DMap) (k D : Nat) : Prop := ∃ i ∈ m.linkers, m.net.link i = (D, k)

theorem FileAs.crosses {m : DMap} {f : Flags} {s : LState} (h : FileAs m f s) {x : Rat} {a b : Nat} :
    FileCrosses s x a b ↔ Over (fun k => m.net.elev (.saddle k)) (fun k => ¬ SaddleOut f k) m.ends x a b := by
  constructor
  · rintro ⟨t, i, j, l, l', hi, hj, rfl, rfl, e, ht, hd, hx⟩
    have hi' := lt_of_getElem? hi
    have hj' := lt_of_getElem? hj
    rw [h.links] at hi' hj'
    obtain ⟨t1, a1, a2, a3⟩ := h.link i _ (List.getElem?_eq_getElem hi')
    obtain ⟨t2, b1, b2, b3⟩ := h.link j _ (List.getElem?_eq_getElem hj')
    rw [hi] at a1
    rw [hj] at b1
    cases a1
    cases b1
    rw [← e, a3] at b3
    obtain ⟨t', c1, c2, c3⟩ := h.sad _ _ a3
    rw [ht] at c1
    cases c1
    refine ⟨_, fun ho => ?_, c3 ▸ hx, ⟨_, List.getElem_mem hi', by rw [a2]⟩, ⟨_, List.getElem_mem hj', ?_⟩⟩
    · rw [c2, (saddleDisq_iff f _).2 ho] at hd
      cases hd
    · rw [b2, Option.some.inj b3]
  · rintro ⟨k, k1, k2, ⟨i, i1, i2⟩, ⟨j, j1, j2⟩⟩
    obtain ⟨q, hq⟩ := List.getElem?_of_mem i1
    obtain ⟨q', hq'⟩ := List.getElem?_of_mem j1
    obtain ⟨t1, a1, a2, a3⟩ := h.link q _ hq
    obtain ⟨t2, b1, b2, b3⟩ := h.link q' _ hq'
    obtain ⟨t, c1, c2, c3⟩ := h.sad _ _ a3
    rw [i2] at a2 c2 c3
    rw [j2] at b2
    refine ⟨t, q, q', t1, t2, a1, b1, a2, b2, h.same q q' _ _ t1 t2 hq hq' a1 b1 (by rw [i2, j2]), c1, ?_, by rw [c3]; exact k2⟩
    rw [c2]
    by_contra hc
    exact k1 ((saddleDisq_iff f _).1 (by simpa using hc))

/-- If, over saddles that are not disqualified, a map with some of the linkers of a run connects what can be passed, then its file
tells prominences. -/
theorem FileAs.tells {E : SaddleEnv} (hE : RunOk E) (o : Pt → Oracle) (order : List Pt) (ho : IsScan E.d order) (rebuild : Bool)
    {m : DMap} (hm : DMap.runSparse E o order rebuild = .ok m) {sites : List Pt} (hs : SummitsAt E.d sites m.summits)
    {m1 : DMap} (hsum : m1.summits = m.summits) (hnet : m1.net = m.net) (hlk : ∀ i ∈ m1.linkers, i ∈ m.linkers)
    {f : Flags} {s : LState} (h : FileAs m1 f s)
    (hf : ∀ (h : Rat) (a b : Nat) (p q : Pt), sites[a]? = some p → sites[b]? = some q → Passable E.d h p q →
      NetConnected m1 (fun k => ¬ SaddleOut f k) h a b) : TellsProminence E.d sites s := by
  refine ⟨by rw [h.summits, hsum, hs.each.length_eq], fun a p ha => ?_⟩
  obtain ⟨m', r1, r2⟩ := C20_linkers_rise_partial E hE o order ho rebuild
  cases (r1.symm.trans hm : Except.ok _ = Except.ok _)
  obtain ⟨m', sites', g1, g2, g3⟩ := C77_nothing_false E hE o order ho rebuild
  cases (g1.symm.trans hm : Except.ok _ = Except.ok _)
  obtain rfl := sites_same hE.geo g2 hs
  have hel : ∀ {m : DMap} {k : Nat} {ob : SObj}, m.st.objs[k]? = some ob → m.net.elev (.saddle k) = ob.f.elevation := by
    intro m k ob hob
    simp [DMap.net, DMap.feature, hob]
  have hrise : ∀ {k D : Nat}, m1.ends k D → ∃ i sf ob, i ∈ m.linkers ∧ m.st.store[i]? = some ⟨D, k⟩ ∧ m.summits[D]? = some sf ∧
      m.st.objs[k]? = some ob ∧ ob.f.elevation ≤ sf.elevation := by
    rintro k D ⟨i, i1, i2⟩
    obtain ⟨l, sf, ob, e1, e2, e3, e4⟩ := r2 i (hlk i i1)
    rw [hnet, net_link e1] at i2
    cases i2
    refine ⟨i, sf, ob, hlk i i1, e1, e2, e3, ?_⟩
    rcases e4 with ⟨_, e4⟩ | ⟨_, _, e4⟩
    · exact le_of_lt e4
    · exact e4
  have hfaith : ∀ (h : Rat) (a b : Nat) (p q : Pt), sites'[a]? = some p → sites'[b]? = some q → h ≤ el E.d p →
      (Relation.ReflTransGen (Over (fun k => m1.net.elev (.saddle k)) (fun k => ¬ SaddleOut f k) m1.ends h) a b ↔
        Passable E.d h p q) := by
    intro h a b p q hp hq hh
    constructor
    · intro hc
      refine g3 h a b p q hp hq hh (Relation.ReflTransGen.mono ?_ _ _ hc)
      rintro u v ⟨k, _, k2, l1, l2⟩
      obtain ⟨i, _, ob, i1, i2, _, i3, _⟩ := hrise l1
      obtain ⟨j, _, _, j1, j2, _⟩ := hrise l2
      refine ⟨k, ob, i, j, trivial, i3, ?_, i1, i2, j1, j2⟩
      rw [← hel i3, ← hnet]
      exact k2
    · intro hc
      refine Relation.ReflTransGen.mono ?_ _ _ (hf h a b p q hp hq hc)
      rintro u v ⟨k, ob, i, j, k1, k2, k3, i1, i2, j1, j2⟩
      exact ⟨k, k1, by show h ≤ m1.net.elev _; rw [hel k2]; exact k3, ⟨i, i1, net_link i2⟩, ⟨j, j1, net_link j2⟩⟩
  obtain ⟨k1, k2⟩ := key_of_faithful (hsum ▸ hs : SummitsAt E.d sites' m1.summits) (e := fun k => m1.net.elev (.saddle k))
    (P := fun k => ¬ SaddleOut f k) (L := m1.ends) (n := m.st.objs.length)
    (fun k D _ hl => by
      obtain ⟨_, _, ob, _, _, _, e3, _⟩ := hrise hl
      exact lt_of_getElem? e3)
    (fun k a p _ hl ha => by
      obtain ⟨_, sf, ob, _, _, e2, e3, e4⟩ := hrise hl
      obtain ⟨s, s1, s2⟩ := forall₂_getElem? hs.each ha
      rw [e2] at s1
      cases s1
      show m1.net.elev (.saddle k) ≤ _
      rw [hnet, hel e3, ← s2.located.2.2]
      exact e4) hfaith a p ha
  have hcon : ∀ x a b, FileConnected s x a b ↔
      Relation.ReflTransGen (Over (fun k => m1.net.elev (.saddle k)) (fun k => ¬ SaddleOut f k) m1.ends x) a b := by
    intro x a b
    unfold FileConnected
    rw [show FileCrosses s x = Over (fun k => m1.net.elev (.saddle k)) (fun k => ¬ SaddleOut f k) m1.ends x from
      funext fun a => funext fun b => propext h.crosses]
  refine ⟨?_, fun x => ?_, fun hx => ?_, fun b q hb x hx => ?_⟩
  · obtain ⟨g, g1, g2⟩ := forall₂_getElem? hs.each ha
    obtain ⟨t, t1, t2⟩ := h.sum a g (by rw [hsum]; exact g1)
    exact ⟨t, t1, by rw [t2, g2.located.2.2]⟩
  · change Escapes E.d p x ↔ _
    rw [k1 x]
    simp only [h.higher, hcon]
  · obtain ⟨k, b, e1, _, _, _, e3, _, ⟨i, i1, i2⟩, _⟩ := k2 hx
    obtain ⟨q, hq⟩ := List.getElem?_of_mem i1
    obtain ⟨t, _, _, t3⟩ := h.link q i hq
    obtain ⟨u, u1, u2, u3⟩ := h.sad _ _ t3
    rw [i2] at u2 u3
    refine ⟨u, List.mem_of_getElem? u1, ?_, fun x => ?_⟩
    · rw [u2]
      by_contra hc
      exact e3 ((saddleDisq_iff f _).1 (by simpa using hc))
    · rw [u3]
      refine ⟨e1.2 x, fun hle => ?_⟩
      obtain ⟨c, c1, c2⟩ := (k1 _).1 e1.1
      exact (k1 x).2 ⟨c, c1, over_mono hle c2⟩
  · rw [hcon, hfaith x a b p q ha hb hx]

/-- Every run outside the exceptions of C76 can be loaded so. -/
theorem run_file (E : SaddleEnv) (hE : RunOk E) (o : Pt → Oracle) (order : List Pt) (ho : IsScan E.d order) (rebuild : Bool) :
    ∃ D m, analyze E.d o order = .ok D ∧ DMap.runSparse E o order rebuild = .ok m ∧
      ((rebuild = false ∨ ∀ f ∈ D.saddles, f.edge = false) →
        ∀ (ids : ObjIds), ids.Distinct → ∀ f, RunFlags E o order rebuild m f → ∀ fp,
        ∃ v s n, (m.toL E.d f ids).toDict fp = .ok v ∧ LState.fromDict v.cbor fp = .ok (s, n) ∧ FileAs m f s) := by
  obtain ⟨D, m, h1, h2, _, h3⟩ := run_closed hE o order ho rebuild
  obtain ⟨D', m', b1, b2, b3⟩ := C76_run_saved_partial E hE o order ho rebuild
  cases (b1.symm.trans h1 : Except.ok _ = Except.ok _)
  cases (b2.symm.trans h2 : Except.ok _ = Except.ok _)
  refine ⟨D, m, h1, h2, fun he ids hi f hf fp => file_as (E := E) ?_ (b3 he ids hi f hf fp)⟩
  obtain ⟨c1, c2⟩ := h3 he ids hi
  rcases hf with rfl | ⟨fuel, hr⟩
  · exact c1
  · exact (c2 fuel f hr).1

/-- C133 for maps that are saved before basin saddles are detected: on every raster, unless edge saddles were rebuilt, the file has
the heights of the summits, and from a summit one gets to a higher cell without going below `x` exactly if the loaded map connects
the summit with a higher one over saddles that are not lower than `x`. Between any two summits too the file tells how far down one has
to go. -/
theorem C133_walked_partial (E : SaddleEnv) (hE : RunOk E) (o : Pt → Oracle) (order : List Pt) (ho : IsScan E.d order)
    (rebuild : Bool) :
    ∃ D m sites, analyze E.d o order = .ok D ∧ DMap.runSparse E o order rebuild = .ok m ∧ SummitsAt E.d sites m.summits ∧
      ((rebuild = false ∨ ∀ f ∈ D.saddles, f.edge = false) → ∀ (ids : ObjIds), ids.Distinct → ∀ fp,
        ∃ v s n, (m.toL E.d m.flags ids).toDict fp = .ok v ∧ LState.fromDict v.cbor fp = .ok (s, n) ∧
          TellsProminence E.d sites s) := by
  obtain ⟨D, m, h1, h2, h3⟩ := run_file E hE o order ho rebuild
  obtain ⟨m', sites, g1, g2, g3⟩ := C77_faithful E hE o order ho rebuild
  cases (g1.symm.trans h2 : Except.ok _ = Except.ok _)
  refine ⟨D, m, sites, h1, h2, g2, fun he ids hi fp => ?_⟩
  obtain ⟨v, s, n, p1, p2, p3⟩ := h3 he ids hi m.flags (.inl rfl) fp
  refine ⟨v, s, n, p1, p2, p3.tells hE o order ho rebuild h2 g2 rfl rfl (fun _ h => h) ?_⟩
  intro h a b p q hp hq hc
  refine Relation.ReflTransGen.mono ?_ _ _ ((g3 h a b p q hp hq hc.2.1).2 hc)
  rintro u v ⟨k, ob, i, j, ⟨_, ob', e1, _, e3⟩, hob, r⟩
  have : ob' = ob := by simpa using e1.symm.trans hob
  subst this
  refine ⟨k, ob', i, j, ?_, hob, r⟩
  unfold SaddleOut
  simp [DMap.flags, hob, e3]

/-- C133 for complete runs, on rasters without saddles on the edge or on which no saddles coincide, if no two summits agree in location
and elevation: the same holds for the file written after basin saddles were detected, so that the saddles in it that are not
disqualified suffice. -/
theorem C133_detected_partial (E : SaddleEnv) (hE : RunOk E) (o : Pt → Oracle) (order : List Pt) (ho : IsScan E.d order)
    (rebuild : Bool) :
    ∃ D m sites, analyze E.d o order = .ok D ∧ DMap.runSparse E o order rebuild = .ok m ∧ SummitsAt E.d sites m.summits ∧
      ((rebuild = false ∨ ∀ f ∈ D.saddles, f.edge = false) → Untwinned D m → SummitsApart m.summits →
        ∀ fuel, m.saddles.length + m.st.objs.length < fuel → ∃ f, DMap.run E o order rebuild fuel = .ok (m, f) ∧
        ∀ (ids : ObjIds), ids.Distinct → ∀ fp,
        ∃ v s n, (m.toL E.d f ids).toDict fp = .ok v ∧ LState.fromDict v.cbor fp = .ok (s, n) ∧
          TellsProminence E.d sites s) := by
  obtain ⟨D, m, h1, h2, h3⟩ := run_file E hE o order ho rebuild
  obtain ⟨D', m', sites, g0, g1, g2, g3⟩ := C78_faithful_partial E hE o order ho rebuild
  cases (g0.symm.trans h1 : Except.ok _ = Except.ok _)
  cases (g1.symm.trans h2 : Except.ok _ = Except.ok _)
  obtain ⟨m', _, j1, _, j3, j4, _⟩ := run_joins hE o order ho rebuild
  cases (j1.symm.trans h2 : Except.ok _ = Except.ok _)
  refine ⟨D, m, sites, h1, h2, g2, fun he hU hS fuel hfuel => ?_⟩
  obtain ⟨f, f1, _, f3⟩ := g3 hU hS fuel hfuel
  refine ⟨f, f1, fun ids hi fp => ?_⟩
  obtain ⟨v, s, n, p1, p2, p3⟩ := h3 he ids hi f (.inr ⟨fuel, f1⟩) fp
  refine ⟨v, s, n, p1, p2, p3.tells hE o order ho rebuild h2 g2 rfl rfl (fun _ h => h) ?_⟩
  intro h a b p q hp hq hc
  exact connectedBy_net j3 j4 ((f3 h a b p q hp hq hc.2.1).2 hc)

/-- C133 for maps that were thinned out, under the same conditions: after a complete run purge saddles and detect basin saddles, as
often and in whatever order, only not with `all_basin_saddles` (see C92): the file written then, which no longer has the saddles
that were purged nor their linkers, still tells the prominence of every summit. -/
theorem C133_purged_partial (E : SaddleEnv) (hE : RunOk E) (o : Pt → Oracle) (order : List Pt) (ho : IsScan E.d order)
    (rebuild : Bool) :
    ∃ D m sites, analyze E.d o order = .ok D ∧ DMap.runSparse E o order rebuild = .ok m ∧ SummitsAt E.d sites m.summits ∧
      ((rebuild = false ∨ ∀ f ∈ D.saddles, f.edge = false) → Untwinned D m → SummitsApart m.summits →
        ∀ fuel, m.saddles.length + m.st.objs.length < fuel → ∃ f, DMap.run E o order rebuild fuel = .ok (m, f) ∧
        ∀ cs : List MapCall, (∀ c ∈ cs, c.Plain) → ∃ m1 f1, DMap.calls fuel (m, f) cs = .ok (m1, f1) ∧
        ∀ (ids : ObjIds), ids.Distinct → ∀ fp,
        ∃ v s n, (m1.toL E.d f1 ids).toDict fp = .ok v ∧ LState.fromDict v.cbor fp = .ok (s, n) ∧
          TellsProminence E.d sites s) := by
  obtain ⟨D, _, _, m, _, _, h1, _, _, _, _, _, _, h2, _⟩ := run_spec hE o order ho rebuild
  obtain ⟨m', sites, g1, g2, g3⟩ := C88_history_partial E hE o order ho rebuild
  cases (g1.symm.trans h2 : Except.ok _ = Except.ok _)
  refine ⟨D, m, sites, h1, h2, g2, fun he hU hS fuel hfuel => ?_⟩
  obtain ⟨f, f1, f2⟩ := g3 hS (run_untwinned hE o order ho rebuild h1 h2 hS hU) fuel hfuel
  refine ⟨f, f1, fun cs hcs => ?_⟩
  obtain ⟨m1, fl, c1, _, _, _, _, c6⟩ := f2 cs
  refine ⟨m1, fl, c1, fun ids hi fp => ?_⟩
  have hs := run_savable hE o order ho rebuild h1 h2 he hS
  have hd : m.detectBasins fuel m.flags = .ok f := by
    unfold DMap.run at f1
    rw [h2] at f1
    obtain ⟨m', e1, e2⟩ := bind_ok f1
    obtain ⟨f', e3, e2⟩ := bind_ok e2
    cases e1
    cases e2
    exact e3
  obtain ⟨m1', fl', k1, k2⟩ := Keeps.calls (W := True) hs.base hfuel (.detect :: cs)
    (fun _ c hc => by
      rcases List.mem_cons.1 hc with rfl | hc
      · trivial
      · exact hcs c hc) (Keeps.start hs.base)
  unfold DMap.calls DMap.call at k1
  rw [hd] at k1
  cases ((show DMap.calls fuel (m, f) cs = _ from k1).symm.trans c1 : Except.ok _ = Except.ok _)
  have halt : ∀ k ∈ m1.saddles, ∀ c, Node.saddle c ∈ fl.alts (.saddle k) → c ∈ m1.saddles := by
    intro k hk c hc
    obtain ⟨k', hk', e, _⟩ := k2.own trivial _ (k2.alts trivial _ _ hc)
    cases e
    exact hk'
  obtain ⟨v, s, n, p1, p2, p3⟩ := file_as (k2.held.saved hs (k2.parent hs.base) halt hi)
    (k2.held.whole hs (k2.parent hs.base) halt hi fp)
  refine ⟨v, s, n, p1, p2, p3.tells hE o order ho rebuild h2 g2 k2.summits k2.net (fun i hi => (k2.link i hi).1) ?_⟩
  intro h a b p q hp hq hc
  refine Relation.ReflTransGen.mono ?_ _ _ ((c6 h a b p q hp hq hc.2.1).2 hc)
  rintro u v ⟨k, ob, i, j, hk, r⟩
  exact ⟨k, ob, i, j, (mem_liveSaddles.1 hk).2.1, r⟩

/-- The map loaded from the file written after a complete run. -/
def exFile (rows : List (List Rat)) : Option LState :=
  (exFull rows false 99).toOption.bind fun r => ((r.1.toL (DataMap.ofRows rows) r.2 exIds).toDict ⟨7, 8⟩).toOption.bind fun v =>
    (LState.fromDict v.cbor ⟨7, 8⟩).toOption.map (·.1)

/-- Heights of summits, heights and disqualification of saddles and runoffs, and ends of linkers. -/
def LState.shown (s : LState) : List Rat × List (Rat × Bool) × List (Nat × Nat) :=
  (s.summits.map (·.ele), s.saddles.map (fun t => (t.ele, t.disqualified)), s.linkers.map fun l => (l.summit, l.saddle))

/-- C133 fails where a saddle is on the edge: the file written after the complete run has the saddle of height 2 between the summits
9 and 10 disqualified, so that the summit 10 gets its connection with a higher one only over the saddle of height 1, although one can
go to higher ground without going below 2. -/
theorem C133_edge_saddles_refuted : ∃ m f sites p s, exFull exRing3 false 99 = .ok (m, f) ∧
    SummitsAt (DataMap.ofRows exRing3) sites m.summits ∧ sites[2]? = some p ∧ Escapes (DataMap.ofRows exRing3) p 2 ∧
    exFile exRing3 = some s ∧ (∀ b, FileHigher s 2 b → ¬ FileConnected s 2 2 b) ∧
    ∃ b, FileHigher s 2 b ∧ FileConnected s 1 2 b := by
  obtain ⟨m, f, sites, p, h1, h2, h3, _, h4, _⟩ := C103_edge_saddles_refuted
  have hs : (exFile exRing3).map LState.shown = some ([3, 9, 10, 11],
    [(2, false), (2, true), (2, true), (7, false), (1, false), (3, true), (3, true), (0, false), (0, false), (0, false), (0, false)],
    [(2, 0), (0, 0), (1, 1), (2, 1), (1, 3), (3, 3), (2, 4), (3, 4), (0, 6)]) := by decide +kernel
  cases hf : exFile exRing3 with
  | none => rw [hf] at hs; cases hs
  | some s =>
    rw [hf] at hs
    simp only [Option.map_some, Option.some.injEq, LState.shown, Prod.mk.injEq] at hs
    obtain ⟨s1, s2, s3⟩ := hs
    have sumOf : ∀ (i : Nat) t, s.summits[i]? = some t → [(3 : Rat), 9, 10, 11][i]? = some t.ele := fun i t h => by
      rw [← s1, List.getElem?_map, h]; rfl
    have sadOf : ∀ (i : Nat) t, s.saddles[i]? = some t → [((2 : Rat), false), (2, true), (2, true), (7, false), (1, false),
        (3, true), (3, true), (0, false), (0, false), (0, false), (0, false)][i]? = some (t.ele, t.disqualified) := fun i t h => by
      rw [← s2, List.getElem?_map, h]; rfl
    have linkOf : ∀ (i : Nat) l, s.linkers[i]? = some l →
        (l.summit, l.saddle) ∈ [(2, 0), (0, 0), (1, 1), (2, 1), (1, 3), (3, 3), (2, 4), (3, 4), (0, 6)] := fun i l h => by
      rw [← s3]
      exact List.mem_map.2 ⟨l, List.mem_of_getElem? h, rfl⟩
    have sumAt : ∀ (i : Nat) x, [(3 : Rat), 9, 10, 11][i]? = some x → ∃ t, s.summits[i]? = some t ∧ t.ele = x := fun i x h => by
      rw [← s1, List.getElem?_map] at h
      exact Option.map_eq_some_iff.1 h
    have key : ∀ x, FileConnected s 2 2 x → x = 2 ∨ x = 0 := by
      intro x hx
      induction hx with
      | refl => exact .inl rfl
      | tail _ hc ih =>
        obtain ⟨t, i, j, l, l', i1, j1, rfl, rfl, e, t1, t2, t3⟩ := hc
        have a := linkOf i l i1
        have b := linkOf j l' j1
        have c := sadOf _ _ t1
        rw [t2] at c
        generalize t.ele = y at c t3
        rw [← e] at b
        generalize l.saddle = k at a b c
        simp only [List.mem_cons, Prod.mk.injEq, List.not_mem_nil, or_false] at a b
        have hk : k = 0 ∨ k = 1 ∨ k = 3 ∨ k = 4 ∨ k = 6 := by omega
        rcases hk with rfl | rfl | rfl | rfl | rfl
        · omega
        · simp at c
        · omega
        · simp only [List.getElem?_cons_succ, List.getElem?_cons_zero, Option.some.injEq, Prod.mk.injEq] at c
          rw [← c.1] at t3
          exact absurd t3 (by norm_num)
        · simp at c
    refine ⟨m, f, sites, p, s, h1, h2, h3, h4, rfl, fun b hb hc => ?_, 3, ?_, ?_⟩
    · obtain ⟨ta, tb, a1, a2, a3⟩ := hb
      have u := sumOf _ _ a1
      have v := sumOf _ _ a2
      generalize ta.ele = y at u a3
      generalize tb.ele = z at v a3
      rcases key b hc with rfl | rfl <;>
        simp only [List.getElem?_cons_succ, List.getElem?_cons_zero, Option.some.injEq] at u v <;> rw [← u, ← v] at a3 <;>
        exact absurd a3 (by norm_num)
    · obtain ⟨ta, a1, a2⟩ := sumAt 2 10 rfl
      obtain ⟨tb, b1, b2⟩ := sumAt 3 11 rfl
      exact ⟨ta, tb, a1, b1, by rw [a2, b2]; norm_num⟩
    · have lk : ∀ (i : Nat) x, [(2, 0), (0, 0), (1, 1), (2, 1), (1, 3), (3, 3), (2, 4), (3, 4), (0, 6)][i]? = some x →
          ∃ l, s.linkers[i]? = some l ∧ (l.summit, l.saddle) = x := fun i x h => by
        rw [← s3, List.getElem?_map] at h
        exact Option.map_eq_some_iff.1 h
      have sd : ∃ t, s.saddles[4]? = some t ∧ (t.ele, t.disqualified) = (1, false) := by
        have h : (s.saddles.map fun t => (t.ele, t.disqualified))[4]? = some (1, false) := by rw [s2]; rfl
        rw [List.getElem?_map] at h
        exact Option.map_eq_some_iff.1 h
      obtain ⟨l, l1, l2⟩ := lk 6 _ rfl
      obtain ⟨l', l3, l4⟩ := lk 7 _ rfl
      obtain ⟨t, t1, t2⟩ := sd
      simp only [Prod.mk.injEq] at l2 l4 t2
      exact .single ⟨t, 6, 7, l, l', l1, l3, l2.1, l4.1, by rw [l2.2, l4.2], by rw [l2.2]; exact t1, t2.2, by rw [t2.1]⟩

/-- Instance of C133: the file of the crater, which meets the conditions of both theorems (see C28 and C76), has the summits 9, 8, 7
and 6 with saddles 3, 4 and 5 between them; the lowest of the ring, of height 2, is disqualified. -/
example : (exFile exCrater).map LState.shown = some ([9, 8, 7, 6],
    [(3, false), (2, true), (4, false), (5, false), (0, false), (0, false), (0, false), (0, false)],
    [(1, 0), (0, 0), (0, 1), (2, 1), (1, 2), (3, 2), (3, 3), (2, 3)]) := by decide +kernel

set_option synthInstance.maxSize 1000 in
/-- Instance of C133 for maps that were thinned out: after purging basin saddles the file of the crater has lost the saddle of
height 2 and its two linkers. -/
example : ((exFull exCrater false 17).toOption.bind fun r => (DMap.calls 17 r [.purge true true false, .detect]).toOption.bind fun r =>
    ((r.1.toL (DataMap.ofRows exCrater) r.2 exIds).toDict ⟨7, 8⟩).toOption.bind fun v =>
    (LState.fromDict v.cbor ⟨7, 8⟩).toOption.map (·.1.shown)) = some ([9, 8, 7, 6],
    [(3, false), (4, false), (5, false), (0, false), (0, false), (0, false), (0, false)],
    [(1, 0), (0, 0), (1, 1), (3, 1), (3, 2), (2, 2)]) := by decide +kernel

end PyProm
