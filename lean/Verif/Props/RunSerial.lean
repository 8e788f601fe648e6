import Verif.Proof.RunSerial
import Verif.Proof.LinkSteps
import Verif.Props.Flat

/-
Saving and loading the result of a complete run (C76).
-/
namespace PyProm
open Spec

/-- The flags of the map after a run: those of the sparse run, or those after basin detection. -/
def RunFlags (E : SaddleEnv) (o : Pt → Oracle) (order : List Pt) (rebuild : Bool) (m : DMap) (f : Flags) : Prop :=
  f = m.flags ∨ ∃ fuel, DMap.run E o order rebuild fuel = .ok (m, f)

/-- C76. Missing for the claim: runs that rebuild edge saddles (`C76_rebuilt_refuted`), families of runoffs
(`C46_runoffs_refuted`), and the lists of linkers in the features (`C44_features_partial`,
`C45_repeated_runoff_refuted`). The result of every other run can be saved, and loaded against a raster with
the same fingerprint; every summit, saddle and runoff comes back in its place with its attributes, saddles
with their families, and linkers and domains with the same ends. -/
theorem C76_run_saved_partial (E : SaddleEnv) (hE : RunOk E) (o : Pt → Oracle) (order : List Pt)
    (ho : IsScan E.d order) (rebuild : Bool) :
    ∃ D m, analyze E.d o order = .ok D ∧ DMap.runSparse E o order rebuild = .ok m ∧
      ((rebuild = false ∨ ∀ f ∈ D.saddles, f.edge = false) →
        ∀ (ids : ObjIds), ids.Distinct → ∀ f, RunFlags E o order rebuild m f → ∀ fp,
        ∃ v s n, (m.toL E.d f ids).toDict fp = .ok v ∧ LState.fromDict v.cbor fp = .ok (s, n) ∧
          n = m.saddles.length ∧ s.summits.length = m.summits.length ∧
          s.saddles.length = m.saddles.length + m.runoffs.length ∧
          (∀ D < m.summits.length, ∃ t, s.summits[D]? = some t ∧ SummitKept ((m.toL E.d f ids).sum D) t) ∧
          (∀ (P : Nat) k, (m.saddles ++ m.runoffs)[P]? = some k →
            ∃ t, s.saddles[P]? = some t ∧ SaddleKept ((m.toL E.d f ids).sad k) t) ∧
          FamilyKept (m.toL E.d f ids) m.saddles (s.saddles.take n) ∧ LinkersKept (m.toL E.d f ids) s ∧
          DomainsKept (m.toL E.d f ids) s ∧
          ∀ (q : Nat) D, m.domains[q]? = some D → s.summits[D]?.map (·.domain) = some (some q)) := by
  obtain ⟨D, m, h1, h2, ⟨sites, m0, news, hw⟩, h3⟩ := run_closed hE o order ho rebuild
  refine ⟨D, m, h1, h2, fun he ids hi f hf fp => ?_⟩
  obtain ⟨c1, c2⟩ := h3 he ids hi
  obtain ⟨hc, hov⟩ : Spec.Closed (m.toL E.d f ids) ∧ f.over = m.flags.over := by
    rcases hf with rfl | ⟨fuel, hr⟩
    · exact ⟨c1, rfl⟩
    · exact c2 fuel f hr
  obtain ⟨v, s, n, l1, l2, l3, _, l5, l6, l7, l8, l9, l10, l11, l12⟩ := C45_load_partial _ hc fp
  have l5' : s.summits.length = m.summits.length := by
    rw [l5]
    exact List.length_range
  refine ⟨v, s, n, l1, l2, l3, l5', l6, ?_, ?_, l9, l10, l11, ?_⟩
  · intro D hD
    refine ⟨s.summits[D]'(by omega), List.getElem?_eq_getElem _, l7 D D _ ?_ (List.getElem?_eq_getElem _) rfl⟩
    change (List.range m.summits.length)[D]? = some D
    rw [List.getElem?_range hD]
  · intro P k hP
    have hlt : P < s.saddles.length := by
      rw [l6]
      have := lt_of_getElem? hP
      rwa [List.length_append] at this
    have hk := List.mem_of_getElem? hP
    have hmem : k ∈ m.saddles ∧ nonRunoff m.st.objs k = true ∨ k ∈ m.runoffs ∧ nonRunoff m.st.objs k = false := by
      rcases List.mem_append.1 hk with h | h
      · exact .inl ⟨h, ((hw.mem_saddles k).1 h).2⟩
      · exact .inr ⟨h, ((hw.mem_runoffs k).1 h).2⟩
    refine ⟨s.saddles[P], List.getElem?_eq_getElem _, l8 P k _ hP (List.getElem?_eq_getElem _) ?_ ?_ ?_⟩
    · have hkind : ((m.toL E.d f ids).sad k).runoff = !nonRunoff m.st.objs k := by
        change decide ((m.st.objs[k]?.getD { f := .blank }).f.kind = .runoff) = _
        unfold nonRunoff
        cases m.st.objs[k]? with
        | none => simp [Feature.blank, mkSummit]
        | some o => simp
      rw [hkind, l3, show (m.toL E.d f ids).saddles = m.saddles from rfl]
      by_cases hPn : P < m.saddles.length
      · rw [List.getElem?_append_left hPn] at hP
        rw [((hw.mem_saddles k).1 (List.mem_of_getElem? hP)).2]
        symm
        simpa using hPn
      · rw [List.getElem?_append_right (by omega)] at hP
        rw [((hw.mem_runoffs k).1 (List.mem_of_getElem? hP)).2]
        symm
        simpa using hPn
    · intro hr
      change decide ((m.st.objs[k]?.getD { f := .blank }).f.kind = .runoff) = true at hr
      change (m.st.objs[k]?.getD { f := .blank }).f.edge = true
      cases ho : m.st.objs[k]? with
      | none => rw [ho] at hr; simp [Feature.blank, mkSummit] at hr
      | some ob =>
        rw [ho] at hr
        have hr := of_decide_eq_true hr
        cases hed : ob.f.edge with
        | true => simp [hed]
        | false =>
          have := (hw.inv.objs ob (List.mem_of_getElem? ho)).inner hed
          simp only [Option.getD_some] at hr
          rw [this] at hr
          cases hr
    · intro h
      change f.over k = some false at h
      rw [hov] at h
      exact absurd h (hw.over k)
  · intro q D hq
    have hD : D < m.summits.length := by
      have := (hc.domains D (List.mem_of_getElem? hq)).1
      exact List.mem_range.1 this
    refine l12 q D D hq ?_ ?_
    · change (List.range m.summits.length)[D]? = some D
      rw [List.getElem?_range hD]
    · change (m.domains.map fun i => i).Nodup
      rw [List.map_id', hw.domains]
      exact hw.inv.doms.1

/-- C76 fails for every run that rebuilds saddles of a raster with an edge saddle: the map is saved, but
loading it stops with a KeyError, as the edge saddle names a child that is not in the map. -/
theorem C76_rebuilt_refuted (E : SaddleEnv) (hE : RunOk E) (o : Pt → Oracle) (order : List Pt)
    (ho : IsScan E.d order) :
    ∃ D m, analyze E.d o order = .ok D ∧ DMap.runSparse E o order true = .ok m ∧
      ∀ f ∈ D.saddles, f.edge = true → ∀ (ids : ObjIds), ids.Distinct → ∀ (fl : Flags) fp,
        ∃ v, (m.toL E.d fl ids).toDict fp = .ok v ∧ LState.fromDict v.cbor fp = .error (.py .keyError) := by
  obtain ⟨D, m, h1, h2, h3, h4, ⟨sites, m0, news, hw⟩, h5⟩ := rebuilt_child hE o order ho
  refine ⟨D, m, h1, h2, fun f hf he ids hi fl fp => ?_⟩
  obtain ⟨k, hk, c, hc, hn⟩ := h5 f hf he
  refine LMap.load_err _ ?_ ?_ ⟨k, hk, c, ?_, ?_⟩ fp
  · intro D hD
    have hD := List.mem_range.1 hD
    refine areas_load fun a ha => ?_
    change ((m.summits[D]?.getD .blank).area E.d) = some a at ha
    rw [List.getElem?_eq_getElem hD] at ha
    exact areaAt_sound (h4 _ (List.getElem_mem hD)) a ha
  · intro j hj
    refine areas_load fun a ha => ?_
    have hj : j ∈ m.st.walked := by
      rcases List.mem_append.1 hj with hj | hj
      · exact ((hw.mem_saddles j).1 hj).1
      · exact ((hw.mem_runoffs j).1 hj).1
    obtain ⟨ob, g1, g2⟩ := h3 j hj
    change ((m.st.objs[j]?.getD { f := .blank }).f.area E.d) = some a at ha
    rw [g1] at ha
    exact areaAt_sound g2 a ha
  · change c ∈ (m.st.objs[k]?.getD { f := .blank }).children
    unfold kids at hc
    cases ho : m.st.objs[k]? with
    | none => rw [ho] at hc; cases hc
    | some ob => rw [ho] at hc; exact hc
  · intro hcm
    obtain ⟨j, hj, e⟩ := List.mem_map.1 hcm
    have := hi.sad e
    subst this
    exact hn ((hw.mem_saddles j).1 hj).1

/-- Ids in the order of creation. -/
def exIds : ObjIds := ⟨fun i => 3 * i, fun i => 3 * i + 1, fun i => 3 * i + 2⟩

theorem exIds_distinct : exIds.Distinct :=
  ⟨fun a b h => by simpa [exIds] using h, fun a b h => by simpa [exIds] using h⟩

/-- Saving and loading the result of a run. -/
def rerun (rows : List (List Rat)) (rebuild : Bool) : Except LoadErr LState :=
  match exFull rows rebuild 99 with
  | .error e => .error (.py e)
  | .ok (m, f) =>
    match (m.toL (DataMap.ofRows rows) f exIds).toDict ⟨7, 8⟩ with
    | .error e => .error (.py e)
    | .ok v => (LState.fromDict v.cbor ⟨7, 8⟩).map (·.1)

/-- Instance of C76: after loading, the edge saddle (second) has the child that was made from it (first). -/
example : (rerun exPass false).toOption.map (fun s => (s.saddles.take 2).map fun t =>
    ((t.id, t.edge, t.disqualified), t.parent, t.children)) =
    some [((22, false, false), some 1, []), ((1, true, true), none, [0])] := by decide +kernel

/-- Instance of `C76_rebuilt_refuted`: the raster has an edge saddle. -/
example : (analyze (DataMap.ofRows exPass) (fun _ => exOracle) (DataMap.ofRows exPass).cells).toOption.map
    (fun D => D.saddles.map (·.edge)) = some [true] := by decide +kernel

example : (match rerun exPass true with
    | .error (.py .keyError) => true
    | _ => false) = true := by decide +kernel

/-- Instance of C76: a raster without edge saddles, with a basin saddle, rebuilt. -/
example : (rerun exCrater true).toOption.map (fun s => s.saddles.map fun t => (t.basin, t.runoff)) =
    (exFull exCrater true 99).toOption.map fun r => r.1.saddles.map (fun k => (r.2.basin k, false)) ++
      r.1.runoffs.map fun k => (r.2.basin k, true) := by decide +kernel

/-! ### C76: what is loaded, compared with the terrain and the objects of the run -/

/-- The loaded multipoint `mp` of the feature `f`: the recorded cells, its elevation, and a perimeter of exactly
the higher cells around the area. -/
def Spec.AreaShown (d : DataMap) (f : Feature) (mp : Option MultiObj) : Prop :=
  match f.multipoint, mp with
  | none, none => True
  | some pts, some n => n.points.map (fun p => (p.x, p.y)) = pts.map (fun p => (p.x, p.y)) ∧
      n.elevation = f.elevation ∧ ∃ first q, pts.head? = some first ∧ n.perimeter = some q ∧
        (q.points.map P3.xy).Nodup ∧ ∀ r, r ∈ q.points ↔ (Data d r.xy ∧ r.e = el d r.xy ∧ f.elevation < el d r.xy ∧
          ∃ c, Flat d (first.x, first.y) c ∧ Adj c r.xy)
  | _, _ => False

/-- The loaded summit `t` shows the feature `f`. -/
structure Spec.SummitShown (d : DataMap) (id : Nat) (f : Feature) (t : LSummit) : Prop where
  id : t.id = id
  lat : t.lat = f.lat
  lon : t.lon = f.lon
  ele : t.ele = f.elevation
  edge : t.edge = f.edge
  edgePoints : t.edgePoints = f.edgePoints
  disq : t.disq = false
  area : AreaShown d f t.mp

/-- The loaded saddle `t` shows the feature `f` of object `k` with its flags. -/
structure Spec.SaddleShown (d : DataMap) (fl : Flags) (k id : Nat) (f : Feature) (t : LSaddle) : Prop where
  runoff : t.runoff = true ↔ f.kind = .runoff
  id : t.id = id
  lat : t.lat = f.lat
  lon : t.lon = f.lon
  ele : t.ele = f.elevation
  edge : t.edge = f.edge
  edgePoints : t.edgePoints = f.edgePoints
  hpn : t.hpn = f.hpn
  disq : t.disqualified = fl.saddleDisq k
  over : t.over = some true ↔ fl.over k = some true
  free : t.over ≠ some false
  single : t.single = fl.single k
  basin : t.basin = fl.basin k
  area : AreaShown d f t.mp

theorem areaAt_shown {d : DataMap} {f : Feature} (h : AreaAt d f) {mp : Option MultiObj} (hk : AreaKept (f.area d) mp) :
    AreaShown d f mp := by
  unfold Feature.area at hk
  unfold AreaShown
  cases hm : f.multipoint with
  | none =>
    rw [hm] at hk
    cases mp with
    | none => trivial
    | some n => exact hk.elim
  | some pts =>
    rw [hm] at hk
    cases mp with
    | none => exact hk.elim
    | some n =>
      obtain ⟨m, ms, rfl, h2, h3⟩ := h pts hm
      obtain ⟨b, hb, hs⟩ := equalHeightBlob_spec d (m.x, m.y) h2
      have hb' : equalHeightBlob d m.x m.y f.elevation = some b := by rw [h3]; exact hb
      simp only [Option.map_some, List.head?_cons, Option.bind_some, hb'] at hk
      obtain ⟨k1, k2, p, q, k3, k4, k5⟩ := hk
      cases k3
      refine ⟨k1, k2, m, q, rfl, k4, ?_, fun r => ?_⟩
      · exact ((k5.points.map P3.xy).nodup_iff).2 (C04_perimeter d (m.x, m.y) h2 b hb).1
      · rw [k5.points.mem_iff, h3]
        exact (C04_perimeter d (m.x, m.y) h2 b hb).2 r

/-- The areas of the features of a run. -/
theorem run_areas {E : SaddleEnv} (hE : RunOk E) (o : Pt → Oracle) (order : List Pt) (ho : IsScan E.d order)
    (rebuild : Bool) {m : DMap} (hm : DMap.runSparse E o order rebuild = .ok m) :
    (∀ k ∈ m.st.walked, ∃ ob, m.st.objs[k]? = some ob ∧ AreaAt E.d ob.f) ∧ (∀ f ∈ m.summits, AreaAt E.d f) ∧
      ∃ sites m0 news, WalkedMap E sites m0 m news ∧ LInv m.st := by
  obtain ⟨D, corners, m0, m', sites, news, h1, h2, h3, h4, h5, h6, h7, h8, h9⟩ := run_spec hE o order ho rebuild
  cases (h8.symm.trans hm : Except.ok _ = Except.ok _)
  have hA := analyze_areaAt ho h1
  have hw : m0.walk E [] = .ok (m, none) := by
    obtain ⟨m1, _, w1, _⟩ := walk_spec hE h4
    have h8' := h8
    unfold DMap.runSparse at h8'
    rw [h3] at h8'
    dsimp only [bind, Except.bind] at h8'
    rw [w1] at h8'
    cases h8'
    exact w1
  refine ⟨walked_areaAt hA (corner_areaAt h2) h6 h7 h9, ?_, sites, m0, news, h9, (walk_links hE h4 hw).1⟩
  rw [h9.summits, h5]
  exact fun g hg => hA g (by simp [hg])

/-- C76, compared with the run itself. Missing as for `C76_run_saved_partial`. After loading, summit `D` shows the
`D`-th summit of the run, the saddle or runoff at a position the one the map lists there; linkers come in order with
their flags and ends, domains in order with their points and the saddles that have linkers to their summits. -/
theorem C76_content_partial (E : SaddleEnv) (hE : RunOk E) (o : Pt → Oracle) (order : List Pt)
    (ho : IsScan E.d order) (rebuild : Bool) :
    ∃ D m, analyze E.d o order = .ok D ∧ DMap.runSparse E o order rebuild = .ok m ∧
      ((rebuild = false ∨ ∀ f ∈ D.saddles, f.edge = false) →
        ∀ (ids : ObjIds), ids.Distinct → ∀ f, RunFlags E o order rebuild m f → ∀ fp,
        ∃ v s n, (m.toL E.d f ids).toDict fp = .ok v ∧ LState.fromDict v.cbor fp = .ok (s, n) ∧
          s.summits.length = m.summits.length ∧ s.saddles.length = m.saddles.length + m.runoffs.length ∧
          s.linkers.length = m.linkers.length ∧ s.domains.length = m.domains.length ∧
          (∀ (D : Nat) g, m.summits[D]? = some g → ∃ t, s.summits[D]? = some t ∧ SummitShown E.d (ids.sum D) g t) ∧
          (∀ (P : Nat) k, (m.saddles ++ m.runoffs)[P]? = some k → ∃ ob t, m.st.objs[k]? = some ob ∧
            s.saddles[P]? = some t ∧ SaddleShown E.d f k (ids.sad k) ob.f t) ∧
          (∀ (q : Nat) i, m.linkers[q]? = some i → ∃ l t, m.st.store[i]? = some l ∧ s.linkers[q]? = some t ∧
            t.id = ids.link i ∧ t.disq = f.linkDisq i ∧ t.summit = l.summit ∧
            (m.saddles ++ m.runoffs)[t.saddle]? = some l.saddle) ∧
          (∀ (q : Nat) D, m.domains[q]? = some D → ∃ t pts, s.domains[q]? = some t ∧ t.summit = D ∧
            m.domPoints D = some pts ∧ t.points = pts.map MPt.ofPt ∧
            t.saddles.map ((m.saddles ++ m.runoffs)[·]?) =
              (m.st.store.filter fun l => decide (l.summit = D)).map (fun l => some l.saddle))) := by
  obtain ⟨D, m, h1, h2, h3⟩ := C76_run_saved_partial E hE o order ho rebuild
  obtain ⟨a1, a2, sites, m0, news, hw, hL⟩ := run_areas hE o order ho rebuild h2
  refine ⟨D, m, h1, h2, fun he ids hi f hf fp => ?_⟩
  obtain ⟨v, s, n, l1, l2, l3, l4, l5, l6, l7, l8, l9, l10, l11⟩ := h3 he ids hi f hf fp
  have hsum : ∀ (D : Nat) g, m.summits[D]? = some g → ∃ t, s.summits[D]? = some t ∧ SummitShown E.d (ids.sum D) g t := by
    intro D g hg
    obtain ⟨t, ht, hk⟩ := l6 D (lt_of_getElem? hg)
    have e : (m.toL E.d f ids).sum D = m.lSummit E.d ids D g := by
      change m.lSummit E.d ids D (m.summits[D]?.getD .blank) = _
      rw [hg]
      rfl
    rw [e] at hk
    exact ⟨t, ht, hk.id, hk.lat, hk.lon, hk.ele, hk.edge, hk.edgePoints, hk.disq,
      areaAt_shown (a2 g (List.mem_of_getElem? hg)) hk.area⟩
  have hsad : ∀ (P : Nat) k, (m.saddles ++ m.runoffs)[P]? = some k → ∃ ob t, m.st.objs[k]? = some ob ∧
      s.saddles[P]? = some t ∧ SaddleShown E.d f k (ids.sad k) ob.f t := by
    intro P k hP
    obtain ⟨t, ht, hk⟩ := l7 P k hP
    have hkw : k ∈ m.st.walked := by
      rcases List.mem_append.1 (List.mem_of_getElem? hP) with h | h
      · exact ((hw.mem_saddles k).1 h).1
      · exact ((hw.mem_runoffs k).1 h).1
    obtain ⟨ob, g1, g2⟩ := a1 k hkw
    have e : (m.toL E.d f ids).sad k = m.lSaddle E.d f ids k ob := by
      change m.lSaddle E.d f ids k (m.st.objs[k]?.getD { f := .blank }) = _
      rw [g1]
      rfl
    rw [e] at hk
    refine ⟨ob, t, g1, ht, ?_, hk.id, hk.lat, hk.lon, hk.ele, hk.edge, hk.edgePoints, hk.hpn, ?_, hk.over, hk.free,
      hk.single, hk.basin, areaAt_shown g2 hk.area⟩
    · rw [hk.runoff]
      exact decide_eq_true_iff
    · rw [hk.disq]
      rfl
  have hlen : s.linkers.length = m.linkers.length := by
    have := congrArg List.length l9
    rwa [List.length_map, List.length_map] at this
  have hdlen : s.domains.length = m.domains.length := by
    have := congrArg List.length l10
    rwa [List.length_map, List.length_map] at this
  have sumAt : ∀ (x : Nat) D, s.summits[x]?.map (·.id) = some (ids.sum D) → x = D := by
    intro x D hx
    rw [Option.map_eq_some_iff] at hx
    obtain ⟨t, ht, hx⟩ := hx
    have hlt := lt_of_getElem? ht
    rw [l4] at hlt
    obtain ⟨t', ht', hs⟩ := hsum x _ (List.getElem?_eq_getElem hlt)
    rw [ht] at ht'
    cases ht'
    exact hi.sum (hs.id.symm.trans hx)
  have sadAt : ∀ (x : Nat) k, s.saddles[x]?.map (·.id) = some (ids.sad k) → (m.saddles ++ m.runoffs)[x]? = some k := by
    intro x k hx
    rw [Option.map_eq_some_iff] at hx
    obtain ⟨t, ht, hx⟩ := hx
    have hlt := lt_of_getElem? ht
    rw [l5, ← List.length_append] at hlt
    obtain ⟨_, t', _, ht', hs⟩ := hsad x _ (List.getElem?_eq_getElem hlt)
    rw [ht] at ht'
    cases ht'
    rw [List.getElem?_eq_getElem hlt, hi.sad (hs.id.symm.trans hx)]
  refine ⟨v, s, n, l1, l2, l4, l5, hlen, hdlen, hsum, hsad, ?_, ?_⟩
  · intro q i hq
    have hlt := lt_of_getElem? hq
    have hi' := List.mem_of_getElem? hq
    rw [hw.linkers, hw.inv.lk, List.mem_range] at hi'
    have hst := List.getElem?_eq_getElem hi'
    have := congrArg (·[q]?) l9
    simp only [List.getElem?_map] at this
    change Option.map _ _ = Option.map _ m.linkers[q]? at this
    rw [hq, List.getElem?_eq_getElem (by omega), Option.map_some, Option.map_some, Option.some.injEq] at this
    simp only [Prod.mk.injEq] at this
    obtain ⟨e1, e2, e3, e4⟩ := this
    have hn : m.net.link i = (m.st.store[i].summit, m.st.store[i].saddle) := net_link hst
    refine ⟨_, _, hst, List.getElem?_eq_getElem (by omega), e1, e2, sumAt _ _ ?_, sadAt _ _ ?_⟩
    · rw [e3]
      change some (ids.sum (m.net.link i).1) = _
      rw [hn]
    · rw [e4]
      change some (ids.sad (m.net.link i).2) = _
      rw [hn]
  · intro q D hq
    have hlt := lt_of_getElem? hq
    have hD := List.mem_of_getElem? hq
    rw [hw.domains] at hD
    obtain ⟨l, hl, hlD⟩ := (hw.inv.doms.2 D).1 hD
    obtain ⟨sf, _, e0, _⟩ := hw.inv.links l hl
    rw [hlD] at e0
    have hDlt : D < m0.summits.length := lt_of_getElem? e0
    have := congrArg (·[q]?) l10
    simp only [List.getElem?_map] at this
    change Option.map _ _ = Option.map _ m.domains[q]? at this
    rw [hq, List.getElem?_eq_getElem (by omega), Option.map_some, Option.map_some, Option.some.injEq] at this
    simp only [Prod.mk.injEq] at this
    obtain ⟨e1, e2, e3⟩ := this
    have hp : m.domPoints D = some (m.st.w.points D) := by rw [hw.points, if_pos hDlt]
    refine ⟨_, _, List.getElem?_eq_getElem (by omega), sumAt _ _ e1, hp, ?_, ?_⟩
    · rw [e3]
      change ((m.domPoints D).getD []).map MPt.ofPt = _
      rw [hp]
      rfl
    · change _ = List.map (fun k => some (ids.sad k)) (m.st.domSaddles D) at e2
      rw [show (m.st.store.filter fun l => decide (l.summit = D)).map (fun l => some l.saddle) =
        (m.st.domSaddles D).map some by rw [hw.inv.dsad D, List.map_map]; rfl]
      clear * - e2 sadAt
      generalize s.domains[q].saddles = L at e2
      generalize m.st.domSaddles D = K at e2
      induction L generalizing K with
      | nil => cases K with
        | nil => rfl
        | cons _ _ => cases e2
      | cons x L ih => cases K with
        | nil => cases e2
        | cons k K =>
          simp only [List.map_cons, List.cons.injEq] at e2 ⊢
          exact ⟨sadAt _ _ e2.1, ih K e2.2⟩

/-- No two linkers of the map compare equal (`Linker.__eq__`: location and elevation of both ends). -/
def Spec.LinkersDiffer (m : DMap) : Prop :=
  ∀ (i j : Nat) (l l' : LinkRec) (sf sf' : Feature) (ob ob' : SObj), i ≠ j → m.st.store[i]? = some l → m.st.store[j]? = some l' →
    m.summits[l.summit]? = some sf → m.summits[l'.summit]? = some sf' →
    m.st.objs[l.saddle]? = some ob → m.st.objs[l'.saddle]? = some ob' →
    ¬ (seEq sf.lat sf.lon sf.elevation sf'.lat sf'.lon sf'.elevation = true ∧
       seEq ob.f.lat ob.f.lon ob.f.elevation ob'.f.lat ob'.f.lon ob'.f.elevation = true)

/-- In a walked map without equal linkers, each feature lists exactly its linkers, once. -/
theorem links_listed {E : SaddleEnv} {sites : List Pt} {m0 m : DMap} {news : List (List Nat)}
    (hw : WalkedMap E sites m0 m news) (hL : LInv m.st) (hd : LinkersDiffer m) :
    (∀ D, (m.st.sumLinks D).Nodup ∧ ∀ i, i ∈ m.st.sumLinks D ↔ ∃ l, m.st.store[i]? = some l ∧ l.summit = D) ∧
    ∀ k, (m.st.sadLinks k).Nodup ∧ ∀ i, i ∈ m.st.sadLinks k ↔ ∃ l, m.st.store[i]? = some l ∧ l.saddle = k := by
  have key : ∀ (L : List Nat) (i : Nat) (l : LinkRec), m.st.store[i]? = some l →
      linkIn { E with summits := m0.summits } m.st l L = true → i ∈ L := by
    intro L i l hl hin
    unfold linkIn at hin
    rw [List.any_eq_true] at hin
    obtain ⟨j, hj, hin⟩ := hin
    cases hl' : m.st.store[j]? with
    | none => rw [hl'] at hin; simp at hin
    | some l' =>
      rw [hl'] at hin
      simp only at hin
      obtain ⟨sf, ob, e1, e2, _⟩ := hw.inv.links l (List.mem_of_getElem? hl)
      obtain ⟨sf', ob', e1', e2', _⟩ := hw.inv.links l' (List.mem_of_getElem? hl')
      unfold linkEq at hin
      rw [e1, e1', e2, e2'] at hin
      simp only [Bool.and_eq_true] at hin
      by_cases hji : j = i
      · exact hji ▸ hj
      · exact absurd hin (hd j i l' l sf' sf ob' ob hji hl' hl (by rw [hw.summits]; exact e1')
          (by rw [hw.summits]; exact e1) e2' e2)
  refine ⟨fun D => ⟨(hL.once.nodup D).1, fun i => ⟨fun hi => hw.inv.sum D i hi, ?_⟩⟩,
    fun k => ⟨(hL.once.nodup k).2, fun i => ⟨fun hi => hw.inv.sad k i hi, ?_⟩⟩⟩
  · rintro ⟨l, hl, rfl⟩
    exact key _ i l hl (hw.inv.ends l (List.mem_of_getElem? hl)).1
  · rintro ⟨l, hl, rfl⟩
    exact key _ i l hl (hw.inv.ends l (List.mem_of_getElem? hl)).2

/-- C76, the lists of linkers. Missing as for `C76_run_saved_partial`, and maps with linkers that compare equal. In all
others, every summit and every saddle of the run lists exactly its linkers, and after loading it lists them again in the
same order (for a runoff listed several times: its last copy). -/
theorem C76_links_partial (E : SaddleEnv) (hE : RunOk E) (o : Pt → Oracle) (order : List Pt)
    (ho : IsScan E.d order) (rebuild : Bool) :
    ∃ D m, analyze E.d o order = .ok D ∧ DMap.runSparse E o order rebuild = .ok m ∧
      ((rebuild = false ∨ ∀ f ∈ D.saddles, f.edge = false) → LinkersDiffer m →
        ∀ (ids : ObjIds), ids.Distinct → ∀ f, RunFlags E o order rebuild m f → ∀ fp,
        ∃ v s n, (m.toL E.d f ids).toDict fp = .ok v ∧ LState.fromDict v.cbor fp = .ok (s, n) ∧
          (∀ D < m.summits.length, ∃ t, s.summits[D]? = some t ∧
            linkIds s t.links = ((m.st.sumLinks D).map fun i => some (ids.link i)) ∧
            ∀ i, i ∈ m.st.sumLinks D ↔ ∃ l, m.st.store[i]? = some l ∧ l.summit = D) ∧
          (∀ (P : Nat) k, (m.saddles ++ m.runoffs)[P]? = some k → (∀ Q, P < Q → (m.saddles ++ m.runoffs)[Q]? ≠ some k) →
            ∃ t, s.saddles[P]? = some t ∧ linkIds s t.links = ((m.st.sadLinks k).map fun i => some (ids.link i)) ∧
            ∀ i, i ∈ m.st.sadLinks k ↔ ∃ l, m.st.store[i]? = some l ∧ l.saddle = k)) := by
  obtain ⟨D, m, h1, h2, ⟨sites, m0, news, hw⟩, h3⟩ := run_closed hE o order ho rebuild
  obtain ⟨a1, a2, _, _, _, _, hL⟩ := run_areas hE o order ho rebuild h2
  refine ⟨D, m, h1, h2, fun he hd ids hi f hf fp => ?_⟩
  obtain ⟨c1, c2⟩ := h3 he ids hi
  have hc : Spec.Closed (m.toL E.d f ids) := by
    rcases hf with rfl | ⟨fuel, hr⟩
    · exact c1
    · exact (c2 fuel f hr).1
  obtain ⟨g1, g2⟩ := links_listed hw hL hd
  have hmem : ∀ i, i ∈ m.linkers ↔ i < m.st.store.length := by
    intro i
    rw [hw.linkers, hw.inv.lk, List.mem_range]
  have hnd : m.linkers.Nodup := by
    rw [hw.linkers, hw.inv.lk]
    exact List.nodup_range
  have hlc : LinksConsistent (m.toL E.d f ids) := by
    constructor
    · intro D _
      refine (List.perm_ext_iff_of_nodup (g1 D).1 (hnd.filter _)).2 fun i => ?_
      rw [List.mem_filter, decide_eq_true_iff]
      change i ∈ m.st.sumLinks D ↔ i ∈ m.linkers ∧ (m.net.link i).1 = D
      rw [(g1 D).2 i, hmem]
      constructor
      · rintro ⟨l, hl, rfl⟩
        exact ⟨lt_of_getElem? hl, by rw [net_link hl]⟩
      · rintro ⟨hlt, e⟩
        have hl := List.getElem?_eq_getElem hlt
        rw [net_link hl] at e
        exact ⟨_, hl, e⟩
    · intro k _
      refine (List.perm_ext_iff_of_nodup (g2 k).1 (hnd.filter _)).2 fun i => ?_
      rw [List.mem_filter, decide_eq_true_iff]
      change i ∈ m.st.sadLinks k ↔ i ∈ m.linkers ∧ (m.net.link i).2 = k
      rw [(g2 k).2 i, hmem]
      constructor
      · rintro ⟨l, hl, rfl⟩
        exact ⟨lt_of_getElem? hl, by rw [net_link hl]⟩
      · rintro ⟨hlt, e⟩
        have hl := List.getElem?_eq_getElem hlt
        rw [net_link hl] at e
        exact ⟨_, hl, e⟩
  have hnp : NoParallel (m.toL E.d f ids) := by
    refine hnd.imp_of_mem fun {i j} hi' hj' hne => ?_
    replace hi' := (hmem i).1 hi'
    replace hj' := (hmem j).1 hj'
    have hl := List.getElem?_eq_getElem hi'
    have hl' := List.getElem?_eq_getElem hj'
    obtain ⟨sf, ob, e1, e2, _⟩ := hw.inv.links _ (List.getElem_mem hi')
    obtain ⟨sf', ob', e1', e2', _⟩ := hw.inv.links _ (List.getElem_mem hj')
    rw [← hw.summits] at e1 e1'
    have := hd i j _ _ sf sf' ob ob' hne hl hl' e1 e1' e2 e2'
    change ¬ ((m.lSummit E.d ids (m.net.link i).1 (m.summits[(m.net.link i).1]?.getD .blank)).eq
        (m.lSummit E.d ids (m.net.link j).1 (m.summits[(m.net.link j).1]?.getD .blank)) = true ∧
      (m.lSaddle E.d f ids (m.net.link i).2 (m.st.objs[(m.net.link i).2]?.getD { f := .blank })).eq
        (m.lSaddle E.d f ids (m.net.link j).2 (m.st.objs[(m.net.link j).2]?.getD { f := .blank })) = true)
    rw [net_link hl, net_link hl']
    dsimp only
    rw [e1, e1', e2, e2']
    exact this
  obtain ⟨v, s, n, b1, b2, b3, b4⟩ := C44_features_partial _ hc hlc hnp fp
  have hsorted : ∀ {L : List Nat} {p : Nat → Bool}, L.Pairwise (· < ·) → L.Perm (m.linkers.filter p) →
      L = m.linkers.filter p := by
    intro L p h1 h2
    refine h2.eq_of_pairwise (le := (· < ·)) (fun a b _ _ h h' => absurd (Nat.lt_asymm h h') id) h1 ?_
    rw [hw.linkers, hw.inv.lk]
    exact List.pairwise_lt_range.filter _
  refine ⟨v, s, n, b1, b2, fun D hD => ?_, fun P k hP hQ => ?_⟩
  · obtain ⟨t, t1, _, t2⟩ := b3 D D (List.getElem?_range hD)
    refine ⟨t, t1, ?_, (g1 D).2⟩
    rw [t2]
    congr 1
    exact (hsorted (hL.once D).1.1 (hlc.summits D (List.mem_range.2 hD))).symm
  · obtain ⟨t, t1, _, t2⟩ := b4 P k hP hQ
    refine ⟨t, t1, ?_, (g2 k).2⟩
    rw [t2]
    congr 1
    exact (hsorted (hL.once k).2.1 (hlc.saddles k (List.mem_of_getElem? hP))).symm

/-- A finite check of `LinkersDiffer`. -/
def linkersDifferB (m : DMap) : Bool :=
  (List.range m.st.store.length).all fun i => (List.range m.st.store.length).all fun j =>
    i == j || match m.st.store[i]?, m.st.store[j]? with
    | some l, some l' =>
      match m.summits[l.summit]?, m.summits[l'.summit]?, m.st.objs[l.saddle]?, m.st.objs[l'.saddle]? with
      | some sf, some sf', some ob, some ob' =>
        !(seEq sf.lat sf.lon sf.elevation sf'.lat sf'.lon sf'.elevation &&
          seEq ob.f.lat ob.f.lon ob.f.elevation ob'.f.lat ob'.f.lon ob'.f.elevation)
      | _, _, _, _ => true
    | _, _ => true

theorem linkersDiffer_of_check {m : DMap} (h : linkersDifferB m = true) : LinkersDiffer m := by
  intro i j l l' sf sf' ob ob' hij hl hl' h1 h2 h3 h4 hh
  unfold linkersDifferB at h
  rw [List.all_eq_true] at h
  have := h i (List.mem_range.2 (lt_of_getElem? hl))
  rw [List.all_eq_true] at this
  have := this j (List.mem_range.2 (lt_of_getElem? hl'))
  rw [hl, hl'] at this
  simp only [h1, h2, h3, h4, hh.1, hh.2] at this
  simp [hij] at this

/-- Instance of `C76_links_partial`: a run with four or more linkers none of which compare equal; after loading each
summit lists as many linkers as before. -/
example : (exFull exCrater false 99).toOption.map (fun r => (linkersDifferB r.1, decide (4 ≤ r.1.st.store.length))) =
    some (true, true) := by decide +kernel

example : (rerun exCrater false).toOption.map (fun s => s.summits.map fun t => t.links.length) =
    (exFull exCrater false 99).toOption.map fun r => (List.range r.1.summits.length).map fun D => (r.1.st.sumLinks D).length := by
  decide +kernel

/-- C76, which linkers the features list after loading. Missing as for `C76_run_saved_partial`. Summit `D` lists, in order, the
linkers of the run that lead to it and of which no earlier one leads from it to a saddle that compares equal; a saddle lists
its linkers to summits of which none came before, in the same way (for a runoff listed several times: its last copy). -/
theorem C76_listed_partial (E : SaddleEnv) (hE : RunOk E) (o : Pt → Oracle) (order : List Pt)
    (ho : IsScan E.d order) (rebuild : Bool) :
    ∃ D m, analyze E.d o order = .ok D ∧ DMap.runSparse E o order rebuild = .ok m ∧
      ((rebuild = false ∨ ∀ f ∈ D.saddles, f.edge = false) →
        ∀ (ids : ObjIds), ids.Distinct → ∀ f, RunFlags E o order rebuild m f → ∀ fp,
        ∃ v s n, (m.toL E.d f ids).toDict fp = .ok v ∧ LState.fromDict v.cbor fp = .ok (s, n) ∧
          (∀ D < m.summits.length, ∃ t, s.summits[D]? = some t ∧ t.links.Pairwise (· < ·) ∧
            ∀ j, j ∈ t.links ↔ ∃ l, m.st.store[j]? = some l ∧ l.summit = D ∧
              ∀ j' < j, ∀ l', m.st.store[j']? = some l' → l'.summit = D → ∀ ob' ob, m.st.objs[l'.saddle]? = some ob' →
                m.st.objs[l.saddle]? = some ob →
                seEq ob'.f.lat ob'.f.lon ob'.f.elevation ob.f.lat ob.f.lon ob.f.elevation = false) ∧
          (∀ (P : Nat) k, (m.saddles ++ m.runoffs)[P]? = some k → (∀ Q, P < Q → (m.saddles ++ m.runoffs)[Q]? ≠ some k) →
            ∃ t, s.saddles[P]? = some t ∧ t.links.Pairwise (· < ·) ∧
            ∀ j, j ∈ t.links ↔ ∃ l, m.st.store[j]? = some l ∧ l.saddle = k ∧
              ∀ j' < j, ∀ l', m.st.store[j']? = some l' → l'.saddle = k → ∀ sf' sf, m.summits[l'.summit]? = some sf' →
                m.summits[l.summit]? = some sf →
                seEq sf'.lat sf'.lon sf'.elevation sf.lat sf.lon sf.elevation = false)) := by
  obtain ⟨D, m, h1, h2, ⟨sites, m0, news, hw⟩, h3⟩ := run_closed hE o order ho rebuild
  refine ⟨D, m, h1, h2, fun he ids hi f hf fp => ?_⟩
  obtain ⟨c1, c2⟩ := h3 he ids hi
  have hc : Spec.Closed (m.toL E.d f ids) := by
    rcases hf with rfl | ⟨fuel, hr⟩
    · exact c1
    · exact (c2 fuel f hr).1
  have hlk : m.linkers = List.range m.st.store.length := by rw [hw.linkers, hw.inv.lk]
  -- a linker of the run
  have hget : ∀ j i, m.linkers[j]? = some i ↔ j < m.st.store.length ∧ i = j := by
    intro j i
    rw [hlk]
    constructor
    · intro h
      have hlt := lt_of_getElem? h
      rw [List.length_range] at hlt
      rw [List.getElem?_range hlt] at h
      exact ⟨hlt, (Option.some.inj h).symm⟩
    · rintro ⟨h, rfl⟩
      rw [List.getElem?_range h]
  have hlink : ∀ (j : Nat) l, m.st.store[j]? = some l → ((m.toL E.d f ids).link j).summit = l.summit ∧
      ((m.toL E.d f ids).link j).saddle = l.saddle := by
    intro j l hl
    change (m.net.link j).1 = _ ∧ (m.net.link j).2 = _
    rw [net_link hl]
    exact ⟨rfl, rfl⟩
  have hsad : ∀ (k k' : Nat) ob ob', m.st.objs[k]? = some ob → m.st.objs[k']? = some ob' →
      ((m.toL E.d f ids).sad k).eq ((m.toL E.d f ids).sad k') =
        seEq ob.f.lat ob.f.lon ob.f.elevation ob'.f.lat ob'.f.lon ob'.f.elevation := by
    intro k k' ob ob' hk hk'
    change (m.lSaddle E.d f ids k (m.st.objs[k]?.getD { f := .blank })).eq
      (m.lSaddle E.d f ids k' (m.st.objs[k']?.getD { f := .blank })) = _
    rw [hk, hk']
    rfl
  have hsum : ∀ (k k' : Nat) sf sf', m.summits[k]? = some sf → m.summits[k']? = some sf' →
      ((m.toL E.d f ids).sum k).eq ((m.toL E.d f ids).sum k') =
        seEq sf.lat sf.lon sf.elevation sf'.lat sf'.lon sf'.elevation := by
    intro k k' sf sf' hk hk'
    change (m.lSummit E.d ids k (m.summits[k]?.getD .blank)).eq (m.lSummit E.d ids k' (m.summits[k']?.getD .blank)) = _
    rw [hk, hk']
    rfl
  obtain ⟨v, s, n, b1, b2, b3, b4⟩ := C44_listed _ hc fp
  refine ⟨v, s, n, b1, b2, fun D hD => ?_, fun P k hP hQ => ?_⟩
  · obtain ⟨t, t1, t2, t3⟩ := b3 D D (List.getElem?_range hD)
    refine ⟨t, t1, t2, fun j => (t3 j).trans ⟨?_, ?_⟩⟩
    · rintro ⟨i, e1, e2, e3⟩
      obtain ⟨hlt, rfl⟩ := (hget j i).1 e1
      have hl := List.getElem?_eq_getElem hlt
      refine ⟨_, hl, by rw [← (hlink _ _ hl).1]; exact e2, fun j' hj' l' hl' hD' ob' ob hob' hob => ?_⟩
      have := e3 j' hj' j' ((hget _ _).2 ⟨lt_of_getElem? hl', rfl⟩) (by rw [(hlink _ _ hl').1]; exact hD')
      rwa [(hlink _ _ hl').2, (hlink _ _ hl).2, hsad _ _ _ _ hob' hob] at this
    · rintro ⟨l, hl, e2, e3⟩
      refine ⟨j, (hget _ _).2 ⟨lt_of_getElem? hl, rfl⟩, by rw [(hlink _ _ hl).1]; exact e2, fun j' hj' i' hi' hD' => ?_⟩
      obtain ⟨hlt, rfl⟩ := (hget j' i').1 hi'
      have hl' := List.getElem?_eq_getElem hlt
      obtain ⟨_, ob, _, o2, _⟩ := hw.inv.links _ (List.mem_of_getElem? hl)
      obtain ⟨_, ob', _, o2', _⟩ := hw.inv.links _ (List.mem_of_getElem? hl')
      rw [(hlink _ _ hl').2, (hlink _ _ hl).2, hsad _ _ _ _ o2' o2]
      exact e3 _ hj' _ hl' (by rw [← (hlink _ _ hl').1]; exact hD') ob' ob o2' o2
  · obtain ⟨t, t1, t2, t3⟩ := b4 P k hP hQ
    refine ⟨t, t1, t2, fun j => (t3 j).trans ⟨?_, ?_⟩⟩
    · rintro ⟨i, e1, e2, e3⟩
      obtain ⟨hlt, rfl⟩ := (hget j i).1 e1
      have hl := List.getElem?_eq_getElem hlt
      refine ⟨_, hl, by rw [← (hlink _ _ hl).2]; exact e2, fun j' hj' l' hl' hD' ob' ob hob' hob => ?_⟩
      have := e3 j' hj' j' ((hget _ _).2 ⟨lt_of_getElem? hl', rfl⟩) (by rw [(hlink _ _ hl').2]; exact hD')
      rwa [(hlink _ _ hl').1, (hlink _ _ hl).1, hsum _ _ _ _ hob' hob] at this
    · rintro ⟨l, hl, e2, e3⟩
      refine ⟨j, (hget _ _).2 ⟨lt_of_getElem? hl, rfl⟩, by rw [(hlink _ _ hl).2]; exact e2, fun j' hj' i' hi' hD' => ?_⟩
      obtain ⟨hlt, rfl⟩ := (hget j' i').1 hi'
      have hl' := List.getElem?_eq_getElem hlt
      obtain ⟨sf, _, o2, _⟩ := hw.inv.links _ (List.mem_of_getElem? hl)
      obtain ⟨sf', _, o2', _⟩ := hw.inv.links _ (List.mem_of_getElem? hl')
      rw [← hw.summits] at o2 o2'
      rw [(hlink _ _ hl').1, (hlink _ _ hl).1, hsum _ _ _ _ o2' o2]
      exact e3 _ hj' _ hl' (by rw [← (hlink _ _ hl').2]; exact hD') sf' sf o2' o2

/-- C76 fails for every run with two linkers between the same saddle and summit: whether the saddle and the summit listed the
second or not, they do not list it after loading. -/
theorem C76_parallel_refuted (E : SaddleEnv) (hE : RunOk E) (o : Pt → Oracle) (order : List Pt)
    (ho : IsScan E.d order) (rebuild : Bool) :
    ∃ D m, analyze E.d o order = .ok D ∧ DMap.runSparse E o order rebuild = .ok m ∧
      ((rebuild = false ∨ ∀ f ∈ D.saddles, f.edge = false) →
        ∀ (i j : Nat) l, i < j → m.st.store[i]? = some l → m.st.store[j]? = some l →
        ∀ (ids : ObjIds), ids.Distinct → ∀ f, RunFlags E o order rebuild m f → ∀ fp,
        ∃ v s n, (m.toL E.d f ids).toDict fp = .ok v ∧ LState.fromDict v.cbor fp = .ok (s, n) ∧
          (∃ t, s.summits[l.summit]? = some t ∧ j ∉ t.links) ∧
          ∀ (P : Nat), (m.saddles ++ m.runoffs)[P]? = some l.saddle →
            (∀ Q, P < Q → (m.saddles ++ m.runoffs)[Q]? ≠ some l.saddle) → ∃ t, s.saddles[P]? = some t ∧ j ∉ t.links) := by
  obtain ⟨D, m, h1, h2, h3⟩ := C76_listed_partial E hE o order ho rebuild
  obtain ⟨_, _, sites, m0, news, hw, _⟩ := run_areas hE o order ho rebuild h2
  refine ⟨D, m, h1, h2, fun he i j l hij hi hj ids hid f hf fp => ?_⟩
  obtain ⟨v, s, n, b1, b2, b3, b4⟩ := h3 he ids hid f hf fp
  obtain ⟨sf, ob, o1, o2, _⟩ := hw.inv.links l (List.mem_of_getElem? hi)
  rw [← hw.summits] at o1
  have hself : ∀ g : Feature, seEq g.lat g.lon g.elevation g.lat g.lon g.elevation = true := fun g => by simp [seEq]
  refine ⟨v, s, n, b1, b2, ?_, fun P hP hQ => ?_⟩
  · obtain ⟨t, t1, _, t3⟩ := b3 _ (lt_of_getElem? o1)
    refine ⟨t, t1, fun hc => ?_⟩
    obtain ⟨l', e1, _, e3⟩ := (t3 j).1 hc
    rw [hj] at e1
    cases e1
    have := e3 i hij l hi rfl ob ob o2 o2
    rw [hself] at this
    cases this
  · obtain ⟨t, t1, _, t3⟩ := b4 P _ hP hQ
    refine ⟨t, t1, fun hc => ?_⟩
    obtain ⟨l', e1, _, e3⟩ := (t3 j).1 hc
    rw [hj] at e1
    cases e1
    have := e3 i hij l hi rfl sf sf o1 o1
    rw [hself] at this
    cases this

/-- A ring with one summit. -/
def exLoop : List (List Rat) := [[0, 0, 0, 0, 0], [0, 9, 8, 7, 0], [0, 8, 1, 6, 0], [0, 7, 5, 6, 0], [0, 0, 0, 0, 0]]

/-- Instance of C76_parallel: both linkers of the saddle lead to the summit and are listed; after loading only the first is. -/
example : (exFull exLoop false 99).toOption.map (fun r => (r.1.st.store.map fun l => (l.summit, l.saddle),
    r.1.saddles.map r.1.st.sadLinks, r.1.st.sumLinks 0)) = some ([(0, 5), (0, 5)], [[0, 1]], [0, 1]) := by decide +kernel

example : (rerun exLoop false).toOption.map (fun s => ((s.saddles.take 1).map (·.links), s.summits.map (·.links))) =
    some ([[0]], [[0]]) := by decide +kernel

/-- Linkers that compare equal join the same summit and the same saddle. -/
def Spec.EqualSame (m : DMap) : Prop :=
  ∀ (i j : Nat) (l l' : LinkRec) (sf sf' : Feature) (ob ob' : SObj), m.st.store[i]? = some l → m.st.store[j]? = some l' →
    m.summits[l.summit]? = some sf → m.summits[l'.summit]? = some sf' →
    m.st.objs[l.saddle]? = some ob → m.st.objs[l'.saddle]? = some ob' →
    seEq sf.lat sf.lon sf.elevation sf'.lat sf'.lon sf'.elevation = true →
    seEq ob.f.lat ob.f.lon ob.f.elevation ob'.f.lat ob'.f.lon ob'.f.elevation = true → l = l'

theorem LinkersDiffer.same {m : DMap} (h : LinkersDiffer m) : EqualSame m := by
  intro i j l l' sf sf' ob ob' hi hj h1 h2 h3 h4 h5 h6
  by_cases hij : i = j
  · subst hij
    rw [hi] at hj
    exact Option.some.inj hj
  · exact absurd ⟨h5, h6⟩ (h i j l l' sf sf' ob ob' hij hi hj h1 h2 h3 h4)

/-- The linker is the first between its summit and its saddle. -/
def DMap.firstLink (m : DMap) (i : Nat) : Bool := (List.range i).all fun j => decide (m.st.store[j]? ≠ m.st.store[i]?)

theorem firstLink_iff {m : DMap} {i : Nat} : m.firstLink i = true ↔ ∀ j < i, m.st.store[j]? ≠ m.st.store[i]? := by
  unfold DMap.firstLink
  simp only [List.all_eq_true, List.mem_range, decide_eq_true_eq]

/-- Every linker has a first one. -/
theorem exists_first {m : DMap} : ∀ (i : Nat) (l : LinkRec), m.st.store[i]? = some l →
    ∃ j ≤ i, m.st.store[j]? = some l ∧ m.firstLink j = true := by
  intro i
  induction i using Nat.strongRecOn with
  | _ i ih =>
    intro l hl
    by_cases hf : m.firstLink i = true
    · exact ⟨i, Nat.le_refl _, hl, hf⟩
    · rw [firstLink_iff] at hf
      push Not at hf
      obtain ⟨j, hj, e⟩ := hf
      obtain ⟨j', h1, h2, h3⟩ := ih j hj l (e.trans hl)
      exact ⟨j', by omega, h2, h3⟩

theorem run_first {E : SaddleEnv} (hE : RunOk E) (o : Pt → Oracle) (order : List Pt) (ho : IsScan E.d order)
    (rebuild : Bool) {m : DMap} (hm : DMap.runSparse E o order rebuild = .ok m) (hq : EqualSame m) : FirstListed m.st := by
  obtain ⟨D, corners, m0, m', sites, news, h1, h2, h3, h4, h5, h6, h7, h8, h9⟩ := run_spec hE o order ho rebuild
  cases (h8.symm.trans hm : Except.ok _ = Except.ok _)
  have hw : m0.walk E [] = .ok (m, none) := by
    obtain ⟨m1, _, w1, _⟩ := walk_spec hE h4
    have h8' := h8
    unfold DMap.runSparse at h8'
    rw [h3] at h8'
    dsimp only [bind, Except.bind] at h8'
    rw [w1] at h8'
    cases h8'
    exact w1
  refine walk_first h4 hw ⟨fun a ha b hb he => ?_, fun a ha => ?_⟩
  · obtain ⟨i, hi⟩ := List.mem_iff_getElem?.1 ha
    obtain ⟨j, hj⟩ := List.mem_iff_getElem?.1 hb
    obtain ⟨sf, ob, e1, e2, _⟩ := h9.inv.links a ha
    obtain ⟨sf', ob', e1', e2', _⟩ := h9.inv.links b hb
    unfold linkEq at he
    rw [e1, e1', e2, e2'] at he
    simp only [Bool.and_eq_true] at he
    rw [← h9.summits] at e1 e1'
    exact hq i j a b sf sf' ob ob' hi hj e1 e1' e2 e2' he.1 he.2
  · obtain ⟨sf, _, e1, _⟩ := h9.inv.links a ha
    exact ⟨sf, e1⟩

/-- C76, the lists of linkers when equal linkers join the same objects: after loading, summits and saddles list the linkers
they listed before, but of several between the same summit and saddle the first only. -/
theorem C76_once_partial (E : SaddleEnv) (hE : RunOk E) (o : Pt → Oracle) (order : List Pt)
    (ho : IsScan E.d order) (rebuild : Bool) :
    ∃ D m, analyze E.d o order = .ok D ∧ DMap.runSparse E o order rebuild = .ok m ∧
      ((rebuild = false ∨ ∀ f ∈ D.saddles, f.edge = false) → EqualSame m →
        ∀ (ids : ObjIds), ids.Distinct → ∀ f, RunFlags E o order rebuild m f → ∀ fp,
        ∃ v s n, (m.toL E.d f ids).toDict fp = .ok v ∧ LState.fromDict v.cbor fp = .ok (s, n) ∧
          (∀ D < m.summits.length, ∃ t, s.summits[D]? = some t ∧ t.links = (m.st.sumLinks D).filter m.firstLink) ∧
          (∀ (P : Nat) k, (m.saddles ++ m.runoffs)[P]? = some k → (∀ Q, P < Q → (m.saddles ++ m.runoffs)[Q]? ≠ some k) →
            ∃ t, s.saddles[P]? = some t ∧ t.links = (m.st.sadLinks k).filter m.firstLink)) := by
  obtain ⟨D, m, h1, h2, h3⟩ := C76_listed_partial E hE o order ho rebuild
  obtain ⟨_, _, sites, m0, news, hw, hL⟩ := run_areas hE o order ho rebuild h2
  refine ⟨D, m, h1, h2, fun he hq ids hid f hf fp => ?_⟩
  obtain ⟨v, s, n, b1, b2, b3, b4⟩ := h3 he ids hid f hf fp
  have hF := run_first hE o order ho rebuild h2 hq
  have hself : ∀ g : Feature, seEq g.lat g.lon g.elevation g.lat g.lon g.elevation = true := fun g => by simp [seEq]
  have hlisted : ∀ (i : Nat) l, m.st.store[i]? = some l → m.firstLink i = true → i ∈ m.st.sumLinks l.summit := by
    intro i l hl hf
    by_contra hc
    obtain ⟨j, hj, e⟩ := hF.first i l hl hc
    exact firstLink_iff.1 hf j hj (e.trans hl.symm)
  have hsort : ∀ {L K : List Nat}, L.Pairwise (· < ·) → K.Pairwise (· < ·) → (∀ j, j ∈ L ↔ j ∈ K) → L = K := by
    intro L K hL hK hm
    refine List.Perm.eq_of_pairwise (le := (· < ·)) (fun a b _ _ h h' => absurd (Nat.lt_asymm h h') id) hL hK ?_
    exact (List.perm_ext_iff_of_nodup (hL.imp (S := (· ≠ ·)) fun h => Nat.ne_of_lt h)
      (hK.imp (S := (· ≠ ·)) fun h => Nat.ne_of_lt h)).2 hm
  refine ⟨v, s, n, b1, b2, fun D hD => ?_, fun P k hP hQ => ?_⟩
  · obtain ⟨t, t1, t2, t3⟩ := b3 D hD
    refine ⟨t, t1, hsort t2 ((hL.once D).1.1.filter _) fun j => ?_⟩
    rw [t3, List.mem_filter]
    constructor
    · rintro ⟨l, hl, rfl, hfirst⟩
      have hf : m.firstLink j = true := by
        rw [firstLink_iff]
        intro j' hj' e
        obtain ⟨_, ob, _, o2, _⟩ := hw.inv.links l (List.mem_of_getElem? hl)
        have := hfirst j' hj' l (e.trans hl) rfl ob ob o2 o2
        rw [hself] at this
        cases this
      exact ⟨hlisted j l hl hf, hf⟩
    · rintro ⟨hj, hf⟩
      obtain ⟨l, hl, hlD⟩ := hw.inv.sum D j hj
      refine ⟨l, hl, hlD, fun j' hj' l' hl' hD' ob' ob hob' hob => ?_⟩
      by_contra hc
      have hc := eq_true_of_ne_false hc
      obtain ⟨sf, _, o1, _⟩ := hw.inv.links l (List.mem_of_getElem? hl)
      rw [← hw.summits] at o1
      have : l' = l := hq j' j l' l sf sf ob' ob hl' hl (by rw [hD', ← hlD]; exact o1) o1 hob' hob (hself sf) hc
      exact firstLink_iff.1 hf j' hj' (by rw [hl', hl, this])
  · obtain ⟨t, t1, t2, t3⟩ := b4 P k hP hQ
    refine ⟨t, t1, hsort t2 ((hL.once k).2.1.filter _) fun j => ?_⟩
    rw [t3, List.mem_filter]
    constructor
    · rintro ⟨l, hl, rfl, hfirst⟩
      have hf : m.firstLink j = true := by
        rw [firstLink_iff]
        intro j' hj' e
        obtain ⟨sf, _, o1, _⟩ := hw.inv.links l (List.mem_of_getElem? hl)
        rw [← hw.summits] at o1
        have := hfirst j' hj' l (e.trans hl) rfl sf sf o1 o1
        rw [hself] at this
        cases this
      exact ⟨(hF.both j l hl).1 (hlisted j l hl hf), hf⟩
    · rintro ⟨hj, hf⟩
      obtain ⟨l, hl, hlk⟩ := hw.inv.sad k j hj
      refine ⟨l, hl, hlk, fun j' hj' l' hl' hk' sf' sf hsf' hsf => ?_⟩
      by_contra hc
      have hc := eq_true_of_ne_false hc
      obtain ⟨_, ob, _, o2, _⟩ := hw.inv.links l (List.mem_of_getElem? hl)
      have : l' = l := hq j' j l' l sf' sf ob ob hl' hl hsf' hsf (by rw [hk', ← hlk]; exact o2) o2 hc (hself ob.f)
      exact firstLink_iff.1 hf j' hj' (by rw [hl', hl, this])

/-- A finite check of `EqualSame`. -/
def equalSameB (m : DMap) : Bool :=
  (List.range m.st.store.length).all fun i => (List.range m.st.store.length).all fun j =>
    match m.st.store[i]?, m.st.store[j]? with
    | some l, some l' =>
      decide (l = l') || match m.summits[l.summit]?, m.summits[l'.summit]?, m.st.objs[l.saddle]?, m.st.objs[l'.saddle]? with
      | some sf, some sf', some ob, some ob' =>
        !(seEq sf.lat sf.lon sf.elevation sf'.lat sf'.lon sf'.elevation &&
          seEq ob.f.lat ob.f.lon ob.f.elevation ob'.f.lat ob'.f.lon ob'.f.elevation)
      | _, _, _, _ => true
    | _, _ => true

theorem equalSame_of_check {m : DMap} (h : equalSameB m = true) : EqualSame m := by
  intro i j l l' sf sf' ob ob' hl hl' h1 h2 h3 h4 h5 h6
  unfold equalSameB at h
  rw [List.all_eq_true] at h
  have := h i (List.mem_range.2 (lt_of_getElem? hl))
  rw [List.all_eq_true] at this
  have := this j (List.mem_range.2 (lt_of_getElem? hl'))
  rw [hl, hl'] at this
  simp only [h1, h2, h3, h4, h5, h6] at this
  simpa using this

/-- Instance of C76_once: the hypothesis holds for the ring, where linkers are not all different. -/
example : (exFull exLoop false 99).toOption.map (fun r => (equalSameB r.1, linkersDifferB r.1)) = some (true, false) := by
  decide +kernel

end PyProm
