import Verif.Spec.DrawingSaved
import Verif.Props.Drawing
import Verif.Props.Purged

/-
C115: the drawing of a loaded map is the drawing of the map that was saved
-/
namespace PyProm
open Spec

/-! ### The writer does not see which objects it is given -/

/-- A writer does the same with the leaves. -/
def SameLeaf (w w' : Wkt) (l l' : KLeaf) : Prop := ∀ s : KmlSt, s.appendLeaf w l = s.appendLeaf w' l'

theorem sameLeaves {w w' : Wkt} {ls ls' : List KLeaf} (h : List.Forall₂ (SameLeaf w w') ls ls') (s : KmlSt) :
    s.extendLeaves w ls = s.extendLeaves w' ls' := by
  induction h generalizing s with
  | nil => rfl
  | cons h _ ih =>
    unfold KmlSt.extendLeaves
    rw [h s]
    split
    · exact ih _
    · rfl

theorem extendLeaves_append {w : Wkt} (a b : List KLeaf) {s s1 : KmlSt} (h : s.extendLeaves w a = (s1, true)) :
    s.extendLeaves w (a ++ b) = s1.extendLeaves w b := by
  induction a generalizing s with
  | nil => cases h; rfl
  | cons l a ih =>
    rw [List.cons_append]
    unfold KmlSt.extendLeaves at h
    conv_lhs => unfold KmlSt.extendLeaves
    cases hl : s.appendLeaf w l with
    | mk s2 b2 =>
      rw [hl] at h
      cases b2 with
      | true => exact ih h
      | false => cases h

theorem extendLeaves_domains {w : Wkt} {α : Type} (id : α → Nat) (top : α → KSpot) (ds : List α) (s : KmlSt) :
    s.extendLeaves w (ds.map fun i => .domain (id i) (top i)) =
      ({ s with domains := s.domains ++ ds.map fun i => ⟨none, w.area (id i), (top i).ele⟩ }, true) := by
  induction ds generalizing s with
  | nil => simp [KmlSt.extendLeaves]
  | cons i ds ih =>
    rw [List.map_cons]
    unfold KmlSt.extendLeaves
    dsimp only [KmlSt.appendLeaf]
    rw [ih]
    simp

theorem document_perm {s : KmlSt} {ds ds' : List Placemark} (h : ds'.Perm ds) :
    SameDrawing { s with domains := ds }.document { s with domains := ds' }.document := by
  refine ⟨rfl, ?_⟩
  have split : ∀ l : List Placemark, ({ s with domains := l } : KmlSt).document.folders =
      [("Saddles".toList, s.saddles), ("Summits".toList, s.summits), ("SpotElevations".toList, s.spots),
        ("Runoffs".toList, s.runoffs), ("Linkers".toList, s.linkers)].filter (fun f => !f.2.isEmpty) ++
      [("SummitDomains".toList, l)].filter (fun f => !f.2.isEmpty) := by
    intro l
    rw [← List.filter_append]
    rfl
  rw [split, split]
  refine List.rel_append (List.forall₂_same.2 fun _ _ => ⟨rfl, .inl rfl⟩) ?_
  by_cases hd : ds = []
  · subst hd
    rw [h.eq_nil]
    exact .nil
  · have hd' : ds' ≠ [] := fun e => hd (by subst e; exact h.symm.eq_nil)
    rw [List.filter_cons_of_pos (by simpa using hd), List.filter_cons_of_pos (by simpa using hd')]
    exact .cons ⟨rfl, .inr ⟨rfl, h⟩⟩ .nil

/-- Two drawings agree if their leaves do, one by one, and the domains are the same in some order. -/
theorem drawn_same {w w' : Wkt} {li sa su ru li' sa' su' ru' : List KLeaf} {ds ds' : List (Nat × KSpot)}
    (h1 : List.Forall₂ (SameLeaf w w') li li') (h2 : List.Forall₂ (SameLeaf w w') sa sa')
    (h3 : List.Forall₂ (SameLeaf w w') su su') (h4 : List.Forall₂ (SameLeaf w w') ru ru')
    (h5 : (ds'.map fun d => (w'.area d.1, d.2.ele)).Perm (ds.map fun d => (w.area d.1, d.2.ele)))
    (hok : KLeaf.other ∉ li ++ sa ++ su ++ ru) :
    ∃ k k', ({} : KmlSt).extend w [.map li sa su ru (ds.map fun d => .domain d.1 d.2)] = (k, true) ∧
      ({} : KmlSt).extend w' [.map li' sa' su' ru' (ds'.map fun d => .domain d.1 d.2)] = (k', true) ∧
      SameDrawing k.document k'.document := by
  obtain ⟨s, hs⟩ := extendLeaves_ok w (li ++ sa ++ su ++ ru) {} hok
  have hs' : ({} : KmlSt).extendLeaves w' (li' ++ sa' ++ su' ++ ru') = (s, true) :=
    (sameLeaves (List.rel_append (List.rel_append (List.rel_append h1 h2) h3) h4) {}).symm.trans hs
  refine ⟨_, _, ?_, ?_, document_perm (s := s) (ds := s.domains ++ ds.map fun i => ⟨none, w.area i.1, i.2.ele⟩)
    (ds' := s.domains ++ ds'.map fun i => ⟨none, w'.area i.1, i.2.ele⟩) (List.Perm.append_left _ ?_)⟩
  · unfold KmlSt.extend KmlSt.append
    dsimp only
    rw [extendLeaves_append _ _ hs, extendLeaves_domains]
    rfl
  · unfold KmlSt.extend KmlSt.append
    dsimp only
    rw [extendLeaves_append _ _ hs', extendLeaves_domains]
    rfl
  · have := h5.map fun p : List Char × Rat => (⟨none, p.1, p.2⟩ : Placemark)
    simpa [List.map_map, Function.comp_def] using this

/-! ### Loaded maps -/

variable {m : LMap}

theorem posOf_summit (h : Spec.Closed m) {D : Nat} (hD : D ∈ m.summits) :
    m.summits[posOf (m.summits.map m.sumId) (m.sumId D)]? = some D := by
  have := posOf_get (List.mem_map_of_mem (f := m.sumId) hD)
  rw [List.getElem?_map, Option.map_eq_some_iff] at this
  obtain ⟨D', h1, h2⟩ := this
  rw [h1, List.inj_on_of_nodup_map h.summitIds (List.mem_of_getElem? h1) hD h2]

theorem posOf_saddle (h : Spec.Closed m) {k : Nat} (hk : k ∈ m.saddles ++ m.runoffs) :
    (m.saddles ++ m.runoffs)[posOf ((m.saddles ++ m.runoffs).map m.sadId) (m.sadId k)]? = some k := by
  have := posOf_get (List.mem_map_of_mem (f := m.sadId) hk)
  rw [List.getElem?_map, Option.map_eq_some_iff] at this
  obtain ⟨k', h1, h2⟩ := this
  rw [h1, h.sameId k' (List.mem_of_getElem? h1) k hk h2]

theorem loaded_summit_drawn {n : Nat} {ds : List Nat} {P D : Nat} (h : m.summits[P]? = some D) :
    ∃ t, (m.loaded.toMap n ds).sum P = t ∧ t.lat = (m.sum D).lat ∧ t.lon = (m.sum D).lon ∧ t.ele = (m.sum D).ele := by
  refine ⟨_, rfl, ?_⟩
  unfold LState.toMap
  dsimp only
  rw [loaded_summit_get, h]
  exact ⟨rfl, rfl, rfl⟩

theorem loaded_saddle_drawn {n : Nat} {ds : List Nat} {P k : Nat} (h : (m.saddles ++ m.runoffs)[P]? = some k)
    (hf : P < m.saddles.length → (m.sad k).over = some false → (m.sad k).single = false ∧ (m.sad k).basin = false) :
    ∃ t, (m.loaded.toMap n ds).sad P = t ∧ t.lat = (m.sad k).lat ∧ t.lon = (m.sad k).lon ∧ t.ele = (m.sad k).ele ∧
      t.runoff = decide (m.saddles.length ≤ P) ∧ (P < m.saddles.length → t.disqualified = (m.sad k).disqualified) := by
  refine ⟨_, rfl, ?_⟩
  unfold LState.toMap
  dsimp only
  rw [loaded_saddle_get m P k h]
  by_cases hP : P < m.saddles.length
  · rw [if_pos hP]
    refine ⟨rfl, rfl, rfl, (decide_eq_false (by omega)).symm, fun _ => ?_⟩
    have e1 : ((m.loadedSaddle m.saddles k)).over = (if (m.sad k).over = some true then some true else none) := rfl
    have e2 : ((m.loadedSaddle m.saddles k)).single = (m.sad k).single := rfl
    have e3 : ((m.loadedSaddle m.saddles k)).basin = (m.sad k).basin := rfl
    unfold LSaddle.disqualified
    simp only [Option.getD_some, e1, e2, e3]
    cases hov : (m.sad k).over with
    | none => rfl
    | some b =>
      cases b with
      | true => rfl
      | false => simp [hf hP hov]
  · rw [if_neg hP]
    exact ⟨rfl, rfl, rfl, (decide_eq_true (by omega)).symm, fun h => absurd h hP⟩

theorem forall₂_range {α β γ : Type} {R : β → γ → Prop} {f : α → β} {g : Nat → γ} (l : List α)
    (h : ∀ (i : Nat) a, l[i]? = some a → R (f a) (g i)) : List.Forall₂ R (l.map f) ((List.range l.length).map g) := by
  rw [List.forall₂_iff_get]
  refine ⟨by simp, fun i h1 h2 => ?_⟩
  simp only [List.get_eq_getElem, List.getElem_map, List.getElem_range]
  exact h i _ (List.getElem?_eq_getElem _)

/-- C115 for maps in general. Missing: maps out of which something refers to objects that are not in a container, which in
general cannot be loaded (`C45_load_partial`), and saddles that were declared not disqualified though they are flagged
(`C115_flag_refuted`). A writer draws the loaded map as it draws the saved one, in whatever order the set of domains is. -/
theorem C115_loaded_partial (m : LMap) (h : Spec.Closed m) (hs : ∀ k ∈ m.saddles, (m.sad k).runoff = false)
    (hr : ∀ k ∈ m.runoffs, (m.sad k).runoff = true)
    (hf : ∀ k ∈ m.saddles, (m.sad k).over = some false → (m.sad k).single = false ∧ (m.sad k).basin = false) (fp : Fingerprint) :
    ∃ v s n, m.toDict fp = .ok v ∧ LState.fromDict v.cbor fp = .ok (s, n) ∧
      ∀ ds : List Nat, ds.Perm (List.range s.domains.length) → ∀ (w : Wkt) (area : List MPt → List Char),
        ∃ k k', ({} : KmlSt).extend (m.texts w area) [m.drawing] = (k, true) ∧
          ({} : KmlSt).extend ((s.toMap n ds).texts w area) [(s.toMap n ds).drawing] = (k', true) ∧
          SameDrawing k.document k'.document := by
  obtain ⟨v, h1, h2, _⟩ := m.load h.loads fp
  refine ⟨v, _, _, h1, h2, fun ds hds w area => ?_⟩
  have lsum : m.loaded.summits.length = m.summits.length := by simp [LMap.loaded, domState, linkState, LMap.baseSummits]
  have lsad : m.loaded.saddles.length = m.saddles.length + m.runoffs.length := by
    simp [LMap.loaded, domState, linkState, LMap.baseSaddles]
  have llink : m.loaded.linkers = m.linkers.map
      (m.loadedLinker (m.summits.map m.sumId) ((m.saddles ++ m.runoffs).map m.sadId)) := rfl
  have ldom : m.loaded.domains = m.domains.map
      (m.loadedDomain (m.summits.map m.sumId) ((m.saddles ++ m.runoffs).map m.sadId)) := rfl
  have hlen : m.loaded.linkers.length = m.linkers.length := by rw [llink, List.length_map]
  have hdlen : m.loaded.domains.length = m.domains.length := by rw [ldom, List.length_map]
  set m' := m.loaded.toMap m.saddles.length ds with hm'
  have hf' : ∀ (P k : Nat), (m.saddles ++ m.runoffs)[P]? = some k → P < m.saddles.length → (m.sad k).over = some false →
      (m.sad k).single = false ∧ (m.sad k).basin = false := by
    intro P k hP hlt
    rw [List.getElem?_append_left hlt] at hP
    exact hf k (List.mem_of_getElem? hP)
  have key := drawn_same (w := m.texts w area) (w' := m'.texts w area) (li := m.linkers.map m.drawLinker)
    (sa := m.saddles.map m.drawSaddle) (su := m.summits.map m.drawSummit) (ru := m.runoffs.map m.drawSaddle)
    (li' := m'.linkers.map m'.drawLinker) (sa' := m'.saddles.map m'.drawSaddle) (su' := m'.summits.map m'.drawSummit)
    (ru' := m'.runoffs.map m'.drawSaddle)
    (ds := m.domains.map fun i => (i, (m.sum (m.dom i).summit).drawn (m.dom i).summit))
    (ds' := m'.domains.map fun i => (i, (m'.sum (m'.dom i).summit).drawn (m'.dom i).summit)) ?_ ?_ ?_ ?_ ?_ ?_
  · rw [List.map_map, List.map_map] at key
    exact key
  · -- linkers
    have : m'.linkers = List.range m.linkers.length := by rw [hm', ← hlen]; rfl
    rw [this]
    refine forall₂_range _ fun i l hl s => ?_
    obtain ⟨a, b⟩ := h.linkers l (List.mem_of_getElem? hl)
    have hl' : m'.link i = m.loadedLinker (m.summits.map m.sumId) ((m.saddles ++ m.runoffs).map m.sadId) l := by
      change m.loaded.linkers[i]?.getD .blank = _
      rw [llink, List.getElem?_map, hl]
      rfl
    obtain ⟨t, t0, t1, t2, _⟩ := loaded_summit_drawn (n := m.saddles.length) (ds := ds) (posOf_summit h a)
    obtain ⟨u, u0, u1, u2, _⟩ := loaded_saddle_drawn (n := m.saddles.length) (ds := ds) (posOf_saddle h b)
      (hf' _ _ (posOf_saddle h b))
    unfold LMap.drawLinker KmlSt.appendLeaf KmlSt.addLinker lineOf LSaddle.drawn LSummit.drawn LMap.texts
    dsimp only
    rw [hl']
    unfold LMap.loadedLinker
    dsimp only
    rw [hm', t0, u0, t1, t2, u1, u2]
  · refine forall₂_range _ fun P k hk s => ?_
    have hlt := lt_of_getElem? hk
    have hk' : (m.saddles ++ m.runoffs)[P]? = some k := by rw [List.getElem?_append_left hlt, hk]
    obtain ⟨u, u0, u1, u2, u3, u4, u5⟩ := loaded_saddle_drawn (n := m.saddles.length) (ds := ds) hk' (hf' _ _ hk')
    unfold LMap.drawSaddle
    rw [hm', u0, hs k (List.mem_of_getElem? hk), u4, decide_eq_false (by omega)]
    simp only [Bool.false_eq_true, if_false]
    unfold KmlSt.appendLeaf KmlSt.addSpot spotPm LSaddle.drawn LMap.texts
    dsimp only
    rw [u1, u2, u3, u5 hlt]
  · have : m'.summits = List.range m.summits.length := by rw [hm', ← lsum]; rfl
    rw [this]
    refine forall₂_range _ fun P D hD s => ?_
    obtain ⟨t, t0, t1, t2, t3⟩ := loaded_summit_drawn (n := m.saddles.length) (ds := ds) hD
    unfold LMap.drawSummit KmlSt.appendLeaf KmlSt.addSpot spotPm LSummit.drawn LMap.texts
    rw [hm', t0]
    dsimp only
    rw [t1, t2, t3]
  · have : m'.runoffs = (List.range m.runoffs.length).map (m.saddles.length + ·) := by
      change (List.range (m.loaded.saddles.length - m.saddles.length)).map _ = _
      rw [lsad, Nat.add_sub_cancel_left]
    rw [this, List.map_map]
    refine forall₂_range _ fun P k hk s => ?_
    have hk' : (m.saddles ++ m.runoffs)[m.saddles.length + P]? = some k := by
      rw [List.getElem?_append_right (by omega), Nat.add_sub_cancel_left, hk]
    obtain ⟨u, u0, u1, u2, u3, u4, _⟩ := loaded_saddle_drawn (n := m.saddles.length) (ds := ds) hk' (hf' _ _ hk')
    unfold LMap.drawSaddle
    rw [Function.comp_apply, hm', u0, hr k (List.mem_of_getElem? hk), u4, decide_eq_true (by omega)]
    simp only [if_true]
    unfold KmlSt.appendLeaf KmlSt.addSpot spotPm LSaddle.drawn LMap.texts
    dsimp only
    rw [u1, u2, u3]
  · have e : (m'.domains.map fun i => ((m'.texts w area).area i, (m'.sum (m'.dom i).summit).ele)).Perm
        ((List.range m.domains.length).map fun i => ((m'.texts w area).area i, (m'.sum (m'.dom i).summit).ele)) := by
      rw [← hdlen]
      exact hds.map _
    rw [List.map_map, List.map_map]
    refine e.trans (List.Perm.of_eq ?_)
    refine (List.forall₂_eq_eq_eq ▸ forall₂_range (R := Eq) m.domains fun i j hj => ?_ : _ = _).symm
    obtain ⟨a, _⟩ := h.domains j (List.mem_of_getElem? hj)
    have hl' : m'.dom i = m.loadedDomain (m.summits.map m.sumId) ((m.saddles ++ m.runoffs).map m.sadId) j := by
      change m.loaded.domains[i]?.getD .blank = _
      rw [ldom, List.getElem?_map, hj]
      rfl
    obtain ⟨t, t0, _, _, t3⟩ := loaded_summit_drawn (n := m.saddles.length) (ds := ds) (posOf_summit h a)
    unfold LMap.texts
    simp only [Function.comp_apply, LSummit.drawn]
    rw [hl']
    unfold LMap.loadedDomain
    dsimp only
    rw [hm', t0, t3]
  · intro hm
    simp only [List.mem_append, List.mem_map] at hm
    rcases hm with ((⟨i, _, e⟩ | ⟨i, _, e⟩) | ⟨i, _, e⟩) | ⟨i, _, e⟩
    · cases e
    · unfold LMap.drawSaddle at e
      split at e <;> cases e
    · cases e
    · unfold LMap.drawSaddle at e
      split at e <;> cases e

/-! ### Results of runs -/

/-- The texts of geometries for the map of a run: the outline of a domain is made of its points. -/
def DMap.texts (m : DMap) (w : Wkt) (area : List MPt → List Char) : Wkt :=
  { w with area := fun D => area (((m.domPoints D).getD []).map MPt.ofPt) }

/-- The objects that are saved are drawn like the map. -/
theorem toL_drawing {m : DMap} {fl : Flags} (h : Spec.Drawable m) (d : DataMap) (ids : ObjIds) :
    (m.toL d fl ids).drawing = m.drawing fl := by
  have hsum : ∀ (D : Nat) (f : Feature), m.summits[D]? = some f → ((m.toL d fl ids).sum D).drawn D = f.drawn D := by
    intro D f hf
    change (m.lSummit d ids D (m.summits[D]?.getD .blank)).drawn D = _
    rw [hf]
    rfl
  have hsad : ∀ (k : Nat) (o : SObj), m.st.objs[k]? = some o → (m.toL d fl ids).sad k = m.lSaddle d fl ids k o := by
    intro k o ho
    change m.lSaddle d fl ids k (m.st.objs[k]?.getD { f := .blank }) = _
    rw [ho]
    rfl
  have hs : ∀ ks : List Nat, (∀ k ∈ ks, k ∈ m.saddles ++ m.runoffs) →
      ks.map (m.toL d fl ids).drawSaddle = ks.map (m.drawSaddle fl) := by
    intro ks hks
    refine List.map_congr_left fun k hk => ?_
    obtain ⟨o, ho⟩ := h.saddles k (hks k hk)
    unfold LMap.drawSaddle DMap.drawSaddle
    rw [hsad k o ho, ho]
    unfold DMap.lSaddle LSaddle.drawn LSaddle.disqualified
    simp only [decide_eq_true_eq]
    rfl
  unfold LMap.drawing DMap.drawing
  have e1 : (m.toL d fl ids).linkers.map (m.toL d fl ids).drawLinker = m.linkers.map m.drawLinker := by
    refine List.map_congr_left fun i hi => ?_
    obtain ⟨l, o, f, h1, h2, h3, _⟩ := h.linkers i hi
    rw [drawLinker_some h1 h2 h3]
    unfold LMap.drawLinker
    have e : (m.toL d fl ids).link i = ⟨ids.link i, l.summit, l.saddle, fl.linkDisq i⟩ := by
      change (⟨ids.link i, (m.net.link i).1, (m.net.link i).2, fl.linkDisq i⟩ : LLinker) = _
      rw [net_link h1]
    rw [e]
    dsimp only
    rw [hsum _ _ h3, hsad _ _ h2]
    rfl
  have e2 : (m.toL d fl ids).summits.map (m.toL d fl ids).drawSummit = (List.range m.summits.length).map m.drawSummit := by
    refine List.map_congr_left fun D hD => ?_
    have hD : D < m.summits.length := List.mem_range.1 hD
    rw [drawSummit_some (List.getElem?_eq_getElem hD)]
    unfold LMap.drawSummit
    rw [hsum _ _ (List.getElem?_eq_getElem hD)]
  have e3 : (m.toL d fl ids).domains.map (m.toL d fl ids).drawDomain = m.domains.map m.drawDomain := by
    refine List.map_congr_left fun D hD => ?_
    have hg := List.getElem?_eq_getElem (h.domains D hD)
    rw [drawDomain_some hg]
    unfold LMap.drawDomain
    change KLeaf.domain D (((m.toL d fl ids).sum D).drawn D) = _
    rw [hsum _ _ hg]
  rw [e1, e2, e3]
  congr 1
  · exact hs _ fun k hk => List.mem_append_left _ hk
  · exact hs _ fun k hk => List.mem_append_right _ hk

/-- C115 for runs. Missing: rebuilt edge saddles (`C76_rebuilt_refuted`), summits at the same place (to six digits), and purging
with `all_basin_saddles` that removes a saddle others list as alternative (`C92_all_refuted`): these maps cannot be loaded or do
not come back as a whole. In all other cases the map can be saved after any sequence of detections and purges, and a KML writer
draws the map that is loaded as it draws the map that was saved, but for the order of the domains. -/
theorem C115_runs_partial (E : SaddleEnv) (hE : RunOk E) (o : Pt → Oracle) (order : List Pt) (ho : IsScan E.d order)
    (rebuild : Bool) : ∃ D m, analyze E.d o order = .ok D ∧ DMap.runSparse E o order rebuild = .ok m ∧
      ((rebuild = false ∨ ∀ f ∈ D.saddles, f.edge = false) → SummitsApart m.summits →
        ∀ fuel, m.saddles.length + m.st.objs.length < fuel → ∀ cs : List MapCall,
          ∃ m1 f1, DMap.calls fuel (m, m.flags) cs = .ok (m1, f1) ∧
            ((∀ c ∈ cs, c.Plain) ∨ (∀ k ∈ m1.saddles, ∀ c, Node.saddle c ∈ f1.alts (.saddle k) → c ∈ m1.saddles) →
              ∀ (ids : ObjIds), ids.Distinct → ∀ fp, ∃ v s n, (m1.toL E.d f1 ids).toDict fp = .ok v ∧
                LState.fromDict v.cbor fp = .ok (s, n) ∧ ∀ ds : List Nat, ds.Perm (List.range s.domains.length) →
                  ∀ (w : Wkt) (area : List MPt → List Char),
                    ∃ k k', ({} : KmlSt).extend (m1.texts w area) [m1.drawing f1] = (k, true) ∧
                      ({} : KmlSt).extend ((s.toMap n ds).texts w area) [(s.toMap n ds).drawing] = (k', true) ∧
                      SameDrawing k.document k'.document)) := by
  obtain ⟨D, _, m0, m, _, _, h1, _, _, _, _, _, _, h8, _⟩ := run_spec hE o order ho rebuild
  refine ⟨D, m, h1, h8, fun he hS fuel hfuel cs => ?_⟩
  have hs := run_savable hE o order ho rebuild h1 h8 he hS
  obtain ⟨m1, f1, c1, c2⟩ := Keeps.calls (W := ∀ c ∈ cs, c.Plain) hs.base hfuel cs id (Keeps.start hs.base)
  refine ⟨m1, f1, c1, fun hp ids hi fp => ?_⟩
  have hf : ∀ k ∈ m1.saddles, ∀ c, Node.saddle c ∈ f1.alts (.saddle k) → c ∈ m1.saddles := by
    rcases hp with hp | hp
    · intro k _ c hc
      obtain ⟨k', hk', e, _⟩ := c2.own hp _ (c2.alts hp _ _ hc)
      cases e
      exact hk'
    · exact hp
  have hd := (calls_drawable cs (run_drawable hE ho h8) (run_traceable hE ho h8) c1).1
  have hkind : ∀ k, ((m1.toL E.d f1 ids).sad k).runoff = !nonRunoff m.st.objs k := by
    intro k
    change decide ((m1.st.objs[k]?.getD { f := .blank }).f.kind = .runoff) = _
    have := congrArg (·[k]?) c2.feat
    simp only [List.getElem?_map] at this
    unfold nonRunoff
    cases h2 : m1.st.objs[k]? with
    | none =>
      rw [h2] at this
      rw [Option.map_eq_none_iff.1 this.symm]
      simp [Feature.blank, mkSummit]
    | some o =>
      rw [h2] at this
      obtain ⟨o', h3, h4⟩ := Option.map_eq_some_iff.1 this.symm
      rw [h3]
      simp [h4]
  obtain ⟨v, s, n, g1, g2, g3⟩ := C115_loaded_partial _ (c2.held.saved hs (c2.parent hs.base) hf hi)
    (fun k hk => by rw [hkind, hs.saddles k (c2.sub.subset hk)]; rfl)
    (fun k hk => by
      have hk : k ∈ m1.runoffs := hk
      rw [c2.runoffs] at hk
      rw [hkind, hs.runoffs k hk]; rfl)
    (fun k _ h => absurd h (c2.over k)) fp
  refine ⟨v, s, n, g1, g2, fun ds hds w area => ?_⟩
  have := g3 ds hds w area
  rw [toL_drawing hd] at this
  exact this

/-- Drawing of a map with changed flags before it is saved and after it is loaded. -/
def exRedrawn (rows : List (List Rat)) (g : Flags → Flags) (ds : List Nat) : Option (KmlDoc × KmlDoc) :=
  (exFull rows false 17).toOption.bind fun r =>
    ((r.1.toL (DataMap.ofRows rows) (g r.2) exIds).toDict ⟨7, 8⟩).toOption.bind fun v =>
      (LState.fromDict v.cbor ⟨7, 8⟩).toOption.map fun t =>
        (((({} : KmlSt).extend (r.1.texts exLines fun l => l.map fun _ => '#') [r.1.drawing (g r.2)]).1.document),
          ((({} : KmlSt).extend ((t.1.toMap t.2 ds).texts exLines fun l => l.map fun _ => '#')
            [(t.1.toMap t.2 ds).drawing]).1.document))

/-- Kinds and heights in the folder of saddles, lengths of the outlines and heights in that of domains. -/
def exFolders (d : KmlDoc) : List (Option FType × Rat) × List (Nat × Rat) :=
  ((d.folders.filter fun f => f.1 == "Saddles".toList).flatMap fun f => f.2.map fun p => (p.kind, p.ele),
    (d.folders.filter fun f => f.1 == "SummitDomains".toList).flatMap fun f => f.2.map fun p => (p.geometry.length, p.ele))

set_option synthInstance.maxSize 1000 in
/-- Instance of C115: the crater, the set of whose domains gives them in another order after loading. -/
example : (exRedrawn exCrater id [2, 0, 3, 1]).map (fun r => (exFolders r.1, exFolders r.2,
      decide (r.1.folders.take 4 = r.2.folders.take 4), decide (r.1.folders.length = 5))) = some (
    ([(some .saddle, 3), (some .basin, 2), (some .saddle, 4), (some .saddle, 5)], [(1, 8), (1, 9), (1, 7), (1, 6)]),
    ([(some .saddle, 3), (some .basin, 2), (some .saddle, 4), (some .saddle, 5)], [(1, 7), (1, 8), (1, 6), (1, 9)]),
    true, true) := by decide +kernel

/-- C115 fails for a basin saddle that was declared not to be disqualified: after loading it is drawn as a basin saddle. -/
theorem C115_flag_refuted : (exRedrawn exCrater (fun f => { f with over := fun k => if k = 9 then some false else f.over k })
      [0, 1, 2, 3]).map (fun r => ((exFolders r.1).1, (exFolders r.2).1)) = some (
    [(some .saddle, 3), (some .saddle, 2), (some .saddle, 4), (some .saddle, 5)],
    [(some .saddle, 3), (some .basin, 2), (some .saddle, 4), (some .saddle, 5)]) := by decide +kernel

end PyProm
