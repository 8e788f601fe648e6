import Verif.Proof.SerialMap

/-
A saved map is loaded only if everything it refers to is in it.
-/
namespace PyProm

/-- What a saddle refers to. -/
def LSaddle.Refers (s : LSaddle) (c : Nat) : Prop := c ∈ s.children ∨ s.parent = some c ∨ c ∈ s.alts

theorem restoreRefs_miss {ids : List Nat} {l : List LSaddle} (hl : l.map LSaddle.id = ids) {m : LMap} {k : Nat}
    {v : PyVal} (h : SavedSaddle m false k v) {c : Nat} (hc : (m.sad k).Refers c) (hn : m.sadId c ∉ ids) :
    restoreRefs l v = .error .keyError := by
  obtain ⟨a1, a2⟩ := fold_refs_step ids (m.sadId k) (fun c s => { s with children := s.children ++ [c] })
    (fun _ _ => rfl) ((m.sad k).children.map m.sadId) l hl
  unfold restoreRefs
  rw [h.id]
  dsimp only [bind, Except.bind, PyVal.toId]
  rw [h.children]
  dsimp only
  dsimp only [bind, Except.bind] at a1 a2
  rcases a1 with e | ⟨l1, e, hl1⟩
  · rw [e]
  · rw [e]
    dsimp only
    rw [h.parent]
    dsimp only
    have fin : ∀ l2 : List LSaddle, l2.map LSaddle.id = ids → (∃ x ∈ (m.sad k).alts.map m.sadId, x ∉ ids) →
        ((m.sad k).alts.map m.sadId).foldlM
        (fun l c => (do
          let k ← byId LSaddle.id l (m.sadId k)
          let c ← byId LSaddle.id l c
          pure (l.modify k fun s => { s with alts := s.alts ++ [c] }) : Except PyErr (List LSaddle))) l2 =
            .error .keyError :=
      fun l2 h2 => (fold_refs_step ids (m.sadId k) (fun c s => { s with alts := s.alts ++ [c] }) (fun _ _ => rfl)
        ((m.sad k).alts.map m.sadId) l2 h2).2
    dsimp only [bind, Except.bind] at fin
    rcases hc with hc | hc | hc
    · have := (a2 ⟨_, List.mem_map_of_mem hc, hn⟩).symm.trans e
      cases this
    · rw [hc]
      dsimp only [Option.map]
      by_cases h1 : m.sadId k ∈ ids
      · rw [byId_ok hl1 h1]
        dsimp only
        rw [byId_miss hl1 hn]
      · rw [byId_miss hl1 h1]
    · have hx : ∃ x ∈ (m.sad k).alts.map m.sadId, x ∉ ids := ⟨_, List.mem_map_of_mem hc, hn⟩
      cases hp : (m.sad k).parent with
      | none =>
        dsimp only [Option.map, pure, Except.pure]
        rw [h.alts]
        exact fin l1 hl1 hx
      | some q =>
        dsimp only [Option.map]
        by_cases h1 : m.sadId k ∈ ids
        · rw [byId_ok hl1 h1]
          dsimp only
          by_cases h2 : m.sadId q ∈ ids
          · rw [byId_ok hl1 h2]
            dsimp only [pure, Except.pure]
            rw [h.alts]
            exact fin _ (modify_id hl1 _ _ fun _ => rfl) hx
          · rw [byId_miss hl1 h2]
        · rw [byId_miss hl1 h1]

theorem fold_restore_miss (m : LMap) (ids : List Nat) : ∀ (ks : List Nat) (ds : List PyVal),
    List.Forall₂ (SavedSaddle m false) ks ds → (∃ k ∈ ks, ∃ c, (m.sad k).Refers c ∧ m.sadId c ∉ ids) →
    ∀ l : List LSaddle, l.map LSaddle.id = ids → ds.foldlM restoreRefs l = .error .keyError := by
  intro ks ds h
  induction h with
  | nil => rintro ⟨k, hk, _⟩; cases hk
  | @cons k v ks ds h1 _ ih =>
    rintro ⟨j, hj, c, hc, hn⟩ l hl
    rw [List.foldlM_cons]
    rcases List.mem_cons.1 hj with rfl | hj
    · rw [restoreRefs_miss hl h1 hc hn]; rfl
    · rcases (restoreRefs_step hl h1).1 with e | ⟨l', e, hl'⟩
      · rw [e]; rfl
      · rw [e]; exact ih ⟨j, hj, c, hc, hn⟩ l' hl'

theorem load_saddles_miss (m : LMap) (ks : List Nat) (ds : List PyVal) (h : List.Forall₂ (SavedSaddle m false) ks ds)
    (he : ∃ k ∈ ks, ∃ c, (m.sad k).Refers c ∧ m.sadId c ∉ ks.map m.sadId) :
    saddlesFromDict (.dict [("saddles", .list ds)]) = .error .keyError := by
  have e1 : ds.mapM (LSaddle.fromDict false) = .ok (ks.map fun k => (m.sad k).reloaded false) :=
    mapM_forall2 (h.imp fun k v hv => hv.load)
  unfold saddlesFromDict
  simp only [PyVal.get, List.lookup, beq_self_eq_true, PyVal.seq, bind, Except.bind, e1]
  exact fold_restore_miss m _ ks ds h he _ (by rw [List.map_map]; rfl)

theorem load_linkers_miss (m : LMap) (A : List LSummit) (B : List LSaddle) : ∀ is : List Nat,
    (∃ i ∈ is, ¬ (m.sumId (m.link i).summit ∈ A.map LSummit.id ∧ m.sadId (m.link i).saddle ∈ B.map LSaddle.id)) →
    ∀ ls, (is.map fun i => (m.link i).toDict m.sumId m.sadId).foldlM loadLinker (linkState A B ls) =
      .error .keyError := by
  intro is
  induction is with
  | nil => rintro ⟨i, hi, _⟩; cases hi
  | cons i is ih =>
    intro h ls
    obtain ⟨a1, a2, a3, a4⟩ := saved_linker (m.link i) m.sumId m.sadId
    rw [List.map_cons, List.foldlM_cons]
    by_cases hg : m.sumId (m.link i).summit ∈ A.map LSummit.id ∧ m.sadId (m.link i).saddle ∈ B.map LSaddle.id
    · have := link_step A B ls (m.loadedLinker (A.map LSummit.id) (B.map LSaddle.id) i) _ _ _ a1 a2 a3 a4 hg.2 hg.1 rfl rfl
      rw [this]
      obtain ⟨j, hj, hn⟩ := h
      rcases List.mem_cons.1 hj with rfl | hj
      · exact absurd hg hn
      · exact ih ⟨j, hj, hn⟩ _
    · have i1 : (linkState A B ls).saddles.map LSaddle.id = B.map LSaddle.id := by
        apply List.ext_getElem?
        intro j
        simp only [linkState, List.getElem?_map, List.getElem?_mapIdx, Option.map_map]
        rfl
      have i2 : (linkState A B ls).summits.map LSummit.id = A.map LSummit.id := by
        apply List.ext_getElem?
        intro j
        simp only [linkState, List.getElem?_map, List.getElem?_mapIdx, Option.map_map]
        rfl
      have : loadLinker (linkState A B ls) ((m.link i).toDict m.sumId m.sadId) = .error .keyError := by
        unfold loadLinker
        simp only [a1, a2, a3, a4, bind, Except.bind, PyVal.toId]
        by_cases h1 : m.sadId (m.link i).saddle ∈ B.map LSaddle.id
        · rw [byId_ok i1 h1]
          dsimp only
          rw [byId_miss i2 fun h2 => hg ⟨h2, h1⟩]
        · rw [byId_miss i1 h1]
      rw [this]
      rfl

theorem mapM_miss {α β} {f : α → Except PyErr β} {e : PyErr} : ∀ (l : List α), (∀ x ∈ l, f x = .error e ∨ ∃ y, f x = .ok y) →
    (∃ x ∈ l, f x = .error e) → l.mapM f = .error e := by
  intro l
  induction l with
  | nil => rintro _ ⟨x, hx, _⟩; cases hx
  | cons a l ih =>
    intro h hx
    rw [List.mapM_cons]
    rcases h a (by simp) with e1 | ⟨y, e1⟩
    · rw [e1]; rfl
    · rw [e1]
      obtain ⟨x, hx, hn⟩ := hx
      rcases List.mem_cons.1 hx with rfl | hx
      · rw [hn] at e1; cases e1
      · dsimp only [bind, Except.bind]
        rw [ih (fun x hx => h x (by simp [hx])) ⟨x, hx, hn⟩]

theorem load_domains_miss (m : LMap) (s : LState) : ∀ is : List Nat,
    (∃ i ∈ is, ¬ (m.sumId (m.dom i).summit ∈ s.summits.map LSummit.id ∧
      ∀ k ∈ (m.dom i).saddles, m.sadId k ∈ s.saddles.map LSaddle.id)) →
    ∀ ds, (is.map fun i => (m.dom i).toDict m.sumId m.sadId).foldlM loadDomain (domState s ds) = .error .keyError := by
  intro is
  induction is with
  | nil => rintro ⟨i, hi, _⟩; cases hi
  | cons i is ih =>
    intro h ds
    rw [List.map_cons, List.foldlM_cons]
    by_cases hg : m.sumId (m.dom i).summit ∈ s.summits.map LSummit.id ∧
        ∀ k ∈ (m.dom i).saddles, m.sadId k ∈ s.saddles.map LSaddle.id
    · rw [dom_step m s ds i hg.1 hg.2]
      obtain ⟨j, hj, hn⟩ := h
      rcases List.mem_cons.1 hj with rfl | hj
      · exact absurd hg hn
      · exact ih ⟨j, hj, hn⟩ _
    · have i1 : (domState s ds).summits.map LSummit.id = s.summits.map LSummit.id := by
        apply List.ext_getElem?
        intro j
        simp only [domState, List.getElem?_map, List.getElem?_mapIdx, Option.map_map]
        rfl
      have e1 := mpts_round (m.dom i).points
      have e2 : (PyVal.ofList (fun k => PyVal.id (m.sadId k)) (m.dom i).saddles).mapSeq PyVal.toId =
          .ok ((m.dom i).saddles.map m.sadId) := ids_round m.sadId _
      have : loadDomain (domState s ds) ((m.dom i).toDict m.sumId m.sadId) = .error .keyError := by
        unfold loadDomain LDomain.toDict
        simp only [PyVal.get, List.lookup, bind, Except.bind]
        simp only [show ("saddles" == "points") = false from rfl, show ("summit" == "points") = false from rfl,
          show ("summit" == "saddles") = false from rfl, beq_self_eq_true, e1, e2, PyVal.toId]
        by_cases hs : ∀ k ∈ (m.dom i).saddles, m.sadId k ∈ s.saddles.map LSaddle.id
        · have e3 : ((m.dom i).saddles.map m.sadId).mapM (byId LSaddle.id (domState s ds).saddles) =
              .ok ((m.dom i).saddles.map fun k => posOf (s.saddles.map LSaddle.id) (m.sadId k)) :=
            mapM_map_ok fun k hk => byId_ok rfl (hs k hk)
          rw [e3]
          dsimp only
          rw [byId_miss i1 fun h1 => hg ⟨h1, hs⟩]
        · have e3 : ((m.dom i).saddles.map m.sadId).mapM (byId LSaddle.id (domState s ds).saddles) = .error .keyError := by
            refine mapM_miss _ (fun x _ => ?_) ?_
            · by_cases hx : x ∈ s.saddles.map LSaddle.id
              · exact .inr ⟨_, byId_ok rfl hx⟩
              · exact .inl (byId_miss rfl hx)
            · simp only [not_forall] at hs
              obtain ⟨k, hk, hn⟩ := hs
              exact ⟨_, List.mem_map_of_mem hk, byId_miss rfl hn⟩
          rw [e3]
      rw [this]
      rfl

/-- Everything the objects of the map refer to is in its containers, by id. -/
structure LMap.RefsIn (m : LMap) : Prop where
  family : ∀ k ∈ m.saddles, ∀ c, (m.sad k).Refers c → m.sadId c ∈ m.saddles.map m.sadId
  linkers : ∀ i ∈ m.linkers, m.sumId (m.link i).summit ∈ m.summits.map m.sumId ∧
    m.sadId (m.link i).saddle ∈ (m.saddles ++ m.runoffs).map m.sadId
  domains : ∀ i ∈ m.domains, m.sumId (m.dom i).summit ∈ m.summits.map m.sumId ∧
    ∀ k ∈ (m.dom i).saddles, m.sadId k ∈ (m.saddles ++ m.runoffs).map m.sadId

/-- Otherwise the map can be saved, but loading raises KeyError. -/
theorem LMap.load_miss (m : LMap) (hn : ¬ m.RefsIn) (hnd : (m.saddles.map m.sadId).Nodup)
    (hid : ∀ k ∈ m.saddles, ∀ c, (m.sad k).Refers c → ∀ k' ∈ m.saddles, m.sadId c = m.sadId k' → c = k') (hs : ∀ D ∈ m.summits, MultiLoads (m.sum D).mp)
    (hk : ∀ k ∈ m.saddles ++ m.runoffs, MultiLoads (m.sad k).mp) (fp : Fingerprint) :
    ∃ v, m.toDict fp = .ok v ∧ LState.fromDict v.cbor fp = .error (.py .keyError) := by
  obtain ⟨su, a1, a2⟩ := load_summits m hs
  obtain ⟨ds, b1, b2⟩ := save_saddles m false "saddles" m.saddles fun k h => hk k (by simp [h])
  obtain ⟨dr, c1, c2⟩ := save_saddles m true "runoffs" m.runoffs fun k h => hk k (by simp [h])
  refine ⟨_, by simp only [LMap.toDict, a1, b1, c1]; rfl, ?_⟩
  rw [LState.fromDict_blind]
  have f1 : fpRead (.dict [("file_md5", fp.toVal), ("summits", su), ("saddles", .dict [("saddles", .list ds)]),
      ("runoffs", .dict [("runoffs", .list dr)]),
      ("linkers", .ofList (fun i => (m.link i).toDict m.sumId m.sadId) m.linkers),
      ("summit_domains", .ofList (fun i => (m.dom i).toDict m.sumId m.sadId) m.domains)]) = .ok fp := rfl
  have f2 : loadBody (.dict [("file_md5", fp.toVal), ("summits", su), ("saddles", .dict [("saddles", .list ds)]),
      ("runoffs", .dict [("runoffs", .list dr)]),
      ("linkers", .ofList (fun i => (m.link i).toDict m.sumId m.sadId) m.linkers),
      ("summit_domains", .ofList (fun i => (m.dom i).toDict m.sumId m.sadId) m.domains)]) = .error .keyError := by
    unfold loadBody
    simp only [PyVal.get, List.lookup, bind, Except.bind,
      show ("saddles" == "file_md5") = false from rfl, show ("saddles" == "summits") = false from rfl,
      show ("summits" == "file_md5") = false from rfl, show ("runoffs" == "file_md5") = false from rfl,
      show ("runoffs" == "summits") = false from rfl, show ("runoffs" == "saddles") = false from rfl,
      show ("linkers" == "file_md5") = false from rfl, show ("linkers" == "summits") = false from rfl,
      show ("linkers" == "saddles") = false from rfl, show ("linkers" == "runoffs") = false from rfl,
      show ("summit_domains" == "file_md5") = false from rfl, show ("summit_domains" == "summits") = false from rfl,
      show ("summit_domains" == "saddles") = false from rfl, show ("summit_domains" == "runoffs") = false from rfl,
      show ("summit_domains" == "linkers") = false from rfl, beq_self_eq_true, a2, PyVal.ofList, PyVal.seq]
    by_cases h1 : ∀ k ∈ m.saddles, ∀ c, (m.sad k).Refers c → m.sadId c ∈ m.saddles.map m.sadId
    · have hcl : m.Closed m.saddles m.saddles := by
        intro k hk
        have : ∀ c, (m.sad k).Refers c → c ∈ m.saddles := by
          intro c hc
          obtain ⟨k', hk', e⟩ := List.mem_map.1 (h1 k hk c hc)
          rw [hid k hk c hc k' hk' e.symm]
          exact hk'
        exact ⟨fun c hc => this c (.inl hc), fun c hc => this c (.inr (.inl hc)), fun c hc => this c (.inr (.inr hc))⟩
      rw [load_saddles m m.saddles hnd hcl ds b2]
      dsimp only
      rw [load_runoffs m m.runoffs dr c2]
      dsimp only
      have nil1 : linkState m.baseSummits m.baseSaddles [] = ⟨m.baseSummits, m.baseSaddles, [], []⟩ := by
        apply linkState_nil
        · intro x hx
          obtain ⟨D, _, rfl⟩ := List.mem_map.mp hx
          rfl
        · intro x hx
          rcases List.mem_append.mp hx with hx | hx
          · obtain ⟨D, _, rfl⟩ := List.mem_map.mp hx
            rfl
          · obtain ⟨D, _, rfl⟩ := List.mem_map.mp hx
            rfl
      by_cases h2 : ∀ i ∈ m.linkers, m.sumId (m.link i).summit ∈ m.summits.map m.sumId ∧
          m.sadId (m.link i).saddle ∈ (m.saddles ++ m.runoffs).map m.sadId
      · have e3 := load_linkers m m.baseSummits m.baseSaddles m.linkers (by rwa [baseSummits_id, baseSaddles_id]) []
        rw [nil1, List.nil_append] at e3
        have h3 : ∃ i ∈ m.domains, ¬ (m.sumId (m.dom i).summit ∈ m.summits.map m.sumId ∧
            ∀ k ∈ (m.dom i).saddles, m.sadId k ∈ (m.saddles ++ m.runoffs).map m.sadId) := by
          by_contra hc
          refine hn ⟨h1, h2, fun i hi => ?_⟩
          by_contra h
          exact hc ⟨i, hi, h⟩
        have e4 := load_domains_miss m (linkState m.baseSummits m.baseSaddles (m.linkers.map
          (m.loadedLinker (m.baseSummits.map LSummit.id) (m.baseSaddles.map LSaddle.id)))) m.domains
        have i1 : (linkState m.baseSummits m.baseSaddles (m.linkers.map
            (m.loadedLinker (m.baseSummits.map LSummit.id) (m.baseSaddles.map LSaddle.id)))).summits.map
              LSummit.id = m.summits.map m.sumId := by
          rw [← baseSummits_id]
          apply List.ext_getElem?
          intro j
          simp only [linkState, List.getElem?_map, List.getElem?_mapIdx, Option.map_map]
          rfl
        have i2 : (linkState m.baseSummits m.baseSaddles (m.linkers.map
            (m.loadedLinker (m.baseSummits.map LSummit.id) (m.baseSaddles.map LSaddle.id)))).saddles.map
              LSaddle.id = (m.saddles ++ m.runoffs).map m.sadId := by
          rw [← baseSaddles_id]
          apply List.ext_getElem?
          intro j
          simp only [linkState, List.getElem?_map, List.getElem?_mapIdx, Option.map_map]
          rfl
        rw [i1, i2] at e4
        have e4 := e4 h3 []
        rw [domState_nil _ rfl] at e4
        have e3' := e3
        unfold LMap.baseSummits LMap.baseSaddles at e3'
        rw [e3']
        dsimp only
        unfold LMap.baseSummits LMap.baseSaddles at e4
        rw [e4]
      · have e3 := load_linkers_miss m m.baseSummits m.baseSaddles m.linkers (by
          simp only [not_forall] at h2
          obtain ⟨i, hi, h⟩ := h2
          rw [baseSummits_id, baseSaddles_id]
          exact ⟨i, hi, h⟩) []
        rw [nil1] at e3
        unfold LMap.baseSummits LMap.baseSaddles at e3
        rw [e3]
    · simp only [not_forall] at h1
      obtain ⟨k, hk, c, hc, hc'⟩ := h1
      rw [load_saddles_miss m m.saddles ds b2 ⟨k, hk, c, hc, hc'⟩]
  unfold LState.fromDict
  rw [f1]
  simp only [ne_eq, not_true_eq_false, if_false]
  rw [f2]

end PyProm
