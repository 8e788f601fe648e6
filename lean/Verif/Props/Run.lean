import Verif.Proof.DomainMap
import Verif.Props.Walk

/-
Properties of whole runs (discovery, optional rebuilding, walk): C20-C22, C41 (linkers made by
walks), C55, C60, C62-C66.
-/
namespace PyProm
open Spec

/-! ### Instances -/

/-- Squared plain grid distance; it orders pairs of cells as the plain distance does. -/
def sqDist (p q : Pt) : Rat := (((p.1 - q.1) ^ 2 + (p.2 - q.2) ^ 2 : Int) : Rat)

/-- Environment for the instances. -/
def exRun (d : DataMap) : SaddleEnv where
  toWalkEnv := exWalk d
  summits := []
  fc := realSearch (exQuery sqDist) fun p q => sqDist p.xy q.xy
  find _ := exFind
  fuel := d.size + 1

theorem exRun_findable (d : DataMap) (hl : NodataLow d) (hg : Findable d)
    (hs : ((d.maxX + d.maxY) ^ 2 : Nat) < maxsize) : RunOk (exRun d) where
  env := exWalk_ok d hl (by
    refine lt_of_le_of_lt ?_ hs
    have : d.maxX + d.maxY ≤ (d.maxX + d.maxY) ^ 2 := Nat.le_self_pow (by omega) _
    exact_mod_cast this)
  geo := hg
  fuel := Nat.lt_succ_self _
  fc := ⟨_, _, _, exQuery_ok sqDist, rfl, by
    rintro ⟨a, b, _⟩ ⟨a', b', _⟩ ⟨h1, h2, h3, h4⟩ ⟨g1, g2, g3, g4⟩
    refine lt_of_le_of_lt ?_ hs
    simp only [P3.xy, show (exRun d).d = d from rfl] at *
    have key : (a - a') ^ 2 + (b - b') ^ 2 ≤ (((d.maxX + d.maxY) ^ 2 : Nat) : Int) := by
      push_cast
      have e1 : (a - a') ^ 2 ≤ (d.maxX : Int) ^ 2 := sq_le_sq' (by omega) (by omega)
      have e2 : (b - b') ^ 2 ≤ (d.maxY : Int) ^ 2 := sq_le_sq' (by omega) (by omega)
      nlinarith
    unfold sqDist
    exact_mod_cast key⟩
  find _ _ _ := ⟨rfl, rfl⟩

theorem exRun_ok (d : DataMap) (hl : NodataLow d) (hg : Unrotated d)
    (hs : ((d.maxX + d.maxY) ^ 2 : Nat) < maxsize) : RunOk (exRun d) := exRun_findable d hl hg.findable hs

/-- A raster without nodata marker that is not rotated. -/
theorem exRun_plain (rows : List (List Rat)) (hs : ((((DataMap.ofRows rows).maxX + (DataMap.ofRows rows).maxY) ^ 2 : Nat) : Rat) < maxsize) :
    RunOk (exRun (DataMap.ofRows rows)) :=
  exRun_ok _ (by intro v hv; simp [DataMap.ofRows] at hv) ⟨by simp [DataMap.ofRows], by simp [DataMap.ofRows], rfl, rfl, fun _ => rfl⟩ hs

/-- The map for the instances. -/
def exMap (rows : List (List Rat)) (rebuild : Bool) : Except PyErr DMap :=
  DMap.runSparse (exRun (DataMap.ofRows rows)) (fun _ => exOracle) (DataMap.ofRows rows).cells rebuild

/-- Two summits and a saddle; summits on and off the border. -/
def exRows : List (List Rat) := [[1, 1, 1, 1, 1, 1], [1, 9, 3, 5, 5, 8], [1, 1, 2, 1, 1, 1]]

/-- The hypotheses of the theorems below are met. -/
example : RunOk (exRun (DataMap.ofRows exRows)) := exRun_plain _ (by unfold maxsize; decide +kernel)

example : IsScan (DataMap.ofRows exRows) (DataMap.ofRows exRows).cells := isScan_cells _

/-! ### C21: the first walk -/

/-- C21 (first walk only): discovery, rebuilding and the walk succeed on every raster; the run keeps the
discovered summits. What is missing: a second walk, see the refutations below. -/
theorem C21_first_walk_partial (E : SaddleEnv) (hE : RunOk E) (o : Pt → Oracle) (order : List Pt)
    (ho : IsScan E.d order) (rebuild : Bool) :
    ∃ D m, analyze E.d o order = .ok D ∧ DMap.runSparse E o order rebuild = .ok m ∧
      m.summits = D.summits := by
  obtain ⟨D, _, m0, m, _, _, h1, _, _, _, h5, _, _, h8, h9⟩ := run_spec hE o order ho rebuild
  exact ⟨D, m, h1, h8, h9.summits.trans h5⟩

/-- C21 fails: walking the same map again finds no domain and no linker. -/
theorem C21_second_walk_empty_refuted :
    ((exMap [[1, 1, 1, 1, 1], [1, 9, 3, 8, 1], [1, 1, 1, 1, 1]] false).toOption.bind fun m =>
      (m.walk (exRun (DataMap.ofRows [[1, 1, 1, 1, 1], [1, 9, 3, 8, 1], [1, 1, 1, 1, 1]])) []).toOption.map
        fun r => (m.domains, m.linkers, r.1.domains, r.1.linkers)) =
    some ([1, 0], [0, 1], [], []) := by decide +kernel

/-- C21 fails: with a flat summit the second walk raises KeyError. -/
theorem C21_second_walk_error_refuted :
    ((exMap [[1, 1, 1, 1, 1, 1], [1, 9, 3, 8, 8, 1], [1, 1, 1, 1, 1, 1]] false).toOption.map fun m =>
      match m.walk (exRun (DataMap.ofRows [[1, 1, 1, 1, 1, 1], [1, 9, 3, 8, 8, 1], [1, 1, 1, 1, 1, 1]])) [] with
      | .ok _ => none
      | .error e => some e) = some (some .keyError) := by decide +kernel

/-! ### C20 -/

/-- C20 (weaker for runoffs without high neighbourhood): every linker of the map connects a saddle or
runoff of the map's objects with a summit that is strictly higher, or not lower in the case of a
runoff without high neighbourhood. -/
theorem C20_linkers_rise_partial (E : SaddleEnv) (hE : RunOk E) (o : Pt → Oracle) (order : List Pt)
    (ho : IsScan E.d order) (rebuild : Bool) :
    ∃ m, DMap.runSparse E o order rebuild = .ok m ∧ ∀ i ∈ m.linkers, ∃ l sf ob,
      m.st.store[i]? = some l ∧ m.summits[l.summit]? = some sf ∧ m.st.objs[l.saddle]? = some ob ∧
      ((ob.f.hpn ≠ [] ∧ ob.f.elevation < sf.elevation) ∨
       (ob.f.hpn = [] ∧ ob.f.kind = .runoff ∧ ob.f.elevation ≤ sf.elevation)) := by
  obtain ⟨_, _, m0, m, _, _, _, _, _, _, _, _, _, h8, h9⟩ := run_spec hE o order ho rebuild
  refine ⟨m, h8, fun i hi => ?_⟩
  rw [h9.linkers, h9.inv.lk, List.mem_range] at hi
  obtain ⟨sf, ob, e1, e2, e3, _⟩ := h9.inv.links _ (List.getElem_mem hi)
  exact ⟨_, sf, ob, List.getElem?_eq_getElem hi, by rw [h9.summits]; exact e1, e2, e3⟩

/-- C20 fails for runoffs without high neighbourhood: linker 2 has a prominence of zero. -/
theorem C20_summit_like_refuted :
    ((exMap exRows false).toOption.bind fun m => m.st.store[2]?.bind fun l =>
      m.summits[l.summit]?.bind fun s => m.st.objs[l.saddle]?.map fun ob =>
        (decide (2 ∈ m.linkers), s.elevation - ob.f.elevation)) = some (true, 0) := by decide +kernel

/-! ### C62 -/

/-- C62: every saddle of a walked map that is off the map edge and was not split off an edge saddle
has exactly one linker for each of its high neighbourhoods, in order. The linker is listed by the
saddle and by the summit, and a path without descent leads from the neighbourhood to the area of the
summit. -/
theorem C62_linkers (E : SaddleEnv) (hE : RunOk E) (o : Pt → Oracle) (order : List Pt)
    (ho : IsScan E.d order) (rebuild : Bool) :
    ∃ m sites, DMap.runSparse E o order rebuild = .ok m ∧ SummitsAt E.d sites m.summits ∧
      ∀ k ∈ m.saddles, ∃ ob, m.st.objs[k]? = some ob ∧ (ob.parent = none → ob.f.edge = false →
        2 ≤ ob.f.hpn.length ∧
        List.Forall₂ (fun (c : List P3) (i : Nat) => i ∈ m.linkers ∧ ∃ h0 D site top, c.head? = some h0 ∧
          m.st.store[i]? = some ⟨D, k⟩ ∧ i ∈ m.st.sumLinks D ∧ sites[D]? = some site ∧
          Flat E.d site top ∧ Ascends E.d h0.xy top) ob.f.hpn (m.st.sadLinks k)) := by
  obtain ⟨_, _, m0, m, sites, news, _, _, _, h4, _, _, _, h8, h9⟩ := run_spec hE o order ho rebuild
  refine ⟨m, sites, h8, by rw [h9.summits]; exact h4.tops, fun k hk => ?_⟩
  rw [h9.saddles] at hk
  have hw : k ∈ m.st.walked := (List.mem_filter.1 hk).1
  have hlt := h9.inv.walked k hw
  refine ⟨_, List.getElem?_eq_getElem hlt, fun hp he => ?_⟩
  have hf := h9.inv.objs _ (List.getElem_mem hlt)
  refine ⟨hf.saddle (hf.inner he), ?_⟩
  have hg := h9.good k (by rw [← h9.walked]; exact hw) _ (List.getElem?_eq_getElem hlt) hp he
  refine hg.imp ?_
  rintro c i ⟨h0, D, top, a1, a2, a3, ⟨site, a4, a5⟩, a6⟩
  exact ⟨by rw [h9.linkers, h9.inv.lk]; exact List.mem_range.2 (lt_of_getElem? a2), h0, D, site, top,
    a1, a2, a3, a4, a5, a6⟩

/-- Instance of C62: the walked saddle 7 has the two linkers 0 and 1, to the summits 1 and 0. -/
example : ((exMap exRows false).toOption.bind fun m => m.st.objs[7]?.map fun ob =>
    ((m.saddles, ob.parent, ob.f.edge), ob.f.hpn.length, m.st.sadLinks 7, (m.st.store.take 2).map fun l => (l.summit, l.saddle))) =
    some (([7], none, false), 2, [0, 1], [(1, 7), (0, 7)]) := by decide +kernel

/-! ### C41, linkers made by walks -/

/-- C41 for walks (up to equality of linkers): every linker listed by a saddle belongs to that saddle
and every linker listed by a summit to that summit, and for every linker of the map there is an equal
one (in the sense of `==`) in the list of its saddle and in the list of its summit. -/
theorem C41_walk_partial (E : SaddleEnv) (hE : RunOk E) (o : Pt → Oracle) (order : List Pt)
    (ho : IsScan E.d order) (rebuild : Bool) :
    ∃ m, DMap.runSparse E o order rebuild = .ok m ∧
      (∀ k, ∀ i ∈ m.st.sadLinks k, i ∈ m.linkers ∧ ∃ l, m.st.store[i]? = some l ∧ l.saddle = k) ∧
      (∀ k, ∀ i ∈ m.st.sumLinks k, i ∈ m.linkers ∧ ∃ l, m.st.store[i]? = some l ∧ l.summit = k) ∧
      ∀ i ∈ m.linkers, ∃ l, m.st.store[i]? = some l ∧
        (∃ j ∈ m.st.sumLinks l.summit, ∃ l', m.st.store[j]? = some l' ∧
          linkEq { E with summits := m.summits } m.st.objs l' l = true) ∧
        ∃ j ∈ m.st.sadLinks l.saddle, ∃ l', m.st.store[j]? = some l' ∧
          linkEq { E with summits := m.summits } m.st.objs l' l = true := by
  obtain ⟨_, _, m0, m, _, _, _, _, _, _, _, _, _, h8, h9⟩ := run_spec hE o order ho rebuild
  have hl : ∀ i l, m.st.store[i]? = some l → i ∈ m.linkers := fun i l h => by
    rw [h9.linkers, h9.inv.lk]; exact List.mem_range.2 (lt_of_getElem? h)
  have hin : ∀ l ids, linkIn { E with summits := m0.summits } m.st l ids = true →
      ∃ j ∈ ids, ∃ l', m.st.store[j]? = some l' ∧
        linkEq { E with summits := m.summits } m.st.objs l' l = true := by
    intro l ids h
    unfold linkIn at h
    rw [List.any_eq_true] at h
    obtain ⟨j, hj, h⟩ := h
    cases hs : m.st.store[j]? with
    | none => rw [hs] at h; simp at h
    | some l' =>
      rw [hs] at h
      exact ⟨j, hj, l', hs, by rw [h9.summits]; exact h⟩
  refine ⟨m, h8, ?_, ?_, ?_⟩
  · intro k i hi
    obtain ⟨l, a, b⟩ := h9.inv.sad k i hi
    exact ⟨hl i l a, l, a, b⟩
  · intro k i hi
    obtain ⟨l, a, b⟩ := h9.inv.sum k i hi
    exact ⟨hl i l a, l, a, b⟩
  · intro i hi
    rw [h9.linkers, h9.inv.lk, List.mem_range] at hi
    obtain ⟨a, b⟩ := h9.inv.ends _ (List.getElem_mem hi)
    exact ⟨_, List.getElem?_eq_getElem hi, hin _ _ a, hin _ _ b⟩

/-- C41 fails in walks: the summit in the corner has two linkers to co-located runoffs; the second is
listed by its runoff but not by the summit. -/
theorem C41_walk_refuted :
    ((exMap [[5, 9, 9], [1, 1, 1]] false).toOption.bind fun m => m.st.store[1]?.map fun l =>
      (decide (1 ∈ m.linkers), decide (1 ∈ m.st.sadLinks l.saddle), decide (1 ∈ m.st.sumLinks l.summit))) =
    some (true, true, false) := by decide +kernel

/-! ### C22, C65: what is made of the features -/

theorem forall₂_append_left {α β : Type} {R : α → β → Prop} : ∀ (a b : List α) {l : List β},
    List.Forall₂ R (a ++ b) l → ∃ l1 l2, l = l1 ++ l2 ∧ List.Forall₂ R a l1 ∧ List.Forall₂ R b l2 := by
  intro a
  induction a with
  | nil => intro b l h; exact ⟨[], l, rfl, .nil, h⟩
  | cons x a ih =>
    intro b l h
    cases h with
    | cons h1 h2 =>
      obtain ⟨l1, l2, rfl, h3, h4⟩ := ih b h2
      exact ⟨_ :: l1, l2, rfl, .cons h1 h3, h4⟩

theorem mem_of_forall₂ {α β : Type} {R : α → β → Prop} {a : List α} {b : List β} (h : List.Forall₂ R a b)
    {y : β} (hy : y ∈ b) : ∃ x ∈ a, R x y := by
  induction h with
  | nil => simp at hy
  | cons h1 _ ih =>
    rcases List.mem_cons.1 hy with rfl | hy
    · exact ⟨_, by simp, h1⟩
    · obtain ⟨x, hx, h⟩ := ih hy
      exact ⟨x, by simp [hx], h⟩

/-- The walked saddles come from the saddles, the walked runoffs from the runoffs. -/
theorem walked_split {E : SaddleEnv} {sites : List Pt} {m0 m : DMap} {news : List (List Nat)}
    (h0 : Fresh E.d sites m0) (h : WalkedMap E sites m0 m news) :
    ∃ ns nr : List (List Nat), m.saddles = ns.flatten ∧ m.runoffs = nr.flatten ∧
      List.Forall₂ (fun b new => ∃ o, m0.st.objs[b]? = some o ∧ Outcome o b m.st new) m0.saddles ns ∧
      List.Forall₂ (fun b new => ∃ o, m0.st.objs[b]? = some o ∧ Outcome o b m.st new) m0.runoffs nr := by
  obtain ⟨ns, nr, rfl, hs, hr⟩ := forall₂_append_left _ _ h.outcomes
  have ks : ∀ k ∈ ns.flatten, ∃ o', m.st.objs[k]? = some o' ∧ o'.f.kind = .saddle := by
    intro k hk
    obtain ⟨new, hn, hk⟩ := List.mem_flatten.1 hk
    obtain ⟨b, hb, o, ho, hout, _⟩ := mem_of_forall₂ hs hn
    obtain ⟨o1, ho1, hkind⟩ := h0.sad b hb
    have : o = o1 := by simpa using ho.symm.trans ho1
    subst this
    unfold Outcome at hout
    split at hout
    · obtain ⟨o', a, c, _⟩ := hout.2.2 k hk
      exact ⟨o', a, c.kind⟩
    · rw [if_neg (by rw [hkind]; simp)] at hout
      obtain ⟨ids, rfl, _, _, hids, _⟩ := hout
      rcases List.mem_append.1 hk with hk | hk
      · obtain ⟨o', a, c, _⟩ := hids k hk
        exact ⟨o', a, c.kind⟩
      · rw [List.mem_singleton.1 hk]
        obtain ⟨o', a, c, _⟩ := h.step.feat b o ho
        exact ⟨o', a, by rw [c]; exact hkind⟩
  have kr : ∀ k ∈ nr.flatten, ∃ o', m.st.objs[k]? = some o' ∧ o'.f.kind = .runoff := by
    intro k hk
    obtain ⟨new, hn, hk⟩ := List.mem_flatten.1 hk
    obtain ⟨b, hb, o, ho, hout, _⟩ := mem_of_forall₂ hr hn
    obtain ⟨o1, ho1, hkind, hedge⟩ := h0.run b hb
    have : o = o1 := by simpa using ho.symm.trans ho1
    subst this
    unfold Outcome at hout
    rw [if_neg (by rw [hedge]; simp), if_pos hkind] at hout
    have hkb : k = b := by
      rcases hout with ⟨rfl, _⟩ | ⟨_, rfl⟩
      · simpa using hk
      · simpa using hk
    rw [hkb]
    obtain ⟨o', a, c, _⟩ := h.step.feat b o ho
    exact ⟨o', a, by rw [c]; exact hkind⟩
  refine ⟨ns, nr, ?_, ?_, hs.imp fun _ _ ⟨o, a, b, _⟩ => ⟨o, a, b⟩, hr.imp fun _ _ ⟨o, a, b, _⟩ => ⟨o, a, b⟩⟩
  · rw [h.saddles]
    unfold sortWalked
    dsimp only
    rw [h.walked, List.flatten_append, List.filter_append, List.filter_eq_self.2, List.filter_eq_nil_iff.2,
      List.append_nil]
    · intro k hk
      obtain ⟨o', a, b⟩ := kr k hk
      simp [a, b]
    · intro k hk
      obtain ⟨o', a, b⟩ := ks k hk
      simp [a, b]
  · rw [h.runoffs]
    unfold sortWalked
    dsimp only
    rw [h.walked, List.flatten_append, List.filter_append, List.filter_eq_nil_iff.2, List.filter_eq_self.2,
      List.nil_append]
    · intro k hk
      obtain ⟨o', a, b⟩ := kr k hk
      simp [a, b]
    · intro k hk
      obtain ⟨o', a, b⟩ := ks k hk
      simp [a, b]

/-- No saddle is walked twice. -/
theorem walked_once {E : SaddleEnv} {sites : List Pt} {m0 m : DMap} {news : List (List Nat)}
    (h0 : Fresh E.d sites m0) (h : WalkedMap E sites m0 m news) : m.saddles.Nodup := by
  have hp := h.apart
  obtain ⟨ns, nr, hn, hs, hr⟩ := forall₂_append_left _ _ h.outcomes
  rw [hn, List.pairwise_append] at hp
  have hns : ns.flatten.Nodup := by
    rw [List.nodup_flatten]
    refine ⟨fun new hnew => ?_, hp.1.imp fun hab => fun k ha hb => hab k ha hb⟩
    obtain ⟨b, hb, o, ho, hout, _⟩ := mem_of_forall₂ hs hnew
    obtain ⟨o1, ho1, hkind⟩ := h0.sad b hb
    have : o = o1 := by simpa using ho.symm.trans ho1
    subst this
    unfold Outcome at hout
    split at hout
    · exact hout.2.1
    · rename_i he
      rw [if_neg (by rw [hkind]; simp)] at hout
      obtain ⟨ids, rfl, _, hids, hsyn, _⟩ := hout
      rw [List.nodup_append]
      refine ⟨hids, by simp, ?_⟩
      rintro k hk _ hk' rfl
      rw [List.mem_singleton] at hk'
      subst hk'
      obtain ⟨o', a, c, _⟩ := hsyn k hk
      obtain ⟨o2, a2, c2, _⟩ := h.step.feat k o ho
      have : o' = o2 := by simpa using a.symm.trans a2
      subst this
      rw [← c2] at he
      exact he c.edge
  have hnr : ∀ k ∈ nr.flatten, ∃ o, m.st.objs[k]? = some o ∧ o.f.kind = .runoff := by
    intro k hk
    obtain ⟨new, hn, hk⟩ := List.mem_flatten.1 hk
    obtain ⟨b, hb, o, ho, hout, _⟩ := mem_of_forall₂ hr hn
    obtain ⟨o1, ho1, hkind, hedge⟩ := h0.run b hb
    have : o = o1 := by simpa using ho.symm.trans ho1
    subst this
    unfold Outcome at hout
    rw [if_neg (by rw [hedge]; simp), if_pos hkind] at hout
    have hkb : k = b := by
      rcases hout with ⟨rfl, _⟩ | ⟨_, rfl⟩
      · simpa using hk
      · simpa using hk
    rw [hkb]
    obtain ⟨o', a, c, _⟩ := h.step.feat b o ho
    exact ⟨o', a, by rw [c, hkind]⟩
  rw [h.saddles]
  unfold sortWalked
  dsimp only
  rw [h.walked, hn, List.flatten_append, List.filter_append,
    (List.filter_eq_nil_iff (l := nr.flatten)).2, List.append_nil]
  · exact hns.filter _
  · intro k hk
    obtain ⟨o, a, b⟩ := hnr k hk
    simp [a, b]

/-- C22 (weaker): the walk reports the discovered runoffs (among them the four corners) in order and no
others, each once or twice in a row; once only if it has no high neighbourhood. -/
theorem C22_runoffs_partial (E : SaddleEnv) (hE : RunOk E) (o : Pt → Oracle) (order : List Pt)
    (ho : IsScan E.d order) (rebuild : Bool) :
    ∃ D corners m0 m, analyze E.d o order = .ok D ∧ makeCornerRunoffs E.d = .ok corners ∧
      DMap.discover E.d E.fc o order rebuild = .ok m0 ∧ DMap.runSparse E o order rebuild = .ok m ∧
      List.Forall₂ (fun f k => m0.st.objs[k]? = some { f := f }) (D.runoffs ++ corners) m0.runoffs ∧
      m0.runoffs.Nodup ∧
      ∃ reported : List (List Nat), m.runoffs = reported.flatten ∧
        List.Forall₂ (fun k new => new = [k, k] ∨
          (new = [k] ∧ ∃ ob, m0.st.objs[k]? = some ob ∧ ob.f.hpn = [])) m0.runoffs reported := by
  obtain ⟨D, corners, m0, m, sites, news, h1, h2, h3, h4, _, _, h7, h8, h9⟩ := run_spec hE o order ho rebuild
  obtain ⟨ns, nr, _, e2, _, e4⟩ := walked_split h4 h9
  refine ⟨D, corners, m0, m, h1, h2, h3, h8, h7, (List.nodup_append.1 h4.nodup).2.1, nr, e2, ?_⟩
  refine forall₂_imp_mem e4 ?_
  rintro b new hb ⟨ob, hob, hout⟩
  obtain ⟨o1, ho1, hkind, hedge⟩ := h4.run b hb
  have : ob = o1 := by simpa using hob.symm.trans ho1
  subst this
  unfold Outcome at hout
  rw [if_neg (by rw [hedge]; simp), if_pos hkind] at hout
  rcases hout with ⟨h, _⟩ | ⟨h, h'⟩
  · exact .inl h
  · exact .inr ⟨h', ob, hob, h⟩

/-- C22 fails: every runoff that was found with higher ground around it is listed twice. -/
theorem C22_twice_refuted (E : SaddleEnv) (hE : RunOk E) (o : Pt → Oracle) (order : List Pt)
    (ho : IsScan E.d order) (rebuild : Bool) :
    ∃ m0 m, DMap.discover E.d E.fc o order rebuild = .ok m0 ∧ DMap.runSparse E o order rebuild = .ok m ∧
      ∀ k ∈ m0.runoffs, ∀ ob, m0.st.objs[k]? = some ob → ob.f.hpn ≠ [] → 2 ≤ m.runoffs.count k := by
  obtain ⟨D, corners, m0, m, _, _, h1, h2, _, _, reported, h3, h4⟩ := C22_runoffs_partial E hE o order ho rebuild
  refine ⟨m0, m, h1, h2, fun k hk ob hob hh => ?_⟩
  rw [h3]
  clear h3
  generalize m0.runoffs = l0 at h4 hk
  induction h4 with
  | nil => cases hk
  | @cons b new l r h _ ih =>
    rw [List.flatten_cons, List.count_append]
    rcases List.mem_cons.1 hk with rfl | hk
    · rcases h with rfl | ⟨_, ob', e, e'⟩
      · simp
      · cases (hob.symm.trans e : some _ = some _)
        exact absurd e' hh
    · exact le_trans (ih hk) (Nat.le_add_left _ _)

/-- Here runoffs 1 and 2 are listed twice; runoff 2 has become its own child. -/
example : ((exMap exRows false).toOption.bind fun m => m.st.objs[2]?.map fun ob =>
      (m.runoffs, ob.parent, ob.children)) =
    some ([1, 1, 2, 2, 3, 4, 5, 6], some 2, [2]) := by decide +kernel

/-- C65: the walk replaces every saddle off the map edge by one saddle less than it has high
neighbourhoods, each of the same elevation and with two nonempty high sides taken from those of the
original, and without parent; an edge saddle is kept, marked as disqualified, after the saddles made
from it, whose parent it is. -/
theorem C65_walked_saddles (E : SaddleEnv) (hE : RunOk E) (o : Pt → Oracle) (order : List Pt)
    (ho : IsScan E.d order) (rebuild : Bool) :
    ∃ m0 m, DMap.discover E.d E.fc o order rebuild = .ok m0 ∧ DMap.runSparse E o order rebuild = .ok m ∧
      ∃ made : List (List Nat), m.saddles = made.flatten ∧
        List.Forall₂ (fun k new => ∃ ob, m0.st.objs[k]? = some ob ∧ ∃ ids : List Nat,
          ids.length + 1 = ob.f.hpn.length ∧ ids.Nodup ∧
          (∀ i ∈ ids, ∃ o', m.st.objs[i]? = some o' ∧ SynthOf ob.f o'.f ∧
            o'.parent = if ob.f.edge then some k else none) ∧
          (ob.f.edge = false → new = ids) ∧
          (ob.f.edge = true → new = ids ++ [k] ∧
            ∃ o', m.st.objs[k]? = some o' ∧ o'.f = ob.f ∧ o'.disq = some true)) m0.saddles made := by
  obtain ⟨_, _, m0, m, sites, news, _, _, h3, h4, _, _, _, h8, h9⟩ := run_spec hE o order ho rebuild
  obtain ⟨ns, nr, e1, _, e3, _⟩ := walked_split h4 h9
  refine ⟨m0, m, h3, h8, ns, e1, ?_⟩
  refine forall₂_imp_mem e3 ?_
  rintro b new hb ⟨ob, hob, hout⟩
  obtain ⟨o1, ho1, hkind⟩ := h4.sad b hb
  have : ob = o1 := by simpa using hob.symm.trans ho1
  subst this
  refine ⟨ob, hob, ?_⟩
  unfold Outcome at hout
  by_cases he : ob.f.edge = false
  · rw [if_pos he] at hout
    obtain ⟨a, b', c⟩ := hout
    refine ⟨new, a, b', ?_, fun _ => rfl, by simp [he]⟩
    simpa [he] using c
  · have he' : ob.f.edge = true := by simpa using he
    rw [if_neg he, if_neg (by rw [hkind]; simp)] at hout
    obtain ⟨ids, a, b', c, d', o', f1, f2, _⟩ := hout
    refine ⟨ids, b', c, by simpa [he'] using d', by simp [he'], fun _ => ⟨a, o', f1, ?_, f2⟩⟩
    obtain ⟨o2, g1, g2, _⟩ := h9.step.feat b ob hob
    have : o' = o2 := by simpa using f1.symm.trans g1
    rw [this, g2]

/-- C65, once: the walked map lists every saddle once. -/
theorem C65_once (E : SaddleEnv) (hE : RunOk E) (o : Pt → Oracle) (order : List Pt)
    (ho : IsScan E.d order) (rebuild : Bool) :
    ∃ m, DMap.runSparse E o order rebuild = .ok m ∧ m.saddles.Nodup := by
  obtain ⟨_, _, m0, m, sites, news, _, _, _, h4, _, _, _, h8, h9⟩ := run_spec hE o order ho rebuild
  exact ⟨m, h8, walked_once h4 h9⟩

/-! ### C63 -/

/-- C63 (two high neighbourhoods only): after walking, an edge saddle with two high neighbourhoods has
the saddle made from it as its only new child; with more of them every child is listed twice. -/
theorem C63_children_partial (E : SaddleEnv) (hE : RunOk E) (o : Pt → Oracle) (order : List Pt)
    (ho : IsScan E.d order) (rebuild : Bool) :
    ∃ m0 m, DMap.discover E.d E.fc o order rebuild = .ok m0 ∧ DMap.runSparse E o order rebuild = .ok m ∧
      ∀ k ∈ m0.saddles, ∃ ob, m0.st.objs[k]? = some ob ∧ (ob.f.edge = true →
        ∃ o' ids, m.st.objs[k]? = some o' ∧ ids.Nodup ∧ ids.length + 1 = ob.f.hpn.length ∧
          (ob.f.hpn.length = 2 → o'.children = ob.children ++ ids) ∧
          (2 < ob.f.hpn.length → o'.children = ob.children ++ (ids ++ ids))) := by
  obtain ⟨_, _, m0, m, sites, news, _, _, h3, h4, _, _, _, h8, h9⟩ := run_spec hE o order ho rebuild
  obtain ⟨ns, nr, _, _, e3, _⟩ := walked_split h4 h9
  refine ⟨m0, m, h3, h8, fun k hk => ?_⟩
  obtain ⟨i, hi⟩ := List.mem_iff_getElem?.1 hk
  obtain ⟨new, _, ob, hob, hout⟩ := forall₂_getElem? e3 hi
  refine ⟨ob, hob, fun he => ?_⟩
  obtain ⟨o1, ho1, hkind⟩ := h4.sad k hk
  have : ob = o1 := by simpa using hob.symm.trans ho1
  subst this
  unfold Outcome at hout
  rw [if_neg (by rw [he]; simp), if_neg (by rw [hkind]; simp)] at hout
  obtain ⟨ids, _, a, b, _, o', f1, _, f3⟩ := hout
  refine ⟨o', ids, f1, b, a, fun h => ?_, fun h => ?_⟩
  · rw [f3, if_neg (by omega)]
  · rw [f3, if_pos h]

/-- C63 fails: the saddle on the border with four high neighbourhoods lists its three children
twice. -/
theorem C63_twice_refuted :
    ((exMap [[9, 5, 8, 5, 7], [1, 4, 1, 5, 1], [7, 5, 9, 1, 9]] false).toOption.bind fun m =>
      m.st.objs[1]?.map fun ob => (ob.f.edge, ob.f.hpn.length, ob.children)) =
    some (true, 4, [15, 16, 17, 15, 16, 17]) := by decide +kernel

/-! ### C66: collections of a walk -/

/-- C66: after a run the map's linkers are all linkers that were made, each once; its domains are those
of the linked summits, each once; and the saddles entered into a domain are those of the linkers of
its summit, in order. -/
theorem C66_collections (E : SaddleEnv) (hE : RunOk E) (o : Pt → Oracle) (order : List Pt)
    (ho : IsScan E.d order) (rebuild : Bool) :
    ∃ m, DMap.runSparse E o order rebuild = .ok m ∧ m.linkers.Nodup ∧
      (∀ i, i ∈ m.linkers ↔ ∃ l, m.st.store[i]? = some l) ∧ m.domains.Nodup ∧
      (∀ D, D ∈ m.domains ↔ ∃ i ∈ m.linkers, ∃ l, m.st.store[i]? = some l ∧ l.summit = D) ∧
      ∀ D, m.st.domSaddles D = (m.st.store.filter fun l => decide (l.summit = D)).map (·.saddle) := by
  obtain ⟨_, _, m0, m, _, _, _, _, _, _, _, _, _, h8, h9⟩ := run_spec hE o order ho rebuild
  have hm : ∀ i, i ∈ m.linkers ↔ i < m.st.store.length := fun i => by
    rw [h9.linkers, h9.inv.lk, List.mem_range]
  refine ⟨m, h8, ?_, ?_, ?_, ?_, h9.inv.dsad⟩
  · rw [h9.linkers, h9.inv.lk]; exact List.nodup_range
  · intro i
    rw [hm]
    exact ⟨fun h => ⟨_, List.getElem?_eq_getElem h⟩, fun ⟨_, h⟩ => lt_of_getElem? h⟩
  · rw [h9.domains]; exact h9.inv.doms.1
  · intro D
    rw [h9.domains, h9.inv.doms.2 D]
    constructor
    · rintro ⟨l, hl, rfl⟩
      obtain ⟨i, hi⟩ := List.mem_iff_getElem?.1 hl
      exact ⟨i, (hm i).2 (lt_of_getElem? hi), l, hi, rfl⟩
    · rintro ⟨i, _, l, hl, rfl⟩
      exact ⟨l, List.mem_of_getElem? hl, rfl⟩

/-- Instance of C66. -/
example : ((exMap exRows false).toOption.map fun m => (m.linkers, m.domains, m.st.domSaddles 0)) =
    some ([0, 1, 2, 3], [1, 0], [7, 2]) := by decide +kernel

/-! ### C64: rebuilding -/

/-- C64: rebuilding replaces each discovered saddle by one saddle less than it has high neighbourhoods,
as `Rebuilt` says: same elevation, two high sides, and, for an edge saddle, that saddle itself marked
as disqualified with each new one listed once as its child. Nothing is listed twice. -/
theorem C64_rebuild (E : SaddleEnv) (hE : RunOk E) (o : Pt → Oracle) (order : List Pt)
    (ho : IsScan E.d order) :
    ∃ D m, analyze E.d o order = .ok D ∧ DMap.discover E.d E.fc o order true = .ok m ∧
      m.saddles.Nodup ∧ ∃ news : List (List Nat), m.saddles = news.flatten ∧
        List.Forall₂ (fun (x : Feature × Nat) new => Rebuilt E.d { f := x.1 } x.2 m.st.objs new)
          D.saddles.zipIdx news := by
  obtain ⟨D, _, m, _, h1, _, h3, h4, _, h6, _⟩ := discover_spec hE.fc o order ho true
  unfold FromSaddles at h6
  rw [if_pos rfl] at h6
  exact ⟨D, m, h1, h3, (List.nodup_append.1 h4.nodup).1, h6⟩

/-- Instance of C64: four saddles, three of them on the border; saddle 1 with four high
neighbourhoods. -/
example : ((DMap.discover (DataMap.ofRows [[9, 5, 8, 5, 7], [1, 4, 1, 5, 1], [7, 5, 9, 1, 9]])
      (exRun (DataMap.ofRows [])).fc (fun _ => exOracle)
      (DataMap.ofRows [[9, 5, 8, 5, 7], [1, 4, 1, 5, 1], [7, 5, 9, 1, 9]]).cells true).toOption.map fun m =>
        (m.saddles, m.st.objs[1]?.map (·.children))) =
    some ([14, 0, 15, 16, 17, 1, 18, 19, 3], some [15, 16, 17]) := by decide +kernel

/-! ### C55 -/

/-- C55 fails: walking the selected saddle 0 on a fresh map replaces the linkers and domains of the
map, although the walked saddles are only returned. -/
theorem C55_overwrites_refuted :
    ((DMap.discover (DataMap.ofRows exRows) (exRun (DataMap.ofRows exRows)).fc (fun _ => exOracle)
        (DataMap.ofRows exRows).cells false).toOption.bind fun m =>
      (m.walk (exRun (DataMap.ofRows exRows)) [0]).toOption.map fun r =>
        ((m.saddles, m.linkers, m.domains), (r.1.saddles, r.1.linkers, r.1.domains), r.2.map (·.1))) =
    some (([0], [], []), ([0], [0, 1], [1, 0]), some [7]) := by decide +kernel

/-- C55 (saddles and runoffs only): walking selected saddles leaves the map's own lists of saddles,
runoffs and summits as they are, whatever the selection. Its linkers and domains are replaced. -/
theorem C55_selected_partial (E : SaddleEnv) (m m' : DMap) (sel : List Nat) (hs : sel ≠ [])
    (r : Option (List Nat × List Nat)) (h : m.walk E sel = .ok (m', r)) :
    m'.saddles = m.saddles ∧ m'.runoffs = m.runoffs ∧ m'.summits = m.summits := by
  have he : sel.isEmpty = false := by cases sel <;> simp_all
  unfold DMap.walk at h
  simp only [he, Bool.false_eq_true, if_false] at h
  cases h1 : walkInit E.d m.domPoints m.summits with
  | error e => rw [show walkInit _ m.domPoints m.summits = _ from h1] at h; simp [bind, Except.bind] at h
  | ok w =>
    rw [show walkInit _ m.domPoints m.summits = _ from h1] at h
    dsimp only [bind, Except.bind] at h
    split at h
    · simp at h
    · simp only [pure, Except.pure, Except.ok.injEq, Prod.mk.injEq] at h
      obtain ⟨rfl, _⟩ := h
      exact ⟨rfl, rfl, rfl⟩

end PyProm
