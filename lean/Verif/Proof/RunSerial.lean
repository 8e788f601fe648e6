import Verif.Model.RunSerial
import Verif.Proof.BasinAlts
import Verif.Props.Serial
import Verif.Props.RunFamily

/-
The saved form of a complete run: areas of all features, membership of everything that is referred to
-/
namespace PyProm
open Spec

/-! ### Areas -/

/-- The recorded area of the feature begins with a cell of its elevation. -/
def AreaAt (d : DataMap) (f : Feature) : Prop :=
  ∀ pts, f.multipoint = some pts → ∃ m ms, pts = m :: ms ∧ Data d (m.x, m.y) ∧ f.elevation = el d (m.x, m.y)

theorem areaAt_none {d : DataMap} {f : Feature} (h : f.multipoint = none) : AreaAt d f :=
  fun _ hp => by rw [h] at hp; cases hp

theorem recordsArea_at {d : DataMap} {q : Pt} (hq : Data d q) {mp : Option (List MPt)} (h : RecordsArea d q mp) :
    ∀ pts, mp = some pts → ∃ m ms, pts = m :: ms ∧ Data d (m.x, m.y) ∧ el d q = el d (m.x, m.y) := by
  rintro pts rfl
  rcases h with ⟨h, _⟩ | ⟨l, h, _, h2, _⟩
  · cases h
  · have h := Option.some.inj h
    cases l with
    | nil => exact absurd ((h2 q).2 .refl) (by simp)
    | cons a l =>
      obtain ⟨h3, h4⟩ := flat_data hq ((h2 a).1 (by simp))
      exact ⟨_, _, h, h3, h4.symm⟩

theorem grown_areaAt {d : DataMap} {q : Pt} {mp : Option (List MPt)} (high : List (List P3))
    (h : ∀ pts, mp = some pts → ∃ m ms, pts = m :: ms ∧ Data d (m.x, m.y) ∧ el d q = el d (m.x, m.y)) (n : Nat) :
    ∀ pts, grown mp high n = some pts → ∃ m ms, pts = m :: ms ∧ Data d (m.x, m.y) ∧ el d q = el d (m.x, m.y) := by
  induction n with
  | zero => exact h
  | succ n ih =>
    intro pts hp
    rw [grown, Option.map_eq_some_iff] at hp
    obtain ⟨pts', h1, rfl⟩ := hp
    obtain ⟨m, ms, rfl, h2⟩ := ih pts' h1
    exact ⟨m, _, rfl, h2⟩

theorem region_areaAt {d : DataMap} {q : Pt} (hq : Data d q) {mp : Option (List MPt)} {fs : List Feature}
    {high lower str : List (List P3)} {bps : List P3} (hm : RecordsArea d q mp)
    (t : RegionTable d q mp fs high lower str bps) : ∀ f ∈ fs, AreaAt d f := by
  have h0 := recordsArea_at hq hm
  intro f hf
  by_cases hb : OnBorder d q
  · by_cases hh : high = []
    · rw [t.borderSummit hb hh] at hf
      simp only [List.mem_cons, List.not_mem_nil, or_false] at hf
      rcases hf with rfl | rfl <;> exact h0
    · by_cases hl : lower.length ≤ 1
      · rw [t.borderFew hb hh hl] at hf
        split at hf
        · rw [List.mem_singleton.1 hf]; exact h0
        · cases hf
      · obtain ⟨cs, rs, rem, _, h3, _, _, h6⟩ := t.borderMany hb hh (by omega)
        rw [h6, List.mem_append] at hf
        rcases hf with hf | hf
        · have : ∃ c, RunoffFor d q c f := by
            clear h6
            clear * - h3 hf
            unfold RunoffsFor at h3
            induction h3 with
            | nil => cases hf
            | @cons c g cs' rs' hcg _ ih =>
              rcases List.mem_cons.1 hf with rfl | hf
              · exact ⟨c, hcg.1⟩
              · exact ih hf
          obtain ⟨c, _, _, _, _, r5, _⟩ := this
          exact areaAt_none r5
        · split at hf
          · rw [List.mem_singleton] at hf
            split at hf <;> subst hf <;> exact grown_areaAt high h0 _
          · cases hf
  · rw [t.interior hb] at hf
    split at hf
    · rw [List.mem_singleton.1 hf]; exact h0
    · split at hf
      · rw [List.mem_singleton.1 hf]; exact h0
      · cases hf

theorem analyze_areaAt {d : DataMap} {o : Pt → Oracle} {order : List Pt} (ho : IsScan d order) {D : Discovered}
    (h : analyze d o order = .ok D) : ∀ f ∈ D.summits ++ D.saddles ++ D.runoffs, AreaAt d f := by
  obtain ⟨regs, _, h2, h3⟩ := analyze_spec d o order ho
  rw [h3] at h
  cases h
  have hr : ∀ f ∈ regs.flatMap Region.features, AreaAt d f := by
    intro f hf
    obtain ⟨r, hr, hfr⟩ := List.mem_flatMap.1 hf
    obtain ⟨hd, _, _, _, _, _, hm, t⟩ := h2 r hr
    exact region_areaAt hd hm t f hfr
  intro f hf
  simp only [List.mem_append, List.mem_filter] at hf
  rcases hf with (⟨hf, _⟩ | ⟨hf, _⟩) | ⟨hf, _⟩ <;> exact hr f hf

theorem corner_areaAt {d : DataMap} {cs : List Feature} (h : makeCornerRunoffs d = .ok cs) :
    ∀ f ∈ cs, AreaAt d f := by
  have key : ∀ {loc : Rat × Rat} {x y : Int} {f : Feature}, cornerRunoff d loc x y = .ok f → AreaAt d f := by
    intro loc x y f hf
    unfold cornerRunoff at hf
    cases hg : d.get x y with
    | none => rw [hg] at hf; cases hf
    | some e => rw [hg] at hf; cases hf; exact areaAt_none rfl
  unfold makeCornerRunoffs at h
  obtain ⟨_, a1, h⟩ := bind_ok h
  obtain ⟨_, a2, h⟩ := bind_ok h
  obtain ⟨_, a3, h⟩ := bind_ok h
  obtain ⟨_, a4, h⟩ := bind_ok h
  cases h
  intro f hf
  simp only [List.mem_cons, List.not_mem_nil, or_false] at hf
  rcases hf with rfl | rfl | rfl | rfl
  · exact key a1
  · exact key a2
  · exact key a3
  · exact key a4

theorem areaAt_sound {d : DataMap} {f : Feature} (h : AreaAt d f) : ∀ a, f.area d = some a → AreaSound a := by
  intro a ha
  unfold Feature.area at ha
  rw [Option.map_eq_some_iff] at ha
  obtain ⟨pts, h1, rfl⟩ := ha
  obtain ⟨m, ms, rfl, h2, h3⟩ := h pts h1
  obtain ⟨b, hb, hs⟩ := equalHeightBlob_spec d (m.x, m.y) h2
  refine ⟨by simp, Perim.ofBlob b, ?_, ?_, _, rfl⟩
  · dsimp only [List.head?_cons, Option.bind_some]
    rw [h3, hb]
    rfl
  · have := hs.perimNodup
    unfold List.Nodup at this
    rw [List.pairwise_map] at this
    refine this.imp ?_
    intro p q hpq hc
    exact hpq (Prod.ext hc.1 hc.2)

theorem forall2_right {α β} {R : α → β → Prop} {l : List α} {r : List β} (h : List.Forall₂ R l r) {y : β}
    (hy : y ∈ r) : ∃ x ∈ l, R x y := by
  induction h with
  | nil => cases hy
  | @cons a b l' r' hab _ ih =>
    rcases List.mem_cons.1 hy with rfl | hy
    · exact ⟨a, by simp, hab⟩
    · obtain ⟨x, hx, h⟩ := ih hy
      exact ⟨x, by simp [hx], h⟩

/-- All walked objects have their areas. -/
theorem walked_areaAt {E : SaddleEnv} {sites : List Pt} {m0 m : DMap} {news : List (List Nat)} {D : Discovered}
    {corners : List Feature} {rebuild : Bool} (hA : ∀ f ∈ D.summits ++ D.saddles ++ D.runoffs, AreaAt E.d f)
    (hC : ∀ f ∈ corners, AreaAt E.d f) (h1 : FromSaddles E.d rebuild D.saddles m0)
    (h2 : List.Forall₂ (fun f k => m0.st.objs[k]? = some { f := f }) (D.runoffs ++ corners) m0.runoffs)
    (hw : WalkedMap E sites m0 m news) : ∀ k ∈ m.st.walked, ∃ o, m.st.objs[k]? = some o ∧ AreaAt E.d o.f := by
  have plain : ∀ {fs : List Feature} {ks : List Nat}, (∀ f ∈ fs, AreaAt E.d f) →
      List.Forall₂ (fun f k => m0.st.objs[k]? = some { f := f }) fs ks →
      ∀ k ∈ ks, ∀ o, m0.st.objs[k]? = some o → AreaAt E.d o.f := by
    intro fs ks hfs h
    induction h with
    | nil => intro k hk; cases hk
    | @cons f k fs' ks' hfk _ ih =>
      intro j hj o ho
      rcases List.mem_cons.1 hj with rfl | hj
      · rw [hfk] at ho
        cases ho
        exact hfs f (by simp)
      · exact ih (fun f hf => hfs f (by simp [hf])) j hj o ho
  have hsad : ∀ f ∈ D.saddles, AreaAt E.d f := fun f hf => hA f (by simp [hf])
  have base : ∀ b ∈ m0.saddles ++ m0.runoffs, ∀ o, m0.st.objs[b]? = some o → AreaAt E.d o.f := by
    intro b hb
    rcases List.mem_append.1 hb with hb | hb
    · unfold FromSaddles at h1
      cases rebuild with
      | false => exact plain hsad h1 b hb
      | true =>
        rw [if_pos rfl] at h1
        obtain ⟨nw, e1, e2⟩ := h1
        rw [e1] at hb
        obtain ⟨new, hn, hbn⟩ := List.mem_flatten.1 hb
        have hex := forall2_right e2 hn
        obtain ⟨⟨f, i⟩, hx, ids, _, _, r3, r4⟩ := hex
        have hf : f ∈ D.saddles := by
          have := List.mem_map_of_mem (f := Prod.fst) hx
          rwa [List.zipIdx_map_fst] at this
        have hid : ∀ j ∈ ids, ∀ o, m0.st.objs[j]? = some o → AreaAt E.d o.f := by
          intro j hj o ho
          obtain ⟨o', h3, h4, _⟩ := r3 j hj
          rw [h3] at ho
          cases ho
          exact areaAt_none h4.mp
        intro o ho
        dsimp only at r4
        split at r4
        · obtain ⟨rfl, r5⟩ := r4
          rcases List.mem_append.1 hbn with hbn | hbn
          · exact hid b hbn o ho
          · rw [List.mem_singleton.1 hbn, r5] at ho
            cases ho
            exact hsad f hf
        · obtain ⟨rfl, _⟩ := r4
          exact hid b hbn o ho
    · refine plain (fun f hf => ?_) h2 b hb
      rcases List.mem_append.1 hf with hf | hf
      · exact hA f (by simp [hf])
      · exact hC f hf
  intro k hk
  rw [hw.walked] at hk
  obtain ⟨new, hn, hkn⟩ := List.mem_flatten.1 hk
  obtain ⟨b, hb, o, ho, hout, _⟩ := forall2_right hw.outcomes hn
  obtain ⟨ob, g1, g2, _⟩ := hw.step.feat b o ho
  have hbase : ∃ o', m.st.objs[b]? = some o' ∧ AreaAt E.d o'.f := ⟨ob, g1, by rw [g2]; exact base b hb o ho⟩
  unfold Outcome at hout
  split at hout
  · obtain ⟨o', a, c, _⟩ := hout.2.2 k hkn
    exact ⟨o', a, areaAt_none c.mp⟩
  · split at hout
    · rcases hout with ⟨rfl, _⟩ | ⟨_, rfl⟩
      · have : k = b := by simpa using hkn
        rw [this]; exact hbase
      · have : k = b := by simpa using hkn
        rw [this]; exact hbase
    · obtain ⟨ids, rfl, _, _, a, _⟩ := hout
      rcases List.mem_append.1 hkn with hkn | hkn
      · obtain ⟨o', a1, a2, _⟩ := a k hkn
        exact ⟨o', a1, areaAt_none a2.mp⟩
      · rw [List.mem_singleton.1 hkn]; exact hbase

/-! ### The saved form -/

/-- Different objects have different ids. -/
structure ObjIds.Distinct (ids : ObjIds) : Prop where
  sum : Function.Injective ids.sum
  sad : Function.Injective ids.sad

theorem mem_saddleNos {l : List Node} {k : Nat} : k ∈ saddleNos l ↔ Node.saddle k ∈ l := by
  unfold saddleNos
  rw [List.mem_filterMap]
  constructor
  · rintro ⟨n, h1, h2⟩
    cases n with
    | summit D => cases h2
    | saddle j => cases h2; exact h1
  · intro h
    exact ⟨_, h, rfl⟩

theorem toL_closed {E : SaddleEnv} {sites : List Pt} {m0 m : DMap} {news : List (List Nat)}
    (hw : WalkedMap E sites m0 m news) {P : Prop} (hF : FamSt P [] m.st) (hP : P)
    (hA : ∀ k ∈ m.st.walked, ∃ o, m.st.objs[k]? = some o ∧ AreaAt E.d o.f)
    (hS : ∀ f ∈ m.summits, AreaAt E.d f) {f : Flags} (hf : ∀ n k, Node.saddle k ∈ f.alts n → k ∈ m.saddles)
    {ids : ObjIds} (hi : ids.Distinct) : Spec.Closed (m.toL E.d f ids) := by
  have hmem : ∀ k, k ∈ m.saddles ++ m.runoffs ↔ k ∈ m.st.walked := by
    intro k
    rw [List.mem_append, hw.mem_saddles, hw.mem_runoffs]
    cases nonRunoff m.st.objs k <;> simp
  have hpar : ∀ j p, par m.st.objs j = some p → (j ∈ m.saddles ↔ p ∈ m.saddles) ∧ j ∈ m.st.walked ∧ p ∈ m.st.walked := by
    intro j p hp
    obtain ⟨g1, g2, oj, op, g3, g4, g5, _⟩ := hF.closed hP j p hp
    have hk : nonRunoff m.st.objs j = nonRunoff m.st.objs p := by
      unfold nonRunoff
      rw [g3, g4]
      dsimp only
      rw [g5]
    rw [hw.mem_saddles, hw.mem_saddles, hk]
    exact ⟨⟨fun h => ⟨g2, h.2⟩, fun h => ⟨g1, h.2⟩⟩, g1, g2⟩
  have hlink : ∀ l ∈ m.st.store, l.summit < m.summits.length ∧ l.saddle ∈ m.saddles ++ m.runoffs := by
    intro l hl
    obtain ⟨i, hi', hg⟩ := List.mem_iff_getElem.1 hl
    obtain ⟨sf, _, g1, _⟩ := hw.link (i := i) (l := l) (by rw [List.getElem?_eq_getElem hi', hg])
    exact ⟨lt_of_getElem? g1, (hmem _).2 (hF.store l hl)⟩
  refine ⟨?_, ?_, ?_, ?_, ?_, ?_, ?_, ?_⟩
  · exact List.Nodup.map hi.sum List.nodup_range
  · refine List.Nodup.map hi.sad ?_
    show m.saddles.Nodup
    rw [hw.saddles]
    exact hF.once
  · intro k _ k' _ e
    exact hi.sad e
  · intro k hk
    change k ∈ m.saddles at hk
    refine ⟨fun c hc => ?_, fun c hc => ?_, fun c hc => ?_⟩
    · change c ∈ (m.st.objs[k]?.getD { f := .blank }).children at hc
      have hck : c ∈ kids m.st.objs k := by
        unfold kids
        cases ho : m.st.objs[k]? with
        | none => rw [ho] at hc; cases hc
        | some o => rw [ho] at hc; exact hc
      exact (hpar c k ((hF.fam c k).1 hck)).1.2 hk
    · change (m.st.objs[k]?.getD { f := .blank }).parent = some c at hc
      have hck : par m.st.objs k = some c := by
        unfold par
        cases ho : m.st.objs[k]? with
        | none => rw [ho] at hc; cases hc
        | some o => rw [ho] at hc; exact hc
      exact (hpar k c hck).1.1 hk
    · exact hf _ c (mem_saddleNos.1 hc)
  · intro i hi'
    change i ∈ m.linkers at hi'
    rw [hw.linkers, hw.inv.lk, List.mem_range] at hi'
    have e := net_link (List.getElem?_eq_getElem hi')
    obtain ⟨a, b⟩ := hlink _ (List.getElem_mem hi')
    constructor
    · change (m.net.link i).1 ∈ List.range m.summits.length
      rw [e]
      exact List.mem_range.2 a
    · change (m.net.link i).2 ∈ m.saddles ++ m.runoffs
      rw [e]
      exact b
  · intro D hD
    change D ∈ m.domains at hD
    rw [hw.domains, hw.inv.doms.2] at hD
    obtain ⟨l, hl, rfl⟩ := hD
    refine ⟨List.mem_range.2 (hlink l hl).1, fun k hk => ?_⟩
    change k ∈ m.st.domSaddles l.summit at hk
    rw [hw.inv.dsad] at hk
    obtain ⟨l', hl', rfl⟩ := List.mem_map.1 hk
    exact (hlink l' (List.mem_filter.1 hl').1).2
  · intro D hD a ha
    have hD := List.mem_range.1 hD
    change ((m.summits[D]?.getD .blank).area E.d) = some a at ha
    rw [List.getElem?_eq_getElem hD] at ha
    exact areaAt_sound (hS _ (List.getElem_mem hD)) a ha
  · intro k hk a ha
    obtain ⟨o, h1, h2⟩ := hA k ((hmem k).1 hk)
    change ((m.st.objs[k]?.getD { f := .blank }).f.area E.d) = some a at ha
    rw [h1] at ha
    exact areaAt_sound h2 a ha

/-! ### Rebuilding without edge saddles makes no families -/

theorem rebuildOne_noPar {d : DataMap} {fc : PairSearch} {objs objs' : List SObj} {k : Nat} {new : List Nat}
    (h : rebuildOne d fc objs k = .ok (objs', new)) {o : SObj} (ho : objs[k]? = some o) (he : o.f.edge = false)
    (hp : ∀ j, par objs j = none) : objs <+: objs' ∧ ∀ j, par objs' j = none := by
  unfold rebuildOne at h
  rw [ho] at h
  dsimp only at h
  split at h
  · cases h; exact ⟨List.prefix_refl _, hp⟩
  · obtain ⟨fs, _, h⟩ := bind_ok h
    rw [he] at h
    cases h
    refine ⟨List.prefix_append _ _, fun j => ?_⟩
    unfold par
    by_cases hj : j < objs.length
    · rw [List.getElem?_append_left hj]
      exact hp j
    · rw [List.getElem?_append_right (by omega), List.getElem?_map]
      cases fs[j - objs.length]? <;> rfl

theorem rebuildSaddles_noPar {d : DataMap} {fc : PairSearch} : ∀ (ks : List Nat) (objs objs' : List SObj)
    (new : List Nat), rebuildSaddles d fc ks objs = .ok (objs', new) →
    (∀ k ∈ ks, ∃ o, objs[k]? = some o ∧ o.f.edge = false) → (∀ j, par objs j = none) → ∀ j, par objs' j = none
  | [], objs, objs', new, h, _, hp => by
    unfold rebuildSaddles at h; cases h; exact hp
  | k :: ks, objs, objs', new, h, hk, hp => by
    unfold rebuildSaddles at h
    obtain ⟨⟨o1, n1⟩, h1, h⟩ := bind_ok h
    obtain ⟨⟨o2, n2⟩, h2, h⟩ := bind_ok h
    cases h
    obtain ⟨o, ho, he⟩ := hk k (by simp)
    obtain ⟨a1, a2⟩ := rebuildOne_noPar h1 ho he hp
    refine rebuildSaddles_noPar ks o1 _ _ h2 (fun j hj => ?_) a2
    obtain ⟨oj, b1, b2⟩ := hk j (by simp [hj])
    exact ⟨oj, prefix_getElem? a1 b1, b2⟩

theorem discover_noPar {d : DataMap} {fc : PairSearch} {o : Pt → Oracle} {order : List Pt} {rebuild : Bool}
    {D : Discovered} {m : DMap} (hD : analyze d o order = .ok D) (hm : DMap.discover d fc o order rebuild = .ok m)
    (he : rebuild = false ∨ ∀ f ∈ D.saddles, f.edge = false) : ∀ k, par m.st.objs k = none := by
  cases rebuild with
  | false => exact (discover_fam hm).2.2 rfl
  | true =>
    have he := he.resolve_left (by simp)
    unfold DMap.discover at hm
    obtain ⟨D', hD', hm⟩ := bind_ok hm
    obtain rfl : D = D' := by simpa using hD.symm.trans hD'
    obtain ⟨corners, _, hm⟩ := bind_ok hm
    obtain ⟨⟨objs, saddles⟩, h1, hm⟩ := bind_ok hm
    cases hm
    refine rebuildSaddles_noPar _ _ _ _ h1 (fun k hk => ?_) (par_start _)
    have hk := List.mem_range.1 hk
    refine ⟨{ f := D.saddles[k] }, ?_, he _ (List.getElem_mem hk)⟩
    rw [List.getElem?_map, prefix_getElem? (List.prefix_append _ _) (List.getElem?_eq_getElem hk)]
    rfl

/-- The saved form of a complete run is closed. -/
theorem run_closed {E : SaddleEnv} (hE : RunOk E) (o : Pt → Oracle) (order : List Pt) (ho : IsScan E.d order)
    (rebuild : Bool) :
    ∃ D m, analyze E.d o order = .ok D ∧ DMap.runSparse E o order rebuild = .ok m ∧
      (∃ sites m0 news, WalkedMap E sites m0 m news) ∧
      ((rebuild = false ∨ ∀ f ∈ D.saddles, f.edge = false) → ∀ (ids : ObjIds), ids.Distinct →
        Spec.Closed (m.toL E.d m.flags ids) ∧
        ∀ fuel f, DMap.run E o order rebuild fuel = .ok (m, f) → Spec.Closed (m.toL E.d f ids) ∧ f.over = m.flags.over) := by
  obtain ⟨D, corners, m0, m, sites, news, h1, h2, h3, h4, h5, h6, h7, h8, h9⟩ := run_spec hE o order ho rebuild
  refine ⟨D, m, h1, h8, ⟨_, _, _, h9⟩, fun he ids hi => ?_⟩
  have hw : m0.walk E [] = .ok (m, none) := by
    obtain ⟨m', _, w1, _⟩ := walk_spec hE h4
    have h8' := h8
    unfold DMap.runSparse at h8'
    rw [h3] at h8'
    dsimp only [bind, Except.bind] at h8'
    rw [w1] at h8'
    cases h8'
    exact w1
  obtain ⟨f1, f2, _⟩ := discover_fam h3
  have hF := walk_fam hE h4 f1 f2 hw
  have hA := analyze_areaAt ho h1
  have hall : ∀ f : Flags, (∀ n k, Node.saddle k ∈ f.alts n → k ∈ m.saddles) → Spec.Closed (m.toL E.d f ids) := by
    intro f hf
    refine toL_closed h9 hF (discover_noPar h1 h3 he) (walked_areaAt hA (corner_areaAt h2) h6 h7 h9) ?_ hf hi
    rw [h9.summits, h5]
    exact fun g hg => hA g (by simp [hg])
  refine ⟨hall _ fun n k hk => (nomatch hk), fun fuel f hr => ?_⟩
  unfold DMap.run at hr
  obtain ⟨m', hm', hr⟩ := bind_ok hr
  obtain rfl : m = m' := by simpa using h8.symm.trans hm'
  obtain ⟨f', hb, hr⟩ := bind_ok hr
  cases hr
  refine ⟨hall f ?_, basins_over hb⟩
  have := basins_alts (N := m.net) (Q := fun n => match n with
    | .saddle k => k ∈ m.saddles
    | .summit _ => True) ?_ (fun k hk => hk) (fun _ => rfl) hb
  · exact fun n k hk => this n _ hk
  · intro z n hn hed
    cases n with
    | summit D => trivial
    | saddle k =>
      cases z with
      | saddle j =>
        obtain ⟨i, _, e⟩ := List.mem_map.1 hn
        cases e
      | summit S =>
        obtain ⟨i, hi', e⟩ := List.mem_map.1 hn
        obtain ⟨l, hl, _⟩ := h9.inv.sum S i hi'
        rw [net_link hl] at e
        cases e
        obtain ⟨_, ob, _, g2, _⟩ := h9.link hl
        refine (h9.mem_saddles _).2 ⟨hF.store l (List.mem_of_getElem? hl), ?_⟩
        have hk := (h9.inv.objs ob (List.mem_of_getElem? g2)).inner (by
          simpa [DMap.net, DMap.feature, g2] using hed)
        unfold nonRunoff
        rw [g2]
        simp [hk]

/-! ### Rebuilt edge saddles -/

/-- After rebuilding, every discovered edge saddle has a child that is not in the map. -/
theorem rebuilt_child {E : SaddleEnv} (hE : RunOk E) (o : Pt → Oracle) (order : List Pt) (ho : IsScan E.d order) :
    ∃ D m, analyze E.d o order = .ok D ∧ DMap.runSparse E o order true = .ok m ∧
      (∀ k ∈ m.st.walked, ∃ o, m.st.objs[k]? = some o ∧ AreaAt E.d o.f) ∧ (∀ f ∈ m.summits, AreaAt E.d f) ∧
      (∃ sites m0 news, WalkedMap E sites m0 m news) ∧
      ∀ f ∈ D.saddles, f.edge = true → ∃ k ∈ m.saddles, ∃ c ∈ kids m.st.objs k, c ∉ m.st.walked := by
  obtain ⟨D, corners, m0, m, sites, news, h1, h2, h3, h4, h5, h6, h7, h8, h9⟩ := run_spec hE o order ho true
  have hA := analyze_areaAt ho h1
  refine ⟨D, m, h1, h8, walked_areaAt hA (corner_areaAt h2) h6 h7 h9, ?_, ⟨_, _, _, h9⟩, ?_⟩
  · rw [h9.summits, h5]
    exact fun g hg => hA g (by simp [hg])
  have hw : m0.walk E [] = .ok (m, none) := by
    obtain ⟨m', _, w1, _⟩ := walk_spec hE h4
    have h8' := h8
    unfold DMap.runSparse at h8'
    rw [h3] at h8'
    dsimp only [bind, Except.bind] at h8'
    rw [w1] at h8'
    cases h8'
    exact w1
  obtain ⟨f1, f2, _⟩ := discover_fam h3
  have hF := walk_fam hE h4 f1 f2 hw
  intro f hf he
  obtain ⟨D', _, g1, _, g3, _⟩ := analyze_walkable E.d o order ho
  obtain rfl : D' = D := by simpa using g1.symm.trans h1
  have h2len : 2 ≤ f.hpn.length := (g3 f hf).1.saddle (g3 f hf).2
  unfold FromSaddles at h6
  rw [if_pos rfl] at h6
  obtain ⟨nw, e1, e2⟩ := h6
  obtain ⟨i, hi, rfl⟩ := List.mem_iff_getElem.1 hf
  have hzi : D'.saddles.zipIdx[i]? = some (D'.saddles[i], i) := by
    simp [List.getElem?_zipIdx, List.getElem?_eq_getElem hi]
  obtain ⟨new, hn1, ids, hlen, _, r3, r4⟩ := forall₂_getElem? e2 hzi
  dsimp only at r3 r4 hlen
  rw [he] at r3 r4
  simp only [if_true] at r3 r4
  obtain ⟨rfl, r5⟩ := r4
  have hmem : ∀ j ∈ ids ++ [i], j ∈ m0.saddles := by
    intro j hj
    rw [e1]
    exact List.mem_flatten.2 ⟨_, List.mem_of_getElem? hn1, hj⟩
  obtain ⟨c, hc⟩ : ∃ c, c ∈ ids := by
    cases ids with
    | nil => simp at hlen; omega
    | cons a l => exact ⟨a, by simp⟩
  -- the edge saddle is walked and keeps the child
  obtain ⟨p, hp⟩ := List.mem_iff_getElem?.1 (List.mem_append_left m0.runoffs (hmem i (by simp)))
  obtain ⟨newi, hni, oi, q1, q2, _⟩ := forall₂_getElem? h9.outcomes hp
  rw [r5] at q1
  cases q1
  have hsad := (g3 _ hf).2
  unfold Outcome at q2
  dsimp only at q2
  rw [if_neg (by rw [he]; simp), if_neg (by rw [hsad]; simp)] at q2
  obtain ⟨ids', rfl, _, _, _, ob, q3, q4, q5⟩ := q2
  have hwi : i ∈ m.st.walked := by
    rw [h9.walked]
    exact List.mem_flatten.2 ⟨_, List.mem_of_getElem? hni, by simp⟩
  have hci : c ∈ kids m.st.objs i := by
    unfold kids
    rw [q3]
    simp only [Option.map_some, Option.getD_some]
    rw [q5]
    simp [hc]
  have hpar : par m.st.objs c = some i := (hF.fam c i).1 hci
  refine ⟨i, ?_, c, hci, ?_⟩
  · refine (h9.mem_saddles i).2 ⟨hwi, ?_⟩
    obtain ⟨ob', s1, s2, _⟩ := h9.step.feat i _ r5
    unfold nonRunoff
    rw [s1]
    dsimp only
    rw [s2]
    dsimp only
    rw [hsad]
    rfl
  · intro hcw
    rw [h9.walked] at hcw
    obtain ⟨newc, hnc, hcc⟩ := List.mem_flatten.1 hcw
    obtain ⟨b, hb, obj, t1, t2, t3⟩ := forall2_right h9.outcomes hnc
    obtain ⟨oc, u1, u2, _⟩ := r3 c hc
    rcases t3 c hcc with rfl | hlt
    · rw [u1] at t1
      cases t1
      unfold Outcome at t2
      rw [if_pos u2.edge] at t2
      obtain ⟨o', v1, _, v3⟩ := t2.2.2 c hcc
      unfold par at hpar
      rw [v1] at hpar
      simp only [Option.bind_some] at hpar
      rw [v3] at hpar
      cases hpar
    · have := lt_of_getElem? u1
      omega

end PyProm
