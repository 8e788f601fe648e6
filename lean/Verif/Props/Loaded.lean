import Verif.Model.Loaded
import Verif.Proof.BasinRename
import Verif.Proof.BasinThin
import Verif.Props.RunSerial

/-
C91: a loaded map is analysed as the saved one.
-/
namespace PyProm
open Spec

/-- The saddle of the run behind a position in a loaded map. -/
def DMap.savedAt (m : DMap) (P : Nat) : Nat := ((m.saddles ++ m.runoffs)[P]?).getD 0

/-- The network of the map with the first linker between each summit and saddle only. -/
def DMap.thinNet (m : DMap) : FNet := m.net.thin m.firstLink

/-- What loading gives for a run, in terms of positions. -/
structure LoadedAs (E : SaddleEnv) (m : DMap) (f : Flags) (s : LState) : Prop where
  summits : s.summits.length = m.summits.length
  saddles : s.saddles.length = m.saddles.length + m.runoffs.length
  sum : ∀ (D : Nat) g, m.summits[D]? = some g → ∃ t id, s.summits[D]? = some t ∧ SummitShown E.d id g t ∧
    t.links = (m.st.sumLinks D).filter m.firstLink
  sad : ∀ (P : Nat) k, (m.saddles ++ m.runoffs)[P]? = some k → ∃ ob t id, m.st.objs[k]? = some ob ∧
    s.saddles[P]? = some t ∧ SaddleShown E.d f k id ob.f t
  lists : ∀ (P : Nat) k, m.saddles[P]? = some k → ∃ t, s.saddles[P]? = some t ∧ t.links = (m.st.sadLinks k).filter m.firstLink ∧
    t.alts.map (m.saddles[·]?) = (saddleNos (f.alts (.saddle k))).map some
  link : ∀ (i : Nat) l, m.st.store[i]? = some l → ∃ t, s.linkers[i]? = some t ∧ t.disq = f.linkDisq i ∧
    t.summit = l.summit ∧ (m.saddles ++ m.runoffs)[t.saddle]? = some l.saddle

section
variable {E : SaddleEnv} {sites : List Pt} {m0 m : DMap} {news : List (List Nat)}

/-- A saddle that is not a runoff has one position. -/
theorem WalkedMap.at_once (hw : WalkedMap E sites m0 m news) (hnd : m.saddles.Nodup) {P Q k : Nat}
    (hP : m.saddles[P]? = some k) (hQ : (m.saddles ++ m.runoffs)[Q]? = some k) : Q = P := by
  have hk := ((hw.mem_saddles k).1 (List.mem_of_getElem? hP)).2
  have hlt := lt_of_getElem? hP
  by_cases hQn : Q < m.saddles.length
  · rw [List.getElem?_append_left hQn] at hQ
    exact (List.getElem?_inj hQn hnd).1 (hQ.trans hP.symm)
  · rw [List.getElem?_append_right (by omega)] at hQ
    rw [((hw.mem_runoffs k).1 (List.mem_of_getElem? hQ)).2] at hk
    cases hk

/-- Runoffs are on the edge. -/
theorem WalkedMap.runoff_edge (hw : WalkedMap E sites m0 m news) {k : Nat} {ob : SObj} (hk : k ∈ m.runoffs)
    (ho : m.st.objs[k]? = some ob) : ob.f.edge = true := by
  have h := ((hw.mem_runoffs k).1 hk).2
  unfold nonRunoff at h
  rw [ho] at h
  cases hed : ob.f.edge with
  | true => rfl
  | false =>
    have := (hw.inv.objs ob (List.mem_of_getElem? ho)).inner hed
    simp [this] at h

theorem LoadedAs.edge {f : Flags} {s : LState} (h : LoadedAs E m f s) (hw : WalkedMap E sites m0 m news) {P : Nat}
    (he : s.net.edge (.saddle P) = false) : P < m.saddles.length := by
  by_contra hlt
  cases ht : s.saddles[P]? with
  | none => simp [LState.net, LState.spot, ht] at he
  | some t =>
    have hP := lt_of_getElem? ht
    rw [h.saddles, ← List.length_append] at hP
    have hk := List.getElem?_eq_getElem hP
    obtain ⟨ob, t', id, h1, h2, h3⟩ := h.sad P _ hk
    rw [ht] at h2
    cases h2
    rw [List.getElem?_append_right (by omega)] at hk
    have := hw.runoff_edge (List.mem_of_getElem? hk) h1
    simp [LState.net, LState.spot, ht, h3.edge, this] at he

theorem savedAt_lt {P : Nat} (hP : P < m.saddles.length) : m.saddles[P]? = some (m.savedAt P) ∧
    (m.saddles ++ m.runoffs)[P]? = some (m.savedAt P) := by
  have e : (m.saddles ++ m.runoffs)[P]? = some m.saddles[P] := by
    rw [List.getElem?_append_left hP, List.getElem?_eq_getElem hP]
  unfold DMap.savedAt
  rw [e]
  exact ⟨List.getElem?_eq_getElem hP, rfl⟩

theorem LoadedAs.spot {f : Flags} {s : LState} (h : LoadedAs E m f s) {n : Node}
    (hn : GoodNode (· < m.saddles.length) n) :
    s.spot n = (m.feature (renameNode m.savedAt n)).map fun g => (g.lat, g.lon, g.elevation, g.edge) := by
  cases n with
  | summit D =>
    simp only [renameNode, DMap.feature]
    cases hg : m.summits[D]? with
    | none =>
      have : s.summits[D]? = none := by
        rw [List.getElem?_eq_none_iff, h.summits, ← List.getElem?_eq_none_iff]
        exact hg
      simp [LState.spot, this]
    | some g =>
      obtain ⟨t, id, h1, h2, _⟩ := h.sum D g hg
      simp [LState.spot, h1, h2.lat, h2.lon, h2.ele, h2.edge]
  | saddle P =>
    obtain ⟨ob, t, id, h1, h2, h3⟩ := h.sad P _ (savedAt_lt hn).2
    simp [LState.spot, renameNode, DMap.feature, h1, h2, h3.lat, h3.lon, h3.ele, h3.edge]

theorem LoadedAs.renames {f : Flags} {s : LState} (h : LoadedAs E m f s) (hw : WalkedMap E sites m0 m news)
    (hnd : m.saddles.Nodup) : Renames m.thinNet s.net (· < m.saddles.length) m.savedAt := by
  have hlinks : ∀ P, P < m.saddles.length → s.net.sadLinks P = m.thinNet.sadLinks (m.savedAt P) := by
    intro P hP
    obtain ⟨t, h1, h2, _⟩ := h.lists P _ (savedAt_lt hP).1
    simp [LState.net, DMap.thinNet, FNet.thin, DMap.net, h1, h2]
  have hsl : ∀ D, s.net.sumLinks D = m.thinNet.sumLinks D := by
    intro D
    cases hg : m.summits[D]? with
    | none =>
      have : s.summits[D]? = none := by
        rw [List.getElem?_eq_none_iff, h.summits, ← List.getElem?_eq_none_iff]
        exact hg
      have h0 : m.st.sumLinks D = [] := by
        rw [List.eq_nil_iff_forall_not_mem]
        intro i hi
        obtain ⟨l, hl, hD⟩ := hw.inv.sum D i hi
        obtain ⟨sf, _, e, _⟩ := hw.link hl
        rw [hD, hg] at e
        cases e
      simp [LState.net, DMap.thinNet, FNet.thin, DMap.net, this, h0]
    | some g =>
      obtain ⟨t, id, h1, _, h2⟩ := h.sum D g hg
      simp [LState.net, DMap.thinNet, FNet.thin, DMap.net, h1, h2]
  have hlk : ∀ (i : Nat) l, m.st.store[i]? = some l → (s.net.link i).1 = l.summit ∧
      (m.saddles ++ m.runoffs)[(s.net.link i).2]? = some l.saddle := by
    intro i l hl
    obtain ⟨t, h1, _, h2, h3⟩ := h.link i l hl
    simp [LState.net, h1, h2, h3]
  refine ⟨fun P Q hP hQ e => ?_, fun n hn => ?_, fun n hn => ?_, fun a b ha hb => ?_, fun a b => ?_, fun D => ?_, hsl, hlinks,
    fun P hP i hi => ?_, fun D i hi => ?_⟩
  · have h2 := (savedAt_lt hQ).2
    rw [← e] at h2
    exact (hw.at_once hnd (savedAt_lt hP).1 h2).symm
  · simp only [LState.net, h.spot hn, DMap.thinNet, FNet.thin, DMap.net, Option.map_map]
    rfl
  · simp only [LState.net, h.spot hn, DMap.thinNet, FNet.thin, DMap.net, Option.map_map]
    rfl
  · simp only [LState.net, LState.spotEq, h.spot ha, h.spot hb, DMap.thinNet, FNet.thin, DMap.net, featEq]
    cases m.feature (renameNode m.savedAt a) <;> cases m.feature (renameNode m.savedAt b) <;> rfl
  · have ha := h.spot (n := .summit a) trivial
    have hb := h.spot (n := .summit b) trivial
    simp only [LState.net, LState.summitSetEq, ha, hb, DMap.thinNet, FNet.thin, DMap.net, sumSetEq, renameNode, DMap.feature]
    cases m.summits[a]? <;> cases m.summits[b]? <;> rfl
  · change (s.summits[D]?.map (·.disq)).getD false = false
    cases ht : s.summits[D]? with
    | none => rfl
    | some t =>
      have hlt := lt_of_getElem? ht
      rw [h.summits] at hlt
      obtain ⟨t', id, h1, h2, _⟩ := h.sum D _ (List.getElem?_eq_getElem hlt)
      rw [ht] at h1
      cases h1
      exact h2.disq
  · rw [hlinks P hP] at hi
    obtain ⟨l, hl, _⟩ := hw.inv.sad _ i (List.mem_filter.1 hi).1
    rw [show m.thinNet.link i = m.net.link i from rfl, net_link hl]
    exact (hlk i l hl).1
  · rw [hsl D] at hi
    obtain ⟨l, hl, _⟩ := hw.inv.sum _ i (List.mem_filter.1 hi).1
    obtain ⟨_, e2⟩ := hlk i l hl
    rw [show m.thinNet.link i = m.net.link i from rfl, net_link hl]
    by_cases hQ : (s.net.link i).2 < m.saddles.length
    · refine .inl ⟨hQ, ?_⟩
      unfold DMap.savedAt
      rw [e2]
      rfl
    · have e3 := e2
      rw [List.getElem?_append_right (by omega)] at e3
      have hro := List.mem_of_getElem? e3
      obtain ⟨_, ob, _, hob, _⟩ := hw.link hl
      refine .inr ⟨hQ, ?_, ?_, fun P hP e => ?_⟩
      · by_contra hc
        exact hQ (h.edge hw (by simpa using hc))
      · simp [DMap.thinNet, FNet.thin, DMap.net, DMap.feature, hob, hw.runoff_edge hro hob]
      · have := (savedAt_lt hP).1
        rw [e] at this
        exact hQ (by rw [hw.at_once hnd this e2]; exact hP)

theorem LoadedAs.flagsAs {f : Flags} {s : LState} (h : LoadedAs E m f s) (hov : ∀ k, f.over k ≠ some false) :
    FlagsAs (· < m.saddles.length) m.savedAt (· < m.st.store.length) f s.flags := by
  have hsad := fun (P : Nat) (hP : P < m.saddles.length) => h.sad P _ (savedAt_lt hP).2
  have hal : ∀ P < m.saddles.length, ∃ L, saddleNos (s.flags.alts (.saddle P)) = L ∧
      L.map (m.saddles[·]?) = (saddleNos (f.alts (.saddle (m.savedAt P)))).map some := by
    intro P hP
    obtain ⟨t, h1, _, h2⟩ := h.lists P _ (savedAt_lt hP).1
    refine ⟨_, rfl, ?_⟩
    have : saddleNos (s.flags.alts (.saddle P)) = t.alts := by
      simp only [LState.flags, h1, Option.map_some, Option.getD_some]
      generalize t.alts = L
      induction L with
      | nil => rfl
      | cons a L ih => exact congrArg (a :: ·) ih
    rw [this, h2]
  refine ⟨fun P hP => ?_, fun P hP => ?_, fun P hP => ?_, fun i hi => ?_, fun P hP => ?_, fun P hP x hx => ?_⟩
  · obtain ⟨ob, t, id, h1, h2, h3⟩ := hsad P hP
    simp [LState.flags, h2, h3.basin]
  · obtain ⟨ob, t, id, h1, h2, h3⟩ := hsad P hP
    simp [LState.flags, h2, h3.single]
  · obtain ⟨ob, t, id, h1, h2, h3⟩ := hsad P hP
    have e1 : s.flags.over P = t.over := by simp [LState.flags, h2]
    rw [e1]
    have hov := hov (m.savedAt P)
    have hfr := h3.free
    have := h3.over
    rcases ht : t.over with _ | _ | _ <;> rcases hf : f.over (m.savedAt P) with _ | _ | _ <;> simp_all
  · obtain ⟨t, h1, h2, _⟩ := h.link i _ (List.getElem?_eq_getElem hi)
    simp [LState.flags, h1, h2]
  · obtain ⟨L, e1, e2⟩ := hal P hP
    rw [e1]
    clear e1
    generalize saddleNos (f.alts (.saddle (m.savedAt P))) = K at e2
    induction L generalizing K with
    | nil => cases K with
      | nil => rfl
      | cons _ _ => cases e2
    | cons a L ih => cases K with
      | nil => cases e2
      | cons k K =>
        simp only [List.map_cons, List.cons.injEq] at e2 ⊢
        refine ⟨?_, ih K e2.2⟩
        have := (savedAt_lt (lt_of_getElem? e2.1)).1
        rw [e2.1] at this
        exact (Option.some.inj this).symm
  · obtain ⟨L, e1, e2⟩ := hal P hP
    rw [e1] at hx
    have : m.saddles[x]? ∈ L.map (m.saddles[·]?) := List.mem_map.2 ⟨x, hx, rfl⟩
    rw [e2] at this
    obtain ⟨k, _, hk⟩ := List.mem_map.1 this
    exact lt_of_getElem? hk.symm

theorem LoadedAs.netFin {f : Flags} {s : LState} (h : LoadedAs E m f s) (hw : WalkedMap E sites m0 m news)
    (hnd : m.saddles.Nodup) (hN : NetFin m.net m.saddles f) : NetFin s.net (List.range m.saddles.length) s.flags := by
  have hR := h.renames hw hnd
  have hin : ∀ P, s.net.edge (.saddle P) = false → P < m.saddles.length ∧ m.net.edge (.saddle (m.savedAt P)) = false := by
    intro P he
    have hP := h.edge hw he
    exact ⟨hP, by rw [← he]; exact (hR.edge (.saddle P) hP).symm⟩
  refine ⟨fun D i hi => ?_, fun P he i hi => ?_, fun P hP => ?_, fun P ho => ?_⟩
  · have hi' := hi
    rw [hR.sumLinks D] at hi'
    replace hi' := (List.mem_filter.1 hi').1
    obtain ⟨l, hl, _⟩ := hw.inv.sum D i hi'
    obtain ⟨t, h1, _, h2, h3⟩ := h.link i l hl
    have e2 : (s.net.link i).2 = t.saddle := by simp [LState.net, h1]
    refine ⟨?_, fun he => ?_⟩
    · have := lt_of_getElem? h3
      rw [List.length_append, ← h.saddles] at this
      rw [e2]
      exact this
    · obtain ⟨hP, he'⟩ := hin _ he
      have e3 : m.savedAt (s.net.link i).2 = (m.net.link i).2 := by
        unfold DMap.savedAt
        rw [e2, h3, net_link hl]
        rfl
      have a1 := hR.elev (.saddle (s.net.link i).2) hP
      have a2 := hR.elev (.summit D) trivial
      rw [a1, a2]
      simp only [renameNode]
      rw [e3] at he' ⊢
      exact (hN.sum D i hi').2 he'
  · obtain ⟨hP, he'⟩ := hin P he
    have hi' := hi
    rw [hR.sadLinks P hP] at hi'
    replace hi' := (List.mem_filter.1 hi').1
    obtain ⟨b1, b2⟩ := hN.sad _ he' i hi'
    have a1 := hR.elev (.saddle P) hP
    have a2 := hR.elev (.summit (s.net.link i).1) trivial
    rw [a1, a2]
    simp only [renameNode]
    rw [hR.toSummit P hP i hi]
    refine ⟨?_, b2⟩
    change _ < s.summits.length
    rw [h.summits]
    exact b1
  · change P < s.saddles.length
    rw [h.saddles]
    have := List.mem_range.1 hP
    omega
  · cases ht : s.saddles[P]? with
    | none => simp [LState.flags, ht] at ho
    | some t =>
      have hP := lt_of_getElem? ht
      rw [h.saddles, ← List.length_append] at hP
      obtain ⟨ob, t', id, h1, h2, h3⟩ := h.sad P _ (List.getElem?_eq_getElem hP)
      rw [ht] at h2
      cases h2
      simp [LState.flags, ht] at ho
      exact h3.free ho

end

/-- Every run outside the exceptions of C76 is loaded so. -/
theorem run_loaded (E : SaddleEnv) (hE : RunOk E) (o : Pt → Oracle) (order : List Pt) (ho : IsScan E.d order)
    (rebuild : Bool) :
    ∃ D m, analyze E.d o order = .ok D ∧ DMap.runSparse E o order rebuild = .ok m ∧ m.saddles.Nodup ∧
      ((rebuild = false ∨ ∀ f ∈ D.saddles, f.edge = false) → EqualSame m →
        ∀ (ids : ObjIds), ids.Distinct → ∀ f, RunFlags E o order rebuild m f → ∀ fp,
        ∃ v s, (m.toL E.d f ids).toDict fp = .ok v ∧ LState.fromDict v.cbor fp = .ok (s, m.saddles.length) ∧
          LoadedAs E m f s) := by
  obtain ⟨D, m, a1, a2, a3⟩ := C76_run_saved_partial E hE o order ho rebuild
  obtain ⟨D', m', b1, b2, b3⟩ := C76_content_partial E hE o order ho rebuild
  cases (b1.symm.trans a1 : Except.ok _ = Except.ok _)
  cases (b2.symm.trans a2 : Except.ok _ = Except.ok _)
  obtain ⟨D', m', c1, c2, c3⟩ := C76_once_partial E hE o order ho rebuild
  cases (c1.symm.trans a1 : Except.ok _ = Except.ok _)
  cases (c2.symm.trans a2 : Except.ok _ = Except.ok _)
  obtain ⟨_, _, sites, m0, news, hw, hL⟩ := run_areas hE o order ho rebuild a2
  obtain ⟨m', d1, hnd, _⟩ := C68_containers_closed E hE o order ho rebuild
  cases (d1.symm.trans a2 : Except.ok _ = Except.ok _)
  refine ⟨D, m, a1, a2, hnd, fun he hd ids hi f hf fp => ?_⟩
  obtain ⟨v, s, n, p1, p2, p3, _, p4, _, p5, p6, _⟩ := a3 he ids hi f hf fp
  obtain ⟨v', s', n', q1, q2, q3, q4, q5, q6, q7, q8, q9, _⟩ := b3 he ids hi f hf fp
  cases (q1.symm.trans p1 : Except.ok _ = Except.ok _)
  cases (q2.symm.trans p2 : Except.ok _ = Except.ok _)
  obtain ⟨v', s', n', r1, r2, r3, r4⟩ := c3 he hd ids hi f hf fp
  cases (r1.symm.trans p1 : Except.ok _ = Except.ok _)
  cases (r2.symm.trans p2 : Except.ok _ = Except.ok _)
  have hlk : m.linkers = List.range m.st.store.length := by rw [hw.linkers, hw.inv.lk]
  refine ⟨v, s, p1, by rw [p2, p3], q3, q4, fun D g hg => ?_, fun P k hP => ?_, fun P k hP => ?_, fun i l hl => ?_⟩
  · obtain ⟨t, t1, t2⟩ := q7 D g hg
    obtain ⟨t', t1', t3⟩ := r3 D (lt_of_getElem? hg)
    rw [t1] at t1'
    cases t1'
    exact ⟨t, _, t1, t2, t3⟩
  · obtain ⟨ob, t, t1, t2, t3⟩ := q8 P k hP
    exact ⟨ob, t, _, t1, t2, t3⟩
  · have hP' : (m.saddles ++ m.runoffs)[P]? = some k := by
      rw [List.getElem?_append_left (lt_of_getElem? hP)]
      exact hP
    obtain ⟨t, t1, t2⟩ := r4 P k hP' fun Q hQ hQk => by
      have := hw.at_once hnd hP hQk
      omega
    have hlt := lt_of_getElem? hP
    refine ⟨t, t1, t2, ?_⟩
    exact (p6.2 P k t hP (by rw [List.getElem?_take_of_lt (by omega)]; exact t1)).2.2
  · have hlt := lt_of_getElem? hl
    obtain ⟨l', t, e1, e2, _, e4, e5, e6⟩ := q9 i i (by rw [hlk, List.getElem?_range hlt])
    rw [hl] at e1
    cases e1
    exact ⟨t, e2, e4, e5, e6⟩

/-- A saddle on the edge, or one with linkers to one summit only. -/
def DMap.slim (m : DMap) (k : Nat) : Prop := m.net.edge (.saddle k) = true ∨ (k ∈ m.saddles ∧
  (uniqueSummits m.net ((m.net.sadLinks k).map fun i => (m.net.link i).1)).length ≤ 1)

theorem unique_one {N : FNet} {D : Nat} (h : N.setEq D D = true) : ∀ l : List Nat, (∀ x ∈ l, x = D) →
    uniqueSummits N l = [] ∨ uniqueSummits N l = [D] := by
  intro l
  induction l using List.reverseRecOn with
  | nil => exact fun _ => .inl rfl
  | append_singleton l a ih =>
    intro hl
    obtain rfl : a = D := hl a (by simp)
    have ih := ih fun x hx => hl x (List.mem_append_left _ hx)
    unfold uniqueSummits at ih ⊢
    rw [List.foldl_append, List.foldl_cons, List.foldl_nil]
    rcases ih with ih | ih <;> rw [ih] <;> simp [h]

section
variable {E : SaddleEnv} {sites : List Pt} {m0 m : DMap} {news : List (List Nat)}

/-- Two linkers between a summit and a saddle. -/
theorem WalkedMap.slim (hw : WalkedMap E sites m0 m news) (hL : LInv m.st) {i j : Nat} {l : LinkRec} (hij : i ≠ j)
    (hi : m.st.store[i]? = some l) (hj : m.st.store[j]? = some l) (hi' : i ∈ m.st.sadLinks l.saddle)
    (hj' : j ∈ m.st.sadLinks l.saddle) : m.slim l.saddle := by
  by_cases he : m.net.edge (.saddle l.saddle) = true
  · exact .inl he
  · have he : m.net.edge (.saddle l.saddle) = false := by simpa using he
    obtain ⟨ob, hob, hoe⟩ := net_edge he
    have hf : m.st.feats[l.saddle]? = some ob.f := by simp [CSt.feats, hob]
    have hseen := hL.seen l (List.mem_of_getElem? hi) ob.f hf hoe
    have hfew := hL.few l.saddle ob.f hf hoe
    rw [hw.two hseen hob hoe] at hfew
    refine .inr ⟨(hw.mem_saddles _).2 ⟨hseen, ?_⟩, ?_⟩
    · unfold nonRunoff
      rw [hob]
      simp [(hw.inv.objs ob (List.mem_of_getElem? hob)).inner hoe]
    · have hall : ∀ x ∈ m.st.sadLinks l.saddle, x = i ∨ x = j := by
        generalize m.st.sadLinks l.saddle = L at hfew hi' hj'
        match L, hfew with
        | [], _ => cases hi'
        | [a], _ =>
          rw [List.mem_singleton] at hi' hj'
          exact absurd (hi'.trans hj'.symm) hij
        | [a, b], _ =>
          simp only [List.mem_cons, List.not_mem_nil, or_false] at hi' hj' ⊢
          omega
      obtain ⟨sf, _, e1, _⟩ := hw.inv.links l (List.mem_of_getElem? hi)
      rw [← hw.summits] at e1
      have hrefl : m.net.setEq l.summit l.summit = true := by simp [DMap.net, sumSetEq, e1, seNe, seEq]
      rcases unique_one hrefl ((m.net.sadLinks l.saddle).map fun i => (m.net.link i).1) (by
        intro x hx
        obtain ⟨y, hy, rfl⟩ := List.mem_map.1 hx
        rcases hall y hy with rfl | rfl
        · rw [net_link hi]
        · rw [net_link hj]) with e | e <;> rw [e] <;> simp

theorem WalkedMap.repeats (hw : WalkedMap E sites m0 m news) (hL : LInv m.st) (hF : FirstListed m.st) :
    Repeats m.net m.firstLink m.slim := by
  have hlisted : ∀ (i : Nat) l, m.st.store[i]? = some l → m.firstLink i = true → i ∈ m.st.sumLinks l.summit := by
    intro i l hl hf
    by_contra hc
    obtain ⟨j, hj, e⟩ := hF.first i l hl hc
    exact firstLink_iff.1 hf j hj (e.trans hl.symm)
  have hpre : ∀ {L pre post : List Nat} {i j : Nat}, L.Pairwise (· < ·) → L = pre ++ i :: post → j ∈ L → j < i → j ∈ pre := by
    intro L pre post i j hp e hj hlt
    rw [e] at hp hj
    rcases List.mem_append.1 hj with h | h
    · exact h
    · exfalso
      rw [List.pairwise_append, List.pairwise_cons] at hp
      rcases List.mem_cons.1 h with rfl | h
      · omega
      · have := hp.2.1.1 j h
        omega
  have hfst : ∀ (i : Nat) l, m.st.store[i]? = some l → m.firstLink i = false → ∃ j < i, m.st.store[j]? = some l ∧
      j ∈ m.st.sumLinks l.summit ∧ j ∈ m.st.sadLinks l.saddle := by
    intro i l hl hb
    obtain ⟨j, h1, h2, h3⟩ := exists_first i l hl
    have hne : j ≠ i := by
      rintro rfl
      rw [hb] at h3
      cases h3
    have := hlisted j l h2 h3
    exact ⟨j, by omega, h2, this, (hF.both j l h2).1 this⟩
  constructor
  · intro D pre i post e hb
    have hi : i ∈ m.st.sumLinks D := by
      rw [show m.st.sumLinks D = _ from e]
      simp
    obtain ⟨l, hl, rfl⟩ := hw.inv.sum D i hi
    obtain ⟨j, hj, h2, h3, h4⟩ := hfst i l hl hb
    refine ⟨?_, j, hpre (hL.once l.summit).1.1 e h3 hj, by rw [net_link hl, net_link h2]⟩
    rw [net_link hl]
    exact hw.slim hL (by omega) hl h2 ((hF.both i l hl).1 hi) h4
  · intro k pre i post e hb
    have hi : i ∈ m.st.sadLinks k := by
      rw [show m.st.sadLinks k = _ from e]
      simp
    obtain ⟨l, hl, rfl⟩ := hw.inv.sad k i hi
    obtain ⟨j, hj, h2, h3, h4⟩ := hfst i l hl hb
    refine ⟨hw.slim hL (by omega) hl h2 hi h4, ⟨j, hpre (hL.once l.saddle).2.1 e h4 hj, by rw [net_link hl, net_link h2]⟩, ?_⟩
    obtain ⟨sf, _, e1, _⟩ := hw.inv.links l (List.mem_of_getElem? hl)
    rw [← hw.summits] at e1
    rw [net_link hl]
    simp [DMap.net, sumSetEq, e1, seNe, seEq]

end

/-- Spec: the flags `f'` of a loaded map are the flags `f` of the saved map `m`: at each position the saddle has the
same flags and its alternatives are at the positions of those of the saved one; the linkers in `which` have the same flags. -/
structure Spec.FlagsLoaded (m : DMap) (which : Nat → Prop) (f f' : Flags) : Prop where
  basin : ∀ (P : Nat) k, m.saddles[P]? = some k → f'.basin P = f.basin k
  single : ∀ (P : Nat) k, m.saddles[P]? = some k → f'.single P = f.single k
  disq : ∀ (P : Nat) k, m.saddles[P]? = some k → f'.saddleDisq P = f.saddleDisq k
  alts : ∀ (P : Nat) k, m.saddles[P]? = some k →
    (saddleNos (f'.alts (.saddle P))).map (m.saddles[·]?) = (saddleNos (f.alts (.saddle k))).map some
  linkers : ∀ i < m.st.store.length, which i → f'.linkDisq i = f.linkDisq i

theorem Spec.FlagsAs.loaded {m : DMap} {f f' : Flags}
    (h : FlagsAs (· < m.saddles.length) m.savedAt (· < m.st.store.length) f f') : FlagsLoaded m (fun _ => True) f f' := by
  have hat : ∀ (P : Nat) k, m.saddles[P]? = some k → P < m.saddles.length ∧ m.savedAt P = k := by
    intro P k hP
    have hlt := lt_of_getElem? hP
    have := (savedAt_lt hlt).1
    rw [hP] at this
    exact ⟨hlt, (Option.some.inj this).symm⟩
  refine ⟨fun P k hP => ?_, fun P k hP => ?_, fun P k hP => ?_, fun P k hP => ?_, fun i hi _ => h.linkDisq i hi⟩ <;>
    obtain ⟨hlt, rfl⟩ := hat P k hP
  · exact h.basin P hlt
  · exact h.single P hlt
  · exact h.saddleDisq hlt
  · rw [← h.alts P hlt, List.map_map]
    exact List.map_congr_left fun x hx => (savedAt_lt (h.altsGood P hlt x hx)).1

/-- C91 (where it holds): save the map of a run, before or after basin saddle detection, load it again and detect basin
saddles in both. It finishes in both and marks the same: at every position the saddle of the loaded map has the flags
and alternatives of the saddle of the run, and linkers are disqualified alike; of several linkers between a summit and a saddle
this holds for the first, the others keep the flag they were saved with (`C91_linkers_refuted`). In particular the loaded map
has these flags before. Missing: what is missing in C76, and maps where linkers of other summits or saddles compare equal
(`C91_saddles_refuted`). -/
theorem C91_loaded_partial (E : SaddleEnv) (hE : RunOk E) (o : Pt → Oracle) (order : List Pt)
    (ho : IsScan E.d order) (rebuild : Bool) :
    ∃ D m, analyze E.d o order = .ok D ∧ DMap.runSparse E o order rebuild = .ok m ∧
      ((rebuild = false ∨ ∀ f ∈ D.saddles, f.edge = false) → EqualSame m →
        ∀ (ids : ObjIds), ids.Distinct → ∀ f, RunFlags E o order rebuild m f → ∀ fp,
        ∃ v s, (m.toL E.d f ids).toDict fp = .ok v ∧ LState.fromDict v.cbor fp = .ok (s, m.saddles.length) ∧
          FlagsLoaded m (fun _ => True) f s.flags ∧
          ∀ fuel, m.saddles.length + m.st.objs.length < fuel →
          ∀ fuel', m.saddles.length + s.saddles.length < fuel' →
            ∃ f1 f1', m.detectBasins fuel f = .ok f1 ∧ s.detectBasins m.saddles.length fuel' = .ok f1' ∧
              FlagsLoaded m (fun i => ∀ j < i, m.st.store[j]? ≠ m.st.store[i]?) f1 f1' ∧
              ∀ (i j : Nat) l, i < j → m.st.store[i]? = some l → m.st.store[j]? = some l →
                f1'.linkDisq j = f.linkDisq j) := by
  obtain ⟨D, m, a1, a2, hnd, a3⟩ := run_loaded E hE o order ho rebuild
  obtain ⟨_, _, sites, m0, news, hw, hL⟩ := run_areas hE o order ho rebuild a2
  refine ⟨D, m, a1, a2, fun he hd ids hi f hf fp => ?_⟩
  obtain ⟨v, s, p1, p2, p3⟩ := a3 he hd ids hi f hf fp
  have hF := run_first hE o order ho rebuild a2 hd
  have hov : f.over = m.flags.over := by
    rcases hf with rfl | ⟨fu, hr⟩
    · rfl
    · unfold DMap.run at hr
      rw [a2] at hr
      dsimp only [bind, Except.bind] at hr
      cases hd' : m.detectBasins fu m.flags with
      | error e => rw [hd'] at hr; cases hr
      | ok f' =>
        rw [hd'] at hr
        cases hr
        exact basins_over hd'
  have hN : NetFin m.net m.saddles f :=
    ⟨hw.netFin.sum, hw.netFin.sad, hw.netFin.bound, by rw [hov]; exact hw.netFin.over⟩
  have hfl := p3.flagsAs hN.over
  refine ⟨v, s, p1, p2, hfl.loaded, fun fuel hfu fuel' hfu' => ?_⟩
  obtain ⟨f1, h1⟩ := basin_terminates hN hfu
  obtain ⟨f1', h2⟩ := basin_terminates (p3.netFin hw hnd hN) (fuel := fuel') (by rw [List.length_range]; exact hfu')
  obtain ⟨r, h3, h4⟩ := thin_detect (hw.repeats hL hF) (f := f) (g := f) (z₀ := f.linkDisq)
    ⟨rfl, rfl, rfl, rfl, fun _ _ => rfl, fun _ _ => rfl⟩ hN.over (fun k hk => hk) h1
  have hsad : m.saddles = (List.range m.saddles.length).map m.savedAt := by
    refine List.ext_getElem? fun P => ?_
    by_cases hP : P < m.saddles.length
    · rw [(savedAt_lt hP).1, List.getElem?_map, List.getElem?_range hP]
      rfl
    · rw [List.getElem?_eq_none (by omega), List.getElem?_eq_none (by simpa using hP)]
  have h3' : disqualifyBasinSaddles m.thinNet fuel m.saddles f = .ok r := h3
  rw [hsad] at h3'
  have h5 := ((p3.renames hw hnd).detect hfl (fun P hP => List.mem_range.1 hP) h3' h2).loaded
  refine ⟨f1, f1', h1, h2, ⟨fun P k hP => ?_, fun P k hP => ?_, fun P k hP => ?_, fun P k hP => ?_, fun i hi hk => ?_⟩,
    fun i j l hij hi' hj' => ?_⟩
  · rw [h5.basin P k hP, h4.basin]
  · rw [h5.single P k hP, h4.single]
  · rw [h5.disq P k hP, h4.saddleDisq]
  · rw [h5.alts P k hP, h4.alts]
  · rw [h5.linkers i hi trivial, h4.linkDisq i (firstLink_iff.2 hk)]
  · rw [h5.linkers j (lt_of_getElem? hj') trivial, h4.rest j ?_]
    rw [← Bool.not_eq_true, firstLink_iff]
    exact fun hc => hc i hij (by rw [hi', hj'])

/-- A crater with two lowest saddles of the same height. -/
def exTwinLow : List (List Rat) := [[0, 0, 0, 0, 0], [0, 9, 3, 8, 0], [0, 4, 1, 7, 0], [0, 7, 3, 6, 0], [0, 0, 0, 0, 0]]

/-- Saving and loading a map of which the basin saddles were not detected, and detecting them then. -/
def exLoadDetect (rows : List (List Rat)) : Option (Nat × Flags) :=
  (exMap rows false).toOption.bind fun m =>
    ((m.toL (DataMap.ofRows rows) m.flags exIds).toDict ⟨7, 8⟩).toOption.bind fun v =>
      (LState.fromDict v.cbor ⟨7, 8⟩).toOption.bind fun r => (r.1.detectBasins r.2 99).toOption.map ((r.2, ·))

/-- Instances of C91: no two linkers compare equal; of the two lowest saddles one becomes a basin saddle, with the
other as its alternative, and so in the loaded map. -/
example : RunOk (exRun (DataMap.ofRows exTwinLow)) ∧ (exMap exTwinLow false).toOption.map linkersDifferB = some true :=
  ⟨exRun_plain _ (by unfold maxsize; decide +kernel), by decide +kernel⟩

example : (exFull exTwinLow false 99).toOption.map (fun r => (r.1.saddles,
    r.1.saddles.map r.2.basin, r.1.saddles.map fun k => saddleNos (r.2.alts (.saddle k)))) =
    some ([7, 8, 9], [true, false, false], [[9], [], [7]]) := by decide +kernel

example : (exLoadDetect exTwinLow).map (fun r => (r.1,
    (List.range r.1).map r.2.basin, (List.range r.1).map fun P => saddleNos (r.2.alts (.saddle P)))) =
    some (3, [true, false, false], [[2], [], [0]]) := by decide +kernel

/-- C91 fails for linkers, for every map with a saddle off the edge that lists two linkers to the same summit and reports no
disqualification: detection disqualifies both linkers in the map of the run, but only the first of them in the loaded map. -/
theorem C91_linkers_refuted (E : SaddleEnv) (hE : RunOk E) (o : Pt → Oracle) (order : List Pt)
    (ho : IsScan E.d order) (rebuild : Bool) :
    ∃ D m, analyze E.d o order = .ok D ∧ DMap.runSparse E o order rebuild = .ok m ∧
      ((rebuild = false ∨ ∀ f ∈ D.saddles, f.edge = false) → EqualSame m →
        ∀ (i j : Nat) l, i < j → m.st.store[i]? = some l → m.st.store[j]? = some l →
          i ∈ m.st.sadLinks l.saddle → j ∈ m.st.sadLinks l.saddle → m.net.edge (.saddle l.saddle) = false → m.flags.saddleDisq l.saddle = false →
        ∀ (ids : ObjIds), ids.Distinct → ∀ fp,
        ∃ v s, (m.toL E.d m.flags ids).toDict fp = .ok v ∧ LState.fromDict v.cbor fp = .ok (s, m.saddles.length) ∧
          ∀ fuel, m.saddles.length + m.st.objs.length < fuel →
          ∀ fuel', m.saddles.length + s.saddles.length < fuel' →
            ∃ f1 f1', m.detectBasins fuel m.flags = .ok f1 ∧ s.detectBasins m.saddles.length fuel' = .ok f1' ∧
              f1.linkDisq i = true ∧ f1.linkDisq j = true ∧ f1'.linkDisq i = true ∧
              f1'.linkDisq j = false) := by
  obtain ⟨D, m, a1, a2, a3⟩ := C91_loaded_partial E hE o order ho rebuild
  obtain ⟨_, _, sites, m0, news, hw, hL⟩ := run_areas hE o order ho rebuild a2
  refine ⟨D, m, a1, a2, fun he hd i j l hij hi hj hil hjl hedge hdq ids hid fp => ?_⟩
  have hF := run_first hE o order ho rebuild a2 hd
  obtain ⟨v, s, b1, b2, b3, b4⟩ := a3 he hd ids hid m.flags (.inl rfl) fp
  refine ⟨v, s, b1, b2, fun fuel hfu fuel' hfu' => ?_⟩
  obtain ⟨f1, f1', c1, c2, c3, c4⟩ := b4 fuel hfu fuel' hfu'
  have hfirst : ∀ h < i, m.st.store[h]? ≠ m.st.store[i]? := by
    obtain ⟨h', e1, e2, e3⟩ := exists_first i l hi
    have hl' : h' ∈ m.st.sumLinks l.summit := by
      by_contra hcc
      obtain ⟨h'', q1, q2⟩ := hF.first h' l e2 hcc
      exact firstLink_iff.1 e3 h'' q1 (q2.trans e2.symm)
    have hl'' := (hF.both h' l e2).1 hl'
    obtain ⟨ob, hob, hoe⟩ := net_edge hedge
    have hf : m.st.feats[l.saddle]? = some ob.f := by simp [CSt.feats, hob]
    have hfew := hL.few l.saddle ob.f hf hoe
    rw [hw.two (hL.seen l (List.mem_of_getElem? hi) ob.f hf hoe) hob hoe] at hfew
    obtain rfl : h' = i := by
      generalize m.st.sadLinks l.saddle = L at hfew hil hjl hl''
      match L, hfew with
      | [], _ => cases hil
      | [a], _ => simp only [List.mem_singleton] at hil hjl; omega
      | [a, b], _ =>
        simp only [List.mem_cons, List.not_mem_nil, or_false] at hil hjl hl''
        omega
    exact firstLink_iff.1 e3
  have hs : m.slim l.saddle := hw.slim hL (by omega) hi hj hil hjl
  rcases hs with hs | ⟨hs1, hs2⟩
  · rw [hedge] at hs
    cases hs
  have hm := basins_marked (show disqualifyBasinSaddles m.net fuel m.saddles m.flags = .ok f1 from c1)
  have hout : ¬ SaddleOut m.flags l.saddle := by
    rw [← saddleDisq_iff, hdq]
    simp
  have hall : ∀ x ∈ m.st.sadLinks l.saddle, f1.linkDisq x = true := fun x hx =>
    hm.link x (((stubPass_spec m.net (basinFeatures m.net m.saddles) m.flags).2.2.2.2 x).2
      (.inr ⟨l.saddle, (sortElev_perm _ _).mem_iff.2 ((mem_toSet _ _).2 hs1), hout, hs2, hx⟩))
  exact ⟨f1, f1', c1, c2, hall i hil, hall j hjl, by rw [c3.linkers i (lt_of_getElem? hi) hfirst, hall i hil],
    by rw [c4 i j l hij hi hj]; rfl⟩

/-- An instance of C91 with two linkers between a summit and a saddle: both are disqualified in the map of the run, the
first only in the loaded one; the saddle is marked in both. -/
example : (exFull exLoop false 99).toOption.map (fun r => (r.1.saddles.map r.2.single,
    r.1.st.store.map fun l => (l.summit, l.saddle),
    (List.range 2).map r.2.linkDisq)) = some ([true], [(0, 5), (0, 5)], [true, true]) := by decide +kernel

example : (exLoadDetect exLoop).map (fun r => (r.1, (List.range r.1).map r.2.single, (List.range 2).map r.2.linkDisq)) =
    some (1, [true], [true, false]) := by decide +kernel

/-- Saddles of different summits that compare equal, next to a crater. -/
def exOther : List (List Rat) := [[0, 0, 0, 0, 0, 0, 0], [0, 2, 0, 1, 0, 3, 0], [0, 0, 3, 0, 3, 1, 0], [0, 1, 2, 1, 0, 1, 0],
  [0, 0, 2, 1, 0, 2, 0], [0, 3, 2, 1, 1, 1, 0], [0, 0, 0, 0, 0, 0, 0]]

/-- C91 fails for saddles where linkers of other saddles compare equal: the detection marks other saddles in the loaded map
than in the map of the run, although the loaded map has the same saddles in the same places. -/
theorem C91_saddles_refuted : ∃ m f f' n, RunOk (exRun (DataMap.ofRows exOther)) ∧
    exFull exOther false 99 = .ok (m, f) ∧ exLoadDetect exOther = some (n, f') ∧ n = m.saddles.length ∧
    (List.range n).map f'.basin = [true, false, false, false, true] ∧
    m.saddles.map f.basin = [true, true, false, false, false] := by
  have h1 : (exFull exOther false 99).toOption.map (fun r => (r.1.saddles.length, r.1.saddles.map r.2.basin)) =
      some (5, [true, true, false, false, false]) := by decide +kernel
  have h2 : (exLoadDetect exOther).map (fun r => (r.1, (List.range r.1).map r.2.basin)) =
      some (5, [true, false, false, false, true]) := by decide +kernel
  cases hr : exFull exOther false 99 with
  | error e => rw [hr] at h1; cases h1
  | ok r =>
    obtain ⟨m, f⟩ := r
    cases hq : exLoadDetect exOther with
    | none => rw [hq] at h2; cases h2
    | some q =>
      obtain ⟨n, f'⟩ := q
      rw [hr] at h1
      rw [hq] at h2
      simp only [Except.toOption, Option.map_some, Option.some.injEq, Prod.mk.injEq] at h1 h2
      exact ⟨m, f, f', n, exRun_plain _ (by unfold maxsize; decide +kernel), rfl, rfl, by rw [h1.1, h2.1], h2.2, h1.2⟩

end PyProm
