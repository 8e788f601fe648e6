import Verif.Proof.DomainMap

/-
The linkers made for every feature of a walk.
-/
namespace PyProm
open Spec

/-- The linkers made for object `k` so far. -/
def recs (s : CSt) (k : Nat) : List LinkRec := s.store.filter fun l => decide (l.saddle = k)

/-- The linker made for one high neighbourhood: to a summit reached from its first point without descent. -/
def RecOf (d : DataMap) (sites : List Pt) (k : Nat) (c : List P3) (l : LinkRec) : Prop :=
  l.saddle = k ∧ ∃ h0 top, c.head? = some h0 ∧ SummitArea d sites l.summit top ∧ Ascends d h0.xy top

theorem recs_append {d : DataMap} {sites : List Pt} {s s' : CSt} {sid : Nat} {es : List (List P3)} {new : List LinkRec}
    (h : s'.store = s.store ++ new) (hn : List.Forall₂ (RecOf d sites sid) es new) (k : Nat) :
    recs s' k = if k = sid then recs s k ++ new else recs s k := by
  have key : ∀ l ∈ new, l.saddle = sid := by
    intro l hl
    obtain ⟨i, hi⟩ := List.mem_iff_getElem?.1 hl
    have hil : i < es.length := by rw [hn.length_eq]; exact lt_of_getElem? hi
    obtain ⟨l', g1, g2⟩ := forall₂_getElem? hn (List.getElem?_eq_getElem hil)
    cases (g1.symm.trans hi : some _ = some _)
    exact g2.1
  unfold recs
  rw [h, List.filter_append]
  by_cases hk : k = sid
  · have e : new.filter (fun l => decide (l.saddle = k)) = new :=
      List.filter_eq_self.2 fun l hl => by simp [key l hl, hk]
    rw [if_pos hk, e]
  · have e : new.filter (fun l => decide (l.saddle = k)) = [] := by
      rw [List.filter_eq_nil_iff]
      intro l hl
      have : ¬ sid = k := fun e => hk e.symm
      simp [key l hl, this]
    rw [if_neg hk, e, List.append_nil]

theorem recs_same {s s' : CSt} (h : s'.store = s.store) (k : Nat) : recs s' k = recs s k := by
  unfold recs
  rw [h]

theorem linkEdges_recs {E : SaddleEnv} {sites : List Pt} {ig : Bool} {sid : Nat} : ∀ (es : List (List P3)) {s s' : CSt},
    WInv E.d (SummitArea E.d sites) s.w → (∀ e ∈ es, ∀ p ∈ e, ∃ D, s.w.lookup p.xy = some D) →
    linkEdges E ig sid es s = .ok s' →
    s'.w = s.w ∧ ∃ new, s'.store = s.store ++ new ∧ List.Forall₂ (RecOf E.d sites sid) es new := by
  intro es
  induction es with
  | nil =>
    intro s s' _ _ h
    cases h
    exact ⟨rfl, [], by simp, .nil⟩
  | cons e es ih =>
    intro s s' hw hl h
    cases e with
    | nil => cases h
    | cons h0 e =>
      unfold linkEdges at h
      obtain ⟨D, hD⟩ := hl (h0 :: e) (by simp) h0 (by simp)
      rw [hD] at h
      obtain ⟨e1, new, e2, e3⟩ := ih (s := addLinker E ig s D sid) hw (fun e' he' => hl e' (List.mem_cons_of_mem _ he')) h
      obtain ⟨_, t, t1, t2⟩ := hw.sound _ _ hD
      refine ⟨e1, ⟨D, sid⟩ :: new, ?_, .cons ⟨rfl, h0, t, rfl, t1, t2⟩ e3⟩
      rw [e2]
      simp [addLinker]

theorem walkSynthetic_recs {E : SaddleEnv} {sites : List Pt} (hE : SEnvOk E sites) {s s' : CSt} (hs : CInv E sites s) {sid : Nat}
    {o : SObj} (ho : s.objs[sid]? = some o) (h : walkSynthetic E s sid = .ok s') :
    ∃ new, s'.store = s.store ++ new ∧ List.Forall₂ (RecOf E.d sites sid) o.f.hpn new := by
  have hf := hs.objs o (List.mem_of_getElem? ho)
  obtain ⟨w', a1, a2, _, a4⟩ := climbEdges_spec hE o.f.hpn s.w hs.w
    fun e he p hp => ⟨((hf.high e he).2 p hp).1, ((hf.high e he).2 p hp).2.1⟩
  unfold walkSynthetic at h
  rw [ho] at h
  dsimp only at h
  rw [a1] at h
  dsimp only [bind, Except.bind] at h
  obtain ⟨s1, h1, h2⟩ := bind_ok h
  cases h2
  exact (linkEdges_recs o.f.hpn (s := { s with w := w' }) a2 a4 h1).2

theorem walkSynthetics_recs {E : SaddleEnv} {sites : List Pt} (hE : SEnvOk E sites) : ∀ (ids : List Nat) (s s' : CSt),
    CInv E sites s → ids.Nodup → (∀ k ∈ ids, k < s.objs.length ∧ s.sadLinks k = []) →
    ids.foldlM (walkSynthetic E) s = .ok s' →
    (∀ k, k ∉ ids → recs s' k = recs s k) ∧ ∀ k ∈ ids, ∀ o, s.objs[k]? = some o →
      ∃ new, recs s' k = recs s k ++ new ∧ List.Forall₂ (RecOf E.d sites k) o.f.hpn new := by
  intro ids
  induction ids with
  | nil =>
    intro s s' _ _ _ h
    cases h
    exact ⟨fun _ _ => rfl, by simp⟩
  | cons i ids ih =>
    intro s s' hs hn hk h
    obtain ⟨hi1, hi2⟩ := hk i (by simp)
    obtain ⟨s1, a1, a2, a3, a4, _⟩ := walkSynthetic_spec hE hs (List.getElem?_eq_getElem hi1) hi2
    obtain ⟨new, n1, n2⟩ := walkSynthetic_recs hE hs (List.getElem?_eq_getElem hi1) a1
    obtain ⟨hni, hn'⟩ := List.nodup_cons.1 hn
    rw [List.foldlM_cons, a1] at h
    obtain ⟨b1, b2⟩ := ih s1 s' a2 hn' (by
      intro k hk'
      obtain ⟨c1, c2⟩ := hk k (List.mem_cons_of_mem _ hk')
      have hne : k ≠ i := by rintro rfl; exact hni hk'
      exact ⟨by rw [a4]; exact c1, by rw [a3.sad k hne]; exact c2⟩) h
    refine ⟨fun k hk' => ?_, fun k hk' o ho => ?_⟩
    · rw [List.mem_cons, not_or] at hk'
      rw [b1 k hk'.2, recs_append n1 n2, if_neg hk'.1]
    · rcases List.mem_cons.1 hk' with rfl | hm
      · refine ⟨new, ?_, ?_⟩
        · rw [b1 k hni, recs_append n1 n2, if_pos rfl]
        · have : s.objs[k] = o := by simpa using (List.getElem?_eq_getElem hi1).symm.trans ho
          rw [← this]
          exact n2
      · have hne : k ≠ i := by rintro rfl; exact hni hm
        obtain ⟨new', e1, e2⟩ := b2 k hm o (by rw [a4]; exact ho)
        exact ⟨new', by rw [e1, recs_append n1 n2, if_neg hne], e2⟩

theorem walkEdgeSaddle_recs {E : SaddleEnv} {sites : List Pt} {base sid : Nat} {s s' : CSt} {o : SObj}
    (hw : WInv E.d (SummitArea E.d sites) s.w) (ho : s.objs[sid]? = some o)
    (hl : ∀ e ∈ o.f.hpn, ∀ p ∈ e, ∃ D, s.w.lookup p.xy = some D) (h : walkEdgeSaddle E base s sid = .ok s') :
    s'.w = s.w ∧ ∃ new, s'.store = s.store ++ new ∧ List.Forall₂ (RecOf E.d sites sid) o.f.hpn new := by
  unfold walkEdgeSaddle at h
  rw [ho] at h
  dsimp only at h
  obtain ⟨s1, h1, h2⟩ := bind_ok h
  cases h2
  obtain ⟨e1, e2⟩ := linkEdges_recs o.f.hpn hw hl h1
  exact ⟨e1, e2⟩

theorem walkEdgeSaddles_recs {E : SaddleEnv} {sites : List Pt} (hE : SEnvOk E sites) (base : Nat) :
    ∀ (ids : List Nat) (s s' : CSt), CInv E sites s → ids.Nodup → (∀ k ∈ ids, ∃ o, s.objs[k]? = some o ∧
      ∀ e ∈ o.f.hpn, ∀ p ∈ e, ∃ D, s.w.lookup p.xy = some D) → ids.foldlM (walkEdgeSaddle E base) s = .ok s' →
    (∀ k, k ∉ ids → recs s' k = recs s k) ∧ ∀ k ∈ ids, ∀ o, s.objs[k]? = some o →
      ∃ new, recs s' k = recs s k ++ new ∧ List.Forall₂ (RecOf E.d sites k) o.f.hpn new := by
  intro ids
  induction ids with
  | nil =>
    intro s s' _ _ _ h
    cases h
    exact ⟨fun _ _ => rfl, by simp⟩
  | cons i ids ih =>
    intro s s' hs hn hk h
    obtain ⟨oi, hoi, hli⟩ := hk i (by simp)
    obtain ⟨s1, a1, a2, a3, _⟩ := walkEdgeSaddle_spec hE hs (base := base) (lt_of_getElem? hoi)
    obtain ⟨ew, new, n1, n2⟩ := walkEdgeSaddle_recs hs.w hoi hli a1
    obtain ⟨hni, hn'⟩ := List.nodup_cons.1 hn
    rw [List.foldlM_cons, a1] at h
    obtain ⟨b1, b2⟩ := ih s1 s' a2 hn' (by
      intro k hk'
      obtain ⟨o, c1, c2⟩ := hk k (List.mem_cons_of_mem _ hk')
      obtain ⟨o', d1, d2, _⟩ := a3.feat k o c1
      exact ⟨o', d1, by rw [d2, ew]; exact c2⟩) h
    refine ⟨fun k hk' => ?_, fun k hk' o ho => ?_⟩
    · rw [List.mem_cons, not_or] at hk'
      rw [b1 k hk'.2, recs_append n1 n2, if_neg hk'.1]
    · rcases List.mem_cons.1 hk' with rfl | hm
      · refine ⟨new, ?_, ?_⟩
        · rw [b1 k hni, recs_append n1 n2, if_pos rfl]
        · cases (hoi.symm.trans ho : some _ = some _)
          exact n2
      · have hne : k ≠ i := by rintro rfl; exact hni hm
        obtain ⟨o', d1, d2, _⟩ := a3.feat k o ho
        obtain ⟨new', e1, e2⟩ := b2 k hm o' d1
        exact ⟨new', by rw [e1, recs_append n1 n2, if_neg hne], by rw [← d2]; exact e2⟩

theorem finishEdge_recs {E : SaddleEnv} {sites : List Pt} (hE : SEnvOk E sites) {base : Nat} {ids : List Nat} {s s' : CSt}
    (hs : CInv E sites s) (hn : ids.Nodup) (hk : ∀ k ∈ ids, ∃ o, s.objs[k]? = some o ∧
      ∀ e ∈ o.f.hpn, ∀ p ∈ e, ∃ D, s.w.lookup p.xy = some D) (h : finishEdge E s base ids = .ok s') :
    (∀ k, k ∉ ids → recs s' k = recs s k) ∧ ∀ k ∈ ids, ∀ o, s.objs[k]? = some o →
      ∃ new, recs s' k = recs s k ++ new ∧ List.Forall₂ (RecOf E.d sites k) o.f.hpn new := by
  unfold finishEdge at h
  obtain ⟨s1, h1, h2⟩ := bind_ok h
  cases h2
  exact walkEdgeSaddles_recs hE base ids s s1 hs hn hk h1

theorem edgeSynthetic_kept {E : SaddleEnv} {base : Nat} {f : Feature} {s s' : CSt} {ids : List Nat}
    (h : edgeSynthetic E s base f = .ok (s', ids)) : s'.store = s.store ∧ s'.w = s.w := by
  unfold edgeSynthetic at h
  obtain ⟨r, _, h2⟩ := bind_ok h
  cases r with
  | none =>
    cases h2
    exact ⟨rfl, rfl⟩
  | some fs =>
    dsimp only at h2
    split at h2 <;> (cases h2; exact ⟨rfl, rfl⟩)

/-- Records of fresh objects. -/
theorem recs_fresh {E : SaddleEnv} {sites : List Pt} {s : CSt} (hs : CInv E sites s) {k : Nat} (hk : s.objs.length ≤ k) :
    recs s k = [] := by
  unfold recs
  rw [List.filter_eq_nil_iff]
  intro l hl hc
  obtain ⟨_, o, _, h2, _⟩ := hs.links l hl
  have := lt_of_getElem? h2
  simp at hc
  omega

/-- The linkers made for a feature without further ones, as it was before the walk. -/
inductive Recorded (E : SaddleEnv) (sites : List Pt) (w : WSt) (o : SObj) (k : Nat) (s' : CSt) : Prop
  /-- A saddle is replaced by others and gets none. -/
  | saddle (hk : o.f.kind = .saddle) (h : recs s' k = [])
  /-- A runoff below higher ground. -/
  | runoff (hk : o.f.kind = .runoff) (hh : o.f.hpn ≠ []) (h : List.Forall₂ (RecOf E.d sites k) o.f.hpn (recs s' k))
  /-- A runoff at a point listed by a summit. -/
  | listed (hk : o.f.kind = .runoff) (hh : o.f.hpn = []) (q : Pt) (D : Nat) (hb : InB E.d q) (hq : LocatedAt E.d q o.f)
      (hl : w.lookup q = some D) (h : recs s' k = [⟨D, k⟩])
  /-- A runoff at a point not listed yet. -/
  | unlisted (hk : o.f.kind = .runoff) (hh : o.f.hpn = []) (q : Pt) (hb : InB E.d q) (hq : LocatedAt E.d q o.f)
      (hl : w.lookup q = none) (h : recs s' k = [])

theorem walkFeature_recs {E : SaddleEnv} {sites : List Pt} (hE : SEnvOk E sites) {s s' : CSt} (hs : CInv E sites s) {base : Nat}
    {o : SObj} (ho : s.objs[base]? = some o) (h0 : recs s base = []) (h : walkFeature E s base = .ok s') :
    (∀ k, k < s.objs.length → k ≠ base → recs s' k = recs s k) ∧
    (∀ k o', s.objs.length ≤ k → s'.objs[k]? = some o' → List.Forall₂ (RecOf E.d sites k) o'.f.hpn (recs s' k)) ∧
    Recorded E sites s.w o base s' ∧
    ∀ k ∈ s'.walked, k ∈ s.walked ∨ s.objs.length ≤ k ∨ (k = base ∧ o.f.edge = true) := by
  have hf := hs.objs o (List.mem_of_getElem? ho)
  have hb := lt_of_getElem? ho
  obtain ⟨s'', new0, w1, _, _, w4, _, _, w7⟩ := walkFeature_spec hE hs ho
  cases (w1.symm.trans h : Except.ok _ = Except.ok _)
  have hwe : o.f.edge ≠ false → ∀ k ∈ s'.walked, k ∈ s.walked ∨ s.objs.length ≤ k ∨ (k = base ∧ o.f.edge = true) := by
    intro he k hk
    rw [w4, List.mem_append] at hk
    rcases hk with hk | hk
    · exact .inl hk
    · rcases w7 k hk with h | h
      · exact .inr (.inr ⟨h, by simpa using he⟩)
      · exact .inr (.inl h)
  unfold walkFeature at h
  rw [ho] at h
  dsimp only at h
  by_cases he : o.f.edge = false
  · rw [if_pos he] at h
    have h2 := hf.saddle (hf.inner he)
    rcases generateSynthetic_spec hE hf with ⟨h1, _⟩ | ⟨_, fs, h3, h4, h5⟩
    · omega
    · rw [h3] at h
      dsimp only [bind, Except.bind] at h
      have i1 := alloc_inv hs fun f hf' => (h5 f hf').ok hf
      have hids := alloc_ids s fs
      have hk : ∀ k ∈ (alloc s fs).2, k < (alloc s fs).1.objs.length ∧ (alloc s fs).1.sadLinks k = [] := by
        intro k hk
        have hr := (hids.2.2 k).1 hk
        exact ⟨by rw [alloc_len]; exact hr.2, hs.fresh k hr.1⟩
      obtain ⟨b1, b2⟩ := walkSynthetics_recs hE (alloc s fs).2 (alloc s fs).1 s' i1 hids.1 hk h
      obtain ⟨s2, c1, _, _, c4, c5, _⟩ := walkSynthetics_spec hE (alloc s fs).2 (alloc s fs).1 i1 hids.1 hk
      cases (c1.symm.trans h : Except.ok _ = Except.ok _)
      have old : ∀ k, k < s.objs.length → recs s' k = recs s k := by
        intro k hk
        rw [b1 k fun hc => by have := ((hids.2.2 k).1 hc).1; omega]
        rfl
      refine ⟨fun k hk _ => old k hk, ?_, .saddle (hf.inner he) (by rw [old base hb, h0]), ?_⟩
      · intro k o' hk ho'
        have hlt := lt_of_getElem? ho'
        rw [c4] at ho' hlt
        rw [alloc_len] at hlt
        obtain ⟨new, e1, e2⟩ := b2 k ((hids.2.2 k).2 ⟨hk, hlt⟩) o' ho'
        rw [e1, show recs (alloc s fs).1 k = recs s k from rfl, recs_fresh hs hk]
        exact e2
      · intro k hk
        rw [c5, List.mem_append] at hk
        rcases hk with hk | hk
        · exact .inl hk
        · exact .inr (.inl ((hids.2.2 k).1 hk).1)
  · rw [if_neg he] at h
    obtain ⟨w', a1, a2, a3, a4⟩ := climbEdges_spec hE o.f.hpn s.w hs.w
      fun e he p hp => ⟨((hf.high e he).2 p hp).1, ((hf.high e he).2 p hp).2.1⟩
    rw [a1] at h
    dsimp only [bind, Except.bind] at h
    have iw := hs.setW a2
    by_cases hk : o.f.kind = .runoff
    · rw [if_pos hk] at h
      by_cases hh : o.f.hpn = []
      · have hw' : w' = s.w := by
          rw [hh] at a1
          cases a1
          rfl
        subst hw'
        rw [if_pos (by rw [hh]; rfl)] at h
        obtain ⟨q, hqb, hq⟩ := hf.loc hh
        rw [located_xy hE.geo hqb hq] at h
        dsimp only at h
        cases hl : s.w.lookup q with
        | none =>
          rw [hl] at h
          cases h
          refine ⟨fun _ _ _ => rfl, fun k o' hk' ho' => ?_, .unlisted hk hh q hqb hq hl h0, hwe he⟩
          have := lt_of_getElem? ho'
          exact absurd this (by show ¬ k < s.objs.length; omega)
        | some D =>
          rw [hl] at h
          dsimp only at h
          obtain ⟨sf, top, c1, c2, c3, c4⟩ := link_of_lookup hE iw hl
          have hok : LinkOk E sites s.objs ⟨D, base⟩ :=
            ⟨sf, o, c1, ho, .inr ⟨hh, hk, by rw [hq.2.2]; exact c4⟩, q, top, c2, c3,
              .inr ⟨hh, (a2.sound q D hl).1, hq⟩⟩
          obtain ⟨⟨s2, ids⟩, h1, h2⟩ := bind_ok h
          dsimp only at h2
          obtain ⟨s3, ids', d1, d2, d3, _, d5, d6⟩ := edgeSynthetic_spec hE (addLinker_inv true iw hok) (base := base) (o := o) ho
          cases (d1.symm.trans h1 : Except.ok _ = Except.ok _)
          have hids : ids = [base] := by
            rcases d6 with d6 | d6
            · exact d6.2
            · rw [hh] at d6; simp at d6
          subst hids
          obtain ⟨k1, k2⟩ := edgeSynthetic_kept h1
          obtain ⟨o2, g1, g2, _⟩ := d3.feat base o ho
          obtain ⟨f1, f2⟩ := finishEdge_recs hE d2 (by simp) (by
            intro k hk'
            rw [List.mem_singleton.1 hk']
            exact ⟨o2, g1, by rw [g2, hh]; simp⟩) h2
          obtain ⟨new, f3, f4⟩ := f2 base (by simp) o2 g1
          rw [g2, hh] at f4
          cases f4
          have hr : ∀ k, recs s2 k = if k = base then recs s k ++ [⟨D, base⟩] else recs s k := by
            intro k
            unfold recs
            rw [k1]
            show (s.store ++ [(⟨D, base⟩ : LinkRec)]).filter _ = _
            rw [List.filter_append]
            by_cases hkb : k = base
            · subst hkb; simp
            · have : ¬ base = k := fun e => hkb e.symm
              simp [hkb, this]
          refine ⟨fun k _ hkb => ?_, fun k o' hk' ho' => ?_, .listed hk hh q D hqb hq hl ?_, hwe he⟩
          · rw [f1 k (by simpa using hkb), hr, if_neg hkb]
          · exfalso
            have hlen : s'.objs.length = s.objs.length := by
              have e1 : s2.objs = s.objs := by
                unfold edgeSynthetic at h1
                obtain ⟨r, r1, r2⟩ := bind_ok h1
                have : r = none := by
                  unfold generateSynthetic at r1
                  rw [hh] at r1
                  simp at r1
                  exact r1.symm
                subst this
                cases r2
                rfl
              unfold finishEdge at h2
              obtain ⟨s4, h3, h4⟩ := bind_ok h2
              cases h4
              obtain ⟨s5, t1, _, _, _, t5, _⟩ := walkEdgeSaddles_spec hE base [base] s2 d2 d5
              cases (t1.symm.trans h3 : Except.ok _ = Except.ok _)
              show (modObj s4.objs base _).length = _
              rw [modObj_length, t5, e1]
            have := lt_of_getElem? ho'
            omega
          · rw [f3, hr, if_pos rfl, h0]
            rfl
      · rw [if_neg (by simpa using hh)] at h
        obtain ⟨f1, f2⟩ := finishEdge_recs hE iw (by simp) (by
          intro k hk'
          rw [List.mem_singleton.1 hk']
          exact ⟨o, ho, a4⟩) h
        obtain ⟨new, f3, f4⟩ := f2 base (by simp) o ho
        refine ⟨fun k _ hkb => f1 k (by simpa using hkb), fun k o' hk' ho' => ?_, .runoff hk hh ?_, hwe he⟩
        · exfalso
          unfold finishEdge at h
          obtain ⟨s4, h3, h4⟩ := bind_ok h
          cases h4
          obtain ⟨s5, t1, _, _, _, t5, _⟩ := walkEdgeSaddles_spec hE base [base] { s with w := w' } iw (by simpa using hb)
          cases (t1.symm.trans h3 : Except.ok _ = Except.ok _)
          have := lt_of_getElem? ho'
          rw [show ∀ g : SObj → SObj, (modObj s4.objs base g).length = s4.objs.length from fun g => modObj_length _ _ _, t5] at this
          exact absurd this (by show ¬ k < s.objs.length; omega)
        · rw [f3, show recs { s with w := w' } base = recs s base from rfl, h0]
          exact f4
    · rw [if_neg hk] at h
      have hsad : o.f.kind = .saddle := by
        cases hkk : o.f.kind with
        | summit => exact absurd hkk hf.kind
        | saddle => rfl
        | runoff => exact absurd hkk hk
      have h2 := hf.saddle hsad
      obtain ⟨⟨s2, ids⟩, h1, h3⟩ := bind_ok h
      dsimp only at h3
      obtain ⟨s3, ids', d1, d2, d3, _, d5, d6⟩ := edgeSynthetic_spec hE iw (base := base) (o := o) ho
      cases (d1.symm.trans h1 : Except.ok _ = Except.ok _)
      rcases d6 with d6 | ⟨g1, g2, g3⟩
      · omega
      · obtain ⟨k1, k2⟩ := edgeSynthetic_kept h1
        obtain ⟨f1, f2⟩ := finishEdge_recs hE d2 g2 (by
          intro k hk'
          obtain ⟨_, o', e2, e3⟩ := g3 k hk'
          refine ⟨o', e2, fun c hc p hp => ?_⟩
          obtain ⟨c', hc', hp'⟩ := e3.high c hc p hp
          rw [k2]
          exact a4 c' hc' p hp') h3
        have hr : ∀ k, recs s2 k = recs s k := fun k => recs_same k1 k
        have hnid : ∀ k, k < s.objs.length → k ∉ ids := fun k hk' hc => by
          have : s.objs.length ≤ k := (g3 k hc).1
          omega
        refine ⟨fun k hk' _ => by rw [f1 k (hnid k hk'), hr], fun k o' hk' ho' => ?_, .saddle hsad (by rw [f1 base (hnid base hb), hr, h0]), hwe he⟩
        have hlt := lt_of_getElem? ho'
        have hlen : s'.objs.length = s2.objs.length := by
          unfold finishEdge at h3
          obtain ⟨s4, h4, h5⟩ := bind_ok h3
          cases h5
          obtain ⟨s5, t1, _, _, _, t5, _⟩ := walkEdgeSaddles_spec hE base ids s2 d2 d5
          cases (t1.symm.trans h4 : Except.ok _ = Except.ok _)
          show (modObj s4.objs base _).length = _
          rw [modObj_length, t5]
        rw [hlen] at hlt
        have hmem : k ∈ ids := by
          -- the ids are the objects made by the split
          unfold edgeSynthetic at h1
          obtain ⟨r, r1, r2⟩ := bind_ok h1
          cases r with
          | none =>
            cases r2
            exact absurd hlt (by show ¬ k < s.objs.length; omega)
          | some fs =>
            dsimp only at r2
            have hal := (alloc_ids { s with w := w' } fs).2.2 k
            have fin : s2.objs.length = s.objs.length + fs.length ∧ ids = (alloc { s with w := w' } fs).2 := by
              split at r2
              · cases r2
                refine ⟨?_, rfl⟩
                unfold adoptChildren
                dsimp only
                rw [modObj_length]
                have : ∀ (l : List Nat) (objs : List SObj),
                    (l.foldl (fun objs k => modObj objs k (fun o => { o with parent := some base })) objs).length = objs.length := by
                  intro l
                  induction l with
                  | nil => intro _; rfl
                  | cons a l ih => intro objs; rw [List.foldl_cons, ih, modObj_length]
                rw [this, alloc_len]
              · cases r2
                exact ⟨alloc_len _ _, rfl⟩
            rw [fin.2]
            have hlt' : k < s.objs.length + fs.length := by rw [← fin.1]; exact hlt
            exact hal.2 (And.intro hk' hlt')
        obtain ⟨_, o2, e2, _⟩ := g3 k hmem
        obtain ⟨new, n1, n2⟩ := f2 k hmem o2 e2
        obtain ⟨s6, u1, _, u3, _⟩ := finishEdge_spec hE d2 (base := base) (lt_of_lt_of_le hb d3.len) d5
        cases (u1.symm.trans h3 : Except.ok _ = Except.ok _)
        obtain ⟨o3, v1, v2, _⟩ := u3.feat k o2 e2
        cases (v1.symm.trans ho' : some _ = some _)
        rw [n1, hr, recs_fresh hs hk', v2]
        exact n2

/-- The linkers `r` of the walked feature `f` with index `k`. -/
def Linked (d : DataMap) (sites : List Pt) (f : Feature) (k : Nat) (r : List LinkRec) : Prop :=
  (f.kind = .saddle → r = []) ∧
  (f.kind = .runoff → f.hpn ≠ [] → List.Forall₂ (RecOf d sites k) f.hpn r) ∧
  (f.kind = .runoff → f.hpn = [] → ∃ q, InB d q ∧ LocatedAt d q f ∧
    ((r = [] ∧ ¬ (Data d q ∧ IsTop d q)) ∨
     ∃ D top, r = [⟨D, k⟩] ∧ SummitArea d sites D top ∧ Data d q ∧ Ascends d q top))

theorem Recorded.linked {E : SaddleEnv} {sites : List Pt} {w : WSt} {o : SObj} {k : Nat} {s' : CSt}
    (h : Recorded E sites w o k s') (hw : WInv E.d (SummitArea E.d sites) w) : Linked E.d sites o.f k (recs s' k) := by
  cases h with
  | saddle hk h => exact ⟨fun _ => h, fun h' => by simp [hk] at h', fun h' => by simp [hk] at h'⟩
  | runoff hk hh h => exact ⟨fun h' => by simp [hk] at h', fun _ _ => h, fun _ h' => absurd h' hh⟩
  | listed hk hh q D hb hq hl h =>
    obtain ⟨t0, top, t1, t2⟩ := hw.sound q D hl
    exact ⟨fun h' => by simp [hk] at h', fun _ h' => absurd hh h', fun _ _ => ⟨q, hb, hq, .inr ⟨D, top, h, t1, t0, t2⟩⟩⟩
  | unlisted hk hh q hb hq hl h =>
    refine ⟨fun h' => by simp [hk] at h', fun _ h' => absurd hh h', fun _ _ => ⟨q, hb, hq, .inl ⟨h, fun ⟨c1, c2⟩ => ?_⟩⟩⟩
    obtain ⟨D, hD⟩ := hw.tops q c1 c2
    rw [hl] at hD
    cases hD

theorem walkFeatures_recs {E : SaddleEnv} {sites : List Pt} (hE : SEnvOk E sites) :
    ∀ (bases : List Nat) (s s' : CSt), CInv E sites s → bases.Nodup → (∀ b ∈ bases, b < s.objs.length ∧ recs s b = []) →
    bases.foldlM (walkFeature E) s = .ok s' →
    (∀ k, k < s.objs.length → k ∉ bases → recs s' k = recs s k) ∧
    (∀ k o', s.objs.length ≤ k → s'.objs[k]? = some o' → List.Forall₂ (RecOf E.d sites k) o'.f.hpn (recs s' k)) ∧
    (∀ b ∈ bases, ∀ o, s.objs[b]? = some o → Linked E.d sites o.f b (recs s' b)) ∧
    ∀ k ∈ s'.walked, k ∈ s.walked ∨ s.objs.length ≤ k ∨ (k ∈ bases ∧ ∃ o, s.objs[k]? = some o ∧ o.f.edge = true) := by
  intro bases
  induction bases with
  | nil =>
    intro s s' hs _ _ h
    cases h
    refine ⟨fun _ _ _ => rfl, fun k o' hk ho' => ?_, by simp, fun k hk => .inl hk⟩
    have := lt_of_getElem? ho'
    omega
  | cons b bases ih =>
    intro s s' hs hn hb h
    obtain ⟨hb1, hb2⟩ := hb b (by simp)
    obtain ⟨hnb, hn'⟩ := List.nodup_cons.1 hn
    obtain ⟨s1, new, a1, a2, a3, _⟩ := walkFeature_spec hE hs (List.getElem?_eq_getElem hb1)
    obtain ⟨r1, r2, r3, r4⟩ := walkFeature_recs hE hs (List.getElem?_eq_getElem hb1) hb2 a1
    have hlen := a3.len
    rw [List.foldlM_cons, a1] at h
    obtain ⟨q1, q2, q3, q4⟩ := ih s1 s' a2 hn' (by
      intro k hk
      obtain ⟨c1, c2⟩ := hb k (List.mem_cons_of_mem _ hk)
      have hne : k ≠ b := by rintro rfl; exact hnb hk
      exact ⟨by omega, by rw [r1 k c1 hne, c2]⟩) h
    refine ⟨fun k hk hkb => ?_, fun k o' hk ho' => ?_, fun k hk o ho => ?_, fun k hk => ?_⟩
    · rw [List.mem_cons, not_or] at hkb
      rw [q1 k (by omega) hkb.2, r1 k hk hkb.1]
    · by_cases hk1 : s1.objs.length ≤ k
      · exact q2 k o' hk1 ho'
      · have hk2 : k < s1.objs.length := by omega
        have hkn : k ∉ bases := fun hc => by
          have := (hb k (List.mem_cons_of_mem _ hc)).1
          omega
        obtain ⟨s2, _, t1, _, t3, _⟩ := walkFeatures_spec hE bases s1 a2 hn' fun k hk =>
          lt_of_lt_of_le (hb k (List.mem_cons_of_mem _ hk)).1 hlen
        cases (t1.symm.trans h : Except.ok _ = Except.ok _)
        obtain ⟨o2, u1, u2, _⟩ := t3.feat k _ (List.getElem?_eq_getElem hk2)
        cases (u1.symm.trans ho' : some _ = some _)
        rw [q1 k hk2 hkn, u2]
        exact r2 k _ hk (List.getElem?_eq_getElem hk2)
    · rcases List.mem_cons.1 hk with rfl | hm
      · have : s.objs[k] = o := by simpa using (List.getElem?_eq_getElem hb1).symm.trans ho
        rw [q1 k (by omega) hnb, ← this]
        exact r3.linked hs.w
      · obtain ⟨o1, u1, u2, _⟩ := a3.feat k o ho
        rw [← u2]
        exact q3 k hm o1 u1
    · rcases q4 k hk with h1 | h1 | ⟨h1, o1, h2, h3⟩
      · rcases r4 k h1 with h1 | h1 | ⟨h1, h2⟩
        · exact .inl h1
        · exact .inr (.inl h1)
        · subst h1
          exact .inr (.inr ⟨by simp, _, List.getElem?_eq_getElem hb1, h2⟩)
      · exact .inr (.inl (by omega))
      · have hkl := (hb k (List.mem_cons_of_mem _ h1)).1
        obtain ⟨o2, u1, u2, _⟩ := a3.feat k _ (List.getElem?_eq_getElem hkl)
        cases (u1.symm.trans h2 : some _ = some _)
        exact .inr (.inr ⟨List.mem_cons_of_mem _ h1, _, List.getElem?_eq_getElem hkl, by rw [← u2]; exact h3⟩)

/-- The linkers of every feature after the first walk of a map. -/
theorem walk_recs {E : SaddleEnv} (hE : RunOk E) {sites : List Pt} {m0 m : DMap} (h0 : Fresh E.d sites m0)
    {x : Option (List Nat × List Nat)} (h : m0.walk E [] = .ok (m, x)) :
    (∀ k ob, m0.st.objs.length ≤ k → m.st.objs[k]? = some ob → List.Forall₂ (RecOf E.d sites k) ob.f.hpn (recs m.st k)) ∧
    (∀ k ∈ m0.saddles ++ m0.runoffs, ∀ o, m0.st.objs[k]? = some o → Linked E.d sites o.f k (recs m.st k)) ∧
    ∀ k ∈ m.st.walked, m0.st.objs.length ≤ k ∨ (k ∈ m0.saddles ++ m0.runoffs ∧
      ∃ o, m0.st.objs[k]? = some o ∧ o.f.edge = true) := by
  obtain ⟨w, e1, e2, _⟩ := walkInit_spec hE.geo h0.tops
  have hst := h0.start
  have hinv : CInv { E with summits := m0.summits } sites
      { m0.st with w := w, walked := [], linkers := [], doms := [] } := by
    refine ⟨e2, h0.ok, ?_, ?_, ?_, ?_, ?_, ?_, ?_, ?_, ?_, h0.disq⟩ <;> rw [hst] <;> simp [CSt.start]
  unfold DMap.walk at h
  rw [h0.none] at h
  dsimp only at h
  rw [show walkInit E.d (fun _ => none) m0.summits = .ok w from e1] at h
  dsimp only [bind, Except.bind] at h
  unfold climbFromSaddles at h
  simp only [List.isEmpty_nil, if_true] at h
  cases hf : (m0.saddles ++ m0.runoffs).foldlM (walkFeature { E with summits := m0.summits })
      { m0.st with w := w, walked := [], linkers := [], doms := [] } with
  | error e =>
    rw [hf] at h
    cases h
  | ok s' =>
    rw [hf] at h
    cases h
    obtain ⟨_, r2, r3, r4⟩ := walkFeatures_recs (hE.senv h0.tops) (m0.saddles ++ m0.runoffs) _ s' hinv h0.nodup (by
      intro b hb
      refine ⟨?_, ?_⟩
      · rcases List.mem_append.1 hb with h | h
        · obtain ⟨o, ho, _⟩ := h0.sad b h
          exact lt_of_getElem? ho
        · obtain ⟨o, ho, _⟩ := h0.run b h
          exact lt_of_getElem? ho
      · unfold recs
        dsimp only
        rw [hst]
        rfl) hf
    refine ⟨r2, r3, fun k hk => ?_⟩
    rcases r4 k hk with h | h
    · cases h
    · exact h

end PyProm
