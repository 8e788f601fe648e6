import Verif.Proof.LinkSteps
import Verif.Spec.Piece

/-
The walk from saddles as a sequence of climbs: the domains of a walked map are those of an explored
state. The shape of domains on rasters without shelves.
-/
namespace PyProm
open Spec

/-! ### The walk as a sequence of climbs -/

theorem climbAll_append (loop : WSt → List Pt → P3 → Except PyErr (Option Nat × WSt)) : ∀ (ps qs : List P3) (s : WSt),
    climbAll loop (ps ++ qs) s = (climbAll loop ps s).bind (climbAll loop qs) := by
  intro ps
  induction ps with
  | nil => intro qs s; rfl
  | cons p ps ih =>
    intro qs s
    rw [List.cons_append]
    unfold climbAll
    cases s.lookup p.xy with
    | some D => exact ih qs s
    | none =>
      dsimp only
      cases loop s [p.xy] p with
      | error e => rfl
      | ok r => exact ih qs r.2

theorem climbEdges_flatten {E : SaddleEnv} : ∀ (es : List (List P3)) (w : WSt),
    climbEdges E es w = climbPoints E.toWalkEnv E.fuel es.flatten w := by
  intro es
  induction es with
  | nil => intro w; rfl
  | cons e es ih =>
    intro w
    unfold climbEdges
    rw [List.flatten_cons]
    unfold climbPoints
    rw [climbAll_append]
    cases climbAll (climbLoop E.toWalkEnv E.fuel) e w with
    | error x => rfl
    | ok w' => exact ih w'

/-- States reached from `s` by climbs from high points of features and by making linkers to the domains of the
points where they begin; in between only features are added. -/
inductive Walks (E : SaddleEnv) (s : CSt) : CSt → Prop
  | refl : Walks E s s
  | climb {t : CSt} (ps : List P3) (w : WSt) : Walks E s t → (∀ p ∈ ps, ∃ f ∈ t.feats, ∃ e ∈ f.hpn, p ∈ e) →
      climbPoints E.toWalkEnv E.fuel ps t.w = .ok w → Walks E s { t with w := w }
  | add {t : CSt} (ig : Bool) (D sid : Nat) (f : Feature) (p : Pt) : Walks E s t → t.feats[sid]? = some f →
      StartsAt E.d f p → t.w.lookup p = some D → Walks E s (addLinker E ig t D sid)
  | quiet {t u : CSt} : Walks E s t → u.w = t.w → u.store = t.store → t.feats <+: u.feats → Walks E s u

theorem Walks.trans {E : SaddleEnv} {s t u : CSt} (h : Walks E s t) (g : Walks E t u) : Walks E s u := by
  induction g with
  | refl => exact h
  | climb ps w _ h1 h2 ih => exact ih.climb ps w h1 h2
  | add ig D sid f p _ h1 h2 h3 ih => exact ih.add ig D sid f p h1 h2 h3
  | quiet _ h1 h2 h3 ih => exact ih.quiet h1 h2 h3

theorem Walks.edges_climbed {E : SaddleEnv} {s : CSt} {k : Nat} {o : SObj} {w : WSt} (ho : s.objs[k]? = some o)
    (h : climbEdges E o.f.hpn s.w = .ok w) : Walks E s { s with w := w } := by
  refine Walks.refl.climb o.f.hpn.flatten w (fun p hp => ?_) (by rw [← climbEdges_flatten]; exact h)
  obtain ⟨e, he, hp⟩ := List.mem_flatten.1 hp
  exact ⟨o.f, List.mem_map.2 ⟨o, List.mem_of_getElem? ho, rfl⟩, e, he, hp⟩

theorem Walks.linkEdges {E : SaddleEnv} {ig : Bool} {sid : Nat} {f : Feature} : ∀ {es : List (List P3)} {s s' : CSt},
    s.feats[sid]? = some f → (∀ e ∈ es, e ∈ f.hpn) → linkEdges E ig sid es s = .ok s' → Walks E s s' := by
  intro es
  induction es with
  | nil =>
    intro s s' _ _ h
    simp only [PyProm.linkEdges, Except.ok.injEq] at h
    rw [← h]
    exact .refl
  | cons e es ih =>
    intro s s' hk hes h
    have hes' := fun e' he' => hes e' (List.mem_cons_of_mem _ he')
    cases e with
    | nil => simp [PyProm.linkEdges] at h
    | cons h0 e =>
      unfold PyProm.linkEdges at h
      cases hl : s.w.lookup h0.xy with
      | none => rw [hl] at h; exact ih hk hes' h
      | some D =>
        rw [hl] at h
        exact (Walks.refl.add ig D sid f h0.xy hk (.inl ⟨h0 :: e, hes _ (by simp), h0, by simp, rfl⟩) hl).trans
          (ih (s := addLinker E ig s D sid) hk hes' h)

theorem feats_getElem? {s : CSt} {k : Nat} {o : SObj} (ho : s.objs[k]? = some o) : s.feats[k]? = some o.f := by
  simp only [CSt.feats, List.getElem?_map, ho, Option.map_some]

theorem Walks.synthetics {E : SaddleEnv} : ∀ {ids : List Nat} {s s' : CSt},
    ids.foldlM (walkSynthetic E) s = .ok s' → Walks E s s' := by
  intro ids
  induction ids with
  | nil => intro s s' he; cases he; exact .refl
  | cons k ids ih =>
    intro s s' he
    rw [List.foldlM_cons] at he
    obtain ⟨s1, e1, e2⟩ := bind_ok he
    unfold walkSynthetic at e1
    cases ho : s.objs[k]? with
    | none => rw [ho] at e1; simp at e1
    | some o =>
      rw [ho] at e1
      obtain ⟨w, e0, e1⟩ := bind_ok e1
      obtain ⟨s2, e3, e1⟩ := bind_ok e1
      cases e1
      have a1 := Walks.edges_climbed ho e0
      have a2 := a1.trans (Walks.linkEdges (s := { s with w := w }) (feats_getElem? ho) (fun _ h => h) e3)
      exact (a2.quiet (u := { s2 with walked := s2.walked ++ [k] }) rfl rfl (List.prefix_refl _)).trans (ih e2)

theorem Walks.edges {E : SaddleEnv} {base : Nat} : ∀ {ids : List Nat} {s s' : CSt},
    ids.foldlM (walkEdgeSaddle E base) s = .ok s' → Walks E s s' := by
  intro ids
  induction ids with
  | nil => intro s s' he; cases he; exact .refl
  | cons k ids ih =>
    intro s s' he
    rw [List.foldlM_cons] at he
    obtain ⟨s1, e1, e2⟩ := bind_ok he
    unfold walkEdgeSaddle at e1
    cases ho : s.objs[k]? with
    | none => rw [ho] at e1; simp at e1
    | some o =>
      rw [ho] at e1
      obtain ⟨s2, e3, e1⟩ := bind_ok e1
      cases e1
      refine ((Walks.linkEdges (feats_getElem? ho) (fun _ h => h) e3).quiet (u := { s2 with
          objs := modObj (modObj s2.objs k (fun o => { o with parent := some base })) base
            (fun o => { o with children := o.children ++ [k], disq := some true })
          walked := s2.walked ++ [k] }) rfl rfl ?_).trans (ih e2)
      simp only [CSt.feats]
      rw [map_modObj _ _ _ (by simp), map_modObj _ _ _ (by simp)]

theorem Walks.finish {E : SaddleEnv} {base : Nat} {ids : List Nat} {s s' : CSt}
    (he : finishEdge E s base ids = .ok s') : Walks E s s' := by
  unfold finishEdge at he
  obtain ⟨s1, e1, e2⟩ := bind_ok he
  cases e2
  refine (Walks.edges e1).quiet rfl rfl ?_
  simp only [CSt.feats]
  rw [map_modObj _ _ _ (by simp)]

theorem Walks.edgeSynthetic {E : SaddleEnv} {base : Nat} {ids : List Nat} {s s' : CSt} {f : Feature}
    (he : edgeSynthetic E s base f = .ok (s', ids)) : Walks E s s' := by
  unfold PyProm.edgeSynthetic at he
  obtain ⟨r, _, e2⟩ := bind_ok he
  cases r with
  | none => cases e2; exact .refl
  | some fs =>
    dsimp only at e2
    have hp : s.feats <+: (PyProm.alloc s fs).1.feats := by
      rw [feats_alloc]
      exact List.prefix_append _ _
    split at e2
    · cases e2
      exact Walks.refl.quiet rfl rfl (by rw [feats_adopt]; exact hp)
    · cases e2
      exact Walks.refl.quiet rfl rfl hp

theorem Walks.feature {E : SaddleEnv} {base : Nat} {s s' : CSt} (he : walkFeature E s base = .ok s') :
    Walks E s s' := by
  unfold walkFeature at he
  cases ho : s.objs[base]? with
  | none => rw [ho] at he; simp at he
  | some o =>
    rw [ho] at he
    dsimp only at he
    by_cases hed : o.f.edge = false
    · rw [if_pos hed] at he
      obtain ⟨r, e1, e2⟩ := bind_ok he
      cases r with
      | none =>
        refine Walks.synthetics (ids := [base]) ?_
        rw [List.foldlM_cons, show walkSynthetic E s base = .ok s' from e2]
        rfl
      | some fs =>
        refine Walks.trans (t := (PyProm.alloc s fs).1) (Walks.refl.quiet rfl rfl ?_) (Walks.synthetics e2)
        rw [feats_alloc]
        exact List.prefix_append _ _
    · rw [if_neg hed] at he
      obtain ⟨w, e0, e2⟩ := bind_ok he
      refine (Walks.edges_climbed ho e0).trans ?_
      split at e2
      · split at e2
        · rename_i hnil
          split at e2
          · cases e2
          · rename_i p hp
            split at e2
            · cases e2
              exact Walks.refl.quiet rfl rfl (List.prefix_refl _)
            · rename_i D hD
              obtain ⟨⟨s2, ids⟩, e3, e4⟩ := bind_ok e2
              have h1 : Walks E { s with w := w } (addLinker E true { s with w := w } D base) :=
                Walks.refl.add true D base o.f p (feats_getElem? (s := { s with w := w }) ho)
                  (.inr ⟨List.isEmpty_iff.1 hnil, hp⟩) hD
              exact (h1.trans (Walks.edgeSynthetic e3)).trans (Walks.finish e4)
        · exact Walks.finish e2
      · obtain ⟨⟨s2, ids⟩, e3, e4⟩ := bind_ok e2
        exact (Walks.edgeSynthetic e3).trans (Walks.finish e4)

theorem Walks.features {E : SaddleEnv} : ∀ {bases : List Nat} {s s' : CSt},
    bases.foldlM (walkFeature E) s = .ok s' → Walks E s s' := by
  intro bases
  induction bases with
  | nil => intro s s' he; cases he; exact .refl
  | cons b bases ih =>
    intro s s' he
    rw [List.foldlM_cons] at he
    obtain ⟨s1, e1, e2⟩ := bind_ok he
    exact (Walks.feature e1).trans (ih e2)

theorem Walks.feats {E : SaddleEnv} {s t : CSt} (h : Walks E s t) : s.feats <+: t.feats := by
  induction h with
  | refl => exact List.prefix_refl _
  | climb _ _ _ _ _ ih => exact ih
  | add _ _ _ _ _ _ _ _ _ ih => exact ih
  | quiet _ _ _ h ih => exact ih.trans h

/-- The domains change by climbs only. -/
theorem Walks.climbs {E : SaddleEnv} {s t : CSt} (h : Walks E s t) :
    ∃ ps, climbPoints E.toWalkEnv E.fuel ps s.w = .ok t.w ∧ ∀ p ∈ ps, ∃ f ∈ t.feats, ∃ e ∈ f.hpn, p ∈ e := by
  induction h with
  | refl => exact ⟨[], rfl, by simp⟩
  | climb qs w _ h1 h2 ih =>
    obtain ⟨ps, a1, a2⟩ := ih
    refine ⟨ps ++ qs, ?_, fun p hp => (List.mem_append.1 hp).elim (a2 p) (h1 p)⟩
    unfold climbPoints at a1 h2 ⊢
    rw [climbAll_append, a1]
    exact h2
  | add _ _ _ _ _ _ _ _ _ ih => exact ih
  | quiet _ h1 _ h3 ih =>
    obtain ⟨ps, a1, a2⟩ := ih
    refine ⟨ps, by rw [h1]; exact a1, fun p hp => ?_⟩
    obtain ⟨f, hf, r⟩ := a2 p hp
    exact ⟨f, h3.subset hf, r⟩

/-- The domains of a walked map are those of an explored state. -/
theorem walk_explored {E : SaddleEnv} (hE : RunOk E) {sites : List Pt} {m0 m : DMap} (h0 : Fresh E.d sites m0)
    (hw : m0.walk E [] = .ok (m, none)) :
    Explored E.toWalkEnv sites m0.summits m.st.w ∧ (∀ k, m.domPoints k = if k < m0.summits.length then some (m.st.w.points k) else none) := by
  obtain ⟨m', news, a1, a2⟩ := walk_spec hE h0
  cases (a1.symm.trans hw : Except.ok _ = Except.ok _)
  refine ⟨⟨h0.tops, ?_⟩, a2.points⟩
  unfold DMap.walk at hw
  obtain ⟨w, e1, e2⟩ := bind_ok hw
  obtain ⟨⟨r, s⟩, e3, e4⟩ := bind_ok e2
  unfold climbFromSaddles at e3
  obtain ⟨s1, e5, e6⟩ := bind_ok e3
  cases e6
  simp only [List.isEmpty_nil, if_true] at e5 e4
  have hm : m.st = s := by
    cases e4; rfl
  obtain ⟨ps, b1, b2⟩ := (Walks.features e5).climbs
  refine ⟨w, E.fuel, ps, ?_, hE.fuel, fun p hp => ?_, ?_⟩
  · rw [h0.none] at e1
    exact e1
  · obtain ⟨f, hf, e, he, hpe⟩ := b2 p hp
    rw [← hm] at hf
    obtain ⟨o, ho, rfl⟩ := List.mem_map.1 hf
    have := ((a2.inv.objs o ho).high e he).2 p hpe
    exact ⟨this.1, this.2.1⟩
  · rw [hm]
    exact b1

/-- As `walkInit_spec`, with the lists. -/
theorem walkInit_points {d : DataMap} (hg : Findable d) {sites : List Pt} {fs : List Feature}
    (h : SummitsAt d sites fs) :
    ∃ s, walkInit d (fun _ => none) fs = .ok s ∧ WInv d (SummitArea d sites) s ∧
      (∀ p k, s.lookup p = some k ↔ SummitArea d sites k p) ∧ ∀ k p, p ∈ s.points k ↔ SummitArea d sites k p := by
  obtain ⟨s, e1, e2, e3, _⟩ := prepopulate_spec hg [] sites fs
    { lookup := fun _ => none, points := fun _ => [] } h.each
    (fun q hq => (h.top q (by simpa using hq)).1) (by simpa using h.once)
    (by simp [SummitArea]) (by simp [SummitArea]) (by simp)
  rw [List.nil_append] at e2 e3
  obtain ⟨s', a1, a2, _⟩ := walkInit_spec hg h
  cases (a1.symm.trans (show walkInit d (fun _ => none) fs = .ok s from e1) : Except.ok _ = Except.ok _)
  exact ⟨s, e1, a2, e2, e3⟩

/-! ### Without shelves domains hang together -/

/-- Lookup and lists agree, and every listed point is joined to its summit inside the list. -/
structure OnePiece (d : DataMap) (S : Nat → Pt → Prop) (s : WSt) : Prop where
  tied : ∀ p D, s.lookup p = some D ↔ p ∈ s.points D
  joined : ∀ D, ∀ p ∈ s.points D, ∃ t, S D t ∧ t ∈ s.points D ∧ ReachedIn d (s.points D) p t

theorem Spec.ReachedIn.mono {d : DataMap} {a b : List Pt} (h : ∀ p ∈ a, p ∈ b) {p t : Pt} (r : ReachedIn d a p t) :
    ReachedIn d b p t :=
  Relation.ReflTransGen.mono (fun _ _ ⟨h1, h2⟩ => ⟨h1, h _ h2⟩) _ _ r

/-- Along a rising chain inside a list every member is joined to the last. -/
theorem reached_chain {E : WalkEnv} {pts : List Pt} : ∀ (c : List Pt) (last : Pt), c.IsChain (RiseStep E.d E.w) →
    c.getLast? = some last → (∀ q ∈ c, q ∈ pts) → ∀ p ∈ c, ReachedIn E.d pts p last := by
  intro c
  induction c with
  | nil => intro last _ h; simp at h
  | cons a c ih =>
    intro last hc hl hm p hp
    cases c with
    | nil =>
      simp only [List.getLast?_singleton, Option.some.injEq] at hl
      rw [List.mem_singleton.1 hp, hl]
      exact .refl
    | cons b c =>
      rw [List.isChain_cons_cons] at hc
      have hl' : (b :: c).getLast? = some last := by rw [← hl]; simp
      have hrec := ih last hc.2 hl' fun q hq => hm q (List.mem_cons_of_mem _ hq)
      rcases List.mem_cons.1 hp with rfl | hp
      · exact .head ⟨⟨hc.1.1.1, hc.1.1.2.1, hc.1.1.2.2.1⟩, hm b (by simp)⟩ (hrec b (by simp))
      · exact hrec p hp

theorem climbLoop_piece {E : WalkEnv} (hE : EnvOk E) (hN : NoShelves E.d) {S : Nat → Pt → Prop} : ∀ (n : Nat)
    {s : WSt} {climbed : List Pt} {cur : P3} {r : Option Nat × WSt}, WInv E.d S s → OnePiece E.d S s →
    Climbing E s climbed cur → climbLoop E n s climbed cur = .ok r →
    OnePiece E.d S r.2 ∧ ∀ p D, s.lookup p = some D → r.2.lookup p = some D := by
  intro n
  induction n with
  | zero => intro s climbed cur r _ _ _ h; simp [climbLoop] at h
  | succ n ih =>
    intro s climbed cur r hs hp hc h
    have hcl : cur.xy ∈ climbed := List.mem_of_getLast? hc.last
    have hnl := (hc.mem _ hcl).2.1
    unfold climbLoop at h
    rcases steepest_spec hE.low hE.pos hc.data with ⟨h', _⟩ | ⟨sn, h', he, hst⟩
    · rw [show steepestNeighbor E.d E.w cur.x cur.y = .ok none from h'] at h
      cases h
      exact ⟨hp, fun _ _ h => h⟩
    · rw [show steepestNeighbor E.d E.w cur.x cur.y = .ok (some sn) from h'] at h
      dsimp only at h
      have hrise : el E.d cur.xy < el E.d sn.xy := by
        rcases hN _ hc.data with ⟨q, h1, h2, h3⟩ | ht
        · exact steepest_rises hE.pos h1 hst.1 h3 hst.2.2.1 (hst.2.2.2 q h1 h2 (le_of_lt h3))
        · obtain ⟨D, hD⟩ := hs.tops _ hc.data ht
          rw [hnl] at hD
          cases hD
      cases hls : s.lookup sn.xy with
      | some D =>
        rw [hls] at h
        cases h
        have hsub : ∀ p ∈ s.points D, p ∈ (s.extend D climbed).points D := by
          intro p hp; rw [extend_points, if_pos rfl]; exact List.mem_append_left _ hp
        have hsub' : ∀ p ∈ climbed, p ∈ (s.extend D climbed).points D := by
          intro p hp; rw [extend_points, if_pos rfl]; exact List.mem_append_right _ hp
        refine ⟨⟨?_, ?_⟩, fun p k hk => ?_⟩
        rotate_left 2
        · rw [extend_lookup, if_neg fun hpc => ?_]
          · exact hk
          · rw [(hc.mem p hpc).2.1] at hk
            cases hk
        · intro p k
          rw [extend_lookup, extend_points]
          by_cases hpc : p ∈ climbed
          · rw [if_pos hpc]
            by_cases hk : k = D
            · rw [if_pos hk]; simp [hk, hpc]
            · rw [if_neg hk]
              refine ⟨fun e => absurd (Option.some.inj e).symm hk, fun hm => ?_⟩
              have := (hp.tied p k).2 hm
              rw [(hc.mem p hpc).2.1] at this
              cases this
          · rw [if_neg hpc, hp.tied]
            by_cases hk : k = D
            · rw [if_pos hk]; simp [hpc]
            · rw [if_neg hk]
        · intro k p hpk
          by_cases hk : k = D
          · subst hk
            rw [extend_points, if_pos rfl] at hpk
            rcases List.mem_append.1 hpk with hpk | hpk
            · obtain ⟨t, t1, t2, t3⟩ := hp.joined k p hpk
              exact ⟨t, t1, hsub t t2, t3.mono hsub⟩
            · have hsn := (hp.tied _ _).1 hls
              obtain ⟨t, t1, t2, t3⟩ := hp.joined k _ hsn
              refine ⟨t, t1, hsub t t2, ?_⟩
              refine ((reached_chain climbed cur.xy hc.chain hc.last hsub' p hpk).tail
                ⟨⟨hst.1, hst.2.1, hst.2.2.1⟩, hsub _ hsn⟩).trans (t3.mono hsub)
          · have e : (s.extend D climbed).points k = s.points k := by rw [extend_points, if_neg hk]
            rw [e] at hpk ⊢
            exact hp.joined k p hpk
      | none =>
        rw [hls] at h
        dsimp only at h
        rw [if_neg (by rw [he, hc.elev]; exact ne_of_gt hrise)] at h
        refine ih hs hp ⟨hst.2.1, he, by simp, ?_, ?_, ?_⟩ h
        · refine List.isChain_append.2 ⟨hc.chain, by simp, ?_⟩
          intro x hx y hy
          rw [hc.last] at hx
          cases hx
          simp only [List.head?_cons, Option.mem_def, Option.some.injEq] at hy
          subst hy
          exact ⟨hst, hrise⟩
        · intro p hp
          rcases List.mem_append.1 hp with hp | hp
          · obtain ⟨a1, a2, a3, a4⟩ := hc.mem p hp
            refine ⟨a1, a2, ?_, a4.tail ⟨hst.1, hst.2.1, hst.2.2.1⟩⟩
            rw [he]
            exact le_trans a3 (by rw [hc.elev]; exact le_of_lt hrise)
          · rw [List.mem_singleton.1 hp]
            exact ⟨hst.2.1, hls, le_of_eq he.symm, .refl⟩
        · refine List.nodup_append.2 ⟨hc.nodup, by simp, fun a ha b hb hab => ?_⟩
          rw [List.mem_singleton.1 hb] at hab
          have := (hc.mem a ha).2.2.1
          rw [hab, hc.elev] at this
          exact absurd hrise (not_lt.2 this)

theorem climbAll_piece {E : WalkEnv} (hE : EnvOk E) (hN : NoShelves E.d) {S : Nat → Pt → Prop} {n : Nat}
    (hn : E.d.size < n) : ∀ {ps : List P3} {s s' : WSt}, WInv E.d S s → OnePiece E.d S s →
    (∀ p ∈ ps, Data E.d p.xy ∧ p.e = el E.d p.xy) → climbAll (climbLoop E n) ps s = .ok s' →
    OnePiece E.d S s' ∧ ∀ p D, s.lookup p = some D → s'.lookup p = some D := by
  intro ps
  induction ps with
  | nil => intro s s' _ hp _ h; cases h; exact ⟨hp, fun _ _ h => h⟩
  | cons p ps ih =>
    intro s s' hs hp hd h
    obtain ⟨h1, h2⟩ := hd p (by simp)
    have hd' := fun q hq => hd q (List.mem_cons_of_mem _ hq)
    unfold climbAll at h
    cases hl : s.lookup p.xy with
    | some D => rw [hl] at h; exact ih hs hp hd' h
    | none =>
      rw [hl] at h
      obtain ⟨D, s1, c1, c2⟩ := climbLoop_spec hE S n s [p.xy] p hs (.start h1 h2 hl)
        (lt_of_le_of_lt (above_le_size _ _) hn)
      dsimp only at h
      rw [c1] at h
      obtain ⟨b1, b2⟩ := climbLoop_piece hE hN n hs hp (.start h1 h2 hl) c1
      obtain ⟨g1, g2⟩ := ih c2.inv b1 hd' h
      exact ⟨g1, fun q k hk => g2 q k (b2 q k hk)⟩

theorem Explored.piece {E : WalkEnv} (hE : EnvOk E) (hg : Findable E.d) (hN : NoShelves E.d) {sites : List Pt}
    {summits : List Feature} {s : WSt} (h : Explored E sites summits s) : OnePiece E.d (SummitArea E.d sites) s := by
  obtain ⟨s0, fuel, ps, h0, hf, hp, hs⟩ := h.reached
  obtain ⟨s0', e1, e2, e3, e4⟩ := walkInit_points hg h.from_discovery
  rw [h0] at e1
  cases e1
  refine (climbAll_piece hE hN hf e2 ⟨fun p D => by rw [e3, e4], fun D p hpD => ?_⟩ hp hs).1
  exact ⟨p, (e4 D p).1 hpD, hpD, .refl⟩

/-! ### Without shelves linkers stay in the domain of their summit -/

/-- Every linker begins at a point of the domain of its summit. -/
structure Routed (E : SaddleEnv) (S : Nat → Pt → Prop) (t : CSt) : Prop where
  inv : WInv E.d S t.w
  piece : OnePiece E.d S t.w
  links : ∀ l ∈ t.store, ∃ f p, t.feats[l.saddle]? = some f ∧ StartsAt E.d f p ∧ t.w.lookup p = some l.summit

theorem Walks.routed {E : SaddleEnv} (hE : EnvOk E.toWalkEnv) (hf : E.d.size < E.fuel) (hN : NoShelves E.d)
    {S : Nat → Pt → Prop} {s t : CSt} (h : Walks E s t) (hs : Routed E S s) (ho : ∀ f ∈ t.feats, FeatOk E.d f) :
    Routed E S t := by
  induction h with
  | refl => exact hs
  | climb ps w _ h1 h2 ih =>
    obtain ⟨i1, i2, i3⟩ := ih ho
    have hd : ∀ p ∈ ps, Data E.d p.xy ∧ p.e = el E.d p.xy := by
      intro p hp
      obtain ⟨f, hff, e, he, hpe⟩ := h1 p hp
      have := ((ho f hff).high e he).2 p hpe
      exact ⟨this.1, this.2.1⟩
    obtain ⟨w', a1, a2, _⟩ := climbAll_spec (climbLoop_spec hE S E.fuel) ps _ i1 (fun p hp =>
      ⟨(hd p hp).1, (hd p hp).2, lt_of_le_of_lt (above_le_size _ _) hf⟩)
    unfold climbPoints at h2
    cases (a1.symm.trans h2 : Except.ok _ = Except.ok _)
    obtain ⟨b1, b2⟩ := climbAll_piece hE hN hf i1 i2 hd h2
    refine ⟨a2, b1, fun l hl => ?_⟩
    obtain ⟨f, p, c1, c2, c3⟩ := i3 l hl
    exact ⟨f, p, c1, c2, b2 _ _ c3⟩
  | add ig D sid f p _ h1 h2 h3 ih =>
    obtain ⟨i1, i2, i3⟩ := ih ho
    refine ⟨i1, i2, fun l hl => ?_⟩
    rcases List.mem_append.1 (show l ∈ _ ++ [_] from hl) with hl | hl
    · exact i3 l hl
    · rw [List.mem_singleton.1 hl]
      exact ⟨f, p, h1, h2, h3⟩
  | quiet _ h1 h2 h3 ih =>
    obtain ⟨i1, i2, i3⟩ := ih fun f hf => ho f (h3.subset hf)
    refine ⟨by rw [h1]; exact i1, by rw [h1]; exact i2, fun l hl => ?_⟩
    rw [h2] at hl
    obtain ⟨f, p, c1, c2, c3⟩ := i3 l hl
    exact ⟨f, p, prefix_getElem? h3 c1, c2, by rw [h1]; exact c3⟩

/-- After a walk. -/
theorem walk_routed {E : SaddleEnv} (hE : RunOk E) (hN : NoShelves E.d) {sites : List Pt} {m0 m : DMap}
    (h0 : Fresh E.d sites m0) (hw : m0.walk E [] = .ok (m, none)) :
    Routed { E with summits := m0.summits } (SummitArea E.d sites) m.st := by
  obtain ⟨m', news, a1, a2⟩ := walk_spec hE h0
  cases (a1.symm.trans hw : Except.ok _ = Except.ok _)
  have hst := h0.start
  unfold DMap.walk at hw
  obtain ⟨w, e1, e2⟩ := bind_ok hw
  obtain ⟨⟨r, s⟩, e3, e4⟩ := bind_ok e2
  unfold climbFromSaddles at e3
  obtain ⟨s1, e5, e6⟩ := bind_ok e3
  cases e6
  simp only [List.isEmpty_nil, if_true] at e5 e4
  have hm : m.st = s := by
    cases e4; rfl
  rw [h0.none] at e1
  obtain ⟨w', b1, b2, b3, b4⟩ := walkInit_points hE.geo h0.tops
  cases (b1.symm.trans e1 : Except.ok _ = Except.ok _)
  rw [hm]
  have hs0 : Routed { E with summits := m0.summits } (SummitArea E.d sites)
      { m0.st with w := w, walked := [], linkers := [], doms := [] } := by
    refine ⟨b2, ⟨fun p D => (b3 p D).trans (b4 D p).symm, fun D p hp => ?_⟩, ?_⟩
    · exact ⟨p, (b4 D p).1 hp, hp, .refl⟩
    · rw [hst]
      simp [CSt.start]
  refine (Walks.features e5).routed (E := { E with summits := m0.summits }) hE.env hE.fuel hN hs0 ?_
  intro f hf
  rw [← hm] at hf
  obtain ⟨o, ho, rfl⟩ := List.mem_map.1 hf
  exact a2.inv.objs o ho

end PyProm
