import Verif.Proof.LinkSteps
import Verif.Proof.Equality

/-
Exactly which linkers of a walk are listed by their summit and by their saddle.
-/
namespace PyProm
open Spec

/-- States reached from `s` by making linkers as `R` allows, where the mark says whether linkers that have equals are listed. -/
inductive Adds (E : SaddleEnv) (R : Bool → Nat → Prop) (s : CSt) : CSt → Prop
  | refl : Adds E R s s
  | add {t : CSt} (ig : Bool) (D sid : Nat) : Adds E R s t → sid < t.feats.length → R ig sid →
      Adds E R s (addLinker E ig t D sid)
  | quiet {t u : CSt} : Adds E R s t → u.store = t.store → u.sumLinks = t.sumLinks → u.sadLinks = t.sadLinks →
      t.feats <+: u.feats → Adds E R s u

theorem Adds.trans {E : SaddleEnv} {R : Bool → Nat → Prop} {s t u : CSt} (h : Adds E R s t) (g : Adds E R t u) : Adds E R s u := by
  induction g with
  | refl => exact h
  | add ig D sid _ hk hS ih => exact ih.add ig D sid hk hS
  | quiet _ h1 h2 h3 h4 ih => exact ih.quiet h1 h2 h3 h4

theorem Adds.mono {E : SaddleEnv} {R R' : Bool → Nat → Prop} {s t : CSt} (hR : ∀ b k, R b k → R' b k) (h : Adds E R s t) :
    Adds E R' s t := by
  induction h with
  | refl => exact .refl
  | add ig D sid _ hk h ih => exact ih.add ig D sid hk (hR _ _ h)
  | quiet _ h1 h2 h3 h4 ih => exact ih.quiet h1 h2 h3 h4

theorem Adds.objs {E : SaddleEnv} {R : Bool → Nat → Prop} {s : CSt} {u : CSt} (h1 : u.store = s.store) (h2 : u.sumLinks = s.sumLinks)
    (h3 : u.sadLinks = s.sadLinks) (h4 : s.feats <+: u.feats) : Adds E R s u := Adds.refl.quiet h1 h2 h3 h4

theorem Adds.after {E : SaddleEnv} {R : Bool → Nat → Prop} {s t u v : CSt} (g : Adds E R u v) (h : Adds E R s t)
    (h1 : u.store = t.store) (h2 : u.sumLinks = t.sumLinks) (h3 : u.sadLinks = t.sadLinks) (h4 : t.feats <+: u.feats) :
    Adds E R s v := (h.quiet h1 h2 h3 h4).trans g

theorem prefix_of_eq {α : Type} {a b : List α} (h : a = b) : a <+: b := h ▸ List.prefix_refl _

theorem Adds.linkEdges {E : SaddleEnv} {R : Bool → Nat → Prop} {ig : Bool} {sid : Nat} (hR : R ig sid) :
    ∀ {es : List (List P3)} {s s' : CSt}, sid < s.feats.length → linkEdges E ig sid es s = .ok s' →
    Adds E R s s' ∧ s'.walked = s.walked := by
  intro es
  induction es with
  | nil =>
    intro s s' _ h
    simp only [PyProm.linkEdges, Except.ok.injEq] at h
    rw [← h]
    exact ⟨.refl, rfl⟩
  | cons e es ih =>
    intro s s' hk h
    cases e with
    | nil => simp [PyProm.linkEdges] at h
    | cons h0 e =>
      unfold PyProm.linkEdges at h
      cases hl : s.w.lookup h0.xy with
      | none => rw [hl] at h; exact ih hk h
      | some D =>
        rw [hl] at h
        obtain ⟨a, b⟩ := ih (s := addLinker E ig s D sid) hk h
        exact ⟨(Adds.refl.add ig D sid hk hR).trans a, b⟩

theorem Adds.synthetics {E : SaddleEnv} {R : Bool → Nat → Prop} : ∀ {ids : List Nat} {s s' : CSt}, (∀ k ∈ ids, R false k) →
    ids.foldlM (walkSynthetic E) s = .ok s' → Adds E R s s' ∧ s'.walked = s.walked ++ ids := by
  intro ids
  induction ids with
  | nil => intro s s' _ he; cases he; exact ⟨.refl, by simp⟩
  | cons k ids ih =>
    intro s s' hR he
    rw [List.foldlM_cons] at he
    obtain ⟨s1, e1, e2⟩ := bind_ok he
    unfold walkSynthetic at e1
    cases ho : s.objs[k]? with
    | none => rw [ho] at e1; simp at e1
    | some o =>
      rw [ho] at e1
      obtain ⟨w, _, e1⟩ := bind_ok e1
      obtain ⟨s2, e3, e1⟩ := bind_ok e1
      cases e1
      have hk : k < s.feats.length := by simpa [CSt.feats] using lt_of_getElem? ho
      have a1 : Adds E R s { s with w := w } := .objs rfl rfl rfl (List.prefix_refl _)
      obtain ⟨a2, b2⟩ := Adds.linkEdges (s := { s with w := w }) (hR k (by simp)) hk e3
      obtain ⟨a3, b3⟩ := ih (fun j hj => hR j (List.mem_cons_of_mem _ hj)) e2
      refine ⟨((a1.trans a2).quiet (u := { s2 with walked := s2.walked ++ [k] }) rfl rfl rfl (List.prefix_refl _)).trans a3, ?_⟩
      rw [b3]
      dsimp only
      rw [b2]
      simp

theorem modObj_feats {s : CSt} {objs : List SObj} (h : objs = s.objs) {k : Nat} {g : SObj → SObj} (hg : ∀ o, (g o).f = o.f) :
    (modObj objs k g).map (·.f) = s.feats := by
  subst h
  unfold modObj CSt.feats
  refine List.ext_getElem? fun j => ?_
  rw [List.getElem?_map, List.getElem?_modify, List.getElem?_map]
  cases s.objs[j]? with
  | none => rfl
  | some o => by_cases hk : k = j <;> simp [hk, hg]

theorem Adds.edges {E : SaddleEnv} {R : Bool → Nat → Prop} {base : Nat} : ∀ {ids : List Nat} {s s' : CSt}, (∀ k ∈ ids, R true k) →
    ids.foldlM (walkEdgeSaddle E base) s = .ok s' → Adds E R s s' ∧ s'.walked = s.walked ++ ids := by
  intro ids
  induction ids with
  | nil => intro s s' _ he; cases he; exact ⟨.refl, by simp⟩
  | cons k ids ih =>
    intro s s' hR he
    rw [List.foldlM_cons] at he
    obtain ⟨s1, e1, e2⟩ := bind_ok he
    unfold walkEdgeSaddle at e1
    cases ho : s.objs[k]? with
    | none => rw [ho] at e1; simp at e1
    | some o =>
      rw [ho] at e1
      obtain ⟨s2, e3, e1⟩ := bind_ok e1
      cases e1
      have hk : k < s.feats.length := by simpa [CSt.feats] using lt_of_getElem? ho
      obtain ⟨a2, b2⟩ := Adds.linkEdges (hR k (by simp)) hk e3
      obtain ⟨a3, b3⟩ := ih (fun j hj => hR j (List.mem_cons_of_mem _ hj)) e2
      refine ⟨a3.after a2 rfl rfl rfl ?_, ?_⟩
      · have e := modObj_feats (s := { s2 with objs := modObj s2.objs k (fun o => { o with parent := some base }) }) rfl
          (k := base) (g := fun o => { o with children := o.children ++ [k], disq := some true }) (fun _ => rfl)
        have e' := modObj_feats (s := s2) rfl (k := k) (g := fun o => { o with parent := some base }) (fun _ => rfl)
        exact prefix_of_eq (e'.symm.trans e.symm)
      · rw [b3]
        dsimp only
        rw [b2]
        simp

theorem Adds.finish {E : SaddleEnv} {R : Bool → Nat → Prop} {base : Nat} {ids : List Nat} {s s' : CSt} (hR : ∀ k ∈ ids, R true k)
    (he : finishEdge E s base ids = .ok s') : Adds E R s s' ∧ s'.walked = s.walked ++ (ids ++ [base]) := by
  unfold finishEdge at he
  obtain ⟨s1, e1, e2⟩ := bind_ok he
  cases e2
  obtain ⟨a, b⟩ := Adds.edges hR e1
  refine ⟨a.quiet rfl rfl rfl (prefix_of_eq (modObj_feats (s := s1) rfl (k := base)
    (g := fun o => { o with disq := some true }) (fun _ => rfl)).symm), ?_⟩
  dsimp only
  rw [b]
  simp

theorem Adds.edgeSynthetic {E : SaddleEnv} {R : Bool → Nat → Prop} {base : Nat} {ids : List Nat} {s s' : CSt} {f : Feature}
    (he : edgeSynthetic E s base f = .ok (s', ids)) : Adds E R s s' ∧ s'.walked = s.walked := by
  unfold PyProm.edgeSynthetic at he
  obtain ⟨r, _, e2⟩ := bind_ok he
  cases r with
  | none => cases e2; exact ⟨.refl, rfl⟩
  | some fs =>
    dsimp only at e2
    split at e2
    · cases e2
      exact ⟨.objs rfl rfl rfl ((onward_alloc s fs).trans (onward_adopt _ _ _)).feats, rfl⟩
    · cases e2
      exact ⟨.objs rfl rfl rfl (onward_alloc s fs).feats, rfl⟩

/-- The linkers of one feature: those of an edge feature are not listed where an equal one is. -/
theorem Adds.feature {E : SaddleEnv} {base : Nat} {s s' : CSt} {o : SObj} (ho : s.objs[base]? = some o)
    (he : walkFeature E s base = .ok s') :
    ∃ new, s'.walked = s.walked ++ new ∧ Adds E (fun ig k => ig = o.f.edge ∧ k ∈ new) s s' := by
  unfold walkFeature at he
  rw [ho] at he
  dsimp only at he
  have hk : base < s.feats.length := by simpa [CSt.feats] using lt_of_getElem? ho
  by_cases hed : o.f.edge = false
  · rw [if_pos hed] at he
    obtain ⟨r, e1, e2⟩ := bind_ok he
    cases r with
    | none =>
      obtain ⟨a, b⟩ := Adds.synthetics (E := E) (R := fun ig k => ig = o.f.edge ∧ k ∈ [base]) (ids := [base]) (s := s) (s' := s')
        (fun k hk => ⟨hed.symm, hk⟩) (by
          rw [List.foldlM_cons, show walkSynthetic E s base = .ok s' from e2]
          rfl)
      exact ⟨[base], b, a⟩
    | some fs =>
      obtain ⟨a, b⟩ := Adds.synthetics (E := E) (R := fun ig k => ig = o.f.edge ∧ k ∈ (PyProm.alloc s fs).2)
        (fun k hk => ⟨hed.symm, hk⟩) e2
      exact ⟨_, b, a.after (t := s) .refl rfl rfl rfl (onward_alloc s fs).feats⟩
  · have hedge : true = o.f.edge := by simpa using hed
    rw [if_neg hed] at he
    obtain ⟨w, _, e2⟩ := bind_ok he
    have hW : ∀ R, Adds E R s { s with w := w } := fun R => .objs rfl rfl rfl (List.prefix_refl _)
    split at e2
    · split at e2
      · split at e2
        · cases e2
        · split at e2
          · cases e2
            exact ⟨[base], rfl, .objs rfl rfl rfl (List.prefix_refl _)⟩
          · obtain ⟨⟨s2, ids⟩, e3, e4⟩ := bind_ok e2
            rename_i D _
            have h1 : Adds E (fun ig k => ig = o.f.edge ∧ k ∈ ids ++ [base]) { s with w := w }
                (addLinker E true { s with w := w } D base) :=
              Adds.refl.add true D base hk ⟨hedge, by simp⟩
            obtain ⟨a2, b2⟩ := Adds.edgeSynthetic (R := fun ig k => ig = o.f.edge ∧ k ∈ ids ++ [base]) e3
            obtain ⟨a3, b3⟩ := Adds.finish (R := fun ig k => ig = o.f.edge ∧ k ∈ ids ++ [base])
              (fun k hk => ⟨hedge, List.mem_append_left _ hk⟩) e4
            exact ⟨ids ++ [base], b3.trans (by rw [b2]; rfl), (hW _).trans (h1.trans (a2.trans a3))⟩
      · obtain ⟨a3, b3⟩ := Adds.finish (R := fun ig k => ig = o.f.edge ∧ k ∈ [base] ++ [base])
          (fun k hk => ⟨hedge, List.mem_append_left _ hk⟩) e2
        exact ⟨_, b3, (hW _).trans a3⟩
    · obtain ⟨⟨s2, ids⟩, e3, e4⟩ := bind_ok e2
      obtain ⟨a2, b2⟩ := Adds.edgeSynthetic (R := fun ig k => ig = o.f.edge ∧ k ∈ ids ++ [base]) e3
      obtain ⟨a3, b3⟩ := Adds.finish (R := fun ig k => ig = o.f.edge ∧ k ∈ ids ++ [base])
        (fun k hk => ⟨hedge, List.mem_append_left _ hk⟩) e4
      exact ⟨ids ++ [base], b3.trans (by rw [b2]), (hW _).trans (a2.trans a3)⟩

/-- The marks of a walk: set exactly for the linkers of features on the edge and of saddles split off one. -/
theorem Adds.features {E : SaddleEnv} {sites : List Pt} (hE : SEnvOk E sites) : ∀ {bases : List Nat} {s s' : CSt}, CInv E sites s →
    bases.Nodup → (∀ b ∈ bases, b < s.objs.length) → bases.foldlM (walkFeature E) s = .ok s' →
    Adds E (fun ig k => ig = true ↔ Split s' k) s s' := by
  intro bases
  induction bases with
  | nil => intro s s' _ _ _ he; cases he; exact .refl
  | cons b bases ih =>
    intro s s' hs hn hb he
    rw [List.foldlM_cons] at he
    obtain ⟨s1, e1, e2⟩ := bind_ok he
    obtain ⟨hnb, hn'⟩ := List.nodup_cons.1 hn
    have hbl := hb b (by simp)
    have ho := List.getElem?_eq_getElem hbl
    obtain ⟨s1', new, w1, w2, w3, w4, _, w6, w7⟩ := walkFeature_spec hE hs ho
    cases (w1.symm.trans e1 : Except.ok _ = Except.ok _)
    have hb' : ∀ b ∈ bases, b < s1.objs.length := fun c hc => lt_of_lt_of_le (hb c (List.mem_cons_of_mem _ hc)) w3.len
    obtain ⟨s'', _, v1, _, v3, _⟩ := walkFeatures_spec hE bases s1 w2 hn' hb'
    cases (v1.symm.trans e2 : Except.ok _ = Except.ok _)
    obtain ⟨new', n1, n2⟩ := Adds.feature ho e1
    have : new' = new := List.append_cancel_left (n1.symm.trans w4)
    subst this
    refine (n2.mono ?_).trans (ih w2 hn' hb' e2)
    rintro ig k ⟨rfl, hk⟩
    -- the object of `k` is not touched again
    have keep : ∀ o1, s1.objs[k]? = some o1 → s'.objs[k]? = some o1 := by
      intro o1 h1
      obtain ⟨o2, g1, _, g3⟩ := v3.feat k o1 h1
      rw [g1, g3 ?_]
      rintro (hc | hc)
      · rcases w7 k hk with rfl | h
        · exact hnb hc
        · have := hb k (List.mem_cons_of_mem _ hc)
          omega
      · have := lt_of_getElem? h1
        omega
    have hbase : k = b → s.objs[b].f.edge = true → Split s' k := by
      rintro rfl h
      obtain ⟨o1, g1, g2, _⟩ := w3.feat k _ ho
      exact ⟨o1, keep o1 g1, .inl (by rw [g2]; exact h)⟩
    unfold Outcome at w6
    split at w6
    · rename_i hf
      obtain ⟨_, _, w6⟩ := w6
      obtain ⟨o1, g1, g2, g3⟩ := w6 k hk
      rw [hf]
      refine ⟨fun h => by simp at h, ?_⟩
      rintro ⟨o2, f1, f2⟩
      cases (f1.symm.trans (keep o1 g1) : some _ = some _)
      rcases f2 with f2 | f2
      · rw [g2.edge] at f2; simp at f2
      · exact absurd g3 f2
    · rename_i hf
      have hf' : s.objs[b].f.edge = true := by simpa using hf
      refine ⟨fun _ => ?_, fun _ => hf'⟩
      split at w6
      · have : k = b := by
          rcases w6 with ⟨h, _⟩ | ⟨_, h⟩ <;> (rw [h] at hk; simpa using hk)
        exact hbase this hf'
      · obtain ⟨ids, h1, _, _, h4, _⟩ := w6
        rw [h1, List.mem_append] at hk
        rcases hk with hk | hk
        · obtain ⟨o1, g1, _, g3⟩ := h4 k hk
          exact ⟨o1, keep o1 g1, .inr (by rw [g3]; simp)⟩
        · exact hbase (by simpa using hk) hf'

/-! ### Listed linkers -/

theorem linkEq_trans {E : SaddleEnv} {objs : List SObj} {a b c : LinkRec} (h : linkEq E objs a b = true)
    (g : linkEq E objs b c = true) : linkEq E objs a c = true := by
  unfold linkEq at h g ⊢
  split at h
  · rename_i s1 s2 t1 t2 e1 e2 e3 e4
    rw [e2, e4] at g
    split at g
    · rename_i s1' s2' t1' t2' e1' e2' e3' e4'
      cases e1'
      cases e3'
      rw [e1, e2', e3, e4']
      dsimp only
      rw [Bool.and_eq_true, seEq_iff, seEq_iff] at h g ⊢
      exact ⟨h.1.trans g.1, h.2.trans g.2⟩
    · cases g
  · cases h

/-- A linker is not listed by its summit exactly if its saddle is in `S` and an earlier linker of the summit is equal to it, and
likewise for its saddle. -/
structure ListedBy (E : SaddleEnv) (S : Nat → Prop) (s : CSt) : Prop where
  bound : ∀ l ∈ s.store, l.saddle < s.feats.length
  sum : ∀ k, ∀ i ∈ s.sumLinks k, ∃ l, s.store[i]? = some l ∧ l.summit = k
  sad : ∀ k, ∀ i ∈ s.sadLinks k, ∃ l, s.store[i]? = some l ∧ l.saddle = k
  bySum : ∀ (i : Nat) l, s.store[i]? = some l → (i ∈ s.sumLinks l.summit ↔
    ¬ (S l.saddle ∧ ∃ j < i, ∃ a, s.store[j]? = some a ∧ a.summit = l.summit ∧ linkEq E s.objs a l = true))
  bySad : ∀ (i : Nat) l, s.store[i]? = some l → (i ∈ s.sadLinks l.saddle ↔
    ¬ (S l.saddle ∧ ∃ j < i, ∃ a, s.store[j]? = some a ∧ a.saddle = l.saddle ∧ linkEq E s.objs a l = true))

theorem linkEq_feats {E : SaddleEnv} {t u : CSt} (h : t.feats <+: u.feats) {a b : LinkRec} (ha : a.saddle < t.feats.length)
    (hb : b.saddle < t.feats.length) : linkEq E u.objs a b = linkEq E t.objs a b := by
  have key : ∀ k, k < t.feats.length → ∃ o o', t.objs[k]? = some o ∧ u.objs[k]? = some o' ∧ o'.f = o.f := by
    intro k hk
    have hk' : k < t.objs.length := by simpa [CSt.feats] using hk
    have ho := List.getElem?_eq_getElem hk'
    have h1 : t.feats[k]? = some t.objs[k].f := by simp [CSt.feats, ho]
    have := prefix_getElem? h h1
    simp only [CSt.feats, List.getElem?_map, Option.map_eq_some_iff] at this
    obtain ⟨o', h2, h3⟩ := this
    exact ⟨_, o', ho, h2, h3⟩
  obtain ⟨o1, o1', f1, f2, f3⟩ := key _ ha
  obtain ⟨o2, o2', g1, g2, g3⟩ := key _ hb
  unfold linkEq
  rw [f1, f2, g1, g2]
  cases E.summits[a.summit]? <;> cases E.summits[b.summit]? <;> simp [f3, g3]

theorem mem_push_other {g : Nat → List Nat} {b : Bool} {v n k i : Nat} (h : i ∈ (if b then g else pushAt g v n) k) :
    i ∈ g k ∨ (i = n ∧ k = v) := by
  cases b
  · simp only [Bool.false_eq_true, if_false, pushAt] at h
    split at h
    · rename_i hk
      rcases List.mem_append.1 h with h | h
      · exact .inl h
      · exact .inr ⟨by simpa using h, hk⟩
    · exact .inl h
  · exact .inl (by simpa using h)

/-- The first of the linkers equal to `l` with the same key is listed. -/
theorem first_in {E : SaddleEnv} {S : Nat → Prop} {t : CSt} {links : Nat → List Nat} {key : LinkRec → Nat}
    (hby : ∀ (i : Nat) l, t.store[i]? = some l → (i ∈ links (key l) ↔
      ¬ (S l.saddle ∧ ∃ j < i, ∃ a, t.store[j]? = some a ∧ key a = key l ∧ linkEq E t.objs a l = true))) {l : LinkRec} :
    ∀ (j : Nat) a, t.store[j]? = some a → key a = key l → linkEq E t.objs a l = true →
      ∃ i ∈ links (key l), ∃ l', t.store[i]? = some l' ∧ linkEq E t.objs l' l = true := by
  intro j
  induction j using Nat.strong_induction_on with
  | _ j ih =>
    intro a ha hk hq
    by_cases hj : j ∈ links (key a)
    · exact ⟨j, by rw [← hk]; exact hj, a, ha, hq⟩
    · rw [hby j a ha, Classical.not_not] at hj
      obtain ⟨_, j', hlt, a', h1, h2, h3⟩ := hj
      exact ih j' hlt a' h1 (h2.trans hk) (linkEq_trans h3 hq)

theorem Adds.listed {E : SaddleEnv} {S : Nat → Prop} {s u : CSt} (hs : ListedBy E S s)
    (h : Adds E (fun ig k => ig = true ↔ S k) s u) : ListedBy E S u := by
  induction h with
  | refl => exact hs
  | @quiet t u _ h1 h2 h3 h4 hI =>
    have hb : ∀ (i : Nat) l, t.store[i]? = some l → l.saddle < t.feats.length := fun i l h => hI.bound l (List.mem_of_getElem? h)
    refine ⟨fun l hl => ?_, by rw [h1, h2]; exact hI.sum, by rw [h1, h3]; exact hI.sad, fun i l hl => ?_, fun i l hl => ?_⟩
    · rw [h1] at hl
      exact lt_of_lt_of_le (hI.bound l hl) h4.length_le
    · rw [h1] at hl ⊢
      rw [h2, hI.bySum i l hl]
      refine not_congr (and_congr_right fun _ => exists_congr fun j => and_congr_right fun _ => exists_congr fun a =>
        and_congr_right fun ha => ?_)
      rw [linkEq_feats h4 (hb j a ha) (hb i l hl)]
    · rw [h1] at hl ⊢
      rw [h3, hI.bySad i l hl]
      refine not_congr (and_congr_right fun _ => exists_congr fun j => and_congr_right fun _ => exists_congr fun a =>
        and_congr_right fun ha => ?_)
      rw [linkEq_feats h4 (hb j a ha) (hb i l hl)]
  | @add t ig D sid _ hk hR hI =>
    have hst : (addLinker E ig t D sid).store = t.store ++ [⟨D, sid⟩] := rfl
    have hob : (addLinker E ig t D sid).objs = t.objs := rfl
    have hlt : ∀ {j : Nat}, j < t.store.length → (t.store ++ [(⟨D, sid⟩ : LinkRec)])[j]? = t.store[j]? := fun h =>
      List.getElem?_append_left h
    have hnew : (t.store ++ [(⟨D, sid⟩ : LinkRec)])[t.store.length]? = some ⟨D, sid⟩ := by simp
    have hn1 : t.store.length ∉ t.sumLinks D := fun h => by
      obtain ⟨l, h1, _⟩ := hI.sum D _ h
      exact Nat.lt_irrefl _ (lt_of_getElem? h1)
    have hn2 : t.store.length ∉ t.sadLinks sid := fun h => by
      obtain ⟨l, h1, _⟩ := hI.sad sid _ h
      exact Nat.lt_irrefl _ (lt_of_getElem? h1)
    have hold : ∀ {i : Nat} {l : LinkRec}, (t.store ++ [⟨D, sid⟩])[i]? = some l →
        (i < t.store.length ∧ t.store[i]? = some l) ∨ (i = t.store.length ∧ l = ⟨D, sid⟩) := by
      intro i l hl
      by_cases hi : i < t.store.length
      · rw [List.getElem?_append_left hi] at hl
        exact .inl ⟨hi, hl⟩
      · have hlt := lt_of_getElem? hl
        rw [List.length_append, List.length_singleton] at hlt
        have : i = t.store.length := by omega
        subst this
        exact .inr ⟨rfl, by simpa using hl.symm⟩
    have hsame : ∀ {i : Nat} {l : LinkRec} (key : LinkRec → Nat), i ≤ t.store.length →
        ((∃ j < i, ∃ a, (t.store ++ [(⟨D, sid⟩ : LinkRec)])[j]? = some a ∧ key a = key l ∧ linkEq E t.objs a l = true) ↔
          ∃ j < i, ∃ a, t.store[j]? = some a ∧ key a = key l ∧ linkEq E t.objs a l = true) := by
      intro i l key hi
      refine exists_congr fun j => and_congr_right fun hj => ?_
      rw [hlt (by omega)]
    have hin : ∀ (links : Nat → List Nat) (key : LinkRec → Nat), (∀ k, ∀ i ∈ links k, ∃ l, t.store[i]? = some l ∧ key l = k) →
        (∀ (i : Nat) l, t.store[i]? = some l → (i ∈ links (key l) ↔
          ¬ (S l.saddle ∧ ∃ j < i, ∃ a, t.store[j]? = some a ∧ key a = key l ∧ linkEq E t.objs a l = true))) →
        (linkIn E t ⟨D, sid⟩ (links (key ⟨D, sid⟩)) = true ↔ ∃ j < t.store.length, ∃ a, t.store[j]? = some a ∧
          key a = key ⟨D, sid⟩ ∧ linkEq E t.objs a ⟨D, sid⟩ = true) := by
      intro links key h1 h2
      rw [linkIn_iff]
      constructor
      · rintro ⟨i, hi, l', e1, e2⟩
        obtain ⟨l, f1, f2⟩ := h1 _ i hi
        cases (f1.symm.trans e1 : some _ = some _)
        exact ⟨i, lt_of_getElem? e1, l', e1, f2, e2⟩
      · rintro ⟨j, _, a, e1, e2, e3⟩
        exact first_in h2 j a e1 e2 e3
    refine ⟨fun l hl => ?_, fun k i hi => ?_, fun k i hi => ?_, fun i l hl => ?_, fun i l hl => ?_⟩
    · rcases List.mem_append.1 (show l ∈ t.store ++ [⟨D, sid⟩] from hl) with h | h
      · exact hI.bound l h
      · rw [List.mem_singleton.1 h]
        exact hk
    · rcases mem_push_other hi with h | ⟨rfl, rfl⟩
      · obtain ⟨l, h1, h2⟩ := hI.sum k i h
        exact ⟨l, by rw [hst, hlt (lt_of_getElem? h1)]; exact h1, h2⟩
      · exact ⟨_, hnew, rfl⟩
    · rcases mem_push_other hi with h | ⟨rfl, rfl⟩
      · obtain ⟨l, h1, h2⟩ := hI.sad k i h
        exact ⟨l, by rw [hst, hlt (lt_of_getElem? h1)]; exact h1, h2⟩
      · exact ⟨_, hnew, rfl⟩
    · rw [hob, hst]
      rcases hold hl with ⟨h1, h2⟩ | ⟨rfl, rfl⟩
      · rw [hsame LinkRec.summit (le_of_lt h1)]
        exact (mem_push (Nat.ne_of_lt h1)).trans (hI.bySum i l h2)
      · rw [hsame LinkRec.summit (le_refl _)]
        refine (mem_push_new hn1).trans ?_
        rw [← Bool.not_eq_true, Bool.and_eq_true, hin t.sumLinks LinkRec.summit hI.sum hI.bySum, hR]
    · rw [hob, hst]
      rcases hold hl with ⟨h1, h2⟩ | ⟨rfl, rfl⟩
      · rw [hsame LinkRec.saddle (le_of_lt h1)]
        exact (mem_push (Nat.ne_of_lt h1)).trans (hI.bySad i l h2)
      · rw [hsame LinkRec.saddle (le_refl _)]
        refine (mem_push_new hn2).trans ?_
        rw [← Bool.not_eq_true, Bool.and_eq_true, hin t.sadLinks LinkRec.saddle hI.sad hI.bySad, hR]

/-- The linkers of a walked map. -/
theorem walk_listedBy {E : SaddleEnv} (hE : RunOk E) {sites : List Pt} {m0 m : DMap} {x : Option _} (h0 : Fresh E.d sites m0)
    (hw : m0.walk E [] = .ok (m, x)) : ListedBy { E with summits := m0.summits } (Split m.st) m.st := by
  obtain ⟨w0, e1', e2', _⟩ := walkInit_spec hE.geo h0.tops
  have hst := h0.start
  have hinv : CInv { E with summits := m0.summits } sites
      { m0.st with w := w0, walked := [], linkers := [], doms := [] } := by
    refine ⟨e2', h0.ok, ?_, ?_, ?_, ?_, ?_, ?_, ?_, ?_, ?_, h0.disq⟩ <;> rw [hst] <;> simp [CSt.start]
  unfold DMap.walk at hw
  obtain ⟨w, e1, e2⟩ := bind_ok hw
  rw [h0.none] at e1
  cases (e1'.symm.trans e1 : Except.ok _ = Except.ok _)
  obtain ⟨⟨r, s⟩, e3, e4⟩ := bind_ok e2
  have hF : ∀ S, ListedBy { E with summits := m0.summits } S { m0.st with w := w0, walked := [], linkers := [], doms := [] } := by
    intro S
    constructor <;> rw [hst] <;> simp [CSt.start]
  unfold climbFromSaddles at e3
  obtain ⟨s1, e5, e6⟩ := bind_ok e3
  cases e6
  simp only [List.isEmpty_nil, if_true] at e5 e4
  have hm : m.st = s := by
    cases e4; rfl
  rw [hm]
  refine (Adds.features (hE.senv h0.tops) hinv h0.nodup (fun b hb => ?_) e5).listed (hF _)
  rcases List.mem_append.1 hb with h | h
  · obtain ⟨o, ho, _⟩ := h0.sad b h
    exact lt_of_getElem? ho
  · obtain ⟨o, ho, _⟩ := h0.run b h
    exact lt_of_getElem? ho

end PyProm
