import Verif.Proof.LinkCount

/-
The walk from saddles as a sequence of new linkers, and which linkers it does not list.
-/
namespace PyProm
open Spec

/-- Objects stay, with their features, and do not lose their parents. -/
def Onward (s t : CSt) : Prop := ∀ (k : Nat) o, s.objs[k]? = some o → ∃ o', t.objs[k]? = some o' ∧ o'.f = o.f ∧
  (o.parent ≠ none → o'.parent ≠ none)

theorem Onward.refl (s : CSt) : Onward s s := fun _ o h => ⟨o, h, rfl, fun h => h⟩

theorem Onward.trans {s t u : CSt} (h : Onward s t) (g : Onward t u) : Onward s u := fun k o ho => by
  obtain ⟨o1, a1, a2, a3⟩ := h k o ho
  obtain ⟨o2, b1, b2, b3⟩ := g k o1 a1
  exact ⟨o2, b1, b2.trans a2, fun h => b3 (a3 h)⟩

theorem Onward.of_objs {s t : CSt} (h : t.objs = s.objs) : Onward s t := fun _ o ho => ⟨o, by rw [h]; exact ho, rfl, fun h => h⟩

theorem Onward.mod {s t u : CSt} (h : Onward s t) {k : Nat} {g : SObj → SObj} (hu : u.objs = modObj t.objs k g)
    (h1 : ∀ o, (g o).f = o.f) (h2 : ∀ o, o.parent ≠ none → (g o).parent ≠ none) : Onward s u := by
  refine h.trans fun j o ho => ?_
  rw [hu]
  unfold modObj
  rw [List.getElem?_modify, ho]
  by_cases hk : k = j
  · exact ⟨g o, by simp [hk], h1 o, h2 o⟩
  · exact ⟨o, by simp [hk], rfl, fun h => h⟩

theorem Onward.feats {s t : CSt} (h : Onward s t) : s.feats <+: t.feats := by
  rw [List.prefix_iff_getElem?]
  intro k hk
  have hk' : k < s.objs.length := by simpa [CSt.feats] using hk
  obtain ⟨o', h1, h2, _⟩ := h k _ (List.getElem?_eq_getElem hk')
  simp only [CSt.feats, List.getElem?_map, h1, Option.map_some, List.getElem_map, h2]

/-- The saddle is on the edge or has a parent. -/
def Split (s : CSt) (k : Nat) : Prop := ∃ o, s.objs[k]? = some o ∧ (o.f.edge = true ∨ o.parent ≠ none)

theorem Onward.split {s t : CSt} (h : Onward s t) {k : Nat} (hk : Split s k) : Split t k := by
  obtain ⟨o, h1, h2⟩ := hk
  obtain ⟨o', g1, g2, g3⟩ := h k o h1
  exact ⟨o', g1, h2.imp (fun h => by rw [g2]; exact h) g3⟩

/-- States reached from `s` by making linkers of existing saddles; in between, nothing that concerns linkers changes. Linkers that are
not listed where equal ones are belong to saddles in `S`. -/
inductive LinkSteps (E : SaddleEnv) (S : Nat → Prop) (s : CSt) : CSt → Prop
  | refl : LinkSteps E S s s
  | add {t : CSt} (ig : Bool) (D sid : Nat) : LinkSteps E S s t → sid < t.feats.length → (ig = true → S sid) →
      LinkSteps E S s (addLinker E ig t D sid)
  | quiet {t u : CSt} : LinkSteps E S s t → u.store = t.store → u.sumLinks = t.sumLinks → u.sadLinks = t.sadLinks →
      Onward t u → LinkSteps E S s u

theorem LinkSteps.trans {E : SaddleEnv} {S : Nat → Prop} {s t u : CSt} (h : LinkSteps E S s t) (g : LinkSteps E S t u) :
    LinkSteps E S s u := by
  induction g with
  | refl => exact h
  | add ig D sid _ hk hS ih => exact ih.add ig D sid hk hS
  | quiet _ h1 h2 h3 h4 ih => exact ih.quiet h1 h2 h3 h4

theorem LinkSteps.onward {E : SaddleEnv} {S : Nat → Prop} {s t : CSt} (h : LinkSteps E S s t) : Onward s t := by
  induction h with
  | refl => exact .refl _
  | add ig D sid _ _ _ ih => exact ih.trans (.of_objs rfl)
  | quiet _ _ _ _ h4 ih => exact ih.trans h4

theorem LinkSteps.mono {E : SaddleEnv} {S S' : Nat → Prop} {s t : CSt} (hS : ∀ k, S k → S' k) (h : LinkSteps E S s t) :
    LinkSteps E S' s t := by
  induction h with
  | refl => exact .refl
  | add ig D sid _ hk h ih => exact ih.add ig D sid hk fun e => hS _ (h e)
  | quiet _ h1 h2 h3 h4 ih => exact ih.quiet h1 h2 h3 h4

/-- Two stretches one after the other. -/
theorem LinkSteps.after {E : SaddleEnv} {s t u : CSt} (h : LinkSteps E (Split t) s t) (g : LinkSteps E (Split u) t u) :
    LinkSteps E (Split u) s u := (h.mono fun _ hk => g.onward.split hk).trans g

theorem LinkSteps.linkEdges {E : SaddleEnv} {S : Nat → Prop} {ig : Bool} {sid : Nat} (hS : ig = true → S sid) :
    ∀ {es : List (List P3)} {s s' : CSt}, sid < s.feats.length → linkEdges E ig sid es s = .ok s' → LinkSteps E S s s' := by
  intro es
  induction es with
  | nil =>
    intro s s' _ h
    simp only [PyProm.linkEdges, Except.ok.injEq] at h
    rw [← h]
    exact .refl
  | cons e es ih =>
    intro s s' hk h
    cases e with
    | nil => simp [PyProm.linkEdges] at h
    | cons h0 e =>
      unfold PyProm.linkEdges at h
      cases hl : s.w.lookup h0.xy with
      | none => rw [hl] at h; exact ih hk h
      | some D =>
        rw [hl] at h
        exact (LinkSteps.refl.add ig D sid hk hS).trans (ih (s := addLinker E ig s D sid) hk h)

theorem LinkSteps.synthetics {E : SaddleEnv} {S : Nat → Prop} : ∀ {ids : List Nat} {s s' : CSt},
    ids.foldlM (walkSynthetic E) s = .ok s' → LinkSteps E S s s' := by
  intro ids
  induction ids with
  | nil => intro s s' he; cases he; exact .refl
  | cons k ids ih =>
    intro s s' he
    rw [List.foldlM_cons] at he
    obtain ⟨s1, e1, e2⟩ := bind_ok he
    unfold walkSynthetic at e1
    cases ho : s.objs[k]? with
    | none => rw [ho] at e1; simp at e1
    | some o =>
      rw [ho] at e1
      obtain ⟨w, _, e1⟩ := bind_ok e1
      obtain ⟨s2, e3, e1⟩ := bind_ok e1
      cases e1
      have hk : k < s.feats.length := by simpa [CSt.feats] using lt_of_getElem? ho
      have a1 : LinkSteps E S s { s with w := w } := LinkSteps.refl.quiet rfl rfl rfl (.of_objs rfl)
      have a2 := a1.trans (LinkSteps.linkEdges (s := { s with w := w }) (fun h => (nomatch h)) hk e3)
      exact (a2.quiet (u := { s2 with walked := s2.walked ++ [k] }) rfl rfl rfl (.of_objs rfl)).trans (ih e2)

theorem LinkSteps.edges {E : SaddleEnv} {base : Nat} : ∀ {ids : List Nat} {s s' : CSt},
    ids.foldlM (walkEdgeSaddle E base) s = .ok s' → LinkSteps E (Split s') s s' := by
  intro ids
  induction ids with
  | nil => intro s s' he; cases he; exact .refl
  | cons k ids ih =>
    intro s s' he
    rw [List.foldlM_cons] at he
    obtain ⟨s1, e1, e2⟩ := bind_ok he
    unfold walkEdgeSaddle at e1
    cases ho : s.objs[k]? with
    | none => rw [ho] at e1; simp at e1
    | some o =>
      rw [ho] at e1
      obtain ⟨s2, e3, e1⟩ := bind_ok e1
      cases e1
      have hk : k < s.feats.length := by simpa [CSt.feats] using lt_of_getElem? ho
      refine LinkSteps.after ?_ (ih e2)
      refine (LinkSteps.linkEdges (fun _ => ?_) hk e3).quiet rfl rfl rfl
        (((Onward.refl s2).mod (u := { s2 with objs := modObj s2.objs k (fun o => { o with parent := some base }) }) rfl
          (fun _ => rfl) (fun _ _ => by simp)).mod rfl (fun _ => rfl) (fun _ h => h))
      have ho2 : s2.objs[k]? = some o := by rw [(linkEdges_count e3).1]; exact ho
      unfold Split
      dsimp only
      unfold modObj
      rw [List.getElem?_modify, List.getElem?_modify, ho2]
      by_cases hb : base = k
      · exact ⟨_, by simp [hb]; rfl, .inr (by simp)⟩
      · exact ⟨_, by simp [hb]; rfl, .inr (by simp)⟩

theorem LinkSteps.finish {E : SaddleEnv} {base : Nat} {ids : List Nat} {s s' : CSt}
    (he : finishEdge E s base ids = .ok s') : LinkSteps E (Split s') s s' := by
  unfold finishEdge at he
  obtain ⟨s1, e1, e2⟩ := bind_ok he
  cases e2
  exact (LinkSteps.edges e1).after (LinkSteps.refl.quiet rfl rfl rfl
    ((Onward.refl s1).mod rfl (fun _ => rfl) (fun _ h => h)))

theorem onward_alloc (s : CSt) (fs : List Feature) : Onward s (PyProm.alloc s fs).1 := fun k o ho => by
  refine ⟨o, ?_, rfl, fun h => h⟩
  show (s.objs ++ _)[k]? = some o
  rw [List.getElem?_append_left (lt_of_getElem? ho)]
  exact ho

theorem onward_adopt (s : CSt) (base : Nat) (ids : List Nat) : Onward s (adoptChildren s base ids) := by
  have key : ∀ (ids : List Nat) (t : CSt), Onward t { t with
      objs := ids.foldl (fun objs k => modObj objs k (fun o => { o with parent := some base })) t.objs } := by
    intro ids
    induction ids with
    | nil => exact fun t => .of_objs rfl
    | cons k ids ih =>
      intro t
      have h1 : Onward t { t with objs := modObj t.objs k (fun o => { o with parent := some base }) } :=
        (Onward.refl t).mod rfl (fun _ => rfl) (fun _ _ => by simp)
      exact h1.trans (ih { t with objs := modObj t.objs k (fun o => { o with parent := some base }) })
  exact (key ids s).mod rfl (fun _ => rfl) (fun _ h => h)

theorem LinkSteps.edgeSynthetic {E : SaddleEnv} {S : Nat → Prop} {base : Nat} {ids : List Nat} {s s' : CSt} {f : Feature}
    (he : edgeSynthetic E s base f = .ok (s', ids)) : LinkSteps E S s s' := by
  unfold PyProm.edgeSynthetic at he
  obtain ⟨r, _, e2⟩ := bind_ok he
  cases r with
  | none => cases e2; exact .refl
  | some fs =>
    dsimp only at e2
    split at e2
    · cases e2
      exact LinkSteps.refl.quiet rfl rfl rfl ((onward_alloc s fs).trans (onward_adopt _ _ _))
    · cases e2
      exact LinkSteps.refl.quiet rfl rfl rfl (onward_alloc s fs)

theorem LinkSteps.feature {E : SaddleEnv} {base : Nat} {s s' : CSt} (he : walkFeature E s base = .ok s') :
    LinkSteps E (Split s') s s' := by
  unfold walkFeature at he
  cases ho : s.objs[base]? with
  | none => rw [ho] at he; simp at he
  | some o =>
    rw [ho] at he
    dsimp only at he
    have hk : base < s.feats.length := by simpa [CSt.feats] using lt_of_getElem? ho
    by_cases hed : o.f.edge = false
    · rw [if_pos hed] at he
      obtain ⟨r, e1, e2⟩ := bind_ok he
      cases r with
      | none =>
        refine LinkSteps.synthetics (ids := [base]) ?_
        rw [List.foldlM_cons, show walkSynthetic E s base = .ok s' from e2]
        rfl
      | some fs =>
        exact LinkSteps.trans (t := (PyProm.alloc s fs).1) (LinkSteps.refl.quiet rfl rfl rfl (onward_alloc s fs))
          (LinkSteps.synthetics e2)
    · rw [if_neg hed] at he
      obtain ⟨w, _, e2⟩ := bind_ok he
      have hW : LinkSteps E (Split { s with w := w }) s { s with w := w } := LinkSteps.refl.quiet rfl rfl rfl (.of_objs rfl)
      refine hW.after ?_
      split at e2
      · split at e2
        · split at e2
          · cases e2
          · split at e2
            · cases e2
              exact LinkSteps.refl.quiet rfl rfl rfl (.of_objs rfl)
            · obtain ⟨⟨s2, ids⟩, e3, e4⟩ := bind_ok e2
              rename_i D _
              have h1 : LinkSteps E (Split (addLinker E true { s with w := w } D base)) { s with w := w }
                  (addLinker E true { s with w := w } D base) :=
                LinkSteps.refl.add true D base hk fun _ => ⟨o, ho, .inl (by simpa using hed)⟩
              exact (h1.after (LinkSteps.edgeSynthetic e3)).after (LinkSteps.finish e4)
        · exact LinkSteps.finish e2
      · obtain ⟨⟨s2, ids⟩, e3, e4⟩ := bind_ok e2
        exact (LinkSteps.edgeSynthetic e3).after (LinkSteps.finish e4)

theorem LinkSteps.features {E : SaddleEnv} : ∀ {bases : List Nat} {s s' : CSt},
    bases.foldlM (walkFeature E) s = .ok s' → LinkSteps E (Split s') s s' := by
  intro bases
  induction bases with
  | nil => intro s s' he; cases he; exact .refl
  | cons b bases ih =>
    intro s s' he
    rw [List.foldlM_cons] at he
    obtain ⟨s1, e1, e2⟩ := bind_ok he
    exact (LinkSteps.feature e1).after (ih e2)

/-! ### Linkers that are not listed -/

/-- Linkers that compare equal join the same objects, and summits exist. -/
structure TwinsOnly (E : SaddleEnv) (s : CSt) : Prop where
  same : ∀ a ∈ s.store, ∀ b ∈ s.store, linkEq E s.objs a b = true → a = b
  summit : ∀ a ∈ s.store, ∃ sf, E.summits[a.summit]? = some sf

/-- A linker is listed by both ends or by none, and the first of equal ones is. -/
structure FirstListed (s : CSt) : Prop where
  bound : ∀ l ∈ s.store, l.saddle < s.feats.length
  sum : ∀ k, ∀ i ∈ s.sumLinks k, i < s.store.length
  sad : ∀ k, ∀ i ∈ s.sadLinks k, i < s.store.length
  both : ∀ (i : Nat) l, s.store[i]? = some l → (i ∈ s.sumLinks l.summit ↔ i ∈ s.sadLinks l.saddle)
  first : ∀ (i : Nat) l, s.store[i]? = some l → i ∉ s.sumLinks l.summit → ∃ j < i, s.store[j]? = some l

theorem linkEq_later {E : SaddleEnv} {t u : CSt} (h : t.feats <+: u.feats) {a b : LinkRec}
    (hq : linkEq E t.objs a b = true) : linkEq E u.objs a b = true := by
  have key : ∀ (k : Nat) o, t.objs[k]? = some o → ∃ o', u.objs[k]? = some o' ∧ o'.f = o.f := by
    intro k o ho
    have h1 : t.feats[k]? = some o.f := by simp [CSt.feats, ho]
    have := prefix_getElem? h h1
    simp only [CSt.feats, List.getElem?_map, Option.map_eq_some_iff] at this
    exact this
  unfold linkEq at hq ⊢
  split at hq
  · rename_i s1 s2 t1 t2 e1 e2 e3 e4
    obtain ⟨o1, f1, f2⟩ := key _ _ e3
    obtain ⟨o2, g1, g2⟩ := key _ _ e4
    rw [e1, e2, f1, g1]
    dsimp only
    rw [f2, g2]
    exact hq
  · cases hq

theorem linkEq_self {E : SaddleEnv} {s : CSt} {a : LinkRec} {sf : Feature} (h1 : E.summits[a.summit]? = some sf)
    (h2 : a.saddle < s.feats.length) : linkEq E s.objs a a = true := by
  have h3 : a.saddle < s.objs.length := by simpa [CSt.feats] using h2
  unfold linkEq
  rw [h1, List.getElem?_eq_getElem h3]
  simp [seEq]

theorem linkIn_iff {E : SaddleEnv} {s : CSt} (l : LinkRec) (L : List Nat) :
    linkIn E s l L = true ↔ ∃ i ∈ L, ∃ l', s.store[i]? = some l' ∧ linkEq E s.objs l' l = true := by
  unfold linkIn
  rw [List.any_eq_true]
  refine exists_congr fun i => and_congr_right fun _ => ?_
  cases s.store[i]? with
  | none => simp
  | some l' => simp

theorem mem_push {g : Nat → List Nat} {b : Bool} {v n k i : Nat} (hi : i ≠ n) :
    i ∈ (if b then g else pushAt g v n) k ↔ i ∈ g k := by
  cases b
  · simp only [Bool.false_eq_true, if_false, pushAt]
    split
    · simp [hi]
    · rfl
  · simp

theorem mem_push_new {g : Nat → List Nat} {b : Bool} {v n : Nat} (hn : n ∉ g v) :
    n ∈ (if b then g else pushAt g v n) v ↔ b = false := by
  cases b <;> simp [pushAt, hn]

theorem LinkSteps.firstListed {E : SaddleEnv} {S : Nat → Prop} {s u : CSt} (hs : FirstListed s) (h : LinkSteps E S s u) :
    TwinsOnly E u → FirstListed u := by
  induction h with
  | refl => exact fun _ => hs
  | @quiet t u _ h1 h2 h3 h4 ih =>
    intro hT
    have hT' : TwinsOnly E t := ⟨fun a ha b hb' hq => hT.same a (by rw [h1]; exact ha) b (by rw [h1]; exact hb')
      (linkEq_later h4.feats hq), fun a ha => hT.summit a (by rw [h1]; exact ha)⟩
    have hI := ih hT'
    refine ⟨fun l hl => ?_, ?_, ?_, ?_, ?_⟩
    · rw [h1] at hl
      exact lt_of_lt_of_le (hI.bound l hl) h4.feats.length_le
    · rw [h1, h2]
      exact hI.sum
    · rw [h1, h3]
      exact hI.sad
    · rw [h1, h2, h3]
      exact hI.both
    · rw [h1, h2]
      exact hI.first
  | @add t ig D sid _ hk _ ih =>
    intro hT
    have hst : (addLinker E ig t D sid).store = t.store ++ [⟨D, sid⟩] := rfl
    have hT' : TwinsOnly E t := ⟨fun a ha b hb' hq => hT.same a (by rw [hst]; exact List.mem_append_left _ ha) b
        (by rw [hst]; exact List.mem_append_left _ hb') hq, fun a ha => hT.summit a (by rw [hst]; exact List.mem_append_left _ ha)⟩
    have hI := ih hT'
    obtain ⟨sf, hsf⟩ := hT.summit ⟨D, sid⟩ (by rw [hst]; simp)
    -- what `in` finds
    have hin : ∀ L : List Nat, (linkIn E t ⟨D, sid⟩ L = true ↔ ∃ i ∈ L, t.store[i]? = some ⟨D, sid⟩) := by
      intro L
      rw [linkIn_iff]
      refine exists_congr fun i => and_congr_right fun _ => ⟨?_, fun h => ⟨_, h, linkEq_self hsf hk⟩⟩
      rintro ⟨l', h1, h2⟩
      have := hT.same l' (by rw [hst]; exact List.mem_append_left _ (List.mem_of_getElem? h1)) ⟨D, sid⟩ (by rw [hst]; simp) h2
      rw [h1, this]
    have hsame : linkIn E t ⟨D, sid⟩ (t.sumLinks D) = linkIn E t ⟨D, sid⟩ (t.sadLinks sid) := by
      rw [Bool.eq_iff_iff, hin, hin]
      exact exists_congr fun i => ⟨fun h => ⟨(hI.both i _ h.2).1 h.1, h.2⟩, fun h => ⟨(hI.both i _ h.2).2 h.1, h.2⟩⟩
    have hn1 : t.store.length ∉ t.sumLinks D := fun h => Nat.lt_irrefl _ (hI.sum D _ h)
    have hn2 : t.store.length ∉ t.sadLinks sid := fun h => Nat.lt_irrefl _ (hI.sad sid _ h)
    have hold : ∀ {i : Nat} {l : LinkRec}, (t.store ++ [⟨D, sid⟩])[i]? = some l →
        (i < t.store.length ∧ t.store[i]? = some l) ∨ (i = t.store.length ∧ l = ⟨D, sid⟩) := by
      intro i l hl
      by_cases hi : i < t.store.length
      · rw [List.getElem?_append_left hi] at hl
        exact .inl ⟨hi, hl⟩
      · have hlt := lt_of_getElem? hl
        rw [List.length_append, List.length_singleton] at hlt
        have : i = t.store.length := by omega
        subst this
        exact .inr ⟨rfl, by simpa using hl.symm⟩
    refine ⟨fun l hl => ?_, fun k i hi => ?_, fun k i hi => ?_, fun i l hl => ?_, fun i l hl hi => ?_⟩
    · rcases List.mem_append.1 (show l ∈ t.store ++ [⟨D, sid⟩] from hl) with h | h
      · exact hI.bound l h
      · rw [List.mem_singleton.1 h]
        exact hk
    · by_cases hc : i = t.store.length
      · rw [hc, hst]; simp
      · have := hI.sum k i ((mem_push hc).1 hi)
        rw [hst, List.length_append]
        omega
    · by_cases hc : i = t.store.length
      · rw [hc, hst]; simp
      · have := hI.sad k i ((mem_push hc).1 hi)
        rw [hst, List.length_append]
        omega
    · rcases hold hl with ⟨h1, h2⟩ | ⟨rfl, rfl⟩
      · refine ((mem_push (Nat.ne_of_lt h1)).trans (hI.both i l h2)).trans (mem_push (Nat.ne_of_lt h1)).symm
      · refine (mem_push_new hn1).trans (Iff.trans ?_ (mem_push_new hn2).symm)
        rw [hsame]
    · rcases hold hl with ⟨h1, h2⟩ | ⟨rfl, rfl⟩
      · obtain ⟨j, hj, e⟩ := hI.first i l h2 fun hc => hi ((mem_push (Nat.ne_of_lt h1)).2 hc)
        exact ⟨j, hj, by rw [hst, List.getElem?_append_left (by omega)]; exact e⟩
      · have hb : (ig && linkIn E t ⟨D, sid⟩ (t.sumLinks D)) = true := by
          by_contra hc
          exact hi ((mem_push_new hn1).2 (by simpa using hc))
        rw [Bool.and_eq_true] at hb
        obtain ⟨j, hj, e⟩ := (hin _).1 hb.2
        have hlt := hI.sum D j hj
        exact ⟨j, hlt, by rw [hst, List.getElem?_append_left hlt]; exact e⟩

/-- The linkers of a walked map in which equal linkers join the same objects. -/
theorem walk_first {E : SaddleEnv} {sites : List Pt} {m0 m : DMap} (h0 : Fresh E.d sites m0)
    (hw : m0.walk E [] = .ok (m, none)) (hT : TwinsOnly { E with summits := m0.summits } m.st) : FirstListed m.st := by
  have hst := h0.start
  unfold DMap.walk at hw
  obtain ⟨w, e1, e2⟩ := bind_ok hw
  obtain ⟨⟨r, s⟩, e3, e4⟩ := bind_ok e2
  have hF : FirstListed { m0.st with w := w, walked := [], linkers := [], doms := [] } := by
    constructor <;> rw [hst] <;> simp [CSt.start]
  unfold climbFromSaddles at e3
  obtain ⟨s1, e5, e6⟩ := bind_ok e3
  cases e6
  simp only [List.isEmpty_nil, if_true] at e5 e4
  have hm : m.st = s := by
    cases e4; rfl
  rw [hm] at hT ⊢
  exact (LinkSteps.features e5).firstListed hF hT

/-! ### Linkers listed by both ends or by none -/

/-- A linker of a saddle in `S` that is off the edge joins the same objects as earlier linkers that are equal to it. -/
def TwinsInner (E : SaddleEnv) (S : Nat → Prop) (s : CSt) : Prop :=
  ∀ (i j : Nat) (a b : LinkRec) f, i < j → s.store[i]? = some a → s.store[j]? = some b → S b.saddle → s.feats[b.saddle]? = some f →
    f.edge = false → linkEq E s.objs a b = true → a = b

/-- A linker of a saddle off the edge is listed by both ends or by none. -/
structure Paired (E : SaddleEnv) (s : CSt) : Prop where
  bound : ∀ l ∈ s.store, l.saddle < s.feats.length ∧ ∃ sf, E.summits[l.summit]? = some sf
  sum : ∀ k, ∀ i ∈ s.sumLinks k, i < s.store.length
  sad : ∀ k, ∀ i ∈ s.sadLinks k, i < s.store.length
  both : ∀ (i : Nat) l f, s.store[i]? = some l → s.feats[l.saddle]? = some f → f.edge = false →
    (i ∈ s.sumLinks l.summit ↔ i ∈ s.sadLinks l.saddle)

theorem LinkSteps.paired {E : SaddleEnv} {S : Nat → Prop} {s u : CSt} (hs : Paired E s) (h : LinkSteps E S s u) :
    TwinsInner E S u → (∀ l ∈ u.store, ∃ sf, E.summits[l.summit]? = some sf) → Paired E u := by
  induction h with
  | refl => exact fun _ _ => hs
  | @quiet t u hst h1 h2 h3 h4 ih =>
    intro hT hsum
    rw [h1] at hsum
    have h4' := h4.feats
    have hI := ih (fun i j a b f hij ha hb hS hf he hq => hT i j a b f hij (by rw [h1]; exact ha) (by rw [h1]; exact hb) hS
      (prefix_getElem? h4' hf) he (linkEq_later h4' hq)) hsum
    refine ⟨fun l hl => ?_, ?_, ?_, fun i l f hl hf he => ?_⟩
    · rw [h1] at hl
      exact ⟨lt_of_lt_of_le (hI.bound l hl).1 h4'.length_le, (hI.bound l hl).2⟩
    · rw [h1, h2]
      exact hI.sum
    · rw [h1, h3]
      exact hI.sad
    · rw [h1] at hl
      rw [h2, h3]
      have hlt := (hI.bound l (List.mem_of_getElem? hl)).1
      refine hI.both i l f hl ?_ he
      rw [List.getElem?_eq_getElem hlt]
      exact (prefix_getElem? h4' (List.getElem?_eq_getElem hlt)).symm.trans hf
  | @add t ig D sid _ hk hS ih =>
    intro hT hsum
    have hst : (addLinker E ig t D sid).store = t.store ++ [⟨D, sid⟩] := rfl
    have hfirst : ∀ {i : Nat} {l : LinkRec}, t.store[i]? = some l → (t.store ++ [⟨D, sid⟩])[i]? = some l := fun h => by
      rw [List.getElem?_append_left (lt_of_getElem? h)]
      exact h
    have hI := ih (fun i j a b f hij ha hb hS hf he hq => hT i j a b f hij (hfirst ha) (hfirst hb) hS hf he hq)
      (fun l hl => hsum l (by rw [hst]; exact List.mem_append_left _ hl))
    obtain ⟨sf, hsf⟩ := hsum ⟨D, sid⟩ (by rw [hst]; simp)
    have hsame : ∀ f, t.feats[sid]? = some f → f.edge = false →
        (ig && linkIn E t ⟨D, sid⟩ (t.sumLinks D)) = (ig && linkIn E t ⟨D, sid⟩ (t.sadLinks sid)) := by
      intro f hf he
      cases hig : ig with
      | false => rfl
      | true =>
        -- what `in` finds
        have hin : ∀ L : List Nat, (linkIn E t ⟨D, sid⟩ L = true ↔ ∃ i ∈ L, t.store[i]? = some ⟨D, sid⟩) := by
          intro L
          rw [linkIn_iff]
          refine exists_congr fun i => and_congr_right fun _ => ⟨?_, fun h => ⟨_, h, linkEq_self hsf hk⟩⟩
          rintro ⟨l', h1, h2⟩
          have := hT i t.store.length l' ⟨D, sid⟩ f (lt_of_getElem? h1) (hfirst h1) (by rw [hst]; simp) (hS hig) hf he h2
          rw [h1, this]
        rw [Bool.true_and, Bool.true_and, Bool.eq_iff_iff, hin, hin]
        exact exists_congr fun i => ⟨fun h => ⟨(hI.both i _ f h.2 hf he).1 h.1, h.2⟩, fun h => ⟨(hI.both i _ f h.2 hf he).2 h.1, h.2⟩⟩
    have hn1 : t.store.length ∉ t.sumLinks D := fun h => Nat.lt_irrefl _ (hI.sum D _ h)
    have hn2 : t.store.length ∉ t.sadLinks sid := fun h => Nat.lt_irrefl _ (hI.sad sid _ h)
    refine ⟨fun l hl => ?_, fun k i hi => ?_, fun k i hi => ?_, fun i l f hl hf he => ?_⟩
    · refine ⟨?_, hsum l hl⟩
      rcases List.mem_append.1 (show l ∈ t.store ++ [⟨D, sid⟩] from hl) with h | h
      · exact (hI.bound l h).1
      · rw [List.mem_singleton.1 h]
        exact hk
    · by_cases hc : i = t.store.length
      · rw [hc, hst]; simp
      · have := hI.sum k i ((mem_push hc).1 hi)
        rw [hst, List.length_append]
        omega
    · by_cases hc : i = t.store.length
      · rw [hc, hst]; simp
      · have := hI.sad k i ((mem_push hc).1 hi)
        rw [hst, List.length_append]
        omega
    · have hl' : (t.store ++ [⟨D, sid⟩])[i]? = some l := hl
      by_cases hi : i < t.store.length
      · rw [List.getElem?_append_left hi] at hl'
        exact ((mem_push (Nat.ne_of_lt hi)).trans (hI.both i l f hl' hf he)).trans (mem_push (Nat.ne_of_lt hi)).symm
      · have hlt := lt_of_getElem? hl'
        rw [List.length_append, List.length_singleton] at hlt
        have : i = t.store.length := by omega
        subst this
        have : l = ⟨D, sid⟩ := by simpa using hl'.symm
        subst this
        refine (mem_push_new hn1).trans (Iff.trans ?_ (mem_push_new hn2).symm)
        rw [hsame f hf he]

/-- The linkers of a walked map in which linkers of saddles split off an edge saddle join the same objects as earlier ones that are
equal to them. -/
theorem walk_paired {E : SaddleEnv} {sites : List Pt} {m0 m : DMap} (h0 : Fresh E.d sites m0)
    (hw : m0.walk E [] = .ok (m, none)) (hT : TwinsInner { E with summits := m0.summits } (Split m.st) m.st)
    (hs : ∀ l ∈ m.st.store, ∃ sf, m0.summits[l.summit]? = some sf) : Paired { E with summits := m0.summits } m.st := by
  have hst := h0.start
  unfold DMap.walk at hw
  obtain ⟨w, e1, e2⟩ := bind_ok hw
  obtain ⟨⟨r, s⟩, e3, e4⟩ := bind_ok e2
  have hF : Paired { E with summits := m0.summits } { m0.st with w := w, walked := [], linkers := [], doms := [] } := by
    constructor <;> rw [hst] <;> simp [CSt.start]
  unfold climbFromSaddles at e3
  obtain ⟨s1, e5, e6⟩ := bind_ok e3
  cases e6
  simp only [List.isEmpty_nil, if_true] at e5 e4
  have hm : m.st = s := by
    cases e4; rfl
  rw [hm] at hT hs ⊢
  exact (LinkSteps.features e5).paired hF hT hs

end PyProm
