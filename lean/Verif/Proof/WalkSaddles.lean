import Verif.Proof.WalkInit

/-
Climbing from saddles: the state of `climb_from_saddles` along the way.
-/
namespace PyProm
open Spec

/-- What is used of a saddle or runoff before the walk. -/
structure FeatOk (d : DataMap) (f : Feature) : Prop where
  high : ∀ c ∈ f.hpn, c ≠ [] ∧ ∀ p ∈ c, Data d p.xy ∧ p.e = el d p.xy ∧ f.elevation < p.e
  mp : ∀ m ms, f.multipoint = some (m :: ms) → m.e = none
  loc : f.hpn = [] → ∃ q, InB d q ∧ LocatedAt d q f
  saddle : f.kind = .saddle → 2 ≤ f.hpn.length
  inner : f.edge = false → f.kind = .saddle
  kind : f.kind ≠ .summit
  area : f.hpn ≠ [] → ∃ q, Data d q ∧ f.elevation = el d q ∧ ∀ c ∈ f.hpn, ∀ p ∈ c, HighRim d q p.xy

/-- Conditions on everything the walk from saddles uses. -/
structure SEnvOk (E : SaddleEnv) (sites : List Pt) : Prop where
  env : EnvOk E.toWalkEnv
  geo : Findable E.d
  tops : SummitsAt E.d sites E.summits
  fuel : E.d.size < E.fuel
  fc : ∃ query hyp dist, KdOk query hyp ∧ E.fc = realSearch query dist ∧
    ∀ a b : P3, InB E.d a.xy → InB E.d b.xy → dist a b < maxsize
  find : ∀ f u t, (E.find f u t).nodes.head? = some (MPt.ofP3 u) ∧
    (E.find f u t).nodes.getLast? = some (MPt.ofP3 t)

/-- A linker is in order: its saddle is below its summit, strictly if it was found by climbing from a
high neighbourhood, and its summit is reached without descent from there. -/
def LinkOk (E : SaddleEnv) (sites : List Pt) (objs : List SObj) (l : LinkRec) : Prop :=
  ∃ sf o, E.summits[l.summit]? = some sf ∧ objs[l.saddle]? = some o ∧
    ((o.f.hpn ≠ [] ∧ o.f.elevation < sf.elevation) ∨
     (o.f.hpn = [] ∧ o.f.kind = .runoff ∧ o.f.elevation ≤ sf.elevation)) ∧
    ∃ p top, SummitArea E.d sites l.summit top ∧ Ascends E.d p top ∧
      ((∃ c ∈ o.f.hpn, ∃ x ∈ c, x.xy = p) ∨ (o.f.hpn = [] ∧ Data E.d p ∧ LocatedAt E.d p o.f))

/-- Invariant of the walk from saddles. -/
structure CInv (E : SaddleEnv) (sites : List Pt) (s : CSt) : Prop where
  w : WInv E.d (SummitArea E.d sites) s.w
  objs : ∀ o ∈ s.objs, FeatOk E.d o.f
  links : ∀ l ∈ s.store, LinkOk E sites s.objs l
  sad : ∀ k, ∀ i ∈ s.sadLinks k, ∃ l, s.store[i]? = some l ∧ l.saddle = k
  sum : ∀ k, ∀ i ∈ s.sumLinks k, ∃ l, s.store[i]? = some l ∧ l.summit = k
  fresh : ∀ k, s.objs.length ≤ k → s.sadLinks k = []
  walked : ∀ k ∈ s.walked, k < s.objs.length
  lk : s.linkers = List.range s.store.length
  doms : s.doms.Nodup ∧ ∀ D, D ∈ s.doms ↔ ∃ l ∈ s.store, l.summit = D
  dsad : ∀ D, s.domSaddles D = (s.store.filter fun l => decide (l.summit = D)).map (·.saddle)
  ends : ∀ l ∈ s.store, linkIn E s l (s.sumLinks l.summit) = true ∧ linkIn E s l (s.sadLinks l.saddle) = true
  disq : ∀ o ∈ s.objs, o.disq ≠ some false

/-- Walked saddles that are neither on the edge nor children have all their linkers. -/
def Good (E : SaddleEnv) (sites : List Pt) (s : CSt) (k : Nat) : Prop :=
  ∀ o, s.objs[k]? = some o → o.parent = none → o.f.edge = false → Complete E sites s k o

/-- What a step may change: only the objects in `T`. -/
structure Step (T : Nat → Prop) (s s' : CSt) : Prop where
  len : s.objs.length ≤ s'.objs.length
  feat : ∀ k o, s.objs[k]? = some o → ∃ o', s'.objs[k]? = some o' ∧ o'.f = o.f ∧ (¬ T k → o' = o)
  sad : ∀ k, ¬ T k → s'.sadLinks k = s.sadLinks k
  sum : ∀ k, s.sumLinks k <+: s'.sumLinks k
  store : s.store <+: s'.store
  walked : ∀ k ∈ s'.walked, k ∈ s.walked ∨ T k
  grow : s.walked <+: s'.walked

theorem Step.refl (T : Nat → Prop) (s : CSt) : Step T s s :=
  ⟨le_refl _, fun _ o h => ⟨o, h, rfl, fun _ => rfl⟩, fun _ _ => rfl, fun _ => List.prefix_refl _,
    List.prefix_refl _, fun _ h => .inl h, List.prefix_refl _⟩

theorem Step.trans {T : Nat → Prop} {s s' s'' : CSt} (h1 : Step T s s') (h2 : Step T s' s'') :
    Step T s s'' where
  len := le_trans h1.len h2.len
  feat k o h := by
    obtain ⟨o', a1, a2, a3⟩ := h1.feat k o h
    obtain ⟨o'', b1, b2, b3⟩ := h2.feat k o' a1
    exact ⟨o'', b1, b2.trans a2, fun hT => (b3 hT).trans (a3 hT)⟩
  sad k hT := (h2.sad k hT).trans (h1.sad k hT)
  sum k := (h1.sum k).trans (h2.sum k)
  store := h1.store.trans h2.store
  walked k h := by
    rcases h2.walked k h with h | h
    · exact h1.walked k h
    · exact .inr h
  grow := h1.grow.trans h2.grow

theorem Step.mono {T T' : Nat → Prop} {s s' : CSt} (h : Step T s s') (hT : ∀ k, T k → T' k) :
    Step T' s s' where
  len := h.len
  feat k o hk := by
    obtain ⟨o', a, b, c⟩ := h.feat k o hk
    exact ⟨o', a, b, fun hn => c fun ht => hn (hT k ht)⟩
  sad k hn := h.sad k fun ht => hn (hT k ht)
  sum := h.sum
  store := h.store
  walked k hk := (h.walked k hk).imp_right (hT k)
  grow := h.grow

theorem LinkOk.step {E : SaddleEnv} {sites : List Pt} {T : Nat → Prop} {s s' : CSt} (h : Step T s s')
    {l : LinkRec} (hl : LinkOk E sites s.objs l) : LinkOk E sites s'.objs l := by
  obtain ⟨sf, o, h1, h2, h3⟩ := hl
  obtain ⟨o', a, b, _⟩ := h.feat _ _ h2
  exact ⟨sf, o', h1, a, by rw [b]; exact h3⟩

theorem prefix_getElem? {α : Type} {l l' : List α} (h : l <+: l') {i : Nat} {a : α} (hi : l[i]? = some a) :
    l'[i]? = some a := by
  obtain ⟨t, rfl⟩ := h
  have : i < l.length := by
    by_contra hc
    rw [List.getElem?_eq_none (by omega)] at hi
    simp at hi
  rw [List.getElem?_append_left this]
  exact hi

theorem Complete.step {E : SaddleEnv} {sites : List Pt} {s s' : CSt} {k : Nat} {o : SObj}
    (hst : s.store <+: s'.store) (hsum : ∀ k, s.sumLinks k <+: s'.sumLinks k) (hsad : s'.sadLinks k = s.sadLinks k)
    (h : Complete E sites s k o) : Complete E sites s' k o := by
  unfold Complete at *
  rw [hsad]
  refine h.imp ?_
  rintro c i ⟨h0, D, top, a, b, m, e⟩
  exact ⟨h0, D, top, a, prefix_getElem? hst b, (hsum D).subset m, e⟩

theorem Good.step {E : SaddleEnv} {sites : List Pt} {T : Nat → Prop} {s s' : CSt} (h : Step T s s')
    {k : Nat} (hT : ¬ T k) (hk : k < s.objs.length) (hg : Good E sites s k) : Good E sites s' k := by
  intro o ho hp he
  obtain ⟨o', a, _, c⟩ := h.feat k s.objs[k] (List.getElem?_eq_getElem hk)
  rw [a] at ho
  cases ho
  have := c hT
  subst this
  exact (hg _ (List.getElem?_eq_getElem hk) hp he).step h.store h.sum (h.sad k hT)

theorem ascends_le {d : DataMap} {p q : Pt} (h : Ascends d p q) : el d p ≤ el d q := by
  induction h with
  | refl => exact le_refl _
  | tail _ h2 ih => exact le_trans ih h2.2.2

theorem forall₂_getElem? {α β : Type} {R : α → β → Prop} {l : List α} {m : List β}
    (h : List.Forall₂ R l m) : ∀ {i : Nat} {a : α}, l[i]? = some a → ∃ b, m[i]? = some b ∧ R a b := by
  induction h with
  | nil => intro i a h; simp at h
  | cons h1 _ ih =>
    intro i a h
    cases i with
    | zero => simp at h; subst h; exact ⟨_, rfl, h1⟩
    | succ i => simpa using ih (by simpa using h)

theorem forall₂_imp_mem {α β : Type} {R S : α → β → Prop} {l : List α} {m : List β}
    (h : List.Forall₂ R l m) (hi : ∀ a b, a ∈ l → R a b → S a b) : List.Forall₂ S l m := by
  induction h with
  | nil => exact .nil
  | cons h1 _ ih =>
    exact .cons (hi _ _ (by simp) h1) (ih fun a b ha => hi a b (List.mem_cons_of_mem _ ha))

/-- The summit of a domain and its elevation. -/
theorem summit_of_area {d : DataMap} {sites : List Pt} {summits : List Feature}
    (h : SummitsAt d sites summits) {D : Nat} {top : Pt} (ha : SummitArea d sites D top) :
    ∃ sf, summits[D]? = some sf ∧ sf.elevation = el d top := by
  obtain ⟨q, hq, hqt⟩ := ha
  obtain ⟨sf, h1, h2⟩ := forall₂_getElem? h.each hq
  refine ⟨sf, h1, ?_⟩
  rw [h2.located.2.2, (flat_data (h.top q (List.mem_of_getElem? hq)).1 hqt).2]

/-- A looked up high point gives a proper linker. -/
theorem link_of_lookup {E : SaddleEnv} {sites : List Pt} (hE : SEnvOk E sites) {s : CSt}
    (hs : CInv E sites s) {p : Pt} {D : Nat} (hl : s.w.lookup p = some D) :
    ∃ sf top, E.summits[D]? = some sf ∧ SummitArea E.d sites D top ∧ Ascends E.d p top ∧
      el E.d p ≤ sf.elevation := by
  obtain ⟨_, t, h1, h2⟩ := hs.w.sound p D hl
  obtain ⟨sf, h3, h4⟩ := summit_of_area hE.tops h1
  exact ⟨sf, t, h3, h1, h2, by rw [h4]; exact ascends_le h2⟩

theorem addLinker_step (E : SaddleEnv) (ig : Bool) (s : CSt) (D sid : Nat) :
    Step (· = sid) s (addLinker E ig s D sid) where
  len := le_refl _
  feat k o h := ⟨o, h, rfl, fun _ => rfl⟩
  sad k hk := by
    unfold addLinker
    dsimp only
    split
    · rfl
    · simp only [pushAt, if_neg hk]
  sum k := by
    unfold addLinker
    dsimp only
    split
    · exact List.prefix_refl _
    · unfold pushAt
      split
      · exact List.prefix_append _ _
      · exact List.prefix_refl _
  store := by unfold addLinker; exact List.prefix_append _ _
  walked k h := .inl h
  grow := List.prefix_refl _

theorem setAdd_nodup {α : Type} [DecidableEq α] {l : List α} {a : α} (h : l.Nodup) : (setAdd l a).Nodup := by
  unfold setAdd
  split
  · exact h
  · rename_i hn
    rw [List.nodup_append]
    refine ⟨h, by simp, ?_⟩
    intro x hx y hy
    rw [List.mem_singleton.1 hy]
    rintro rfl
    exact hn hx

theorem linkEq_refl {E : SaddleEnv} {objs : List SObj} {D sid : Nat} {sf : Feature} {o : SObj}
    (h1 : E.summits[D]? = some sf) (h2 : objs[sid]? = some o) : linkEq E objs ⟨D, sid⟩ ⟨D, sid⟩ = true := by
  unfold linkEq
  dsimp only
  rw [h1, h2]
  simp [seEq]

theorem linkEq_mono {E : SaddleEnv} {T : Nat → Prop} {s s' : CSt} (h : Step T s s') {a b : LinkRec}
    (hq : linkEq E s.objs a b = true) : linkEq E s'.objs a b = true := by
  unfold linkEq at *
  split at hq
  · rename_i x y z w e1 e2 e3 e4
    obtain ⟨z', f1, f2, _⟩ := h.feat _ _ e3
    obtain ⟨w', g1, g2, _⟩ := h.feat _ _ e4
    rw [e1, e2, f1, g1]
    dsimp only
    rw [f2, g2]
    exact hq
  · simp at hq

theorem linkIn_mono {E : SaddleEnv} {T : Nat → Prop} {s s' : CSt} (h : Step T s s') (l : LinkRec)
    (ids ids' : List Nat) (hsub : ∀ i ∈ ids, i ∈ ids') (hl : linkIn E s l ids = true) :
    linkIn E s' l ids' = true := by
  unfold linkIn at *
  rw [List.any_eq_true] at *
  obtain ⟨i, hi, hm⟩ := hl
  refine ⟨i, hsub i hi, ?_⟩
  cases hs : s.store[i]? with
  | none => rw [hs] at hm; simp at hm
  | some l' =>
    rw [hs] at hm
    rw [prefix_getElem? h.store hs]
    exact linkEq_mono h hm

theorem addLinker_inv {E : SaddleEnv} {sites : List Pt} (ig : Bool) {s : CSt} (hs : CInv E sites s)
    {D sid : Nat} (hl : LinkOk E sites s.objs ⟨D, sid⟩) : CInv E sites (addLinker E ig s D sid) where
  w := hs.w
  objs := hs.objs
  disq := hs.disq
  links := by
    intro l hl'
    rcases List.mem_append.1 hl' with h | h
    · exact hs.links l h
    · rw [List.mem_singleton.1 h]; exact hl
  sad := by
    intro k i hi
    have hold : i ∈ s.sadLinks k → ∃ l, (s.store ++ [⟨D, sid⟩])[i]? = some l ∧ l.saddle = k := by
      intro h
      obtain ⟨l, h1, h2⟩ := hs.sad k i h
      exact ⟨l, prefix_getElem? (List.prefix_append _ _) h1, h2⟩
    unfold addLinker at hi ⊢
    dsimp only at hi ⊢
    split at hi
    · exact hold hi
    · unfold pushAt at hi
      split at hi
      · rename_i hk
        rcases List.mem_append.1 hi with h | h
        · exact hold h
        · rw [List.mem_singleton.1 h]
          exact ⟨⟨D, sid⟩, by simp, hk.symm⟩
      · exact hold hi
  sum := by
    intro k i hi
    have hold : i ∈ s.sumLinks k → ∃ l, (s.store ++ [⟨D, sid⟩])[i]? = some l ∧ l.summit = k := by
      intro h
      obtain ⟨l, h1, h2⟩ := hs.sum k i h
      exact ⟨l, prefix_getElem? (List.prefix_append _ _) h1, h2⟩
    unfold addLinker at hi ⊢
    dsimp only at hi ⊢
    split at hi
    · exact hold hi
    · unfold pushAt at hi
      split at hi
      · rename_i hk
        rcases List.mem_append.1 hi with h | h
        · exact hold h
        · rw [List.mem_singleton.1 h]
          exact ⟨⟨D, sid⟩, by simp, hk.symm⟩
      · exact hold hi
  fresh := by
    intro k hk
    obtain ⟨_, o, _, ho, _⟩ := hl
    have hlt : sid < s.objs.length := by
      by_contra hc
      rw [List.getElem?_eq_none (by simp only; omega)] at ho
      simp at ho
    have hne : k ≠ sid := by
      have : s.objs.length ≤ k := hk
      omega
    rw [(addLinker_step E ig s D sid).sad k hne]
    exact hs.fresh k hk
  walked := hs.walked
  lk := by
    show s.linkers ++ [s.store.length] = List.range (s.store ++ [_]).length
    rw [hs.lk, List.length_append, List.length_singleton, List.range_succ]
  doms := by
    show (setAdd s.doms D).Nodup ∧ ∀ k, k ∈ setAdd s.doms D ↔ ∃ l ∈ s.store ++ [⟨D, sid⟩], l.summit = k
    refine ⟨setAdd_nodup hs.doms.1, fun k => ?_⟩
    rw [mem_setAdd, hs.doms.2 k]
    simp only [List.mem_append, List.mem_singleton, or_and_right, exists_or, exists_eq_left]
    exact or_congr_right eq_comm
  dsad := by
    intro k
    show pushAt s.domSaddles D sid k = ((s.store ++ [(⟨D, sid⟩ : LinkRec)]).filter fun l : LinkRec => decide (l.summit = k)).map LinkRec.saddle
    unfold pushAt
    rw [List.filter_append, List.map_append, ← hs.dsad k]
    by_cases h : k = D
    · subst h; simp
    · have h' : ¬ D = k := fun e => h e.symm
      simp [h, h']
  ends := by
    intro l hl'
    have old := linkIn_mono (E := E) (addLinker_step E ig s D sid)
    by_cases hlo : l ∈ s.store
    · exact ⟨old l _ _ (fun i hi => ((addLinker_step E ig s D sid).sum _).subset hi) (hs.ends l hlo).1,
        old l _ _ (fun i hi => by
          unfold addLinker; dsimp only
          split
          · exact hi
          · unfold pushAt; split
            · exact List.mem_append_left _ hi
            · exact hi) (hs.ends l hlo).2⟩
    · have : l = ⟨D, sid⟩ := by
        rcases List.mem_append.1 hl' with h | h
        · exact absurd h hlo
        · exact List.mem_singleton.1 h
      subst this
      have self : ∀ ids, s.store.length ∈ ids → linkIn E (addLinker E ig s D sid) ⟨D, sid⟩ ids = true := by
        intro ids hi
        unfold linkIn
        rw [List.any_eq_true]
        refine ⟨s.store.length, hi, ?_⟩
        rw [show (addLinker E ig s D sid).store[s.store.length]? = some ⟨D, sid⟩ by
          show (s.store ++ [_])[_]? = _
          simp]
        dsimp only
        obtain ⟨sf, o, h1, h2, _⟩ := hl
        exact linkEq_refl h1 h2
      constructor
      · by_cases hd : (ig && linkIn E s ⟨D, sid⟩ (s.sumLinks D)) = true
        · exact old _ _ _ (fun i hi => ((addLinker_step E ig s D sid).sum _).subset hi)
            (Bool.and_eq_true_iff.1 hd).2
        · apply self
          show s.store.length ∈ (if (ig && linkIn E s ⟨D, sid⟩ (s.sumLinks D)) = true then s.sumLinks
            else pushAt s.sumLinks D s.store.length) D
          rw [if_neg hd]; simp [pushAt]
      · by_cases hd : (ig && linkIn E s ⟨D, sid⟩ (s.sadLinks sid)) = true
        · refine old _ _ _ (fun i hi => ?_) (Bool.and_eq_true_iff.1 hd).2
          show i ∈ (if (ig && linkIn E s ⟨D, sid⟩ (s.sadLinks sid)) = true then s.sadLinks
            else pushAt s.sadLinks sid s.store.length) sid
          rw [if_pos hd]; exact hi
        · apply self
          show s.store.length ∈ (if (ig && linkIn E s ⟨D, sid⟩ (s.sadLinks sid)) = true then s.sadLinks
            else pushAt s.sadLinks sid s.store.length) sid
          rw [if_neg hd]; simp [pushAt]

/-- The linker loop over high neighbourhoods. -/
theorem linkEdges_spec {E : SaddleEnv} {sites : List Pt} (hE : SEnvOk E sites) (ig : Bool) (sid : Nat)
    (o : SObj) : ∀ (es : List (List P3)) (s : CSt), CInv E sites s → s.objs[sid]? = some o →
    (∀ e ∈ es, e ∈ o.f.hpn) →
    ∃ s', linkEdges E ig sid es s = .ok s' ∧ CInv E sites s' ∧ Step (· = sid) s s' ∧
      s'.objs = s.objs ∧ s'.walked = s.walked ∧ s'.w = s.w ∧
      (ig = false → (∀ e ∈ es, ∀ p ∈ e, ∃ D, s.w.lookup p.xy = some D) →
        ∃ new, s'.sadLinks sid = s.sadLinks sid ++ new ∧
        List.Forall₂ (fun (c : List P3) (i : Nat) => ∃ h0 D top, c.head? = some h0 ∧
          s'.store[i]? = some ⟨D, sid⟩ ∧ i ∈ s'.sumLinks D ∧ SummitArea E.d sites D top ∧
          Ascends E.d h0.xy top) es new) := by
  intro es
  induction es with
  | nil =>
    intro s hs _ _
    exact ⟨s, rfl, hs, .refl _ _, rfl, rfl, rfl, fun _ _ => ⟨[], by simp, .nil⟩⟩
  | cons e es ih =>
    intro s hs ho hes
    have hmem := hes e (by simp)
    obtain ⟨hne, hpts⟩ := (hs.objs o (List.mem_of_getElem? ho)).high e hmem
    cases e with
    | nil => exact absurd rfl hne
    | cons h0 e =>
      obtain ⟨_, hel, hlt⟩ := hpts h0 (by simp)
      unfold linkEdges
      cases hl : s.w.lookup h0.xy with
      | none =>
        dsimp only
        obtain ⟨s', b1, b2, b3, b4, b5, b6, b7⟩ := ih s hs ho fun e' he' => hes e' (List.mem_cons_of_mem _ he')
        refine ⟨s', b1, b2, b3, b4, b5, b6, fun _ hall => ?_⟩
        obtain ⟨D, hD⟩ := hall (h0 :: e) (by simp) h0 (by simp)
        rw [hl] at hD
        simp at hD
      | some D =>
        dsimp only
        obtain ⟨sf, top, c1, c2, c3, c4⟩ := link_of_lookup hE hs hl
        have hok : LinkOk E sites s.objs ⟨D, sid⟩ := by
          refine ⟨sf, o, c1, ho, .inl ⟨fun hnil => ?_, ?_⟩, _, top, c2, c3, .inl ⟨_, hmem, h0, by simp, rfl⟩⟩
          · rw [hnil] at hmem; simp at hmem
          · rw [hel] at hlt; exact lt_of_lt_of_le hlt c4
        obtain ⟨s', b1, b2, b3, b4, b5, b6, b7⟩ := ih (addLinker E ig s D sid) (addLinker_inv ig hs hok) ho
          fun e' he' => hes e' (List.mem_cons_of_mem _ he')
        refine ⟨s', b1, b2, (addLinker_step E ig s D sid).trans b3, b4, b5, b6, fun hig hall => ?_⟩
        obtain ⟨new, n1, n2⟩ := b7 hig fun e' he' => hall e' (List.mem_cons_of_mem _ he')
        have hsl : (addLinker E ig s D sid).sadLinks sid = s.sadLinks sid ++ [s.store.length] := by
          simp [addLinker, hig, pushAt]
        refine ⟨s.store.length :: new, by rw [n1, hsl]; simp, .cons ⟨h0, D, top, rfl, ?_, ?_, c2, c3⟩ n2⟩
        · refine prefix_getElem? b3.store ?_
          simp [addLinker]
        · refine (b3.sum D).subset ?_
          simp [addLinker, hig, pushAt]

/-- Climbing from all high points. -/
theorem climbEdges_spec {E : SaddleEnv} {sites : List Pt} (hE : SEnvOk E sites) :
    ∀ (es : List (List P3)) (w : WSt), WInv E.d (SummitArea E.d sites) w →
    (∀ e ∈ es, ∀ p ∈ e, Data E.d p.xy ∧ p.e = el E.d p.xy) →
    ∃ w', climbEdges E es w = .ok w' ∧ WInv E.d (SummitArea E.d sites) w' ∧
      (∀ p, (∃ k, w.lookup p = some k) → ∃ k, w'.lookup p = some k) ∧
      ∀ e ∈ es, ∀ p ∈ e, ∃ k, w'.lookup p.xy = some k := by
  intro es
  induction es with
  | nil => intro w hw _; exact ⟨w, rfl, hw, fun _ h => h, by simp⟩
  | cons e es ih =>
    intro w hw h
    obtain ⟨w1, a1, a2, a3, a4, _⟩ := climbAll_spec (climbLoop_spec hE.env _ E.fuel) e w hw (by
      intro p hp
      obtain ⟨b1, b2⟩ := h e (by simp) p hp
      exact ⟨b1, b2, lt_of_le_of_lt (above_le_size _ _) hE.fuel⟩)
    obtain ⟨w2, c1, c2, c3, c4⟩ := ih w1 a2 fun e' he' => h e' (List.mem_cons_of_mem _ he')
    refine ⟨w2, ?_, c2, fun p hp => c3 p (a3 p hp), ?_⟩
    · unfold climbEdges climbPoints
      rw [a1]
      exact c1
    · intro e' he' p hp
      rcases List.mem_cons.1 he' with rfl | he'
      · exact c3 _ (a4 p hp)
      · exact c4 e' he' p hp

theorem SynthOf.ok {d : DataMap} {f g : Feature} (hf : FeatOk d f) (h : SynthOf f g) : FeatOk d g where
  high := by
    intro c hc
    refine ⟨h.ne c hc, fun p hp => ?_⟩
    obtain ⟨c', hc', hp'⟩ := h.high c hc p hp
    rw [h.elev]
    exact (hf.high c' hc').2 p hp'
  mp := by
    intro m ms hm
    rw [h.mp] at hm
    simp at hm
  loc := by
    intro hn
    have := h.two
    rw [hn] at this
    simp at this
  saddle := fun _ => by rw [h.two]
  inner := fun _ => h.kind
  kind := by rw [h.kind]; simp
  area := by
    intro _
    obtain ⟨c, hc⟩ : ∃ c, c ∈ g.hpn := by
      have := h.two
      cases hg : g.hpn with
      | nil => rw [hg] at this; simp at this
      | cons c cs => exact ⟨c, by simp⟩
    obtain ⟨p, hp⟩ := List.exists_mem_of_ne_nil c (h.ne c hc)
    obtain ⟨c', hc', _⟩ := h.high c hc p hp
    obtain ⟨q, h1, h2, h3⟩ := hf.area (List.ne_nil_of_mem hc')
    refine ⟨q, h1, by rw [h.elev]; exact h2, fun c hc p hp => ?_⟩
    obtain ⟨c', hc', hp'⟩ := h.high c hc p hp
    exact h3 c' hc' p hp'

theorem IsChild.synth {d : DataMap} {f g : Feature} {l r : P3} (h : IsChild d f l r g)
    (hl : l ∈ f.hpn.flatten) (hr : r ∈ f.hpn.flatten) : SynthOf f g := by
  obtain ⟨i1, i2, i3, i4, i5, _⟩ := h
  obtain ⟨cl, hcl, hl⟩ := List.mem_flatten.1 hl
  obtain ⟨cr, hcr, hr⟩ := List.mem_flatten.1 hr
  refine ⟨i1, i3, i2, by rw [i5]; rfl, ?_, ?_, i4⟩
  · intro c hc
    rw [i5] at hc
    simp at hc
    rcases hc with rfl | rfl <;> simp
  · intro c hc p hp
    rw [i5] at hc
    simp at hc
    rcases hc with rfl | rfl <;> simp at hp <;> subst hp
    · exact ⟨cl, hcl, hl⟩
    · exact ⟨cr, hcr, hr⟩

theorem exists_highest (ps : List P3) (hne : ps ≠ []) :
    ∃ m, m ∈ ps.filter fun p => decide (∀ q ∈ ps, q.e ≤ p.e) := by
  have : ∃ m ∈ ps, ∀ q ∈ ps, q.e ≤ m.e := by
    induction ps with
    | nil => exact absurd rfl hne
    | cons a ps ih =>
      by_cases h : ps = []
      · subst h; exact ⟨a, by simp, by simp⟩
      · obtain ⟨m, hm, hq⟩ := ih h
        rcases le_total a.e m.e with hc | hc
        · exact ⟨m, by simp [hm], fun q hq' => by
            rcases List.mem_cons.1 hq' with rfl | h'
            · exact hc
            · exact hq q h'⟩
        · exact ⟨a, by simp, fun q hq' => by
            rcases List.mem_cons.1 hq' with rfl | h'
            · exact le_refl _
            · exact le_trans (hq q h') hc⟩
  obtain ⟨m, h1, h2⟩ := this
  exact ⟨m, List.mem_filter.2 ⟨h1, by simpa using h2⟩⟩

theorem generateSynthetic_spec {E : SaddleEnv} {sites : List Pt} (hE : SEnvOk E sites) {f : Feature}
    (hf : FeatOk E.d f) :
    (f.hpn.length < 2 ∧ generateSynthetic E f = .ok none) ∨
    (2 ≤ f.hpn.length ∧ ∃ fs, generateSynthetic E f = .ok (some fs) ∧ fs.length + 1 = f.hpn.length ∧
      ∀ g ∈ fs, SynthOf f g) := by
  unfold generateSynthetic
  by_cases h2 : f.hpn.length < 2
  · rw [if_pos h2]; exact .inl ⟨h2, rfl⟩
  · right
    refine ⟨by omega, ?_⟩
    rw [if_neg h2]
    by_cases h3 : f.hpn.length > 2
    · rw [if_pos h3]
      obtain ⟨query, hyp, dist, hk, hfc, hM⟩ := hE.fc
      obtain ⟨cs, c1, c2, c3⟩ := C61_child_location E.d query hyp hk dist f (by
        intro a ha b hb
        obtain ⟨ca, hca, ha⟩ := List.mem_flatten.1 ha
        obtain ⟨cb, hcb, hb⟩ := List.mem_flatten.1 hb
        exact hM a b ((hf.high ca hca).2 a ha).1.1 ((hf.high cb hcb).2 b hb).1.1) (by omega)
        (fun l hl => (hf.high l hl).1) hf.mp
      refine ⟨cs, ?_, c2, ?_⟩
      · rw [hfc, c1]; rfl
      · intro g hg
        obtain ⟨l, r, hch, hl, hr⟩ := c3 g hg
        exact hch.synth hl hr
    · rw [if_neg h3]
      have hlen : f.hpn.length = 2 := by omega
      obtain ⟨a, b, hab⟩ : ∃ a b, f.hpn = [a, b] := by
        match h : f.hpn, hlen with
        | [a, b], _ => exact ⟨a, b, rfl⟩
      have hane := (hf.high a (by rw [hab]; simp)).1
      have hbne := (hf.high b (by rw [hab]; simp)).1
      have single : ∃ fs, (do
          let hs ← f.hpn.mapM highestP3
          pure (some [mkSaddle (f.lat, f.lon) f.elevation none false [] hs]) :
            Except PyErr (Option (List Feature))) = .ok (some fs) ∧ fs.length + 1 = f.hpn.length ∧
          ∀ g ∈ fs, SynthOf f g := by
        obtain ⟨ma, ha⟩ := exists_highest a hane
        obtain ⟨mb, hb⟩ := exists_highest b hbne
        rw [hab, List.mapM_cons, List.mapM_cons, List.mapM_nil, highestP3_spec a hane, highestP3_spec b hbne]
        refine ⟨_, rfl, by simp, ?_⟩
        intro g hg
        rw [List.mem_singleton.1 hg]
        refine ⟨rfl, rfl, rfl, rfl, ?_, ?_, rfl⟩
        · intro c hc hnil
          simp only [mkSaddle, List.mem_cons, List.not_mem_nil, or_false] at hc
          rcases hc with rfl | rfl
          · rw [hnil] at ha; simp at ha
          · rw [hnil] at hb; simp at hb
        · intro c hc p hp
          simp only [mkSaddle, List.mem_cons, List.not_mem_nil, or_false] at hc
          rw [hab]
          rcases hc with rfl | rfl
          · exact ⟨a, by simp, (List.mem_filter.1 hp).1⟩
          · exact ⟨b, by simp, (List.mem_filter.1 hp).1⟩
      cases hm : f.multipoint with
      | none => exact single
      | some ms =>
        cases ms with
        | nil => exact single
        | cons m ms =>
          dsimp only
          cases a with
          | nil => exact absurd rfl hane
          | cons u0 us =>
            obtain ⟨u, hu, t, ht, mid, _, hp, _⟩ := C26_path_partial (E.find f) (hE.find f) u0 us b [] hbne
            rw [hab, hp]
            refine ⟨_, rfl, by simp, ?_⟩
            intro g hg
            rw [List.mem_singleton.1 hg]
            refine ⟨rfl, rfl, rfl, rfl, ?_, ?_, rfl⟩
            · intro c hc
              simp [mkSaddle] at hc
              rcases hc with rfl | rfl <;> simp
            · intro c hc p hp
              simp [mkSaddle] at hc
              rw [hab]
              rcases hc with rfl | rfl <;> simp [MPt.ofP3] at hp <;> subst hp
              · exact ⟨u0 :: us, by simp, hu⟩
              · exact ⟨b, by simp, ht⟩

/-- Replacing the exploration state keeps everything else. -/
theorem CInv.setW {E : SaddleEnv} {sites : List Pt} {s : CSt} (hs : CInv E sites s) {w : WSt}
    (hw : WInv E.d (SummitArea E.d sites) w) : CInv E sites { s with w := w } :=
  ⟨hw, hs.objs, hs.links, hs.sad, hs.sum, hs.fresh, hs.walked, hs.lk, hs.doms, hs.dsad, hs.ends, hs.disq⟩

theorem Step.setW (T : Nat → Prop) (s : CSt) (w : WSt) : Step T s { s with w := w } :=
  ⟨le_refl _, fun _ o h => ⟨o, h, rfl, fun _ => rfl⟩, fun _ _ => rfl, fun _ => List.prefix_refl _,
    List.prefix_refl _, fun _ h => .inl h, List.prefix_refl _⟩

theorem CInv.push {E : SaddleEnv} {sites : List Pt} {s : CSt} (hs : CInv E sites s) {k : Nat}
    (hk : k < s.objs.length) : CInv E sites { s with walked := s.walked ++ [k] } :=
  ⟨hs.w, hs.objs, hs.links, hs.sad, hs.sum, hs.fresh, fun j hj => by
    rcases List.mem_append.1 hj with h | h
    · exact hs.walked j h
    · rw [List.mem_singleton.1 h]; exact hk, hs.lk, hs.doms, hs.dsad, hs.ends, hs.disq⟩

theorem Step.push {T : Nat → Prop} (s : CSt) {k : Nat} (hk : T k) :
    Step T s { s with walked := s.walked ++ [k] } :=
  ⟨le_refl _, fun _ o h => ⟨o, h, rfl, fun _ => rfl⟩, fun _ _ => rfl, fun _ => List.prefix_refl _,
    List.prefix_refl _, fun j hj => by
      rcases List.mem_append.1 hj with h | h
      · exact .inl h
      · rw [List.mem_singleton.1 h]; exact .inr hk, List.prefix_append _ _⟩

theorem lt_of_getElem? {α : Type} {l : List α} {i : Nat} {a : α} (h : l[i]? = some a) :
    i < l.length := by
  by_contra hc
  rw [List.getElem?_eq_none (by omega)] at h
  simp at h

theorem walkSynthetic_spec {E : SaddleEnv} {sites : List Pt} (hE : SEnvOk E sites) {s : CSt}
    (hs : CInv E sites s) {sid : Nat} {o : SObj} (ho : s.objs[sid]? = some o)
    (hl : s.sadLinks sid = []) :
    ∃ s', walkSynthetic E s sid = .ok s' ∧ CInv E sites s' ∧ Step (· = sid) s s' ∧
      s'.objs = s.objs ∧ s'.walked = s.walked ++ [sid] ∧ Complete E sites s' sid o := by
  have hf := hs.objs o (List.mem_of_getElem? ho)
  obtain ⟨w', a1, a2, _, a4⟩ := climbEdges_spec hE o.f.hpn s.w hs.w
    fun e he p hp => ⟨((hf.high e he).2 p hp).1, ((hf.high e he).2 p hp).2.1⟩
  obtain ⟨s', b1, b2, b3, b4, b5, _, b7⟩ := linkEdges_spec hE false sid o o.f.hpn { s with w := w' }
    (hs.setW a2) ho fun _ h => h
  obtain ⟨new, n1, n2⟩ := b7 rfl a4
  refine ⟨{ s' with walked := s'.walked ++ [sid] }, ?_, b2.push ?_,
    ((Step.setW _ s w').trans b3).trans (Step.push s' rfl), b4, ?_, ?_⟩
  · unfold walkSynthetic
    rw [ho]
    dsimp only
    rw [a1]
    dsimp only [bind, Except.bind]
    rw [b1]
    rfl
  · rw [b4]; exact lt_of_getElem? ho
  · show s'.walked ++ [sid] = _
    rw [b5]
  · unfold Complete
    show List.Forall₂ _ _ (s'.sadLinks sid)
    rw [n1]
    show List.Forall₂ _ _ (s.sadLinks sid ++ new)
    rw [hl]
    exact n2

/-- Walking a list of distinct saddles without linkers. -/
theorem walkSynthetics_spec {E : SaddleEnv} {sites : List Pt} (hE : SEnvOk E sites) :
    ∀ (ids : List Nat) (s : CSt), CInv E sites s → ids.Nodup →
    (∀ k ∈ ids, k < s.objs.length ∧ s.sadLinks k = []) →
    ∃ s', ids.foldlM (walkSynthetic E) s = .ok s' ∧ CInv E sites s' ∧ Step (· ∈ ids) s s' ∧
      s'.objs = s.objs ∧ s'.walked = s.walked ++ ids ∧
      ∀ k ∈ ids, ∀ o, s'.objs[k]? = some o → Complete E sites s' k o := by
  intro ids
  induction ids with
  | nil => intro s hs _ _; exact ⟨s, rfl, hs, .refl _ _, rfl, by simp, by simp⟩
  | cons i ids ih =>
    intro s hs hn h
    obtain ⟨hi1, hi2⟩ := h i (by simp)
    obtain ⟨s1, a1, a2, a3, a4, a5, a6⟩ := walkSynthetic_spec hE hs (List.getElem?_eq_getElem hi1) hi2
    have hni := (List.nodup_cons.1 hn).1
    obtain ⟨s2, b1, b2, b3, b4, b5, b6⟩ := ih s1 a2 (List.nodup_cons.1 hn).2 (by
      intro k hk
      obtain ⟨c1, c2⟩ := h k (List.mem_cons_of_mem _ hk)
      have hne : k ≠ i := by rintro rfl; exact hni hk
      exact ⟨by rw [a4]; exact c1, by rw [a3.sad k hne]; exact c2⟩)
    refine ⟨s2, ?_, b2, (a3.mono fun k hk => by simp [hk]).trans (b3.mono fun k hk => by simp [hk]),
      b4.trans a4, by rw [b5, a5]; simp, ?_⟩
    · rw [List.foldlM_cons, a1]
      exact b1
    · intro k hk o ho
      rcases List.mem_cons.1 hk with rfl | hk
      · have : o = s.objs[k] := by
          rw [b4, a4, List.getElem?_eq_getElem hi1] at ho
          simpa using ho.symm
        rw [this]
        exact a6.step b3.store b3.sum (b3.sad k hni)
      · exact b6 k hk o ho

theorem alloc_ids (s : CSt) (fs : List Feature) :
    (alloc s fs).2.Nodup ∧ (alloc s fs).2.length = fs.length ∧
    ∀ k, k ∈ (alloc s fs).2 ↔ s.objs.length ≤ k ∧ k < s.objs.length + fs.length := by
  unfold alloc
  refine ⟨?_, by simp, ?_⟩
  · exact List.Nodup.map (fun a b h => by simpa using h) List.nodup_range
  · intro k
    simp only [List.mem_map, List.mem_range]
    constructor
    · rintro ⟨a, ha, rfl⟩; omega
    · intro h; exact ⟨k - s.objs.length, by omega, by omega⟩

theorem alloc_len (s : CSt) (fs : List Feature) :
    (alloc s fs).1.objs.length = s.objs.length + fs.length := by
  simp [alloc]

theorem alloc_step (s : CSt) (fs : List Feature) (T : Nat → Prop) : Step T s (alloc s fs).1 where
  len := by simp [alloc]
  feat k o h := ⟨o, prefix_getElem? (List.prefix_append _ _) h, rfl, fun _ => rfl⟩
  sad _ _ := rfl
  sum _ := List.prefix_refl _
  store := List.prefix_refl _
  walked k h := .inl h
  grow := List.prefix_refl _

theorem alloc_inv {E : SaddleEnv} {sites : List Pt} {s : CSt} (hs : CInv E sites s)
    {fs : List Feature} (hf : ∀ f ∈ fs, FeatOk E.d f) : CInv E sites (alloc s fs).1 where
  w := hs.w
  objs := by
    intro o ho
    rcases List.mem_append.1 ho with h | h
    · exact hs.objs o h
    · obtain ⟨f, h1, rfl⟩ := List.mem_map.1 h
      exact hf f h1
  disq := by
    intro o ho
    rcases List.mem_append.1 ho with h | h
    · exact hs.disq o h
    · obtain ⟨f, h1, rfl⟩ := List.mem_map.1 h
      simp
  links l hl := (hs.links l hl).step (alloc_step s fs fun _ => True)
  sad := hs.sad
  sum := hs.sum
  fresh k hk := hs.fresh k (by rw [alloc_len] at hk; omega)
  walked k hk := by rw [alloc_len]; have := hs.walked k hk; omega
  lk := hs.lk
  doms := hs.doms
  dsad := hs.dsad
  ends l hl := ⟨linkIn_mono (alloc_step s fs fun _ => True) l _ _ (fun _ h => h) (hs.ends l hl).1,
    linkIn_mono (alloc_step s fs fun _ => True) l _ _ (fun _ h => h) (hs.ends l hl).2⟩

theorem alloc_new {s : CSt} {fs : List Feature} {k : Nat} {o : SObj} (hk : k ∈ (alloc s fs).2)
    (ho : (alloc s fs).1.objs[k]? = some o) : o.f ∈ fs ∧ o = { f := o.f } := by
  have h := ((alloc_ids s fs).2.2 k).1 hk
  simp only [alloc] at ho
  rw [List.getElem?_append_right h.1, List.getElem?_map] at ho
  obtain ⟨f, h1, h2⟩ := Option.map_eq_some_iff.1 ho
  subst h2
  exact ⟨List.mem_of_getElem? h1, rfl⟩

/-- Changing fields of an object other than its feature. -/
theorem modObj_getElem? (objs : List SObj) (k j : Nat) (g : SObj → SObj) :
    (modObj objs k g)[j]? = (fun o => if k = j then g o else o) <$> objs[j]? :=
  List.getElem?_modify g k objs j

theorem modObj_length (objs : List SObj) (k : Nat) (g : SObj → SObj) :
    (modObj objs k g).length = objs.length := by
  simp [modObj]

theorem modObj_feat (objs : List SObj) (k : Nat) (g : SObj → SObj) (hg : ∀ o, (g o).f = o.f) {j : Nat}
    {o : SObj} (h : objs[j]? = some o) :
    ∃ o', (modObj objs k g)[j]? = some o' ∧ o'.f = o.f ∧ (j ≠ k → o' = o) ∧ (j = k → o' = g o) := by
  rw [modObj_getElem?, h]
  by_cases hkj : k = j
  · exact ⟨g o, by simp [hkj], hg o, fun hne => absurd hkj.symm hne, fun _ => rfl⟩
  · exact ⟨o, by simp [hkj], rfl, fun _ => rfl, fun h => absurd h.symm hkj⟩

theorem modObj_step {T : Nat → Prop} (s : CSt) (k : Nat) (g : SObj → SObj) (hg : ∀ o, (g o).f = o.f)
    (hk : T k) : Step T s { s with objs := modObj s.objs k g } where
  len := by simp [modObj]
  feat j o h := by
    obtain ⟨o', a, b, c, _⟩ := modObj_feat s.objs k g hg h
    exact ⟨o', a, b, fun hn => c (by rintro rfl; exact hn hk)⟩
  sad _ _ := rfl
  sum _ := List.prefix_refl _
  store := List.prefix_refl _
  walked j h := .inl h
  grow := List.prefix_refl _

theorem modObj_inv {E : SaddleEnv} {sites : List Pt} {s : CSt} (hs : CInv E sites s) (k : Nat)
    (g : SObj → SObj) (hg : ∀ o, (g o).f = o.f)
    (hd : ∀ o, o.disq ≠ some false → (g o).disq ≠ some false) : CInv E sites { s with objs := modObj s.objs k g } where
  w := hs.w
  objs := by
    intro o ho
    obtain ⟨j, hj⟩ := List.mem_iff_getElem?.1 ho
    have hlt := lt_of_getElem? hj
    rw [show ({ s with objs := modObj s.objs k g } : CSt).objs = modObj s.objs k g from rfl,
      modObj_length] at hlt
    obtain ⟨o', a, b, _⟩ := modObj_feat s.objs k g hg (List.getElem?_eq_getElem hlt)
    have : o = o' := by
      have := hj.symm.trans a
      simpa using this
    rw [this, b]
    exact hs.objs _ (List.getElem_mem hlt)
  disq := by
    intro o ho
    obtain ⟨j, hj⟩ := List.mem_iff_getElem?.1 ho
    rw [show ({ s with objs := modObj s.objs k g } : CSt).objs = modObj s.objs k g from rfl,
      modObj_getElem?, Option.map_eq_map, Option.map_eq_some_iff] at hj
    obtain ⟨o', h1, h2⟩ := hj
    have := hs.disq o' (List.mem_of_getElem? h1)
    rw [← h2]
    split
    · exact hd o' this
    · exact this
  links l hl := (hs.links l hl).step (modObj_step (T := fun _ => True) s k g hg trivial)
  sad := hs.sad
  sum := hs.sum
  fresh j hj := hs.fresh j (by
    have : (modObj s.objs k g).length ≤ j := hj
    rwa [modObj_length] at this)
  walked j hj := by
    show j < (modObj s.objs k g).length
    rw [modObj_length]
    exact hs.walked j hj
  lk := hs.lk
  doms := hs.doms
  dsad := hs.dsad
  ends l hl :=
    have st := modObj_step (T := fun _ => True) s k g hg trivial
    ⟨linkIn_mono st l _ _ (fun _ h => h) (hs.ends l hl).1, linkIn_mono st l _ _ (fun _ h => h) (hs.ends l hl).2⟩

/-- One edge saddle. -/
theorem walkEdgeSaddle_spec {E : SaddleEnv} {sites : List Pt} (hE : SEnvOk E sites) {s : CSt}
    (hs : CInv E sites s) {base sid : Nat} (hsid : sid < s.objs.length) :
    ∃ s', walkEdgeSaddle E base s sid = .ok s' ∧ CInv E sites s' ∧
      Step (fun k => k = sid ∨ k = base) s s' ∧ s'.walked = s.walked ++ [sid] ∧
      s'.objs.length = s.objs.length ∧
      (∀ o, s'.objs[sid]? = some o → o.parent = some base) ∧
      ∀ k o o', s.objs[k]? = some o → s'.objs[k]? = some o' → k ≠ sid → o'.parent = o.parent := by
  obtain ⟨s1, b1, b2, b3, b4, b5, _, _⟩ := linkEdges_spec hE true sid s.objs[sid] s.objs[sid].f.hpn s
    hs (List.getElem?_eq_getElem hsid) fun _ h => h
  let g1 : SObj → SObj := fun o => { o with parent := some base }
  let g2 : SObj → SObj := fun o => { o with children := o.children ++ [sid], disq := some true }
  have i1 := modObj_inv b2 sid g1 (fun _ => rfl) (fun _ h => h)
  have i2 := modObj_inv i1 base g2 (fun _ => rfl) (fun _ _ => by simp [g2])
  have t1 := modObj_step (T := fun k => k = sid ∨ k = base) s1 sid g1 (fun _ => rfl) (.inl rfl)
  have t2 := modObj_step (T := fun k => k = sid ∨ k = base) { s1 with objs := modObj s1.objs sid g1 }
    base g2 (fun _ => rfl) (.inr rfl)
  have i3 := i2.push (k := sid) (by
    show sid < (modObj (modObj s1.objs sid g1) base g2).length
    rw [modObj_length, modObj_length, b4]
    exact hsid)
  have t3 := Step.push (T := fun k => k = sid ∨ k = base)
    { s1 with objs := modObj (modObj s1.objs sid g1) base g2 } (k := sid) (.inl rfl)
  have key : ∀ k o o', s.objs[k]? = some o → (modObj (modObj s1.objs sid g1) base g2)[k]? = some o' →
      o'.parent = if k = sid then some base else o.parent := by
    intro k o o' h h'
    rw [modObj_getElem?, modObj_getElem?, b4, h] at h'
    simp only [Option.map_eq_map, Option.map_some, Option.some.injEq] at h'
    subst h'
    by_cases h1 : sid = k <;> by_cases h2 : base = k
    · simp [h1, h2, g1, g2]
    · simp [h1, h2, g1]
    · have h1' : ¬ k = sid := fun h => h1 h.symm
      simp [h1, h1', h2, g2]
    · have h1' : ¬ k = sid := fun h => h1 h.symm
      simp [h1, h1', h2]
  refine ⟨_, ?_, i3, (((b3.mono fun k hk => .inl hk).trans t1).trans t2).trans t3, ?_, ?_, ?_, ?_⟩
  · unfold walkEdgeSaddle
    rw [List.getElem?_eq_getElem hsid]
    dsimp only
    rw [b1]
    rfl
  · show s1.walked ++ [sid] = _
    rw [b5]
  · show (modObj (modObj s1.objs sid g1) base g2).length = _
    rw [modObj_length, modObj_length, b4]
  · intro o ho
    rw [key sid _ o (List.getElem?_eq_getElem hsid) ho, if_pos rfl]
  · intro k o o' h h' hne
    rw [key k o o' h h', if_neg hne]

theorem walkEdgeSaddles_spec {E : SaddleEnv} {sites : List Pt} (hE : SEnvOk E sites) (base : Nat) :
    ∀ (ids : List Nat) (s : CSt), CInv E sites s → (∀ k ∈ ids, k < s.objs.length) →
    ∃ s', ids.foldlM (walkEdgeSaddle E base) s = .ok s' ∧ CInv E sites s' ∧
      Step (fun k => k ∈ ids ∨ k = base) s s' ∧ s'.walked = s.walked ++ ids ∧
      s'.objs.length = s.objs.length ∧
      ∀ k ∈ ids, ∀ o, s'.objs[k]? = some o → o.parent = some base := by
  intro ids
  induction ids using List.reverseRecOn with
  | nil => intro s hs _; exact ⟨s, rfl, hs, .refl _ _, by simp, rfl, by simp⟩
  | append_singleton ids i ih =>
    intro s hs h
    obtain ⟨s1, a1, a2, a3, a4, a5, a6⟩ := ih s hs fun k hk => h k (by simp [hk])
    obtain ⟨s2, b1, b2, b3, b4, b5, b6, b7⟩ := walkEdgeSaddle_spec hE a2 (base := base) (sid := i)
      (by rw [a5]; exact h i (by simp))
    refine ⟨s2, ?_, b2, (a3.mono ?_).trans (b3.mono ?_), by rw [b4, a4]; simp, b5.trans a5, ?_⟩
    · rw [List.foldlM_append, a1]
      dsimp only [bind, Except.bind]
      rw [List.foldlM_cons, b1]
      rfl
    · rintro k (hk | hk)
      · left; simp [hk]
      · exact .inr hk
    · rintro k (hk | hk)
      · left; simp [hk]
      · exact .inr hk
    · intro k hk o ho
      by_cases hki : k = i
      · subst hki; exact b6 o ho
      · have hk' : k ∈ ids := by
          rcases List.mem_append.1 hk with h | h
          · exact h
          · exact absurd (List.mem_singleton.1 h) hki
        have hlt : k < s1.objs.length := by rw [← b5]; exact lt_of_getElem? ho
        rw [b7 k _ o (List.getElem?_eq_getElem hlt) ho hki]
        exact a6 k hk' _ (List.getElem?_eq_getElem hlt)

theorem finishEdge_spec {E : SaddleEnv} {sites : List Pt} (hE : SEnvOk E sites) {s : CSt}
    (hs : CInv E sites s) {base : Nat} {ids : List Nat} (hb : base < s.objs.length)
    (hi : ∀ k ∈ ids, k < s.objs.length) :
    ∃ s', finishEdge E s base ids = .ok s' ∧ CInv E sites s' ∧
      Step (fun k => k ∈ ids ∨ k = base) s s' ∧ s'.walked = s.walked ++ ids ++ [base] ∧
      ∀ k ∈ ids, k ≠ base → ∀ o, s'.objs[k]? = some o → o.parent = some base := by
  obtain ⟨s1, a1, a2, a3, a4, a5, a6⟩ := walkEdgeSaddles_spec hE base ids s hs hi
  let g : SObj → SObj := fun o => { o with disq := some true }
  have i1 := modObj_inv a2 base g (fun _ => rfl) (fun _ _ => by simp [g])
  have t1 := modObj_step (T := fun k => k ∈ ids ∨ k = base) s1 base g (fun _ => rfl) (.inr rfl)
  have i2 := i1.push (k := base) (by
    show base < (modObj s1.objs base g).length
    rw [modObj_length, a5]; exact hb)
  have t2 := Step.push (T := fun k => k ∈ ids ∨ k = base) { s1 with objs := modObj s1.objs base g }
    (k := base) (.inr rfl)
  refine ⟨_, ?_, i2, (a3.trans t1).trans t2, ?_, ?_⟩
  · unfold finishEdge
    rw [a1]
    rfl
  · show s1.walked ++ [base] = _
    rw [a4]
  · intro k hk hne o ho
    have ho' : (modObj s1.objs base g)[k]? = some o := ho
    have hlt : k < s1.objs.length := by
      have := lt_of_getElem? ho'
      rwa [modObj_length] at this
    obtain ⟨o', b1, _, b3, _⟩ := modObj_feat s1.objs base g (fun _ => rfl) (List.getElem?_eq_getElem hlt)
    have : o = o' := by simpa using ho'.symm.trans b1
    rw [this, b3 hne]
    exact a6 k hk _ (List.getElem?_eq_getElem hlt)

theorem foldModParent_spec {E : SaddleEnv} {sites : List Pt} (base : Nat) (T : Nat → Prop) :
    ∀ (ids : List Nat) (s : CSt), CInv E sites s → (∀ k ∈ ids, T k) →
    let objs := ids.foldl (fun objs k => modObj objs k (fun o => { o with parent := some base })) s.objs
    CInv E sites { s with objs := objs } ∧ Step T s { s with objs := objs } ∧
      objs.length = s.objs.length := by
  intro ids
  induction ids with
  | nil => intro s hs _; exact ⟨hs, .refl _ _, rfl⟩
  | cons i ids ih =>
    intro s hs hT
    have i1 := modObj_inv hs i (fun o => { o with parent := some base }) (fun _ => rfl) (fun _ h => h)
    have t1 := modObj_step (T := T) s i (fun o => { o with parent := some base }) (fun _ => rfl)
      (hT i (by simp))
    obtain ⟨a, b, c⟩ := ih _ i1 fun k hk => hT k (by simp [hk])
    exact ⟨a, t1.trans b, c.trans (modObj_length _ _ _)⟩

theorem adoptChildren_spec {E : SaddleEnv} {sites : List Pt} (base : Nat) (T : Nat → Prop)
    (ids : List Nat) {s : CSt} (hs : CInv E sites s) (hT : ∀ k ∈ ids, T k) (hb : T base) :
    CInv E sites (adoptChildren s base ids) ∧ Step T s (adoptChildren s base ids) := by
  obtain ⟨a, b, _⟩ := foldModParent_spec base T ids s hs hT
  exact ⟨modObj_inv a base _ (fun _ => rfl) (fun _ h => h), b.trans (modObj_step _ base _ (fun _ => rfl) hb)⟩

theorem edgeSynthetic_spec {E : SaddleEnv} {sites : List Pt} (hE : SEnvOk E sites) {s : CSt}
    (hs : CInv E sites s) {base : Nat} {o : SObj} (ho : s.objs[base]? = some o) :
    ∃ s' ids, edgeSynthetic E s base o.f = .ok (s', ids) ∧ CInv E sites s' ∧
      Step (fun k => k = base ∨ s.objs.length ≤ k) s s' ∧ s'.walked = s.walked ∧
      (∀ k ∈ ids, k < s'.objs.length) ∧
      ((o.f.hpn.length < 2 ∧ ids = [base]) ∨
       (ids.length + 1 = o.f.hpn.length ∧ ids.Nodup ∧ ∀ k ∈ ids, s.objs.length ≤ k ∧
          ∃ o', s'.objs[k]? = some o' ∧ SynthOf o.f o'.f)) := by
  have hf := hs.objs o (List.mem_of_getElem? ho)
  have hb := lt_of_getElem? ho
  unfold edgeSynthetic
  rcases generateSynthetic_spec hE hf with ⟨h1, h2⟩ | ⟨h1, fs, h2, h3, h4⟩
  · rw [h2]
    exact ⟨s, [base], rfl, hs, .refl _ _, rfl, by simpa using hb, .inl ⟨h1, rfl⟩⟩
  · rw [h2]
    dsimp only [bind, Except.bind]
    have i1 := alloc_inv hs fun f hf' => (h4 f hf').ok hf
    have t1 := alloc_step s fs (fun k => k = base ∨ s.objs.length ≤ k)
    have hids := alloc_ids s fs
    have hnew : ∀ k ∈ (alloc s fs).2, s.objs.length ≤ k ∧
        ∃ o', (alloc s fs).1.objs[k]? = some o' ∧ SynthOf o.f o'.f := by
      intro k hk
      have hr := (hids.2.2 k).1 hk
      have hlt : k < (alloc s fs).1.objs.length := by rw [alloc_len]; exact hr.2
      have hg := List.getElem?_eq_getElem hlt
      exact ⟨hr.1, _, hg, h4 _ (alloc_new hk hg).1⟩
    by_cases hc : (decide (o.f.hpn.length > 2) && o.f.edge) = true
    · obtain ⟨i2, b⟩ := adoptChildren_spec (E := E) (sites := sites) base
        (fun k => k = base ∨ s.objs.length ≤ k) (alloc s fs).2 i1
        (fun k hk => .inr ((hids.2.2 k).1 hk).1) (.inl rfl)
      refine ⟨adoptChildren (alloc s fs).1 base (alloc s fs).2, (alloc s fs).2, ?_, i2,
        t1.trans b, rfl, ?_, .inr ⟨by rw [hids.2.1]; exact h3, hids.1, ?_⟩⟩
      · show (if _ then _ else _) = _
        rw [if_pos hc]; rfl
      · intro k hk
        have hr := (hids.2.2 k).1 hk
        have := b.len
        rw [alloc_len] at this
        exact lt_of_lt_of_le hr.2 this
      · intro k hk
        obtain ⟨c1, o', c2, c3⟩ := hnew k hk
        obtain ⟨o'', d1, d2, _⟩ := b.feat k o' c2
        exact ⟨c1, o'', d1, by rw [d2]; exact c3⟩
    · refine ⟨(alloc s fs).1, (alloc s fs).2, ?_, i1, t1, rfl, ?_, .inr ⟨by rw [hids.2.1]; exact h3,
        hids.1, hnew⟩⟩
      · show (if _ then _ else _) = _
        rw [if_neg hc]; rfl
      · intro k hk
        rw [alloc_len]
        exact ((hids.2.2 k).1 hk).2

/-! Children of an edge feature. -/

theorem linkEdges_objs {E : SaddleEnv} {ig : Bool} {sid : Nat} : ∀ (es : List (List P3)) {s s' : CSt},
    linkEdges E ig sid es s = .ok s' → s'.objs = s.objs := by
  intro es
  induction es with
  | nil => intro s s' h; simp only [linkEdges, Except.ok.injEq] at h; rw [h]
  | cons e es ih =>
    intro s s' h
    cases e with
    | nil => simp [linkEdges] at h
    | cons h0 t =>
      unfold linkEdges at h
      split at h
      · exact ih h
      · exact (ih h).trans rfl

theorem walkEdgeSaddle_kids {E : SaddleEnv} {base sid : Nat} {s s' : CSt} {ob : SObj}
    (h : walkEdgeSaddle E base s sid = .ok s') (hb : s.objs[base]? = some ob) :
    ∃ ob', s'.objs[base]? = some ob' ∧ ob'.children = ob.children ++ [sid] := by
  unfold walkEdgeSaddle at h
  split at h
  · simp at h
  · rename_i o ho
    dsimp only [bind, Except.bind] at h
    split at h
    · simp at h
    · rename_i s1 h1
      simp only [pure, Except.pure, Except.ok.injEq] at h
      subst h
      dsimp only
      rw [modObj_getElem?, modObj_getElem?, linkEdges_objs _ h1, hb]
      refine ⟨_, rfl, ?_⟩
      dsimp only
      rw [if_pos rfl]
      dsimp only
      split <;> rfl

theorem walkEdgeSaddles_kids {E : SaddleEnv} {base : Nat} : ∀ (ids : List Nat) {s s' : CSt} {ob : SObj},
    ids.foldlM (walkEdgeSaddle E base) s = .ok s' → s.objs[base]? = some ob →
    ∃ ob', s'.objs[base]? = some ob' ∧ ob'.children = ob.children ++ ids := by
  intro ids
  induction ids with
  | nil =>
    intro s s' ob h hb
    simp only [List.foldlM_nil, pure, Except.pure, Except.ok.injEq] at h
    subst h
    exact ⟨ob, hb, by simp⟩
  | cons i ids ih =>
    intro s s' ob h hb
    rw [List.foldlM_cons] at h
    cases h1 : walkEdgeSaddle E base s i with
    | error e => rw [h1] at h; simp [bind, Except.bind] at h
    | ok s1 =>
      rw [h1] at h
      obtain ⟨o1, a1, a2⟩ := walkEdgeSaddle_kids h1 hb
      obtain ⟨o2, b1, b2⟩ := ih h a1
      exact ⟨o2, b1, by rw [b2, a2]; simp⟩

theorem finishEdge_kids {E : SaddleEnv} {base : Nat} {ids : List Nat} {s s' : CSt} {ob : SObj}
    (h : finishEdge E s base ids = .ok s') (hb : s.objs[base]? = some ob) :
    ∃ ob', s'.objs[base]? = some ob' ∧ ob'.disq = some true ∧ ob'.children = ob.children ++ ids := by
  unfold finishEdge at h
  cases h1 : ids.foldlM (walkEdgeSaddle E base) s with
  | error e => rw [h1] at h; simp [bind, Except.bind] at h
  | ok s1 =>
    rw [h1] at h
    simp only [bind, Except.bind, pure, Except.pure, Except.ok.injEq] at h
    subst h
    obtain ⟨o1, a1, a2⟩ := walkEdgeSaddles_kids ids h1 hb
    refine ⟨{ o1 with disq := some true }, ?_, rfl, a2⟩
    dsimp only
    rw [modObj_getElem?, a1]
    simp

theorem foldModParent_other (base : Nat) {k : Nat} : ∀ (ids : List Nat) (objs : List SObj), k ∉ ids →
    (ids.foldl (fun objs k => modObj objs k (fun o => { o with parent := some base })) objs)[k]? =
      objs[k]? := by
  intro ids
  induction ids with
  | nil => intro objs _; rfl
  | cons i ids ih =>
    intro objs h
    simp only [List.mem_cons, not_or] at h
    rw [List.foldl_cons, ih _ h.2, modObj_getElem?]
    have : ¬ i = k := fun e => h.1 e.symm
    simp [this]

theorem edgeSynthetic_kids {E : SaddleEnv} {base : Nat} {ids : List Nat} {s s' : CSt} {o : SObj}
    (h : edgeSynthetic E s base o.f = .ok (s', ids)) (hb : s.objs[base]? = some o) (he : o.f.edge = true) :
    s'.objs[base]? = some { o with children := o.children ++ (if o.f.hpn.length > 2 then ids else []) } := by
  unfold edgeSynthetic at h
  cases h1 : generateSynthetic E o.f with
  | error e => rw [h1] at h; simp [bind, Except.bind] at h
  | ok r =>
    rw [h1] at h
    dsimp only [bind, Except.bind] at h
    cases r with
    | none =>
      simp only [pure, Except.pure, Except.ok.injEq, Prod.mk.injEq] at h
      obtain ⟨rfl, rfl⟩ := h
      have : ¬ o.f.hpn.length > 2 := by
        intro hc
        unfold generateSynthetic at h1
        rw [if_neg (by omega), if_pos hc] at h1
        cases h2 : generateChildSaddles E.d E.fc o.f with
        | error e => rw [h2] at h1; simp [bind, Except.bind] at h1
        | ok cs => rw [h2] at h1; simp [bind, Except.bind, pure, Except.pure] at h1
      rw [if_neg this, List.append_nil]
      exact hb
    | some fs =>
      dsimp only at h
      have halloc : (alloc s fs).1.objs[base]? = some o := prefix_getElem? (List.prefix_append _ _) hb
      by_cases hc : o.f.hpn.length > 2
      · rw [if_pos (by simp [hc, he])] at h
        simp only [pure, Except.pure, Except.ok.injEq, Prod.mk.injEq] at h
        obtain ⟨rfl, rfl⟩ := h
        unfold adoptChildren
        dsimp only
        rw [modObj_getElem?, foldModParent_other, halloc, if_pos hc]
        · simp
        · intro hm
          have := ((alloc_ids s fs).2.2 base).1 hm
          have := lt_of_getElem? hb
          omega
      · rw [if_neg (by simp [hc])] at h
        simp only [pure, Except.pure, Except.ok.injEq, Prod.mk.injEq] at h
        obtain ⟨rfl, rfl⟩ := h
        rw [if_neg hc, List.append_nil]
        exact halloc

theorem walkFeature_spec {E : SaddleEnv} {sites : List Pt} (hE : SEnvOk E sites) {s : CSt}
    (hs : CInv E sites s) {base : Nat} {o : SObj} (ho : s.objs[base]? = some o) :
    ∃ s' new, walkFeature E s base = .ok s' ∧ CInv E sites s' ∧
      Step (fun k => k = base ∨ s.objs.length ≤ k) s s' ∧ s'.walked = s.walked ++ new ∧
      (∀ k ∈ new, Good E sites s' k) ∧ Outcome o base s' new ∧
      ∀ k ∈ new, k = base ∨ s.objs.length ≤ k := by
  have hf := hs.objs o (List.mem_of_getElem? ho)
  have hb := lt_of_getElem? ho
  unfold walkFeature
  rw [ho]
  dsimp only
  by_cases he : o.f.edge = false
  · rw [if_pos he]
    have h2 := hf.saddle (hf.inner he)
    rcases generateSynthetic_spec hE hf with ⟨h1, _⟩ | ⟨_, fs, h3, h4, h5⟩
    · omega
    · rw [h3]
      dsimp only [bind, Except.bind]
      have i1 := alloc_inv hs fun f hf' => (h5 f hf').ok hf
      have hids := alloc_ids s fs
      obtain ⟨s', b1, b2, b3, b4, b5, b6⟩ := walkSynthetics_spec hE (alloc s fs).2 (alloc s fs).1 i1 hids.1
        (by
          intro k hk
          have hr := (hids.2.2 k).1 hk
          exact ⟨by rw [alloc_len]; exact hr.2, hs.fresh k hr.1⟩)
      have hfresh : ∀ k ∈ (alloc s fs).2, s.objs.length ≤ k := fun k hk => ((hids.2.2 k).1 hk).1
      refine ⟨s', (alloc s fs).2, b1, b2, (alloc_step s fs _).trans (b3.mono fun k hk => .inr (hfresh k hk)),
        b5, fun k hk o' ho' _ _ => b6 k hk o' ho', ?_, fun k hk => .inr (hfresh k hk)⟩
      unfold Outcome
      rw [if_pos he]
      refine ⟨by rw [hids.2.1]; exact h4, hids.1, ?_⟩
      intro k hk
      have hlt : k < (alloc s fs).1.objs.length := by rw [alloc_len]; exact ((hids.2.2 k).1 hk).2
      have hg := List.getElem?_eq_getElem hlt
      obtain ⟨n1, n2⟩ := alloc_new hk hg
      exact ⟨_, by rw [b4]; exact hg, h5 _ n1, by rw [n2]⟩
  · rw [if_neg he]
    have he' : o.f.edge = true := by simpa using he
    obtain ⟨w', a1, a2, _, a4⟩ := climbEdges_spec hE o.f.hpn s.w hs.w
      fun e he p hp => ⟨((hf.high e he).2 p hp).1, ((hf.high e he).2 p hp).2.1⟩
    rw [a1]
    dsimp only [bind, Except.bind]
    -- finishing with the list of edge saddles
    have fin : ∀ (s2 : CSt) (ids : List Nat), CInv E sites s2 →
        Step (fun k => k = base ∨ s.objs.length ≤ k) s s2 → s2.walked = s.walked →
        (∀ k ∈ ids, k < s2.objs.length) → (∀ k ∈ ids, k = base ∨ s.objs.length ≤ k) →
        ∃ s', finishEdge E s2 base ids = .ok s' ∧ CInv E sites s' ∧
          Step (fun k => k = base ∨ s.objs.length ≤ k) s s' ∧ s'.walked = s.walked ++ (ids ++ [base]) ∧
          (∀ k ∈ ids ++ [base], Good E sites s' k) ∧
          (∀ k ∈ ids ++ [base], k = base ∨ s.objs.length ≤ k) ∧
          (∀ k ∈ ids, k ≠ base → ∀ o2, s2.objs[k]? = some o2 → ∃ o', s'.objs[k]? = some o' ∧
            o'.f = o2.f ∧ o'.parent = some base) ∧
          ∀ ob, s2.objs[base]? = some ob → ∃ ob', s'.objs[base]? = some ob' ∧ ob'.disq = some true ∧
            ob'.children = ob.children ++ ids := by
      intro s2 ids c1 c2 c3 c4 c5
      obtain ⟨s', d1, d2, d3, d4, d5⟩ := finishEdge_spec hE c1 (lt_of_lt_of_le hb c2.len) c4
      have hstep : Step (fun k => k = base ∨ s.objs.length ≤ k) s s' := by
        refine c2.trans (d3.mono ?_)
        rintro k (hk | hk)
        · exact c5 k hk
        · exact .inl hk
      have hbase : Good E sites s' base := by
        intro o' ho' _ hedge
        obtain ⟨o'', e1, e2, _⟩ := hstep.feat base o ho
        have : o' = o'' := by simpa using ho'.symm.trans e1
        rw [this, e2, he'] at hedge
        simp at hedge
      refine ⟨s', d1, d2, hstep, by rw [d4, c3]; simp, ?_, ?_, ?_, fun ob h => finishEdge_kids d1 h⟩
      · intro k hk
        by_cases hkb : k = base
        · subst hkb; exact hbase
        · have hk' : k ∈ ids := by
            rcases List.mem_append.1 hk with h | h
            · exact h
            · exact absurd (List.mem_singleton.1 h) hkb
          intro o' ho' hp _
          rw [d5 k hk' hkb o' ho'] at hp
          simp at hp
      · intro k hk
        rcases List.mem_append.1 hk with h | h
        · exact c5 k h
        · exact .inl (List.mem_singleton.1 h)
      · intro k hk hkb o2 ho2
        obtain ⟨o', e1, e2, _⟩ := d3.feat k o2 ho2
        exact ⟨o', e1, e2, d5 k hk hkb o' e1⟩
    have viaSynth : ∀ (s2 : CSt), CInv E sites s2 →
        Step (fun k => k = base ∨ s.objs.length ≤ k) s s2 → s2.walked = s.walked → s2.objs = s.objs →
        (o.f.kind = .runoff → o.f.hpn = []) →
        ∃ s' new, (edgeSynthetic E s2 base o.f >>= fun r => finishEdge E r.1 base r.2) = .ok s' ∧
          CInv E sites s' ∧
          Step (fun k => k = base ∨ s.objs.length ≤ k) s s' ∧ s'.walked = s.walked ++ new ∧
          (∀ k ∈ new, Good E sites s' k) ∧ Outcome o base s' new ∧
          ∀ k ∈ new, k = base ∨ s.objs.length ≤ k := by
      intro s2 c1 c2 c3 c4 c5
      obtain ⟨s3, ids, d1, d2, d3, d4, d5, d6⟩ := edgeSynthetic_spec hE c1 (base := base) (o := o)
        (by rw [c4]; exact ho)
      have hkid := edgeSynthetic_kids d1 (by rw [c4]; exact ho) he'
      rw [c4] at d3 d6
      obtain ⟨s', f1, f2, f3, f4, f5, f6, f7, f8⟩ := fin s3 ids d2 (c2.trans d3) (d4.trans c3) d5 (by
        intro k hk
        rcases d6 with ⟨_, rfl⟩ | ⟨_, _, h⟩
        · exact .inl (List.mem_singleton.1 hk)
        · exact .inr (h k hk).1)
      refine ⟨s', ids ++ [base], ?_, f2, f3, f4, f5, ?_, f6⟩
      · rw [d1]
        exact f1
      · unfold Outcome
        rw [if_neg he]
        by_cases hk : o.f.kind = .runoff
        · rw [if_pos hk]
          left
          rcases d6 with ⟨_, rfl⟩ | ⟨h, _⟩
          · obtain ⟨ob, k1, k2, k3⟩ := f8 _ hkid
            refine ⟨rfl, ob, k1, k2, ?_⟩
            rw [k3, if_neg (by rw [c5 hk]; simp)]
            simp
          · rw [c5 hk] at h; simp at h
        · rw [if_neg hk]
          have hsad : o.f.kind = .saddle := by
            cases hkk : o.f.kind with
            | summit => exact absurd hkk hf.kind
            | saddle => rfl
            | runoff => exact absurd hkk hk
          have h2 := hf.saddle hsad
          rcases d6 with ⟨h, _⟩ | ⟨g1, g2, g3⟩
          · omega
          · obtain ⟨ob, k1, k2, k3⟩ := f8 _ hkid
            refine ⟨ids, rfl, g1, g2, fun k hk => ?_, ob, k1, k2, ?_⟩
            swap
            · rw [k3]
              dsimp only
              split <;> simp
            obtain ⟨e1, o2, e2, e3⟩ := g3 k hk
            obtain ⟨o', h1, h2, h3⟩ := f7 k hk (by omega) o2 e2
            exact ⟨o', h1, by rw [h2]; exact e3, h3⟩
    have iw := hs.setW a2
    have tw := Step.setW (fun k => k = base ∨ s.objs.length ≤ k) s w'
    by_cases hk : o.f.kind = .runoff
    · rw [if_pos hk]
      by_cases hh : o.f.hpn = []
      · rw [if_pos (by rw [hh]; rfl)]
        obtain ⟨q, hqb, hq⟩ := hf.loc hh
        rw [located_xy hE.geo hqb hq]
        dsimp only
        cases hl : w'.lookup q with
        | none =>
          dsimp only
          refine ⟨_, [base], rfl, iw.push hb, tw.trans (Step.push _ (.inl rfl)), rfl, ?_, ?_, by simp⟩
          · intro k hk' o' ho' _ hedge
            rw [List.mem_singleton.1 hk'] at ho'
            have : o = o' := by simpa using ho.symm.trans ho'
            rw [← this, he'] at hedge
            simp at hedge
          · unfold Outcome
            rw [if_neg he, if_pos hk]
            exact .inr ⟨hh, rfl⟩
        | some D =>
          dsimp only
          obtain ⟨sf, top, c1, c2, c3, c4⟩ := link_of_lookup hE iw hl
          have hok : LinkOk E sites s.objs ⟨D, base⟩ :=
            ⟨sf, o, c1, ho, .inr ⟨hh, hk, by rw [hq.2.2]; exact c4⟩, q, top, c2, c3,
              .inr ⟨hh, (a2.sound q D hl).1, hq⟩⟩
          exact viaSynth (addLinker E true { s with w := w' } D base) (addLinker_inv true iw hok)
            (tw.trans ((addLinker_step E true _ D base).mono fun k hk => .inl hk)) rfl rfl fun _ => hh
      · rw [if_neg (by simpa using hh)]
        obtain ⟨s', f1, f2, f3, f4, f5, f6, _, f8⟩ := fin { s with w := w' } [base] iw tw rfl
          (by simpa using hb) (by simp)
        refine ⟨s', [base, base], f1, f2, f3, f4, f5, ?_, f6⟩
        unfold Outcome
        rw [if_neg he, if_pos hk]
        exact .inl ⟨rfl, f8 o ho⟩
    · rw [if_neg hk]
      exact viaSynth { s with w := w' } iw tw rfl rfl fun h => absurd h hk

/-- The outcome for a feature is not changed by later steps that leave its new objects alone. -/
theorem Outcome.step {o : SObj} {base : Nat} {T : Nat → Prop} {s s' : CSt} {new : List Nat}
    (h : Step T s s') (hn : ∀ k ∈ new, ¬ T k) (ho : Outcome o base s new) : Outcome o base s' new := by
  have keep : ∀ k ∈ new, ∀ o', s.objs[k]? = some o' → s'.objs[k]? = some o' := by
    intro k hk o' a
    obtain ⟨o'', d, e, g⟩ := h.feat k o' a
    rw [g (hn k hk)] at d
    exact d
  unfold Outcome at *
  by_cases he : o.f.edge = false
  · rw [if_pos he] at *
    refine ⟨ho.1, ho.2.1, fun k hk => ?_⟩
    obtain ⟨o', a, b, c⟩ := ho.2.2 k hk
    exact ⟨o', keep k hk o' a, b, c⟩
  · rw [if_neg he] at *
    by_cases hk : o.f.kind = .runoff
    · rw [if_pos hk] at *
      refine ho.imp_left ?_
      rintro ⟨h1, ob, h2, h3⟩
      exact ⟨h1, ob, keep base (by simp [h1]) ob h2, h3⟩
    · rw [if_neg hk] at *
      obtain ⟨ids, h1, h2, h3, h4, ob, h5, h6⟩ := ho
      refine ⟨ids, h1, h2, h3, fun k hk => ?_, ob, keep base (by simp [h1]) ob h5, h6⟩
      obtain ⟨o', a, b, c⟩ := h4 k hk
      exact ⟨o', keep k (by rw [h1]; simp [hk]) o' a, b, c⟩

/-- Walking a list of distinct features: the walked objects are the outcomes, one after the other. -/
theorem walkFeatures_spec {E : SaddleEnv} {sites : List Pt} (hE : SEnvOk E sites) :
    ∀ (bases : List Nat) (s : CSt), CInv E sites s → bases.Nodup → (∀ b ∈ bases, b < s.objs.length) →
    ∃ (s' : CSt) (news : List (List Nat)), bases.foldlM (walkFeature E) s = .ok s' ∧ CInv E sites s' ∧
      Step (fun k => k ∈ bases ∨ s.objs.length ≤ k) s s' ∧ s'.walked = s.walked ++ news.flatten ∧
      (∀ k ∈ news.flatten, Good E sites s' k) ∧
      List.Forall₂ (fun b new => ∃ o, s.objs[b]? = some o ∧ Outcome o b s' new ∧
        ∀ k ∈ new, k = b ∨ s.objs.length ≤ k) bases news ∧
      news.Pairwise (fun a b => ∀ k ∈ a, k ∉ b) := by
  intro bases
  induction bases with
  | nil =>
    intro s hs _ _
    exact ⟨s, [], rfl, hs, .refl _ _, by simp, by simp, .nil, .nil⟩
  | cons b bases ih =>
    intro s hs hn hb
    have hbl := hb b (by simp)
    obtain ⟨hnb, hn'⟩ := List.nodup_cons.1 hn
    obtain ⟨s1, new, a1, a2, a3, a4, a5, a6, a7⟩ := walkFeature_spec hE hs (List.getElem?_eq_getElem hbl)
    obtain ⟨s', news, b1, b2, b3, b4, b5, b6, b7⟩ := ih s1 a2 hn' fun k hk =>
      lt_of_lt_of_le (hb k (by simp [hk])) a3.len
    have hlen := a3.len
    -- the new objects are not touched again
    have hnt : ∀ k ∈ new, ¬ (k ∈ bases ∨ s1.objs.length ≤ k) := by
      intro k hk hc
      have hkl : k < s1.objs.length := a2.walked k (by rw [a4]; simp [hk])
      rcases hc with hc | hc
      · rcases a7 k hk with rfl | h
        · exact hnb hc
        · have := hb k (by simp [hc]); omega
      · omega
    refine ⟨s', new :: news, ?_, b2, (a3.mono ?_).trans (b3.mono ?_), ?_, ?_, .cons ?_ ?_, .cons ?_ b7⟩
    · rw [List.foldlM_cons, a1]
      exact b1
    · rintro k (rfl | h)
      · left; simp
      · exact .inr h
    · rintro k (h | h)
      · left; simp [h]
      · right; omega
    · rw [b4, a4]; simp
    · intro k hk
      rw [List.flatten_cons, List.mem_append] at hk
      rcases hk with hk | hk
      · exact (a5 k hk).step b3 (hnt k hk) (a2.walked k (by rw [a4]; simp [hk]))
      · exact b5 k hk
    · exact ⟨_, List.getElem?_eq_getElem hbl, a6.step b3 hnt, a7⟩
    · refine forall₂_imp_mem b6 ?_
      rintro c new' hc ⟨o1, e1, e2, e3⟩
      have hcl := hb c (by simp [hc])
      obtain ⟨o2, g1, _, g2⟩ := a3.feat c _ (List.getElem?_eq_getElem hcl)
      have : o1 = o2 := by simpa using e1.symm.trans g1
      have hcT : ¬ (c = b ∨ s.objs.length ≤ c) := by
        rintro (rfl | h)
        · exact hnb hc
        · omega
      refine ⟨_, List.getElem?_eq_getElem hcl, by rw [← g2 hcT, ← this]; exact e2, fun k hk => ?_⟩
      rcases e3 k hk with h | h
      · exact .inl h
      · right; omega
    · intro new' hn k hk hk'
      obtain ⟨i, hi⟩ := List.mem_iff_getElem?.1 hn
      have hil : i < bases.length := by rw [b6.length_eq]; exact lt_of_getElem? hi
      obtain ⟨n2, g1, _, _, _, g2⟩ := forall₂_getElem? b6 (List.getElem?_eq_getElem hil)
      have : n2 = new' := by simpa using g1.symm.trans hi
      subst this
      refine hnt k hk ?_
      rcases g2 k hk' with h | h
      · left; rw [h]; exact List.getElem_mem hil
      · exact .inr h

end PyProm
