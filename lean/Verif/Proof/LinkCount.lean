import Verif.Proof.DomainMap

/-
How many linkers the walk from saddles makes, and for which saddles. The invariant needs nothing about
elevations, only that saddles off the edge have two high neighbourhoods.
-/
namespace PyProm
open Spec

/-- The features of the objects. -/
def CSt.feats (s : CSt) : List Feature := s.objs.map (·.f)

/-- The lists of linkers at summits and at saddles hold existing linkers, in the order in which these were made. -/
def SumOnce (s : CSt) : Prop := ∀ k, ((s.sumLinks k).Pairwise (· < ·) ∧ ∀ i ∈ s.sumLinks k, i < s.store.length) ∧
  (s.sadLinks k).Pairwise (· < ·) ∧ ∀ i ∈ s.sadLinks k, i < s.store.length

/-- Linkers of saddles off the edge: not more than high neighbourhoods, and only for walked saddles. -/
structure LInv (s : CSt) : Prop where
  fresh : ∀ k, s.feats.length ≤ k → s.sadLinks k = []
  few : ∀ k f, s.feats[k]? = some f → f.edge = false → (s.sadLinks k).length ≤ f.hpn.length
  seen : ∀ l ∈ s.store, ∀ f, s.feats[l.saddle]? = some f → f.edge = false → l.saddle ∈ s.walked
  once : SumOnce s
  bound : ∀ l ∈ s.store, l.saddle < s.feats.length

theorem SumOnce.nodup {s : CSt} (h : SumOnce s) (k : Nat) : (s.sumLinks k).Nodup ∧ (s.sadLinks k).Nodup :=
  ⟨(h k).1.1.imp (S := (· ≠ ·)) fun h => Nat.ne_of_lt h, (h k).2.1.imp (S := (· ≠ ·)) fun h => Nat.ne_of_lt h⟩

theorem addLinker_once {E : SaddleEnv} {ig : Bool} {s : CSt} {D sid : Nat} (h : SumOnce s) :
    SumOnce (addLinker E ig s D sid) := by
  have key : ∀ (g : Nat → List Nat) (b : Bool) (v k : Nat), ((g k).Pairwise (· < ·) ∧ ∀ i ∈ g k, i < s.store.length) →
      ((if b then g else pushAt g v s.store.length) k).Pairwise (· < ·) ∧
        ∀ i ∈ (if b then g else pushAt g v s.store.length) k, i < s.store.length + 1 := by
    intro g b v k ⟨h1, h2⟩
    cases b
    · simp only [Bool.false_eq_true, if_false]
      unfold pushAt
      split
      · refine ⟨?_, fun i hi => ?_⟩
        · rw [List.pairwise_append]
          refine ⟨h1, by simp, fun a ha b hb => ?_⟩
          have := h2 a ha
          rw [List.mem_singleton] at hb
          omega
        · rcases List.mem_append.1 hi with hi | hi
          · have := h2 i hi; omega
          · rw [List.mem_singleton] at hi; omega
      · exact ⟨h1, fun i hi => by have := h2 i hi; omega⟩
    · exact ⟨h1, fun i hi => by have := h2 i hi; omega⟩
  intro k
  have hlen : (addLinker E ig s D sid).store.length = s.store.length + 1 := by simp [addLinker]
  rw [hlen]
  exact ⟨key s.sumLinks _ D k (h k).1, key s.sadLinks _ sid k (h k).2⟩

theorem addLinker_count {E : SaddleEnv} {ig : Bool} {s : CSt} {D sid : Nat} :
    (∀ k, k ≠ sid → (addLinker E ig s D sid).sadLinks k = s.sadLinks k) ∧
    ((addLinker E ig s D sid).sadLinks sid).length ≤ (s.sadLinks sid).length + 1 ∧
    ∀ l ∈ (addLinker E ig s D sid).store, l ∈ s.store ∨ l.saddle = sid := by
  refine ⟨fun k hk => ?_, ?_, fun l hl => ?_⟩
  · unfold addLinker pushAt
    dsimp only
    split
    · rfl
    · simp [hk]
  · unfold addLinker pushAt
    dsimp only
    split
    · omega
    · simp
  · have : l ∈ s.store ++ [⟨D, sid⟩] := hl
    rcases List.mem_append.1 this with h | h
    · exact .inl h
    · right; rw [List.mem_singleton.1 h]

theorem linkEdges_count {E : SaddleEnv} {ig : Bool} {sid : Nat} : ∀ {es : List (List P3)} {s s' : CSt},
    linkEdges E ig sid es s = .ok s' → s'.objs = s.objs ∧ s'.walked = s.walked ∧
      (∀ k, k ≠ sid → s'.sadLinks k = s.sadLinks k) ∧
      (s'.sadLinks sid).length ≤ (s.sadLinks sid).length + es.length ∧
      (∀ l ∈ s'.store, l ∈ s.store ∨ l.saddle = sid) ∧ (SumOnce s → SumOnce s') := by
  intro es
  induction es with
  | nil =>
    intro s s' h
    simp only [linkEdges, Except.ok.injEq] at h
    subst h
    exact ⟨rfl, rfl, fun _ _ => rfl, by simp, fun _ h => .inl h, id⟩
  | cons e es ih =>
    intro s s' h
    cases e with
    | nil => simp [linkEdges] at h
    | cons h0 e =>
      unfold linkEdges at h
      cases hl : s.w.lookup h0.xy with
      | none =>
        rw [hl] at h
        obtain ⟨a1, a2, a3, a4, a5, a6⟩ := ih h
        exact ⟨a1, a2, a3, by simp; omega, a5, a6⟩
      | some D =>
        rw [hl] at h
        obtain ⟨a1, a2, a3, a4, a5, a6⟩ := ih h
        obtain ⟨b1, b2, b3⟩ := @addLinker_count E ig s D sid
        refine ⟨a1, a2, fun k hk => (a3 k hk).trans (b1 k hk), by simp; omega, fun l hl' => ?_, fun ho =>
          a6 (addLinker_once ho)⟩
        rcases a5 l hl' with h' | h'
        · exact b3 l h'
        · exact .inr h'

/-- Visiting one saddle which is on the edge or has no linker yet. -/
theorem LInv.visit {E : SaddleEnv} {ig : Bool} {sid : Nat} {s s1 s' : CSt} {f : Feature} (h : LInv s)
    (hf : s.feats[sid]? = some f) (hn : f.edge = true ∨ s.sadLinks sid = [])
    (hl : linkEdges E ig sid f.hpn s = .ok s1) (h1 : s'.feats = s1.feats) (h2 : s'.sadLinks = s1.sadLinks)
    (h3 : s'.store = s1.store) (h4 : s'.sumLinks = s1.sumLinks) (h5 : s'.walked = s1.walked ++ [sid]) :
    LInv s' ∧ s'.feats = s.feats ∧ ∀ k, k ≠ sid → s'.sadLinks k = s.sadLinks k := by
  obtain ⟨a1, a2, a3, a4, a5, a6⟩ := linkEdges_count hl
  have hfe : s'.feats = s.feats := by rw [h1]; unfold CSt.feats; rw [a1]
  have hlt := lt_of_getElem? hf
  refine ⟨⟨fun k hk => ?_, fun k g hg he => ?_, fun l hl' g hg he => ?_, fun k => ?_, fun l hl' => ?_⟩, hfe, fun k hk => ?_⟩
  · rw [hfe] at hk
    rw [h2, a3 k (by omega)]
    exact h.fresh k hk
  · rw [hfe] at hg
    rw [h2]
    by_cases hk : k = sid
    · subst hk
      have : f = g := by simpa using hf.symm.trans hg
      subst this
      rcases hn with hn | hn
      · rw [hn] at he; simp at he
      · rw [hn] at a4; simpa using a4
    · rw [a3 k hk]
      exact h.few k g hg he
  · rw [hfe] at hg
    rw [h5, a2]
    rcases a5 l (by rw [← h3]; exact hl') with h' | h'
    · exact List.mem_append_left _ (h.seen l h' g hg he)
    · rw [h']; simp
  · rw [h4, h3, h2]
    exact a6 h.once k
  · rw [hfe]
    rcases a5 l (by rw [← h3]; exact hl') with h' | h'
    · exact h.bound l h'
    · rw [h']; exact hlt
  · rw [h2]; exact a3 k hk

theorem LInv.setW {s : CSt} (h : LInv s) (w : WSt) : LInv { s with w := w } :=
  ⟨h.fresh, h.few, h.seen, h.once, h.bound⟩

theorem feats_alloc (s : CSt) (fs : List Feature) : (alloc s fs).1.feats = s.feats ++ fs := by
  simp [CSt.feats, PyProm.alloc, Function.comp_def]

/-- Fresh objects. -/
theorem LInv.alloc {s : CSt} (h : LInv s) (fs : List Feature) : LInv (alloc s fs).1 := by
  have hf := feats_alloc s fs
  refine ⟨fun k hk => ?_, fun k g hg he => ?_, fun l hl g hg he => ?_, h.once, fun l hl => ?_⟩
  · rw [hf, List.length_append] at hk
    exact h.fresh k (by omega)
  · rw [hf] at hg
    by_cases hk : k < s.feats.length
    · rw [List.getElem?_append_left hk] at hg
      exact h.few k g hg he
    · have := h.fresh k (by omega)
      change (s.sadLinks k).length ≤ _
      rw [this]; simp
  · rw [hf, List.getElem?_append_left (h.bound l hl)] at hg
    exact h.seen l hl g hg he
  · rw [hf, List.length_append]
    have := h.bound l hl
    omega

theorem LInv.setObjs {s : CSt} (h : LInv s) (objs : List SObj) (ho : objs.map (·.f) = s.feats) :
    LInv { s with objs := objs } := by
  have hf : CSt.feats { s with objs := objs } = s.feats := ho
  exact ⟨fun k hk => h.fresh k (by rw [← hf]; exact hk), fun k g hg => h.few k g (by rw [← hf]; exact hg),
    fun l hl g hg => h.seen l hl g (by rw [← hf]; exact hg), h.once, fun l hl => by rw [hf]; exact h.bound l hl⟩

theorem LInv.push {s : CSt} (h : LInv s) (k : Nat) : LInv { s with walked := s.walked ++ [k] } :=
  ⟨h.fresh, h.few, fun l hl g hg he => List.mem_append_left _ (h.seen l hl g hg he), h.once, h.bound⟩

theorem map_modObj (objs : List SObj) (k : Nat) (g : SObj → SObj) (hg : ∀ o, (g o).f = o.f) :
    (modObj objs k g).map (·.f) = objs.map (·.f) := by
  unfold modObj
  refine List.ext_getElem? fun i => ?_
  rw [List.getElem?_map, List.getElem?_map, List.getElem?_modify]
  cases objs[i]? with
  | none => rfl
  | some o => by_cases h : k = i <;> simp [h, hg]

/-- The loop over synthetic saddles. -/
theorem LInv.synthetics {E : SaddleEnv} : ∀ {ids : List Nat} {s s' : CSt}, LInv s → ids.Nodup →
    (∀ k ∈ ids, s.sadLinks k = []) → ids.foldlM (walkSynthetic E) s = .ok s' → LInv s' := by
  intro ids
  induction ids with
  | nil => intro s s' h _ _ he; cases he; exact h
  | cons k ids ih =>
    intro s s' h hn hs he
    rw [List.foldlM_cons] at he
    obtain ⟨s1, e1, e2⟩ := bind_ok he
    unfold walkSynthetic at e1
    cases ho : s.objs[k]? with
    | none => rw [ho] at e1; simp at e1
    | some o =>
      rw [ho] at e1
      obtain ⟨w, _, e1⟩ := bind_ok e1
      obtain ⟨s2, e3, e1⟩ := bind_ok e1
      cases e1
      obtain ⟨a1, a2, a3⟩ := (h.setW w).visit (by simp [CSt.feats, ho]) (.inr (hs k (by simp))) e3
        (s' := { s2 with walked := s2.walked ++ [k] }) rfl rfl rfl rfl rfl
      rw [List.nodup_cons] at hn
      refine ih a1 hn.2 (fun j hj => ?_) e2
      rw [a3 j (fun hc => hn.1 (hc ▸ hj))]
      exact hs j (by simp [hj])

/-- The loop over the saddles of an edge feature. -/
theorem LInv.edges {E : SaddleEnv} {base : Nat} : ∀ {ids : List Nat} {s s' : CSt}, LInv s → ids.Nodup →
    (∀ k ∈ ids, s.sadLinks k = [] ∨ ∃ f, s.feats[k]? = some f ∧ f.edge = true) →
    ids.foldlM (walkEdgeSaddle E base) s = .ok s' → LInv s' := by
  intro ids
  induction ids with
  | nil => intro s s' h _ _ he; cases he; exact h
  | cons k ids ih =>
    intro s s' h hn hs he
    rw [List.foldlM_cons] at he
    obtain ⟨s1, e1, e2⟩ := bind_ok he
    unfold walkEdgeSaddle at e1
    cases ho : s.objs[k]? with
    | none => rw [ho] at e1; simp at e1
    | some o =>
      rw [ho] at e1
      obtain ⟨s2, e3, e1⟩ := bind_ok e1
      cases e1
      have hf : s.feats[k]? = some o.f := by simp [CSt.feats, ho]
      obtain ⟨a1, a2, a3⟩ := h.visit hf (by
          rcases hs k (by simp) with h' | ⟨f, h1, h2⟩
          · exact .inr h'
          · left
            have : o.f = f := by simpa using hf.symm.trans h1
            rw [this]; exact h2) e3
        (s' := { s2 with
          objs := modObj (modObj s2.objs k (fun o => { o with parent := some base })) base
            (fun o => { o with children := o.children ++ [k], disq := some true })
          walked := s2.walked ++ [k] })
        (by simp only [CSt.feats]; rw [map_modObj _ _ _ (by simp), map_modObj _ _ _ (by simp)]) rfl rfl rfl rfl
      rw [List.nodup_cons] at hn
      refine ih a1 hn.2 (fun j hj => ?_) e2
      rw [a3 j (fun hc => hn.1 (hc ▸ hj)), a2]
      exact hs j (by simp [hj])

theorem LInv.finish {E : SaddleEnv} {base : Nat} {ids : List Nat} {s s' : CSt} (h : LInv s) (hn : ids.Nodup)
    (hs : ∀ k ∈ ids, s.sadLinks k = [] ∨ ∃ f, s.feats[k]? = some f ∧ f.edge = true)
    (he : finishEdge E s base ids = .ok s') : LInv s' := by
  unfold finishEdge at he
  obtain ⟨s1, e1, e2⟩ := bind_ok he
  cases e2
  have h1 := h.edges hn hs e1
  exact (h1.setObjs _ (map_modObj s1.objs base _ (by simp))).push base

theorem ids_nodup (n m : Nat) : ((List.range m).map (n + ·)).Nodup :=
  List.nodup_range.map fun a b h => by simpa using h

theorem feats_adopt (s : CSt) (base : Nat) (ids : List Nat) : (adoptChildren s base ids).feats = s.feats := by
  unfold adoptChildren CSt.feats
  dsimp only
  rw [map_modObj _ _ _ (by simp)]
  generalize s.objs = objs
  induction ids generalizing objs with
  | nil => rfl
  | cons k ids ih => rw [List.foldl_cons, ih, map_modObj _ _ _ (by simp)]

theorem LInv.edgeSynthetic {E : SaddleEnv} {base : Nat} {ids : List Nat} {s s' : CSt} {f : Feature}
    (h : LInv s) (hf : s.feats[base]? = some f) (hed : f.edge = true)
    (he : edgeSynthetic E s base f = .ok (s', ids)) : LInv s' ∧ ids.Nodup ∧
      ∀ k ∈ ids, s'.sadLinks k = [] ∨ ∃ f, s'.feats[k]? = some f ∧ f.edge = true := by
  unfold PyProm.edgeSynthetic at he
  obtain ⟨r, _, e2⟩ := bind_ok he
  cases r with
  | none =>
    cases e2
    exact ⟨h, by simp, fun k hk => .inr ⟨f, by rw [List.mem_singleton.1 hk]; exact hf, hed⟩⟩
  | some fs =>
    dsimp only at e2
    have hfr : ∀ k ∈ (PyProm.alloc s fs).2, s.sadLinks k = [] := by
      intro k hk
      obtain ⟨j, _, rfl⟩ := List.mem_map.1 hk
      exact h.fresh _ (by simp [CSt.feats])
    split at e2
    · cases e2
      refine ⟨?_, ids_nodup _ _, fun k hk => .inl (hfr k hk)⟩
      exact (h.alloc fs).setObjs _ (feats_adopt (PyProm.alloc s fs).1 base _)
    · cases e2
      exact ⟨h.alloc fs, ids_nodup _ _, fun k hk => .inl (hfr k hk)⟩

/-- Visiting an edge feature without high neighbourhood. -/
theorem LInv.edgeLink {E : SaddleEnv} {base D : Nat} {s : CSt} {f : Feature} (h : LInv s)
    (hf : s.feats[base]? = some f) (hed : f.edge = true) : LInv (addLinker E true s D base) := by
  obtain ⟨b1, b2, b3⟩ := @addLinker_count E true s D base
  have hlt := lt_of_getElem? hf
  have hk : ∀ k g, s.feats[k]? = some g → g.edge = false → k ≠ base := by
    rintro k g hg he rfl
    have : f = g := by simpa using hf.symm.trans hg
    rw [← this, hed] at he
    simp at he
  refine ⟨fun k hk => ?_, fun k g hg he => ?_, fun l hl g hg he => ?_, addLinker_once h.once, fun l hl => ?_⟩
  · have hk : s.feats.length ≤ k := hk
    rw [b1 k (by omega)]
    exact h.fresh k hk
  · rw [b1 k (hk k g hg he)]
    exact h.few k g hg he
  · rcases b3 l hl with h' | h'
    · exact h.seen l h' g hg he
    · exact absurd h' (hk _ g hg he)
  · rcases b3 l hl with h' | h'
    · exact h.bound l h'
    · rw [h']; exact hlt

theorem LInv.feature {E : SaddleEnv} {base : Nat} {s s' : CSt} (h : LInv s)
    (hw : ∀ o ∈ s.objs, o.f.edge = false → 2 ≤ o.f.hpn.length)
    (he : walkFeature E s base = .ok s') : LInv s' := by
  unfold walkFeature at he
  cases ho : s.objs[base]? with
  | none => rw [ho] at he; simp at he
  | some o =>
    rw [ho] at he
    dsimp only at he
    have hf : s.feats[base]? = some o.f := by simp [CSt.feats, ho]
    by_cases hed : o.f.edge = false
    · rw [if_pos hed] at he
      have h2 := hw o (List.mem_of_getElem? ho) hed
      obtain ⟨r, e1, e2⟩ := bind_ok he
      cases r with
      | none =>
        exfalso
        unfold generateSynthetic at e1
        rw [if_neg (by omega)] at e1
        split at e1
        · obtain ⟨_, _, e⟩ := bind_ok e1
          cases e
        · split at e1
          · obtain ⟨_, _, e⟩ := bind_ok e1
            obtain ⟨_, _, e⟩ := bind_ok e
            obtain ⟨_, _, e⟩ := bind_ok e
            cases e
          · obtain ⟨_, _, e⟩ := bind_ok e1
            cases e
      | some fs =>
        refine (h.alloc fs).synthetics (ids_nodup _ _) (fun k hk => ?_) e2
        obtain ⟨j, _, rfl⟩ := List.mem_map.1 hk
        exact h.fresh _ (by simp [CSt.feats])
    · rw [if_neg hed] at he
      have hed : o.f.edge = true := by simpa using hed
      obtain ⟨w, _, e2⟩ := bind_ok he
      have hW := h.setW w
      split at e2
      · split at e2
        · split at e2
          · cases e2
          · split at e2
            · cases e2
              exact hW.push base
            · obtain ⟨⟨s2, ids⟩, e3, e4⟩ := bind_ok e2
              obtain ⟨a1, a2, a3⟩ := (hW.edgeLink hf hed).edgeSynthetic hf hed e3
              exact a1.finish a2 a3 e4
        · exact hW.finish (by simp) (fun k hk => .inr ⟨o.f, by rw [List.mem_singleton.1 hk]; exact hf, hed⟩) e2
      · obtain ⟨⟨s2, ids⟩, e3, e4⟩ := bind_ok e2
        obtain ⟨a1, a2, a3⟩ := hW.edgeSynthetic hf hed e3
        exact a1.finish a2 a3 e4

theorem LInv.features {E : SaddleEnv} {sites : List Pt} (hE : SEnvOk E sites) : ∀ {bases : List Nat} {s s' : CSt},
    LInv s → CInv E sites s → (∀ b ∈ bases, b < s.objs.length) → bases.foldlM (walkFeature E) s = .ok s' →
    LInv s' := by
  intro bases
  induction bases with
  | nil => intro s s' h _ _ he; cases he; exact h
  | cons b bases ih =>
    intro s s' h hc hb he
    rw [List.foldlM_cons] at he
    obtain ⟨s1, e1, e2⟩ := bind_ok he
    obtain ⟨s2, _, a1, a2, a3, _⟩ := walkFeature_spec hE hc (List.getElem?_eq_getElem (hb b (by simp)))
    have : s2 = s1 := by simpa using a1.symm.trans e1
    subst this
    refine ih (h.feature (fun o ho hed => ?_) e1) a2 (fun k hk => lt_of_lt_of_le (hb k (by simp [hk])) a3.len) e2
    have hf := hc.objs o ho
    exact hf.saddle (hf.inner hed)

/-! ### Linkers held at both ends -/

/-- Linkers of saddles off the edge are listed by their summit and by their saddle. -/
def Held (s : CSt) : Prop := ∀ i l f, s.store[i]? = some l → s.feats[l.saddle]? = some f → f.edge = false →
  i ∈ s.sumLinks l.summit ∧ i ∈ s.sadLinks l.saddle

theorem Held.addLinker {E : SaddleEnv} {ig : Bool} {s : CSt} {D sid : Nat} (h : Held s)
    (hig : ig = false ∨ ∀ f, s.feats[sid]? = some f → f.edge = true) : Held (addLinker E ig s D sid) := by
  intro i l f hl hf he
  have mono : ∀ (g : Nat → List Nat) (b : Bool) (x v k : Nat), x ∈ g k →
      x ∈ (if b then g else pushAt g v i) k ∧ x ∈ (if b then g else pushAt g v s.store.length) k := by
    intro g b x v k hx
    unfold pushAt
    cases b
    · simp only [Bool.false_eq_true, if_false]
      constructor <;> split <;> simp [hx]
    · simp [hx]
  have hl' : (s.store ++ [⟨D, sid⟩])[i]? = some l := hl
  by_cases hi : i < s.store.length
  · rw [List.getElem?_append_left hi] at hl'
    obtain ⟨h1, h2⟩ := h i l f hl' hf he
    exact ⟨(mono _ _ _ _ _ h1).2, (mono _ _ _ _ _ h2).2⟩
  · have hlt := lt_of_getElem? hl'
    rw [List.length_append, List.length_singleton] at hlt
    have : i = s.store.length := by omega
    subst this
    have : l = ⟨D, sid⟩ := by simpa using hl'.symm
    subst this
    rcases hig with rfl | hig
    · simp [PyProm.addLinker, pushAt]
    · rw [hig f hf] at he; simp at he

theorem Held.linkEdges {E : SaddleEnv} {ig : Bool} {sid : Nat} : ∀ {es : List (List P3)} {s s' : CSt}, Held s →
    (ig = false ∨ ∀ f, s.feats[sid]? = some f → f.edge = true) → linkEdges E ig sid es s = .ok s' → Held s' := by
  intro es
  induction es with
  | nil =>
    intro s s' h _ he
    simp only [PyProm.linkEdges, Except.ok.injEq] at he
    rw [← he]; exact h
  | cons e es ih =>
    intro s s' h hig he
    cases e with
    | nil => simp [PyProm.linkEdges] at he
    | cons h0 e =>
      unfold PyProm.linkEdges at he
      cases hl : s.w.lookup h0.xy with
      | none => rw [hl] at he; exact ih h hig he
      | some D => rw [hl] at he; exact ih (h.addLinker hig) hig he

theorem Held.same {s s' : CSt} (h : Held s) (h1 : s'.feats = s.feats) (h2 : s'.sadLinks = s.sadLinks)
    (h3 : s'.store = s.store) (h4 : s'.sumLinks = s.sumLinks) : Held s' := by
  intro i l f hl hf he
  rw [h3] at hl
  rw [h1] at hf
  rw [h2, h4]
  exact h i l f hl hf he

theorem Held.synthetics {E : SaddleEnv} : ∀ {ids : List Nat} {s s' : CSt}, Held s →
    ids.foldlM (walkSynthetic E) s = .ok s' → Held s' ∧ s'.objs = s.objs := by
  intro ids
  induction ids with
  | nil => intro s s' h he; cases he; exact ⟨h, rfl⟩
  | cons k ids ih =>
    intro s s' h he
    rw [List.foldlM_cons] at he
    obtain ⟨s1, e1, e2⟩ := bind_ok he
    unfold walkSynthetic at e1
    cases ho : s.objs[k]? with
    | none => rw [ho] at e1; simp at e1
    | some o =>
      rw [ho] at e1
      obtain ⟨w, _, e1⟩ := bind_ok e1
      obtain ⟨s2, e3, e1⟩ := bind_ok e1
      cases e1
      have h2 : Held s2 := Held.linkEdges (s := { s with w := w }) (h.same rfl rfl rfl rfl) (.inl rfl) e3
      have h3 : Held { s2 with walked := s2.walked ++ [k] } := h2.same rfl rfl rfl rfl
      obtain ⟨g1, g2⟩ := ih h3 e2
      exact ⟨g1, g2.trans (linkEdges_count e3).1⟩

/-- Edge objects are runoffs. -/
def NoEdge (s : CSt) : Prop := ∀ f ∈ s.feats, f.edge = true → f.kind = .runoff

theorem Held.finishSelf {E : SaddleEnv} {base : Nat} {s s' : CSt} (h : Held s)
    (hb : ∀ f, s.feats[base]? = some f → f.edge = true) (he : finishEdge E s base [base] = .ok s') :
    Held s' ∧ s'.feats = s.feats := by
  unfold finishEdge at he
  rw [List.foldlM_cons] at he
  obtain ⟨s1, e1, e2⟩ := bind_ok he
  obtain ⟨s0, e0, e1⟩ := bind_ok e1
  cases e1
  cases e2
  unfold walkEdgeSaddle at e0
  cases ho : s.objs[base]? with
  | none => rw [ho] at e0; simp at e0
  | some o =>
    rw [ho] at e0
    obtain ⟨s2, e3, e1⟩ := bind_ok e0
    cases e1
    have h2 := h.linkEdges (.inr hb) e3
    have hf : ∀ w, CSt.feats { s2 with
        objs := modObj (modObj (modObj s2.objs base fun o => { o with parent := some base }) base fun o =>
          { o with children := o.children ++ [base], disq := some true }) base fun o => { o with disq := some true }
        walked := w } = s2.feats := by
      intro w
      simp only [CSt.feats]
      rw [map_modObj _ _ _ (by simp), map_modObj _ _ _ (by simp), map_modObj _ _ _ (by simp)]
    refine ⟨h2.same (hf _) rfl rfl rfl, (hf _).trans ?_⟩
    simp only [CSt.feats, (linkEdges_count e3).1]

theorem Held.feature {E : SaddleEnv} {base : Nat} {s s' : CSt} (h : Held s) (hL : LInv s) (hN : NoEdge s)
    (hw : ∀ o ∈ s.objs, o.f.edge = false → 2 ≤ o.f.hpn.length)
    (hsyn : ∀ o ∈ s.objs, o.f.edge = false → ∀ fs, generateSynthetic E o.f = .ok (some fs) → ∀ g ∈ fs, g.edge = false)
    (he : walkFeature E s base = .ok s') : Held s' ∧ NoEdge s' := by
  unfold walkFeature at he
  cases ho : s.objs[base]? with
  | none => rw [ho] at he; simp at he
  | some o =>
    rw [ho] at he
    dsimp only at he
    have hf : s.feats[base]? = some o.f := by simp [CSt.feats, ho]
    by_cases hed : o.f.edge = false
    · rw [if_pos hed] at he
      have h2 := hw o (List.mem_of_getElem? ho) hed
      obtain ⟨r, e1, e2⟩ := bind_ok he
      cases r with
      | none =>
        obtain ⟨a1, a2⟩ := Held.synthetics (ids := [base]) h (by
          rw [List.foldlM_cons]
          rw [show walkSynthetic E s base = .ok s' from e2]
          rfl)
        exact ⟨a1, by unfold NoEdge CSt.feats; rw [a2]; exact hN⟩
      | some fs =>
        have hfe := feats_alloc s fs
        have hA : Held (alloc s fs).1 := by
          intro i l f hl hf' hed'
          rw [hfe, List.getElem?_append_left (hL.bound l (List.mem_of_getElem? hl))] at hf'
          exact h i l f hl hf' hed'
        obtain ⟨a1, a2⟩ := hA.synthetics e2
        refine ⟨a1, ?_⟩
        have : s'.feats = s.feats ++ fs := by rw [← hfe]; unfold CSt.feats; rw [a2]
        intro f hf' hed'
        rw [this] at hf'
        rcases List.mem_append.1 hf' with hf' | hf'
        · exact hN f hf' hed'
        · rw [hsyn o (List.mem_of_getElem? ho) hed fs e1 f hf'] at hed'
          simp at hed'
    · rw [if_neg hed] at he
      have hed : o.f.edge = true := by simpa using hed
      have hk := hN o.f (List.mem_of_getElem? hf) hed
      have hb : ∀ f, s.feats[base]? = some f → f.edge = true := by
        intro f hf'
        have : o.f = f := by simpa using hf.symm.trans hf'
        rw [← this]; exact hed
      obtain ⟨w, _, e2⟩ := bind_ok he
      have hW : Held { s with w := w } := h.same rfl rfl rfl rfl
      rw [if_pos hk] at e2
      split at e2
      · rename_i hemp
        split at e2
        · cases e2
        · split at e2
          · cases e2
            exact ⟨h.same rfl rfl rfl rfl, hN⟩
          · rename_i D _
            obtain ⟨⟨s2, ids⟩, e3, e4⟩ := bind_ok e2
            have hH : o.f.hpn = [] := by simpa using hemp
            have e5 : generateSynthetic E o.f = .ok none := by
              unfold generateSynthetic
              rw [hH]
              rfl
            unfold edgeSynthetic at e3
            rw [e5] at e3
            cases e3
            obtain ⟨g1, g2⟩ := Held.finishSelf (Held.addLinker (E := E) (D := D) hW (.inr hb)) hb e4
            exact ⟨g1, by unfold NoEdge; rw [g2]; exact hN⟩
      · obtain ⟨g1, g2⟩ := hW.finishSelf hb e2
        exact ⟨g1, by unfold NoEdge; rw [g2]; exact hN⟩

theorem Held.features {E : SaddleEnv} {sites : List Pt} (hE : SEnvOk E sites) : ∀ {bases : List Nat} {s s' : CSt},
    Held s → LInv s → NoEdge s → CInv E sites s → (∀ b ∈ bases, b < s.objs.length) →
    bases.foldlM (walkFeature E) s = .ok s' → Held s' := by
  intro bases
  induction bases with
  | nil => intro s s' h _ _ _ _ he; cases he; exact h
  | cons b bases ih =>
    intro s s' h hL hN hc hb he
    rw [List.foldlM_cons] at he
    obtain ⟨s1, e1, e2⟩ := bind_ok he
    obtain ⟨s2, _, a1, a2, a3, _⟩ := walkFeature_spec hE hc (List.getElem?_eq_getElem (hb b (by simp)))
    have : s2 = s1 := by simpa using a1.symm.trans e1
    subst this
    have hwide : ∀ o ∈ s.objs, o.f.edge = false → 2 ≤ o.f.hpn.length := fun o ho hed =>
      (hc.objs o ho).saddle ((hc.objs o ho).inner hed)
    obtain ⟨g1, g2⟩ := h.feature hL hN hwide (fun o ho hed fs hfs g hg => by
      rcases generateSynthetic_spec hE (hc.objs o ho) with ⟨_, h2⟩ | ⟨_, fs', h2, _, h4⟩
      · rw [h2] at hfs; cases hfs
      · rw [h2] at hfs
        cases hfs
        exact (h4 g hg).edge) e1
    exact ih g1 (hL.feature hwide e1) g2 a2 (fun k hk => lt_of_lt_of_le (hb k (by simp [hk])) a3.len) e2

/-- The linkers of a walked map. -/
theorem walk_links {E : SaddleEnv} (hE : RunOk E) {sites : List Pt} {m0 m : DMap} (h0 : Fresh E.d sites m0)
    (hw : m0.walk E [] = .ok (m, none)) : LInv m.st ∧ (NoEdge m0.st → Held m.st) := by
  have hst := h0.start
  unfold DMap.walk at hw
  obtain ⟨w, e1, e2⟩ := bind_ok hw
  obtain ⟨⟨r, s⟩, e3, e4⟩ := bind_ok e2
  obtain ⟨w', i1, i2, _⟩ := walkInit_spec hE.geo h0.tops
  have : w' = w := by
    rw [h0.none] at e1
    simpa using i1.symm.trans e1
  subst this
  have hinv : CInv { E with summits := m0.summits } sites
      { m0.st with w := w', walked := [], linkers := [], doms := [] } := by
    refine ⟨i2, h0.ok, ?_, ?_, ?_, ?_, ?_, ?_, ?_, ?_, ?_, h0.disq⟩ <;> rw [hst] <;> simp [CSt.start]
  have hL : LInv { m0.st with w := w', walked := [], linkers := [], doms := [] } := by
    constructor <;> rw [hst] <;> simp [CSt.start, SumOnce]
  have hH : Held { m0.st with w := w', walked := [], linkers := [], doms := [] } := by
    unfold Held; rw [hst]; simp [CSt.start]
  have hb : ∀ b ∈ m0.saddles ++ m0.runoffs, b < m0.st.objs.length := by
    intro b hb
    rcases List.mem_append.1 hb with h | h
    · obtain ⟨o, ho, _⟩ := h0.sad b h
      exact lt_of_getElem? ho
    · obtain ⟨o, ho, _⟩ := h0.run b h
      exact lt_of_getElem? ho
  unfold climbFromSaddles at e3
  obtain ⟨s1, e5, e6⟩ := bind_ok e3
  cases e6
  simp only [List.isEmpty_nil, if_true] at e5 e4
  have hm : m.st = s := by
    cases e4; rfl
  rw [hm]
  exact ⟨hL.features (hE.senv h0.tops) hinv hb e5, fun hN => hH.features (hE.senv h0.tops) hL hN hinv hb e5⟩

/-! ### Maps without saddles on the edge -/

theorem rebuildOne_noEdge {d : DataMap} {fc : PairSearch} (hfc : PairOk d fc) {objs objs' : List SObj} {k : Nat}
    {new : List Nat} (h : rebuildOne d fc objs k = .ok (objs', new)) (hobj : ∀ o ∈ objs, FeatOk d o.f)
    (hN : ∀ o ∈ objs, o.f.edge = true → o.f.kind = .runoff) :
    ∀ f ∈ objs'.map (·.f), f.edge = true → f.kind = .runoff := by
  have hN' : ∀ f ∈ objs.map (·.f), f.edge = true → f.kind = .runoff := by
    intro f hf
    obtain ⟨o, ho, rfl⟩ := List.mem_map.1 hf
    exact hN o ho
  unfold rebuildOne at h
  split at h
  · cases h
  · rename_i o ho
    split at h
    · cases h; exact hN'
    · rename_i hlen
      obtain ⟨fs, e1, h⟩ := bind_ok h
      obtain ⟨fs', f1, _, f3⟩ := rebuildNew_spec hfc (hobj o (List.mem_of_getElem? ho)) (by omega)
      have : fs' = fs := by
        have := f1.symm.trans e1
        simpa using this
      subst this
      have happ : ∀ g : Feature → SObj, (∀ f, (g f).f = f) → ∀ f ∈ (objs ++ fs'.map g).map (·.f),
          f.edge = true → f.kind = .runoff := by
        intro g hg f hf he
        rw [List.map_append, List.mem_append] at hf
        rcases hf with hf | hf
        · exact hN' f hf he
        · obtain ⟨o', ho', rfl⟩ := List.mem_map.1 hf
          obtain ⟨f', hf', rfl⟩ := List.mem_map.1 ho'
          rw [hg] at he
          rw [(f3 f' hf').1.edge] at he
          cases he
      dsimp only at h
      split at h
      · cases h
        rw [map_modObj _ _ _ (by simp)]
        exact happ _ fun _ => rfl
      · cases h
        exact happ _ fun _ => rfl

theorem rebuildSaddles_noEdge {d : DataMap} {fc : PairSearch} (hfc : PairOk d fc) : ∀ (ks : List Nat)
    (objs objs' : List SObj) (new : List Nat), rebuildSaddles d fc ks objs = .ok (objs', new) →
    (∀ o ∈ objs, FeatOk d o.f) → (∀ k ∈ ks, ∃ o, objs[k]? = some o ∧ 2 ≤ o.f.hpn.length) →
    (∀ o ∈ objs, o.f.edge = true → o.f.kind = .runoff) →
    ∀ f ∈ objs'.map (·.f), f.edge = true → f.kind = .runoff
  | [], objs, objs', new, h, hobj, _, hN => by
    unfold rebuildSaddles at h; cases h
    intro f hf
    obtain ⟨o, ho, rfl⟩ := List.mem_map.1 hf
    exact hN o ho
  | k :: ks, objs, objs', new, h, hobj, hk, hN => by
    unfold rebuildSaddles at h
    obtain ⟨⟨o1, n1⟩, h1, h⟩ := bind_ok h
    obtain ⟨⟨o2, n2⟩, h2, h⟩ := bind_ok h
    cases h
    obtain ⟨o, ho, hw⟩ := hk k (by simp)
    obtain ⟨o1', n1', s1, s2, s3, _⟩ := rebuildOne_spec hfc hobj ho hw
    have : o1' = o1 := by
      have := s1.symm.trans h1
      simp only [Except.ok.injEq, Prod.mk.injEq] at this
      exact this.1
    subst this
    refine rebuildSaddles_noEdge hfc ks o1' _ _ h2 s2 (fun j hj => ?_) fun o' ho' =>
      rebuildOne_noEdge hfc h1 hobj hN _ (List.mem_map_of_mem ho')
    obtain ⟨oj, a1, a2⟩ := hk j (by simp [hj])
    obtain ⟨oj', b1, b2, _⟩ := s3.2 j oj a1
    exact ⟨oj', b1, by rw [b2]; exact a2⟩

theorem discover_noEdge {d : DataMap} {fc : PairSearch} (hfc : PairOk d fc) (o : Pt → Oracle) (order : List Pt)
    (ho : IsScan d order) (rebuild : Bool) {D : Discovered} {m : DMap} (hD : analyze d o order = .ok D)
    (hm : DMap.discover d fc o order rebuild = .ok m) (he : ∀ f ∈ D.saddles, f.edge = false) : NoEdge m.st := by
  obtain ⟨D', sites, h1, h2, h3, h4⟩ := analyze_walkable d o order ho
  have : D' = D := by simpa using h1.symm.trans hD
  subst this
  obtain ⟨corners, c1, _, c3⟩ := corner_featOk d
  have hall : ∀ f ∈ D'.saddles ++ (D'.runoffs ++ corners), FeatOk d f ∧ (f.edge = true → f.kind = .runoff) := by
    intro f hf
    rcases List.mem_append.1 hf with h | h
    · exact ⟨(h3 f h).1, fun hc => by rw [he f h] at hc; cases hc⟩
    · rcases List.mem_append.1 h with h | h
      · exact ⟨(h4 f h).1, fun _ => (h4 f h).2.1⟩
      · exact ⟨(c3 f h).1, fun _ => (c3 f h).2.1⟩
  unfold DMap.discover at hm
  rw [h1, c1] at hm
  dsimp only [bind, Except.bind] at hm
  cases rebuild with
  | false =>
    cases hm
    intro f hf hed
    simp only [CSt.feats, CSt.start, List.map_map, Function.comp_def, List.map_id'] at hf
    exact (hall f hf).2 hed
  | true =>
    rw [if_pos rfl] at hm
    split at hm
    · cases hm
    · rename_i r hr
      obtain ⟨objs, new⟩ := r
      cases hm
      refine rebuildSaddles_noEdge hfc _ _ _ _ hr ?_ ?_ ?_
      · intro o ho
        obtain ⟨f, hf, rfl⟩ := List.mem_map.1 ho
        exact (hall f hf).1
      · intro k hk
        have hk' := List.mem_range.1 hk
        refine ⟨{ f := D'.saddles[k] }, ?_, (h3 _ (List.getElem_mem hk')).1.saddle (h3 _ (List.getElem_mem hk')).2⟩
        rw [List.getElem?_map, prefix_getElem? (List.prefix_append _ _) (List.getElem?_eq_getElem hk')]
        rfl
      · intro o ho
        obtain ⟨f, hf, rfl⟩ := List.mem_map.1 ho
        exact (hall f hf).2

end PyProm
