import Verif.Proof.Edits
import Verif.Proof.Purged

/-
What is needed to save a map is kept by any calls on it and its saddles.
-/
namespace PyProm
open Spec

/-- Children name their parent. -/
def ChildrenOk (m : DMap) : Prop := ∀ p c, c ∈ childrenOf m p → parentOf m c = some p

theorem emancipate_childrenOk {m : DMap} (h : ChildrenOk m) (k : Nat) : ChildrenOk (m.emancipate k) := by
  intro p c hc
  rw [emancipate_children] at hc
  rw [emancipate_parent]
  split at hc
  · obtain ⟨c1, c2⟩ := List.mem_filter.1 hc
    rw [if_neg, h p c c1]
    rintro rfl
    obtain ⟨o, ho⟩ := lt_of_parent (h p c c1)
    rw [(samePlace_iff m c c).2 (SamePlace.self ho)] at c2
    cases c2
  · rename_i hn
    rw [if_neg, h p c hc]
    rintro rfl
    exact hn (h p c hc)

theorem disown_childrenOk {m : DMap} (h : ChildrenOk m) (k : Nat) : ChildrenOk (m.disown k) := by
  intro p c hc
  rw [disown_children m k p (h k)] at hc
  rw [disown_parent]
  split at hc
  · cases hc
  · rename_i hp
    rw [if_neg, h p c hc]
    intro hk
    have := (h k c hk).symm.trans (h p c hc)
    exact hp (by simpa using this.symm)

/-- A step that leaves network and containers alone. -/
theorem Leftover.same {m m1 m2 : DMap} {f1 f2 : Flags} (h : Leftover m m1 f1) (hs : SameNet m1 m2) (ht : Thins m1 m2)
    (hd : m2.st.domSaddles = m1.st.domSaddles)
    (ho : (∀ k, f1.over k ≠ some false) → ∀ k, f2.over k ≠ some false) : Leftover m m2 f2 where
  summits := hs.summits.trans h.summits
  feat := hs.feat.trans h.feat
  pts := hs.pts.trans h.pts
  net := hs.net.trans h.net
  runoffs := hs.runoffs.trans h.runoffs
  domains := hs.domains.trans h.domains
  sub := by rw [hs.saddles]; exact h.sub
  link := by rw [hs.linkers, hs.saddles]; exact h.link
  child k hk c hc := by
    rw [hs.saddles] at hk ⊢
    exact h.child k hk c ((ht k).1.subset hc)
  doms := by rw [hd]; exact h.doms
  domIn := by rw [hd, hs.saddles]; exact h.domIn
  over := ho h.over

theorem Leftover.purge {m m1 : DMap} {f1 : Flags} (hb : BaseOk m) (h : Leftover m m1 f1) (hc : ChildrenOk m1)
    (single basin all : Bool) : Leftover m (m1.purge f1 single basin all).1 (m1.purge f1 single basin all).2 ∧
      ChildrenOk (m1.purge f1 single basin all).1 := by
  rw [purge_eq]
  set l := m1.saddles.filter (purgeSelects f1 single basin all) with hl
  have hs := culls_same l (m1, f1)
  obtain ⟨c1, c2, c3, _⟩ := culls_flags l (m1, f1)
  obtain ⟨k1, k2, k3, k4⟩ := culls_kids l (m1, f1) hc
  have hkeep : ∀ k, k ∈ m1.saddles.filter (fun k => !purgeSelects f1 single basin all k) ↔ k ∈ m1.saddles ∧ k ∉ l := by
    intro k
    rw [List.mem_filter, hl, List.mem_filter]
    cases purgeSelects f1 single basin all k <;> simp
  have hsad : m1.st.sadLinks = m.st.sadLinks := congrArg FNet.sadLinks h.net
  have hdoms := culls_doms l (m1, f1)
  refine ⟨⟨hs.summits.trans h.summits, hs.feat.trans h.feat, hs.pts.trans h.pts, hs.net.trans h.net,
    hs.runoffs.trans h.runoffs, hs.domains.trans h.domains, List.filter_sublist.trans h.sub,
    fun i hi => ?_, fun k hk c hc => ?_, fun D => ?_, fun D k hk hkm => ?_, fun k => ?_⟩, k1⟩
  · obtain ⟨k, hk, hi⟩ := List.mem_flatMap.1 hi
    rw [hsad] at hi
    obtain ⟨e1, e2⟩ := hb.ends k i hi
    refine ⟨e1, ?_⟩
    rw [e2]
    exact List.mem_append_left _ hk
  · have hk := (hkeep k).1 hk
    refine (hkeep c).2 ⟨h.child k hk.1 c (k4 k c hc), fun hcl => ?_⟩
    have := (k2 c hcl).symm.trans (k1 k c hc)
    cases this
  · dsimp only
    rw [hdoms]
    exact List.filter_sublist.trans (h.doms D)
  · dsimp only at hk
    rw [hdoms] at hk
    obtain ⟨h1, h2⟩ := List.mem_filter.1 hk
    have hk1 := h.domIn D k h1 hkm
    refine (hkeep k).2 ⟨hk1, fun hkl => ?_⟩
    obtain ⟨a, b⟩ := hb.doms D k ((h.doms D).subset h1)
    have hD : D ∈ m1.domainsOf k := by
      simp only [DMap.domainsOf, List.mem_filter, List.mem_map]
      rw [h.pts, hsad, h.net]
      exact ⟨b, a⟩
    have hlt : k < m1.st.objs.length := by
      have := congrArg List.length h.feat
      simp only [List.length_map] at this
      rw [this]
      exact hb.fin.bound k hkm
    have := List.all_eq_true.1 h2 k hkl
    rw [(samePlace_iff m1 k k).2 (SamePlace.self (List.getElem?_eq_getElem hlt))] at this
    simp [hD] at this
  · dsimp only
    rw [c3]
    split
    · simp
    · exact h.over k

theorem disown_doms (m : DMap) (k : Nat) : (m.disown k).st.domSaddles = m.st.domSaddles := by
  unfold DMap.disown
  exact emancipates_doms _ m

theorem softDelete_childrenOk {m : DMap} (f : Flags) (h : ChildrenOk m) (k : Nat) : ChildrenOk (m.softDelete f k).1 := by
  have h1 := (culls_kids [k] (m, f) h).1
  intro p c hc
  have e := cull_objs (m, f) k
  have := h1 p c (by rw [List.foldl_cons, List.foldl_nil, childrenOf_congr e]; exact hc)
  rw [List.foldl_cons, List.foldl_nil, parentOf_congr e] at this
  exact this

/-- Every call keeps what is needed to save the map. -/
theorem Leftover.edit {m m1 m2 : DMap} {f1 f2 : Flags} (hb : BaseOk m) (h : Leftover m m1 f1) (hc : ChildrenOk m1)
    {fuel : Nat} (c : EditCall) (he : DMap.edit fuel (m1, f1) c = .ok (m2, f2)) : Leftover m m2 f2 ∧ ChildrenOk m2 := by
  cases c with
  | map c =>
    cases c with
    | detect =>
      unfold DMap.edit DMap.call at he
      cases hd : m1.detectBasins fuel f1 with
      | error e => rw [hd] at he; cases he
      | ok g =>
        rw [hd] at he
        cases he
        refine ⟨h.same (.refl _) (.refl _) rfl fun hov => ?_, hc⟩
        rw [(basins_marked hd).over, (stubPass_spec _ _ f1).1]
        exact hov
    | purge a b c => cases he; exact h.purge hb hc a b c
  | delete k =>
    cases he
    refine ⟨h.same (softDelete_same m1 f1 k) (softDelete_thins m1 f1 k).1 (softDelete_doms m1 f1 k) fun hov j => ?_,
      softDelete_childrenOk f1 hc k⟩
    have h3 : (m1.softDelete f1 k).2.over j = if j ∈ [k] then some true else f1.over j :=
      (culls_flags [k] (m1, f1)).2.2.1 j
    intro h4
    have h5 := h3.symm.trans h4
    split at h5
    · cases h5
    · exact hov j h5
  | disqualify k b s => cases he; exact ⟨h.same (.refl _) (.refl _) rfl (disqualifySelf_keeps m1.net f1 k b s).1, hc⟩
  | override k =>
    cases he
    refine ⟨h.same (.refl _) (.refl _) rfl fun hov j => ?_, hc⟩
    dsimp only
    split
    · simp
    · exact hov j
  | emancipate k =>
    cases he
    exact ⟨h.same (emancipate_same m1 k) (emancipate_thins m1 k) (emancipate_doms m1 k) fun h => h,
      emancipate_childrenOk hc k⟩
  | disown k =>
    cases he
    exact ⟨h.same (disown_same m1 k) (disown_thins m1 k).1 (disown_doms m1 k) fun h => h, disown_childrenOk hc k⟩

theorem Leftover.edits {m m1 m2 : DMap} {f1 f2 : Flags} (hb : BaseOk m) (h : Leftover m m1 f1) (hc : ChildrenOk m1)
    {fuel : Nat} (cs : List EditCall) (he : DMap.edits fuel (m1, f1) cs = .ok (m2, f2)) :
    Leftover m m2 f2 ∧ ChildrenOk m2 := by
  induction cs generalizing m1 f1 with
  | nil => cases he; exact ⟨h, hc⟩
  | cons c cs ih =>
    rw [edits_cons] at he
    obtain ⟨⟨m3, f3⟩, h1, h2⟩ := bind_ok he
    obtain ⟨a, b⟩ := h.edit hb hc c h1
    exact ih a b h2

theorem Leftover.start {m : DMap} (hb : BaseOk m) : Leftover m m m.flags := (Keeps.start (W := False) hb).held

/-! ### Families -/

/-- Families agree and have no two children at the same place. -/
structure FamiliesApart (m : DMap) : Prop where
  agree : FamilyOk m
  apart : SiblingsApart m

theorem siblingsApart_thin {m m1 : DMap} (h : SiblingsApart m) (hs : SameNet m m1) (ht : Thins m m1) :
    SiblingsApart m1 := fun p x y hx hy hxy =>
  h p x y ((ht p).1.subset hx) ((ht p).1.subset hy) (by
    rw [← samePlace_iff] at hxy ⊢
    rwa [hs.ne] at hxy)

theorem emancipate_families {m : DMap} (h : FamiliesApart m) (k : Nat) : FamilyOk (m.emancipate k) := by
  intro j p
  rw [emancipate_children, emancipate_parent]
  by_cases e : j = k
  · subst e
    rw [if_pos rfl]
    refine ⟨fun hj => ?_, fun h => by cases h⟩
    split at hj
    · rename_i hp
      have h2 := (List.mem_filter.1 hj).2
      obtain ⟨o, ho⟩ := lt_of_parent hp
      rw [(samePlace_iff m j j).2 (SamePlace.self ho)] at h2
      cases h2
    · rename_i hp
      exact absurd ((h.agree j p).1 hj) hp
  · rw [if_neg e]
    refine Iff.trans ?_ (h.agree j p)
    split
    · rename_i hp
      rw [List.mem_filter]
      refine ⟨fun g => g.1, fun g => ⟨g, ?_⟩⟩
      cases hn : m.ne (.saddle j) (.saddle k) with
      | true => rfl
      | false => exact absurd (h.apart p j k g ((h.agree k p).2 hp) ((samePlace_iff m j k).1 hn)) e
    · exact Iff.rfl

theorem disown_families {m : DMap} (h : FamiliesApart m) (k : Nat) : FamilyOk (m.disown k) := by
  intro j p
  rw [disown_children m k p fun c hc => (h.agree c k).1 hc, disown_parent]
  by_cases e : p = k
  · subst e
    rw [if_pos rfl]
    refine ⟨fun h => (nomatch h), fun g => ?_⟩
    split at g
    · cases g
    · rename_i hn
      exact absurd ((h.agree j p).2 g) hn
  · rw [if_neg e, h.agree]
    split
    · rename_i hj
      rw [(h.agree j k).1 hj]
      simpa using fun e' => e e'.symm
    · exact Iff.rfl

theorem families_edit {m m1 : DMap} {f f1 : Flags} (h : FamiliesApart m) {fuel : Nat} (c : EditCall)
    (he : DMap.edit fuel (m, f) c = .ok (m1, f1)) : FamiliesApart m1 := by
  cases c with
  | map c =>
    cases c with
    | detect =>
      unfold DMap.edit DMap.call at he
      cases hd : m.detectBasins fuel f with
      | error e => rw [hd] at he; cases he
      | ok g => rw [hd] at he; cases he; exact h
    | purge a b c =>
      cases he
      have h1 := culls_family (m.saddles.filter (purgeSelects f a b c)) (m, f) h.agree h.apart
      have h2 := siblingsApart_thin h.apart (culls_same (m.saddles.filter (purgeSelects f a b c)) (m, f)) (culls_thins _ (m, f))
      exact ⟨h1.1, h2⟩
  | delete k =>
    cases he
    refine ⟨?_, siblingsApart_thin h.apart (softDelete_same m f k) (softDelete_thins m f k).1⟩
    have h1 := (culls_family [k] (m, f) h.agree h.apart).1
    intro j p
    have e := cull_objs (m, f) k
    have := h1 j p
    rw [List.foldl_cons, List.foldl_nil, childrenOf_congr e, parentOf_congr e] at this
    exact this
  | disqualify k b s => cases he; exact h
  | override k => cases he; exact h
  | emancipate k =>
    cases he
    exact ⟨emancipate_families h k, siblingsApart_thin h.apart (emancipate_same m k) (emancipate_thins m k)⟩
  | disown k =>
    cases he
    exact ⟨disown_families h k, siblingsApart_thin h.apart (disown_same m k) (disown_thins m k).1⟩

theorem families_edits {m m1 : DMap} {f f1 : Flags} (h : FamiliesApart m) {fuel : Nat} (cs : List EditCall)
    (he : DMap.edits fuel (m, f) cs = .ok (m1, f1)) : FamiliesApart m1 := by
  induction cs generalizing m f with
  | nil => cases he; exact h
  | cons c cs ih =>
    rw [edits_cons] at he
    obtain ⟨⟨m3, f3⟩, h1, h2⟩ := bind_ok he
    exact ih (families_edit h c h1) h2

/-! ### Whom alternatives name -/

/-- All alternatives of saddles are among `L`. -/
def Names (L : Node → Prop) (f : Flags) : Prop := ∀ k, ∀ x ∈ f.alts (.saddle k), L x

theorem label_names {N : FNet} {L : Node → Prop} {f f' : Flags} {low : List Node} (hl : ∀ x ∈ low, L x) (hf : Names L f)
    (h : disqualifyAndLabel N f low = .ok f') : Names L f' := by
  unfold disqualifyAndLabel at h
  split at h
  · cases h
  · cases h
  · rename_i k rest
    dsimp only at h
    split at h
    · split at h
      · cases h
      · cases h
        have hfold : ∀ (l : List Node) (a : Node → List Node) (n : Node), (∀ x ∈ a n, L x) →
            ∀ x ∈ (l.foldl (fun (a : Node → List Node) n m =>
              if m = n then removeFirst (fun x => decide (x = n) || N.eq x n) (.saddle k :: rest) else a m) a) n, L x := by
          intro l
          induction l with
          | nil => exact fun _ _ h => h
          | cons y l ih =>
            intro a n ha
            rw [List.foldl_cons]
            refine ih _ n (fun x hx => ?_)
            split at hx
            · exact hl x (removeFirst_subset _ _ x hx)
            · exact ha x hx
        exact fun j => hfold _ _ _ (hf j)
    · cases h; exact hf

theorem exploreNbr_names {N : FNet} {L Q : Node → Prop} (hL : ∀ n, Q n → L n) {B : Nat → Prop} {O : Nat → Option Bool}
    {S : Nat → Bool} {root z nbr : Node} {s s' : DSt} (hn : AliveWith N B O S nbr → Q nbr) (hz : Q z)
    (hs : s.Inside False Q B O S) (hf : Names L s.flags) (h : exploreNbr N root z s nbr = .ok s') : Names L s'.flags := by
  unfold exploreNbr at h
  split at h
  · cases h; exact hf
  · rename_i hd
    have hq : Q nbr := hn ⟨s.flags, hs.flags.over, hs.flags.single, hs.flags.keep, by simpa using hd⟩
    cases hu : s.used nbr with
    | none => rw [hu] at h; cases h; exact hf
    | some pn =>
      rw [hu] at h
      dsimp only at h
      split at h
      · cases h; exact hf
      · split at h
        · cases h; exact hf
        · cases hk : s.look z with
          | none => rw [hk] at h; cases h
          | some p =>
            rw [hk] at h
            obtain ⟨c, h1, h⟩ := bind_ok h
            obtain ⟨g, h2, h⟩ := bind_ok h
            cases h
            have hc := climbBack_within hs.look _ _ c p (by
              intro x hx
              simp only [List.mem_cons, List.not_mem_nil, or_false] at hx
              rcases hx with rfl | rfl
              · exact hq
              · exact hz) (hs.look z p hk) h1
            exact label_names (fun x hx => hL x (hc x (findLowest_subset _ _ x hx))) hf h2

theorem exploreNbrs_names {N : FNet} {L Q : Node → Prop} (hL : ∀ n, Q n → L n) {B : Nat → Prop} {O : Nat → Option Bool}
    {S : Nat → Bool} {root z : Node} (hz : Q z) : ∀ (l : List Node) (s s' : DSt),
    (∀ n ∈ l, AliveWith N B O S n → Q n) → s.Inside False Q B O S → Names L s.flags →
    l.foldlM (exploreNbr N root z) s = .ok s' → Names L s'.flags
  | [], s, s', _, _, hf, h => by
    rw [List.foldlM_nil] at h; cases h; exact hf
  | n :: l, s, s', hl, hs, hf, h => by
    rw [List.foldlM_cons] at h
    obtain ⟨s1, h1, h2⟩ := bind_ok h
    exact exploreNbrs_names hL hz l s1 s' (fun m hm => hl m (List.mem_cons_of_mem _ hm))
      (exploreNbr_inside (hl n (by simp)) hz hs h1) (exploreNbr_names hL (hl n (by simp)) hz hs hf h1) h2

theorem exploreLoop_names {N : FNet} {L Q : Node → Prop} (hL : ∀ n, Q n → L n) {B : Nat → Prop} {O : Nat → Option Bool}
    {S : Nat → Bool} (hQ : ∀ z, ∀ n ∈ N.nbrs z, AliveWith N B O S n → Q n) {root : Node} : ∀ (n : Nat) (s s' : DSt),
    s.Inside False Q B O S → Names L s.flags → exploreLoop N root n s = .ok s' → Names L s'.flags
  | 0, s, s', _, _, h => by cases h
  | n + 1, s, s', hs, hf, h => by
    unfold exploreLoop at h
    cases hst : s.stack with
    | nil => rw [hst] at h; cases h; exact hf
    | cons z rest =>
      have hz := hs.stack z (by rw [hst]; simp)
      have hrest : ∀ n ∈ rest, Q n := fun n hn => hs.stack n (by rw [hst]; exact List.mem_cons_of_mem _ hn)
      rw [hst] at h
      dsimp only at h
      split at h
      · exact exploreLoop_names hL hQ n { s with stack := rest, feats := popFeature s.feats z } s'
          ⟨hrest, hs.look, hs.used, hs.flags⟩ hf h
      · split at h
        · cases h
        · rename_i s1 h1
          have hi : DSt.Inside False Q B O S { s with stack := rest } := ⟨hrest, hs.look, hs.used, hs.flags⟩
          exact exploreLoop_names hL hQ n s1 s' (exploreNbrs_inside hz _ { s with stack := rest } s1 (hQ z) hi h1)
            (exploreNbrs_names hL hz _ { s with stack := rest } s1 (hQ z) hi hf h1) h

theorem basinLoop_names {N : FNet} {L Q : Node → Prop} (hL : ∀ n, Q n → L n) {B : Nat → Prop} {O : Nat → Option Bool}
    {S : Nat → Bool} (hQ : ∀ z, ∀ n ∈ N.nbrs z, AliveWith N B O S n → Q n) :
    ∀ (n : Nat) (f f' : Flags) (feats : List Nat), (∀ k ∈ feats, AliveWith N B O S (.saddle k) → Q (.saddle k)) →
    FlagsIn False Q B O S f → Names L f → basinLoop N n f feats = .ok f' → Names L f'
  | 0, f, f', feats, _, _, _, h => by cases h
  | n + 1, f, f', feats, hfe, hf, hn, h => by
    unfold basinLoop at h
    cases hg : feats.getLast? with
    | none => rw [hg] at h; cases h; exact hn
    | some r =>
      rw [hg] at h
      dsimp only at h
      have hr := hfe r (List.mem_of_getLast? hg)
      have hdl : ∀ k ∈ feats.dropLast, AliveWith N B O S (.saddle k) → Q (.saddle k) :=
        fun k hk => hfe k (List.dropLast_subset _ hk)
      split at h
      · exact basinLoop_names hL hQ n f f' _ hdl hf hn h
      · rename_i hd
        have hQr : Q (.saddle r) := hr ⟨f, hf.over, hf.single, hf.keep, by simpa using hd⟩
        split at h
        · cases h
        · rename_i s h1
          have hw : (DSt.start (.saddle r) f feats.dropLast).Inside False Q B O S := by
            refine ⟨?_, ?_, ?_, hf⟩
            · intro x hx
              rw [List.mem_singleton.1 hx]
              exact hQr
            · intro x p hx
              simp only [DSt.start] at hx
              split at hx
              · cases hx; exact hQr
              · cases hx
            · intro x ps hx
              simp only [DSt.start] at hx
              split at hx
              · cases hx; exact fun p hp => (nomatch hp)
              · cases hx
          have h2 := exploreLoop_inside hQ _ _ s hw h1
          have h2' := exploreLoop_names hL hQ _ _ s hw hn h1
          have h3 := exploreLoop_feats _ _ s h1
          have h4 : ∀ k ∈ s.feats.filter (fun k => !(decide (Node.saddle k ∈ s.keys) && !decide (Node.saddle k ∈ s.cyc))),
              AliveWith N B O S (.saddle k) → Q (.saddle k) := fun k hk => hdl k (h3 k (List.mem_filter.1 hk).1)
          refine basinLoop_names hL hQ n _ f' _ ?_ h2.flags h2' h
          intro k hk
          split at hk
          · exact h4 k hk
          · split at hk
            · exact h4 k hk
            · rcases List.mem_append.1 hk with hk | hk
              · exact h4 k hk
              · rw [List.mem_singleton.1 hk]; exact hr

/-- Detection on what calls have left of a run makes saddles that are left alternatives, no others. -/
theorem detect_names {m m1 : DMap} {f1 f2 : Flags} (hb : BaseOk m) (hE : Edited m m.flags m1 f1) {L : Node → Prop}
    (hL : ∀ k ∈ m1.saddles, L (.saddle k)) (hS : ∀ D, L (.summit D)) (hn : Names L f1) {fuel : Nat}
    (hd : m1.detectBasins fuel f1 = .ok f2) : Names L f2 := by
  unfold DMap.detectBasins at hd
  rw [hE.net] at hd
  obtain ⟨s1, s2, s3, s4, _⟩ := stubPass_spec m.net (basinFeatures m.net m1.saddles) f1
  have hfe := (features_spec m.net m1.saddles).2.1
  have hcore : ∀ k, k ∈ m.saddles → AliveWith m.net (fun k => f1.basin k = true) f1.over
      (stubPass m.net (basinFeatures m.net m1.saddles) f1).single (.saddle k) → k ∈ m1.saddles := by
    rintro k hk ⟨g, g1, g2, g0, g3⟩
    by_contra hnk
    have hso := hE.gone k hk hnk
    have hg : SaddleOut g k := by
      unfold SaddleOut at hso ⊢
      rw [g1, g2]
      exact hso.imp id fun ⟨a, b⟩ => ⟨a, b.imp (fun h => (s4 k).2 (.inl h)) (g0 k)⟩
    have := (dead_iff m.net g (.saddle k)).2 fun ha => ha.1 hg
    rw [g3] at this
    cases this
  refine basinLoop_names (N := m.net) (L := L) (Q := fun n => match n with
      | .saddle k => k ∈ m1.saddles
      | .summit _ => True) ?_ (B := fun k => f1.basin k = true) (O := f1.over)
    (S := (stubPass m.net (basinFeatures m.net m1.saddles) f1).single) ?_ fuel
    (stubPass m.net (basinFeatures m.net m1.saddles) f1) f2 (basinFeatures m.net m1.saddles) ?_ ?_ ?_ hd
  · intro n
    cases n with
    | saddle k => exact hL k
    | summit D => exact fun _ => hS D
  · intro z n hn ha
    cases n with
    | summit D => trivial
    | saddle k =>
      cases z with
      | saddle j =>
        obtain ⟨i, _, e⟩ := List.mem_map.1 hn
        cases e
      | summit D =>
        obtain ⟨i, hi, e⟩ := List.mem_map.1 hn
        cases e
        obtain ⟨g, _, _, _, g3⟩ := id ha
        have hed : m.net.edge (.saddle (m.net.link i).2) = false := by
          unfold FNet.dead at g3
          exact (Bool.or_eq_false_iff.1 g3).2
        exact hcore _ (hb.nbr D i hi hed) ha
  · intro k hk ha
    exact hcore k (hE.sub.subset ((hfe k).1 hk)) ha
  · exact ⟨s1, rfl, fun k hk => .inl (by rw [← s2]; exact hk), fun k hk => by rw [s2]; exact hk, fun w => w.elim,
      fun w => w.elim⟩
  · unfold Names
    rw [s3]
    exact hn

/-! ### Parents -/

/-- Parents of saddles of the map are in the map. -/
def ParentsIn (m : DMap) : Prop := ∀ k ∈ m.saddles, ∀ c, parentOf m k = some c → c ∈ m.saddles

theorem BaseOk.parentsIn {m : DMap} (hb : BaseOk m) : ParentsIn m := fun k hk c hc => (hb.par k c hc).1.1 hk

theorem ParentsIn.thin {m m1 : DMap} (h : ParentsIn m) (hs : m1.saddles = m.saddles) (ht : Thins m m1) : ParentsIn m1 := by
  intro k hk c hc
  rw [hs] at hk ⊢
  rcases (ht k).2 with e | e
  · rw [e] at hc; cases hc
  · exact h k hk c (e ▸ hc)

theorem parentsIn_edit {m m1 : DMap} {f f1 : Flags} (h : ParentsIn m) {fuel : Nat} (c : EditCall)
    (hc : (∃ a b d, c = .map (.purge a b d)) → FamiliesApart m)
    (he : DMap.edit fuel (m, f) c = .ok (m1, f1)) : ParentsIn m1 := by
  cases c with
  | map c =>
    cases c with
    | detect =>
      unfold DMap.edit DMap.call at he
      cases hd : m.detectBasins fuel f with
      | error e => rw [hd] at he; cases he
      | ok g => rw [hd] at he; cases he; exact h
    | purge a b d =>
      have hF := hc ⟨a, b, d, rfl⟩
      cases he
      intro k hk c hc
      obtain ⟨_, h1⟩ := culls_family (m.saddles.filter (purgeSelects f a b d)) (m, f) hF.agree hF.apart
      have hc' := (h1 k).1.symm.trans (show _ = some c from hc)
      have hk' : k ∈ m.saddles := (List.mem_filter.1 (show k ∈ m.saddles.filter (fun k => !purgeSelects f a b d k) from hk)).1
      split at hc'
      · cases hc'
      · rename_i hn
        refine List.mem_filter.2 ⟨h k hk' c hc', ?_⟩
        cases hs : purgeSelects f a b d c with
        | false => rfl
        | true => exact absurd (.inr ⟨c, List.mem_filter.2 ⟨h k hk' c hc', hs⟩, hc'⟩) hn
  | delete k => cases he; exact h.thin (softDelete_same m f k).saddles (softDelete_thins m f k).1
  | disqualify k b s => cases he; exact h
  | override k => cases he; exact h
  | emancipate k => cases he; exact h.thin (emancipate_same m k).saddles (emancipate_thins m k)
  | disown k => cases he; exact h.thin (disown_same m k).saddles (disown_thins m k).1

theorem parentsIn_edits {m m1 : DMap} {f f1 : Flags} (h : ParentsIn m) {fuel : Nat} (cs : List EditCall)
    (hc : (∃ a b d, EditCall.map (.purge a b d) ∈ cs) → FamiliesApart m)
    (he : DMap.edits fuel (m, f) cs = .ok (m1, f1)) : ParentsIn m1 := by
  induction cs generalizing m f with
  | nil => cases he; exact h
  | cons c cs ih =>
    rw [edits_cons] at he
    obtain ⟨⟨m3, f3⟩, h1, h2⟩ := bind_ok he
    refine ih (parentsIn_edit h c (fun ⟨a, b, d, e⟩ => hc ⟨a, b, d, by simp [e]⟩) h1) (fun ⟨a, b, d, e⟩ => ?_) h2
    exact families_edit (hc ⟨a, b, d, by simp [e]⟩) c h1

/-! ### Without purges -/

/-- A call other than a purge. -/
def EditCall.Leaves : EditCall → Prop
  | .map (.purge _ _ _) => False
  | _ => True

/-- The saddles of the map. -/
def OfMap (m : DMap) : Node → Prop
  | .saddle k => k ∈ m.saddles
  | .summit _ => True

/-- Without purges saddles stay and alternatives are among them. -/
theorem unpurged_edit {m m1 m2 : DMap} {f1 f2 : Flags} (hb : BaseOk m) (hE : Edited m m.flags m1 f1)
    (hs : m1.saddles = m.saddles) (hn : Names (OfMap m) f1) {fuel : Nat} (c : EditCall) (hc : c.Leaves)
    (he : DMap.edit fuel (m1, f1) c = .ok (m2, f2)) : m2.saddles = m.saddles ∧ Names (OfMap m) f2 := by
  cases c with
  | map c =>
    cases c with
    | detect =>
      unfold DMap.edit DMap.call at he
      cases hd : m1.detectBasins fuel f1 with
      | error e => rw [hd] at he; cases he
      | ok g =>
        rw [hd] at he
        cases he
        exact ⟨hs, detect_names hb hE (L := OfMap m) (fun k hk => show k ∈ m.saddles from hs ▸ hk) (fun _ => trivial) hn hd⟩
    | purge a b d => exact hc.elim
  | delete k =>
    cases he
    refine ⟨(softDelete_same m1 f1 k).saddles.trans hs, fun j x hx => ?_⟩
    have hx : x ∈ (m1.softDelete f1 k).2.alts (.saddle j) := hx
    rw [softDelete_alts] at hx
    split at hx
    · cases hx
    · split at hx
      · exact hn j x (List.mem_filter.1 hx).1
      · exact hn j x hx
  | disqualify k b s => cases he; exact ⟨hs, hn⟩
  | override k => cases he; exact ⟨hs, hn⟩
  | emancipate k => cases he; exact ⟨(emancipate_same m1 k).saddles.trans hs, hn⟩
  | disown k => cases he; exact ⟨(disown_same m1 k).saddles.trans hs, hn⟩

theorem unpurged_edits {m m1 m2 : DMap} {f1 f2 : Flags} (hb : BaseOk m) (hE : Edited m m.flags m1 f1)
    (hs : m1.saddles = m.saddles) (hn : Names (OfMap m) f1) {fuel : Nat} (cs : List EditCall) (hc : ∀ c ∈ cs, c.Leaves)
    (he : DMap.edits fuel (m1, f1) cs = .ok (m2, f2)) : m2.saddles = m.saddles ∧ Names (OfMap m) f2 := by
  induction cs generalizing m1 f1 with
  | nil => cases he; exact ⟨hs, hn⟩
  | cons c cs ih =>
    rw [edits_cons] at he
    obtain ⟨⟨m3, f3⟩, h1, h2⟩ := bind_ok he
    obtain ⟨a, b⟩ := unpurged_edit hb hE hs hn c (hc c (by simp)) h1
    exact ih (hE.trans (edited_edit hE.whole c h1)) a b (fun c h => hc c (by simp [h])) h2

end PyProm
