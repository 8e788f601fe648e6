import Verif.Proof.Basin

/-
The alternatives of basin saddles are features of the map: whatever the network, basin detection notes only
saddles it started from and neighbours that are not on the edge.
-/
namespace PyProm
open Spec

/-- Everything the search refers to has property `Q`. -/
structure DSt.Within (Q : Node → Prop) (s : DSt) : Prop where
  stack : ∀ n ∈ s.stack, Q n
  look : ∀ n p, s.look n = some p → Q p
  used : ∀ n ps, s.used n = some ps → ∀ p ∈ ps, Q p
  alts : ∀ n, ∀ x ∈ s.flags.alts n, Q x

theorem climbBack_within {Q : Node → Prop} {look : Node → Option Node} {root : Node} {pn : List Node}
    (hl : ∀ n p, look n = some p → Q p) : ∀ (n : Nat) (cycle c : List Node) (p : Node), (∀ x ∈ cycle, Q x) → Q p →
    climbBack look root pn n cycle p = .ok c → ∀ x ∈ c, Q x := by
  intro n
  induction n with
  | zero => intro _ _ _ _ _ h; cases h
  | succ n ih =>
    intro cycle c p hc hp h
    unfold climbBack at h
    have hcp : ∀ x ∈ cycle ++ [p], Q x := by
      intro x hx
      rcases List.mem_append.1 hx with hx | hx
      · exact hc x hx
      · rw [List.mem_singleton.1 hx]; exact hp
    split at h
    · cases h; exact hcp
    · cases hq : look p with
      | none => rw [hq] at h; cases h
      | some q =>
        rw [hq] at h
        dsimp only at h
        split at h
        · cases h
          intro x hx
          rcases List.mem_append.1 hx with hx | hx
          · exact hcp x hx
          · rw [List.mem_singleton.1 hx]; exact hl p q hq
        · exact ih _ c q hcp (hl p q hq) h

theorem lowestStep_subset (elev : Node → Rat) (l : List Node) (n x : Node) (h : x ∈ lowestStep elev l n) :
    x ∈ l ∨ x = n := by
  unfold lowestStep at h
  split at h
  · cases h
  · split at h
    · rcases List.mem_append.1 h with h | h
      · exact .inl h
      · exact .inr (List.mem_singleton.1 h)
    · split at h
      · exact .inr (List.mem_singleton.1 h)
      · exact .inl h

theorem findLowest_subset (elev : Node → Rat) (c : List Node) : ∀ x ∈ findLowest elev c, x ∈ c := by
  have : ∀ (l acc : List Node), ∀ x ∈ l.foldl (lowestStep elev) acc, x ∈ acc ∨ x ∈ l := by
    intro l
    induction l with
    | nil => intro acc x hx; exact .inl hx
    | cons n l ih =>
      intro acc x hx
      rw [List.foldl_cons] at hx
      rcases ih _ x hx with h | h
      · rcases lowestStep_subset elev acc n x h with h | h
        · exact .inl h
        · exact .inr (by rw [h]; simp)
      · exact .inr (List.mem_cons_of_mem _ h)
  intro x hx
  rcases this c _ x hx with h | h
  · exact List.mem_of_mem_take h
  · exact h

theorem removeFirst_subset (p : Node → Bool) : ∀ l : List Node, ∀ x ∈ removeFirst p l, x ∈ l
  | [], x, h => h
  | a :: l, x, h => by
    unfold removeFirst at h
    split at h
    · exact List.mem_cons_of_mem _ h
    · rcases List.mem_cons.1 h with rfl | h
      · simp
      · exact List.mem_cons_of_mem _ (removeFirst_subset p l x h)

theorem label_within {N : FNet} {Q : Node → Prop} {f f' : Flags} {low : List Node} (hl : ∀ x ∈ low, Q x)
    (hf : ∀ n, ∀ x ∈ f.alts n, Q x) (h : disqualifyAndLabel N f low = .ok f') : ∀ n, ∀ x ∈ f'.alts n, Q x := by
  have hfold : ∀ (l : List Node) (a : Node → List Node), (∀ n, ∀ x ∈ a n, Q x) →
      ∀ n, ∀ x ∈ l.foldl (fun (a : Node → List Node) n m =>
        if m = n then removeFirst (fun x => decide (x = n) || N.eq x n) low else a m) a n, Q x := by
    intro l
    induction l with
    | nil => intro a ha; exact ha
    | cons y l ih =>
      intro a ha
      rw [List.foldl_cons]
      refine ih _ fun n x hx => ?_
      split at hx
      · exact hl x (removeFirst_subset _ _ x hx)
      · exact ha n x hx
  unfold disqualifyAndLabel at h
  split at h
  · cases h
  · cases h
  · dsimp only at h
    split at h
    · split at h
      · cases h
      · cases h
        exact hfold _ _ hf
    · cases h
      exact hf

theorem exploreNbr_within {N : FNet} {Q : Node → Prop} {root z nbr : Node} {s s' : DSt}
    (hn : N.edge nbr = false → Q nbr) (hz : Q z) (hs : s.Within Q) (h : exploreNbr N root z s nbr = .ok s') :
    s'.Within Q := by
  unfold exploreNbr at h
  split at h
  · cases h; exact { hs with }
  · rename_i hd
    have hq : Q nbr := by
      refine hn ?_
      cases he : N.edge nbr with
      | false => rfl
      | true => exact absurd (by simp [FNet.dead, he]) hd
    cases hu : s.used nbr with
    | none =>
      rw [hu] at h
      cases h
      refine ⟨?_, ?_, ?_, hs.alts⟩
      · intro n h
        rcases List.mem_cons.1 h with rfl | h
        · exact hq
        · exact hs.stack n h
      · intro n p h
        dsimp only at h
        split at h
        · cases h; exact hz
        · exact hs.look n p h
      · intro n ps h
        dsimp only at h
        split at h
        · cases h
          intro p hp
          rw [List.mem_singleton.1 hp]
          exact hz
        · exact hs.used n ps h
    | some pn =>
      rw [hu] at h
      dsimp only at h
      split at h
      · cases h; exact hs
      · split at h
        · cases h; exact hs
        · cases hk : s.look z with
          | none => rw [hk] at h; cases h
          | some p =>
            rw [hk] at h
            obtain ⟨c, h1, h⟩ := bind_ok h
            obtain ⟨g, h2, h⟩ := bind_ok h
            cases h
            have hc := climbBack_within hs.look _ _ c p (by
              intro x hx
              simp only [List.mem_cons, List.not_mem_nil, or_false] at hx
              rcases hx with rfl | rfl
              · exact hq
              · exact hz) (hs.look z p hk) h1
            refine ⟨hs.stack, hs.look, ?_, label_within (fun x hx => hc x (findLowest_subset _ _ x hx)) hs.alts h2⟩
            intro n ps h
            dsimp only at h
            split at h
            · cases h
              intro q hq'
              rcases List.mem_append.1 hq' with hq' | hq'
              · exact hs.used nbr pn hu q hq'
              · rw [List.mem_singleton.1 hq']; exact hz
            · exact hs.used n ps h

theorem exploreNbrs_within {N : FNet} {Q : Node → Prop} {root z : Node} (hz : Q z) : ∀ (l : List Node) (s s' : DSt),
    (∀ n ∈ l, N.edge n = false → Q n) → s.Within Q → l.foldlM (exploreNbr N root z) s = .ok s' → s'.Within Q
  | [], s, s', _, hs, h => by
    rw [List.foldlM_nil] at h; cases h; exact hs
  | n :: l, s, s', hl, hs, h => by
    rw [List.foldlM_cons] at h
    obtain ⟨s1, h1, h2⟩ := bind_ok h
    exact exploreNbrs_within hz l s1 s' (fun m hm => hl m (List.mem_cons_of_mem _ hm))
      (exploreNbr_within (hl n (by simp)) hz hs h1) h2

theorem exploreLoop_within {N : FNet} {Q : Node → Prop} (hQ : ∀ z, ∀ n ∈ N.nbrs z, N.edge n = false → Q n)
    {root : Node} : ∀ (n : Nat) (s s' : DSt), s.Within Q → exploreLoop N root n s = .ok s' → s'.Within Q
  | 0, s, s', _, h => by cases h
  | n + 1, s, s', hs, h => by
    unfold exploreLoop at h
    cases hst : s.stack with
    | nil => rw [hst] at h; cases h; exact hs
    | cons z rest =>
      have hz := hs.stack z (by rw [hst]; simp)
      have hrest : ∀ n ∈ rest, Q n := fun n hn => hs.stack n (by rw [hst]; exact List.mem_cons_of_mem _ hn)
      rw [hst] at h
      dsimp only at h
      split at h
      · exact exploreLoop_within hQ n { s with stack := rest, feats := popFeature s.feats z } s'
          ⟨hrest, hs.look, hs.used, hs.alts⟩ h
      · split at h
        · cases h
        · rename_i s1 h1
          exact exploreLoop_within hQ n s1 s'
            (exploreNbrs_within hz _ { s with stack := rest } s1 (hQ z) ⟨hrest, hs.look, hs.used, hs.alts⟩ h1) h

theorem exploreNbr_feats {N : FNet} {root z nbr : Node} {s s' : DSt}
    (h : exploreNbr N root z s nbr = .ok s') : ∀ k ∈ s'.feats, k ∈ s.feats := by
  unfold exploreNbr at h
  split at h
  · cases h; exact fun k hk => (List.mem_filter.1 hk).1
  · split at h
    · cases h; exact fun _ h => h
    · split at h
      · cases h; exact fun _ h => h
      · split at h
        · cases h; exact fun _ h => h
        · split at h
          · cases h
          · obtain ⟨c, _, h⟩ := bind_ok h
            obtain ⟨g, hg, h⟩ := bind_ok h
            cases h
            exact fun _ h => h

theorem exploreNbrs_feats {N : FNet} {root z : Node} : ∀ (l : List Node) (s s' : DSt),
    l.foldlM (exploreNbr N root z) s = .ok s' → ∀ k ∈ s'.feats, k ∈ s.feats
  | [], s, s', h => by
    rw [List.foldlM_nil] at h; cases h; exact fun _ h => h
  | n :: l, s, s', h => by
    rw [List.foldlM_cons] at h
    obtain ⟨s1, h1, h2⟩ := bind_ok h
    exact fun k hk => exploreNbr_feats h1 k (exploreNbrs_feats l s1 s' h2 k hk)

theorem exploreLoop_feats {N : FNet} {root : Node} : ∀ (n : Nat) (s s' : DSt),
    exploreLoop N root n s = .ok s' → ∀ k ∈ s'.feats, k ∈ s.feats
  | 0, s, s', h => by cases h
  | n + 1, s, s', h => by
    unfold exploreLoop at h
    split at h
    · cases h; exact fun _ h => h
    · split at h
      · exact fun k hk => (List.mem_filter.1 (exploreLoop_feats n _ s' h k hk)).1
      · split at h
        · cases h
        · rename_i s1 h1
          exact fun k hk => exploreNbrs_feats _ _ s1 h1 k (exploreLoop_feats n s1 s' h k hk)

theorem basinLoop_within {N : FNet} {Q : Node → Prop} (hQ : ∀ z, ∀ n ∈ N.nbrs z, N.edge n = false → Q n) :
    ∀ (n : Nat) (f f' : Flags) (feats : List Nat), (∀ k ∈ feats, Q (.saddle k)) → (∀ n, ∀ x ∈ f.alts n, Q x) →
    basinLoop N n f feats = .ok f' → ∀ n, ∀ x ∈ f'.alts n, Q x
  | 0, f, f', feats, _, _, h => by cases h
  | n + 1, f, f', feats, hfe, hf, h => by
    unfold basinLoop at h
    cases hg : feats.getLast? with
    | none => rw [hg] at h; cases h; exact hf
    | some r =>
      rw [hg] at h
      dsimp only at h
      have hr : Q (.saddle r) := hfe r (List.mem_of_getLast? hg)
      have hdl : ∀ k ∈ feats.dropLast, Q (.saddle k) := fun k hk => hfe k (List.dropLast_subset _ hk)
      split at h
      · exact basinLoop_within hQ n f f' _ hdl hf h
      · split at h
        · cases h
        · rename_i s h1
          have hw : (DSt.start (.saddle r) f feats.dropLast).Within Q := by
            refine ⟨?_, ?_, ?_, hf⟩
            · intro x hx
              rw [List.mem_singleton.1 hx]
              exact hr
            · intro x p hx
              simp only [DSt.start] at hx
              split at hx
              · cases hx; exact hr
              · cases hx
            · intro x ps hx
              simp only [DSt.start] at hx
              split at hx
              · cases hx; exact fun p hp => (nomatch hp)
              · cases hx
          have h2 := exploreLoop_within hQ _ _ s hw h1
          have h3 := exploreLoop_feats _ _ s h1
          have h4 : ∀ k ∈ s.feats.filter (fun k => !(decide (Node.saddle k ∈ s.keys) && !decide (Node.saddle k ∈ s.cyc))),
              Q (.saddle k) := fun k hk => hdl k (h3 k (List.mem_filter.1 hk).1)
          refine basinLoop_within hQ n _ f' _ ?_ h2.alts h
          intro k hk
          split at hk
          · exact h4 k hk
          · split at hk
            · exact h4 k hk
            · rcases List.mem_append.1 hk with hk | hk
              · exact h4 k hk
              · rw [List.mem_singleton.1 hk]; exact hr

/-- All alternatives noted by basin detection have the property `Q`, if the given saddles have it and every
neighbour in the network that is not on the edge has it. -/
theorem basins_alts {N : FNet} {Q : Node → Prop} (hQ : ∀ z, ∀ n ∈ N.nbrs z, N.edge n = false → Q n)
    {fuel : Nat} {saddles : List Nat} {f f' : Flags} (hs : ∀ k ∈ saddles, Q (.saddle k))
    (hf : ∀ n, f.alts n = []) (h : disqualifyBasinSaddles N fuel saddles f = .ok f') :
    ∀ n, ∀ x ∈ f'.alts n, Q x := by
  refine basinLoop_within hQ _ _ f' _ (fun k hk => hs k (((features_spec N saddles).2.1 k).1 hk)) ?_ h
  intro n x hx
  rw [(stubPass_spec N (basinFeatures N saddles) f).2.2.1, hf] at hx
  cases hx

/-! ### The flags set by hand -/

theorem label_over {N : FNet} {f f' : Flags} {low : List Node} (h : disqualifyAndLabel N f low = .ok f') :
    f'.over = f.over := by
  have e : ∀ k, (disqualifySelf N f k true false).over = f.over := fun k => by
    funext j; simp [disqualifySelf]
  unfold disqualifyAndLabel at h
  split at h
  · cases h
  · cases h
  · rename_i k _
    dsimp only at h
    split at h
    · split at h
      · cases h
      · cases h; exact e k
    · cases h; exact e k

theorem exploreNbr_over {N : FNet} {root z n : Node} {s s' : DSt} (h : exploreNbr N root z s n = .ok s') :
    s'.flags.over = s.flags.over := by
  unfold exploreNbr at h
  split at h
  · cases h; rfl
  · cases hu : s.used n with
    | none => rw [hu] at h; cases h; rfl
    | some pn =>
      rw [hu] at h
      dsimp only at h
      split at h
      · cases h; rfl
      · split at h
        · cases h; rfl
        · cases hl : s.look z with
          | none => rw [hl] at h; cases h
          | some p =>
            rw [hl] at h
            obtain ⟨c, _, h⟩ := bind_ok h
            obtain ⟨f', h2, h⟩ := bind_ok h
            cases h
            exact label_over h2

theorem exploreFold_over {N : FNet} {root z : Node} : ∀ (l : List Node) (s s' : DSt),
    l.foldlM (exploreNbr N root z) s = .ok s' → s'.flags.over = s.flags.over
  | [], s, s', h => by cases h; rfl
  | n :: l, s, s', h => by
    rw [List.foldlM_cons] at h
    obtain ⟨s1, h1, h2⟩ := bind_ok h
    exact (exploreFold_over l s1 s' h2).trans (exploreNbr_over h1)

theorem exploreLoop_over {N : FNet} {root : Node} : ∀ (n : Nat) (s s' : DSt),
    exploreLoop N root n s = .ok s' → s'.flags.over = s.flags.over := by
  intro n
  induction n with
  | zero => intro s s' h; cases h
  | succ n ih =>
    intro s s' h
    unfold exploreLoop at h
    split at h
    · cases h; rfl
    · split at h
      · have := ih _ s' h
        exact this
      · split at h
        · cases h
        · rename_i s1 h1
          have := exploreFold_over _ _ s1 h1
          exact (ih s1 s' h).trans this

theorem basinLoop_over {N : FNet} : ∀ (n : Nat) (f f' : Flags) (feats : List Nat),
    basinLoop N n f feats = .ok f' → f'.over = f.over := by
  intro n
  induction n with
  | zero => intro f f' feats h; cases h
  | succ n ih =>
    intro f f' feats h
    unfold basinLoop at h
    split at h
    · cases h; rfl
    · split at h
      · exact ih _ f' _ h
      · split at h
        · cases h
        · rename_i s h1
          exact (ih s.flags f' _ h).trans (exploreLoop_over _ _ s h1)

/-- Basin detection never sets the flag that overrides the others. -/
theorem basins_over {N : FNet} {fuel : Nat} {saddles : List Nat} {f f' : Flags}
    (h : disqualifyBasinSaddles N fuel saddles f = .ok f') : f'.over = f.over :=
  (basinLoop_over _ _ f' _ h).trans (stubPass_spec N (basinFeatures N saddles) f).1

end PyProm
