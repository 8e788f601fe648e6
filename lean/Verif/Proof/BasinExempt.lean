import Verif.Proof.BasinAlts

/-
Basin detection on saddles that are all exempted by hand from disqualification: an exploration that finds no cycle is the same as
without the exemption, one that finds a cycle changes nothing and is repeated for ever.
-/
namespace PyProm
open Spec

theorem climbBack_length {look : Node → Option Node} {root : Node} {pn : List Node} : ∀ (n : Nat) (cycle c : List Node) (p : Node),
    climbBack look root pn n cycle p = .ok c → cycle.length < c.length
  | 0, _, _, _, h => by cases h
  | n + 1, cycle, c, p, h => by
    unfold climbBack at h
    split at h
    · cases h; simp
    · split at h
      · cases h
      · split at h
        · cases h; simp
        · have := climbBack_length n _ c _ h
          simp only [List.length_append, List.length_singleton] at this
          omega

/-- A neighbour at which no cycle is found: the step does not change the flags and refers to them only for what is dead. -/
theorem exploreNbr_free {N : FNet} {root z nbr : Node} {s t : DSt} (h : exploreNbr N root z s nbr = .ok t) (ht : t.cyc = []) :
    s.cyc = [] ∧ t.flags = s.flags ∧ ∀ g F, (∀ n, N.dead g n = N.dead s.flags n) →
      ∃ F', exploreNbr N root z { s with flags := g, feats := F } nbr = .ok { t with flags := g, feats := F' } ∧
        (F = s.feats → F' = t.feats) := by
  unfold exploreNbr at h
  split at h
  · rename_i hd
    cases h
    refine ⟨ht, rfl, fun g F hg => ⟨popFeature F nbr, ?_, fun e => by rw [e]⟩⟩
    unfold exploreNbr
    rw [if_pos (by rw [hg]; exact hd)]
  · rename_i hd
    split at h
    · rename_i hu
      cases h
      refine ⟨ht, rfl, fun g F hg => ⟨F, ?_, fun e => e⟩⟩
      unfold exploreNbr
      rw [if_neg (by rw [hg]; exact hd)]
      simp only [hu]
    · rename_i pn hu
      split at h
      · rename_i he
        cases h
        refine ⟨ht, rfl, fun g F hg => ⟨F, ?_, fun e => e⟩⟩
        unfold exploreNbr
        rw [if_neg (by rw [hg]; exact hd)]
        simp only [hu, he, if_true]
      · rename_i he
        split at h
        · rename_i hm
          cases h
          refine ⟨ht, rfl, fun g F hg => ⟨F, ?_, fun e => e⟩⟩
          unfold exploreNbr
          rw [if_neg (by rw [hg]; exact hd)]
          simp only [hu]
          rw [if_neg he, if_pos hm]
        · split at h
          · cases h
          · obtain ⟨c, hc, h⟩ := bind_ok h
            obtain ⟨fl, _, h⟩ := bind_ok h
            cases h
            have h1 := climbBack_length _ _ _ _ hc
            have h2 : c.dropLast.length = 0 := by rw [show c.dropLast = [] from ht]; rfl
            rw [List.length_dropLast] at h2
            simp only [List.length_cons, List.length_nil] at h1
            omega

theorem exploreNbrs_free {N : FNet} {root z : Node} : ∀ (l : List Node) (s t : DSt),
    l.foldlM (exploreNbr N root z) s = .ok t → t.cyc = [] →
    s.cyc = [] ∧ t.flags = s.flags ∧ ∀ g F, (∀ n, N.dead g n = N.dead s.flags n) →
      ∃ F', l.foldlM (exploreNbr N root z) { s with flags := g, feats := F } = .ok { t with flags := g, feats := F' } ∧
        (F = s.feats → F' = t.feats)
  | [], s, t, h, ht => by
    rw [List.foldlM_nil] at h; cases h
    exact ⟨ht, rfl, fun g F _ => ⟨F, by rw [List.foldlM_nil]; rfl, fun e => e⟩⟩
  | n :: l, s, t, h, ht => by
    rw [List.foldlM_cons] at h
    obtain ⟨s1, h1, h2⟩ := bind_ok h
    obtain ⟨a1, a2, a3⟩ := exploreNbrs_free l s1 t h2 ht
    obtain ⟨b1, b2, b3⟩ := exploreNbr_free h1 a1
    refine ⟨b1, a2.trans b2, fun g F hg => ?_⟩
    obtain ⟨F1, e1, k1⟩ := b3 g F hg
    obtain ⟨F2, e2, k2⟩ := a3 g F1 (by rw [b2]; exact hg)
    refine ⟨F2, ?_, fun e => k2 (k1 e)⟩
    rw [List.foldlM_cons, e1]
    exact e2

/-- An exploration that finds no cycle does not change the flags and is the same with any flags under which the same features
are dead. -/
theorem exploreLoop_free {N : FNet} {root : Node} : ∀ (n : Nat) (s t : DSt), exploreLoop N root n s = .ok t → t.cyc = [] →
    s.cyc = [] ∧ t.flags = s.flags ∧ ∀ g F, (∀ n, N.dead g n = N.dead s.flags n) →
      ∃ F', exploreLoop N root n { s with flags := g, feats := F } = .ok { t with flags := g, feats := F' } ∧
        (F = s.feats → F' = t.feats)
  | 0, s, t, h, _ => by cases h
  | n + 1, s, t, h, ht => by
    unfold exploreLoop at h
    split at h
    · rename_i hs
      cases h
      refine ⟨ht, rfl, fun g F _ => ⟨F, ?_, fun e => e⟩⟩
      unfold exploreLoop
      simp only [hs]
    · rename_i z rest hs
      split at h
      · rename_i hd
        obtain ⟨a1, a2, a3⟩ := exploreLoop_free n _ t h ht
        refine ⟨a1, a2, fun g F hg => ?_⟩
        obtain ⟨F1, e1, k1⟩ := a3 g (popFeature F z) hg
        refine ⟨F1, ?_, fun e => k1 (by rw [e])⟩
        unfold exploreLoop
        simp only [hs]
        rw [if_pos (by rw [hg]; exact hd)]
        exact e1
      · rename_i hd
        split at h
        · cases h
        · rename_i s1 h1
          obtain ⟨a1, a2, a3⟩ := exploreLoop_free n s1 t h ht
          obtain ⟨b1, b2, b3⟩ := exploreNbrs_free _ _ s1 h1 a1
          refine ⟨b1, a2.trans b2, fun g F hg => ?_⟩
          obtain ⟨F1, e1, k1⟩ := b3 g F hg
          obtain ⟨F2, e2, k2⟩ := a3 g F1 (by rw [b2]; exact hg)
          refine ⟨F2, ?_, fun e => k2 (k1 e)⟩
          unfold exploreLoop
          simp only [hs]
          rw [if_neg (by rw [hg]; exact hd)]
          simp only [e1]
          exact e2

/-- All saddles off the edge are exempted by hand. -/
def AllExempt (N : FNet) (f : Flags) : Prop := ∀ k, N.edge (.saddle k) = false → f.over k = some false

/-- With all saddles exempted no flag counts. -/
theorem AllExempt.dead {N : FNet} {f g : Flags} (h : AllExempt N f)
    (hg : ∀ k, N.edge (.saddle k) = false → N.dead g (.saddle k) = false) (n : Node) : N.dead f n = N.dead g n := by
  cases n with
  | summit D => simp [FNet.dead, FNet.disq]
  | saddle k =>
    cases he : N.edge (.saddle k) with
    | true => simp [FNet.dead, he]
    | false => rw [hg k he]; simp [FNet.dead, he, FNet.disq, Flags.saddleDisq, h k he]

theorem AllExempt.saddle {N : FNet} {f : Flags} (h : AllExempt N f) (k : Nat) : N.dead f (.saddle k) = N.edge (.saddle k) := by
  cases he : N.edge (.saddle k) with
  | true => simp [FNet.dead, he]
  | false => simp [FNet.dead, he, FNet.disq, Flags.saddleDisq, h k he]

theorem AllExempt.marked {N : FNet} {f g : Flags} (h : AllExempt N f) (hm : Marked N f g) : AllExempt N g := by
  unfold AllExempt; rw [hm.over]; exact h

/-- A root from which a cycle is found is explored for ever. -/
theorem basinLoop_stuck {N : FNet} {r : Nat} (hr : N.edge (.saddle r) = false)
    (hbad : ∀ f F s, AllExempt N f → exploreLoop N (.saddle r) (N.nSummits + N.nSaddles + 2) (.start (.saddle r) f F) = .ok s →
      s.cyc ≠ []) : ∀ (n : Nat) (f f' : Flags) (fs : List Nat), AllExempt N f → r ∉ fs → basinLoop N n f (fs ++ [r]) ≠ .ok f'
  | 0, _, _, _, _, _ => by intro h; cases h
  | n + 1, f, f', fs, hf, hrf => by
    intro h
    unfold basinLoop at h
    have hgl : (fs ++ [r]).getLast? = some r := by simp
    rw [hgl] at h
    dsimp only at h
    rw [List.dropLast_concat, if_neg (by rw [hf.saddle, hr]; simp)] at h
    split at h
    · cases h
    · rename_i s hs
      have hc := hbad f fs s hf hs
      have hsub := exploreLoop_feats _ _ _ hs
      rw [if_neg hc, if_neg (fun hm => hrf (hsub r (List.mem_filter.1 hm).1))] at h
      exact basinLoop_stuck hr hbad n s.flags f' _ (hf.marked (exploreLoop_marked _ _ _ hs))
        (fun hm => hrf (hsub r (List.mem_filter.1 hm).1)) h

/-- While some live cycle is left in the features, and nothing outside them is on one, detection does not return. -/
theorem basinLoop_exempt {N : FNet} {saddles : List Nat} {g : Flags} (hN : NetOk N saddles g)
    (hg : ∀ k, N.edge (.saddle k) = false → N.dead g (.saddle k) = false)
    (hstub : ∀ k D, N.edge (.saddle k) = false → Linked N k D → ∃ B, B ≠ D ∧ Linked N k B)
    {c : List Node} (hc : Cycle N (Alive N g) c) {k : Nat} (hk : Node.saddle k ∈ c) :
    ∀ (n : Nat) (f f' : Flags) (feats : List Nat), AllExempt N f → feats.Nodup → (∀ k ∈ feats, k < N.nSaddles) →
    (feats.Pairwise fun a b => N.elev (.saddle a) ≤ N.elev (.saddle b)) →
    (∀ j, Alive N g (.saddle j) → j ∉ feats → NoCyc N g (.saddle j)) → basinLoop N n f feats ≠ .ok f'
  | 0, _, _, _, _, _, _, _, _ => by intro h; cases h
  | n + 1, f, f', feats, hf, hnd, hb, hsort, hset => by
    have hal : ∀ j, Alive N g (.saddle j) ↔ N.edge (.saddle j) = false := fun j => by
      rw [← alive_iff]
      refine ⟨fun h => ?_, hg j⟩
      simp only [FNet.dead, Bool.or_eq_false_iff] at h
      first | exact h.1 | exact h.2
    intro h
    unfold basinLoop at h
    rcases List.eq_nil_or_concat feats with rfl | ⟨fs, r, hcat⟩
    · exact hset k (hc.mem _ hk) (by simp) c hc hk
    · have hfe : feats = fs ++ [r] := by simpa using hcat
      subst hfe
      have hgl : (fs ++ [r]).getLast? = some r := by simp
      rw [hgl] at h
      dsimp only at h
      rw [List.dropLast_concat] at h
      have hndf : fs.Nodup := (List.nodup_append.1 hnd).1
      have hrf : r ∉ fs := fun hm => (List.nodup_append.1 hnd).2.2 r hm r (by simp) rfl
      have hler : ∀ j ∈ fs, N.elev (.saddle j) ≤ N.elev (.saddle r) := fun j hj =>
        (List.pairwise_append.1 hsort).2.2 j hj r (by simp)
      rw [hf.saddle] at h
      by_cases hdead : N.edge (.saddle r) = true
      · rw [if_pos hdead] at h
        refine basinLoop_exempt hN hg hstub hc hk n f f' fs hf hndf (fun k hk => hb k (by simp [hk]))
          (List.pairwise_append.1 hsort).1 ?_ h
        intro j hj hm
        refine hset j hj fun hm' => ?_
        rcases List.mem_append.1 hm' with h1 | h1
        · exact hm h1
        · rw [List.mem_singleton.1 h1, hal, hdead] at hj; cases hj
      · rw [if_neg hdead] at h
        have hre : N.edge (.saddle r) = false := by simpa using hdead
        split at h
        · cases h
        · rename_i s hs
          have hfl : ∀ f2, AllExempt N f2 → ∀ n, N.dead f n = N.dead f2 n := fun f2 h2 n =>
            hf.dead (fun j hj => by rw [h2.saddle, hj]) n
          have hsub := exploreLoop_feats _ _ _ hs
          by_cases hcy : s.cyc = []
          · rw [if_pos hcy] at h
            obtain ⟨-, e2, e3⟩ := exploreLoop_free _ _ _ hs hcy
            obtain ⟨F', e4, e5⟩ := e3 g fs (fun n => (hf.dead hg n).symm)
            have e6 := e5 rfl
            subst e6
            have hroot : ∀ c, Cycle N (Alive N g) c → Node.saddle r ∈ c → ∀ j, Node.saddle j ∈ c →
                N.elev (.saddle j) ≤ N.elev (.saddle r) := by
              intro c hc _ j hj
              by_cases hjf : j ∈ fs ++ [r]
              · rcases List.mem_append.1 hjf with h1 | h1
                · exact hler j h1
                · rw [List.mem_singleton.1 h1]
              · exact absurd hj (hset j (hc.mem _ hj) hjf c hc)
            have hfuel : (DSt.start (.saddle r) g fs).stack.length + (N.nSummits + N.nSaddles) <
                N.nSummits + N.nSaddles + 2 + (DSt.start (.saddle r) g fs).keys.length := by
              simp only [DSt.start, List.length_singleton]; omega
            have hral : Alive N g (.saddle r) := (hal _).2 hre
            obtain ⟨s2, exp, e7, hs2, hst⟩ := exploreLoop_spec hN hN.over
              (fun k D hk => hstub k D ((hal _).1 hk)) hroot _ _ _
              (start_search (F0 := fs) hral (hb r (by simp))) hfuel
            cases (e4.symm.trans e7 : Except.ok _ = Except.ok _)
            have hmem : ∀ k, Node.saddle k ∈ s.keys → Alive N g (.saddle k) → Node.saddle k ∈ exp := by
              intro k hk ha
              rcases hs2.part _ hk with h1 | h1 | h1
              · rw [hst] at h1; simp at h1
              · exact h1
              · exact absurd ha h1
            have hsl : s.feats.Sublist fs := hs2.feats.1
            refine basinLoop_exempt hN hg hstub hc hk n s.flags f' _ (by rw [e2]; exact hf)
              ((List.filter_sublist.trans hsl).nodup hndf) (fun k hk =>
                hb k (List.mem_append_left _ (hsl.subset (List.mem_filter.1 hk).1)))
              ((List.pairwise_append.1 hsort).1.sublist (List.filter_sublist.trans hsl)) ?_ h
            intro j hj hm
            have hkeys : Node.saddle j ∈ s.keys → NoCyc N g (.saddle j) := fun hk =>
              search_acyclic hs2 hst hcy (hmem j hk hj)
            by_cases hjr : j = r
            · exact hkeys (by rw [hjr]; exact hs2.rootKey)
            · by_cases hjf : j ∈ fs
              · have h1 : j ∈ s.feats := by
                  by_contra hm'
                  exact hs2.feats.2 j hjf hm' hj
                refine hkeys ?_
                by_contra hk
                exact hm (List.mem_filter.2 ⟨h1, by simp [hk]⟩)
              · exact hset j hj (by simp [hjf, hjr])
          · rw [if_neg hcy, if_neg (fun hm => hrf (hsub r (List.mem_filter.1 hm).1))] at h
            refine basinLoop_stuck hre ?_ n s.flags f' _ (hf.marked (exploreLoop_marked _ _ _ hs))
              (fun hm => hrf (hsub r (List.mem_filter.1 hm).1)) h
            intro f2 F s2 h2 hs2 hcy2
            obtain ⟨-, -, e3⟩ := exploreLoop_free _ _ _ hs2 hcy2
            obtain ⟨F', e4, -⟩ := e3 f fs (hfl f2 h2)
            have e5 : exploreLoop N (.saddle r) (N.nSummits + N.nSaddles + 2) (.start (.saddle r) f fs) = _ := e4
            cases (hs.symm.trans e5 : Except.ok _ = Except.ok _)
            exact hcy hcy2

end PyProm
