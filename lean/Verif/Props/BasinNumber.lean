import Verif.Proof.Kruskal

/-
C86: the order of saddles and linkers does not change how many saddles of each height are basin saddles.
-/
namespace PyProm
open Spec

theorem Spec.Reordered.ends {N N' : FNet} (h : Reordered N N') (f : Flags) (k : Nat) : LiveEnds N' f k ↔ LiveEnds N f k := by
  unfold LiveEnds
  simp only [h.linked, h.alive]

theorem Spec.Reordered.joins {N N' : FNet} (h : Reordered N N') (f : Flags) (P : Rat → Prop) (k : Nat) :
    JoinsAt N' f P k ↔ JoinsAt N f P k := by
  unfold JoinsAt
  rw [h.alive, h.ends, h.elev]

theorem Spec.Reordered.conn {N N' : FNet} (h : Reordered N N') {Q P P' : Nat → Prop} (hP : ∀ k, P k → P' k) {a b : Nat}
    (hc : ConnectedBy N Q P a b) : ConnectedBy N' Q P' a b := by
  induction hc with
  | refl => exact .refl
  | tail _ h2 ih =>
    obtain ⟨q1, q2, k, hk, l1, l2⟩ := h2
    exact ih.tail ⟨q1, q2, k, hP k hk, (h.linked _ _).2 l1, (h.linked _ _).2 l2⟩

/-- In either order the same number of saddles between live summits is left above a level. -/
theorem between_order {N N' : FNet} {saddles saddles' : List Nat} {f f1 f2 : Flags} (hN : NetOk N saddles f)
    (hN' : NetOk N' saddles' f) (h : Reordered N N') (hs : saddles'.Perm saddles) (hnd : saddles.Nodup) {fuel : Nat}
    (a1 : disqualifyBasinSaddles N fuel saddles f = .ok f1) (a2 : BasinResult N saddles f f1)
    (b1 : disqualifyBasinSaddles N' fuel saddles' f = .ok f2) (b2 : BasinResult N' saddles' f f2)
    {P : Rat → Prop} (hP : ∀ a b, a ≤ b → P a → P b) :
    (betweens N f1 P saddles).length = (betweens N' f2 P saddles').length := by
  let n := max N.nSummits N'.nSummits
  obtain ⟨reps, hr⟩ := exists_reps N (betweens N f1 P saddles) n
  have hmem : ∀ k, k ∈ betweens N f P saddles ↔ k ∈ betweens N' f P saddles' := fun k => by
    rw [mem_betweens, mem_betweens, h.joins, hs.mem_iff]
  have hiff : ∀ a b, ConnectedBy N' (fun _ => True) (· ∈ betweens N' f2 P saddles') a b ↔
      ConnectedBy N (fun _ => True) (· ∈ betweens N f1 P saddles) a b := by
    intro a b
    rw [between_conn hN a2 hP, between_conn hN' b2 hP]
    exact ⟨h.symm.conn fun k => (hmem k).2, h.conn fun k => (hmem k).1⟩
  have hr' : PartReps N' n (betweens N' f2 P saddles') reps := by
    refine ⟨hr.bound, hr.apart.imp fun h hc => h ((hiff _ _).1 hc), fun a ha => ?_⟩
    obtain ⟨r, hr, hc⟩ := hr.all a ha
    exact ⟨r, hr, (hiff _ _).2 hc⟩
  have e1 := between_count hN hnd a1 a2 (le_max_left _ _) hr
  have e2 := between_count hN' (hs.nodup_iff.2 hnd) b1 b2 (le_max_right _ _) hr'
  omega

open Classical in
/-- In either order the same number of saddles above a level is marked. -/
theorem marks_order {N N' : FNet} {saddles saddles' : List Nat} {f f1 f2 : Flags} (hN : NetOk N saddles f)
    (hN' : NetOk N' saddles' f) (h : Reordered N N') (hs : saddles'.Perm saddles) (hnd : saddles.Nodup) {fuel : Nat}
    (hfuel : saddles.length + N.nSaddles < fuel) (hfuel' : saddles'.length + N'.nSaddles < fuel)
    (a1 : disqualifyBasinSaddles N fuel saddles f = .ok f1) (a2 : BasinResult N saddles f f1)
    (b1 : disqualifyBasinSaddles N' fuel saddles' f = .ok f2) (b2 : BasinResult N' saddles' f f2)
    {P : Rat → Prop} (hP : ∀ a b, a ≤ b → P a → P b) :
    saddles.countP (fun k => f1.basin k && decide (P (N.elev (.saddle k)))) =
      saddles.countP (fun k => f2.basin k && decide (P (N.elev (.saddle k)))) := by
  have e1 := between_sum hN hfuel a1 a2 P
  have e2 := between_sum hN' hfuel' b1 b2 P
  have e3 := between_order hN hN' h hs hnd a1 a2 b1 b2 hP
  have e4 : (betweens N f P saddles).length = (betweens N' f P saddles').length := by
    unfold betweens
    rw [← List.countP_eq_length_filter, ← List.countP_eq_length_filter, hs.countP_eq]
    simp only [h.joins]
  rw [hs.countP_eq, hs.countP_eq, h.elev] at e2
  omega

/-- Marked saddles of one height are those not below without those above. -/
theorem countP_level (l : List Nat) (b : Nat → Bool) (e : Nat → Rat) (t : Rat) :
    l.countP (fun k => b k && decide (e k = t)) + l.countP (fun k => b k && decide (t < e k)) =
      l.countP (fun k => b k && decide (t ≤ e k)) + l.countP (fun _ => false) := by
  refine countP_pair fun k _ => ?_
  rcases lt_trichotomy (e k) t with h | h | h
  · simp [h.ne, not_lt.2 h.le, not_le.2 h]
  · simp [h]
  · simp [h.ne', h, h.le]

/-- Live saddles after detection, by what was live before except for single-source saddles. -/
theorem alive_sum {N : FNet} {saddles : List Nat} {f f' : Flags} (hN : NetOk N saddles f) {fuel : Nat}
    (hfuel : saddles.length + N.nSaddles < fuel) (h1 : disqualifyBasinSaddles N fuel saddles f = .ok f')
    (h2 : BasinResult N saddles f f') (k : Nat) :
    (Alive N f' (.saddle k) → f'.basin k = false) ∧ (Alive N f' (.saddle k) ↔
      (Alive N f (.saddle k) ∧ (k ∈ saddles → ¬ ∀ u v, Linked N k u → Linked N k v → u = v)) ∧
        (f'.basin k = true → f.basin k = true)) := by
  obtain ⟨g1, g2⟩ := between_marks hN hfuel h1 h2 k
  obtain ⟨s1, s2, _, s4, _⟩ := stubPass_spec N (basinFeatures N saddles) f
  have hm := basins_marked h1
  have hst : Alive N (stubPass N (basinFeatures N saddles) f) (.saddle k) ↔
      Alive N f (.saddle k) ∧ (k ∈ saddles → ¬ ∀ u v, Linked N k u → Linked N k v → u = v) := by
    rw [alive_stub hN.over]
    refine and_congr_right fun ha => ?_
    rw [← oneSource_iff hN k ha.2]
    exact ⟨fun h => h k rfl, fun h j he => by cases he; exact h⟩
  have hb : Alive N f' (.saddle k) → f'.basin k = false := by
    intro ha
    cases hb : f.basin k with
    | true => exact absurd ha (g1 hb).2.2
    | false =>
      rw [Bool.eq_false_iff]
      exact fun h => ((g2 hb).1 h).2.2 ha
  refine ⟨hb, fun ha => ⟨hst.1 (h2.stub.mono _ ha), fun h => ?_⟩, fun ⟨ha, h⟩ => ?_⟩
  · rw [hb ha] at h; cases h
  · by_contra hn
    have hs := hst.2 ha
    have ho : SaddleOut f' k := by
      by_contra h
      exact hn ⟨h, ha.1.2⟩
    rcases (marked_out h1 k).1 ho with h' | ⟨h', h'' | h''⟩
    · exact ha.1.1 h'
    · exact hs.1 (.inr ⟨by rw [s1]; exact h', .inl (by rw [← hm.single]; exact h'')⟩)
    · exact (g1 (h h'')).2.1 ha.1

/-- C86, number (where it holds): whatever the heights, in whatever order saddles and linkers are listed, the same number of saddles of
each height are basin saddles, and the same number of each height are left that are neither disqualified nor on the edge. So ties
decide only which of the equally high saddles are marked. Missing: networks outside `NetOk`. -/
theorem C86_number_partial (N N' : FNet) (saddles saddles' : List Nat) (f : Flags) (hN : NetOk N saddles f)
    (hN' : NetOk N' saddles' f) (h : Reordered N N') (hs : saddles'.Perm saddles) (hnd : saddles.Nodup) (fuel : Nat)
    (hfuel : saddles.length + N.nSaddles < fuel) (hfuel' : saddles'.length + N'.nSaddles < fuel) :
    ∃ f1 f2, disqualifyBasinSaddles N fuel saddles f = .ok f1 ∧
      disqualifyBasinSaddles N' fuel saddles' f = .ok f2 ∧
      ∀ t : Rat,
        saddles.countP (fun k => f1.basin k && decide (N.elev (.saddle k) = t)) =
          saddles.countP (fun k => f2.basin k && decide (N.elev (.saddle k) = t)) ∧
        saddles.countP (fun k => !f1.saddleDisq k && !N.edge (.saddle k) && decide (N.elev (.saddle k) = t)) =
          saddles.countP (fun k => !f2.saddleDisq k && !N.edge (.saddle k) && decide (N.elev (.saddle k) = t)) := by
  classical
  obtain ⟨f1, a1, a2⟩ := basin_spec hN hfuel
  obtain ⟨f2, b1, b2⟩ := basin_spec hN' hfuel'
  refine ⟨f1, f2, a1, b1, fun t => ?_⟩
  have hb : saddles.countP (fun k => f1.basin k && decide (N.elev (.saddle k) = t)) =
      saddles.countP (fun k => f2.basin k && decide (N.elev (.saddle k) = t)) := by
    have e1 := marks_order hN hN' h hs hnd hfuel hfuel' a1 a2 b1 b2 (P := fun x => t ≤ x) fun a b hab ha => le_trans ha hab
    have e2 := marks_order hN hN' h hs hnd hfuel hfuel' a1 a2 b1 b2 (P := fun x => t < x) fun a b hab ha => lt_of_lt_of_le ha hab
    have e3 := countP_level saddles f1.basin (fun k => N.elev (.saddle k)) t
    have e4 := countP_level saddles f2.basin (fun k => N.elev (.saddle k)) t
    have e1' : saddles.countP (fun k => f1.basin k && decide (t ≤ N.elev (.saddle k))) =
        saddles.countP (fun k => f2.basin k && decide (t ≤ N.elev (.saddle k))) := by convert e1
    have e2' : saddles.countP (fun k => f1.basin k && decide (t < N.elev (.saddle k))) =
        saddles.countP (fun k => f2.basin k && decide (t < N.elev (.saddle k))) := by convert e2
    omega
  refine ⟨hb, ?_⟩
  -- live before except for single-source saddles
  let A : Nat → Prop := fun k => Alive N f (.saddle k) ∧ (k ∈ saddles → ¬ ∀ u v, Linked N k u → Linked N k v → u = v)
  have key : ∀ g : Flags, (∀ k, (Alive N g (.saddle k) → g.basin k = false) ∧
        (Alive N g (.saddle k) ↔ A k ∧ (g.basin k = true → f.basin k = true))) →
      (∀ k, f.basin k = true → g.basin k = true ∧ ¬ Alive N f (.saddle k)) →
      (∀ k, f.basin k = false → g.basin k = true → A k) →
      saddles.countP (fun k => !g.saddleDisq k && !N.edge (.saddle k) && decide (N.elev (.saddle k) = t)) +
        saddles.countP (fun k => g.basin k && decide (N.elev (.saddle k) = t)) =
      saddles.countP (fun k => decide (A k) && decide (N.elev (.saddle k) = t)) +
        saddles.countP (fun k => f.basin k && decide (N.elev (.saddle k) = t)) := by
    intro g h1 h2 h3
    refine countP_pair fun k _ => ?_
    have hal : (!g.saddleDisq k && !N.edge (.saddle k)) = true ↔ Alive N g (.saddle k) := by
      show _ ↔ ¬ SaddleOut g k ∧ _
      rw [← saddleDisq_iff]
      simp
    obtain ⟨i1, i2⟩ := h1 k
    by_cases ht : N.elev (.saddle k) = t
    · cases hf : f.basin k with
      | true =>
        obtain ⟨j1, j2⟩ := h2 k hf
        have hA : ¬ A k := fun h => j2 h.1
        have : (!g.saddleDisq k && !N.edge (.saddle k)) = false := by
          rw [Bool.eq_false_iff]
          exact fun h => hA ((i2.1 (hal.1 h)).1)
        simp [ht, j1, hA, this]
      | false =>
        cases hg : g.basin k with
        | true =>
          have hA := h3 k hf hg
          have : (!g.saddleDisq k && !N.edge (.saddle k)) = false := by
            rw [Bool.eq_false_iff]
            exact fun h => by rw [i1 (hal.1 h)] at hg; cases hg
          simp [ht, hA, this]
        | false =>
          by_cases hA : A k
          · have : (!g.saddleDisq k && !N.edge (.saddle k)) = true := hal.2 (i2.2 ⟨hA, fun h => by rw [hg] at h; cases h⟩)
            simp [ht, hA, this]
          · have : (!g.saddleDisq k && !N.edge (.saddle k)) = false := by
              rw [Bool.eq_false_iff]
              exact fun h => hA ((i2.1 (hal.1 h)).1)
            simp [ht, hA, this]
    · simp [ht]
  have hends : ∀ k, LiveEnds N f k → ¬ ∀ u v, Linked N k u → Linked N k v → u = v := by
    rintro k ⟨u, v, hne, hu, hv, _⟩ hh
    exact hne (hh u v hu hv)
  have k1 := key f1 (alive_sum hN hfuel a1 a2) (fun k hk => by
      have := (between_marks hN hfuel a1 a2 k).1 hk
      exact ⟨this.1, this.2.1⟩) (fun k hk hg => by
      have := ((between_marks hN hfuel a1 a2 k).2 hk).1 hg
      exact ⟨this.1, fun _ => hends k this.2.1⟩)
  have k2 := key f2 (fun k => by
      have := alive_sum hN' hfuel' b1 b2 k
      rw [h.alive, h.alive, hs.mem_iff] at this
      simpa only [h.linked] using this) (fun k hk => by
      have := (between_marks hN' hfuel' b1 b2 k).1 hk
      rw [h.alive] at this
      exact ⟨this.1, this.2.1⟩) (fun k hk hg => by
      have := ((between_marks hN' hfuel' b1 b2 k).2 hk).1 hg
      rw [h.alive, h.ends] at this
      exact ⟨this.1, fun _ => hends k this.2.1⟩)
  omega

/-- Instance of C86: three summits, each two of them joined by a saddle of height 10, the first two by a lower one as well. In either order
one of the three and the lower one are marked, but not the same one of the three. -/
example : let N := netOf [30, 40, 50] [10, 10, 10, 4] [(0, 0), (1, 0), (1, 1), (2, 1), (2, 2), (0, 2), (0, 3), (1, 3)]
    NetOk N [0, 1, 2, 3] newFlags ∧ NetOk N [2, 3, 1, 0] newFlags ∧ Reordered N N ∧
    ([2, 3, 1, 0] : List Nat).Perm [0, 1, 2, 3] ∧
    (disqualifyBasinSaddles N 9 [0, 1, 2, 3] newFlags).toOption.map (fun f => [0, 1, 2, 3].map f.basin) =
      some [false, true, false, true] ∧
    (disqualifyBasinSaddles N 9 [2, 3, 1, 0] newFlags).toOption.map (fun f => [0, 1, 2, 3].map f.basin) =
      some [false, false, true, true] := by
  intro N
  have h : NetOk N [0, 1, 2, 3] newFlags := netOf_ok (by decide +kernel) (by decide +kernel) (by simp)
  have hp : ([2, 3, 1, 0] : List Nat).Perm [0, 1, 2, 3] := by decide +kernel
  exact ⟨h, h.perm fun k => hp.mem_iff, ⟨rfl, rfl, rfl, rfl, fun _ _ => Iff.rfl⟩, hp, by decide +kernel, by decide +kernel⟩

end PyProm
