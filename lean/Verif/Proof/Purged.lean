import Verif.Proof.RunSerial
import Verif.Proof.BasinAlts
import Verif.Proof.Graph
import Verif.Model.History

/-
What is left of a map after any sequence of basin detections and purges refers only to what is left.
-/
namespace PyProm
open Spec

/-! ### What basin detection marks and notes -/

/-- Not disqualified and not on the edge for some flags with these two attributes and at least the basin
saddles of `B`. -/
def AliveWith (N : FNet) (B : Nat → Prop) (O : Nat → Option Bool) (S : Nat → Bool) (n : Node) : Prop :=
  ∃ g : Flags, g.over = O ∧ g.single = S ∧ (∀ k, B k → g.basin k = true) ∧ N.dead g n = false

/-- Flags during basin detection: marked are those in `B` and features with property `Q`, and (if `W`) so are all
saddles with alternatives and the alternatives themselves. -/
structure FlagsIn (W : Prop) (Q : Node → Prop) (B : Nat → Prop) (O : Nat → Option Bool) (S : Nat → Bool) (f : Flags) : Prop where
  over : f.over = O
  single : f.single = S
  basin : ∀ k, f.basin k = true → B k ∨ Q (.saddle k)
  keep : ∀ k, B k → f.basin k = true
  alts : W → ∀ n, ∀ x ∈ f.alts n, f.alts x ≠ []
  own : W → ∀ n, f.alts n ≠ [] → Q n ∧ ∃ k, n = .saddle k

theorem removeFirst_ne_nil (p : Node → Bool) {l : List Node} (h : 1 < l.length) : removeFirst p l ≠ [] := by
  match l, h with
  | a :: b :: l, _ =>
    unfold removeFirst
    split <;> simp

theorem label_flagsIn {N : FNet} {W : Prop} {Q : Node → Prop} {B : Nat → Prop} {O : Nat → Option Bool} {S : Nat → Bool}
    {f f' : Flags} {low : List Node} (hl : ∀ x ∈ low, Q x) (hf : FlagsIn W Q B O S f)
    (h : disqualifyAndLabel N f low = .ok f') : FlagsIn W Q B O S f' := by
  unfold disqualifyAndLabel at h
  split at h
  · cases h
  · cases h
  · rename_i k rest
    have hk := hl (.saddle k) (by simp)
    have hbase : FlagsIn W Q B O S (disqualifySelf N f k true false) := by
      refine ⟨?_, ?_, fun j hj => ?_, fun j hj => ?_, hf.alts, hf.own⟩
      · rw [← hf.over]; funext j; simp [disqualifySelf]
      · rw [← hf.single]; funext j; simp [disqualifySelf]
      · simp only [disqualifySelf, Bool.true_and, decide_eq_true_eq] at hj
        split at hj
        · rename_i e; rw [e]; exact .inr hk
        · exact hf.basin j hj
      · simp only [disqualifySelf, Bool.true_and]
        split
        · rfl
        · exact hf.keep j hj
    dsimp only at h
    split at h
    · rename_i hlen
      split at h
      · cases h
      · rename_i hall
        have hall : ∀ x ∈ Node.saddle k :: rest, x.isSaddle = true := by simpa using hall
        cases h
        have hfold : ∀ (l : List Node) (a : Node → List Node) (n : Node),
            (l.foldl (fun (a : Node → List Node) n m =>
              if m = n then removeFirst (fun x => decide (x = n) || N.eq x n) (.saddle k :: rest) else a m) a) n =
            if n ∈ l then removeFirst (fun x => decide (x = n) || N.eq x n) (.saddle k :: rest) else a n := by
          intro l
          induction l with
          | nil => intro a n; simp
          | cons y l ih =>
            intro a n
            rw [List.foldl_cons, ih]
            by_cases e1 : n ∈ l
            · simp [e1]
            · by_cases e2 : n = y
              · simp [e2]
              · simp [e2]
        refine ⟨hbase.over, hbase.single, hbase.basin, hbase.keep, fun w n x hx => ?_, fun w n hn => ?_⟩
        · dsimp only at hx ⊢
          rw [hfold] at hx ⊢
          split
          · exact removeFirst_ne_nil _ hlen
          · rename_i hxl
            split at hx
            · exact absurd (removeFirst_subset _ _ x hx) hxl
            · exact hbase.alts w n x hx
        · dsimp only at hn
          rw [hfold] at hn
          split at hn
          · rename_i hnl
            refine ⟨hl n hnl, ?_⟩
            have := hall n hnl
            cases n with
            | saddle j => exact ⟨j, rfl⟩
            | summit j => cases this
          · exact hbase.own w n hn
    · cases h; exact hbase

/-- Everything the search refers to has property `Q`. -/
structure DSt.Inside (W : Prop) (Q : Node → Prop) (B : Nat → Prop) (O : Nat → Option Bool) (S : Nat → Bool) (s : DSt) : Prop where
  stack : ∀ n ∈ s.stack, Q n
  look : ∀ n p, s.look n = some p → Q p
  used : ∀ n ps, s.used n = some ps → ∀ p ∈ ps, Q p
  flags : FlagsIn W Q B O S s.flags

theorem exploreNbr_inside {N : FNet} {W : Prop} {Q : Node → Prop} {B : Nat → Prop} {O : Nat → Option Bool} {S : Nat → Bool}
    {root z nbr : Node} {s s' : DSt} (hn : AliveWith N B O S nbr → Q nbr) (hz : Q z) (hs : s.Inside W Q B O S)
    (h : exploreNbr N root z s nbr = .ok s') : s'.Inside W Q B O S := by
  unfold exploreNbr at h
  split at h
  · cases h; exact { hs with }
  · rename_i hd
    have hq : Q nbr := hn ⟨s.flags, hs.flags.over, hs.flags.single, hs.flags.keep, by simpa using hd⟩
    cases hu : s.used nbr with
    | none =>
      rw [hu] at h
      cases h
      refine ⟨?_, ?_, ?_, hs.flags⟩
      · intro n h
        rcases List.mem_cons.1 h with rfl | h
        · exact hq
        · exact hs.stack n h
      · intro n p h
        dsimp only at h
        split at h
        · cases h; exact hz
        · exact hs.look n p h
      · intro n ps h
        dsimp only at h
        split at h
        · cases h
          intro p hp
          rw [List.mem_singleton.1 hp]
          exact hz
        · exact hs.used n ps h
    | some pn =>
      rw [hu] at h
      dsimp only at h
      split at h
      · cases h; exact hs
      · split at h
        · cases h; exact hs
        · cases hk : s.look z with
          | none => rw [hk] at h; cases h
          | some p =>
            rw [hk] at h
            obtain ⟨c, h1, h⟩ := bind_ok h
            obtain ⟨g, h2, h⟩ := bind_ok h
            cases h
            have hc := climbBack_within hs.look _ _ c p (by
              intro x hx
              simp only [List.mem_cons, List.not_mem_nil, or_false] at hx
              rcases hx with rfl | rfl
              · exact hq
              · exact hz) (hs.look z p hk) h1
            refine ⟨hs.stack, hs.look, ?_, label_flagsIn (fun x hx => hc x (findLowest_subset _ _ x hx)) hs.flags h2⟩
            intro n ps h
            dsimp only at h
            split at h
            · cases h
              intro q hq'
              rcases List.mem_append.1 hq' with hq' | hq'
              · exact hs.used nbr pn hu q hq'
              · rw [List.mem_singleton.1 hq']; exact hz
            · exact hs.used n ps h

theorem exploreNbrs_inside {N : FNet} {W : Prop} {Q : Node → Prop} {B : Nat → Prop} {O : Nat → Option Bool} {S : Nat → Bool}
    {root z : Node} (hz : Q z) : ∀ (l : List Node) (s s' : DSt), (∀ n ∈ l, AliveWith N B O S n → Q n) → s.Inside W Q B O S →
    l.foldlM (exploreNbr N root z) s = .ok s' → s'.Inside W Q B O S
  | [], s, s', _, hs, h => by
    rw [List.foldlM_nil] at h; cases h; exact hs
  | n :: l, s, s', hl, hs, h => by
    rw [List.foldlM_cons] at h
    obtain ⟨s1, h1, h2⟩ := bind_ok h
    exact exploreNbrs_inside hz l s1 s' (fun m hm => hl m (List.mem_cons_of_mem _ hm))
      (exploreNbr_inside (hl n (by simp)) hz hs h1) h2

theorem exploreLoop_inside {N : FNet} {W : Prop} {Q : Node → Prop} {B : Nat → Prop} {O : Nat → Option Bool} {S : Nat → Bool}
    (hQ : ∀ z, ∀ n ∈ N.nbrs z, AliveWith N B O S n → Q n) {root : Node} : ∀ (n : Nat) (s s' : DSt), s.Inside W Q B O S →
    exploreLoop N root n s = .ok s' → s'.Inside W Q B O S
  | 0, s, s', _, h => by cases h
  | n + 1, s, s', hs, h => by
    unfold exploreLoop at h
    cases hst : s.stack with
    | nil => rw [hst] at h; cases h; exact hs
    | cons z rest =>
      have hz := hs.stack z (by rw [hst]; simp)
      have hrest : ∀ n ∈ rest, Q n := fun n hn => hs.stack n (by rw [hst]; exact List.mem_cons_of_mem _ hn)
      rw [hst] at h
      dsimp only at h
      split at h
      · exact exploreLoop_inside hQ n { s with stack := rest, feats := popFeature s.feats z } s'
          ⟨hrest, hs.look, hs.used, hs.flags⟩ h
      · split at h
        · cases h
        · rename_i s1 h1
          exact exploreLoop_inside hQ n s1 s'
            (exploreNbrs_inside hz _ { s with stack := rest } s1 (hQ z) ⟨hrest, hs.look, hs.used, hs.flags⟩ h1) h

theorem basinLoop_inside {N : FNet} {W : Prop} {Q : Node → Prop} {B : Nat → Prop} {O : Nat → Option Bool} {S : Nat → Bool}
    (hQ : ∀ z, ∀ n ∈ N.nbrs z, AliveWith N B O S n → Q n) :
    ∀ (n : Nat) (f f' : Flags) (feats : List Nat), (∀ k ∈ feats, AliveWith N B O S (.saddle k) → Q (.saddle k)) →
    FlagsIn W Q B O S f → basinLoop N n f feats = .ok f' → FlagsIn W Q B O S f'
  | 0, f, f', feats, _, _, h => by cases h
  | n + 1, f, f', feats, hfe, hf, h => by
    unfold basinLoop at h
    cases hg : feats.getLast? with
    | none => rw [hg] at h; cases h; exact hf
    | some r =>
      rw [hg] at h
      dsimp only at h
      have hr := hfe r (List.mem_of_getLast? hg)
      have hdl : ∀ k ∈ feats.dropLast, AliveWith N B O S (.saddle k) → Q (.saddle k) :=
        fun k hk => hfe k (List.dropLast_subset _ hk)
      split at h
      · exact basinLoop_inside hQ n f f' _ hdl hf h
      · rename_i hd
        have hQr : Q (.saddle r) := hr ⟨f, hf.over, hf.single, hf.keep, by simpa using hd⟩
        split at h
        · cases h
        · rename_i s h1
          have hw : (DSt.start (.saddle r) f feats.dropLast).Inside W Q B O S := by
            refine ⟨?_, ?_, ?_, hf⟩
            · intro x hx
              rw [List.mem_singleton.1 hx]
              exact hQr
            · intro x p hx
              simp only [DSt.start] at hx
              split at hx
              · cases hx; exact hQr
              · cases hx
            · intro x ps hx
              simp only [DSt.start] at hx
              split at hx
              · cases hx; exact fun p hp => (nomatch hp)
              · cases hx
          have h2 := exploreLoop_inside hQ _ _ s hw h1
          have h3 := exploreLoop_feats _ _ s h1
          have h4 : ∀ k ∈ s.feats.filter (fun k => !(decide (Node.saddle k ∈ s.keys) && !decide (Node.saddle k ∈ s.cyc))),
              AliveWith N B O S (.saddle k) → Q (.saddle k) := fun k hk => hdl k (h3 k (List.mem_filter.1 hk).1)
          refine basinLoop_inside hQ n _ f' _ ?_ h2.flags h
          intro k hk
          split at hk
          · exact h4 k hk
          · split at hk
            · exact h4 k hk
            · rcases List.mem_append.1 hk with hk | hk
              · exact h4 k hk
              · rw [List.mem_singleton.1 hk]; exact hr

/-! ### Families during purging -/

/-- One-way consistency of families survives culling; the culled ones have no parent any more and are nobody's
children. -/
theorem culls_kids (l : List Nat) (mf : DMap × Flags) (h : ∀ p c, c ∈ childrenOf mf.1 p → parentOf mf.1 c = some p) :
    (∀ p c, c ∈ childrenOf (l.foldl cull mf).1 p → parentOf (l.foldl cull mf).1 c = some p) ∧
    (∀ j ∈ l, parentOf (l.foldl cull mf).1 j = none) ∧
    (∀ j p, parentOf (l.foldl cull mf).1 j = some p → parentOf mf.1 j = some p) ∧
    (∀ p c, c ∈ childrenOf (l.foldl cull mf).1 p → c ∈ childrenOf mf.1 p) := by
  induction l generalizing mf with
  | nil => exact ⟨h, fun _ h => (nomatch h), fun _ _ h => h, fun _ _ h => h⟩
  | cons a l ih =>
    have h1 : ∀ j, parentOf (cull mf a).1 j = (if j = a ∨ j ∈ childrenOf mf.1 a then none else parentOf mf.1 j) ∧
        childrenOf (cull mf a).1 j = (if j = a then [] else
          if parentOf mf.1 a = some j then (childrenOf mf.1 j).filter (fun x => mf.1.ne (.saddle x) (.saddle a))
          else childrenOf mf.1 j) := by
      intro j
      rw [parentOf_congr (cull_objs mf a), childrenOf_congr (cull_objs mf a)]
      exact softDelete_family mf.1 mf.2 a (h a) j
    have hsub : ∀ p c, c ∈ childrenOf (cull mf a).1 p → c ∈ childrenOf mf.1 p ∧ p ≠ a ∧ c ≠ a := by
      intro p c hc
      rw [(h1 p).2] at hc
      split at hc
      · cases hc
      · rename_i hp
        split at hc
        · rename_i hpa
          obtain ⟨c1, c2⟩ := List.mem_filter.1 hc
          refine ⟨c1, hp, ?_⟩
          rintro rfl
          obtain ⟨o, ho⟩ := lt_of_parent hpa
          rw [(samePlace_iff mf.1 c c).2 (SamePlace.self ho)] at c2
          cases c2
        · rename_i hpa
          refine ⟨hc, hp, ?_⟩
          rintro rfl
          exact hpa (h p c hc)
    have hpar : ∀ j p, parentOf (cull mf a).1 j = some p → parentOf mf.1 j = some p := by
      intro j p hj
      rw [(h1 j).1] at hj
      split at hj
      · cases hj
      · exact hj
    have hk : ∀ p c, c ∈ childrenOf (cull mf a).1 p → parentOf (cull mf a).1 c = some p := by
      intro p c hc
      obtain ⟨c1, c2, c3⟩ := hsub p c hc
      rw [(h1 c).1, if_neg, h p c c1]
      rintro (e | e)
      · exact c3 e
      · have := (h a c e).symm.trans (h p c c1)
        exact c2 (by simpa using this.symm)
    obtain ⟨g1, g2, g3, g4⟩ := ih (cull mf a) hk
    refine ⟨g1, fun j hj => ?_, fun j p hj => hpar j p (g3 j p hj), fun p c hc => (hsub p c (g4 p c hc)).1⟩
    rcases List.mem_cons.1 hj with rfl | hj
    · cases e : parentOf (List.foldl cull (cull mf j) l).1 j with
      | none => exact e
      | some p =>
        have := g3 j p e
        rw [(h1 j).1, if_pos (.inl rfl)] at this
        cases this
    · exact g2 j hj

/-- Culling saddles without alternatives leaves all alternatives alone. -/
theorem culls_alts_none (l : List Nat) (mf : DMap × Flags) (h : ∀ k ∈ l, mf.2.alts (.saddle k) = []) :
    (l.foldl cull mf).2.alts = mf.2.alts := by
  induction l generalizing mf with
  | nil => rfl
  | cons a l ih =>
    have h1 : (cull mf a).2.alts = mf.2.alts := by
      funext n
      have ha := h a (by simp)
      show (disqualifySelf mf.1.net { mf.2 with alts := fun n => if n = .saddle a then [] else
        ((mf.2.alts (.saddle a)).foldl (fun (g : Node → List Node) b n =>
          if n = b then (g n).filter fun x => mf.1.ne x (.saddle a) else g n) mf.2.alts) n } a false false).alts n = _
      rw [ha]
      simp only [disqualifySelf, List.foldl_nil]
      split
      · rename_i e; rw [e, ha]
      · rfl
    rw [List.foldl_cons, ih, h1]
    intro k hk
    rw [h1]
    exact h k (by simp [hk])

/-! ### The invariant -/

/-- What is needed of the map before the first detection: parents are removed for good (`over`), families, domains,
linkers and neighbours are closed. -/
structure BaseOk (m : DMap) : Prop where
  par : ∀ j p, parentOf m j = some p → (j ∈ m.saddles ↔ p ∈ m.saddles) ∧ (p ∈ m.saddles → m.flags.over p = some true)
  kids : ∀ p c, c ∈ childrenOf m p → parentOf m c = some p
  doms : ∀ D, ∀ k ∈ m.st.domSaddles D, (m.domPoints D).isSome ∧ Linked m.net k D
  fin : NetFin m.net m.saddles m.flags
  ends : ∀ k, ∀ i ∈ m.st.sadLinks k, i ∈ m.linkers ∧ (m.net.link i).2 = k
  all : ∀ i ∈ m.linkers, (m.net.link i).2 ∈ m.saddles ++ m.runoffs
  nbr : ∀ D, ∀ i ∈ m.st.sumLinks D, m.net.edge (.saddle (m.net.link i).2) = false → (m.net.link i).2 ∈ m.saddles

/-- The map and the flags after some detections and purges, compared with the map `m` before. What is said of
alternatives holds as long as not all basin saddles are purged (`W`). -/
structure Keeps (W : Prop) (m m1 : DMap) (f1 : Flags) : Prop where
  summits : m1.summits = m.summits
  feat : m1.st.objs.map (·.f) = m.st.objs.map (·.f)
  pts : m1.domPoints = m.domPoints
  net : m1.net = m.net
  runoffs : m1.runoffs = m.runoffs
  domains : m1.domains = m.domains
  sub : m1.saddles.Sublist m.saddles
  out : ∀ k ∈ m.saddles, k ∉ m1.saddles → f1.over k = some true
  link : ∀ i ∈ m1.linkers, i ∈ m.linkers ∧ (m.net.link i).2 ∈ m1.saddles ++ m.runoffs
  kids : ∀ p c, c ∈ childrenOf m1 p → parentOf m1 c = some p
  par : ∀ j p, parentOf m1 j = some p → parentOf m j = some p
  child : ∀ k ∈ m1.saddles, ∀ c ∈ childrenOf m1 k, c ∈ m1.saddles
  doms : ∀ D, (m1.st.domSaddles D).Sublist (m.st.domSaddles D)
  domIn : ∀ D, ∀ k ∈ m1.st.domSaddles D, k ∈ m.saddles → k ∈ m1.saddles
  over : ∀ k, f1.over k ≠ some false
  stay : ∀ k ∈ m.saddles, m.flags.over k = some true → k ∈ m1.saddles
  prot : ∀ k, m.flags.over k = some true → f1.over k = some true ∧ f1.basin k = false ∧ f1.single k = false
  single : ∀ k, f1.single k = true → OneSource m.net k
  alts : W → ∀ n, ∀ x ∈ f1.alts n, f1.alts x ≠ []
  own : W → ∀ n, f1.alts n ≠ [] → ∃ k ∈ m1.saddles, n = .saddle k ∧ ¬ OneSource m.net k ∧ m.flags.over k ≠ some true

theorem Keeps.start {W : Prop} {m : DMap} (h : BaseOk m) : Keeps W m m m.flags where
  summits := rfl
  feat := rfl
  pts := rfl
  net := rfl
  runoffs := rfl
  domains := rfl
  sub := .refl _
  out k hk hn := absurd hk hn
  link i hi := ⟨hi, h.all i hi⟩
  kids := h.kids
  par _ _ h := h
  child k hk c hc := (h.par c k (h.kids k c hc)).1.2 hk
  doms _ := .refl _
  domIn _ _ _ h := h
  over := h.fin.over
  stay _ hk _ := hk
  prot k hk := ⟨hk, rfl, rfl⟩
  single k hk := by cases hk
  alts _ n x hx := by cases hx
  own _ n hn := absurd rfl hn

theorem Keeps.detect {W : Prop} {m m1 : DMap} {f1 f2 : Flags} (hb : BaseOk m) (h : Keeps W m m1 f1) {fuel : Nat}
    (hd : m1.detectBasins fuel f1 = .ok f2) : Keeps W m m1 f2 := by
  unfold DMap.detectBasins at hd
  rw [h.net] at hd
  obtain ⟨s1, s2, s3, s4, _⟩ := stubPass_spec m.net (basinFeatures m.net m1.saddles) f1
  have hfe := (features_spec m.net m1.saddles).2.1
  -- saddles that are not out after the first pass
  have hcore : ∀ k, k ∈ m.saddles → AliveWith m.net (fun k => f1.basin k = true) f1.over
      (stubPass m.net (basinFeatures m.net m1.saddles) f1).single (.saddle k) →
      k ∈ m1.saddles ∧ ¬ OneSource m.net k ∧ m.flags.over k ≠ some true := by
    rintro k hk ⟨g, g1, g2, g0, g3⟩
    have g4 : g.saddleDisq k = false ∧ m.net.edge (.saddle k) = false := by
      simpa [FNet.dead, FNet.disq] using g3
    have hov : f1.over k = none := by
      rcases ho : f1.over k with _ | _ | _
      · rfl
      · exact absurd ho (h.over k)
      · have := g4.1
        unfold Flags.saddleDisq at this
        rw [g1, ho] at this
        cases this
    have hsb : g.single k = false ∧ g.basin k = false := by
      have := g4.1
      unfold Flags.saddleDisq at this
      rw [g1, hov] at this
      simpa using this
    have hin : k ∈ m1.saddles := by
      by_contra hn
      rw [h.out k hk hn] at hov
      cases hov
    refine ⟨hin, fun h1 => ?_, fun ho => by rw [(h.prot k ho).1] at hov; cases hov⟩
    have hs : (stubPass m.net (basinFeatures m.net m1.saddles) f1).single k = true := by
      rw [s4]
      by_cases hso : SaddleOut f1 k
      · rcases hso with ho | ⟨_, ho | ho⟩
        · rw [ho] at hov; cases hov
        · exact .inl ho
        · have := g0 k ho
          rw [hsb.2] at this
          cases this
      · exact .inr ⟨(hfe k).2 hin, hso, h1⟩
    rw [← g2, hsb.1] at hs
    cases hs
  have key := basinLoop_inside (N := m.net) (W := W) (Q := fun n => match n with
      | .saddle k => k ∈ m1.saddles ∧ ¬ OneSource m.net k ∧ m.flags.over k ≠ some true
      | .summit _ => True) (B := fun k => f1.basin k = true) (O := f1.over)
    (S := (stubPass m.net (basinFeatures m.net m1.saddles) f1).single) ?_ fuel
    (stubPass m.net (basinFeatures m.net m1.saddles) f1) f2 (basinFeatures m.net m1.saddles) ?_ ?_ hd
  · refine { h with out := ?_, over := ?_, prot := ?_, single := ?_, alts := key.alts, own := ?_ }
    · intro k hk hn
      rw [key.over]; exact h.out k hk hn
    · rw [key.over]; exact h.over
    · intro k hk
      obtain ⟨p1, p2, p3⟩ := h.prot k hk
      refine ⟨by rw [key.over]; exact p1, ?_, ?_⟩
      · rw [Bool.eq_false_iff]
        intro hbk
        rcases key.basin k hbk with hbk | hbk
        · rw [p2] at hbk; cases hbk
        · exact hbk.2.2 hk
      · rw [key.single, Bool.eq_false_iff]
        intro hsk
        rcases (s4 k).1 hsk with hsk | ⟨_, hso, _⟩
        · rw [p3] at hsk; cases hsk
        · exact hso (.inl p1)
    · intro k hk
      rw [key.single] at hk
      rcases (s4 k).1 hk with hk | ⟨_, _, h1⟩
      · exact h.single k hk
      · exact h1
    · intro w n hn
      obtain ⟨hq, k, rfl⟩ := key.own w n hn
      exact ⟨k, hq.1, rfl, hq.2⟩
  · intro z n hn ha
    cases n with
    | summit D => trivial
    | saddle k =>
      cases z with
      | saddle j =>
        obtain ⟨i, _, e⟩ := List.mem_map.1 hn
        cases e
      | summit D =>
        obtain ⟨i, hi, e⟩ := List.mem_map.1 hn
        cases e
        obtain ⟨g, _, _, _, g3⟩ := id ha
        have hed : m.net.edge (.saddle (m.net.link i).2) = false := by
          unfold FNet.dead at g3
          exact (Bool.or_eq_false_iff.1 g3).2
        exact hcore _ (hb.nbr D i hi hed) ha
  · intro k hk ha
    exact hcore k (h.sub.subset ((hfe k).1 hk)) ha
  · refine ⟨s1, rfl, fun k hk => .inl (by rw [← s2]; exact hk), fun k hk => by rw [s2]; exact hk, ?_, ?_⟩
    · rw [s3]; exact h.alts
    · rw [s3]
      intro w n hn
      obtain ⟨k, k1, rfl, k2⟩ := h.own w n hn
      exact ⟨⟨k1, k2⟩, k, rfl⟩

theorem Keeps.purge {W : Prop} {m m1 : DMap} {f1 : Flags} (hb : BaseOk m) (h : Keeps W m m1 f1) (single basin all : Bool)
    (hW : W → all = false) :
    Keeps W m (m1.purge f1 single basin all).1 (m1.purge f1 single basin all).2 := by
  rw [purge_eq]
  set l := m1.saddles.filter (purgeSelects f1 single basin all) with hl
  have hs := culls_same l (m1, f1)
  obtain ⟨c1, c2, c3, _⟩ := culls_flags l (m1, f1)
  obtain ⟨k1, k2, k3, k4⟩ := culls_kids l (m1, f1) h.kids
  have hmem : ∀ k, k ∈ l ↔ k ∈ m1.saddles ∧ Selected f1 single basin all k := fun k => by
    rw [hl, List.mem_filter, purgeSelects_iff]
  have hkeep : ∀ k, k ∈ m1.saddles.filter (fun k => !purgeSelects f1 single basin all k) ↔ k ∈ m1.saddles ∧ k ∉ l := by
    intro k
    rw [List.mem_filter, hl, List.mem_filter]
    cases purgeSelects f1 single basin all k <;> simp
  have hsad : m1.st.sadLinks = m.st.sadLinks := congrArg FNet.sadLinks h.net
  -- who has alternatives stays, and so do parents
  have hown : W → ∀ k, f1.alts (.saddle k) ≠ [] → k ∉ l := by
    intro w k hk hkl
    obtain ⟨j, _, e, j2, _⟩ := h.own w _ hk
    cases e
    rcases ((hmem k).1 hkl).2 with ⟨_, h2 | h2⟩ | ⟨h2, _⟩
    · rw [hW w] at h2; cases h2
    · exact hk h2.2
    · exact j2 (h.single k h2)
  have hprot : ∀ k, m.flags.over k = some true → k ∉ l := by
    intro k hk hkl
    obtain ⟨_, p2, p3⟩ := h.prot k hk
    rcases ((hmem k).1 hkl).2 with ⟨h2, _⟩ | ⟨h2, _⟩
    · rw [p2] at h2; cases h2
    · rw [p3] at h2; cases h2
  have halts := fun w => culls_alts_none l (m1, f1) fun k hk => by
    by_contra hn
    exact hown w k hn hk
  have hdoms := culls_doms l (m1, f1)
  refine ⟨hs.summits.trans h.summits, hs.feat.trans h.feat, hs.pts.trans h.pts, hs.net.trans h.net,
    hs.runoffs.trans h.runoffs, hs.domains.trans h.domains, List.filter_sublist.trans h.sub, fun k hk hn => ?_,
    fun i hi => ?_, k1, fun j p hj => h.par j p (k3 j p hj), fun k hk c hc => ?_, fun D => ?_, fun D k hk hkm => ?_,
    fun k => ?_, fun k hk ho => ?_, fun k hk => ?_, fun k hk => ?_, fun w => ?_, fun w n hn => ?_⟩
  · dsimp only at hn ⊢
    rw [c3]
    split
    · rfl
    · rename_i hkl
      exact h.out k hk fun h1 => hn ((hkeep k).2 ⟨h1, hkl⟩)
  · obtain ⟨k, hk, hi⟩ := List.mem_flatMap.1 hi
    rw [hsad] at hi
    obtain ⟨e1, e2⟩ := hb.ends k i hi
    refine ⟨e1, ?_⟩
    rw [e2]
    exact List.mem_append_left _ hk
  · have hk := (hkeep k).1 hk
    refine (hkeep c).2 ⟨h.child k hk.1 c (k4 k c hc), fun hcl => ?_⟩
    have := (k2 c hcl).symm.trans (k1 k c hc)
    cases this
  · dsimp only
    rw [hdoms]
    exact List.filter_sublist.trans (h.doms D)
  · dsimp only at hk
    rw [hdoms] at hk
    obtain ⟨h1, h2⟩ := List.mem_filter.1 hk
    have hk1 := h.domIn D k h1 hkm
    refine (hkeep k).2 ⟨hk1, fun hkl => ?_⟩
    obtain ⟨a, b⟩ := hb.doms D k ((h.doms D).subset h1)
    have hD : D ∈ m1.domainsOf k := by
      simp only [DMap.domainsOf, List.mem_filter, List.mem_map]
      rw [h.pts, hsad, h.net]
      exact ⟨b, a⟩
    have hlt : k < m1.st.objs.length := by
      have := congrArg List.length h.feat
      simp only [List.length_map] at this
      rw [this]
      exact hb.fin.bound k hkm
    have := List.all_eq_true.1 h2 k hkl
    rw [(samePlace_iff m1 k k).2 (SamePlace.self (List.getElem?_eq_getElem hlt))] at this
    simp [hD] at this
  · dsimp only
    rw [c3]
    split
    · simp
    · exact h.over k
  · exact (hkeep k).2 ⟨h.stay k hk ho, hprot k ho⟩
  · obtain ⟨p1, p2, p3⟩ := h.prot k hk
    dsimp only
    rw [c1, c2, c3]
    exact ⟨by rw [p1, ite_self], p2, p3⟩
  · dsimp only at hk
    rw [c2] at hk
    exact h.single k hk
  · dsimp only
    rw [halts w]
    exact h.alts w
  · dsimp only at hn
    rw [halts w] at hn
    obtain ⟨k, e1, rfl, e2⟩ := h.own w n hn
    exact ⟨k, (hkeep k).2 ⟨e1, hown w k hn⟩, rfl, e2⟩

/-- Calls that do not ask for all basin saddles. -/
def MapCall.Plain : MapCall → Prop
  | .detect => True
  | .purge _ _ all => all = false

theorem Keeps.calls {W : Prop} {m m1 : DMap} {f1 : Flags} (hb : BaseOk m) {fuel : Nat}
    (hfuel : m.saddles.length + m.st.objs.length < fuel) (cs : List MapCall) (hcs : W → ∀ c ∈ cs, c.Plain)
    (h : Keeps W m m1 f1) : ∃ m2 f2, DMap.calls fuel (m1, f1) cs = .ok (m2, f2) ∧ Keeps W m m2 f2 := by
  induction cs generalizing m1 f1 with
  | nil => exact ⟨m1, f1, rfl, h⟩
  | cons c cs ih =>
    have hcs' : W → ∀ c ∈ cs, c.Plain := fun w c hc => hcs w c (by simp [hc])
    cases c with
    | purge a b c => exact ih hcs' (h.purge hb a b c fun w => hcs w (.purge a b c) (by simp))
    | detect =>
      obtain ⟨f2, hd⟩ : ∃ f2, m1.detectBasins fuel f1 = .ok f2 := by
        unfold DMap.detectBasins
        rw [h.net]
        exact basin_terminates ⟨hb.fin.sum, hb.fin.sad, fun k hk => hb.fin.bound k (h.sub.subset hk), h.over⟩
          (lt_of_le_of_lt (Nat.add_le_add_right h.sub.length_le _) hfuel)
      obtain ⟨m2, f3, e1, e2⟩ := ih hcs' (h.detect hb hd)
      refine ⟨m2, f3, ?_, e2⟩
      unfold DMap.calls DMap.call
      rw [hd]
      exact e1

/-! ### Complete runs -/

theorem walked_baseOk {E : SaddleEnv} {sites : List Pt} {m0 m : DMap} {news : List (List Nat)}
    (hw : WalkedMap E sites m0 m news) {P : Prop} (hF : FamSt P [] m.st) (hP : P) (hS : SummitsApart m.summits) :
    BaseOk m := by
  have hmem : ∀ k, k ∈ m.saddles ++ m.runoffs ↔ k ∈ m.st.walked := by
    intro k
    rw [List.mem_append, hw.mem_saddles, hw.mem_runoffs]
    cases nonRunoff m.st.objs k <;> simp
  refine ⟨?_, ?_, ?_, hw.netFin, ?_, ?_, ?_⟩
  · intro j p hp
    obtain ⟨g1, g2, oj, op, g3, g4, g5, g6⟩ := hF.closed hP j p hp
    have hk : nonRunoff m.st.objs j = nonRunoff m.st.objs p := by
      unfold nonRunoff
      rw [g3, g4]
      dsimp only
      rw [g5]
    rw [hw.mem_saddles, hw.mem_saddles, hk]
    refine ⟨⟨fun h => ⟨g2, h.2⟩, fun h => ⟨g1, h.2⟩⟩, fun h => ?_⟩
    have hr : op.f.kind ≠ .runoff := by
      have := h.2
      unfold nonRunoff at this
      rw [g4] at this
      simpa using this
    show (m.st.objs[p]?.map (·.disq)).getD none = some true
    rw [g4]
    exact g6 hr
  · intro p c hc
    exact (hF.fam c p).1 hc
  · intro D k hk
    rw [hw.inv.dsad] at hk
    obtain ⟨l, hlf, rfl⟩ := List.mem_map.1 hk
    obtain ⟨hl, hD⟩ := List.mem_filter.1 hlf
    simp only [decide_eq_true_eq] at hD
    subst hD
    obtain ⟨j, hj⟩ := List.mem_iff_getElem?.1 (show l ∈ m.st.store from hl)
    obtain ⟨sf, _, h1, _⟩ := hw.link hj
    refine ⟨?_, ?_⟩
    · rw [hw.points, if_pos (by rw [← hw.summits]; exact lt_of_getElem? h1)]; rfl
    · have h2 := (hw.inv.ends l hl).2
      unfold linkIn at h2
      obtain ⟨i, hi, hc⟩ := List.any_eq_true.1 h2
      obtain ⟨l', hl', hk'⟩ := hw.inv.sad _ i hi
      rw [hl'] at hc
      refine ⟨i, hi, ?_⟩
      rw [net_link hl']
      by_contra hne
      unfold linkEq at hc
      dsimp only at hc
      rw [← hw.summits] at hc
      obtain ⟨sf', _, h1', _⟩ := hw.link hl'
      rw [h1, h1'] at hc
      split at hc
      · rename_i s t u v e1 e2 _ _
        cases e1; cases e2
        simp only [Bool.and_eq_true] at hc
        exact hS _ _ _ _ h1' h1 hne (seEq_round hc.1)
      · cases hc
  · intro k i hi
    obtain ⟨l, h1, h2⟩ := hw.inv.sad k i hi
    refine ⟨?_, by rw [net_link h1]; exact h2⟩
    rw [hw.linkers, hw.inv.lk, List.mem_range]
    exact lt_of_getElem? h1
  · intro i hi
    rw [hw.linkers, hw.inv.lk, List.mem_range] at hi
    rw [net_link (List.getElem?_eq_getElem hi), hmem]
    exact hF.store _ (List.getElem_mem hi)
  · intro D i hi hed
    obtain ⟨l, hl, _⟩ := hw.inv.sum D i hi
    rw [net_link hl] at hed ⊢
    obtain ⟨_, ob, _, g2, _⟩ := hw.link hl
    refine (hw.mem_saddles _).2 ⟨hF.store l (List.mem_of_getElem? hl), ?_⟩
    have hk := (hw.inv.objs ob (List.mem_of_getElem? g2)).inner (by
      simpa [DMap.net, DMap.feature, g2] using hed)
    unfold nonRunoff
    rw [g2]
    simp [hk]

/-- The facts of a walk that are needed to save the map. -/
structure Savable (E : SaddleEnv) (m : DMap) : Prop where
  base : BaseOk m
  once : m.saddles.Nodup
  store : ∀ i ∈ m.linkers, (m.net.link i).1 < m.summits.length
  doms : ∀ D ∈ m.domains, D < m.summits.length
  members : ∀ D, ∀ k ∈ m.st.domSaddles D, k ∈ m.saddles ++ m.runoffs
  areas : ∀ k ∈ m.saddles ++ m.runoffs, ∃ o, m.st.objs[k]? = some o ∧ AreaAt E.d o.f
  sums : ∀ f ∈ m.summits, AreaAt E.d f
  saddles : ∀ k ∈ m.saddles, nonRunoff m.st.objs k = true
  runoffs : ∀ k ∈ m.runoffs, nonRunoff m.st.objs k = false
  inner : ∀ ob ∈ m.st.objs, ob.f.edge = false → ob.f.kind ≠ .runoff
  domOnce : m.domains.Nodup

theorem run_savable {E : SaddleEnv} (hE : RunOk E) (o : Pt → Oracle) (order : List Pt) (ho : IsScan E.d order)
    (rebuild : Bool) {D : Discovered} (hD : analyze E.d o order = .ok D) {m : DMap}
    (hm : DMap.runSparse E o order rebuild = .ok m) (he : rebuild = false ∨ ∀ f ∈ D.saddles, f.edge = false)
    (hS : SummitsApart m.summits) : Savable E m := by
  obtain ⟨D', corners, m0, m', sites, news, h1, h2, h3, h4, h5, h6, h7, h8, h9⟩ := run_spec hE o order ho rebuild
  cases (h1.symm.trans hD : Except.ok _ = Except.ok _)
  cases (h8.symm.trans hm : Except.ok _ = Except.ok _)
  have hw : m0.walk E [] = .ok (m, none) := by
    obtain ⟨m', _, w1, _⟩ := walk_spec hE h4
    have h8' := h8
    unfold DMap.runSparse at h8'
    rw [h3] at h8'
    dsimp only [bind, Except.bind] at h8'
    rw [w1] at h8'
    cases h8'
    exact w1
  obtain ⟨f1, f2, _⟩ := discover_fam h3
  have hF := walk_fam hE h4 f1 f2 hw
  have hA := analyze_areaAt ho h1
  have hmem : ∀ k, k ∈ m.saddles ++ m.runoffs ↔ k ∈ m.st.walked := by
    intro k
    rw [List.mem_append, h9.mem_saddles, h9.mem_runoffs]
    cases nonRunoff m.st.objs k <;> simp
  have hlink : ∀ l ∈ m.st.store, l.summit < m.summits.length ∧ l.saddle ∈ m.saddles ++ m.runoffs := by
    intro l hl
    obtain ⟨i, hi', hg⟩ := List.mem_iff_getElem.1 hl
    obtain ⟨sf, _, g1, _⟩ := h9.link (i := i) (l := l) (by rw [List.getElem?_eq_getElem hi', hg])
    exact ⟨lt_of_getElem? g1, (hmem _).2 (hF.store l hl)⟩
  refine ⟨walked_baseOk h9 hF (discover_noPar h1 h3 he) hS, ?_, ?_, ?_, ?_, ?_, ?_, fun k hk => ((h9.mem_saddles k).1 hk).2,
    fun k hk => ((h9.mem_runoffs k).1 hk).2, fun ob hob hed => ?_, by rw [h9.domains]; exact h9.inv.doms.1⟩
  · rw [h9.saddles]
    exact hF.once
  · intro i hi
    rw [h9.linkers, h9.inv.lk, List.mem_range] at hi
    rw [net_link (List.getElem?_eq_getElem hi)]
    exact (hlink _ (List.getElem_mem hi)).1
  · intro D hD
    rw [h9.domains, h9.inv.doms.2] at hD
    obtain ⟨l, hl, rfl⟩ := hD
    exact (hlink l hl).1
  · intro D k hk
    rw [h9.inv.dsad] at hk
    obtain ⟨l', hl', rfl⟩ := List.mem_map.1 hk
    exact (hlink l' (List.mem_filter.1 hl').1).2
  · intro k hk
    exact walked_areaAt hA (corner_areaAt h2) h6 h7 h9 k ((hmem k).1 hk)
  · rw [h9.summits, h5]
    exact fun g hg => hA g (by simp [hg])
  · rw [(h9.inv.objs ob hob).inner hed]
    simp

/-- What is needed to save what calls have left of the map `m`. -/
structure Leftover (m m1 : DMap) (f1 : Flags) : Prop where
  summits : m1.summits = m.summits
  feat : m1.st.objs.map (·.f) = m.st.objs.map (·.f)
  pts : m1.domPoints = m.domPoints
  net : m1.net = m.net
  runoffs : m1.runoffs = m.runoffs
  domains : m1.domains = m.domains
  sub : m1.saddles.Sublist m.saddles
  link : ∀ i ∈ m1.linkers, i ∈ m.linkers ∧ (m.net.link i).2 ∈ m1.saddles ++ m.runoffs
  child : ∀ k ∈ m1.saddles, ∀ c ∈ childrenOf m1 k, c ∈ m1.saddles
  doms : ∀ D, (m1.st.domSaddles D).Sublist (m.st.domSaddles D)
  domIn : ∀ D, ∀ k ∈ m1.st.domSaddles D, k ∈ m.saddles → k ∈ m1.saddles
  over : ∀ k, f1.over k ≠ some false

theorem Keeps.held {W : Prop} {m m1 : DMap} {f1 : Flags} (h : Keeps W m m1 f1) : Leftover m m1 f1 :=
  ⟨h.summits, h.feat, h.pts, h.net, h.runoffs, h.domains, h.sub, h.link, h.child, h.doms, h.domIn, h.over⟩

/-- Parents stay under detections and purges. -/
theorem Keeps.parent {W : Prop} {m m1 : DMap} {f1 : Flags} (hb : BaseOk m) (h : Keeps W m m1 f1) :
    ∀ k ∈ m1.saddles, ∀ c, parentOf m1 k = some c → c ∈ m1.saddles := by
  intro k hk c hp
  obtain ⟨a, b⟩ := hb.par k c (h.par k c hp)
  have hc := a.1 (h.sub.subset hk)
  exact h.stay c hc (b hc)

/-- Everything such a map refers to, but for parents and alternatives, is in it. -/
theorem Leftover.saved {E : SaddleEnv} {m m1 : DMap} {f1 : Flags} (hs : Savable E m) (h : Leftover m m1 f1)
    (hp' : ∀ k ∈ m1.saddles, ∀ c, parentOf m1 k = some c → c ∈ m1.saddles)
    (hf : ∀ k ∈ m1.saddles, ∀ c, Node.saddle c ∈ f1.alts (.saddle k) → c ∈ m1.saddles) {ids : ObjIds} (hi : ids.Distinct) :
    Spec.Closed (m1.toL E.d f1 ids) := by
  have hfe : ∀ (k : Nat) (o : SObj), m.st.objs[k]? = some o → ∃ o1 : SObj, m1.st.objs[k]? = some o1 ∧ o1.f = o.f := by
    intro k o ho
    have := congrArg (·[k]?) h.feat
    simp only [List.getElem?_map, ho, Option.map_some, Option.map_eq_some_iff] at this
    exact this
  refine ⟨?_, ?_, ?_, ?_, ?_, ?_, ?_, ?_⟩
  · exact List.Nodup.map hi.sum List.nodup_range
  · refine List.Nodup.map hi.sad ?_
    exact hs.once.sublist h.sub
  · intro k _ k' _ e
    exact hi.sad e
  · intro k hk
    change k ∈ m1.saddles at hk
    refine ⟨fun c hc => ?_, fun c hc => ?_, fun c hc => ?_⟩
    · change c ∈ (m1.st.objs[k]?.getD { f := .blank }).children at hc
      refine h.child k hk c ?_
      unfold childrenOf
      cases ho : m1.st.objs[k]? with
      | none => rw [ho] at hc; cases hc
      | some o => rw [ho] at hc; exact hc
    · change (m1.st.objs[k]?.getD { f := .blank }).parent = some c at hc
      have hp : parentOf m1 k = some c := by
        unfold parentOf
        cases ho : m1.st.objs[k]? with
        | none => rw [ho] at hc; cases hc
        | some o => rw [ho] at hc; exact hc
      exact hp' k hk c hp
    · exact hf k hk c (mem_saddleNos.1 hc)
  · intro i hi'
    change i ∈ m1.linkers at hi'
    obtain ⟨a, b⟩ := h.link i hi'
    constructor
    · change (m1.net.link i).1 ∈ List.range m1.summits.length
      rw [h.net, h.summits]
      exact List.mem_range.2 (hs.store i a)
    · change (m1.net.link i).2 ∈ m1.saddles ++ m1.runoffs
      rw [h.net, h.runoffs]
      exact b
  · intro D hD
    change D ∈ m1.domains at hD
    rw [h.domains] at hD
    refine ⟨?_, fun k hk => ?_⟩
    · change D ∈ List.range m1.summits.length
      rw [h.summits]
      exact List.mem_range.2 (hs.doms D hD)
    · change k ∈ m1.st.domSaddles D at hk
      change k ∈ m1.saddles ++ m1.runoffs
      rw [h.runoffs, List.mem_append]
      rcases List.mem_append.1 (hs.members D k ((h.doms D).subset hk)) with hm | hm
      · exact .inl (h.domIn D k hk hm)
      · exact .inr hm
  · intro D hD a ha
    have hD := List.mem_range.1 hD
    change ((m1.summits[D]?.getD .blank).area E.d) = some a at ha
    rw [List.getElem?_eq_getElem hD] at ha
    exact areaAt_sound (hs.sums _ (by rw [← h.summits]; exact List.getElem_mem hD)) a ha
  · intro k hk a ha
    have hk : k ∈ m.saddles ++ m.runoffs := by
      change k ∈ m1.saddles ++ m1.runoffs at hk
      rw [h.runoffs] at hk
      rcases List.mem_append.1 hk with hk | hk
      · exact List.mem_append.2 (.inl (h.sub.subset hk))
      · exact List.mem_append.2 (.inr hk)
    obtain ⟨o, h1, h2⟩ := hs.areas k hk
    obtain ⟨o1, g1, g2⟩ := hfe k o h1
    change ((m1.st.objs[k]?.getD { f := .blank }).f.area E.d) = some a at ha
    rw [g1, Option.getD_some, g2] at ha
    exact areaAt_sound h2 a ha

end PyProm
