import Verif.Model.Edits
import Verif.Props.History

/-
What calls on a map and its saddles keep.
-/
namespace PyProm
open Spec

/-- Families lose members only. -/
def Thins (m m1 : DMap) : Prop := ∀ j, (childrenOf m1 j).Sublist (childrenOf m j) ∧
  (parentOf m1 j = none ∨ parentOf m1 j = parentOf m j)

theorem Thins.refl (m : DMap) : Thins m m := fun _ => ⟨.refl _, .inr rfl⟩

theorem Thins.trans {a b c : DMap} (h : Thins a b) (g : Thins b c) : Thins a c := fun j =>
  ⟨(g j).1.trans (h j).1, (g j).2.elim .inl fun e => e ▸ (h j).2⟩

theorem Thins.congr {a b c : DMap} (h : Thins a b) (e : c.st.objs = b.st.objs) : Thins a c := fun j => by
  rw [childrenOf_congr e, parentOf_congr e]
  exact h j

theorem emancipate_thins (m : DMap) (k : Nat) : Thins m (m.emancipate k) := fun j => by
  rw [emancipate_children, emancipate_parent]
  refine ⟨?_, ?_⟩
  · split
    · exact List.filter_sublist
    · exact .refl _
  · split
    · exact .inl rfl
    · exact .inr rfl

theorem emancipates_thins (l : List Nat) (m : DMap) : Thins m (l.foldl DMap.emancipate m) := by
  induction l generalizing m with
  | nil => exact .refl m
  | cons a l ih => exact (emancipate_thins m a).trans (ih _)

theorem disown_thins (m : DMap) (k : Nat) : Thins m (m.disown k) ∧ childrenOf (m.disown k) k = [] := by
  have h := emancipates_thins ((m.st.objs[k]?.map (·.children)).getD []) m
  have e : ∀ j, childrenOf (m.disown k) j = if j = k then [] else
      childrenOf (((m.st.objs[k]?.map (·.children)).getD []).foldl DMap.emancipate m) j := by
    intro j
    unfold DMap.disown childrenOf modObj
    simp only [List.getElem?_modify]
    by_cases h1 : k = j
    · subst h1
      cases (List.foldl DMap.emancipate m ((Option.map (fun x => x.children) m.st.objs[k]?).getD [])).st.objs[k]? <;> simp
    · simp [h1, Ne.symm h1]
  refine ⟨fun j => ⟨?_, ?_⟩, by rw [e, if_pos rfl]⟩
  · rw [e]
    split
    · exact List.nil_sublist _
    · exact (h j).1
  · rw [disown_parent]
    split
    · exact .inl rfl
    · exact .inr rfl

/-- A deleted saddle has no family left, and the other families lose members only. -/
theorem softDelete_thins (m : DMap) (f : Flags) (k : Nat) : Thins m (m.softDelete f k).1 ∧
    childrenOf (m.softDelete f k).1 k = [] ∧ parentOf (m.softDelete f k).1 k = none := by
  set m1 := if childrenOf m k = [] then m else m.disown k with hm1
  have h1 : Thins m m1 ∧ childrenOf m1 k = [] := by
    rw [hm1]
    split
    · rename_i e; exact ⟨.refl m, e⟩
    · exact disown_thins m k
  have hm2 : (m.softDelete f k).1 = if (parentOf m1 k).isSome then m1.emancipate k else m1 := rfl
  rw [hm2]
  split
  · refine ⟨h1.1.trans (emancipate_thins m1 k), ?_, ?_⟩
    · have := (emancipate_thins m1 k k).1
      rw [h1.2] at this
      exact List.sublist_nil.1 this
    · rw [emancipate_parent, if_pos rfl]
  · rename_i hn
    exact ⟨h1.1, h1.2, by simpa using hn⟩

theorem culls_thins (l : List Nat) (mf : DMap × Flags) : Thins mf.1 (l.foldl cull mf).1 := by
  induction l generalizing mf with
  | nil => exact .refl _
  | cons a l ih =>
    exact ((softDelete_thins mf.1 mf.2 a).1.congr (cull_objs mf a)).trans (ih _)

theorem softDelete_quiet (m : DMap) (f : Flags) (k n : Nat) (h : f.alts (.saddle n) = []) :
    (m.softDelete f k).2.alts (.saddle n) = [] := by
  rw [softDelete_alts]
  split
  · rfl
  · split <;> simp [h]

theorem culls_quiet (l : List Nat) (mf : DMap × Flags) (n : Nat) (h : mf.2.alts (.saddle n) = []) :
    (l.foldl cull mf).2.alts (.saddle n) = [] := by
  induction l generalizing mf with
  | nil => exact h
  | cons a l ih => exact ih _ (by rw [cull_alts]; exact softDelete_quiet _ _ _ _ h)

/-! ### Detection does not touch the alternatives of a saddle that is out -/

theorem Marked.out {N : FNet} {f f' : Flags} (h : Marked N f f') {k : Nat} (hk : SaddleOut f k) : SaddleOut f' k := by
  unfold SaddleOut at *
  rw [h.over, h.single]
  exact hk.imp id fun ⟨a, b⟩ => ⟨a, b.imp id (h.basin k)⟩

/-- The search has nothing to do with the saddle `k`, which is out and has the alternatives `a`. -/
structure Aloof (N : FNet) (k : Nat) (a : List Node) (s : DSt) : Prop where
  out : SaddleOut s.flags k
  stack : Node.saddle k ∉ s.stack
  look : ∀ n, s.look n ≠ some (.saddle k)
  alts : s.flags.alts (.saddle k) = a

theorem climbBack_aloof {look : Node → Option Node} {root : Node} {pn : List Node} {x : Node} (hl : ∀ n, look n ≠ some x) :
    ∀ (n : Nat) (cycle : List Node) (p : Node) (r : List Node), x ∉ cycle → p ≠ x →
      climbBack look root pn n cycle p = .ok r → x ∉ r
  | 0, _, _, _, _, _, h => by cases h
  | n + 1, cycle, p, r, hc, hp, h => by
    unfold climbBack at h
    split at h
    · cases h
      simp [hc, Ne.symm hp]
    · split at h
      · cases h
      · rename_i q hq
        have hqx : q ≠ x := fun e => hl p (e ▸ hq)
        split at h
        · cases h
          simp [hc, Ne.symm hp, Ne.symm hqx]
        · exact climbBack_aloof hl n (cycle ++ [p]) q r (by simp [hc, Ne.symm hp]) hqx h

theorem label_aloof {N : FNet} {f f' : Flags} {low : List Node} {x : Node} (hx : x ∉ low)
    (h : disqualifyAndLabel N f low = .ok f') : f'.alts x = f.alts x := by
  unfold disqualifyAndLabel at h
  split at h
  · cases h
  · cases h
  · dsimp only at h
    rename_i k ls
    split at h
    · split at h
      · cases h
      cases h
      have : ∀ (l : List Node) (g : Node → List Node) (v : Node → List Node), x ∉ l →
          (l.foldl (fun (a : Node → List Node) n m => if m = n then v n else a m) g) x = g x := by
        intro l
        induction l with
        | nil => intro g v _; rfl
        | cons b l ih =>
          intro g v hb
          rw [List.foldl_cons, ih _ _ (fun h => hb (List.mem_cons_of_mem _ h)), if_neg (fun e => hb (by simp [e]))]
      exact this (.saddle k :: ls) _ (fun n => removeFirst (fun x => decide (x = n) || N.eq x n) (.saddle k :: ls)) hx
    · cases h
      rfl

theorem exploreNbr_aloof {N : FNet} {root z nbr : Node} {s s' : DSt} {k : Nat} {a : List Node} (hI : Aloof N k a s)
    (hz : z ≠ .saddle k) (h : exploreNbr N root z s nbr = .ok s') : Aloof N k a s' := by
  have hm := exploreNbr_marked h
  unfold exploreNbr at h
  split at h
  · cases h; exact ⟨hI.out, hI.stack, hI.look, hI.alts⟩
  · rename_i hd
    have hn : nbr ≠ .saddle k := by
      rintro rfl
      exact hd ((dead_iff N _ _).2 fun ha => ha.1 hI.out)
    split at h
    · cases h
      refine ⟨hI.out, by simp [hI.stack, Ne.symm hn], fun n => ?_, hI.alts⟩
      dsimp only
      split
      · simp [hz]
      · exact hI.look n
    · split at h
      · cases h; exact hI
      · split at h
        · cases h; exact hI
        · split at h
          · cases h
          · rename_i p hp
            obtain ⟨c, hc, h⟩ := bind_ok h
            obtain ⟨g, hg, h⟩ := bind_ok h
            cases h
            refine ⟨hm.out hI.out, hI.stack, hI.look, ?_⟩
            have hcx := climbBack_aloof hI.look _ _ _ _ (by simp [Ne.symm hn, Ne.symm hz])
              (fun e => hI.look z (e ▸ hp)) hc
            refine (label_aloof (fun hl => hcx ?_) hg).trans hI.alts
            have := lowestFold_tied N.elev c c (c.take 1) (fun _ h => h) (by
              cases c with
              | nil => simp
              | cons a c => simp) _ hl
            exact this.1

theorem exploreNbrs_aloof {N : FNet} {root z : Node} {k : Nat} {a : List Node} (hz : z ≠ .saddle k) :
    ∀ (l : List Node) (s s' : DSt), Aloof N k a s → l.foldlM (exploreNbr N root z) s = .ok s' → Aloof N k a s'
  | [], s, s', hI, h => by
    rw [List.foldlM_nil] at h; cases h; exact hI
  | n :: l, s, s', hI, h => by
    rw [List.foldlM_cons] at h
    obtain ⟨s1, h1, h2⟩ := bind_ok h
    exact exploreNbrs_aloof hz l s1 s' (exploreNbr_aloof hI hz h1) h2

theorem exploreLoop_aloof {N : FNet} {root : Node} {k : Nat} {a : List Node} : ∀ (n : Nat) (s s' : DSt), Aloof N k a s →
    exploreLoop N root n s = .ok s' → Aloof N k a s'
  | 0, s, s', _, h => by cases h
  | n + 1, s, s', hI, h => by
    unfold exploreLoop at h
    split at h
    · cases h; exact hI
    · rename_i z rest hs
      have hst := hI.stack
      rw [hs] at hst
      have hI' : Aloof N k a { s with stack := rest } :=
        ⟨hI.out, fun h => hst (List.mem_cons_of_mem _ h), hI.look, hI.alts⟩
      split at h
      · exact exploreLoop_aloof n { s with stack := rest, feats := popFeature s.feats z } s'
          ⟨hI'.out, hI'.stack, hI'.look, hI'.alts⟩ h
      · split at h
        · cases h
        · rename_i s1 h1
          exact exploreLoop_aloof n s1 s' (exploreNbrs_aloof (fun e => hst (by simp [e])) _ _ _ hI' h1) h

theorem basinLoop_aloof {N : FNet} {k : Nat} : ∀ (n : Nat) (f f' : Flags) (feats : List Nat), SaddleOut f k →
    basinLoop N n f feats = .ok f' → f'.alts (.saddle k) = f.alts (.saddle k)
  | 0, f, f', feats, _, h => by cases h
  | n + 1, f, f', feats, hk, h => by
    unfold basinLoop at h
    split at h
    · cases h; rfl
    · rename_i r hr
      split at h
      · exact basinLoop_aloof n f f' _ hk h
      · rename_i hd
        have hrk : Node.saddle r ≠ .saddle k := by
          intro e
          refine hd ((dead_iff N f _).2 fun ha => ?_)
          cases e
          exact ha.1 hk
        split at h
        · cases h
        · rename_i s h1
          have hI := exploreLoop_aloof (k := k) (a := f.alts (.saddle k)) _ _ _ (by
            refine ⟨hk, by simp [DSt.start, Ne.symm hrk], fun n => ?_, rfl⟩
            simp only [DSt.start]
            split
            · simpa using hrk
            · simp) h1
          exact (basinLoop_aloof n _ f' _ hI.out h).trans hI.alts

/-- On any network, detection leaves the alternatives of a saddle that is out. -/
theorem detect_aloof {N : FNet} {fuel : Nat} {saddles : List Nat} {f f' : Flags}
    (h : disqualifyBasinSaddles N fuel saddles f = .ok f') {k : Nat} (hk : SaddleOut f k) :
    f'.alts (.saddle k) = f.alts (.saddle k) := by
  obtain ⟨s1, s2, s3, s4, _⟩ := stubPass_spec N (basinFeatures N saddles) f
  have ho : SaddleOut (stubPass N (basinFeatures N saddles) f) k := by
    unfold SaddleOut at *
    rw [s1, s2]
    exact hk.imp id fun ⟨a, b⟩ => ⟨a, b.imp (fun h => (s4 k).2 (.inl h)) id⟩
  rw [basinLoop_aloof _ _ _ _ ho h, s3]

/-! ### The invariant -/

/-- What calls on the map `m` with flags `f` keep. -/
structure Edited (m : DMap) (f : Flags) (m1 : DMap) (f1 : Flags) : Prop where
  net : m1.net = m.net
  summits : m1.summits = m.summits
  runoffs : m1.runoffs = m.runoffs
  feat : m1.st.objs.map (·.f) = m.st.objs.map (·.f)
  store : m1.st.store = m.st.store
  sub : m1.saddles.Sublist m.saddles
  only : ∀ i ∈ m1.linkers, i ∈ m.linkers
  all : ∀ k ∈ m1.saddles, ∀ i ∈ m.st.sadLinks k, i ∈ m1.linkers
  over : (∀ k, f.over k ≠ some false) → ∀ k, f1.over k ≠ some false
  out : ∀ k, SaddleOut f k → SaddleOut f1 k
  link : ∀ i, f.linkDisq i = true → f1.linkDisq i = true
  gone : ∀ k ∈ m.saddles, k ∉ m1.saddles → SaddleOut f1 k
  thins : Thins m m1
  quiet : ∀ k, SaddleOut f k → f.alts (.saddle k) = [] → f1.alts (.saddle k) = []

theorem Edited.alive {m m1 : DMap} {f f1 : Flags} (h : Edited m f m1 f1) (n : Node) (ha : Alive m.net f1 n) :
    Alive m.net f n := by
  cases n with
  | summit D => exact ha
  | saddle k => exact ⟨fun hk => ha.1 (h.out k hk), ha.2⟩

theorem Edited.refl {m : DMap} {f : Flags}
    (hl : ∀ k ∈ m.saddles, ∀ i ∈ m.st.sadLinks k, i ∈ m.linkers) : Edited m f m f :=
  ⟨rfl, rfl, rfl, rfl, rfl, .refl _, fun _ h => h, hl, fun h => h, fun _ h => h, fun _ h => h, fun _ h h' => absurd h h', .refl _,
    fun _ _ h => h⟩

theorem Edited.trans {a b c : DMap} {f g h : Flags} (h1 : Edited a f b g) (h2 : Edited b g c h) : Edited a f c h where
  net := h2.net.trans h1.net
  summits := h2.summits.trans h1.summits
  runoffs := h2.runoffs.trans h1.runoffs
  feat := h2.feat.trans h1.feat
  store := h2.store.trans h1.store
  sub := h2.sub.trans h1.sub
  only i hi := h1.only i (h2.only i hi)
  all k hk i hi := h2.all k hk i (by rw [show b.st.sadLinks = a.st.sadLinks from congrArg FNet.sadLinks h1.net]; exact hi)
  over h := h2.over (h1.over h)
  out k hk := h2.out k (h1.out k hk)
  link i hi := h2.link i (h1.link i hi)
  gone k hk hn := by
    by_cases hb : k ∈ b.saddles
    · exact h2.gone k hb hn
    · exact h2.out k (h1.gone k hk hb)
  thins := h1.thins.trans h2.thins
  quiet k hk he := h2.quiet k (h1.out k hk) (h1.quiet k hk he)

/-- A step that leaves network and containers alone. -/
theorem edited_same {m m1 : DMap} {f f1 : Flags}
    (hl : ∀ k ∈ m.saddles, ∀ i ∈ m.st.sadLinks k, i ∈ m.linkers) (hs : SameNet m m1) (ht : Thins m m1)
    (hov : (∀ k, f.over k ≠ some false) → ∀ k, f1.over k ≠ some false) (hout : ∀ k, SaddleOut f k → SaddleOut f1 k)
    (hlink : ∀ i, f.linkDisq i = true → f1.linkDisq i = true)
    (hq : ∀ k, SaddleOut f k → f.alts (.saddle k) = [] → f1.alts (.saddle k) = []) : Edited m f m1 f1 where
  net := hs.net
  summits := hs.summits
  runoffs := hs.runoffs
  feat := hs.feat
  store := hs.store
  sub := by rw [hs.saddles]
  only := by rw [hs.linkers]; exact fun _ h => h
  all := by rw [hs.linkers, hs.saddles]; exact hl
  over := hov
  out := hout
  link := hlink
  gone k hk hn := absurd (by rw [hs.saddles]; exact hk) hn
  thins := ht
  quiet := hq

theorem disqualifySelf_keeps (N : FNet) (f : Flags) (k : Nat) (basin single : Bool) :
    ((∀ k, f.over k ≠ some false) → ∀ j, (disqualifySelf N f k basin single).over j ≠ some false) ∧
      (∀ j, SaddleOut f j → SaddleOut (disqualifySelf N f k basin single) j) ∧
      ∀ i, f.linkDisq i = true → (disqualifySelf N f k basin single).linkDisq i = true := by
  refine ⟨fun hov j => ?_, fun j hj => ?_, fun i hi => by simp [disqualifySelf, hi]⟩
  · dsimp only [disqualifySelf]
    split
    · simp
    · exact hov j
  · by_cases e : j = k
    · subst e
      rcases hj with h | ⟨h, h'⟩
      · exact .inl (by simp [disqualifySelf, h])
      · by_cases c : basin = false ∧ single = false
        · exact .inl (by simp [disqualifySelf, c])
        · refine .inr ⟨?_, ?_⟩
          · cases basin <;> cases single <;> simp_all [disqualifySelf]
          · cases basin <;> cases single <;> simp_all [disqualifySelf]
    · unfold SaddleOut disqualifySelf at *
      simpa [e] using hj

theorem edited_delete {m : DMap} (f : Flags)
    (hl : ∀ k ∈ m.saddles, ∀ i ∈ m.st.sadLinks k, i ∈ m.linkers) (k : Nat) :
    Edited m f (m.softDelete f k).1 (m.softDelete f k).2 := by
  have h := culls_flags [k] (m, f)
  have c1 : (m.softDelete f k).2.basin = f.basin := h.1
  have c2 : (m.softDelete f k).2.single = f.single := h.2.1
  have c3 : ∀ j, (m.softDelete f k).2.over j = if j ∈ [k] then some true else f.over j := h.2.2.1
  have c4 : ∀ i, (m.softDelete f k).2.linkDisq i = true ↔ f.linkDisq i = true ∨ ∃ j ∈ [k], i ∈ m.st.sadLinks j := h.2.2.2
  refine edited_same hl (softDelete_same m f k) (softDelete_thins m f k).1 (fun hov j => ?_) (fun j hj => ?_)
    (fun i hi => (c4 i).2 (.inl hi)) fun j _ hj => softDelete_quiet m f k j hj
  · rw [c3]
    split
    · simp
    · exact hov j
  · by_cases e : j ∈ [k]
    · exact .inl (by rw [c3, if_pos e])
    · unfold SaddleOut
      rw [c1, c2, c3, if_neg e]
      exact hj

theorem edited_purge {m : DMap} (f : Flags)
    (hl : ∀ k ∈ m.saddles, ∀ i ∈ m.st.sadLinks k, i ∈ m.linkers) (single basin all : Bool) :
    Edited m f (m.purge f single basin all).1 (m.purge f single basin all).2 := by
  rw [purge_eq]
  have hs := culls_same (m.saddles.filter (purgeSelects f single basin all)) (m, f)
  obtain ⟨c1, c2, c3, c4⟩ := culls_flags (m.saddles.filter (purgeSelects f single basin all)) (m, f)
  have hout : ∀ k, SaddleOut f k →
      SaddleOut (List.foldl cull (m, f) (m.saddles.filter (purgeSelects f single basin all))).2 k := by
    intro k hk
    by_cases hm : k ∈ m.saddles.filter (purgeSelects f single basin all)
    · exact .inl (by rw [c3, if_pos hm])
    · unfold SaddleOut
      rw [c1, c2, c3, if_neg hm]
      exact hk
  refine ⟨hs.net, hs.summits, hs.runoffs, hs.feat, hs.store, List.filter_sublist, fun i hi => ?_, fun k hk i hi => ?_,
    fun hov k => ?_, hout, fun i hi => (c4 i).2 (.inl hi), fun k hk hn => ?_,
    (culls_thins _ (m, f)).congr rfl, fun k _ hk => culls_quiet _ (m, f) k hk⟩
  · obtain ⟨k, hk, hi⟩ := List.mem_flatMap.1 hi
    exact hl k (List.mem_filter.1 hk).1 i hi
  · exact List.mem_flatMap.2 ⟨k, hk, hi⟩
  · rw [c3]
    split
    · simp
    · exact hov k
  · have hm : k ∈ m.saddles.filter (purgeSelects f single basin all) := by
      rw [List.mem_filter] at hn ⊢
      refine ⟨hk, ?_⟩
      by_contra hc
      exact hn ⟨hk, by simpa using hc⟩
    exact .inl (by rw [c3, if_pos hm])

theorem edited_detect {m : DMap} {f f1 : Flags}
    (hl : ∀ k ∈ m.saddles, ∀ i ∈ m.st.sadLinks k, i ∈ m.linkers) {fuel : Nat} (h1 : m.detectBasins fuel f = .ok f1) :
    Edited m f m f1 := by
  obtain ⟨s1, s2, s3, s4, s5⟩ := stubPass_spec m.net (basinFeatures m.net m.saddles) f
  have hm := basins_marked h1
  refine edited_same hl (.refl m) (.refl m) (fun hov => ?_) (fun k hk => (marked_out h1 k).2 (.inl hk))
    (fun i hi => hm.link i ((s5 i).2 (.inl hi))) fun k hk he => ?_
  · rw [hm.over, s1]
    exact hov
  · rw [detect_aloof h1 hk, he]

/-- Every call does. -/
theorem edited_edit {m m1 : DMap} {f f1 : Flags}
    (hl : ∀ k ∈ m.saddles, ∀ i ∈ m.st.sadLinks k, i ∈ m.linkers) {fuel : Nat} (c : EditCall)
    (h : DMap.edit fuel (m, f) c = .ok (m1, f1)) : Edited m f m1 f1 := by
  cases c with
  | map c =>
    cases c with
    | detect =>
      unfold DMap.edit DMap.call at h
      cases hd : m.detectBasins fuel f with
      | error e => rw [hd] at h; cases h
      | ok f2 =>
        rw [hd] at h
        cases h
        exact edited_detect hl hd
    | purge a b c => cases h; exact edited_purge f hl a b c
  | delete k => cases h; exact edited_delete f hl k
  | disqualify k b s =>
    cases h
    obtain ⟨h1, h2, h4⟩ := disqualifySelf_keeps m.net f k b s
    exact edited_same hl (.refl m) (.refl m) h1 h2 h4 fun _ _ h => h
  | override k =>
    cases h
    refine edited_same hl (.refl m) (.refl m) (fun hov j => ?_) (fun j hj => ?_) (fun _ h => h) fun _ _ h => h
    · dsimp only
      split
      · simp
      · exact hov j
    · by_cases e : j = k
      · exact .inl (by simp [e])
      · simpa [SaddleOut, e] using hj
  | emancipate k =>
    cases h
    exact edited_same hl (emancipate_same m k) (emancipate_thins m k) (fun h => h) (fun _ h => h) (fun _ h => h)
      fun _ _ h => h
  | disown k =>
    cases h
    exact edited_same hl (disown_same m k) (disown_thins m k).1 (fun h => h) (fun _ h => h) (fun _ h => h)
      fun _ _ h => h

theorem Edited.whole {m m1 : DMap} {f f1 : Flags} (h : Edited m f m1 f1) :
    ∀ k ∈ m1.saddles, ∀ i ∈ m1.st.sadLinks k, i ∈ m1.linkers := by
  rw [show m1.st.sadLinks = m.st.sadLinks from congrArg FNet.sadLinks h.net]
  exact h.all

theorem edits_cons {fuel : Nat} (mf : DMap × Flags) (c : EditCall) (cs : List EditCall) :
    DMap.edits fuel mf (c :: cs) = (DMap.edit fuel mf c).bind fun r => DMap.edits fuel r cs := by
  conv_lhs => unfold DMap.edits
  cases DMap.edit fuel mf c <;> rfl

/-- Sequences of calls do, on any map. -/
theorem edited_edits {m m1 : DMap} {f f1 : Flags}
    (hl : ∀ k ∈ m.saddles, ∀ i ∈ m.st.sadLinks k, i ∈ m.linkers) {fuel : Nat} (cs : List EditCall)
    (h : DMap.edits fuel (m, f) cs = .ok (m1, f1)) : Edited m f m1 f1 := by
  induction cs generalizing m f with
  | nil => cases h; exact .refl hl
  | cons c cs ih =>
    rw [edits_cons] at h
    obtain ⟨⟨m2, f2⟩, h1, h2⟩ := bind_ok h
    have e := edited_edit hl c h1
    exact e.trans (ih e.whole h2)

/-- What detection needs to finish is kept. -/
theorem Edited.fin {m m1 : DMap} {f f1 : Flags} (h : Edited m f m1 f1) (hN : NetFin m.net m.saddles f) :
    NetFin m1.net m1.saddles f1 := by
  rw [h.net]
  exact ⟨hN.sum, hN.sad, fun k hk => hN.bound k (h.sub.subset hk), h.over hN.over⟩

/-- What detection needs to work properly is kept. -/
theorem Edited.ok {m m1 : DMap} {f f1 : Flags} (h : Edited m f m1 f1) (hN : NetOk m.net m.saddles f) :
    NetOk m1.net m1.saddles f1 := by
  rw [h.net]
  refine ⟨hN.sad, hN.sum, hN.sumOnce, hN.two, hN.above, hN.range, fun k hk => hN.bound k (h.sub.subset hk),
    fun k D ha hD => ?_, hN.eqElev, hN.setEq, h.over hN.over⟩
  by_contra hn
  exact ha.1 (h.gone k (hN.listed k D (h.alive _ ha) hD) hn)

theorem Edited.fuel {m m1 : DMap} {f f1 : Flags} (h : Edited m f m1 f1) {fuel : Nat}
    (hfuel : m.saddles.length + m.st.objs.length < fuel) : m1.saddles.length + m1.st.objs.length < fuel := by
  have : m1.st.objs.length = m.st.objs.length := congrArg FNet.nSaddles h.net
  have := h.sub.length_le
  omega

/-- No call fails. -/
theorem edits_return {m : DMap} {f : Flags} (hN : NetFin m.net m.saddles f)
    (hl : ∀ k ∈ m.saddles, ∀ i ∈ m.st.sadLinks k, i ∈ m.linkers) {fuel : Nat}
    (hfuel : m.saddles.length + m.st.objs.length < fuel) (cs : List EditCall) :
    ∃ m1 f1, DMap.edits fuel (m, f) cs = .ok (m1, f1) := by
  induction cs generalizing m f with
  | nil => exact ⟨m, f, rfl⟩
  | cons c cs ih =>
    have h1 : ∃ m1 f1, DMap.edit fuel (m, f) c = .ok (m1, f1) := by
      cases c with
      | map c =>
        cases c with
        | detect =>
          obtain ⟨f1, h1⟩ := basin_terminates hN (show m.saddles.length + m.net.nSaddles < fuel from hfuel)
          refine ⟨m, f1, ?_⟩
          unfold DMap.edit DMap.call
          rw [show m.detectBasins fuel f = .ok f1 from h1]
          rfl
        | purge a b c => exact ⟨_, _, rfl⟩
      | _ => exact ⟨_, _, rfl⟩
    obtain ⟨m1, f1, h1⟩ := h1
    have e := edited_edit hl c h1
    obtain ⟨m2, f2, h2⟩ := ih (e.fin hN) e.whole (e.fuel hfuel)
    refine ⟨m2, f2, ?_⟩
    rw [edits_cons, h1]
    exact h2

theorem edits_append {fuel : Nat} (cs ds : List EditCall) (mf : DMap × Flags) :
    DMap.edits fuel mf (cs ++ ds) = (DMap.edits fuel mf cs).bind fun r => DMap.edits fuel r ds := by
  induction cs generalizing mf with
  | nil => rfl
  | cons c cs ih =>
    rw [List.cons_append, edits_cons, edits_cons]
    cases DMap.edit fuel mf c with
    | ok r => exact ih r
    | error e => rfl

end PyProm
