import Verif.Proof.DomainMap
import Verif.Proof.Basin
import Mathlib.Data.List.Induction

/-
Basin saddle detection on a network from whose lists repeated linkers were dropped.
-/
namespace PyProm
open Spec

/-- The network with the linkers in `b` only; the others are no longer listed by their ends. -/
def FNet.thin (N : FNet) (b : Nat → Bool) : FNet :=
  { N with sumLinks := fun D => (N.sumLinks D).filter b, sadLinks := fun k => (N.sadLinks k).filter b }

/-- The flags agree but for the linkers that are not in `b`; these have the flags `z` in the second. -/
structure FlagsThin (b z : Nat → Bool) (f g : Flags) : Prop where
  basin : g.basin = f.basin
  single : g.single = f.single
  over : g.over = f.over
  alts : g.alts = f.alts
  linkDisq : ∀ i, b i = true → g.linkDisq i = f.linkDisq i
  rest : ∀ i, b i = false → g.linkDisq i = z i

/-- Repeated linkers only: a dropped linker of a summit comes after another one to the same saddle, a dropped linker of a
saddle after another one to the same summit. -/
structure Repeats (N : FNet) (b : Nat → Bool) (slim : Nat → Prop) : Prop where
  sum : ∀ D pre i post, N.sumLinks D = pre ++ i :: post → b i = false →
    slim (N.link i).2 ∧ ∃ j ∈ pre, (N.link j).2 = (N.link i).2
  sad : ∀ k pre i post, N.sadLinks k = pre ++ i :: post → b i = false →
    slim k ∧ (∃ j ∈ pre, (N.link j).1 = (N.link i).1) ∧ N.setEq (N.link i).1 (N.link i).1 = true

section
variable {N : FNet} {b z₀ : Nat → Bool} {slim : Nat → Prop}

theorem FlagsThin.saddleDisq {f g : Flags} (h : FlagsThin b z₀ f g) (k : Nat) : g.saddleDisq k = f.saddleDisq k := by
  unfold Flags.saddleDisq
  rw [h.over, h.single, h.basin]

theorem thin_dead {f g : Flags} (h : FlagsThin b z₀ f g) (n : Node) : (N.thin b).dead g n = N.dead f n := by
  unfold FNet.dead
  congr 1
  cases n with
  | summit D => rfl
  | saddle k => exact h.saddleDisq k

theorem thin_disqualify {f g : Flags} (h : FlagsThin b z₀ f g) (k : Nat) (x y : Bool) :
    FlagsThin b z₀ (disqualifySelf N f k x y) (disqualifySelf (N.thin b) g k x y) := by
  refine ⟨?_, ?_, ?_, h.alts, fun i hi => ?_, fun i hi => ?_⟩ <;> simp only [disqualifySelf]
  · rw [h.basin]
  · rw [h.single]
  · rw [h.over]
  · rw [h.linkDisq i hi]
    congr 1
    refine decide_eq_decide.2 ?_
    simp only [FNet.thin, List.mem_filter, hi, and_true]
  · rw [h.rest i hi]
    simp [FNet.thin, hi]

theorem thin_label {f g : Flags} (h : FlagsThin b z₀ f g) {lo : List Node} {r : Flags}
    (hr : disqualifyAndLabel N f lo = .ok r) :
    ∃ r', disqualifyAndLabel (N.thin b) g lo = .ok r' ∧ FlagsThin b z₀ r r' := by
  cases lo with
  | nil => cases hr
  | cons n lo =>
    cases n with
    | summit D => cases hr
    | saddle k =>
      have hd := thin_disqualify (N := N) h k true false
      simp only [disqualifyAndLabel] at hr ⊢
      split at hr
      · rename_i hlen
        rw [if_pos hlen]
        split at hr
        · cases hr
        · rename_i hall
          rw [if_neg hall]
          cases hr
          refine ⟨_, rfl, hd.basin, hd.single, hd.over, ?_, hd.linkDisq, hd.rest⟩
          dsimp only
          rw [hd.alts]
          rfl
      · rename_i hlen
        rw [if_neg hlen]
        cases hr
        exact ⟨_, rfl, hd⟩

theorem thin_nbr {root z nbr : Node} {s r : DSt} {g : Flags} (h : FlagsThin b z₀ s.flags g)
    (hr : exploreNbr N root z s nbr = .ok r) :
    ∃ g', exploreNbr (N.thin b) root z { s with flags := g } nbr = .ok { r with flags := g' } ∧
      FlagsThin b z₀ r.flags g' := by
  unfold exploreNbr at hr ⊢
  rw [show (N.thin b).dead ({ s with flags := g } : DSt).flags nbr = N.dead s.flags nbr from thin_dead h nbr]
  by_cases hd : N.dead s.flags nbr = true
  · rw [if_pos hd] at hr ⊢
    cases hr
    exact ⟨g, rfl, h⟩
  · rw [if_neg hd] at hr ⊢
    dsimp only
    cases hu : s.used nbr with
    | none =>
      rw [hu] at hr
      cases hr
      exact ⟨g, rfl, h⟩
    | some pn =>
      rw [hu] at hr
      dsimp only at hr ⊢
      rw [show (N.thin b).eq nbr z = N.eq nbr z from rfl]
      by_cases he : N.eq nbr z = true
      · rw [if_pos he] at hr ⊢
        cases hr
        exact ⟨g, rfl, h⟩
      · rw [if_neg he] at hr ⊢
        by_cases hm : nbr ∈ (s.used z).getD []
        · rw [if_pos hm] at hr ⊢
          cases hr
          exact ⟨g, rfl, h⟩
        · rw [if_neg hm] at hr ⊢
          cases hl : s.look z with
          | none => rw [hl] at hr; cases hr
          | some p =>
            rw [hl] at hr
            dsimp only at hr ⊢
            obtain ⟨c, c1, c2⟩ := bind_ok hr
            obtain ⟨f', d1, d2⟩ := bind_ok c2
            cases d2
            obtain ⟨g', e1, e2⟩ := thin_label h d1
            rw [c1]
            dsimp only [bind, Except.bind]
            rw [show (N.thin b).elev = N.elev from rfl, e1]
            exact ⟨g', rfl, e2⟩

/-- What is dead stays so, and features are only removed. -/
structure Later (N : FNet) (s r : DSt) : Prop where
  dead : ∀ n, N.dead s.flags n = true → N.dead r.flags n = true
  feats : ∀ k ∈ r.feats, k ∈ s.feats

theorem Later.refl (N : FNet) (s : DSt) : Later N s s := ⟨fun _ h => h, fun _ h => h⟩

theorem Later.trans {s t r : DSt} (h : Later N s t) (g : Later N t r) : Later N s r :=
  ⟨fun n hn => g.dead n (h.dead n hn), fun k hk => h.feats k (g.feats k hk)⟩

theorem disq_mono {f g : Flags} (h1 : g.over = f.over) (h2 : ∀ k, f.single k = true → g.single k = true)
    (h3 : ∀ k, f.basin k = true → g.basin k = true) (n : Node) (h : N.dead f n = true) : N.dead g n = true := by
  unfold FNet.dead at h ⊢
  rw [Bool.or_eq_true] at h ⊢
  refine h.imp_left fun h => ?_
  cases n with
  | summit D => exact h
  | saddle k =>
    simp only [FNet.disq, Flags.saddleDisq] at h ⊢
    rw [h1]
    cases ho : f.over k with
    | some x => rw [ho] at h; exact h
    | none =>
      rw [ho] at h
      simp only [Bool.or_eq_true] at h ⊢
      exact h.imp (h2 k) (h3 k)

theorem label_later {f r : Flags} {lo : List Node} (hr : disqualifyAndLabel N f lo = .ok r) (n : Node)
    (h : N.dead f n = true) : N.dead r n = true := by
  cases lo with
  | nil => cases hr
  | cons m lo =>
    cases m with
    | summit D => cases hr
    | saddle k =>
      have key : ∀ g : Flags, g.over = (disqualifySelf N f k true false).over →
          g.single = (disqualifySelf N f k true false).single → g.basin = (disqualifySelf N f k true false).basin →
          N.dead g n = true := by
        intro g g1 g2 g3
        refine disq_mono (f := f) ?_ (fun j hj => ?_) (fun j hj => ?_) n h
        · rw [g1]
          funext j
          simp [disqualifySelf]
        · rw [g2]
          simp [disqualifySelf, hj]
        · rw [g3]
          simp only [disqualifySelf, hj]
          split <;> rfl
      simp only [disqualifyAndLabel] at hr
      split at hr
      · split at hr
        · cases hr
        · cases hr
          exact key _ rfl rfl rfl
      · cases hr
        exact key _ rfl rfl rfl

theorem nbr_later {root z nbr : Node} {s r : DSt} (hr : exploreNbr N root z s nbr = .ok r) : Later N s r := by
  unfold exploreNbr at hr
  split at hr
  · cases hr
    exact ⟨fun _ h => h, fun k hk => (List.mem_filter.1 hk).1⟩
  · split at hr
    · cases hr
      exact ⟨fun _ h => h, fun _ h => h⟩
    · split at hr
      · cases hr
        exact Later.refl _ _
      · split at hr
        · cases hr
          exact Later.refl _ _
        · split at hr
          · cases hr
          · obtain ⟨c, c1, c2⟩ := bind_ok hr
            obtain ⟨f', d1, d2⟩ := bind_ok c2
            cases d2
            exact ⟨fun n hn => label_later d1 n hn, fun _ h => h⟩

theorem nbrs_later {root z : Node} : ∀ (l : List Node) (s r : DSt), l.foldlM (exploreNbr N root z) s = .ok r → Later N s r
  | [], s, r, h => by cases h; exact Later.refl _ _
  | n :: l, s, r, h => by
    rw [List.foldlM_cons] at h
    obtain ⟨t, h1, h2⟩ := bind_ok h
    exact (nbr_later h1).trans (nbrs_later l t r h2)

/-- A dead saddle among the neighbours is no longer a feature afterwards. -/
theorem nbrs_popped {root z : Node} {k : Nat} : ∀ (l : List Node) (s r : DSt),
    l.foldlM (exploreNbr N root z) s = .ok r → Node.saddle k ∈ l → N.dead s.flags (.saddle k) = true → k ∉ r.feats
  | [], _, _, _, hk, _ => by cases hk
  | n :: l, s, r, h, hk, hd => by
    rw [List.foldlM_cons] at h
    obtain ⟨t, h1, h2⟩ := bind_ok h
    rcases List.mem_cons.1 hk with rfl | hk
    · intro hc
      have := (nbrs_later l t r h2).feats k hc
      unfold exploreNbr at h1
      rw [if_pos hd] at h1
      cases h1
      simp [popFeature] at this
    · exact nbrs_popped l t r h2 hk ((nbr_later h1).dead _ hd)

/-- A dead saddle that is no feature any more has no effect. -/
theorem nbr_idle {root z : Node} {s : DSt} {k : Nat} (hd : N.dead s.flags (.saddle k) = true) (hk : k ∉ s.feats) :
    exploreNbr N root z s (.saddle k) = .ok s := by
  unfold exploreNbr
  rw [if_pos hd]
  have : popFeature s.feats (.saddle k) = s.feats := by
    refine List.filter_eq_self.2 fun j hj => decide_eq_true fun e => hk ?_
    cases e
    exact hj
  rw [this]

theorem thin_fold {root z : Node} (v : Nat → Node) (s : DSt) {g : Flags} (h : FlagsThin b z₀ s.flags g) : ∀ (l : List Nat),
    (∀ pre i post, l = pre ++ i :: post → b i = false → ∃ k, v i = .saddle k ∧ N.dead s.flags (.saddle k) = true ∧
      ∃ j ∈ pre, v j = v i) → ∀ r, (l.map v).foldlM (exploreNbr N root z) s = .ok r →
    ∃ g', ((l.filter b).map v).foldlM (exploreNbr (N.thin b) root z) { s with flags := g } =
      .ok { r with flags := g' } ∧ FlagsThin b z₀ r.flags g' := by
  intro l
  induction l using List.reverseRecOn with
  | nil =>
    intro _ r hr
    cases hr
    exact ⟨g, rfl, h⟩
  | append_singleton l i ih =>
    intro hl r hr
    rw [List.map_append, List.foldlM_append] at hr
    obtain ⟨t, t1, t2⟩ := bind_ok hr
    have t3 : exploreNbr N root z t (v i) = .ok r := by
      rw [List.map_singleton, List.foldlM_cons] at t2
      obtain ⟨x, x1, x2⟩ := bind_ok t2
      cases x2
      exact x1
    obtain ⟨g', e1, e2⟩ := ih (fun pre j post e hj => hl pre j (post ++ [i]) (by rw [e]; simp) hj) t t1
    cases hb : b i with
    | true =>
      obtain ⟨g'', d1, d2⟩ := thin_nbr (root := root) (z := z) e2 t3
      refine ⟨g'', ?_, d2⟩
      rw [List.filter_append, List.filter_cons_of_pos hb, List.filter_nil, List.map_append, List.foldlM_append, e1]
      dsimp only [bind, Except.bind]
      rw [List.map_singleton, List.foldlM_cons, d1]
      rfl
    | false =>
      obtain ⟨k, hk, hd, j, hj, hv⟩ := hl l i [] rfl hb
      rw [hk] at t3 hv
      have hp := nbrs_popped (k := k) _ _ _ t1 (List.mem_map.2 ⟨j, hj, hv⟩) hd
      rw [nbr_idle ((nbrs_later _ _ _ t1).dead _ hd) hp] at t3
      cases t3
      refine ⟨g', ?_, e2⟩
      rw [List.filter_append, List.filter_cons_of_neg (by rw [hb]; simp), List.filter_nil, List.append_nil]
      exact e1

theorem thin_nbrs (hR : Repeats N b slim) {root z : Node} {s : DSt} {g : Flags} (h : FlagsThin b z₀ s.flags g)
    (hs : ∀ k, slim k → N.dead s.flags (.saddle k) = true) (hz : N.dead s.flags z = false) {r : DSt}
    (hr : (N.nbrs z).foldlM (exploreNbr N root z) s = .ok r) :
    ∃ g', ((N.thin b).nbrs z).foldlM (exploreNbr (N.thin b) root z) { s with flags := g } = .ok { r with flags := g' } ∧
      FlagsThin b z₀ r.flags g' := by
  cases z with
  | summit D =>
    refine thin_fold (fun i => .saddle (N.link i).2) s h (N.sumLinks D) (fun pre i post e hb => ?_) r hr
    obtain ⟨h1, j, hj, h2⟩ := hR.sum D pre i post e hb
    exact ⟨_, rfl, hs _ h1, j, hj, by rw [h2]⟩
  | saddle k =>
    refine thin_fold (fun i => .summit (N.link i).1) s h (N.sadLinks k) (fun pre i post e hb => ?_) r hr
    rw [hs k (hR.sad k pre i post e hb).1] at hz
    cases hz

theorem thin_explore (hR : Repeats N b slim) {root : Node} : ∀ (n : Nat) (s : DSt) (g : Flags), FlagsThin b z₀ s.flags g →
    (∀ k, slim k → N.dead s.flags (.saddle k) = true) → ∀ r, exploreLoop N root n s = .ok r →
    ∃ g', exploreLoop (N.thin b) root n { s with flags := g } = .ok { r with flags := g' } ∧ FlagsThin b z₀ r.flags g' ∧
      ∀ k, slim k → N.dead r.flags (.saddle k) = true := by
  intro n
  induction n with
  | zero => intro _ _ _ _ r h1; cases h1
  | succ n ih =>
    intro s g h hs r hr
    unfold exploreLoop at hr ⊢
    dsimp only
    cases hst : s.stack with
    | nil =>
      rw [hst] at hr
      cases hr
      exact ⟨g, by rw [hst], h, hs⟩
    | cons z rest =>
      rw [hst] at hr
      dsimp only at hr ⊢
      rw [thin_dead h z]
      by_cases hd : N.dead s.flags z = true
      · rw [if_pos hd] at hr ⊢
        exact ih { s with stack := rest, feats := popFeature s.feats z } g h hs r hr
      · rw [if_neg hd] at hr ⊢
        cases e1 : (N.nbrs z).foldlM (exploreNbr N root z) { s with stack := rest } with
        | error e => rw [e1] at hr; cases hr
        | ok t =>
          rw [e1] at hr
          obtain ⟨g', d1, d2⟩ := thin_nbrs hR (s := { s with stack := rest }) h hs (by simpa using hd) e1
          have : ((N.thin b).nbrs z).foldlM (exploreNbr (N.thin b) root z) { s with stack := rest, flags := g } =
              .ok { t with flags := g' } := d1
          rw [this]
          exact ih t g' d2 (fun k hk => (nbrs_later _ _ _ e1).dead _ (hs k hk)) r hr

theorem thin_loop (hR : Repeats N b slim) : ∀ (n : Nat) (f g : Flags) (feats : List Nat), FlagsThin b z₀ f g →
    (∀ k, slim k → N.dead f (.saddle k) = true) → ∀ r, basinLoop N n f feats = .ok r →
    ∃ r', basinLoop (N.thin b) n g feats = .ok r' ∧ FlagsThin b z₀ r r' := by
  intro n
  induction n with
  | zero => intro _ _ _ _ _ r h1; cases h1
  | succ n ih =>
    intro f g feats h hs r hr
    unfold basinLoop at hr ⊢
    cases hl : feats.getLast? with
    | none =>
      rw [hl] at hr
      cases hr
      exact ⟨g, rfl, h⟩
    | some k =>
      rw [hl] at hr
      dsimp only at hr ⊢
      rw [thin_dead h (.saddle k)]
      by_cases hd : N.dead f (.saddle k) = true
      · rw [if_pos hd] at hr ⊢
        exact ih f g _ h hs r hr
      · rw [if_neg hd] at hr ⊢
        cases e1 : exploreLoop N (.saddle k) (N.nSummits + N.nSaddles + 2) (.start (.saddle k) f feats.dropLast) with
        | error e => rw [e1] at hr; cases hr
        | ok t =>
          rw [e1] at hr
          obtain ⟨g', d1, d2, d3⟩ := thin_explore hR _ (.start (.saddle k) f feats.dropLast) g h hs t e1
          have : exploreLoop (N.thin b) (.saddle k) ((N.thin b).nSummits + (N.thin b).nSaddles + 2)
              (.start (.saddle k) g feats.dropLast) = .ok { t with flags := g' } := d1
          rw [this]
          exact ih t.flags g' _ d2 d3 r hr

/-! ### Saddles of one summit -/

theorem unique_thin (hR : Repeats N b slim) (k : Nat) :
    uniqueSummits (N.thin b) (((N.thin b).sadLinks k).map fun i => ((N.thin b).link i).1) =
      uniqueSummits N ((N.sadLinks k).map fun i => (N.link i).1) := by
  have e0 : uniqueSummits (N.thin b) = uniqueSummits N := rfl
  rw [e0]
  change uniqueSummits N (((N.sadLinks k).filter b).map fun i => (N.link i).1) = _
  have hin : ∀ (l : List Nat) x, x ∈ l → N.setEq x x = true → (uniqueSummits N l).any (fun y => N.setEq x y) = true := by
    intro l
    induction l using List.reverseRecOn with
    | nil => intro x hx; cases hx
    | append_singleton l a ih =>
      intro x hx hxx
      unfold uniqueSummits at ih ⊢
      rw [List.foldl_append, List.foldl_cons, List.foldl_nil]
      rcases List.mem_append.1 hx with hx | hx
      · have := ih x hx hxx
        split
        · exact this
        · rw [List.any_append, this, Bool.true_or]
      · rw [List.mem_singleton] at hx
        subst hx
        split
        · assumption
        · simp [hxx]
  have key : ∀ (l : List Nat), (∀ pre i post, l = pre ++ i :: post → b i = false →
      (∃ j ∈ pre, (N.link j).1 = (N.link i).1) ∧ N.setEq (N.link i).1 (N.link i).1 = true) →
      uniqueSummits N ((l.filter b).map fun i => (N.link i).1) = uniqueSummits N (l.map fun i => (N.link i).1) := by
    intro l
    induction l using List.reverseRecOn with
    | nil => exact fun _ => rfl
    | append_singleton l i ih =>
      intro hl
      have ih := ih fun pre j post e hj => hl pre j (post ++ [i]) (by rw [e]; simp) hj
      cases hb : b i with
      | true =>
        rw [List.filter_append, List.filter_cons_of_pos hb, List.filter_nil, List.map_append, List.map_append]
        unfold uniqueSummits at ih ⊢
        rw [List.foldl_append, List.foldl_append, ih]
      | false =>
        rw [List.filter_append, List.filter_cons_of_neg (by rw [hb]; simp), List.filter_nil, List.append_nil, ih]
        obtain ⟨⟨j, hj, e⟩, hrefl⟩ := hl l i [] rfl hb
        have := hin (l.map fun i => (N.link i).1) (N.link i).1 (List.mem_map.2 ⟨j, hj, e⟩) hrefl
        unfold uniqueSummits at this ⊢
        rw [List.map_append, List.foldl_append, List.map_singleton, List.foldl_cons, List.foldl_nil, if_pos this]
  exact key _ fun pre i post e hi => ((hR.sad k pre i post e hi).2)

theorem thin_single (hR : Repeats N b slim) {f g : Flags} (h : FlagsThin b z₀ f g) (k : Nat) :
    FlagsThin b z₀ (singleSource N f k) (singleSource (N.thin b) g k) := by
  unfold singleSource
  rw [unique_thin hR]
  split
  · exact thin_disqualify h k false true
  · exact h

theorem thin_stubs (hR : Repeats N b slim) : ∀ (feats : List Nat) (f g : Flags), FlagsThin b z₀ f g →
    FlagsThin b z₀ (stubPass N feats f) (stubPass (N.thin b) feats g) := by
  intro feats
  induction feats with
  | nil => exact fun _ _ h => h
  | cons k feats ih =>
    intro f g h
    simp only [stubPass, List.foldl_cons]
    refine ih _ _ ?_
    rw [h.saddleDisq k]
    split
    · exact h
    · exact thin_single hR h k

theorem single_later {f : Flags} (k : Nat) (n : Node) (h : N.dead f n = true) : N.dead (singleSource N f k) n = true := by
  unfold singleSource
  split
  · refine disq_mono (f := f) ?_ (fun j hj => ?_) (fun j hj => ?_) n h
    · funext j
      simp [disqualifySelf]
    · simp only [disqualifySelf, hj]
      split <;> rfl
    · simp [disqualifySelf, hj]
  · exact h

theorem stubs_later : ∀ (feats : List Nat) (f : Flags) (n : Node), N.dead f n = true → N.dead (stubPass N feats f) n = true := by
  intro feats
  induction feats with
  | nil => exact fun _ _ h => h
  | cons k feats ih =>
    intro f n h
    simp only [stubPass, List.foldl_cons]
    refine ih _ n ?_
    split
    · exact h
    · exact single_later k n h

/-- Saddles with linkers to one summit only are dead after the first pass. -/
theorem stubs_dead : ∀ (feats : List Nat) (f : Flags) (k : Nat), k ∈ feats → (∀ j, f.over j ≠ some false) →
    (uniqueSummits N ((N.sadLinks k).map fun i => (N.link i).1)).length ≤ 1 →
    N.dead (stubPass N feats f) (.saddle k) = true := by
  intro feats
  induction feats with
  | nil => intro f k hk; cases hk
  | cons a feats ih =>
    intro f k hk ho hu
    simp only [stubPass, List.foldl_cons]
    rcases List.mem_cons.1 hk with rfl | hk
    · refine stubs_later feats _ _ ?_
      split
      · rename_i hd
        simp [FNet.dead, FNet.disq, hd]
      · unfold singleSource
        rw [if_pos hu]
        have h1 : (disqualifySelf N f k false true).over k = f.over k := by simp [disqualifySelf]
        have h2 : (disqualifySelf N f k false true).single k = true := by simp [disqualifySelf]
        simp only [FNet.dead, FNet.disq, Flags.saddleDisq, h1, h2]
        have := ho k
        cases hx : f.over k with
        | none => rfl
        | some x => cases x with
          | true => rfl
          | false => exact absurd hx this
    · refine ih _ k hk (fun j => ?_) hu
      have : (if f.saddleDisq a = true then f else singleSource N f a).over = f.over := by
        split
        · rfl
        · unfold singleSource
          split
          · funext j
            simp [disqualifySelf]
          · rfl
      rw [this]
      exact ho j

/-- Detection on the thin network. -/
theorem thin_detect (hR : Repeats N b slim) {saddles : List Nat} {f g : Flags} (h : FlagsThin b z₀ f g)
    (ho : ∀ j, f.over j ≠ some false)
    (hs : ∀ k, slim k → N.edge (.saddle k) = true ∨ (k ∈ saddles ∧
      (uniqueSummits N ((N.sadLinks k).map fun i => (N.link i).1)).length ≤ 1)) {n : Nat} {r : Flags}
    (hr : disqualifyBasinSaddles N n saddles f = .ok r) :
    ∃ r', disqualifyBasinSaddles (N.thin b) n saddles g = .ok r' ∧ FlagsThin b z₀ r r' := by
  unfold disqualifyBasinSaddles at hr ⊢
  have e : basinFeatures (N.thin b) saddles = basinFeatures N saddles := rfl
  rw [e]
  refine thin_loop hR n _ _ _ (thin_stubs hR _ _ _ h) (fun k hk => ?_) r hr
  rcases hs k hk with he | ⟨hk', hu⟩
  · simp [FNet.dead, he]
  · refine stubs_dead _ f k ?_ ho hu
    unfold basinFeatures
    exact ((sortElev_perm _ _).mem_iff).2 ((mem_toSet _ _).2 hk')

end
end PyProm
