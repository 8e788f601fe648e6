import Verif.Proof.BasinAlts

/-
Basin detection marks saddles only that are off the edge and neither exempted nor disqualified otherwise, on every network.
-/
namespace PyProm
open Spec

/-- Off the edge, and, of a saddle, disqualified neither by hand nor as single-source. -/
def Markable (N : FNet) (f : Flags) (n : Node) : Prop :=
  N.edge n = false ∧ ∀ k, n = .saddle k → f.over k ≠ some true ∧ (f.over k = none → f.single k = false)

theorem inner_of_live {N : FNet} {f f' : Flags} (h : Marked N f f') {n : Node} (hn : ¬ N.dead f' n = true) : Markable N f n := by
  unfold FNet.dead at hn
  rw [Bool.or_eq_true, not_or, Bool.not_eq_true, Bool.not_eq_true] at hn
  refine ⟨hn.2, ?_⟩
  rintro k rfl
  have h1 : f'.saddleDisq k = false := hn.1
  unfold Flags.saddleDisq at h1
  rw [h.over, h.single] at h1
  rcases ho : f.over k with _ | _ | _ <;> rw [ho] at h1 <;> simp_all

/-- What the search has seen and marked is inner. -/
structure InnerSt (N : FNet) (f : Flags) (s : DSt) : Prop where
  marked : Marked N f s.flags
  look : ∀ n q, s.look n = some q → Markable N f q
  used : ∀ n pn, s.used n = some pn → ∀ x ∈ pn, Markable N f x
  basin : ∀ j, s.flags.basin j = true → f.basin j = true ∨ Markable N f (.saddle j)

theorem climbBack_inner {N : FNet} {f : Flags} {look : Node → Option Node} {root : Node} {pn : List Node}
    (hl : ∀ n q, look n = some q → Markable N f q) : ∀ (n : Nat) (cycle c : List Node) (p : Node), (∀ x ∈ cycle, Markable N f x) →
    Markable N f p → climbBack look root pn n cycle p = .ok c → ∀ x ∈ c, Markable N f x
  | 0, _, _, _, _, _, h => by cases h
  | n + 1, cycle, c, p, hc, hp, h => by
    have hcp : ∀ x ∈ cycle ++ [p], Markable N f x := fun x hx => by
      rcases List.mem_append.1 hx with hx | hx
      · exact hc x hx
      · rw [List.mem_singleton.1 hx]; exact hp
    unfold climbBack at h
    split at h
    · cases h; exact hcp
    · split at h
      · cases h
      · rename_i q hq
        split at h
        · cases h
          intro x hx
          rcases List.mem_append.1 hx with hx | hx
          · exact hcp x hx
          · rw [List.mem_singleton.1 hx]; exact hl p q hq
        · exact climbBack_inner hl n _ c q hcp (hl p q hq) h

theorem label_basin {N : FNet} {f f' : Flags} {low : List Node} (h : disqualifyAndLabel N f low = .ok f') {j : Nat}
    (hj : f'.basin j = true) : f.basin j = true ∨ Node.saddle j ∈ low := by
  unfold disqualifyAndLabel at h
  split at h
  · cases h
  · cases h
  · rename_i k _
    have key : (disqualifySelf N f k true false).basin j = true → f.basin j = true ∨ j = k := fun h => by
      simp only [disqualifySelf, Bool.true_and, decide_eq_true_eq] at h
      by_cases hjk : j = k
      · exact .inr hjk
      · rw [if_neg hjk] at h; exact .inl h
    have : f.basin j = true ∨ j = k := by
      dsimp only at h
      split at h
      · split at h
        · cases h
        · cases h; exact key hj
      · cases h; exact key hj
    exact this.imp id fun e => by simp [e]

theorem exploreNbr_inner {N : FNet} {f : Flags} {root z nbr : Node} {s s' : DSt} (hs : InnerSt N f s) (hz : Markable N f z)
    (h : exploreNbr N root z s nbr = .ok s') : InnerSt N f s' := by
  have hm := hs.marked.trans (exploreNbr_marked h)
  unfold exploreNbr at h
  split at h
  · cases h; exact ⟨hs.marked, hs.look, hs.used, hs.basin⟩
  · rename_i hd
    have hn := inner_of_live hs.marked hd
    split at h
    · cases h
      refine ⟨hs.marked, fun n q hq => ?_, fun n pn hp x hx => ?_, hs.basin⟩
      · dsimp only at hq
        split at hq
        · cases hq; exact hz
        · exact hs.look n q hq
      · dsimp only at hp
        split at hp
        · cases hp
          rw [List.mem_singleton.1 hx]; exact hz
        · exact hs.used n pn hp x hx
    · rename_i pn hpn
      split at h
      · cases h; exact hs
      · split at h
        · cases h; exact hs
        · split at h
          · cases h
          · rename_i p hp
            obtain ⟨c, hc, h⟩ := bind_ok h
            obtain ⟨g, hg, h⟩ := bind_ok h
            cases h
            refine ⟨hm, hs.look, fun n pn' hp' x hx => ?_, fun j hj => ?_⟩
            · dsimp only at hp'
              split at hp'
              · cases hp'
                rcases List.mem_append.1 hx with hx | hx
                · exact hs.used nbr pn hpn x hx
                · rw [List.mem_singleton.1 hx]; exact hz
              · exact hs.used n pn' hp' x hx
            · rcases label_basin hg hj with hb | hb
              · exact hs.basin j hb
              · refine .inr (climbBack_inner hs.look _ _ c p ?_ (hs.look z p hp) hc _ (findLowest_subset _ _ _ hb))
                intro x hx
                rcases List.mem_cons.1 hx with rfl | hx
                · exact hn
                · rw [List.mem_singleton.1 hx]; exact hz

theorem exploreNbrs_inner {N : FNet} {f : Flags} {root z : Node} (hz : Markable N f z) : ∀ (l : List Node) (s s' : DSt),
    InnerSt N f s → l.foldlM (exploreNbr N root z) s = .ok s' → InnerSt N f s'
  | [], s, s', hs, h => by rw [List.foldlM_nil] at h; cases h; exact hs
  | n :: l, s, s', hs, h => by
    rw [List.foldlM_cons] at h
    obtain ⟨s1, h1, h2⟩ := bind_ok h
    exact exploreNbrs_inner hz l s1 s' (exploreNbr_inner hs hz h1) h2

theorem exploreLoop_inner {N : FNet} {f : Flags} {root : Node} : ∀ (n : Nat) (s s' : DSt), InnerSt N f s →
    exploreLoop N root n s = .ok s' → InnerSt N f s'
  | 0, s, s', _, h => by cases h
  | n + 1, s, s', hs, h => by
    unfold exploreLoop at h
    split at h
    · cases h; exact hs
    · split at h
      · refine exploreLoop_inner n _ s' ?_ h
        exact ⟨hs.marked, hs.look, hs.used, hs.basin⟩
      · rename_i hd
        split at h
        · cases h
        · rename_i s1 h1
          refine exploreLoop_inner n s1 s' (exploreNbrs_inner (inner_of_live hs.marked hd) _ _ _ ?_ h1) h
          exact ⟨hs.marked, hs.look, hs.used, hs.basin⟩

theorem basinLoop_inner {N : FNet} {f : Flags} : ∀ (n : Nat) (g g' : Flags) (feats : List Nat), Marked N f g →
    (∀ j, g.basin j = true → f.basin j = true ∨ Markable N f (.saddle j)) → basinLoop N n g feats = .ok g' →
    ∀ j, g'.basin j = true → f.basin j = true ∨ Markable N f (.saddle j)
  | 0, _, _, _, _, _, h => by cases h
  | n + 1, g, g', feats, hm, hb, h => by
    unfold basinLoop at h
    split at h
    · cases h; exact hb
    · rename_i r _
      split at h
      · exact basinLoop_inner n g g' _ hm hb h
      · rename_i hd
        split at h
        · cases h
        · rename_i s h1
          have hs : InnerSt N f s := by
            refine exploreLoop_inner _ _ _ ⟨hm, fun n q hq => ?_, fun n pn hp x hx => ?_, hb⟩ h1
            · dsimp only [DSt.start] at hq
              split at hq
              · cases hq; exact inner_of_live hm hd
              · cases hq
            · dsimp only [DSt.start] at hp
              split at hp
              · cases hp; cases hx
              · cases hp
          exact basinLoop_inner n _ g' _ hs.marked hs.basin h

end PyProm
