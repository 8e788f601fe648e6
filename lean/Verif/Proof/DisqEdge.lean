import Verif.Proof.Faithful

/-
A run sets the attribute `disqualified` of saddles on the edge of the map only.
-/
namespace PyProm
open Spec

/-- Disqualified objects are on the edge. -/
def DisqEdge (objs : List SObj) : Prop := ∀ (k : Nat) o, objs[k]? = some o → o.disq = some true → o.f.edge = true

/-- Alike, and object `b` is on the edge. -/
def DisqEdgeAt (b : Nat) (objs : List SObj) : Prop := DisqEdge objs ∧ ∃ o, objs[b]? = some o ∧ o.f.edge = true

theorem DisqEdge.append {objs new : List SObj} (h : DisqEdge objs) (hn : ∀ o ∈ new, o.disq = none) : DisqEdge (objs ++ new) := by
  intro k o hk hd
  rcases List.mem_append.1 (List.mem_of_getElem? hk) with hm | hm
  · obtain ⟨j, hj⟩ := List.getElem?_of_mem hm
    exact h j o hj hd
  · rw [hn o hm] at hd
    cases hd

theorem DisqEdgeAt.append {b : Nat} {objs new : List SObj} (h : DisqEdgeAt b objs) (hn : ∀ o ∈ new, o.disq = none) :
    DisqEdgeAt b (objs ++ new) := by
  obtain ⟨o, h1, h2⟩ := h.2
  exact ⟨h.1.append hn, o, by rw [List.getElem?_append_left (lt_of_getElem? h1)]; exact h1, h2⟩

theorem DisqEdgeAt.mod {b k : Nat} {objs : List SObj} (h : DisqEdgeAt b objs) (g : SObj → SObj) (hf : ∀ o, (g o).f = o.f)
    (hd : k = b ∨ ∀ o, (g o).disq = o.disq) : DisqEdgeAt b (modObj objs k g) := by
  obtain ⟨ob, h1, h2⟩ := h.2
  refine ⟨fun j o hj ho => ?_, ?_⟩
  · unfold modObj at hj
    rw [List.getElem?_modify] at hj
    obtain ⟨x, hx, rfl⟩ := Option.map_eq_some_iff.1 hj
    by_cases hkj : k = j
    · rw [if_pos hkj] at ho ⊢
      rw [hf]
      rcases hd with rfl | hd
      · subst hkj
        cases (h1.symm.trans hx : some _ = some _)
        exact h2
      · exact h.1 j x hx ((hd x).symm.trans ho)
    · rw [if_neg hkj] at ho ⊢
      exact h.1 j x hx ho
  · unfold modObj
    rw [List.getElem?_modify, h1]
    refine ⟨_, rfl, ?_⟩
    split
    · rw [hf]; exact h2
    · exact h2

theorem walkSynthetic_objs {E : SaddleEnv} {s s' : CSt} {sid : Nat} (h : walkSynthetic E s sid = .ok s') : s'.objs = s.objs := by
  unfold walkSynthetic at h
  cases ho : s.objs[sid]? with
  | none => rw [ho] at h; cases h
  | some o =>
    rw [ho] at h
    obtain ⟨w, _, h⟩ := bind_ok h
    obtain ⟨s1, h1, h⟩ := bind_ok h
    cases h
    have := linkEdges_objs _ h1
    exact this

theorem walkEdgeSaddle_disq {E : SaddleEnv} {b sid : Nat} {s s' : CSt} (hs : DisqEdgeAt b s.objs)
    (h : walkEdgeSaddle E b s sid = .ok s') : DisqEdgeAt b s'.objs := by
  unfold walkEdgeSaddle at h
  cases ho : s.objs[sid]? with
  | none => rw [ho] at h; cases h
  | some o =>
    rw [ho] at h
    obtain ⟨s1, h1, h⟩ := bind_ok h
    cases h
    rw [← linkEdges_objs _ h1] at hs
    refine DisqEdgeAt.mod (DisqEdgeAt.mod hs _ ?_ (.inr ?_)) _ ?_ (.inl rfl) <;> exact fun _ => rfl

theorem foldlM_keeps {β σ : Type} {g : σ → β → Except PyErr σ} {I : σ → Prop} (hg : ∀ s x s', I s → g s x = .ok s' → I s') :
    ∀ (l : List β) {s s' : σ}, I s → l.foldlM g s = .ok s' → I s'
  | [], s, s', hs, h => by cases h; exact hs
  | x :: l, s, s', hs, h => by
    rw [List.foldlM_cons] at h
    obtain ⟨s1, h1, h2⟩ := bind_ok h
    exact foldlM_keeps hg l (hg s x s1 hs h1) h2

theorem finishEdge_disq {E : SaddleEnv} {b : Nat} {ids : List Nat} {s s' : CSt} (hs : DisqEdgeAt b s.objs)
    (h : finishEdge E s b ids = .ok s') : DisqEdgeAt b s'.objs := by
  unfold finishEdge at h
  obtain ⟨s1, h1, h⟩ := bind_ok h
  cases h
  have := foldlM_keeps (I := fun s : CSt => DisqEdgeAt b s.objs) (fun _ _ _ hs h => walkEdgeSaddle_disq hs h) ids hs h1
  exact this.mod _ (by exact fun _ => rfl) (.inl rfl)

theorem edgeSynthetic_disq {E : SaddleEnv} {b : Nat} {f : Feature} {s : CSt} {r : CSt × List Nat} (hs : DisqEdgeAt b s.objs)
    (h : edgeSynthetic E s b f = .ok r) : DisqEdgeAt b r.1.objs := by
  unfold edgeSynthetic at h
  obtain ⟨g, _, h⟩ := bind_ok h
  cases g with
  | none => cases h; exact hs
  | some fs =>
    have ha : DisqEdgeAt b (alloc s fs).1.objs := hs.append fun o ho => by
      obtain ⟨f, _, rfl⟩ := List.mem_map.1 ho
      rfl
    dsimp only at h
    split at h
    · cases h
      unfold adoptChildren
      dsimp only
      refine DisqEdgeAt.mod ?_ _ (fun _ => rfl) (.inr fun _ => rfl)
      generalize (alloc s fs).1.objs = objs at ha
      generalize (alloc s fs).2 = ids
      induction ids generalizing objs with
      | nil => exact ha
      | cons i ids ih => exact ih _ (ha.mod _ (by exact fun _ => rfl) (.inr fun _ => rfl))
    · cases h
      exact ha

theorem walkFeature_disq {E : SaddleEnv} {b : Nat} {s s' : CSt} (hs : DisqEdge s.objs) (h : walkFeature E s b = .ok s') :
    DisqEdge s'.objs := by
  unfold walkFeature at h
  cases ho : s.objs[b]? with
  | none => rw [ho] at h; cases h
  | some o =>
    rw [ho] at h
    dsimp only at h
    split at h
    · obtain ⟨g, _, h⟩ := bind_ok h
      cases g with
      | none => rw [walkSynthetic_objs h]; exact hs
      | some fs =>
        refine foldlM_keeps (I := fun s : CSt => DisqEdge s.objs) (fun _ _ _ hs h => walkSynthetic_objs h ▸ hs) _ ?_ h
        exact hs.append fun o ho => by
          obtain ⟨f, _, rfl⟩ := List.mem_map.1 ho
          rfl
    · rename_i he
      have hb : DisqEdgeAt b s.objs := ⟨hs, o, ho, by simpa using he⟩
      obtain ⟨w, _, h⟩ := bind_ok h
      split at h
      · split at h
        · split at h
          · cases h
          · split at h
            · cases h
              exact hs
            · obtain ⟨r, h1, h⟩ := bind_ok h
              have := edgeSynthetic_disq (b := b) (by exact hb) h1
              exact (finishEdge_disq this h).1
        · exact (finishEdge_disq (s := { s with w := w }) hb h).1
      · obtain ⟨r, h1, h⟩ := bind_ok h
        exact (finishEdge_disq (edgeSynthetic_disq (s := { s with w := w }) hb h1) h).1

theorem rebuildOne_disqEdge {d : DataMap} {fc : PairSearch} {objs : List SObj} {k : Nat} {r : List SObj × List Nat} (hs : DisqEdge objs)
    (h : rebuildOne d fc objs k = .ok r) : DisqEdge r.1 := by
  unfold rebuildOne at h
  cases ho : objs[k]? with
  | none => rw [ho] at h; cases h
  | some o =>
    rw [ho] at h
    dsimp only at h
    split at h
    · cases h
      exact hs
    · obtain ⟨fs, _, h⟩ := bind_ok h
      split at h
      · rename_i he
        cases h
        have hb : DisqEdgeAt k objs := ⟨hs, o, ho, he⟩
        exact ((hb.append fun o ho => by
          obtain ⟨f, _, rfl⟩ := List.mem_map.1 ho
          rfl).mod _ (by exact fun _ => rfl) (.inl rfl)).1
      · cases h
        exact hs.append fun o ho => by
          obtain ⟨f, _, rfl⟩ := List.mem_map.1 ho
          rfl

theorem rebuild_disq {d : DataMap} {fc : PairSearch} : ∀ (ks : List Nat) {objs : List SObj} {r : List SObj × List Nat},
    DisqEdge objs → rebuildSaddles d fc ks objs = .ok r → DisqEdge r.1
  | [], _, _, hs, h => by cases h; exact hs
  | k :: ks, _, _, hs, h => by
    unfold rebuildSaddles at h
    obtain ⟨⟨o1, n1⟩, h1, h⟩ := bind_ok h
    obtain ⟨⟨o2, n2⟩, h2, h⟩ := bind_ok h
    cases h
    have := rebuild_disq ks (rebuildOne_disqEdge hs h1) h2
    exact this

/-- In the map of a run every saddle or runoff whose attribute `disqualified` was set is on the edge. -/
theorem run_disqEdge {E : SaddleEnv} {o : Pt → Oracle} {order : List Pt} {rebuild : Bool} {m : DMap}
    (hm : DMap.runSparse E o order rebuild = .ok m) : DisqEdge m.st.objs := by
  unfold DMap.runSparse at hm
  obtain ⟨m0, h1, hm⟩ := bind_ok hm
  obtain ⟨⟨m1, r⟩, h2, hm⟩ := bind_ok hm
  cases hm
  have h0 : DisqEdge m0.st.objs := by
    unfold DMap.discover at h1
    obtain ⟨D, _, h1⟩ := bind_ok h1
    obtain ⟨cs, _, h1⟩ := bind_ok h1
    obtain ⟨⟨objs, sads⟩, h3, h1⟩ := bind_ok h1
    cases h1
    have hn : DisqEdge ((D.saddles ++ (D.runoffs ++ cs)).map fun f => ({ f := f } : SObj)) := by
      intro k o hk hd
      obtain ⟨f, _, rfl⟩ := List.mem_map.1 (List.mem_of_getElem? hk)
      cases hd
    cases rebuild with
    | false => cases h3; exact hn
    | true => exact rebuild_disq _ hn h3
  unfold DMap.walk at h2
  obtain ⟨w, _, h2⟩ := bind_ok h2
  obtain ⟨⟨r1, s1⟩, h3, h2⟩ := bind_ok h2
  cases h2
  unfold climbFromSaddles at h3
  obtain ⟨s2, h4, h3⟩ := bind_ok h3
  cases h3
  have := foldlM_keeps (I := fun s : CSt => DisqEdge s.objs) (fun _ _ _ hs h => walkFeature_disq hs h) _ ?_ h4
  · exact this
  · exact h0

end PyProm
