import Verif.Props.Basin
import Verif.Props.Graph
import Verif.Props.Outline
import Verif.Props.Containers

/-
Violations on every network or map of a kind: C28, C37, C39.
-/
namespace PyProm
open Spec

/-! ### C28: cycles through the edge -/

/-- C28 fails for every cycle whose saddles are off the edge and on no cycle that avoids the edge, such as one on which a
summit is on the edge: nothing on it is disqualified by detection. -/
theorem C28_every_edge_refuted (N : FNet) (saddles : List Nat) (f : Flags) (hN : NetOk N saddles f) (fuel : Nat)
    (hfuel : saddles.length + N.nSaddles < fuel) (c : List Node) (hc : Cycle N (fun n => N.disq f n = false) c)
    (he : ∀ k, Node.saddle k ∈ c → N.edge (.saddle k) = false)
    (hu : ∀ k, Node.saddle k ∈ c → ∀ c', Cycle N (Alive N f) c' → Node.saddle k ∉ c') :
    ∃ f', disqualifyBasinSaddles N fuel saddles f = .ok f' ∧ Cycle N (fun n => N.disq f' n = false) c := by
  obtain ⟨f', h1, h2⟩ := basin_spec hN hfuel
  refine ⟨f', h1, hc.long, hc.nodup, hc.chain, hc.closed, fun n hn => ?_⟩
  cases n with
  | summit D => exact hc.mem _ hn
  | saddle k =>
    obtain ⟨s1, s2, _, s4, _⟩ := stubPass_spec N (basinFeatures N saddles) f
    have hov : ∀ k, (stubPass N (basinFeatures N saddles) f).over k ≠ some false := by
      rw [s1]; exact hN.over
    obtain ⟨t1, _, t3, _⟩ := steps_flags hov h2.stub.steps
    have hk : f.saddleDisq k = false := hc.mem _ hn
    have ho : f'.over k = f.over k := by rw [h2.stub.over, s1]
    -- two summits on the cycle
    have hone : ¬ OneSource N k := by
      rw [oneSource_iff hN k (he k hn)]
      intro h
      obtain ⟨a, _, b, _, hne, ha, hb⟩ := cycle_two hc hn
      cases a with
      | saddle j => exact ha
      | summit u =>
        cases b with
        | saddle j => exact hb
        | summit v => exact hne (congrArg Node.summit (h u v ha hb))
    have hs : f'.single k = true → f.single k = true := by
      rw [t1, s4]
      rintro (h | ⟨_, _, h⟩)
      · exact h
      · exact absurd h hone
    have hb : f'.basin k = true → f.basin k = true := by
      intro h
      rcases t3 k h with h | ⟨c', ls, h, hl⟩
      · rwa [s2] at h
      · have hmem : Node.saddle k ∈ Node.saddle k :: ls := by simp
        rw [(lowest_mem h hl).1] at hmem
        exact absurd (List.mem_filter.1 hmem).1 (hu k hn c' (h.mono fun n h => ((alive_stub hN.over n).1 h).1))
    show f'.saddleDisq k = false
    unfold Flags.saddleDisq at hk ⊢
    rw [ho]
    cases hov' : f.over k with
    | some b => rw [hov'] at hk; exact hk
    | none =>
      rw [hov'] at hk
      simp only [Bool.or_eq_false_iff] at hk ⊢
      refine ⟨?_, ?_⟩
      · rw [← Bool.not_eq_true]
        exact fun h => by rw [hs h] at hk; exact absurd hk.1 (by simp)
      · rw [← Bool.not_eq_true]
        exact fun h => by rw [hb h] at hk; exact absurd hk.2 (by simp)

/-- The ring with a summit on the edge is such a case. -/
example : NetOk exEdgeRing [0, 1] newFlags ∧
    Cycle exEdgeRing (fun n => exEdgeRing.disq newFlags n = false) [.saddle 0, .summit 0, .saddle 1, .summit 1] ∧
    (∀ k, Node.saddle k ∈ [Node.saddle 0, .summit 0, .saddle 1, .summit 1] → exEdgeRing.edge (.saddle k) = false) ∧
    ∀ k, Node.saddle k ∈ [Node.saddle 0, .summit 0, .saddle 1, .summit 1] → ∀ c', Cycle exEdgeRing (Alive exEdgeRing newFlags) c' →
      Node.saddle k ∉ c' := by
  have hlink : ∀ k D, Linked exEdgeRing k D → k = 0 ∨ k = 1 → D = 0 ∨ D = 1 := by
    rintro k D ⟨i, hi, rfl⟩ (rfl | rfl)
    · have : i ∈ [0, 1] := by
        have e : exEdgeRing.sadLinks 0 = [0, 1] := by decide +kernel
        rwa [e] at hi
      simp only [List.mem_cons, List.not_mem_nil, or_false] at this
      rcases this with rfl | rfl <;> decide
    · have : i ∈ [2, 3] := by
        have e : exEdgeRing.sadLinks 1 = [2, 3] := by decide +kernel
        rwa [e] at hi
      simp only [List.mem_cons, List.not_mem_nil, or_false] at this
      rcases this with rfl | rfl <;> decide
  refine ⟨netOf_ok (by decide +kernel) (by decide +kernel) (by simp), ⟨by decide, by decide, ?_, ?_, ?_⟩, ?_, ?_⟩
  · refine List.isChain_cons_cons.2 ⟨⟨0, by decide +kernel, by decide +kernel⟩, List.isChain_cons_cons.2
      ⟨⟨2, by decide +kernel, by decide +kernel⟩, List.isChain_cons_cons.2 ⟨⟨3, by decide +kernel, by decide +kernel⟩, .singleton _⟩⟩⟩
  · intro a ha b hb
    cases ha
    cases hb
    exact ⟨1, by decide +kernel, by decide +kernel⟩
  · intro n hn
    simp only [List.mem_cons, List.not_mem_nil, or_false] at hn
    rcases hn with rfl | rfl | rfl | rfl <;> decide +kernel
  · intro k hk
    simp only [List.mem_cons, Node.saddle.injEq, reduceCtorEq, List.not_mem_nil, or_false, false_or] at hk
    rcases hk with rfl | rfl <;> decide +kernel
  · intro k hk c' hc' hm
    have hk' : k = 0 ∨ k = 1 := by simpa using hk
    obtain ⟨a, a1, b, b1, hne, ha, hb⟩ := cycle_two hc' hm
    cases a with
    | saddle j => exact ha
    | summit u =>
      cases b with
      | saddle j => exact hb
      | summit v =>
        have e0 : Alive exEdgeRing newFlags (.summit 0) → False := fun h => absurd h.2 (by decide +kernel)
        rcases hlink k u ha hk' with rfl | rfl
        · exact e0 (hc'.mem _ a1)
        · rcases hlink k v hb hk' with rfl | rfl
          · exact e0 (hc'.mem _ b1)
          · exact hne rfl

/-! ### C37: points next to the equator -/

/-- C37 fails for every point off the equator by less than half a millionth of a degree: it is neither equal nor unequal to the point of
the equator with its longitude. -/
theorem C37_every_refuted (lat lon e : Rat) (h0 : lat ≠ 0) (h1 : |lat| < 1 / 2000000) :
    seEq 0 lon e lat lon e = false ∧ seNe 0 lon e lat lon e = false ∧ bcEq 0 lon lat lon = false ∧ bcNe 0 lon lat lon = false := by
  have hr : round6 lat = 0 := by
    unfold round6
    refine pyRound_of_near ?_
    rw [Int.cast_zero, sub_zero, abs_mul]
    have : |(1000000 : Rat)| = 1000000 := abs_of_pos (by norm_num)
    rw [this]
    linarith
  have he : eqCoord 0 ≠ eqCoord lat := by
    unfold eqCoord
    rw [if_pos rfl, if_neg h0]
    simp
  refine ⟨?_, ?_, ?_, ?_⟩
  · simp [seEq, he]
  · simp [seNe, hr, round6_zero]
  · simp [bcEq, he]
  · simp [bcNe, hr, round6_zero]

example : (1 / 10000000 : Rat) ≠ 0 ∧ |(1 / 10000000 : Rat)| < 1 / 2000000 := by
  constructor
  · norm_num
  · rw [abs_of_pos] <;> norm_num

/-! ### C39: siblings at one place -/

/-- C39 fails for every two children of one saddle at the same place: emancipating one takes the other from the list of their
parent as well, but the other still names it as parent. So does soft deletion. -/
theorem C39_every_refuted (m : DMap) (f : Flags) (k k' p : Nat) (hk : parentOf m k = some p) (hk' : parentOf m k' = some p) (hne : k' ≠ k)
    (hs : SamePlace m k' k) (hF : FamilyOk m) (hp : p ≠ k) :
    (k' ∈ childrenOf m p ∧ k' ∉ childrenOf (m.emancipate k) p ∧ parentOf (m.emancipate k) k' = some p) ∧
    k' ∉ childrenOf (m.softDelete f k).1 p ∧ parentOf (m.softDelete f k).1 k' = some p := by
  have hnot : m.ne (.saddle k') (.saddle k) = false := (samePlace_iff m k' k).2 hs
  obtain ⟨g1, g2⟩ := softDelete_family m f k (fun c hc => (hF c k).1 hc) k'
  obtain ⟨_, g3⟩ := softDelete_family m f k (fun c hc => (hF c k).1 hc) p
  refine ⟨⟨(hF k' p).2 hk', ?_, ?_⟩, ?_, ?_⟩
  · rw [emancipate_children, if_pos hk, List.mem_filter]
    rw [hnot]
    simp
  · rw [emancipate_parent, if_neg hne]
    exact hk'
  · rw [g3, if_neg hp, if_pos hk, List.mem_filter]
    rw [hnot]
    simp
  · rw [g1, if_neg ?_]
    · exact hk'
    · rintro (h | h)
      · exact hne h
      · have := (hF k' k).1 h
        rw [hk'] at this
        exact hp (Option.some.inj this)

/-- Two children 1 and 2 of saddle 0 at one place. -/
example : parentOf (exFamily 1 1) 1 = some 0 ∧ parentOf (exFamily 1 1) 2 = some 0 ∧ SamePlace (exFamily 1 1) 2 1 ∧
    FamilyOk (exFamily 1 1) :=
  ⟨by decide +kernel, by decide +kernel, (samePlace_iff _ _ _).1 (by decide +kernel), exFamily_ok 1 1⟩

end PyProm
