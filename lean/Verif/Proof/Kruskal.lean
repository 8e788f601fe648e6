import Verif.Props.BasinExact
import Verif.Props.Tree

/-
How many saddles of each height basin detection leaves, for C86.
-/
namespace PyProm
open Spec

/-- Every summit of a network is connected with exactly one of suitably chosen ones. -/
theorem exists_reps (N : FNet) (L : List Nat) : ∀ n, ∃ reps, PartReps N n L reps
  | 0 => ⟨[], by simp, by simp, fun a ha => by omega⟩
  | n + 1 => by
    obtain ⟨reps, h⟩ := exists_reps N L n
    by_cases hc : ∃ r ∈ reps, ConnectedBy N (fun _ => True) (· ∈ L) n r
    · refine ⟨reps, fun r hr => Nat.lt_succ_of_lt (h.bound r hr), h.apart, fun a ha => ?_⟩
      rcases Nat.lt_succ_iff_lt_or_eq.1 ha with ha | rfl
      · exact h.all a ha
      · exact hc
    · refine ⟨n :: reps, ?_, List.pairwise_cons.2 ⟨fun r hr hh => hc ⟨r, hr, hh⟩, h.apart⟩, fun a ha => ?_⟩
      · intro r hr
        rcases List.mem_cons.1 hr with rfl | hr
        · exact Nat.lt_succ_self _
        · exact Nat.lt_succ_of_lt (h.bound r hr)
      · rcases Nat.lt_succ_iff_lt_or_eq.1 ha with ha | rfl
        · obtain ⟨r, hr, hh⟩ := h.all a ha
          exact ⟨r, List.mem_cons_of_mem _ hr, hh⟩
        · exact ⟨a, by simp, .refl⟩

/-- Two different summits of the saddle are live. -/
def LiveEnds (N : FNet) (f : Flags) (k : Nat) : Prop :=
  ∃ u v, u ≠ v ∧ Linked N k u ∧ Linked N k v ∧ Alive N f (.summit u) ∧ Alive N f (.summit v)

/-- Live saddles between live summits, at the heights `P`. -/
def JoinsAt (N : FNet) (f : Flags) (P : Rat → Prop) (k : Nat) : Prop :=
  Alive N f (.saddle k) ∧ LiveEnds N f k ∧ P (N.elev (.saddle k))

open Classical in
/-- Those of a list. -/
noncomputable def betweens (N : FNet) (f : Flags) (P : Rat → Prop) (saddles : List Nat) : List Nat :=
  saddles.filter fun k => decide (JoinsAt N f P k)

theorem mem_betweens {N : FNet} {f : Flags} {P : Rat → Prop} {saddles : List Nat} {k : Nat} :
    k ∈ betweens N f P saddles ↔ k ∈ saddles ∧ JoinsAt N f P k := by
  simp [betweens]

/-- A saddle with two live summits is not a stub. -/
theorem inner_stub {N : FNet} {saddles : List Nat} {f : Flags} (hN : NetOk N saddles f) {k : Nat}
    (ha : Alive N f (.saddle k)) (hi : LiveEnds N f k) : Alive N (stubPass N (basinFeatures N saddles) f) (.saddle k) := by
  refine (alive_stub hN.over _).2 ⟨ha, ?_⟩
  intro k' he _ hone
  cases he
  obtain ⟨u, v, hne, hu, hv, _⟩ := hi
  exact hne ((oneSource_iff hN k ha.2).1 hone u v hu hv)

/-- What detection leaves above a level connects the same summits. -/
theorem between_conn {N : FNet} {saddles : List Nat} {f f' : Flags} (hN : NetOk N saddles f)
    (h2 : BasinResult N saddles f f') {P : Rat → Prop} (hP : ∀ a b, a ≤ b → P a → P b) (a b : Nat) :
    ConnectedBy N (fun _ => True) (· ∈ betweens N f' P saddles) a b ↔
      ConnectedBy N (fun _ => True) (· ∈ betweens N f P saddles) a b := by
  have hmono : ∀ k, Alive N f' (.saddle k) → Alive N f (.saddle k) := fun k hk =>
    ((alive_stub hN.over _).1 (h2.stub.mono _ hk)).1
  constructor
  · refine conn_mono (fun _ h => h) fun k hk => ?_
    obtain ⟨g1, g2, g3, g4⟩ := mem_betweens.1 hk
    exact mem_betweens.2 ⟨g1, hmono k g2, g3, g4⟩
  · refine conn_bind fun k u v hk hu hv _ _ => ?_
    obtain ⟨g1, g2, g3, g4⟩ := mem_betweens.1 hk
    by_cases ha : Alive N f' (.saddle k)
    · exact conn_hop (mem_betweens.2 ⟨g1, ha, g3, g4⟩) hu hv trivial trivial
    · refine conn_bind (fun j x y hj hx hy qx qy => ?_) (h2.stub.bypass k (inner_stub hN g2 g3) ha u v hu hv)
      by_cases hxy : x = y
      · rw [hxy]; exact .refl
      · refine conn_hop (mem_betweens.2 ⟨hN.listed j x (hmono j hj.1) hx, hj.1, ⟨x, y, hxy, hx, hy, ?_, ?_⟩,
          hP _ _ hj.2 g4⟩) hx hy trivial trivial
        · exact qx
        · exact qy

/-- The number of saddles that detection leaves above a level, from the number of parts. -/
theorem between_count {N : FNet} {saddles : List Nat} {f f' : Flags} (hN : NetOk N saddles f) (hnd : saddles.Nodup) {fuel : Nat}
    (h1 : disqualifyBasinSaddles N fuel saddles f = .ok f') (h2 : BasinResult N saddles f f') {P : Rat → Prop}
    {n : Nat} (hn : N.nSummits ≤ n) {reps : List Nat} (hr : PartReps N n (betweens N f' P saddles) reps) :
    (betweens N f' P saddles).length + reps.length = n := by
  refine (forest_count N n _ reps (hnd.filter _) (fun k hk => ?_) hr).2 fun c hc => ?_
  · obtain ⟨g1, g2, _⟩ := mem_betweens.1 hk
    obtain ⟨u, v, e1, e2, e3, e4⟩ := live_ends hN h1 g1 g2
    exact ⟨u, v, e1, by omega, by omega, e4⟩
  · refine h2.acyclic c { hc with mem := fun x hx => ?_ }
    cases x with
    | saddle k => exact (mem_betweens.1 (hc.mem _ hx)).2.1
    | summit D =>
      obtain ⟨a, ha, _, _, _, ja, _⟩ := cycle_two hc hx
      cases a with
      | summit _ => exact ja.elim
      | saddle k =>
        obtain ⟨g1, g2, ⟨u, v, g3, hu, hv, lu, lv⟩, _⟩ := mem_betweens.1 (hc.mem _ ha)
        obtain ⟨u', v', e1, _, _, e4⟩ := live_ends hN h1 g1 g2
        have hD := (e4 D).1 ja
        have hu' := (e4 u).1 hu
        have hv' := (e4 v).1 hv
        have : D = u ∨ D = v := by omega
        rcases this with rfl | rfl
        · exact lu
        · exact lv

/-- Counting by cases. -/
theorem countP_pair {l : List Nat} {p q r s : Nat → Bool}
    (h : ∀ k ∈ l, (p k).toNat + (q k).toNat = (r k).toNat + (s k).toNat) :
    l.countP p + l.countP q = l.countP r + l.countP s := by
  induction l with
  | nil => rfl
  | cons k l ih =>
    have h1 := h k (by simp)
    have h2 := ih fun j hj => h j (by simp [hj])
    simp only [List.countP_cons]
    cases hp : p k <;> cases hq : q k <;> cases hr : r k <;> cases hs : s k <;> simp_all <;> omega

/-- Which saddles detection marks, by what was there before and what is left. -/
theorem between_marks {N : FNet} {saddles : List Nat} {f f' : Flags} (hN : NetOk N saddles f) {fuel : Nat}
    (hfuel : saddles.length + N.nSaddles < fuel) (h1 : disqualifyBasinSaddles N fuel saddles f = .ok f')
    (_h2 : BasinResult N saddles f f') (k : Nat) :
    (f.basin k = true → f'.basin k = true ∧ ¬ Alive N f (.saddle k) ∧ ¬ Alive N f' (.saddle k)) ∧
    (f.basin k = false → (f'.basin k = true ↔ Alive N f (.saddle k) ∧ LiveEnds N f k ∧ ¬ Alive N f' (.saddle k))) := by
  obtain ⟨s1, s2, _, s4, _⟩ := stubPass_spec N (basinFeatures N saddles) f
  have hm := basins_marked h1
  have hout : ∀ g : Flags, g.over k = f.over k → g.basin k = true → ¬ Alive N g (.saddle k) := by
    intro g hg hb ha
    refine ha.1 ?_
    rcases hov : f.over k with _ | _ | _
    · exact .inr ⟨by rw [hg, hov], .inr hb⟩
    · exact absurd hov (hN.over k)
    · exact .inl (by rw [hg, hov])
  have hov' : f'.over k = f.over k := by rw [hm.over, s1]
  refine ⟨fun hb => ?_, fun hb => ⟨fun hb' => ?_, fun ⟨ha, he, hn⟩ => ?_⟩⟩
  · have hb' : f'.basin k = true := hm.basin k (by rw [s2]; exact hb)
    exact ⟨hb', hout f rfl hb, hout f' hov' hb'⟩
  · obtain ⟨f'', e1, e2⟩ := C30_lowest_of_cycle_partial N saddles f hN fuel hfuel
    cases (e1.symm.trans h1 : Except.ok _ = Except.ok _)
    obtain ⟨c, hc, hmem, _⟩ := e2 k hb' hb
    obtain ⟨a, ha, b, hb2, hne, ja, jb⟩ := cycle_two hc hmem
    cases a with
    | saddle _ => exact ja.elim
    | summit A =>
      cases b with
      | saddle _ => exact jb.elim
      | summit B =>
        exact ⟨hc.mem _ hmem, ⟨A, B, fun h => hne (by rw [h]), ja, jb, hc.mem _ ha, hc.mem _ hb2⟩, hout f' hov' hb'⟩
  · have hs := inner_stub hN ha he
    have ho : SaddleOut f' k := by
      by_contra h
      exact hn ⟨h, ha.2⟩
    rcases (marked_out h1 k).1 ho with h | ⟨h, h' | h'⟩
    · exact absurd h ha.1
    · exact absurd (.inr ⟨by rw [s1]; exact h, .inl (by rw [← hm.single]; exact h')⟩) hs.1
    · exact h'

open Classical in
/-- The saddles marked at some heights and those left there, together. -/
theorem between_sum {N : FNet} {saddles : List Nat} {f f' : Flags} (hN : NetOk N saddles f) {fuel : Nat}
    (hfuel : saddles.length + N.nSaddles < fuel) (h1 : disqualifyBasinSaddles N fuel saddles f = .ok f')
    (h2 : BasinResult N saddles f f') (P : Rat → Prop) :
    saddles.countP (fun k => f'.basin k && decide (P (N.elev (.saddle k)))) + (betweens N f' P saddles).length =
      saddles.countP (fun k => f.basin k && decide (P (N.elev (.saddle k)))) + (betweens N f P saddles).length := by
  unfold betweens
  rw [← List.countP_eq_length_filter, ← List.countP_eq_length_filter]
  refine countP_pair fun k _ => ?_
  obtain ⟨g1, g2⟩ := between_marks hN hfuel h1 h2 k
  have hmono : Alive N f' (.saddle k) → Alive N f (.saddle k) := fun hk =>
    ((alive_stub hN.over _).1 (h2.stub.mono _ hk)).1
  have hle : LiveEnds N f' k ↔ LiveEnds N f k := Iff.rfl
  unfold JoinsAt
  rw [hle]
  by_cases hP : P (N.elev (.saddle k))
  · cases hb : f.basin k with
    | true =>
      obtain ⟨e1, e2, e3⟩ := g1 hb
      simp [hP, e1, e2, e3]
    | false =>
      have e := g2 hb
      by_cases ha' : Alive N f' (.saddle k)
      · have ha := hmono ha'
        have : f'.basin k = false := by
          rw [Bool.eq_false_iff]
          exact fun h => (e.1 h).2.2 ha'
        simp [hP, ha, ha', this]
      · by_cases hc : Alive N f (.saddle k) ∧ LiveEnds N f k
        · have : f'.basin k = true := e.2 ⟨hc.1, hc.2, ha'⟩
          simp [hP, hc, ha', this]
        · have : f'.basin k = false := by
            rw [Bool.eq_false_iff]
            exact fun h => hc ⟨(e.1 h).1, (e.1 h).2.1⟩
          have hc' : ¬ (Alive N f (.saddle k) ∧ LiveEnds N f k) := hc
          simp [hP, ha', this, hc']
  · simp [hP]

end PyProm
