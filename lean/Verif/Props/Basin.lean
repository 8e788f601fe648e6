import Verif.Proof.Basin
import Mathlib.Data.List.GetD

/-
Properties of basin saddle detection: C27-C33, C40.
-/
namespace PyProm
open Spec

/-! ### Instances -/

/-- A network from the elevations of its summits and saddles, the linkers (summit, saddle), the summits on
the edge of the map and the pairs of saddles at the same place. -/
def netOf (tops sads : List Rat) (links : List (Nat × Nat)) (edge : List Nat := [])
    (same : List (Nat × Nat) := []) : FNet where
  nSummits := tops.length
  nSaddles := sads.length
  elev
    | .summit D => tops.getD D 0
    | .saddle k => sads.getD k 0
  edge
    | .summit D => decide (D ∈ edge)
    | .saddle _ => false
  eq
    | .saddle j, .saddle k => decide (j = k) || decide ((j, k) ∈ same)
    | a, b => decide (a = b)
  setEq a b := decide (a = b)
  link i := links.getD i (0, 0)
  sumLinks D := (List.range links.length).filter fun i => decide ((links.getD i (0, 0)).1 = D)
  sadLinks k := (List.range links.length).filter fun i => decide ((links.getD i (0, 0)).2 = k)
  sumDisq _ := false

/-- The flags of new objects. -/
def newFlags : Flags := ⟨fun _ => false, fun _ => false, fun _ => none, fun _ => false, fun _ => []⟩

theorem getD_mem_list {α : Type} (l : List α) (a : α) {i : Nat} (h : i < l.length) : l.getD i a ∈ l := by
  rw [List.getD_eq_getElem _ _ h]; exact List.getElem_mem h

theorem netOf_linked {tops sads : List Rat} {links : List (Nat × Nat)} {edge : List Nat} {same : List (Nat × Nat)}
    {k D : Nat} (h : Linked (netOf tops sads links edge same) k D) : (D, k) ∈ links := by
  obtain ⟨i, hi, h1⟩ := h
  simp only [netOf, List.mem_filter, List.mem_range, decide_eq_true_eq] at hi h1
  rw [← h1, ← hi.2]
  exact getD_mem_list links (0, 0) hi.1

/-- The conditions on a network, for networks given by lists. -/
theorem netOf_ok {tops sads : List Rat} {links : List (Nat × Nat)} {edge : List Nat} {same : List (Nat × Nat)}
    (hl : ∀ l ∈ links, l.1 < tops.length ∧ l.2 < sads.length ∧ sads.getD l.2 0 < tops.getD l.1 0)
    (h2 : ∀ k, k < sads.length → (links.filter fun l => decide (l.2 = k)).length ≤ 2)
    (hs : ∀ p ∈ same, sads.getD p.1 0 = sads.getD p.2 0) :
    NetOk (netOf tops sads links edge same) (List.range sads.length) newFlags where
  sad k _ i hi := by
    simp only [netOf, List.mem_filter, List.mem_range, decide_eq_true_eq] at hi ⊢
    exact ⟨hi.2, hi.1, trivial⟩
  sum D i hi _ := by
    simp only [netOf, List.mem_filter, List.mem_range, decide_eq_true_eq] at hi ⊢
    exact ⟨hi.2, hi.1, trivial⟩
  sumOnce D := List.nodup_range.filter _
  two k _ := by
    have hlen : ((List.range links.length).filter fun i => decide ((links.getD i (0, 0)).2 = k)).length =
        (links.filter fun l => decide (l.2 = k)).length := by
      have hm : links = (List.range links.length).map fun i => links.getD i (0, 0) := by
        apply List.ext_getElem
        · simp
        · intro i h1 h2
          rw [List.getElem_map, List.getElem_range, List.getD_eq_getElem _ _ h1]
      conv_rhs => rw [hm, List.filter_map, List.length_map]
      rfl
    by_cases hk : k < sads.length
    · exact le_of_eq_of_le hlen (h2 k hk)
    · refine le_of_eq_of_le hlen ?_
      have : links.filter (fun l => decide (l.2 = k)) = [] := by
        rw [List.filter_eq_nil_iff]
        intro l hm
        have := (hl l hm).2.1
        simp only [decide_eq_true_eq]
        omega
      rw [this]; simp
  above k D _ h := (hl _ (netOf_linked h)).2.2
  range k D _ h := ⟨(hl _ (netOf_linked h)).2.1, (hl _ (netOf_linked h)).1⟩
  bound k hk := List.mem_range.1 hk
  listed k D _ h := List.mem_range.2 (hl _ (netOf_linked h)).2.1
  eqElev a b h := by
    cases a with
    | summit D =>
      have : Node.summit D = b := of_decide_eq_true h
      rw [this]
    | saddle j =>
      cases b with
      | summit D => exact absurd h (by simp [netOf])
      | saddle k =>
        simp only [netOf, Bool.or_eq_true, decide_eq_true_eq] at h
        rcases h with rfl | h
        · rfl
        · exact hs _ h
  setEq k a b _ _ _ := by simp [netOf]
  over k := by simp [newFlags]

/-- Three summits around a basin: saddles 0, 1, 2 close a cycle, saddle 0 is the lowest; saddle 3 leads
twice to the same summit. -/
def exNet : FNet := netOf [30, 40, 50] [10, 12, 14, 20] [(0, 0), (1, 0), (1, 1), (2, 1), (2, 2), (0, 2), (1, 3), (1, 3)]

theorem exNet_ok : NetOk exNet (List.range 4) newFlags :=
  netOf_ok (by decide +kernel) (by decide +kernel) (by simp)

/-- On the example saddle 0 becomes a basin saddle, saddle 3 a single-source saddle. -/
example : (disqualifyBasinSaddles exNet 9 (List.range 4) newFlags).toOption.map (fun f =>
    ((List.range 4).map f.basin, (List.range 4).map f.single, (List.range 8).map f.linkDisq)) =
    some ([true, false, false, false], [false, false, false, true],
      [true, true, false, false, false, false, true, true]) := by decide +kernel

/-- The conditions for termination follow from those on the network. -/
theorem netOf_fin {tops sads : List Rat} {links : List (Nat × Nat)} {edge : List Nat} {same : List (Nat × Nat)}
    (hl : ∀ l ∈ links, l.1 < tops.length ∧ l.2 < sads.length ∧ sads.getD l.2 0 < tops.getD l.1 0) :
    NetFin (netOf tops sads links edge same) (List.range sads.length) newFlags where
  sum D i hi := by
    simp only [netOf, List.mem_filter, List.mem_range, decide_eq_true_eq] at hi ⊢
    have := hl _ (getD_mem_list links (0, 0) hi.1)
    rw [← hi.2]
    exact ⟨this.2.1, fun _ => this.2.2⟩
  sad k _ i hi := by
    simp only [netOf, List.mem_filter, List.mem_range, decide_eq_true_eq] at hi ⊢
    have := hl _ (getD_mem_list links (0, 0) hi.1)
    rw [← hi.2]
    exact ⟨this.1, this.2.2⟩
  bound k hk := List.mem_range.1 hk
  over k := by simp [newFlags]

/-! ### C27: termination -/

/-- C27 (where it holds): detection finishes without an exception on every network in which the saddles off
the edge are lower than their summits and no saddle is exempted by hand from disqualification;
linkers may be held at one end only, in any number. What is missing: exempted saddles and saddles
above their summits, see below. -/
theorem C27_basin_terminates_partial (N : FNet) (saddles : List Nat) (f : Flags) (hN : NetFin N saddles f)
    (fuel : Nat) (hfuel : saddles.length + N.nSaddles < fuel) :
    ∃ f', disqualifyBasinSaddles N fuel saddles f = .ok f' := basin_terminates hN hfuel

example : NetFin exNet (List.range 4) newFlags := netOf_fin (by decide +kernel)

/-- Two summits joined by two saddles. -/
def exRing : FNet := netOf [30, 40] [10, 12] [(0, 0), (1, 0), (0, 1), (1, 1)]

/-- Flags of saddles that are all exempted by hand from disqualification. -/
def exempt (b s l : Nat → Bool) (a : Node → List Node) : Flags := ⟨b, s, fun _ => some false, l, a⟩

theorem exempt_round (b s l : Nat → Bool) (a : Node → List Node) (n : Nat) :
    ∃ b' s' l' a', basinLoop exRing (n + 1) (exempt b s l a) [0, 1] =
      basinLoop exRing n (exempt b' s' l' a') [0, 1] := ⟨_, _, _, _, rfl⟩

/-- C27 fails: with saddles that are exempted by hand from disqualification detection never finishes; no
number of rounds is enough. -/
theorem C27_exempt_refuted (fuel : Nat) :
    disqualifyBasinSaddles exRing fuel [0, 1] { newFlags with over := fun _ => some false } = .error .fuel := by
  have key : ∀ n b s l a, basinLoop exRing n (exempt b s l a) [0, 1] = .error .fuel := by
    intro n
    induction n with
    | zero => intros; rfl
    | succ n ih =>
      intro b s l a
      obtain ⟨b', s', l', a', h⟩ := exempt_round b s l a n
      rw [h]
      exact ih _ _ _ _
  exact key fuel (fun _ => false) (fun _ => false) _ _

/-- C27 fails: if a summit is the lowest member of a cycle the attempt to disqualify it raises
AttributeError. -/
theorem C27_low_summit_refuted :
    (disqualifyBasinSaddles (netOf [3, 40] [10, 12] [(0, 0), (1, 0), (0, 1), (1, 1)]) 9 [0, 1] newFlags).map
      (fun f => f.basin 0) = .error .attributeError := by decide +kernel

/-! ### C28: no cycle is left -/

/-- C28 (where it holds): after detection no cycle of features that are neither disqualified nor on the edge
of the map is left. What is missing: cycles through edge features are not looked at; linkers held at
one end only and saddles with more than two linkers are excluded by `NetOk`. -/
theorem C28_acyclic_partial (N : FNet) (saddles : List Nat) (f : Flags) (hN : NetOk N saddles f)
    (fuel : Nat) (hfuel : saddles.length + N.nSaddles < fuel) :
    ∃ f', disqualifyBasinSaddles N fuel saddles f = .ok f' ∧ ∀ c, ¬ Cycle N (Alive N f') c := by
  obtain ⟨f', h1, h2⟩ := basin_spec hN hfuel
  exact ⟨f', h1, h2.acyclic⟩

/-- Before detection the example has a cycle of live features. -/
example : Cycle exNet (Alive exNet newFlags)
    [.saddle 0, .summit 1, .saddle 1, .summit 2, .saddle 2, .summit 0] where
  long := by decide
  nodup := by decide
  chain := by
    simp only [List.isChain_cons_cons, List.isChain_singleton, and_true]
    exact ⟨⟨1, by decide +kernel, by decide +kernel⟩, ⟨2, by decide +kernel, by decide +kernel⟩,
      ⟨3, by decide +kernel, by decide +kernel⟩, ⟨4, by decide +kernel, by decide +kernel⟩,
      ⟨5, by decide +kernel, by decide +kernel⟩⟩
  closed := by
    intro a ha b hb
    simp at ha hb
    subst ha hb
    exact ⟨0, by decide +kernel, by decide +kernel⟩
  mem := by
    intro n _
    cases n <;> simp [Alive, exNet, netOf, newFlags, SaddleOut]

/-- The ring of two summits and two saddles with a summit on the edge of the map. -/
def exEdgeRing : FNet := netOf [30, 40] [10, 12] [(0, 0), (1, 0), (0, 1), (1, 1)] [0]

/-- C28 fails: a cycle through an edge summit survives, although none of its features is disqualified. -/
theorem C28_edge_summit_refuted :
    ∃ f', disqualifyBasinSaddles exEdgeRing 9 [0, 1] newFlags = .ok f' ∧
      Cycle exEdgeRing (fun n => exEdgeRing.disq f' n = false) [.saddle 0, .summit 0, .saddle 1, .summit 1] := by
  have h : (disqualifyBasinSaddles exEdgeRing 9 [0, 1] newFlags).toOption.map (fun f =>
      (f.saddleDisq 0, f.saddleDisq 1)) = some (false, false) := by decide +kernel
  cases hf : disqualifyBasinSaddles exEdgeRing 9 [0, 1] newFlags with
  | error e => rw [hf] at h; cases h
  | ok f' =>
    rw [hf] at h
    simp only [Except.toOption, Option.map_some, Option.some.injEq, Prod.mk.injEq] at h
    refine ⟨f', rfl, by decide, by decide, ?_, ?_, ?_⟩
    · simp only [List.isChain_cons_cons, List.isChain_singleton, and_true]
      exact ⟨⟨0, by decide +kernel, by decide +kernel⟩, ⟨2, by decide +kernel, by decide +kernel⟩,
        ⟨3, by decide +kernel, by decide +kernel⟩⟩
    · intro a ha b hb
      simp at ha hb
      subst ha hb
      exact ⟨1, by decide +kernel, by decide +kernel⟩
    · intro n hn
      simp only [List.mem_cons, List.not_mem_nil, or_false] at hn
      rcases hn with rfl | rfl | rfl | rfl
      · exact h.1
      · rfl
      · exact h.2
      · rfl

/-! ### C29: connection at every height is kept -/

/-- What detection has marked since `f`. -/
theorem marked_out {N : FNet} {saddles : List Nat} {f f' : Flags} {fuel : Nat}
    (h1 : disqualifyBasinSaddles N fuel saddles f = .ok f') (k : Nat) :
    SaddleOut f' k ↔ SaddleOut f k ∨ (f.over k = none ∧ (f'.single k = true ∨ f'.basin k = true)) := by
  obtain ⟨s1, s2, _, s4, _⟩ := stubPass_spec N (basinFeatures N saddles) f
  have hm := basins_marked h1
  simp only [SaddleOut, hm.over, s1]
  constructor
  · rintro (h | ⟨h, h'⟩)
    · exact .inl (.inl h)
    · exact .inr ⟨h, h'⟩
  · rintro ((h | ⟨h, h' | h'⟩) | h)
    · exact .inl h
    · exact .inr ⟨h, .inl (by rw [hm.single]; exact (s4 k).2 (.inl h'))⟩
    · exact .inr ⟨h, .inr (hm.basin k (by rw [s2]; exact h'))⟩
    · exact .inr h

/-- What a saddle that was disqualified connects is connected without it, not lower. -/
theorem marked_bypass {N : FNet} {saddles : List Nat} {f f' : Flags} (hN : NetOk N saddles f) {fuel : Nat}
    (h1 : disqualifyBasinSaddles N fuel saddles f = .ok f') (h2 : BasinResult N saddles f f') {k u v : Nat}
    (hset : ∀ a b, Linked N k a → Linked N k b → (N.setEq a b = true ↔ a = b)) (hk : ¬ SaddleOut f k)
    (hk' : SaddleOut f' k) (hu : Linked N k u) (hv : Linked N k v) :
    ConnectedBy N (fun _ => True) (fun j => Alive N f' (.saddle j) ∧ N.elev (.saddle k) ≤ N.elev (.saddle j)) u v := by
  obtain ⟨s1, s2, _, s4, _⟩ := stubPass_spec N (basinFeatures N saddles) f
  have hm := basins_marked h1
  by_cases hs : f'.single k = true
  · -- a single source saddle connects nothing
    rw [hm.single, s4] at hs
    have hone : OneSource N k := by
      rcases hs with h | h
      · exfalso
        refine hk ?_
        rcases hov : f.over k with _ | _ | _
        · exact .inr ⟨hov, .inl h⟩
        · exact absurd hov (hN.over k)
        · exact .inl hov
      · exact h.2.2
    have : u = v := by
      have h3 := (unique_iff (k := k) (fun a ha => (hset a a ha ha).2 rfl)
        (fun a b ha hb h => (hset b a hb ha).2 ((hset a b ha hb).1 h).symm)
        (fun a b c ha hb hc h1 h2 => (hset a c ha hc).2
          (((hset a b ha hb).1 h1).trans ((hset b c hb hc).1 h2)))).1 hone u v hu hv
      exact (hset u v hu hv).1 h3
    rw [this]
    exact .refl
  · -- a basin saddle is bypassed
    have hb : f'.basin k = true := by
      rcases (marked_out h1 k).1 hk' with h | h
      · exact absurd h hk
      · exact h.2.resolve_left hs
    have hlive : Alive N (stubPass N (basinFeatures N saddles) f) (.saddle k) := by
      have hov : ∀ k, (stubPass N (basinFeatures N saddles) f).over k ≠ some false := by
        rw [s1]; exact hN.over
      rcases (steps_flags hov h2.stub.steps).2.2.1 k hb with h | ⟨c, ls, hc, hl⟩
      · rw [s2] at h
        exfalso
        refine hk ?_
        rcases hov : f.over k with _ | _ | _
        · exact .inr ⟨hov, .inr h⟩
        · exact absurd hov (hN.over k)
        · exact .inl hov
      · refine hc.mem _ ?_
        have := (lowest_mem hc hl).1
        have hmem : Node.saddle k ∈ Node.saddle k :: ls := by simp
        rw [this] at hmem
        exact (List.mem_filter.1 hmem).1
    exact conn_mono (fun _ _ => trivial) (fun j hj => hj) (h2.stub.bypass k hlive (fun h => h.1 hk') u v hu hv)

/-- C29 (where it holds): for every height `t`, two summits are connected over non-disqualified saddles of at
least height `t` after detection exactly if they were before; so the key saddle elevation of every
pair of summits is the same. What is missing: saddles with more than two linkers and linkers held at
one end only, which `NetOk` excludes. -/
theorem C29_connection_kept_partial (N : FNet) (saddles : List Nat) (f : Flags) (hN : NetOk N saddles f)
    (hset : ∀ k a b, Linked N k a → Linked N k b → (N.setEq a b = true ↔ a = b))
    (fuel : Nat) (hfuel : saddles.length + N.nSaddles < fuel) :
    ∃ f', disqualifyBasinSaddles N fuel saddles f = .ok f' ∧ ∀ (t : Rat) (a b : Nat),
      ConnectedBy N (fun _ => True) (fun k => ¬ SaddleOut f' k ∧ t ≤ N.elev (.saddle k)) a b ↔
      ConnectedBy N (fun _ => True) (fun k => ¬ SaddleOut f k ∧ t ≤ N.elev (.saddle k)) a b := by
  obtain ⟨f', h1, h2⟩ := basin_spec hN hfuel
  refine ⟨f', h1, fun t a b => ⟨?_, ?_⟩⟩
  · exact conn_mono (fun _ h => h) fun k hk => ⟨fun h => hk.1 ((marked_out h1 k).2 (.inl h)), hk.2⟩
  · refine conn_bind fun k u v ⟨hk, ht⟩ hu hv _ _ => ?_
    by_cases hk' : SaddleOut f' k
    · exact conn_mono (fun _ _ => trivial) (fun j hj => ⟨hj.1.1, le_trans ht hj.2⟩)
        (marked_bypass hN h1 h2 (hset k) hk hk' hu hv)
    · exact conn_hop ⟨hk', ht⟩ hu hv trivial trivial

/-- C29 off the edge: the same counting only saddles that are not on the edge. -/
theorem C29_off_edge_partial (N : FNet) (saddles : List Nat) (f : Flags) (hN : NetOk N saddles f)
    (fuel : Nat) (hfuel : saddles.length + N.nSaddles < fuel) :
    ∃ f', disqualifyBasinSaddles N fuel saddles f = .ok f' ∧ ∀ (t : Rat) (a b : Nat),
      ConnectedBy N (fun _ => True) (fun k => Alive N f' (.saddle k) ∧ t ≤ N.elev (.saddle k)) a b ↔
      ConnectedBy N (fun _ => True) (fun k => Alive N f (.saddle k) ∧ t ≤ N.elev (.saddle k)) a b := by
  obtain ⟨f', h1, h2⟩ := basin_spec hN hfuel
  refine ⟨f', h1, fun t a b => ⟨?_, ?_⟩⟩
  · exact conn_mono (fun _ h => h) fun k hk => ⟨⟨fun h => hk.1.1 ((marked_out h1 k).2 (.inl h)), hk.1.2⟩, hk.2⟩
  · refine conn_bind fun k u v ⟨hk, ht⟩ hu hv _ _ => ?_
    by_cases hk' : SaddleOut f' k
    · exact conn_mono (fun _ _ => trivial) (fun j hj => ⟨hj.1, le_trans ht hj.2⟩)
        (marked_bypass hN h1 h2 (fun a b => hN.setEq k a b hk.2) hk.1 hk' hu hv)
    · exact conn_hop ⟨⟨hk', hk.2⟩, ht⟩ hu hv trivial trivial

example : ∀ k a b, Linked exNet k a → Linked exNet k b → (exNet.setEq a b = true ↔ a = b) := by
  intro k a b _ _; simp [exNet, netOf]

/-- Saddle 0 has linkers to three summits and is lowest on a cycle over two of them. -/
def exThree : FNet := netOf [30, 40, 50] [10, 12] [(0, 0), (1, 0), (2, 0), (0, 1), (1, 1)]

/-- C29 fails: a saddle with three linkers is disqualified as lowest member of a cycle, and the third summit
is cut off. -/
theorem C29_three_linkers_refuted :
    ∃ f', disqualifyBasinSaddles exThree 9 [0, 1] newFlags = .ok f' ∧
      ConnectedBy exThree (fun _ => True) (fun k => ¬ SaddleOut newFlags k) 0 2 ∧
      ¬ ConnectedBy exThree (fun _ => True) (fun k => ¬ SaddleOut f' k) 0 2 := by
  have h : (disqualifyBasinSaddles exThree 9 [0, 1] newFlags).toOption.map (fun f =>
      (f.saddleDisq 0, f.saddleDisq 1)) = some (true, false) := by decide +kernel
  cases hf : disqualifyBasinSaddles exThree 9 [0, 1] newFlags with
  | error e => rw [hf] at h; cases h
  | ok f' =>
    rw [hf] at h
    simp only [Except.toOption, Option.map_some, Option.some.injEq, Prod.mk.injEq] at h
    refine ⟨f', rfl, .single ⟨trivial, trivial, 0, by simp [SaddleOut, newFlags], ?_, ?_⟩, fun hc => ?_⟩
    · exact ⟨0, by decide +kernel, by decide +kernel⟩
    · exact ⟨2, by decide +kernel, by decide +kernel⟩
    · have key : ∀ x, ConnectedBy exThree (fun _ => True) (fun k => ¬ SaddleOut f' k) 0 x → x = 0 ∨ x = 1 := by
        intro x hx
        induction hx with
        | refl => exact .inl rfl
        | tail _ hs _ =>
          obtain ⟨_, _, k, hk, _, hl⟩ := hs
          have hm := netOf_linked hl
          simp only [List.mem_cons, Prod.mk.injEq, List.not_mem_nil, or_false] at hm
          have hk0 : k ≠ 0 := by
            rintro rfl
            exact hk ((saddleDisq_iff f' 0).1 h.1)
          omega
      have := key 2 hc
      omega

/-! ### C30: basin saddles are lowest members of cycles -/

/-- C30 (where it holds): every saddle that detection marks as basin saddle lies on a cycle of features that
were live before and is at least as low as everything on it. What is missing: networks outside
`NetOk`, where a saddle may be marked without a cycle, see below. -/
theorem C30_lowest_of_cycle_partial (N : FNet) (saddles : List Nat) (f : Flags) (hN : NetOk N saddles f)
    (fuel : Nat) (hfuel : saddles.length + N.nSaddles < fuel) :
    ∃ f', disqualifyBasinSaddles N fuel saddles f = .ok f' ∧ ∀ j, f'.basin j = true → f.basin j = false →
      ∃ c, Cycle N (Alive N f) c ∧ Node.saddle j ∈ c ∧ ∀ n ∈ c, N.elev (.saddle j) ≤ N.elev n := by
  obtain ⟨f', h1, h2⟩ := basin_spec hN hfuel
  refine ⟨f', h1, fun j hj hn => ?_⟩
  obtain ⟨s1, s2, _, _, _⟩ := stubPass_spec N (basinFeatures N saddles) f
  have hov : ∀ k, (stubPass N (basinFeatures N saddles) f).over k ≠ some false := by
    rw [s1]; exact hN.over
  rcases (steps_flags hov h2.stub.steps).2.2.1 j hj with h | ⟨c, ls, hc, hl⟩
  · rw [s2, hn] at h; cases h
  · obtain ⟨e1, e2⟩ := lowest_mem hc hl
    have hmem : Node.saddle j ∈ Node.saddle j :: ls := by simp
    rw [e1] at hmem
    exact ⟨c, hc.mono fun n h => ((alive_stub hN.over n).1 h).1, (List.mem_filter.1 hmem).1, e2⟩

/-- A chain of three summits in which the upper saddle has two linkers to the same summit. -/
def exTwin : FNet := netOf [30, 40, 50] [10, 20] [(0, 0), (1, 0), (1, 1), (1, 1), (2, 1)]

/-- Every member of a cycle has two different neighbours on it. -/
theorem cycle_two {N : FNet} {P : Node → Prop} {c : List Node} (h : Cycle N P c) {y : Node} (hy : y ∈ c) :
    ∃ a ∈ c, ∃ b ∈ c, a ≠ b ∧ Joined N y a ∧ Joined N y b := by
  obtain ⟨pre, post, rfl⟩ := List.append_of_mem hy
  obtain ⟨a, w, hw, _, h1, b, hb, h2, hne⟩ := cycle_open h
  have hm : ∀ n ∈ a :: w, n ∈ pre ++ y :: post := by
    intro n hn
    rw [← hw] at hn
    rcases List.mem_append.1 hn with h | h <;> simp [h]
  exact ⟨a, hm a (by simp), b, hm b (List.mem_of_getLast? hb), hne, h1, h2.symm⟩

/-- C30 fails: parallel linkers pass for a cycle, and a saddle that is on no cycle is marked. -/
theorem C30_parallel_linkers_refuted :
    ∃ f', disqualifyBasinSaddles exTwin 9 [0, 1] newFlags = .ok f' ∧ f'.basin 1 = true ∧
      ∀ c, Cycle exTwin (fun _ => True) c → Node.saddle 1 ∉ c := by
  have h : (disqualifyBasinSaddles exTwin 9 [0, 1] newFlags).toOption.map (fun f => f.basin 1) = some true := by
    decide +kernel
  cases hf : disqualifyBasinSaddles exTwin 9 [0, 1] newFlags with
  | error e => rw [hf] at h; cases h
  | ok f' =>
    rw [hf] at h
    refine ⟨f', rfl, by simpa [Except.toOption] using h, fun c hc hm => ?_⟩
    -- summit 2 would be on the cycle, but has only one saddle
    have hsad : ∀ n, Joined exTwin (.saddle 1) n → n = .summit 1 ∨ n = .summit 2 := by
      intro n hn
      cases n with
      | saddle k => exact absurd hn (fun h => h)
      | summit D =>
        have := netOf_linked (show Linked exTwin 1 D from hn)
        simp only [List.mem_cons, Prod.mk.injEq, List.not_mem_nil, or_false] at this
        simp only [Node.summit.injEq]
        omega
    have h2 : Node.summit 2 ∈ c := by
      obtain ⟨a, ha, b, hb, hne, ja, jb⟩ := cycle_two hc hm
      rcases hsad a ja with rfl | rfl
      · rcases hsad b jb with rfl | rfl
        · exact absurd rfl hne
        · exact hb
      · exact ha
    obtain ⟨a, _, b, _, hne, ja, jb⟩ := cycle_two hc h2
    have hsum : ∀ n, Joined exTwin (.summit 2) n → n = .saddle 1 := by
      intro n hn
      cases n with
      | summit D => exact absurd hn (fun h => h)
      | saddle k =>
        have := netOf_linked (show Linked exTwin k 2 from hn)
        simp only [List.mem_cons, Prod.mk.injEq, List.not_mem_nil, or_false] at this
        simp only [Node.saddle.injEq]
        omega
    exact hne ((hsum a ja).trans (hsum b jb).symm)

/-! ### C31: single-source saddles -/

/-- C31: whenever detection finishes, a saddle counts as single-source afterwards exactly if it did before,
or if it was analysed, not disqualified, and its linkers lead to fewer than two distinct summits
(distinct as members of a set). -/
theorem C31_single_source (N : FNet) (saddles : List Nat) (f f' : Flags) (fuel : Nat) (k : Nat)
    (hrefl : ∀ a, Linked N k a → N.setEq a a = true)
    (hsymm : ∀ a b, Linked N k a → Linked N k b → N.setEq a b = true → N.setEq b a = true)
    (htrans : ∀ a b c, Linked N k a → Linked N k b → Linked N k c → N.setEq a b = true → N.setEq b c = true →
      N.setEq a c = true)
    (h : disqualifyBasinSaddles N fuel saddles f = .ok f') :
    f'.single k = true ↔ f.single k = true ∨ (k ∈ saddles ∧ ¬ SaddleOut f k ∧
      ¬ ∃ u v, Linked N k u ∧ Linked N k v ∧ N.setEq u v = false) := by
  rw [(basins_marked h).single, (stubPass_spec N (basinFeatures N saddles) f).2.2.2.1 k,
    (features_spec N saddles).2.1 k]
  have : OneSource N k ↔ ¬ ∃ u v, Linked N k u ∧ Linked N k v ∧ N.setEq u v = false := by
    unfold OneSource
    rw [unique_iff hrefl hsymm htrans]
    simp only [not_exists, not_and, Bool.not_eq_false]
  rw [this]

example (k : Nat) : (∀ a, Linked exNet k a → exNet.setEq a a = true) ∧
    (∀ a b, Linked exNet k a → Linked exNet k b → exNet.setEq a b = true → exNet.setEq b a = true) ∧
    ∀ a b c, Linked exNet k a → Linked exNet k b → Linked exNet k c → exNet.setEq a b = true → exNet.setEq b c = true → exNet.setEq a c = true := by
  simp only [exNet, netOf, decide_eq_true_eq]
  exact ⟨fun _ _ => trivial, fun _ _ _ _ h => h.symm, fun _ _ _ _ _ _ h1 h2 => h1.trans h2⟩

/-- C31, the pass alone: it changes nothing but the single-source marks of analysed saddles that were not
disqualified and the linkers of the saddles it marks. -/
theorem C31_pass_changes (N : FNet) (features : List Nat) (f : Flags) :
    let f' := stubPass N features f
    f'.over = f.over ∧ f'.basin = f.basin ∧ f'.alts = f.alts ∧
      (∀ k, f'.single k ≠ f.single k → k ∈ features ∧ ¬ SaddleOut f k ∧ f'.single k = true) ∧
      ∀ i, f'.linkDisq i ≠ f.linkDisq i → f'.linkDisq i = true ∧
        ∃ k ∈ features, i ∈ N.sadLinks k ∧ ¬ SaddleOut f k ∧ f'.single k = true := by
  obtain ⟨s1, s2, s3, s4, s5⟩ := stubPass_spec N features f
  refine ⟨s1, s2, s3, fun k hk => ?_, fun i hi => ?_⟩
  · have h4 := s4 k
    cases e : (stubPass N features f).single k with
    | false =>
      cases e' : f.single k with
      | false => exact absurd (e.trans e'.symm) hk
      | true => rw [h4.2 (.inl e')] at e; cases e
    | true =>
      rcases h4.1 e with h | h
      · exact absurd (e.trans h.symm) hk
      · exact ⟨h.1, h.2.1, rfl⟩
  · have h5 := s5 i
    cases e : (stubPass N features f).linkDisq i with
    | false =>
      cases e' : f.linkDisq i with
      | false => exact absurd (e.trans e'.symm) hi
      | true => rw [h5.2 (.inl e')] at e; cases e
    | true =>
      rcases h5.1 e with h | ⟨j, h1, h2, h3, h4⟩
      · exact absurd (e.trans h.symm) hi
      · exact ⟨rfl, j, h1, h4, h2, (s4 j).2 (.inr ⟨h1, h2, h3⟩)⟩

/-- On the example the pass marks saddle 3 and its linkers 6 and 7. -/
example : (let f := stubPass exNet [0, 1, 2, 3] newFlags
    ((List.range 4).map f.single, (List.range 8).map f.linkDisq)) =
    ([false, false, false, true], [false, false, false, false, false, false, true, true]) := by decide +kernel

/-! ### C32: lowest members -/

/-- C32: the selection returns, in order, exactly the members of minimal elevation, for every nonempty cycle
of distinct features. -/
theorem C32_lowest_members (elev : Node → Rat) (c : List Node) (hc : c ≠ []) (hn : c.Nodup) :
    ∃ low ∈ c, (∀ n ∈ c, elev low ≤ elev n) ∧ findLowest elev c = c.filter (fun n => decide (elev n = elev low)) := by
  obtain ⟨l, ls, h1, h2, h3⟩ := findLowest_spec elev c hc hn
  have hm : l ∈ l :: ls := by simp
  rw [h2] at hm
  exact ⟨l, (List.mem_filter.1 hm).1, h3, h1.trans h2⟩

example : findLowest exNet.elev [.summit 1, .saddle 1, .summit 2, .saddle 0] = [.saddle 0] := by decide +kernel

/-- Without distinctness the selection may return a member twice. -/
example : findLowest (fun _ => 5) [.saddle 0, .saddle 1, .saddle 1] = [.saddle 0, .saddle 1, .saddle 1] := by
  decide +kernel

/-! ### C33: alternatives -/

/-- C33 (where it holds): if features at the same place are identical, the alternatives of each feature are
either untouched or exactly the other lowest members of a live cycle on which it is lowest itself; and
a newly marked basin saddle with untouched alternatives is the only lowest member of a cycle. What is
missing: different saddles at the same place, see below. -/
theorem C33_alternatives_partial (N : FNet) (saddles : List Nat) (f : Flags) (hN : NetOk N saddles f)
    (heq : ∀ a b, N.eq a b = true → a = b) (fuel : Nat) (hfuel : saddles.length + N.nSaddles < fuel) :
    ∃ f', disqualifyBasinSaddles N fuel saddles f = .ok f' ∧
      (∀ n, f'.alts n = f.alts n ∨ ∃ c, Cycle N (Alive N f) c ∧ n ∈ c ∧ (∀ m ∈ c, N.elev n ≤ N.elev m) ∧
        ∀ m, m ∈ f'.alts n ↔ m ∈ c ∧ m ≠ n ∧ N.elev m = N.elev n) ∧
      ∀ j, f'.basin j = true → f.basin j = false → f'.alts (.saddle j) = f.alts (.saddle j) →
        f.alts (.saddle j) = [] → ∃ c, Cycle N (Alive N f) c ∧ Node.saddle j ∈ c ∧
          ∀ m ∈ c, m ≠ .saddle j → N.elev (.saddle j) < N.elev m := by
  obtain ⟨f', h1, h2⟩ := basin_spec hN hfuel
  obtain ⟨s1, s2, s3, _, _⟩ := stubPass_spec N (basinFeatures N saddles) f
  obtain ⟨n1, n2⟩ := steps_noted h2.stub.steps
  have hlive : ∀ n, Alive N (stubPass N (basinFeatures N saddles) f) n → Alive N f n := fun n h =>
    ((alive_stub hN.over n).1 h).1
  have hnoted : ∀ n, Noted N (stubPass N (basinFeatures N saddles) f) f' n →
      (∃ c, Cycle N (Alive N f) c ∧ n ∈ c ∧ (∀ m ∈ c, N.elev n ≤ N.elev m) ∧
        ∀ m, m ∈ f'.alts n ↔ m ∈ c ∧ m ≠ n ∧ N.elev m = N.elev n) ∧ f'.alts n ≠ [] := by
    rintro n ⟨c, k, ls, hc, hl, hls, hm, ha⟩
    obtain ⟨e1, e2⟩ := lowest_mem hc hl
    have hmem : ∀ m, m ∈ Node.saddle k :: ls ↔ m ∈ c ∧ N.elev m = N.elev (.saddle k) := by
      intro m; rw [e1, List.mem_filter]; simp
    have hnd : (Node.saddle k :: ls).Nodup := by rw [e1]; exact hc.nodup.filter _
    have halt : ∀ m, m ∈ f'.alts n ↔ m ∈ Node.saddle k :: ls ∧ m ≠ n := by
      rw [ha]
      refine removeFirst_mem hnd ?_
      intro x _
      simp only [Bool.or_eq_true, decide_eq_true_eq]
      exact ⟨fun h => h.elim id (heq x n), .inl⟩
    have hn := (hmem n).1 hm
    refine ⟨⟨c, hc.mono hlive, hn.1, ?_, fun m => ?_⟩, ?_⟩
    · rw [hn.2]; exact e2
    · rw [halt, hmem, hn.2]; tauto
    · intro he
      obtain ⟨b, hb⟩ := List.exists_mem_of_ne_nil _ hls
      have hkb : Node.saddle k ≠ b := fun e => (List.nodup_cons.1 hnd).1 (e ▸ hb)
      by_cases hkn : Node.saddle k = n
      · have := (halt b).2 ⟨by simp [hb], fun e => hkb (hkn.trans e.symm)⟩
        rw [he] at this; cases this
      · have := (halt (.saddle k)).2 ⟨by simp, hkn⟩
        rw [he] at this; cases this
  refine ⟨f', h1, fun n => ?_, fun j hj hnj hun hem => ?_⟩
  · rcases n1 n with h | h
    · exact .inl (by rw [h, s3])
    · exact .inr (hnoted n h).1
  · rcases n2 j hj with h | ⟨c, ls, hc, hl, h⟩
    · rw [s2, hnj] at h; cases h
    · rcases h with rfl | h
      · obtain ⟨e1, e2⟩ := lowest_mem hc hl
        have hmem : ∀ m, m ∈ [Node.saddle j] ↔ m ∈ c ∧ N.elev m = N.elev (.saddle j) := by
          intro m; rw [e1, List.mem_filter]; simp
        refine ⟨c, hc.mono hlive, ((hmem _).1 (by simp)).1, fun m hm hne => ?_⟩
        refine lt_of_le_of_ne (e2 m hm) fun e => hne ?_
        simpa using (hmem m).2 ⟨hm, e.symm⟩
      · exact absurd (hun.trans hem) (hnoted _ h).2

/-- A ring with two saddles of equal height: each is recorded as alternative of the other. -/
def exTie : FNet := netOf [30, 40] [10, 10, 12] [(0, 0), (1, 0), (0, 1), (1, 1), (0, 2), (1, 2)]

example : NetOk exTie (List.range 3) newFlags ∧ ∀ a b, exTie.eq a b = true → a = b := by
  refine ⟨netOf_ok (by decide +kernel) (by decide +kernel) (by simp), fun a b h => ?_⟩
  cases a <;> cases b <;> simp [exTie, netOf] at h ⊢ <;> exact h

/-- Three summits; saddles 1 and 3 are equally high and at the same place. -/
def exTwins : FNet := netOf [30, 40, 50] [12, 10, 12, 10]
  [(1, 2), (0, 2), (1, 0), (2, 0), (1, 1), (2, 1), (1, 3), (2, 3)] [] [(1, 3), (3, 1)]

/-- C33 fails: the disqualified basin saddle 3 is its own alternative, because another saddle at the same
place was removed from the list in its stead. -/
theorem C33_co_located_refuted : NetOk exTwins (List.range 4) newFlags ∧
    (disqualifyBasinSaddles exTwins 9 (List.range 4) newFlags).toOption.map (fun f =>
      ((List.range 4).map f.basin, (List.range 4).map fun k => f.alts (.saddle k))) =
    some ([false, true, false, true], [[], [.saddle 3], [], [.saddle 3]]) := by
  refine ⟨netOf_ok (by decide +kernel) (by decide +kernel) (by decide +kernel), ?_⟩
  decide +kernel

/-! ### C40: disqualification -/

/-- C40, reporting: a saddle reports disqualified exactly if it is overridden to be, or is not overridden and
is a basin or single-source saddle. -/
theorem C40_reported (f : Flags) (k : Nat) :
    f.saddleDisq k = true ↔ f.over k = some true ∨ (f.over k = none ∧ (f.single k = true ∨ f.basin k = true)) :=
  saddleDisq_iff f k

/-- C40, disqualifying: afterwards all linkers of the saddle are disqualified, and so is the saddle, unless it
is overridden not to be and marked as basin or single-source; no other saddle and no linker of
another saddle changes. -/
theorem C40_disqualify (N : FNet) (f : Flags) (k : Nat) (basin single : Bool) :
    let f' := disqualifySelf N f k basin single
    (∀ i ∈ N.sadLinks k, f'.linkDisq i = true) ∧
      (f'.saddleDisq k = false ↔ f.over k = some false ∧ (basin || single) = true) ∧
      (∀ j, j ≠ k → f'.saddleDisq j = f.saddleDisq j) ∧
      ∀ i, i ∉ N.sadLinks k → f'.linkDisq i = f.linkDisq i := by
  refine ⟨fun i hi => by simp [disqualifySelf, hi], ?_, fun j hj => ?_, fun i hi => by simp [disqualifySelf, hi]⟩
  · cases hov : f.over k with
    | none => cases basin <;> cases single <;> simp [disqualifySelf, Flags.saddleDisq, hov]
    | some b => cases basin <;> cases single <;> cases b <;> simp [disqualifySelf, Flags.saddleDisq, hov]
  · simp [disqualifySelf, Flags.saddleDisq, hj]

example : (disqualifySelf exNet newFlags 1 false false).saddleDisq 1 = true ∧
    (disqualifySelf exNet newFlags 1 false false).linkDisq 3 = true ∧
    (disqualifySelf exNet newFlags 1 false false).linkDisq 4 = false := by decide +kernel

/-- C40, detection: on every network, if detection finishes, every saddle it marks has all its linkers
disqualified, and every linker it disqualifies belongs to a saddle it marked or had marked. -/
theorem C40_detection_linkers (N : FNet) (saddles : List Nat) (f f' : Flags) (fuel : Nat)
    (h : disqualifyBasinSaddles N fuel saddles f = .ok f') :
    (∀ k, SaddleOut f' k → ¬ SaddleOut f k → ∀ i ∈ N.sadLinks k, f'.linkDisq i = true) ∧
      (∀ i, f'.linkDisq i = true → f.linkDisq i = true ∨
        ∃ k, i ∈ N.sadLinks k ∧ (f'.single k = true ∨ f'.basin k = true)) ∧
      (∀ k, SaddleOut f k → SaddleOut f' k) := by
  have hm := basins_marked h
  obtain ⟨s1, s2, s3, s4, s5⟩ := stubPass_spec N (basinFeatures N saddles) f
  refine ⟨fun k hk hn i hi => ?_, fun i hi => ?_, fun k hk => ?_⟩
  · unfold SaddleOut at hk hn
    rw [hm.over, s1, hm.single, s4] at hk
    rcases hk with h | ⟨ho, (h | h) | h⟩
    · exact absurd (.inl h) hn
    · exact absurd (.inr ⟨ho, .inl h⟩) hn
    · exact hm.link i ((s5 i).2 (.inr ⟨k, h.1, h.2.1, h.2.2, hi⟩))
    · rcases hm.all k h with h | h
      · rw [s2] at h
        exact absurd (.inr ⟨ho, .inr h⟩) hn
      · exact h i hi
  · rcases hm.only i hi with h | ⟨k, h1, h2⟩
    · rcases (s5 i).1 h with h | ⟨k, h1, h2, h3, h4⟩
      · exact .inl h
      · exact .inr ⟨k, h4, .inl (by rw [hm.single]; exact (s4 k).2 (.inr ⟨h1, h2, h3⟩))⟩
    · exact .inr ⟨k, h2, .inr h1⟩
  · unfold SaddleOut at hk ⊢
    rw [hm.over, s1, hm.single, s4]
    rcases hk with h | ⟨ho, h | h⟩
    · exact .inl h
    · exact .inr ⟨ho, .inl (.inl h)⟩
    · exact .inr ⟨ho, .inr (hm.basin k (by rw [s2]; exact h))⟩

end PyProm
