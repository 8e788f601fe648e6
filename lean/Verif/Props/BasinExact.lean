import Verif.Proof.Forest
import Verif.Props.Basin

/-
C86: which saddles basin detection marks, exactly, and that it does not depend on the order of anything.
-/
namespace PyProm
open Spec

/-- The saddle lies on a cycle of live features all of which are higher. -/
def Spec.LowestOnCycle (N : FNet) (f : Flags) (j : Nat) : Prop :=
  ∃ c, Cycle N (Alive N f) c ∧ Node.saddle j ∈ c ∧ ∀ n ∈ c, n ≠ .saddle j → N.elev (.saddle j) < N.elev n

/-- Two ends of a saddle that are connected otherwise are on a cycle with it. -/
theorem bypass_cycle_by {N : FNet} {Q P : Nat → Prop} {k u v : Nat} (hun : Q u) (hk : ¬ P k) (hne : u ≠ v)
    (hu : Linked N k u) (hv : Linked N k v) (hc : ConnectedBy N Q P u v) :
    ∃ l, Cycle N (fun _ => True) (.saddle k :: l) ∧ ∀ n ∈ l, match n with
      | .summit D => Q D
      | .saddle j => P j := by
  let R : Node → Prop := fun n => match n with
    | .summit D => Q D
    | .saddle j => P j
  have hn : Relation.ReflTransGen (fun x y => Joined N x y ∧ R y) (Node.summit u) (Node.summit v) := by
    clear hv hne
    induction hc with
    | refl => exact .refl
    | tail _ h2 ih =>
      obtain ⟨_, q, j, hj, l1, l2⟩ := h2
      exact (ih.tail ⟨(show Joined N (.summit _) (.saddle j) from l1), hj⟩).tail
        ⟨(show Joined N (.saddle j) (.summit _) from l2), q⟩
  obtain ⟨l, h1, h2, h3, h4, h5⟩ := simple_chain hn
  have hin : ∀ x ∈ l, R x := fun x hx => by
    rcases h5 x hx with rfl | ⟨y, _, h⟩
    · exact hun
    · exact h
  refine ⟨l, ⟨?_, ?_, ?_, ?_, fun _ _ => trivial⟩, hin⟩
  · rcases l with _ | ⟨x, _ | ⟨y, l⟩⟩
    · simp at h3
    · simp at h3 h4
      rw [h3] at h4
      exact absurd (by simpa using h4) hne
    · simp
  · exact List.nodup_cons.2 ⟨fun h => hk (hin _ h), h2⟩
  · cases l with
    | nil => simp
    | cons x l =>
      simp only [List.head?_cons, Option.some.injEq] at h3
      subst h3
      exact List.isChain_cons_cons.2 ⟨hu, h1.imp fun _ _ h => h.1⟩
  · intro a ha b hb
    simp only [List.head?_cons, Option.mem_def, Option.some.injEq] at hb
    subst hb
    have : (Node.saddle k :: l).getLast? = some (.summit v) := by
      cases l with
      | nil => simp at h3
      | cons x l => rw [List.getLast?_cons_cons]; exact h4
    rw [this] at ha
    simp only [Option.mem_def, Option.some.injEq] at ha
    subst ha
    exact hv

/-- Members of a cycle of live features are not stubs. -/
theorem cycle_stub {N : FNet} {saddles : List Nat} {f : Flags} (hN : NetOk N saddles f) {c : List Node}
    (hc : Cycle N (Alive N f) c) : Cycle N (Alive N (stubPass N (basinFeatures N saddles) f)) c := by
  refine { hc with mem := fun n hn => (alive_stub hN.over n).2 ⟨hc.mem n hn, ?_⟩ }
  rintro k rfl _ hone
  obtain ⟨a, _, b, _, hne, ja, jb⟩ := cycle_two hc hn
  cases a with
  | saddle _ => exact ja.elim
  | summit A =>
    cases b with
    | saddle _ => exact jb.elim
    | summit B => exact hne (by rw [(oneSource_iff hN k (hc.mem _ hn).2).1 hone A B ja jb])

/-- The only lowest member of a cycle of live features is marked. -/
theorem lowest_marked {N : FNet} {saddles : List Nat} {f f' : Flags} (hN : NetOk N saddles f) {fuel : Nat}
    (h1 : disqualifyBasinSaddles N fuel saddles f = .ok f') (h2 : BasinResult N saddles f f') {j : Nat}
    (hj : LowestOnCycle N f j) : f'.basin j = true := by
  obtain ⟨c, hc, hm, hlow⟩ := hj
  have hc1 := cycle_stub hN hc
  obtain ⟨s1, s2, _, s4, _⟩ := stubPass_spec N (basinFeatures N saddles) f
  have hmk := basins_marked h1
  by_contra hb
  have ha1 : Alive N (stubPass N (basinFeatures N saddles) f) (.saddle j) := hc1.mem _ hm
  have ha : Alive N f' (.saddle j) := by
    refine ⟨fun hout => ?_, ha1.2⟩
    rcases (marked_out h1 j).1 hout with h | ⟨h, h' | h'⟩
    · exact (hc.mem _ hm).1 h
    · exact ha1.1 (.inr ⟨by rw [s1]; exact h, .inl (by rw [← hmk.single]; exact h')⟩)
    · exact hb h'
  obtain ⟨pre, post, rfl⟩ := List.append_of_mem hm
  have hconn := cycle_bypass hc1 (hN.two j ha.2) (Q := okS N (stubPass N (basinFeatures N saddles) f))
    (P' := fun i => Alive N f' (.saddle i) ∧ N.elev (.saddle j) < N.elev (.saddle i))
    (fun D hD => hc1.mem _ hD) (fun i hi hne u v hu hv qu qv => by
      have hlt := hlow _ hi (by simpa using hne)
      by_cases hai : Alive N f' (.saddle i)
      · exact conn_hop ⟨hai, hlt⟩ hu hv qu qv
      · exact conn_mono (fun _ h => h) (fun x hx => ⟨hx.1, lt_of_lt_of_le hlt hx.2⟩)
          (h2.stub.bypass i (hc1.mem _ hi) hai u v hu hv))
  obtain ⟨a, hma, b, _, hne, ja, jb⟩ := cycle_two hc1 hm
  cases a with
  | saddle _ => exact ja.elim
  | summit A =>
    cases b with
    | saddle _ => exact jb.elim
    | summit B =>
      obtain ⟨l, hl, hin⟩ := bypass_cycle_by (N := N) (Q := okS N (stubPass N (basinFeatures N saddles) f))
        (P := fun i => Alive N f' (.saddle i) ∧ N.elev (.saddle j) < N.elev (.saddle i)) (hc1.mem _ hma)
        (fun h => lt_irrefl _ h.2) (fun h => hne (by rw [h])) ja jb (hconn A B ja jb)
      refine h2.acyclic _ { hl with mem := fun n hn => ?_ }
      rcases List.mem_cons.1 hn with rfl | hn
      · exact ha
      · have := hin n hn
        cases n with
        | summit D => exact this
        | saddle i => exact this.1

/-- No other live saddle of the list is as high as saddle `j`. -/
def Spec.AloneAt (N : FNet) (saddles : List Nat) (f : Flags) (j : Nat) : Prop :=
  ∀ k ∈ saddles, Alive N f (.saddle k) → N.elev (.saddle k) = N.elev (.saddle j) → k = j

/-- C86 (where it holds): if no other live saddle is as high as saddle `j`, detection marks `j` exactly if it is the lowest
feature of some cycle of live features. Whatever the heights, it marks every saddle that is
the only lowest feature of some cycle. Missing: other saddles of the same height, see below, and networks
outside `NetOk`. -/
theorem C86_exact_partial (N : FNet) (saddles : List Nat) (f : Flags) (hN : NetOk N saddles f)
    (fuel : Nat) (hfuel : saddles.length + N.nSaddles < fuel) :
    ∃ f', disqualifyBasinSaddles N fuel saddles f = .ok f' ∧
      (∀ j, LowestOnCycle N f j → f'.basin j = true) ∧
      (∀ j, AloneAt N saddles f j → (f'.basin j = true ↔ f.basin j = true ∨ LowestOnCycle N f j)) := by
  obtain ⟨f', h1, h2⟩ := basin_spec hN hfuel
  refine ⟨f', h1, fun j => lowest_marked hN h1 h2, fun j hd => ⟨fun hb => ?_, ?_⟩⟩
  · by_cases hf : f.basin j = true
    · exact .inl hf
    · obtain ⟨f'', e1, e2⟩ := C30_lowest_of_cycle_partial N saddles f hN fuel hfuel
      cases (e1.symm.trans h1 : Except.ok _ = Except.ok _)
      obtain ⟨c, hc, hm, hlow⟩ := e2 j hb (by simpa using hf)
      refine .inr ⟨c, hc, hm, fun n hn hne => ?_⟩
      cases n with
      | saddle k =>
        refine lt_of_le_of_ne (hlow _ hn) fun he => hne ?_
        obtain ⟨a, _, _, _, _, ja, _⟩ := cycle_two hc hn
        cases a with
        | saddle _ => exact ja.elim
        | summit A => rw [hd k (hN.listed k A (hc.mem _ hn) ja) (hc.mem _ hn) he.symm]
      | summit D =>
        obtain ⟨a, ha, _, _, _, ja, _⟩ := cycle_two hc hn
        cases a with
        | summit _ => exact ja.elim
        | saddle k => exact lt_of_le_of_lt (hlow _ ha) (hN.above k D (hc.mem _ ha).2 ja)
  · rintro (h | h)
    · refine (basins_marked h1).basin j ?_
      rw [(stubPass_spec N (basinFeatures N saddles) f).2.1]
      exact h
    · exact lowest_marked hN h1 h2 h

/-- The same features and linkers, listed in any order. -/
structure Spec.Reordered (N N' : FNet) : Prop where
  elev : N'.elev = N.elev
  edge : N'.edge = N.edge
  disq : N'.sumDisq = N.sumDisq
  setEq : N'.setEq = N.setEq
  linked : ∀ k D, Linked N' k D ↔ Linked N k D

theorem Spec.Reordered.alive {N N' : FNet} (h : Reordered N N') (f : Flags) (n : Node) : Alive N' f n ↔ Alive N f n := by
  cases n <;> simp [Alive, h.edge, h.disq]

theorem Spec.Reordered.joined {N N' : FNet} (h : Reordered N N') (a b : Node) : Joined N' a b ↔ Joined N a b := by
  cases a <;> cases b <;> simp [Joined, h.linked]

theorem Spec.Reordered.symm {N N' : FNet} (h : Reordered N N') : Reordered N' N :=
  ⟨h.elev.symm, h.edge.symm, h.disq.symm, h.setEq.symm, fun k D => (h.linked k D).symm⟩

theorem Spec.Reordered.lowest {N N' : FNet} (h : Reordered N N') {f : Flags} {j : Nat} (hl : LowestOnCycle N f j) :
    LowestOnCycle N' f j := by
  obtain ⟨c, hc, hm, hlow⟩ := hl
  refine ⟨c, ⟨hc.long, hc.nodup, hc.chain.imp fun a b => (h.joined a b).2, fun a ha b hb =>
    (h.joined a b).2 (hc.closed a ha b hb), fun n hn => (h.alive f n).2 (hc.mem n hn)⟩, hm, ?_⟩
  rw [h.elev]
  exact hlow

/-- Saddles that are not analysed keep their single-source mark. -/
theorem single_unlisted {N : FNet} {saddles : List Nat} {f f' : Flags} {fuel k : Nat}
    (h : disqualifyBasinSaddles N fuel saddles f = .ok f') (hk : k ∉ saddles) : f'.single k = true ↔ f.single k = true := by
  rw [(basins_marked h).single, (stubPass_spec N (basinFeatures N saddles) f).2.2.2.1 k,
    (features_spec N saddles).2.1 k]
  exact ⟨fun h => h.elim id fun h => absurd h.1 hk, .inl⟩

/-- C86, order (where it holds): in whatever order saddles and linkers are listed, the same saddles are disqualified as
single-source saddles, and a saddle such that no other live saddle is as high is a basin saddle and disqualified
in either order or in neither. Missing: other saddles of equal height, see below, and networks outside `NetOk`. -/
theorem C86_order_partial (N N' : FNet) (saddles saddles' : List Nat) (f : Flags) (hN : NetOk N saddles f)
    (hN' : NetOk N' saddles' f) (h : Reordered N N') (hs : ∀ k, k ∈ saddles' ↔ k ∈ saddles)
    (hset : ∀ k ∈ saddles, ∀ a b, Linked N k a → Linked N k b → (N.setEq a b = true ↔ a = b)) (fuel : Nat)
    (hfuel : saddles.length + N.nSaddles < fuel) (hfuel' : saddles'.length + N'.nSaddles < fuel) :
    ∃ f1 f2, disqualifyBasinSaddles N fuel saddles f = .ok f1 ∧
      disqualifyBasinSaddles N' fuel saddles' f = .ok f2 ∧
      ∀ k, f1.single k = f2.single k ∧
        (AloneAt N saddles f k → f1.basin k = f2.basin k ∧ (SaddleOut f1 k ↔ SaddleOut f2 k)) := by
  obtain ⟨f1, a1, _, a2⟩ := C86_exact_partial N saddles f hN fuel hfuel
  obtain ⟨f2, b1, _, b2⟩ := C86_exact_partial N' saddles' f hN' fuel hfuel'
  have hd' : ∀ k, AloneAt N saddles f k → AloneAt N' saddles' f k := by
    intro k hd j hj' hj he
    rw [h.elev] at he
    exact hd j ((hs j).1 hj') ((h.alive f _).1 hj) he
  have hb : ∀ k, AloneAt N saddles f k → f1.basin k = f2.basin k := by
    intro k hd
    rw [Bool.eq_iff_iff, a2 k hd, b2 k (hd' k hd)]
    exact or_congr_right ⟨h.lowest, h.symm.lowest⟩
  have hsg : ∀ k, f1.single k = f2.single k := by
    intro k
    have e1 := fun hk => C31_single_source N saddles f f1 fuel k (fun a ha => (hset k hk a a ha ha).2 rfl)
      (fun a b ha hb e => (hset k hk b a hb ha).2 ((hset k hk a b ha hb).1 e).symm)
      (fun a b c ha hb hc e e' => (hset k hk a c ha hc).2 (((hset k hk a b ha hb).1 e).trans ((hset k hk b c hb hc).1 e'))) a1
    have hset' : k ∈ saddles → ∀ a b, Linked N' k a → Linked N' k b → (N'.setEq a b = true ↔ a = b) := by
      intro hk a b ha hb
      rw [h.setEq]
      exact hset k hk a b ((h.linked k a).1 ha) ((h.linked k b).1 hb)
    have e2 := fun hk => C31_single_source N' saddles' f f2 fuel k (fun a ha => (hset' hk a a ha ha).2 rfl)
      (fun a b ha hb e => (hset' hk b a hb ha).2 ((hset' hk a b ha hb).1 e).symm)
      (fun a b c ha hb hc e e' => (hset' hk a c ha hc).2 (((hset' hk a b ha hb).1 e).trans ((hset' hk b c hb hc).1 e'))) b1
    by_cases hk : k ∈ saddles
    · rw [Bool.eq_iff_iff, e1 hk, e2 hk, h.setEq, hs]
      simp only [h.linked]
    · rw [Bool.eq_iff_iff, single_unlisted a1 hk, single_unlisted b1 fun h => hk ((hs k).1 h)]
  refine ⟨f1, f2, a1, b1, fun k => ⟨hsg k, fun hd => ⟨hb k hd, ?_⟩⟩⟩
  rw [marked_out a1 k, marked_out b1 k, hb k hd, hsg]

/-- The conditions on a network do not depend on the order of its saddles. -/
theorem Spec.NetOk.perm {N : FNet} {l l' : List Nat} {f : Flags} (h : NetOk N l f) (hl : ∀ k, k ∈ l' ↔ k ∈ l) : NetOk N l' f :=
  ⟨h.sad, h.sum, h.sumOnce, h.two, h.above, h.range, fun k hk => h.bound k ((hl k).1 hk),
    fun k D he hk => (hl k).2 (h.listed k D he hk), h.eqElev, h.setEq, h.over⟩

/-- The example with saddles and linkers in another order. -/
def exNetTurned : FNet := { exNet with
  sumLinks := fun D => (exNet.sumLinks D).reverse
  sadLinks := fun k => (exNet.sadLinks k).reverse }

/-- Instance of C86: the example and the same network in another order meet the conditions, and saddle 0 is the lowest feature of a
cycle, namely that of its first three saddles and its summits. -/
example : NetOk exNet (List.range 4) newFlags ∧ NetOk exNetTurned [3, 1, 0, 2] newFlags ∧ Reordered exNet exNetTurned ∧
    (∀ j ∈ List.range 4, AloneAt exNet (List.range 4) newFlags j) ∧ LowestOnCycle exNet newFlags 0 := by
  have hs : ∀ k, k ∈ [3, 1, 0, 2] ↔ k ∈ List.range 4 := by
    intro k
    simp only [List.mem_cons, List.not_mem_nil, or_false, List.mem_range]
    omega
  have hl : ∀ k D, Linked exNetTurned k D ↔ Linked exNet k D := fun k D => by simp [Linked, exNetTurned]
  have h0 := exNet_ok.perm hs
  refine ⟨exNet_ok, ⟨?_, ?_, ?_, ?_, ?_, ?_, h0.bound, ?_, h0.eqElev, ?_, h0.over⟩, ⟨rfl, rfl, rfl, rfl, hl⟩, ?_, ?_⟩
  · intro k he i hi
    have := h0.sad k he i (by simpa [exNetTurned] using hi)
    simpa [exNetTurned] using this
  · intro D i hi he
    have := h0.sum D i (by simpa [exNetTurned] using hi) he
    simpa [exNetTurned] using this
  · intro D
    exact List.nodup_reverse.2 (h0.sumOnce D)
  · intro k he
    simpa [exNetTurned] using h0.two k he
  · exact fun k D he hk => h0.above k D he ((hl k D).1 hk)
  · exact fun k D he hk => h0.range k D he ((hl k D).1 hk)
  · exact fun k D he hk => h0.listed k D he ((hl k D).1 hk)
  · exact fun k a b he ha hb => h0.setEq k a b he ((hl k a).1 ha) ((hl k b).1 hb)
  · intro j hj k hk _ he
    rw [List.mem_range] at hj hk
    have : ∀ j : Fin 4, ∀ k : Fin 4, exNet.elev (.saddle j) = exNet.elev (.saddle k) → j = k := by decide +kernel
    simpa using this ⟨k, hk⟩ ⟨j, hj⟩ he
  · refine ⟨[.saddle 0, .summit 1, .saddle 1, .summit 2, .saddle 2, .summit 0], ⟨by simp, by decide +kernel, ?_, ?_, ?_⟩,
      by simp, by decide +kernel⟩
    · have : ∀ k D i, i ∈ exNet.sadLinks k → (exNet.link i).1 = D → Linked exNet k D := fun k D i h1 h2 => ⟨i, h1, h2⟩
      simp only [List.isChain_cons_cons, List.isChain_singleton, and_true]
      exact ⟨this 0 1 1 (by decide +kernel) (by decide +kernel), this 1 1 2 (by decide +kernel) (by decide +kernel),
        this 1 2 3 (by decide +kernel) (by decide +kernel), this 2 2 4 (by decide +kernel) (by decide +kernel),
        this 2 0 5 (by decide +kernel) (by decide +kernel)⟩
    · intro a ha b hb
      simp only [List.getLast?_cons_cons, List.getLast?_singleton, List.head?_cons, Option.mem_def, Option.some.injEq] at ha hb
      subst ha hb
      exact ⟨0, by decide +kernel, by decide +kernel⟩
    · intro n _
      cases n with
      | summit D => exact ⟨rfl, by simp [exNet, netOf]⟩
      | saddle k => exact ⟨by simp [SaddleOut, newFlags], rfl⟩

/-- C86 fails for saddles of equal height: with two summits joined by two equally high saddles detection disqualifies the saddle
that is listed first, so that the order of the saddles decides. -/
theorem C86_ties_refuted : ∃ (N : FNet) (f1 f2 : Flags), NetOk N [0, 1] newFlags ∧ NetOk N [1, 0] newFlags ∧
    disqualifyBasinSaddles N 9 [0, 1] newFlags = .ok f1 ∧ disqualifyBasinSaddles N 9 [1, 0] newFlags = .ok f2 ∧
    f1.basin 0 = true ∧ f1.basin 1 = false ∧ f2.basin 0 = false ∧ f2.basin 1 = true := by
  let N := netOf [30, 40] [10, 10] [(0, 0), (1, 0), (0, 1), (1, 1)]
  have hN : NetOk N [0, 1] newFlags := netOf_ok (by decide +kernel) (by decide +kernel) (by simp)
  have h1 : (disqualifyBasinSaddles N 9 [0, 1] newFlags).toOption.map (fun f => (f.basin 0, f.basin 1)) =
    some (true, false) := by decide +kernel
  have h2 : (disqualifyBasinSaddles N 9 [1, 0] newFlags).toOption.map (fun f => (f.basin 0, f.basin 1)) =
    some (false, true) := by decide +kernel
  cases e1 : disqualifyBasinSaddles N 9 [0, 1] newFlags with
  | error e => rw [e1] at h1; cases h1
  | ok f1 =>
    cases e2 : disqualifyBasinSaddles N 9 [1, 0] newFlags with
    | error e => rw [e2] at h2; cases h2
    | ok f2 =>
      rw [e1] at h1
      rw [e2] at h2
      simp only [Except.toOption, Option.map_some, Option.some.injEq, Prod.mk.injEq] at h1 h2
      exact ⟨N, f1, f2, hN, hN.perm (by simp [or_comm]), e1, e2, h1.1, h1.2, h2.1, h2.2⟩

end PyProm
