import Verif.Proof.Grid
import Verif.Model.Blob

namespace PyProm
open Spec

/-- Everything known about the loop state except closure under neighbours. `p0` is the
start, `h` the height. -/
structure BlobInv (d : DataMap) (p0 : Pt) (h : Rat) (s : BlobSt) : Prop where
  expl : s.explored = s.members
  start : p0 ∈ s.members
  nodup : s.members.Nodup
  mem : ∀ m ∈ s.members, Data d m ∧ el d m = h ∧ Flat d p0 m
  stackSub : ∀ m ∈ s.stack, m ∈ s.members
  stackNodup : s.stack.Nodup
  hash : s.perimHash = s.perim.map P3.xy
  perimNodup : (s.perim.map P3.xy).Nodup
  perimOk : ∀ q ∈ s.perim, Data d q.xy ∧ q.e = el d q.xy ∧ h < q.e ∧
    ∃ m ∈ s.members, Adj m q.xy
  perimEdgeNodup : s.perimEdge.Nodup
  perimEdgeOk : ∀ q ∈ s.perimEdge, Data d q.xy ∧ q.e = el d q.xy ∧ q.e ≠ h ∧ Border d q.xy ∧
    ∃ m ∈ s.members, Adj m q.xy
  perimOnEdge : ∀ q ∈ s.perim, Border d q.xy → q ∈ s.perimEdge
  mpEdges : s.mpEdges = (s.members.filter fun m => d.isMapEdge m.1 m.2).map
    fun m => ⟨m.1, m.2, h⟩

/-- The neighbour `n` has been dealt with. -/
def BlobDone (d : DataMap) (h : Rat) (s : BlobSt) (n : Nbr) : Prop :=
  ∀ e, n.2.2 = some e → some e ≠ d.nodata →
    (e = h → (n.1, n.2.1) ∈ s.members) ∧
    (h < e → (⟨n.1, n.2.1, e⟩ : P3) ∈ s.perim) ∧
    (e ≠ h → Border d (n.1, n.2.1) → (⟨n.1, n.2.1, e⟩ : P3) ∈ s.perimEdge)

/-- Growth of the loop state. -/
structure BlobLe (s t : BlobSt) : Prop where
  members : ∀ m ∈ s.members, m ∈ t.members
  perim : ∀ m ∈ s.perim, m ∈ t.perim
  perimEdge : ∀ m ∈ s.perimEdge, m ∈ t.perimEdge
  stack : ∀ m ∈ s.stack, m ∈ t.stack
  fresh : ∀ m ∈ t.members, m ∈ s.members ∨ m ∈ t.stack
  old : ∀ m ∈ t.stack, m ∈ s.stack ∨ m ∉ s.members
  edge : t.edge = s.edge
  count : t.members.length + s.stack.length = s.members.length + t.stack.length

theorem BlobLe.refl (s : BlobSt) : BlobLe s s where
  members _ h := h
  perim _ h := h
  perimEdge _ h := h
  stack _ h := h
  fresh _ h := Or.inl h
  old _ h := Or.inl h
  edge := rfl
  count := rfl

theorem BlobLe.trans {s t u : BlobSt} (a : BlobLe s t) (b : BlobLe t u) : BlobLe s u where
  members _ h := b.members _ (a.members _ h)
  perim _ h := b.perim _ (a.perim _ h)
  perimEdge _ h := b.perimEdge _ (a.perimEdge _ h)
  stack _ h := b.stack _ (a.stack _ h)
  fresh m h := by
    rcases b.fresh m h with h | h
    · rcases a.fresh m h with h | h
      · exact Or.inl h
      · exact Or.inr (b.stack _ h)
    · exact Or.inr h
  old m h := by
    rcases b.old m h with h | h
    · exact a.old m h
    · exact Or.inr fun c => h (a.members _ c)
  edge := b.edge.trans a.edge
  count := by
    have := a.count
    have := b.count
    omega

theorem BlobDone.mono {d : DataMap} {h : Rat} {s t : BlobSt} {n : Nbr}
    (hd : BlobDone d h s n) (le : BlobLe s t) : BlobDone d h t n := by
  intro e he hn
  obtain ⟨a, b, c⟩ := hd e he hn
  exact ⟨fun x => le.members _ (a x), fun x => le.perim _ (b x),
    fun x y => le.perimEdge _ (c x y)⟩

/-- One visited neighbour of the member `p`. -/
theorem blobVisit_spec (d : DataMap) (p0 : Pt) (h : Rat) (s : BlobSt) (p : Pt) (n : Nbr)
    (hp : p ∈ s.members) (hn : n ∈ d.iterateFull p.1 p.2) (inv : BlobInv d p0 h s) :
    BlobInv d p0 h (blobVisit d h s n) ∧ BlobLe s (blobVisit d h s n) ∧
      BlobDone d h (blobVisit d h s n) n := by
  obtain ⟨x, y, oe⟩ := n
  cases oe with
  | none =>
    refine ⟨inv, BlobLe.refl s, ?_⟩
    intro e he
    simp at he
  | some e =>
  unfold blobVisit
  dsimp only
  by_cases hnd : some e = d.nodata
  · rw [if_pos hnd]
    refine ⟨inv, BlobLe.refl s, ?_⟩
    intro e' he hne
    simp only [Option.some.injEq] at he
    subst he
    exact absurd hnd hne
  rw [if_neg hnd]
  obtain ⟨hadj, hdata, hee⟩ := (mem_iterateFull_data d p.1 p.2 x y e hnd).1 hn
  obtain ⟨hpd, hpe, hpf⟩ := inv.mem p hp
  by_cases hc : e = h ∧ (x, y) ∉ s.explored
  · rw [if_pos hc]
    obtain ⟨heh, hnew⟩ := hc
    rw [inv.expl] at hnew
    have hlev : Level d p (x, y) := ⟨hadj, hdata, by rw [← hee, heh, hpe]⟩
    refine ⟨⟨?_, ?_, ?_, ?_, ?_, ?_, ?_, ?_, ?_, ?_, ?_, ?_, ?_⟩,
      ⟨?_, ?_, ?_, ?_, ?_, ?_, rfl, ?_⟩, ?_⟩ <;> try dsimp only
    · rw [inv.expl]
    · simp [inv.start]
    · rw [List.nodup_append]
      refine ⟨inv.nodup, by simp, ?_⟩
      intro b hb c hc
      simp only [List.mem_singleton] at hc
      subst hc
      rintro rfl
      exact hnew hb
    · intro m hm
      rw [List.mem_append, List.mem_singleton] at hm
      rcases hm with hm | rfl
      · exact inv.mem m hm
      · exact ⟨hdata, by rw [← hee, heh], hpf.tail hlev⟩
    · intro m hm
      rw [List.mem_append, List.mem_singleton]
      rcases List.mem_cons.1 hm with hm | hm
      · exact Or.inr hm
      · exact Or.inl (inv.stackSub m hm)
    · rw [List.nodup_cons]
      exact ⟨fun c => hnew (inv.stackSub _ c), inv.stackNodup⟩
    · exact inv.hash
    · exact inv.perimNodup
    · intro q hq
      obtain ⟨a, b, c, m, hm, hma⟩ := inv.perimOk q hq
      exact ⟨a, b, c, m, by simp [hm], hma⟩
    · exact inv.perimEdgeNodup
    · intro q hq
      obtain ⟨a, b, c, c', m, hm, hma⟩ := inv.perimEdgeOk q hq
      exact ⟨a, b, c, c', m, by simp [hm], hma⟩
    · exact inv.perimOnEdge
    · rw [inv.mpEdges, List.filter_append, List.map_append, List.filter_singleton]
      by_cases hed : d.isMapEdge x y = true
      · simp [hed, heh]
      · simp [hed]
    · intro m hm; simp [hm]
    · exact fun m hm => hm
    · exact fun m hm => hm
    · intro m hm; simp [hm]
    · intro m hm
      rw [List.mem_append, List.mem_singleton] at hm
      rcases hm with hm | rfl
      · exact Or.inl hm
      · exact Or.inr (by simp)
    · intro m hm
      rcases List.mem_cons.1 hm with rfl | hm
      · exact Or.inr hnew
      · exact Or.inl hm
    · simp only [List.length_append, List.length_cons, List.length_nil]
      omega
    · intro e' he' _
      simp only [Option.some.injEq] at he'
      subst he'
      refine ⟨fun _ => by simp, fun c => ?_, fun c => absurd heh c⟩
      rw [heh] at c
      exact absurd c (Rat.lt_irrefl)
  · rw [if_neg hc]
    by_cases heh : e = h
    · have hin : (x, y) ∈ s.members := by
        rw [← inv.expl]
        by_contra hcc
        exact hc ⟨heh, hcc⟩
      rw [if_neg (by simpa using heh)]
      refine ⟨inv, BlobLe.refl s, ?_⟩
      intro e' he' _
      simp only [Option.some.injEq] at he'
      subst he'
      refine ⟨fun _ => hin, fun c => ?_, fun c => absurd heh c⟩
      rw [heh] at c
      exact absurd c (Rat.lt_irrefl)
    · rw [if_pos heh]
      by_cases hh : (x, y) ∈ s.perimHash
      · rw [if_pos hh]
        refine ⟨inv, BlobLe.refl s, ?_⟩
        have hin : (⟨x, y, e⟩ : P3) ∈ s.perim := by
          rw [inv.hash, List.mem_map] at hh
          obtain ⟨q, hq, hqx⟩ := hh
          have h1 := (inv.perimOk q hq).2.1
          rw [hqx, ← hee] at h1
          have : q = ⟨x, y, e⟩ := by
            cases q
            simp only [P3.xy, Prod.mk.injEq] at hqx
            simp_all
          exact this ▸ hq
        intro e' he' _
        simp only [Option.some.injEq] at he'
        subst he'
        exact ⟨fun c => absurd c heh, fun _ => hin, fun _ c => inv.perimOnEdge _ hin c⟩
      · rw [if_neg hh]
        have hpok : Data d (x, y) ∧ e = el d (x, y) ∧ e ≠ h ∧ ∃ m ∈ s.members, Adj m (x, y) :=
          ⟨hdata, hee, heh, p, hp, hadj⟩
        have hnin : ∀ q ∈ s.perim, q.xy ≠ (x, y) := by
          intro q hq c
          apply hh
          rw [inv.hash, List.mem_map]
          exact ⟨q, hq, c⟩
        by_cases hgt : e > h <;> by_cases hed : d.isMapEdge x y = true
        all_goals
          simp only [hgt, hed, if_true, if_false, Bool.false_eq_true]
        · refine ⟨⟨inv.expl, inv.start, inv.nodup, inv.mem, inv.stackSub, inv.stackNodup,
            ?_, ?_, ?_, nodup_setAdd _ _ inv.perimEdgeNodup, ?_, ?_, inv.mpEdges⟩,
            ⟨fun _ h => h, fun m h => by simp [h], fun m h => by simp [mem_setAdd, h],
              fun _ h => h, fun _ h => Or.inl h, fun _ h => Or.inl h, rfl, rfl⟩, ?_⟩ <;> try dsimp only
          · rw [inv.hash]; simp [P3.xy]
          · rw [List.map_append, List.nodup_append]
            refine ⟨inv.perimNodup, by simp, ?_⟩
            intro a ha b hb
            obtain ⟨q, hq, rfl⟩ := List.mem_map.1 ha
            simp only [List.map_cons, List.map_nil, List.mem_singleton] at hb
            subst hb
            exact hnin q hq
          · intro q hq
            rw [List.mem_append, List.mem_singleton] at hq
            rcases hq with hq | rfl
            · exact inv.perimOk q hq
            · exact ⟨hdata, hee, hgt, p, hp, hadj⟩
          · intro q hq
            rw [mem_setAdd] at hq
            rcases hq with hq | rfl
            · exact inv.perimEdgeOk q hq
            · exact ⟨hdata, hee, heh, (isMapEdge_iff _ _ _).1 hed, p, hp, hadj⟩
          · intro q hq hb
            rw [List.mem_append, List.mem_singleton] at hq
            rw [mem_setAdd]
            rcases hq with hq | rfl
            · exact Or.inl (inv.perimOnEdge q hq hb)
            · exact Or.inr rfl
          · intro e' he' _
            simp only [Option.some.injEq] at he'
            subst he'
            exact ⟨fun c => absurd c heh, fun _ => by simp, fun _ _ => by simp [mem_setAdd]⟩
        · refine ⟨⟨inv.expl, inv.start, inv.nodup, inv.mem, inv.stackSub, inv.stackNodup,
            ?_, ?_, ?_, inv.perimEdgeNodup, ?_, ?_, inv.mpEdges⟩,
            ⟨fun _ h => h, fun m h => by simp [h], fun m h => h,
              fun _ h => h, fun _ h => Or.inl h, fun _ h => Or.inl h, rfl, rfl⟩, ?_⟩ <;> try dsimp only
          · rw [inv.hash]; simp [P3.xy]
          · rw [List.map_append, List.nodup_append]
            refine ⟨inv.perimNodup, by simp, ?_⟩
            intro a ha b hb
            obtain ⟨q, hq, rfl⟩ := List.mem_map.1 ha
            simp only [List.map_cons, List.map_nil, List.mem_singleton] at hb
            subst hb
            exact hnin q hq
          · intro q hq
            rw [List.mem_append, List.mem_singleton] at hq
            rcases hq with hq | rfl
            · exact inv.perimOk q hq
            · exact ⟨hdata, hee, hgt, p, hp, hadj⟩
          · exact inv.perimEdgeOk
          · intro q hq hb
            rw [List.mem_append, List.mem_singleton] at hq
            rcases hq with hq | rfl
            · exact inv.perimOnEdge q hq hb
            · exact absurd ((isMapEdge_iff _ _ _).2 hb) hed
          · intro e' he' _
            simp only [Option.some.injEq] at he'
            subst he'
            exact ⟨fun c => absurd c heh, fun _ => by simp,
              fun _ c => absurd ((isMapEdge_iff _ _ _).2 c) hed⟩
        · refine ⟨⟨inv.expl, inv.start, inv.nodup, inv.mem, inv.stackSub, inv.stackNodup,
            inv.hash, inv.perimNodup, inv.perimOk, nodup_setAdd _ _ inv.perimEdgeNodup, ?_, ?_,
            inv.mpEdges⟩,
            ⟨fun _ h => h, fun m h => h, fun m h => by simp [mem_setAdd, h],
              fun _ h => h, fun _ h => Or.inl h, fun _ h => Or.inl h, rfl, rfl⟩, ?_⟩ <;> try dsimp only
          · intro q hq
            rw [mem_setAdd] at hq
            rcases hq with hq | rfl
            · exact inv.perimEdgeOk q hq
            · exact ⟨hdata, hee, heh, (isMapEdge_iff _ _ _).1 hed, p, hp, hadj⟩
          · intro q hq hb
            rw [mem_setAdd]
            exact Or.inl (inv.perimOnEdge q hq hb)
          · intro e' he' _
            simp only [Option.some.injEq] at he'
            subst he'
            exact ⟨fun c => absurd c heh, fun c => absurd c hgt, fun _ _ => by simp [mem_setAdd]⟩
        · refine ⟨inv, BlobLe.refl s, ?_⟩
          intro e' he' _
          simp only [Option.some.injEq] at he'
          subst he'
          exact ⟨fun c => absurd c heh, fun c => absurd c hgt,
            fun _ c => absurd ((isMapEdge_iff _ _ _).2 c) hed⟩

theorem blobFold_spec (d : DataMap) (p0 : Pt) (h : Rat) (p : Pt) (ns : List Nbr)
    (hns : ∀ n ∈ ns, n ∈ d.iterateFull p.1 p.2) (s : BlobSt)
    (hp : p ∈ s.members) (inv : BlobInv d p0 h s) :
    BlobInv d p0 h (ns.foldl (blobVisit d h) s) ∧ BlobLe s (ns.foldl (blobVisit d h) s) ∧
      ∀ n ∈ ns, BlobDone d h (ns.foldl (blobVisit d h) s) n := by
  induction ns generalizing s with
  | nil => exact ⟨inv, BlobLe.refl s, by simp⟩
  | cons n ns ih =>
    obtain ⟨i1, l1, d1⟩ := blobVisit_spec d p0 h s p n hp (hns n (by simp)) inv
    obtain ⟨i2, l2, d2⟩ := ih (fun n hn => hns n (by simp [hn])) _ (l1.members _ hp) i1
    refine ⟨i2, l1.trans l2, ?_⟩
    intro m hm
    rcases List.mem_cons.1 hm with rfl | hm
    · exact d1.mono l2
    · exact d2 m hm

/-- Loop invariant of the `while`. -/
structure BlobLoopInv (d : DataMap) (p0 : Pt) (h : Rat) (s : BlobSt) : Prop
    extends BlobInv d p0 h s where
  closed : ∀ m ∈ s.members, m ∉ s.stack → ∀ n ∈ d.iterateFull m.1 m.2, BlobDone d h s n
  edgeIff : s.edge = true ↔ ∃ m ∈ s.members, m ∉ s.stack ∧ Border d m

theorem blobStep_spec (d : DataMap) (p0 : Pt) (h : Rat) (p : Pt) (rest : List Pt) (s : BlobSt)
    (hs : s.stack = p :: rest) (inv : BlobLoopInv d p0 h s) :
    BlobLoopInv d p0 h (blobStep d h p rest s) ∧
      (blobStep d h p rest s).members.length + rest.length =
        s.members.length + (blobStep d h p rest s).stack.length := by
  have hp : p ∈ s.members := inv.stackSub p (by simp [hs])
  have hnd : (p :: rest).Nodup := hs ▸ inv.stackNodup
  have inv1 : BlobInv d p0 h { s with stack := rest, edge := s.edge || d.isMapEdge p.1 p.2 } :=
    { inv.toBlobInv with
      stackSub := fun m hm => inv.stackSub m (by rw [hs]; exact List.mem_cons_of_mem _ hm)
      stackNodup := (List.nodup_cons.1 hnd).2 }
  obtain ⟨i, l, dn⟩ := blobFold_spec d p0 h p (d.iterateFull p.1 p.2) (fun _ h => h) _ (by exact hp) inv1
  change BlobInv d p0 h (blobStep d h p rest s) at i
  change BlobLe _ (blobStep d h p rest s) at l
  change ∀ n ∈ _, BlobDone d h (blobStep d h p rest s) n at dn
  have hle2 : ∀ n, BlobDone d h s n → BlobDone d h (blobStep d h p rest s) n := by
    intro n hd e he hne
    obtain ⟨a, b, c⟩ := hd e he hne
    exact ⟨fun x => l.members _ (a x), fun x => l.perim _ (b x),
      fun x y => l.perimEdge _ (c x y)⟩
  have hpst : p ∉ (blobStep d h p rest s).stack := by
    intro c
    rcases l.old p c with c | c
    · exact (List.nodup_cons.1 hnd).1 c
    · exact c hp
  have hmem : ∀ m, (m ∈ (blobStep d h p rest s).members ∧ m ∉ (blobStep d h p rest s).stack) ↔
      (m = p ∨ (m ∈ s.members ∧ m ∉ s.stack)) := by
    intro m
    constructor
    · rintro ⟨h1, h2⟩
      rcases l.fresh m h1 with h3 | h3
      · by_cases hmp : m = p
        · exact Or.inl hmp
        · refine Or.inr ⟨h3, ?_⟩
          rw [hs, List.mem_cons]
          rintro (c | c)
          · exact hmp c
          · exact h2 (l.stack m c)
      · exact absurd h3 h2
    · rintro (rfl | ⟨h1, h2⟩)
      · exact ⟨l.members _ hp, hpst⟩
      · refine ⟨l.members _ h1, fun c => ?_⟩
        rcases l.old m c with c | c
        · exact h2 (by rw [hs]; exact List.mem_cons_of_mem _ c)
        · exact c h1
  refine ⟨{ i with closed := ?_, edgeIff := ?_ }, l.count⟩
  · intro m hm hst n hn
    rcases (hmem m).1 ⟨hm, hst⟩ with rfl | ⟨h1, h2⟩
    · exact dn n hn
    · exact hle2 n (inv.closed m h1 h2 n hn)
  · rw [l.edge]
    simp only [Bool.or_eq_true, inv.edgeIff, isMapEdge_iff]
    constructor
    · rintro (⟨m, h1, h2, h3⟩ | h)
      · obtain ⟨a, b⟩ := (hmem m).2 (Or.inr ⟨h1, h2⟩)
        exact ⟨m, a, b, h3⟩
      · obtain ⟨a, b⟩ := (hmem p).2 (Or.inl rfl)
        exact ⟨p, a, b, h⟩
    · rintro ⟨m, h1, h2, h3⟩
      rcases (hmem m).1 ⟨h1, h2⟩ with rfl | ⟨a, b⟩
      · exact Or.inr h3
      · exact Or.inl ⟨m, a, b, h3⟩

theorem blobLoop_spec (d : DataMap) (p0 : Pt) (h : Rat) (n : Nat) (s : BlobSt)
    (inv : BlobLoopInv d p0 h s)
    (hf : d.size + s.stack.length + 1 ≤ n + s.members.length) :
    ∃ t, blobLoop d h n s = some t ∧ BlobLoopInv d p0 h t ∧ t.stack = [] := by
  induction n generalizing s with
  | zero =>
    have := nodup_length_le_size d s.members inv.nodup (fun p hp => (inv.mem p hp).1.1)
    omega
  | succ n ih =>
    unfold blobLoop
    cases hst : s.stack with
    | nil => exact ⟨s, rfl, inv, hst⟩
    | cons p rest =>
      obtain ⟨i, c⟩ := blobStep_spec d p0 h p rest s hst inv
      apply ih _ i
      rw [hst] at hf
      simp only [List.length_cons] at hf
      omega

theorem blobInit_inv (d : DataMap) (p : Pt) (hd : Data d p) :
    BlobLoopInv d p (el d p) (blobInit d p.1 p.2 (el d p)) where
  expl := rfl
  start := by simp [blobInit]
  nodup := by simp [blobInit]
  mem := by
    intro m hm
    simp only [blobInit, List.mem_singleton] at hm
    subst hm
    exact ⟨hd, rfl, .refl⟩
  stackSub := by simp [blobInit]
  stackNodup := by simp [blobInit]
  hash := rfl
  perimNodup := by simp [blobInit]
  perimOk := by simp [blobInit]
  perimEdgeNodup := by simp [blobInit]
  perimEdgeOk := by simp [blobInit]
  perimOnEdge := by simp [blobInit]
  mpEdges := by
    simp only [blobInit, List.filter_singleton]
    by_cases h : d.isMapEdge p.1 p.2 = true <;> simp [h]
  closed := by
    intro m hm hst
    simp only [blobInit, List.mem_singleton] at hm hst
    exact absurd hm hst
  edgeIff := by
    simp [blobInit]

/-- Full functional specification of `equalHeightBlob`. -/
structure BlobSpec (d : DataMap) (p : Pt) (b : Blob) : Prop where
  elevation : b.elevation = el d p
  nodup : b.points.Nodup
  points : ∀ q, q ∈ b.points ↔ Flat d p q
  perimNodup : (b.perim.map P3.xy).Nodup
  perim : ∀ q, q ∈ b.perim ↔ HighRim d p q.xy ∧ q.e = el d q.xy
  mapEdge : b.mapEdge = true ↔ ∃ q, Flat d p q ∧ Border d q
  mapEdgeNodup : b.mapEdgePoints.Nodup
  mapEdgePoints : ∀ q, q ∈ b.mapEdgePoints ↔ Rim d p q.xy ∧ Border d q.xy ∧ q.e = el d q.xy
  edgeNodup : b.edgePoints.Nodup
  edgePoints : ∀ q, q ∈ b.edgePoints ↔ Flat d p q.xy ∧ Border d q.xy ∧ q.e = el d q.xy

theorem flat_data {d : DataMap} {p q : Pt} (hd : Data d p) (h : Flat d p q) :
    Data d q ∧ el d q = el d p := by
  induction h with
  | refl => exact ⟨hd, rfl⟩
  | tail _ h2 ih => exact ⟨h2.2.1, h2.2.2.trans ih.2⟩

theorem equalHeightBlob_spec (d : DataMap) (p : Pt) (hd : Data d p) :
    ∃ b, equalHeightBlob d p.1 p.2 (el d p) = some b ∧ BlobSpec d p b := by
  obtain ⟨t, ht, inv, hst⟩ := blobLoop_spec d p (el d p) (d.size + 1) _ (blobInit_inv d p hd)
    (by simp [blobInit])
  refine ⟨_, by rw [equalHeightBlob, ht]; rfl, ?_⟩
  have done : ∀ m ∈ t.members, ∀ q : Pt, Adj m q → Data d q →
      BlobDone d (el d p) t (q.1, q.2, some (el d q)) := by
    intro m hm q hmq hq
    apply inv.closed m hm (by simp [hst])
    rw [mem_iterateFull_data _ _ _ _ _ _ hq.2]
    exact ⟨hmq, hq, rfl⟩
  have hpts : ∀ q, q ∈ t.members ↔ Flat d p q := by
    intro q
    refine ⟨fun h => (inv.mem q h).2.2, fun h => ?_⟩
    induction h with
    | refl => exact inv.start
    | tail h1 h2 ih =>
      have := done _ ih _ h2.1 h2.2.1
      exact (this _ rfl h2.2.1.2).1 (by rw [h2.2.2]; exact (flat_data hd h1).2)
  refine ⟨rfl, inv.nodup, hpts, inv.perimNodup, ?_, ?_, inv.perimEdgeNodup, ?_, ?_, ?_⟩ <;> try dsimp only
  · intro q
    constructor
    · intro hq
      obtain ⟨a, b, c, m, hm, hma⟩ := inv.perimOk q hq
      rw [b] at c
      exact ⟨⟨⟨a, fun e => (by rw [e] at c; exact absurd c Rat.lt_irrefl), m, (hpts m).1 hm, hma⟩,
        c⟩, b⟩
    · rintro ⟨⟨⟨a, b, m, hm, hma⟩, c⟩, e⟩
      have := (done m ((hpts m).2 hm) q.xy hma a _ rfl a.2).2.1 c
      rw [← e] at this
      exact this
  · rw [inv.edgeIff]
    simp only [hst, List.not_mem_nil, not_false_eq_true, true_and, hpts]
  · intro q
    constructor
    · intro hq
      obtain ⟨a, b, c, c', m, hm, hma⟩ := inv.perimEdgeOk q hq
      exact ⟨⟨a, b ▸ c, m, (hpts m).1 hm, hma⟩, c', b⟩
    · rintro ⟨⟨a, b, m, hm, hma⟩, c, e⟩
      have := (done m ((hpts m).2 hm) q.xy hma a _ rfl a.2).2.2 b c
      rw [← e] at this
      exact this
  · rw [inv.mpEdges]
    refine List.Nodup.map ?_ (inv.nodup.filter _)
    intro a b h
    simp only [P3.mk.injEq, and_true] at h
    exact Prod.ext h.1 h.2
  · intro q
    rw [inv.mpEdges, List.mem_map]
    simp only [List.mem_filter, hpts, isMapEdge_iff]
    constructor
    · rintro ⟨m, ⟨h1, h2⟩, rfl⟩
      exact ⟨h1, h2, (flat_data hd h1).2.symm⟩
    · rintro ⟨h1, h2, h3⟩
      refine ⟨q.xy, ⟨h1, h2⟩, ?_⟩
      rw [(flat_data hd h1).2] at h3
      rw [← h3]
      rfl

end PyProm
