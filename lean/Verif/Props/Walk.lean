import Verif.Proof.WalkInit

/-
Properties of the walk up from saddles: C17-C22, C55, C56, C59-.
-/
namespace PyProm
open Spec

/-! ### C56 -/

/-- What `iterateFull` yields at the coordinate `q`. -/
def nbrAt (d : DataMap) (q : Pt) : Nbr :=
  if d.inbounds q.1 q.2 then (q.1, q.2, some (d.cell q.1 q.2)) else (q.1, q.2, d.nodata)

theorem nbrAt_x (d : DataMap) (q : Pt) : (nbrAt d q).1 = q.1 := by
  unfold nbrAt; split <;> rfl

theorem nbrAt_y (d : DataMap) (q : Pt) : (nbrAt d q).2.1 = q.2 := by
  unfold nbrAt; split <;> rfl

theorem iterateFull_eq_ring (d : DataMap) (p : Pt) :
    d.iterateFull p.1 p.2 = (ring p).map (nbrAt d) := by
  simp [DataMap.iterateFull, DataMap.iterate, fullShift, ring, Int.sub_eq_add_neg, nbrAt]

theorem seen_iff (d : DataMap) (q : Pt) (e : Rat) : (nbrAt d q).2.2 = some e ↔ Seen d q e := by
  unfold Seen nbrAt
  have hb : d.inbounds q.1 q.2 = true ↔ InB d q := inbounds_iff d q.1 q.2
  by_cases h : d.inbounds q.1 q.2 = true
  · rw [if_pos h]
    have := hb.1 h
    simp only [Option.some.injEq, this, not_true_eq_false, false_and, or_false, true_and]
    exact eq_comm
  · rw [if_neg h]
    have : ¬ InB d q := fun c => h (hb.2 c)
    simp [this]

theorem mem_ring {p q : Pt} : q ∈ ring p ↔ Adj p q := by
  obtain ⟨a, b⟩ := p
  obtain ⟨c, e⟩ := q
  simp only [ring, Adj, List.mem_cons, Prod.mk.injEq, List.not_mem_nil, or_false, ne_eq]
  omega

/-- C56: nothing is returned exactly when everything seen around the cell is lower; otherwise the
result is at least as high, of maximal slope, and the first such in clockwise order. -/
theorem C56_steepest (d : DataMap) (w : Int → Int → Rat → Rat) (hw : Upward w) (p : Pt) (hp : InB d p) :
    (steepestNeighbor d w p.1 p.2 = .ok none ∧
      ∀ q e, Adj p q → Seen d q e → e < el d p) ∨
    ∃ q e pre post, steepestNeighbor d w p.1 p.2 = .ok (some ⟨q.1, q.2, e⟩) ∧
      ring p = pre ++ q :: post ∧ Adj p q ∧ Seen d q e ∧ el d p ≤ e ∧
      (∀ r e', Adj p r → Seen d r e' → el d p ≤ e' → slope d w p r e' ≤ slope d w p q e) ∧
      ∀ r ∈ pre, ∀ e', Seen d r e' → el d p ≤ e' → slope d w p r e' < slope d w p q e := by
  unfold steepestNeighbor
  rw [get_data hp]
  dsimp only
  have hw' := iterateFull_pos (d := d) hw p
  rw [iterateFull_eq_ring] at hw' ⊢
  rcases steepFold_spec w p.1 p.2 (el d p) _ hw' with ⟨h, hno⟩ | ⟨pre, n, post, e, hl, hc, h, hpre, hpost⟩
  · left
    rw [h]
    refine ⟨rfl, fun q e ha hs => ?_⟩
    by_contra hge
    exact hno _ (List.mem_map.2 ⟨q, mem_ring.2 ha, rfl⟩) e ⟨(seen_iff d q e).2 hs, not_lt.1 hge⟩
  · right
    rw [h]
    obtain ⟨pre', rest', hr, hpr, hrest⟩ := List.map_eq_append_iff.1 hl
    obtain ⟨q, post', hr', rfl, hpo⟩ := List.map_eq_cons_iff.1 hrest
    rw [nbrAt_x, nbrAt_y] at hpre hpost ⊢
    refine ⟨q, e, pre', post', rfl, by rw [hr, hr'], mem_ring.1 (by rw [hr, hr']; simp),
      (seen_iff d q e).1 hc.1, hc.2, ?_, ?_⟩
    · intro r e' ha hs hle
      have hmem := mem_ring.2 ha
      rw [hr, hr'] at hmem
      have hcand : Cand (el d p) (nbrAt d r) e' := ⟨(seen_iff d r e').2 hs, hle⟩
      unfold slope
      rcases List.mem_append.1 hmem with hm | hm
      · have := hpre _ (by rw [← hpr]; exact List.mem_map.2 ⟨r, hm, rfl⟩) e' hcand
        rw [nbrAt_x, nbrAt_y] at this
        exact le_of_lt this
      · rcases List.mem_cons.1 hm with rfl | hm
        · have : e' = e := by simpa using hcand.1.symm.trans hc.1
          rw [this]
        · have := hpost _ (by rw [← hpo]; exact List.mem_map.2 ⟨r, hm, rfl⟩) e' hcand
          rw [nbrAt_x, nbrAt_y] at this
          exact this
    · intro r hm e' hs hle
      have hcand : Cand (el d p) (nbrAt d r) e' := ⟨(seen_iff d r e').2 hs, hle⟩
      have := hpre _ (by rw [← hpr]; exact List.mem_map.2 ⟨r, hm, rfl⟩) e' hcand
      rw [nbrAt_x, nbrAt_y] at this
      exact this

theorem Spec.PosLength.upward {len : Int → Int → Rat} (h : PosLength len) : Upward (exactSlope len) :=
  fun s hs => ⟨zero_div _, fun _ hr => div_pos hr (h s hs)⟩

/-- Instance weighting: squared length. -/
def exLen (dx dy : Int) : Rat := (dx * dx + dy * dy : Int)

theorem exLen_pos : PosLength exLen := by
  rintro ⟨a, b⟩ ⟨h0, h1, h2, h3, h4⟩
  simp only [ne_eq, Prod.mk.injEq, not_and] at h0 h1 h2 h3 h4
  have ha : a = -1 ∨ a = 0 ∨ a = 1 := by omega
  have hb : b = -1 ∨ b = 0 ∨ b = 1 := by omega
  rcases ha with rfl | rfl | rfl <;> rcases hb with rfl | rfl | rfl <;>
    first | (exact absurd rfl (h0 rfl)) | (unfold exLen; decide +kernel)

/-- Instances: a diagonal neighbour that is higher but less steep; a tie; nothing. -/
example : (steepestNeighbor (DataMap.ofRows [[1, 3, 4], [1, 1, 1], [1, 1, 1]]) (exactSlope exLen) 1 1).toOption =
    some (some ⟨0, 1, 3⟩) := by decide +kernel
example : (steepestNeighbor (DataMap.ofRows [[1, 3, 1], [1, 1, 3], [1, 1, 1]]) (exactSlope exLen) 1 1).toOption =
    some (some ⟨0, 1, 3⟩) := by decide +kernel
example : (steepestNeighbor (DataMap.ofRows [[1, 3, 1], [1, 4, 3], [1, 1, 1]]) (exactSlope exLen) 1 1).toOption =
    some none := by decide +kernel

/-! ### C17, C18, C19 -/

/-- The nearest point map used by the walk satisfies what the walk needs of it. -/
theorem nearOk_real (d : DataMap) (query : KdQuery) (hyp : Pt → Pt → Rat) (hk : KdOk query hyp)
    (hM : ∀ a b, InB d a → InB d b → hyp a b < maxsize) :
    NearOk d (findClosestMap query fun p q => hyp p.xy q.xy) := by
  intro us them ht hu hth
  obtain ⟨m, h1, h2, _⟩ := C25_map_any_size query hyp hk us them ht
    (fun a ha b hb => hM _ _ (hu a ha) (hth b hb))
  refine ⟨m, h1, fun u hu => ?_⟩
  obtain ⟨t, ht, hm, _⟩ := h2 u hu
  exact ⟨t, ht, hm⟩

theorem climb_cases (E : WalkEnv) (hE : EnvOk E) (hg : Findable E.d) (sites : List Pt)
    (summits : List Feature) (s : WSt) (hs : Explored E sites summits s) (p : P3)
    (hp : Data E.d p.xy) (he : p.e = el E.d p.xy) (fuel : Nat) (hf : E.d.size < fuel) :
    (∃ D, s.lookup p.xy = some D ∧ climb E fuel s p = .ok (some D, s)) ∨
    (s.lookup p.xy = none ∧ ∃ D s', climb E fuel s p = .ok (some D, s') ∧
      Climbed E (SummitArea E.d sites) s [p.xy] p D s') := by
  unfold climb
  cases hl : s.lookup p.xy with
  | some D => exact .inl ⟨D, rfl, rfl⟩
  | none =>
    exact .inr ⟨rfl, climbLoop_spec hE _ fuel s [p.xy] p (hs.inv hE hg) (.start hp he hl)
      (lt_of_le_of_lt (above_le_size _ _) hf)⟩

/-- C17: a climb from any data cell, on any explored state, stops (a fuel above the number of cells is
never used up). Unless the cell is already assigned, it visits a sequence of cells starting there,
each the steepest neighbour of the one before and strictly higher; from the last of them the
steepest neighbour, which is not lower, is a cell of the resulting domain. -/
theorem C17_ascent (E : WalkEnv) (hE : EnvOk E) (hg : Findable E.d) (sites : List Pt)
    (summits : List Feature) (s : WSt) (hs : Explored E sites summits s) (p : P3)
    (hp : Data E.d p.xy) (he : p.e = el E.d p.xy) (fuel : Nat) (hf : E.d.size < fuel) :
    ∃ D s', climb E fuel s p = .ok (some D, s') ∧
      ((s.lookup p.xy = some D ∧ s' = s) ∨
       ∃ (path : List Pt) (last q : Pt), path.head? = some p.xy ∧ path.IsChain (RiseStep E.d E.w) ∧
        path.getLast? = some last ∧ Steepest E.d E.w last q ∧ s'.lookup q = some D) := by
  rcases climb_cases E hE hg sites summits s hs p hp he fuel hf with ⟨D, h1, h2⟩ | ⟨_, D, s', h2, h3⟩
  · exact ⟨D, s, h2, .inl ⟨h1, rfl⟩⟩
  · obtain ⟨old, tail, _, h4, _, last, h5, q, h6, h7⟩ := h3.path
    exact ⟨D, s', h2, .inr ⟨_, last, q, rfl, h4, h5, h6, h7⟩⟩

/-- C18: the climb ends in a summit's domain `D`: it lists the visited cells there, all visited cells
are data cells of the raster and are looked up as `D` afterwards, and from the start there is a
path without descent to the area of summit `D`. -/
theorem C18_ends_on_summit (E : WalkEnv) (hE : EnvOk E) (hg : Findable E.d) (sites : List Pt)
    (summits : List Feature) (s : WSt) (hs : Explored E sites summits s) (p : P3)
    (hp : Data E.d p.xy) (he : p.e = el E.d p.xy) (fuel : Nat) (hf : E.d.size < fuel) :
    ∃ D s' site top, climb E fuel s p = .ok (some D, s') ∧ s'.lookup p.xy = some D ∧
      sites[D]? = some site ∧ Flat E.d site top ∧ Ascends E.d p.xy top ∧
      ((s.lookup p.xy = some D ∧ s' = s) ∨
       ∃ (old path : List Pt) (last q : Pt), path.head? = some p.xy ∧ path.IsChain (RiseStep E.d E.w) ∧
        path.getLast? = some last ∧ Steepest E.d E.w last q ∧
        s'.points D = old ++ path ∧ ∀ c ∈ path, Data E.d c ∧ s'.lookup c = some D) := by
  have hinv := hs.inv hE hg
  rcases climb_cases E hE hg sites summits s hs p hp he fuel hf with ⟨D, h1, h2⟩ | ⟨_, D, s', h2, h3⟩
  · obtain ⟨_, t, ⟨q, hq, hqt⟩, ha⟩ := hinv.sound _ _ h1
    exact ⟨D, s, q, t, h2, h1, hq, hqt, ha, .inl ⟨h1, rfl⟩⟩
  · obtain ⟨old, tail, h4, h5, h6, last, h7, q, h8, _⟩ := h3.path
    have hpl := h6 p.xy (by simp)
    obtain ⟨_, t, ⟨r, hr, hrt⟩, ha⟩ := h3.inv.sound _ _ hpl
    exact ⟨D, s', r, t, h2, hpl, hr, hrt, ha, .inr ⟨old, _, last, q, rfl, h5, h7, h8, h4,
      fun c hc => ⟨(h3.inv.sound _ _ (h6 c hc)).1, h6 c hc⟩⟩⟩

/-- C19: after any sequence of climbs no cell is listed by two domains and no domain lists a cell
twice. -/
theorem C19_disjoint (E : WalkEnv) (hE : EnvOk E) (hg : Findable E.d) (sites : List Pt)
    (summits : List Feature) (s : WSt) (hs : Explored E sites summits s) :
    (∀ D, (s.points D).Nodup) ∧ ∀ D D' p, p ∈ s.points D → p ∈ s.points D' → D = D' :=
  ⟨(hs.inv hE hg).nodup, (hs.inv hE hg).disj⟩

/-- C59: every cell listed by a domain is a data cell from which a path without descent leads to the
area of the domain's summit. -/
theorem C59_listed_ascends (E : WalkEnv) (hE : EnvOk E) (hg : Findable E.d) (sites : List Pt)
    (summits : List Feature) (s : WSt) (hs : Explored E sites summits s) (D : Nat) (p : Pt)
    (hp : p ∈ s.points D) :
    Data E.d p ∧ ∃ site top, sites[D]? = some site ∧ Flat E.d site top ∧ Ascends E.d p top := by
  obtain ⟨h, t, ⟨q, hq, hqt⟩, ha⟩ := (hs.inv hE hg).asc D p hp
  exact ⟨h, q, t, hq, hqt, ha⟩

/-- Exploration never fails: discovery gives summits, the walk starts from them, and any list of
climbs from data cells succeeds and assigns every start. -/
theorem C17_total (E : WalkEnv) (hE : EnvOk E) (hg : Findable E.d) (o : Pt → Oracle)
    (order : List Pt) (ho : IsScan E.d order) (ps : List P3)
    (hp : ∀ p ∈ ps, Data E.d p.xy ∧ p.e = el E.d p.xy) (fuel : Nat) (hf : E.d.size < fuel) :
    ∃ D sites s0 s, analyze E.d o order = .ok D ∧ walkInit E.d (fun _ => none) D.summits = .ok s0 ∧
      climbPoints E fuel ps s0 = .ok s ∧ Explored E sites D.summits s ∧
      ∀ p ∈ ps, ∃ k, s.lookup p.xy = some k := by
  obtain ⟨D, sites, h1, h2, h3, h4, h5⟩ := C09_summit_complete E.d o order ho
  have hat : SummitsAt E.d sites D.summits := ⟨h2, h3, h4, h5⟩
  obtain ⟨s0, e1, e2, _⟩ := walkInit_spec hg hat
  obtain ⟨s, a1, _, _, a4, _⟩ := climbAll_spec (climbLoop_spec hE _ fuel) ps s0 e2 (by
    intro p hpm
    exact ⟨(hp p hpm).1, (hp p hpm).2, lt_of_le_of_lt (above_le_size _ _) hf⟩)
  exact ⟨D, sites, s0, s, h1, e1, a1, ⟨hat, s0, fuel, ps, e1, hf, hp, a1⟩, a4⟩

/-- Environment for the instances. -/
def exWalk (d : DataMap) : WalkEnv where
  d := d
  w := exactSlope exLen
  near := findClosestMap (exQuery axisDist) fun p q => axisDist p.xy q.xy

theorem exWalk_ok (d : DataMap) (hl : NodataLow d) (hs : (d.maxX : Rat) + d.maxY < maxsize) :
    EnvOk (exWalk d) where
  low := hl
  pos := exLen_pos.upward
  near := nearOk_real d _ _ (exQuery_ok _) (by
    rintro ⟨a, b⟩ ⟨a', b'⟩ ⟨h1, h2, h3, h4⟩ ⟨g1, g2, g3, g4⟩
    refine lt_of_le_of_lt ?_ hs
    unfold axisDist
    simp only at *
    have e1 : (a - a').natAbs ≤ d.maxX := by omega
    have e2 : (b - b').natAbs ≤ d.maxY := by omega
    have f1 : ((a - a').natAbs : Rat) ≤ d.maxX := by exact_mod_cast e1
    have f2 : ((b - b').natAbs : Rat) ≤ d.maxY := by exact_mod_cast e2
    linarith)

/-- Instance: two summits, a flat shoulder below one of them. -/
def exWalkMap : DataMap := DataMap.ofRows
  [[1, 1, 1, 1, 1, 1], [1, 9, 3, 5, 5, 8], [1, 1, 2, 1, 1, 1]] (some (-1))

example : EnvOk (exWalk exWalkMap) ∧ Findable exWalkMap := by
  refine ⟨exWalk_ok _ ?_ (by unfold maxsize; decide +kernel), Unrotated.findable ⟨by decide, by decide, rfl, rfl, fun _ => rfl⟩⟩
  intro v hv p ⟨⟨h1, h2, h3, h4⟩, _⟩
  have hv' : v = -1 := by simpa [exWalkMap, DataMap.ofRows] using hv.symm
  subst hv'
  have : ∀ i ∈ List.range 3, ∀ j ∈ List.range 6, (-1 : Rat) < exWalkMap.cell i j := by decide +kernel
  have := this p.1.toNat (by simp [exWalkMap, DataMap.ofRows] at h2; simp; omega)
    p.2.toNat (by simp [exWalkMap, DataMap.ofRows] at h4; simp; omega)
  unfold el
  rwa [Int.toNat_of_nonneg h1, Int.toNat_of_nonneg h3] at this

/-- Instance of C17-C19, C59: the climbs from `(0, 3)` and `(1, 2)` cross the flat shoulder `(1, 3), (1, 4)`. -/
example : ((analyze exWalkMap (fun _ => exOracle) exWalkMap.cells).toOption.bind fun D =>
    (walkInit exWalkMap (fun _ => none) D.summits).toOption.bind fun s0 =>
    (climbPoints (exWalk exWalkMap) 20 [⟨2, 2, 2⟩, ⟨0, 3, 1⟩, ⟨1, 2, 3⟩] s0).toOption.map fun s =>
      (s.points 0, s.points 1, s.lookup (1, 3), s.lookup (1, 4))) =
    some ([(1, 1), (2, 2), (1, 2)], [(1, 5), (0, 3), (1, 3)], some 1, some 1) := by decide +kernel
/-! ### C60 -/

theorem assignFlat_points {m : P3 → Option P3} : ∀ (ms : List P3) (s s' : WSt),
    assignFlat m ms s = .ok s' → s'.points = s.points := by
  intro ms
  induction ms with
  | nil => intro s s' h; simp only [assignFlat, Except.ok.injEq] at h; rw [h]
  | cons u ms ih =>
    intro s s' h
    unfold assignFlat at h
    split at h
    · exact ih _ _ h
    · split at h
      · simp at h
      · have := ih _ _ h
        simpa using this

theorem climbAll_prefix {loop : WSt → List Pt → P3 → Except PyErr (Option Nat × WSt)}
    (hl : ∀ s c p r, loop s c p = .ok r → ∀ k, s.points k <+: r.2.points k) :
    ∀ (ps : List P3) (s s' : WSt), climbAll loop ps s = .ok s' → ∀ k, s.points k <+: s'.points k := by
  intro ps
  induction ps with
  | nil =>
    intro s s' h k
    simp only [climbAll, Except.ok.injEq] at h
    rw [h]
  | cons p ps ih =>
    intro s s' h k
    unfold climbAll at h
    split at h
    · exact ih _ _ h k
    · split at h
      · simp at h
      · rename_i r hr
        exact (hl _ _ _ _ hr k).trans (ih _ _ h k)

theorem extend_prefix (s : WSt) (D : Nat) (ps : List Pt) (k : Nat) :
    s.points k <+: (s.extend D ps).points k := by
  rw [extend_points]
  split
  · exact List.prefix_append _ _
  · exact List.prefix_rfl

theorem climbLoop_prefix (E : WalkEnv) : ∀ n s c p r, climbLoop E n s c p = .ok r →
    ∀ k, s.points k <+: r.2.points k := by
  intro n
  induction n with
  | zero => intro s c p r h; simp [climbLoop] at h
  | succ n ih =>
    intro s c p r h k
    unfold climbLoop at h
    split at h
    · simp at h
    · simp only [Except.ok.injEq] at h
      rw [← h]
    · split at h
      · simp only [Except.ok.injEq] at h
        rw [← h]
        exact extend_prefix _ _ _ _
      · split at h
        · split at h
          · simp at h
          · dsimp only at h
            split at h
            · simp at h
            · rename_i s1 h1
              split at h
              · simp at h
              · split at h
                · simp at h
                · rename_i s2 h2
                  split at h
                  · simp at h
                  · simp only [Except.ok.injEq] at h
                    rw [← h]
                    refine (climbAll_prefix (fun s c p r => ih s c p r) _ _ _ h1 k).trans ?_
                    rw [← assignFlat_points _ _ _ h2]
                    exact extend_prefix _ _ _ _
        · exact ih _ _ _ _ h k

/-- C60 (staying listed): whatever a domain lists stays listed there, in the same place, through every
further climb. What is missing: that later climbs report the same domain, see the refutation. -/
theorem C60_stays_listed_partial (E : WalkEnv) (fuel : Nat) (s s' : WSt) (ps : List P3)
    (h : climbPoints E fuel ps s = .ok s') (D : Nat) : s.points D <+: s'.points D :=
  climbAll_prefix (fun s c p r => climbLoop_prefix E fuel s c p r) ps s s' h D

theorem climbLoop_settled (E : WalkEnv) (hE : EnvOk E) (hn : NoFlats E.d) :
    ∀ n s c p r, Data E.d p.xy → p.e = el E.d p.xy → (∀ q ∈ c, s.lookup q = none) →
      climbLoop E n s c p = .ok r → ∀ q D, s.lookup q = some D → r.2.lookup q = some D := by
  intro n
  induction n with
  | zero => intro s c p r _ _ _ h; simp [climbLoop] at h
  | succ n ih =>
    intro s c p r hd he hc h q D hq
    unfold climbLoop at h
    rcases steepest_spec hE.low hE.pos hd with ⟨h1, _⟩ | ⟨sn, h1, h2, h3⟩
    · rw [show steepestNeighbor E.d E.w p.x p.y = _ from h1] at h
      simp only [Except.ok.injEq] at h
      rw [← h]; exact hq
    · rw [show steepestNeighbor E.d E.w p.x p.y = _ from h1] at h
      dsimp only at h
      split at h
      · simp only [Except.ok.injEq] at h
        rw [← h]
        simp only
        rw [extend_lookup, if_neg, hq]
        intro hm
        rw [hc q hm] at hq
        simp at hq
      · rename_i hsn
        rw [if_neg (by rw [he, h2]; exact fun e => hn _ _ hd h3.2.1 h3.1 e.symm)] at h
        refine ih s _ sn r h3.2.1 h2 ?_ h q D hq
        intro a ha
        rcases List.mem_append.1 ha with ha | ha
        · exact hc a ha
        · rw [List.mem_singleton.1 ha]; exact hsn

/-- C60 (terrain without flat areas): where no two touching cells are equally high, every later climb
from an assigned cell reports the domain that it was assigned to. -/
theorem C60_settled_partial (E : WalkEnv) (hE : EnvOk E) (hn : NoFlats E.d) (fuel : Nat) (s s' : WSt)
    (ps : List P3) (hp : ∀ p ∈ ps, Data E.d p.xy ∧ p.e = el E.d p.xy)
    (h : climbPoints E fuel ps s = .ok s') (q : P3) (D : Nat)
    (hq : climb E fuel s q = .ok (some D, s)) (hl : ∃ k, s.lookup q.xy = some k) :
    climb E fuel s' q = .ok (some D, s') := by
  have hD : s.lookup q.xy = some D := by
    obtain ⟨k, hk⟩ := hl
    unfold climb at hq
    rw [hk] at hq
    simp only [Except.ok.injEq, Prod.mk.injEq, and_true] at hq
    rw [hk, hq]
  have key : ∀ (ps : List P3) (s : WSt), (∀ p ∈ ps, Data E.d p.xy ∧ p.e = el E.d p.xy) →
      climbAll (climbLoop E fuel) ps s = .ok s' → s.lookup q.xy = some D → s'.lookup q.xy = some D := by
    intro ps
    induction ps with
    | nil =>
      intro s _ h hD
      simp only [climbAll, Except.ok.injEq] at h
      rw [← h]; exact hD
    | cons p ps ih =>
      intro s hp h hD
      unfold climbAll at h
      have hp' := fun p' hm => hp p' (List.mem_cons_of_mem _ hm)
      split at h
      · exact ih _ hp' h hD
      · rename_i hnone
        split at h
        · simp at h
        · rename_i r hr
          refine ih _ hp' h ?_
          exact climbLoop_settled E hE hn _ _ _ _ _ (hp p (by simp)).1 (hp p (by simp)).2
            (by simpa using hnone) hr _ _ hD
  unfold climb
  rw [key ps s hp h hD]

/-- C60 fails: after the climb from `(0, 1)` this cell is listed by domain 0 and a climb from it reports
domain 0; after a climb from `(4, 1)` it is still listed there, but a climb from it reports domain 1. -/
theorem C60_reassigned_refuted :
    ((analyze (DataMap.ofRows [[9, 5, 7], [1, 5, 1], [1, 5, 1], [1, 5, 1], [1, 1, 1]]) (fun _ => exOracle)
        (DataMap.ofRows [[9, 5, 7], [1, 5, 1], [1, 5, 1], [1, 5, 1], [1, 1, 1]]).cells).toOption.bind fun D =>
      let E := exWalk (DataMap.ofRows [[9, 5, 7], [1, 5, 1], [1, 5, 1], [1, 5, 1], [1, 1, 1]])
      (walkInit E.d (fun _ => none) D.summits).toOption.bind fun s0 =>
      (climb E 20 s0 ⟨0, 1, 5⟩).toOption.bind fun r1 =>
      (climb E 20 r1.2 ⟨0, 1, 5⟩).toOption.bind fun r2 =>
      (climb E 20 r2.2 ⟨4, 1, 1⟩).toOption.bind fun r3 =>
      (climb E 20 r3.2 ⟨0, 1, 5⟩).toOption.map fun r4 =>
        (decide ((0, 1) ∈ r2.2.points 0), r2.1, decide ((0, 1) ∈ r4.2.points 0), r4.1)) =
    some (true, some 0, true, some 1) := by decide +kernel

/-- Instance of C60 without flat areas: the hypotheses hold for this raster and climbs. -/
example : NoFlats (DataMap.ofRows [[9, 2, 7], [1, 3, 4]]) := by
  have key : ∀ i ∈ List.range 2, ∀ j ∈ List.range 3, ∀ k ∈ List.range 2, ∀ l ∈ List.range 3,
      (i, j) ≠ (k, l) → (DataMap.ofRows [[9, 2, 7], [1, 3, 4]]).cell i j ≠
        (DataMap.ofRows [[9, 2, 7], [1, 3, 4]]).cell k l := by decide +kernel
  rintro ⟨a, b⟩ ⟨a', b'⟩ ⟨⟨h1, h2, h3, h4⟩, _⟩ ⟨⟨g1, g2, g3, g4⟩, _⟩ ⟨hne, _⟩
  simp only [DataMap.ofRows] at h1 h2 h3 h4 g1 g2 g3 g4
  lift a to Nat using h1
  lift b to Nat using h3
  lift a' to Nat using g1
  lift b' to Nat using g3
  refine key a ?_ b ?_ a' ?_ b' ?_ ?_
  · simp at h2; simp; omega
  · simp at h4; simp; omega
  · simp at g2; simp; omega
  · simp at g4; simp; omega
  · intro e; apply hne; simpa using e

example : ((analyze (DataMap.ofRows [[9, 2, 7], [1, 3, 4]]) (fun _ => exOracle)
      (DataMap.ofRows [[9, 2, 7], [1, 3, 4]]).cells).toOption.bind fun D =>
    let E := exWalk (DataMap.ofRows [[9, 2, 7], [1, 3, 4]])
    (walkInit E.d (fun _ => none) D.summits).toOption.bind fun s0 =>
    (climbPoints E 20 [⟨1, 0, 1⟩] s0).toOption.bind fun s =>
    (climb E 20 s ⟨1, 0, 1⟩).toOption.bind fun r =>
    (climbPoints E 20 [⟨0, 1, 2⟩, ⟨1, 1, 3⟩] s).toOption.bind fun s' =>
    (climb E 20 s' ⟨1, 0, 1⟩).toOption.map fun r' => (r.1, r'.1, s'.points 0, s'.points 1)) =
    some (some 0, some 0, [(0, 0), (1, 0), (0, 1), (1, 1)], [(0, 2)]) := by decide +kernel

