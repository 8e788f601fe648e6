import Verif.Proof.SaddleNet

/-
Property theorems about nearest point searches and the internal saddle network: C23 - C26.
-/
namespace PyProm
open Spec

/-! ### C25 -/

/-- C25: the brute force closest pair search returns a pair of the inputs, its actual distance,
which is minimal, and the earliest such pair in scan order (first list outer, second list inner). -/
theorem C25_pair (dist : P3 → P3 → Rat) (us them : List P3) (hu : us ≠ []) (ht : them ≠ [])
    (hM : ∀ a ∈ us, ∀ b ∈ them, dist a b < maxsize) :
    ∃ a b, closestPairBrute dist us them = (some (a, b), dist a b) ∧ a ∈ us ∧ b ∈ them ∧
      (∀ a' ∈ us, ∀ b' ∈ them, dist a b ≤ dist a' b') ∧
      ∃ us1 us2 them1 them2, us = us1 ++ a :: us2 ∧ them = them1 ++ b :: them2 ∧
        (∀ a' ∈ us1, ∀ b' ∈ them, dist a b < dist a' b') ∧ ∀ b' ∈ them1, dist a b < dist a b' := by
  rw [closestPairBrute_eq]
  obtain ⟨u0, hu0⟩ := List.exists_mem_of_ne_nil _ hu
  obtain ⟨t0, ht0⟩ := List.exists_mem_of_ne_nil _ ht
  have hmem : ∀ a b, (a, b) ∈ (us.flatMap fun m => them.map fun t => (m, t)) ↔ a ∈ us ∧ b ∈ them := by
    intro a b
    simp only [List.mem_flatMap, List.mem_map, Prod.mk.injEq]
    constructor
    · rintro ⟨m, hm, t, ht, rfl, rfl⟩; exact ⟨hm, ht⟩
    · rintro ⟨h1, h2⟩; exact ⟨a, h1, b, h2, rfl, rfl⟩
  obtain ⟨pre, q, post, hl, hr, _, hp, hq⟩ := minStep_some (fun q : P3 × P3 => dist q.1 q.2) maxsize
    (us.flatMap fun m => them.map fun t => (m, t)) ⟨(u0, t0), (hmem _ _).2 ⟨hu0, ht0⟩, hM _ hu0 _ ht0⟩
  obtain ⟨a, b⟩ := q
  have hab : a ∈ us ∧ b ∈ them := (hmem a b).1 (by rw [hl]; simp)
  refine ⟨a, b, hr, hab.1, hab.2, ?_, ?_⟩
  · intro a' ha' b' hb'
    have := (hmem a' b').2 ⟨ha', hb'⟩
    rw [hl] at this
    rcases List.mem_append.1 this with h | h
    · exact le_of_lt (hp _ h)
    · rcases List.mem_cons.1 h with h | h
      · cases h; exact le_refl _
      · exact hq _ h
  · -- split both lists at the first occurrence of the chosen point
    obtain ⟨us1, us2, hus, hau⟩ := List.eq_append_cons_of_mem hab.1
    obtain ⟨th1, th2, hth, hbt⟩ := List.eq_append_cons_of_mem hab.2
    have hpre : (us1.flatMap fun m => them.map fun t => (m, t)) ++ th1.map (fun t => (a, t)) <+: pre := by
      have e : (us.flatMap fun m => them.map fun t => (m, t)) =
          ((us1.flatMap fun m => them.map fun t => (m, t)) ++ th1.map (fun t => (a, t))) ++
            ((a, b) :: (th2.map (fun t => (a, t)) ++ us2.flatMap fun m => them.map fun t => (m, t))) := by
        rw [hus]
        simp only [List.flatMap_append, List.flatMap_cons]
        conv_lhs => rw [hth]
        simp [hth]
      rw [e] at hl
      rcases List.append_eq_append_iff.1 hl with ⟨as, h1, _⟩ | ⟨bs, h1, h2⟩
      · exact ⟨as, h1.symm⟩
      · cases bs with
        | nil => exact ⟨[], by simpa using h1⟩
        | cons x xs =>
          exfalso
          have hx : x = (a, b) := by simpa using (congrArg List.head? h2).symm
          have : (a, b) ∈ (us1.flatMap fun m => them.map fun t => (m, t)) ++ th1.map (fun t => (a, t)) := by
            rw [h1, hx]; simp
          rcases List.mem_append.1 this with h | h
          · simp only [List.mem_flatMap, List.mem_map, Prod.mk.injEq] at h
            obtain ⟨m, hm, _, _, rfl, _⟩ := h
            exact hau hm
          · simp only [List.mem_map, Prod.mk.injEq, true_and, exists_eq_right] at h
            exact hbt h
    refine ⟨us1, us2, th1, th2, hus, hth, ?_, ?_⟩
    · intro a' ha' b' hb'
      refine hp (a', b') (hpre.subset (List.mem_append_left _ ?_))
      simp only [List.mem_flatMap, List.mem_map, Prod.mk.injEq]
      exact ⟨a', ha', b', hb', rfl, rfl⟩
    · intro b' hb'
      refine hp (a, b') (hpre.subset (List.mem_append_right _ ?_))
      simpa using hb'

/-- C25: the brute force closest-point map has exactly the first list as keys and gives each key the
earliest nearest point of the second list. -/
theorem C25_map (hyp : P3 → P3 → Rat) (us them : List P3) (ht : them ≠ [])
    (hM : ∀ a ∈ us, ∀ b ∈ them, hyp a b < maxsize) :
    (∀ u ∈ us, ∃ pre t post, them = pre ++ t :: post ∧ closestMapBrute hyp us them u = some t ∧
      (∀ b ∈ pre, hyp u t < hyp u b) ∧ ∀ b ∈ post, hyp u t ≤ hyp u b) ∧
    ∀ u, u ∉ us → closestMapBrute hyp us them u = none :=
  closestMapBrute_spec hyp us them ht hM

/-- Plain grid distance on axis-parallel pairs, where it is rational. -/
def axisDist (p q : Pt) : Rat := (p.1 - q.1).natAbs + (p.2 - q.2).natAbs

/-- Instance of C25: a tie, resolved towards the earlier points. -/
example : closestPairBrute (fun p q => axisDist p.xy q.xy)
    [⟨0, 0, 5⟩, ⟨0, 4, 5⟩] [⟨0, 9, 6⟩, ⟨0, 2, 7⟩, ⟨0, 6, 8⟩] =
      (some (⟨0, 0, 5⟩, ⟨0, 2, 7⟩), 2) := by decide +kernel

/-- C25 for the large-input branch, relative to the assumption `KdOk` on `KDTree.query`: a pair of
the inputs that is nearest in *plain grid distance*; the reported number is the map distance.
Missing for the full claim: minimality in the map distance, which is false for rasters whose pixels
are not square (`C25_large_refuted`). -/
theorem C25_large_partial (query : KdQuery) (hyp : Pt → Pt → Rat) (hk : KdOk query hyp)
    (dist : P3 → P3 → Rat) (us them : List P3) (hu : us ≠ []) (ht : them ≠ [])
    (hlen : 100 ≤ us.length + them.length) :
    ∃ a b, findClosestPoints query dist us them = .ok (some (a, b), dist a b) ∧ a ∈ us ∧ b ∈ them ∧
      ∀ a' ∈ us, ∀ b' ∈ them, hyp b.xy a.xy ≤ hyp b'.xy a'.xy := by
  obtain ⟨a, b, h1, h2⟩ := closestPairKd_spec query hyp hk dist us them hu ht
  refine ⟨a, b, ?_, h2⟩
  unfold findClosestPoints
  rw [if_neg (by omega), h1]

/-- C25 for the closest-point map of either size: all members of the first list are keys, each value
is a nearest member of the second list. -/
theorem C25_map_any_size (query : KdQuery) (hyp : Pt → Pt → Rat) (hk : KdOk query hyp)
    (us them : List P3) (ht : them ≠ []) (hM : ∀ a ∈ us, ∀ b ∈ them, hyp a.xy b.xy < maxsize) :
    ∃ m, findClosestMap query (fun p q => hyp p.xy q.xy) us them = .ok m ∧
      (∀ u ∈ us, ∃ t ∈ them, m u = some t ∧ ∀ t' ∈ them, hyp u.xy t.xy ≤ hyp u.xy t'.xy) ∧
      ∀ u, u ∉ us → m u = none := by
  unfold findClosestMap
  by_cases hlen : us.length + them.length < 100
  · rw [if_pos hlen]
    obtain ⟨h1, h2⟩ := closestMapBrute_spec (fun p q => hyp p.xy q.xy) us them ht hM
    refine ⟨_, rfl, fun u hu => ?_, h2⟩
    obtain ⟨pre, t, post, hl, hm, hp, hq⟩ := h1 u hu
    refine ⟨t, by rw [hl]; simp, hm, fun t' ht' => ?_⟩
    rw [hl] at ht'
    rcases List.mem_append.1 ht' with h | h
    · exact le_of_lt (hp t' h)
    · rcases List.mem_cons.1 h with rfl | h
      · exact le_refl _
      · exact hq t' h
  · rw [if_neg hlen]
    exact closestMapKd_spec query hyp hk us them ht

/-- An exhaustive implementation of the nearest neighbour query, to show `KdOk` can be met. -/
def exQuery (hyp : Pt → Pt → Rat) : KdQuery := fun tree pts =>
  pts.map fun q =>
    match argmin (tree.map (hyp q)) with
    | .ok i => ((tree.map (hyp q)).getD i 0, i)
    | .error _ => (0, 0)

theorem exQuery_ok (hyp : Pt → Pt → Rat) : KdOk (exQuery hyp) hyp := by
  intro tree pts hne
  refine ⟨by simp [exQuery], ?_⟩
  intro i q a hq ha
  simp only [exQuery, List.getElem?_map, hq, Option.map_some, Option.some.injEq] at ha
  obtain ⟨k, v, h1, h2, h3, _⟩ := argmin_spec (tree.map (hyp q)) (by simpa using hne)
  rw [h1] at ha
  subst ha
  rw [List.getElem?_map, Option.map_eq_some_iff] at h2
  obtain ⟨t, ht, rfl⟩ := h2
  refine ⟨t, ht, ?_, fun t' ht' => h3 _ (List.mem_map.2 ⟨t', ht', rfl⟩)⟩
  simp [List.getD_eq_getElem?_getD, ht]

/-- Axis-parallel map distance of a raster whose pixels are three times as high as wide. -/
def tallDist (p q : P3) : Rat := 3 * (p.x - q.x).natAbs + (p.y - q.y).natAbs

/-- 99 points on the two axes, the nearest in the plain grid being `(2, 0)`. -/
def exThem : List P3 := ⟨2, 0, 1⟩ :: ⟨0, 3, 1⟩ :: (List.range 97).map fun (k : Nat) => ⟨0, 10 + k, 1⟩

/-- C25 fails for 100 points and more on non-square pixels: the search returns `(2, 0)` at map
distance 6 although `(0, 3)` is at map distance 3. All pairs are axis-parallel, so the rational
distances used are the exact ones. -/
theorem C25_large_refuted :
    (findClosestPoints (exQuery axisDist) tallDist [⟨0, 0, 1⟩] exThem).toOption =
      some (some (⟨0, 0, 1⟩, ⟨2, 0, 1⟩), 6) ∧ (⟨0, 3, 1⟩ : P3) ∈ exThem ∧
      tallDist ⟨0, 0, 1⟩ ⟨0, 3, 1⟩ = 3 := by decide +kernel

/-- C25 fails for all lists of together at least 100 points whose nearest pairs in the plain grid are not nearest on the map: the search
returns a pair that is farther apart than another one. -/
theorem C25_every_large_refuted (query : KdQuery) (hyp : Pt → Pt → Rat) (hk : KdOk query hyp) (dist : P3 → P3 → Rat)
    (us them : List P3) (hlen : 100 ≤ us.length + them.length) (a' b' : P3) (ha : a' ∈ us) (hb : b' ∈ them)
    (hfar : ∀ a ∈ us, ∀ b ∈ them, dist a b ≤ dist a' b' → ∃ x ∈ us, ∃ y ∈ them, hyp y.xy x.xy < hyp b.xy a.xy) :
    ∃ a b, findClosestPoints query dist us them = .ok (some (a, b), dist a b) ∧ dist a' b' < dist a b := by
  obtain ⟨a, b, h1, h2, h3, h4⟩ := C25_large_partial query hyp hk dist us them (List.ne_nil_of_mem ha) (List.ne_nil_of_mem hb) hlen
  refine ⟨a, b, h1, lt_of_not_ge fun h => ?_⟩
  obtain ⟨x, hx, y, hy, hlt⟩ := hfar a h2 b h3 h
  exact absurd (h4 x hx y hy) (not_le.2 hlt)

/-- Instance: the points of the example above. -/
example : 100 ≤ [(⟨0, 0, 1⟩ : P3)].length + exThem.length ∧
    ∀ a ∈ [(⟨0, 0, 1⟩ : P3)], ∀ b ∈ exThem, tallDist a b ≤ tallDist ⟨0, 0, 1⟩ ⟨0, 3, 1⟩ →
      ∃ x ∈ [(⟨0, 0, 1⟩ : P3)], ∃ y ∈ exThem, axisDist y.xy x.xy < axisDist b.xy a.xy := by
  refine ⟨by decide +kernel, fun a ha b hb h => ⟨a, ha, ⟨2, 0, 1⟩, by simp [exThem], ?_⟩⟩
  have : ∀ b ∈ exThem, tallDist ⟨0, 0, 1⟩ b ≤ 3 → axisDist (2, 0) (0, 0) < axisDist b.xy (0, 0) := by decide +kernel
  simp only [List.mem_singleton] at ha
  subst ha
  exact this b hb (le_trans h (by decide +kernel))

/-! ### C23, C24 -/

theorem vertexLinkers_ok (fc : PairSearch) (hpn : List (List P3))
    (hfc : ∀ i j, i < hpn.length → j < hpn.length → i ≠ j →
      (fc (hpn.getD i []) (hpn.getD j [])).2 < maxsize) :
    TabOk (vertexLinkers fc hpn) hpn.length := by
  constructor
  · intro k hk l hl
    unfold vertexLinkers at hl
    obtain ⟨r, hr, rfl⟩ := List.mem_map.1 hl
    obtain ⟨hr1, hr2⟩ := List.mem_filter.1 hr
    have hr1 := List.mem_range.1 hr1
    have hr2 : r ≠ k := by simpa using hr2
    by_cases hc : k < r
    · simp only [if_pos hc]; exact ⟨trivial, hr1, hr2, hfc r k hr1 hk hr2⟩
    · simp only [if_neg hc]; exact ⟨trivial, hr1, hr2, hfc k r hk hr1 hr2.symm⟩
  · intro k hk r hr hne
    refine ⟨_, List.mem_map.2 ⟨r, List.mem_filter.2 ⟨List.mem_range.2 hr, by simpa using hne⟩, rfl⟩, ?_⟩
    split <;> rfl

/-- C23: for every number `N ≥ 2` of high neighbourhoods and any outcome of the pairwise searches
(below `sys.maxsize`), in particular with any pattern of ties, building the network finishes and its
links form a spanning tree of the neighbourhoods. -/
theorem C23_spanning_tree (fc : PairSearch) (hpn : List (List P3)) (hN : 2 ≤ hpn.length)
    (hfc : ∀ i j, i < hpn.length → j < hpn.length → i ≠ j →
      (fc (hpn.getD i []) (hpn.getD j [])).2 < maxsize) :
    ∃ links, buildInternalTree (vertexLinkers fc hpn) hpn.length = .ok links ∧
      SpanningTree hpn.length (links.map fun l => (l.holder, l.remote)) :=
  let ⟨links, h1, h2, _⟩ := buildInternalTree_spec (vertexLinkers_ok fc hpn hfc) hN
  ⟨links, h1, h2⟩

/-- C23 outside its range: without any neighbourhood the network raises IndexError, with a single one
AttributeError (the shortest link of its only node is None). -/
theorem C23_small (fc : PairSearch) (hpn : List (List P3)) :
    (hpn.length = 0 → buildInternalTree (vertexLinkers fc hpn) hpn.length = .error .indexError) ∧
    (hpn.length = 1 → buildInternalTree (vertexLinkers fc hpn) hpn.length = .error .attributeError) := by
  refine ⟨fun h => by rw [h]; rfl, fun h => ?_⟩
  have ht : vertexLinkers fc hpn 0 = [] := by
    unfold vertexLinkers
    rw [h]
    rfl
  rw [h]
  simp [buildInternalTree, buildLoop, treeExploration, ht, shortestLink, bind, Except.bind]

theorem realSearch_spec (query : KdQuery) (hyp : Pt → Pt → Rat) (hk : KdOk query hyp)
    (dist : P3 → P3 → Rat) (us them : List P3) (hM : ∀ a ∈ us, ∀ b ∈ them, dist a b < maxsize)
    (hu : us ≠ []) (ht : them ≠ []) :
    ∃ a b, realSearch query dist us them = (some (a, b), dist a b) ∧ a ∈ us ∧ b ∈ them := by
  unfold realSearch
  by_cases hlen : us.length + them.length < 100
  · obtain ⟨a, b, h1, h2, h3, _⟩ := C25_pair dist us them hu ht hM
    refine ⟨a, b, ?_, h2, h3⟩
    unfold findClosestPoints
    rw [if_pos hlen, h1]
  · obtain ⟨a, b, h1, h2, h3, _⟩ := C25_large_partial query hyp hk dist us them hu ht (by omega)
    exact ⟨a, b, by rw [h1], h2, h3⟩

theorem mem_flatten_getD {hpn : List (List P3)} {i : Nat} (hi : i < hpn.length) {a : P3}
    (ha : a ∈ hpn.getD i []) : a ∈ hpn.flatten := by
  rw [List.getD_eq_getElem?_getD, List.getElem?_eq_getElem hi] at ha
  exact List.mem_flatten.2 ⟨_, List.getElem_mem hi, ha⟩

/-- C24, the part that holds: both ends of every vertex link come from the two neighbourhoods it
joins, but crosswise: the *local* end lies in the remote neighbourhood and the *remote* end in the
holder's. Missing: the ends being on the claimed sides (`C24_sides_refuted`). -/
theorem C24_ends_partial (query : KdQuery) (hyp : Pt → Pt → Rat) (hk : KdOk query hyp)
    (dist : P3 → P3 → Rat) (hpn : List (List P3))
    (hM : ∀ a ∈ hpn.flatten, ∀ b ∈ hpn.flatten, dist a b < maxsize) (hne : ∀ l ∈ hpn, l ≠ []) (k : Nat) (hkN : k < hpn.length) (l : VLink)
    (hl : l ∈ vertexLinkers (realSearch query dist) hpn k) :
    l.holder = k ∧ ∃ a b, l.ends = some (a, b) ∧ a ∈ hpn.getD l.remote [] ∧ b ∈ hpn.getD k [] ∧
      (l.dist = dist a b ∨ l.dist = dist b a) := by
  unfold vertexLinkers at hl
  obtain ⟨r, hr, rfl⟩ := List.mem_map.1 hl
  have hr1 := List.mem_range.1 (List.mem_filter.1 hr).1
  have ne : ∀ i, i < hpn.length → hpn.getD i [] ≠ [] := by
    intro i hi
    rw [List.getD_eq_getElem?_getD, List.getElem?_eq_getElem hi]
    exact hne _ (List.getElem_mem hi)
  have hMij := fun i j (hi : i < hpn.length) (hj : j < hpn.length) a (ha : a ∈ hpn.getD i []) b
    (hb : b ∈ hpn.getD j []) => hM a (mem_flatten_getD hi ha) b (mem_flatten_getD hj hb)
  by_cases hc : k < r
  · simp only [if_pos hc]
    obtain ⟨a, b, h1, h2, h3⟩ := realSearch_spec query hyp hk dist _ _ (hMij r k hr1 hkN) (ne r hr1) (ne k hkN)
    rw [h1]
    exact ⟨trivial, a, b, rfl, h2, h3, .inl rfl⟩
  · simp only [if_neg hc]
    obtain ⟨a, b, h1, h2, h3⟩ := realSearch_spec query hyp hk dist _ _ (hMij k r hkN hr1) (ne k hkN) (ne r hr1)
    rw [h1]
    exact ⟨trivial, b, a, rfl, h3, h2, .inr rfl⟩

/-- Three one-point neighbourhoods. -/
def exHpn : List (List P3) := [[⟨0, 0, 7⟩], [⟨0, 4, 8⟩], [⟨5, 4, 9⟩]]

/-- C24 fails: as neighbourhoods have no point in common, no link at all has its ends on the claimed sides: the local end is
never in the holder's neighbourhood, the remote end never in the other. -/
theorem C24_sides_refuted (query : KdQuery) (hyp : Pt → Pt → Rat) (hk : KdOk query hyp)
    (dist : P3 → P3 → Rat) (hpn : List (List P3))
    (hM : ∀ a ∈ hpn.flatten, ∀ b ∈ hpn.flatten, dist a b < maxsize) (hne : ∀ l ∈ hpn, l ≠ [])
    (hd : ∀ i j, i ≠ j → ∀ a ∈ hpn.getD i [], a ∉ hpn.getD j []) (k : Nat) (hkN : k < hpn.length) (l : VLink)
    (hl : l ∈ vertexLinkers (realSearch query dist) hpn k) :
    l.remote ≠ l.holder ∧ ∃ a b, l.ends = some (a, b) ∧ a ∉ hpn.getD l.holder [] ∧ b ∉ hpn.getD l.remote [] := by
  obtain ⟨h1, a, b, h2, h3, h4, _⟩ := C24_ends_partial query hyp hk dist hpn hM hne k hkN l hl
  have hr : l.remote ≠ l.holder := by
    unfold vertexLinkers at hl
    obtain ⟨r, hr, rfl⟩ := List.mem_map.1 hl
    have hr1 := (List.mem_filter.1 hr).2
    simp only [ne_eq, decide_not, Bool.not_eq_true', decide_eq_false_iff_not] at hr1
    by_cases hc : k < r
    · simp only [if_pos hc]; omega
    · simp only [if_neg hc]; omega
  exact ⟨hr, a, b, h2, fun c => hd _ _ hr a h3 c, fun c => hd _ _ (fun e => hr (e.symm.trans h1.symm)) b h4 c⟩

example : (vertexLinkers (realSearch (exQuery axisDist) fun p q => axisDist p.xy q.xy) exHpn 0).head? =
    some ⟨some (⟨0, 4, 8⟩, ⟨0, 0, 7⟩), 4, 0, 1⟩ ∧ ∀ i ∈ List.range 4, ∀ j ∈ List.range 4, i ≠ j → ∀ a ∈ exHpn.getD i [], a ∉ exHpn.getD j [] := by
  decide +kernel

/-- Instance of C23: three neighbourhoods, two links. -/
example : (buildInternalTree (vertexLinkers (realSearch (exQuery axisDist)
    fun p q => axisDist p.xy q.xy) exHpn) 3).toOption.map (·.map fun l => (l.holder, l.remote)) =
      some [(0, 1), (1, 2)] := by decide +kernel

theorem multiClosest_ok (x y : Rat) (p : MPt) (ps : List MPt) (hp : p.e = none) :
    ∃ m, multiClosest x y (p :: ps) = .ok m ∧ m ∈ p :: ps ∧
      ∀ m' ∈ p :: ps, (x - m.x) * (x - m.x) + (y - m.y) * (y - m.y) ≤
        (x - m'.x) * (x - m'.x) + (y - m'.y) * (y - m'.y) := by
  have go : ∀ (sq : MPt → Rat), (∀ m, 0 ≤ sq m) → ∀ (l : List MPt) (b : MPt),
      multiClosest.go sq b l ∈ b :: l ∧ ∀ m' ∈ b :: l, sq (multiClosest.go sq b l) ≤ sq m' := by
    intro sq h0 l
    induction l with
    | nil => intro b; simp [multiClosest.go]
    | cons c l ih =>
      intro b
      unfold multiClosest.go
      by_cases hz : sq c = 0
      · rw [if_pos hz]
        exact ⟨by simp, fun m' _ => by rw [hz]; exact h0 m'⟩
      · rw [if_neg hz]
        by_cases hlt : sq c < sq b
        · rw [if_pos hlt]
          obtain ⟨h1, h2⟩ := ih c
          refine ⟨List.mem_cons_of_mem _ h1, fun m' hm' => ?_⟩
          rcases List.mem_cons.1 hm' with rfl | hm'
          · exact le_trans (h2 c (by simp)) (le_of_lt hlt)
          · exact h2 m' hm'
        · rw [if_neg hlt]
          obtain ⟨h1, h2⟩ := ih b
          refine ⟨?_, fun m' hm' => ?_⟩
          · rcases List.mem_cons.1 h1 with h | h
            · rw [h]; simp
            · exact List.mem_cons_of_mem _ (List.mem_cons_of_mem _ h)
          · rcases List.mem_cons.1 hm' with rfl | hm'
            · exact h2 m' (by simp)
            · rcases List.mem_cons.1 hm' with rfl | hm'
              · exact le_trans (h2 b (by simp)) (not_lt.1 hlt)
              · exact h2 m' (List.mem_cons_of_mem _ hm')
  unfold multiClosest
  simp only [hp, Option.isSome_none, Bool.false_eq_true, if_false]
  obtain ⟨h1, h2⟩ := go (fun m => (x - m.x) * (x - m.x) + (y - m.y) * (y - m.y))
    (fun m => add_nonneg (mul_self_nonneg _) (mul_self_nonneg _)) ps p
  exact ⟨_, rfl, h1, h2⟩

/-- Pairwise relation between the two results of a successful `mapM`. -/
theorem mapM_ok {α β : Type} (f : α → Except PyErr β) : ∀ (l : List α),
    (∀ a ∈ l, ∃ b, f a = .ok b) → ∃ bs, l.mapM f = .ok bs ∧ List.Forall₂ (fun a b => f a = .ok b) l bs := by
  intro l
  induction l with
  | nil => intro _; exact ⟨[], rfl, .nil⟩
  | cons a l ih =>
    intro h
    obtain ⟨b, hb⟩ := h a (by simp)
    obtain ⟨bs, h1, h2⟩ := ih fun a' ha' => h a' (List.mem_cons_of_mem _ ha')
    refine ⟨b :: bs, ?_, .cons hb h2⟩
    rw [List.mapM_cons, hb, h1]
    rfl

/-- C23 at the level of the produced saddles: a feature with `N ≥ 2` nonempty high neighbourhoods is
split into child saddles of the same elevation, one per link of a spanning tree of the
neighbourhoods (so `N - 1`), each child having one high point of each of the two neighbourhoods its
link joins, and lying in the area as near as possible to the point half way between them (C61). A
multipoint has to start with a plain coordinate, as all multipoints of discovery do. -/
theorem C23_children (d : DataMap) (query : KdQuery) (hyp : Pt → Pt → Rat) (hk : KdOk query hyp)
    (dist : P3 → P3 → Rat) (f : Feature)
    (hM : ∀ a ∈ f.hpn.flatten, ∀ b ∈ f.hpn.flatten, dist a b < maxsize) (hN : 2 ≤ f.hpn.length)
    (hne : ∀ l ∈ f.hpn, l ≠ []) (hmp : ∀ m ms, f.multipoint = some (m :: ms) → m.e = none) :
    ∃ cs E, generateChildSaddles d (realSearch query dist) f = .ok cs ∧
      SpanningTree f.hpn.length E ∧
      List.Forall₂ (fun c e => ∃ l r, IsChild d f l r c ∧
        r ∈ f.hpn.getD e.1 [] ∧ l ∈ f.hpn.getD e.2 []) cs E := by
  have ne : ∀ i, i < f.hpn.length → f.hpn.getD i [] ≠ [] := by
    intro i hi
    rw [List.getD_eq_getElem?_getD, List.getElem?_eq_getElem hi]
    exact hne _ (List.getElem_mem hi)
  obtain ⟨links, h1, h2, hmem⟩ := buildInternalTree_spec (vertexLinkers_ok (realSearch query dist) f.hpn (by
    intro i j hi hj _
    have hMij := fun a (ha : a ∈ f.hpn.getD i []) b
      (hb : b ∈ f.hpn.getD j []) => hM a (mem_flatten_getD hi ha) b (mem_flatten_getD hj hb)
    obtain ⟨a, b, h, ha, hb⟩ := realSearch_spec query hyp hk dist _ _ hMij (ne i hi) (ne j hj)
    rw [h]; exact hMij a ha b hb)) hN
  have hone : ∀ l ∈ links, ∃ c, childSaddle d f l = .ok c ∧ ∃ a b, IsChild d f a b c ∧
      b ∈ f.hpn.getD l.holder [] ∧ a ∈ f.hpn.getD l.remote [] := by
    intro l hl
    obtain ⟨hh, ht⟩ := hmem l hl
    obtain ⟨_, a, b, he, ha, hb, _⟩ := C24_ends_partial query hyp hk dist f.hpn hM hne l.holder hh l ht
    unfold childSaddle
    rw [he]
    dsimp only
    cases hmpe : f.multipoint with
    | none =>
      exact ⟨_, rfl, a, b, ⟨rfl, rfl, rfl, rfl, rfl, .inl ⟨by rw [hmpe]; rfl, rfl, rfl⟩⟩, hb, ha⟩
    | some ms =>
      cases ms with
      | nil =>
        exact ⟨_, rfl, a, b, ⟨rfl, rfl, rfl, rfl, rfl, .inl ⟨by rw [hmpe]; rfl, rfl, rfl⟩⟩, hb, ha⟩
      | cons m ms =>
        obtain ⟨m', hm', hmm, hmin⟩ := multiClosest_ok (((a.x + b.x : Int) : Rat) / 2)
          (((a.y + b.y : Int) : Rat) / 2) m ms (hmp m ms hmpe)
        dsimp only
        rw [hm']
        refine ⟨_, rfl, a, b, ⟨rfl, rfl, rfl, rfl, rfl, .inr ⟨m', by rw [hmpe]; exact hmm, rfl, rfl, ?_⟩⟩,
          hb, ha⟩
        intro m'' hm''
        rw [hmpe] at hm''
        have := hmin m'' hm''
        simpa only [pow_two, Int.cast_add] using this
  obtain ⟨cs, hcs, hf⟩ := mapM_ok (childSaddle d f) links fun l hl =>
    let ⟨c, hc, _⟩ := hone l hl
    ⟨c, hc⟩
  refine ⟨cs, pairs links, ?_, h2, ?_⟩
  · unfold generateChildSaddles
    rw [h1]
    exact hcs
  · unfold pairs
    rw [List.forall₂_map_right_iff]
    clear h1 h2 hcs
    induction hf with
    | nil => exact .nil
    | @cons l c ls cs hc _ ih =>
      refine .cons ?_ (ih (fun x hx => hmem x (List.mem_cons_of_mem _ hx))
        (fun x hx => hone x (List.mem_cons_of_mem _ hx)))
      obtain ⟨c', hc', h⟩ := hone l (by simp)
      rw [hc] at hc'
      simp only [Except.ok.injEq] at hc'
      subst hc'
      exact h

/-- C61: every child saddle a feature is split into has the feature's elevation, one high point on
either side, and the place described in `IsChild`. -/
theorem C61_child_location (d : DataMap) (query : KdQuery) (hyp : Pt → Pt → Rat) (hk : KdOk query hyp)
    (dist : P3 → P3 → Rat) (f : Feature)
    (hM : ∀ a ∈ f.hpn.flatten, ∀ b ∈ f.hpn.flatten, dist a b < maxsize) (hN : 2 ≤ f.hpn.length)
    (hne : ∀ l ∈ f.hpn, l ≠ []) (hmp : ∀ m ms, f.multipoint = some (m :: ms) → m.e = none) :
    ∃ cs, generateChildSaddles d (realSearch query dist) f = .ok cs ∧ cs.length + 1 = f.hpn.length ∧
      ∀ c ∈ cs, ∃ l r, IsChild d f l r c ∧ l ∈ f.hpn.flatten ∧ r ∈ f.hpn.flatten := by
  obtain ⟨cs, E, h1, h2, h3⟩ := C23_children d query hyp hk dist f hM hN hne hmp
  refine ⟨cs, h1, by rw [h3.length_eq]; exact h2.1, ?_⟩
  intro c hc
  obtain ⟨i, hi⟩ := List.mem_iff_getElem?.1 hc
  have hlt : i < cs.length := by
    by_contra h
    rw [List.getElem?_eq_none (by omega)] at hi
    simp at hi
  have hltE : i < E.length := by rw [← h3.length_eq]; exact hlt
  obtain ⟨l, r, hch, hr, hl⟩ := h3.get hlt hltE
  have hcg : cs.get ⟨i, hlt⟩ = c := by
    rw [List.getElem?_eq_getElem hlt] at hi
    simpa using hi
  rw [hcg] at hch
  obtain ⟨hb1, hb2⟩ := h2.2.1 _ (List.get_mem E ⟨i, hltE⟩)
  exact ⟨l, r, hch, mem_flatten_getD hb2 hl, mem_flatten_getD hb1 hr⟩

/-- Instance of C61: the area `(0, 1), (1, 1), (2, 1)`, the child between `(0, 0)` and `(2, 0)` lies at
its middle cell. -/
example : (generateChildSaddles (DataMap.ofRows [[9, 5, 1], [1, 5, 1], [9, 5, 9]] none)
    (realSearch (exQuery axisDist) fun p q => axisDist p.xy q.xy)
    (mkSaddle (0, 1) 5 (some [⟨0, 1, none⟩, ⟨1, 1, none⟩, ⟨2, 1, none⟩]) false []
      [[⟨0, 0, 9⟩], [⟨2, 0, 9⟩], [⟨2, 2, 9⟩]])).toOption.map (·.map fun c => (c.hpn, c.lat, c.lon)) =
      some [([[⟨2, 0, 9⟩], [⟨0, 0, 9⟩]], -1, 1), ([[⟨2, 2, 9⟩], [⟨2, 0, 9⟩]], -2, 1)] := by decide +kernel

/-- Instance of C23: a saddle area with three high neighbourhoods gives two saddles. -/
example : (generateChildSaddles (DataMap.ofRows [[1, 2], [3, 4]] none)
    (realSearch (exQuery axisDist) fun p q => axisDist p.xy q.xy)
    (mkSaddle (0, 0) 5 none false [] exHpn)).toOption.map (·.map (·.hpn)) =
      some [[[⟨0, 4, 8⟩], [⟨0, 0, 7⟩]], [[⟨5, 4, 9⟩], [⟨0, 4, 8⟩]]] := by decide +kernel

/-! ### C26 -/

/-- The best path of one row: first cheapest path from `u`. -/
theorem cheapest_fold (find : P3 → P3 → PathInfo) (u : P3) : ∀ (ts : List P3) (b : Option PathInfo),
    (ts ≠ [] ∨ b ≠ none) →
    ∃ p, ts.foldl (fun b t => cheapest b (find u t)) b = some p ∧
      (b = some p ∨ ∃ t ∈ ts, p = find u t) ∧ (∀ q, b = some q → p.cost ≤ q.cost) ∧
      ∀ t ∈ ts, p.cost ≤ (find u t).cost := by
  intro ts
  induction ts with
  | nil =>
    intro b h
    cases b with
    | none => simp at h
    | some p => exact ⟨p, rfl, .inl rfl, fun q hq => by simp at hq; rw [hq], by simp⟩
  | cons t ts ih =>
    intro b _
    simp only [List.foldl_cons]
    obtain ⟨p, h1, h2, h3, h4⟩ := ih (cheapest b (find u t)) (.inr (by
      unfold cheapest; cases b with
      | none => simp
      | some q => dsimp only; split <;> simp))
    refine ⟨p, h1, ?_, ?_, ?_⟩
    · rcases h2 with h2 | ⟨t', ht', h2⟩
      · unfold cheapest at h2
        cases b with
        | none => simp only [Option.some.injEq] at h2; exact .inr ⟨t, by simp, h2.symm⟩
        | some q =>
          simp only at h2
          split at h2
          · simp only [Option.some.injEq] at h2; exact .inr ⟨t, by simp, h2.symm⟩
          · exact .inl h2
      · exact .inr ⟨t', List.mem_cons_of_mem _ ht', h2⟩
    · intro q hq
      subst hq
      unfold cheapest at h3
      simp only at h3
      split at h3
      · rename_i hlt; exact le_trans (h3 _ rfl) (le_of_lt hlt)
      · exact h3 _ rfl
    · intro t' ht'
      rcases List.mem_cons.1 ht' with rfl | ht'
      · unfold cheapest at h3
        cases b with
        | none => exact h3 _ rfl
        | some q =>
          simp only at h3
          split at h3
          · exact h3 _ rfl
          · rename_i hlt; exact le_trans (h3 _ rfl) (not_lt.1 hlt)
      · exact h4 t' ht'

theorem overall_fold (path : PathInfo) : ∀ (ls : List (Option PathInfo)) (b : PathInfo),
    ∃ p, ls.foldl (overallStep path) (some b) = some p ∧
      (p = b ∨ some p ∈ ls) ∧ p.cost ≤ b.cost ∧ ∀ q, some q ∈ ls → p.cost ≤ q.cost := by
  intro ls
  induction ls with
  | nil => intro b; exact ⟨b, rfl, .inl rfl, le_refl _, by simp⟩
  | cons l ls ih =>
    intro b
    simp only [List.foldl_cons]
    cases l with
    | none =>
      obtain ⟨p, h1, h2, h3, h4⟩ := ih b
      exact ⟨p, h1, h2.imp_right (List.mem_cons_of_mem _), h3, fun q hq =>
        h4 q ((List.mem_cons.1 hq).resolve_left (by simp))⟩
    | some r =>
      rw [show overallStep path (some b) (some r) = if r.cost < b.cost then some r else some b from rfl]
      by_cases hc : r.cost < b.cost
      · rw [if_pos hc]
        obtain ⟨p, h1, h2, h3, h4⟩ := ih r
        refine ⟨p, h1, ?_, le_trans h3 (le_of_lt hc), fun q hq => ?_⟩
        · rcases h2 with rfl | h2
          · exact .inr (by simp)
          · exact .inr (List.mem_cons_of_mem _ h2)
        · rcases List.mem_cons.1 hq with h | h
          · simp only [Option.some.injEq] at h; rw [h]; exact h3
          · exact h4 q h
      · rw [if_neg hc]
        obtain ⟨p, h1, h2, h3, h4⟩ := ih b
        refine ⟨p, h1, h2.imp_right (List.mem_cons_of_mem _), h3, fun q hq => ?_⟩
        rcases List.mem_cons.1 hq with h | h
        · simp only [Option.some.injEq] at h; rw [h]; exact le_trans h3 (not_lt.1 hc)
        · exact h4 q h

/-- C26, the part that holds. `find u t` is the path search; it returns a path that starts at `u` and
ends at `t`. The result joins a point of the first and a point of the second high neighbourhood by a
path which is no longer than any path from a point of the first neighbourhood other than its first
point. Missing: the paths from the first point (`C26_first_row_refuted`) and the neighbourhoods
after the second one (`C26_third_refuted`). -/
theorem C26_path_partial (find : P3 → P3 → PathInfo)
    (hfind : ∀ u t, (find u t).nodes.head? = some (MPt.ofP3 u) ∧
      (find u t).nodes.getLast? = some (MPt.ofP3 t))
    (u0 : P3) (us them : List P3) (rest : List (List P3)) (ht : them ≠ []) :
    ∃ u ∈ u0 :: us, ∃ t ∈ them, ∃ m ∈ (find u t).nodes,
      saddleHighPath find ((u0 :: us) :: them :: rest) = .ok (MPt.ofP3 u, MPt.ofP3 t, m) ∧
      ∀ u' ∈ us, ∀ t' ∈ them, (find u t).cost ≤ (find u' t').cost := by
  obtain ⟨tl, htl⟩ : ∃ t, them.getLast? = some t := by
    cases h : them.getLast? with
    | none => exact absurd (List.getLast?_eq_none_iff.1 h) ht
    | some t => exact ⟨t, rfl⟩
  obtain ⟨ul, hul⟩ : ∃ u, (u0 :: us).getLast? = some u := by
    cases h : (u0 :: us).getLast? with
    | none => exact absurd (List.getLast?_eq_none_iff.1 h) (by simp)
    | some t => exact ⟨t, rfl⟩
  have hrow : ∀ u, ∃ t ∈ them, them.foldl (fun b t => cheapest b (find u t)) none = some (find u t) ∧
      ∀ t' ∈ them, (find u t).cost ≤ (find u t').cost := by
    intro u
    obtain ⟨p, h1, h2, _, h4⟩ := cheapest_fold find u them none (.inl ht)
    rcases h2 with h2 | ⟨t, ht', rfl⟩
    · simp at h2
    · exact ⟨t, ht', h1, h4⟩
  obtain ⟨p, h1, h2, _, h4⟩ := overall_fold (find ul tl)
    (us.map fun u => them.foldl (fun b t => cheapest b (find u t)) none) (find ul tl)
  obtain ⟨u, hu, t, ht', hp⟩ : ∃ u ∈ u0 :: us, ∃ t ∈ them, p = find u t := by
    rcases h2 with h2 | h2
    · exact ⟨ul, List.mem_of_getLast? hul, tl, List.mem_of_getLast? htl, h2⟩
    · obtain ⟨u, hu, hue⟩ := List.mem_map.1 h2
      obtain ⟨t, ht', he, _⟩ := hrow u
      rw [he] at hue
      simp only [Option.some.injEq] at hue
      exact ⟨u, List.mem_cons_of_mem _ hu, t, ht', hue.symm⟩
  have hlen : (find u t).nodes.length / 2 < (find u t).nodes.length := by
    have := (hfind u t).1
    cases h : (find u t).nodes with
    | nil => rw [h] at this; simp at this
    | cons a as => simp only [List.length_cons]; omega
  refine ⟨u, hu, t, ht', (find u t).nodes[(find u t).nodes.length / 2], List.getElem_mem hlen, ?_, ?_⟩
  · unfold saddleHighPath
    dsimp only
    rw [hul, htl]
    dsimp only
    rw [List.map_cons, List.foldl_cons]
    rw [show ∀ l, overallStep (find ul tl) none l = some (find ul tl) from fun l => by cases l <;> rfl]
    rw [h1, hp]
    dsimp only
    rw [(hfind u t).1, (hfind u t).2, List.getElem?_eq_getElem hlen]
  · intro u' hu' t' ht''
    obtain ⟨t1, ht1, he, hle⟩ := hrow u'
    have := h4 (find u' t1) (List.mem_map.2 ⟨u', hu', he⟩)
    rw [hp] at this
    exact le_trans this (hle t' ht'')

/-- A straight path whose cost is the axis distance. -/
def exFind (u t : P3) : PathInfo := ⟨axisDist u.xy t.xy, [MPt.ofP3 u, MPt.ofP3 t]⟩

/-- The hypothesis of `C26_path_partial` is met by `exFind`. -/
example : ∀ u t, (exFind u t).nodes.head? = some (MPt.ofP3 u) ∧
    (exFind u t).nodes.getLast? = some (MPt.ofP3 t) := fun _ _ => ⟨rfl, rfl⟩

/-- C26 fails: with a single point in the first neighbourhood the path to the *last* point of the
second one is returned, however long it is. -/
theorem C26_first_row_refuted (find : P3 → P3 → PathInfo)
    (hfind : ∀ u t, (find u t).nodes.head? = some (MPt.ofP3 u) ∧ (find u t).nodes.getLast? = some (MPt.ofP3 t))
    (u t : P3) (ts : List P3) (rest : List (List P3)) :
    ∃ m, saddleHighPath find ([u] :: (ts ++ [t]) :: rest) = .ok (MPt.ofP3 u, MPt.ofP3 t, m) := by
  have h1 : (find u t).nodes.length / 2 < (find u t).nodes.length := by
    apply Nat.div_lt_self _ (by omega)
    rw [List.length_pos_iff]
    intro c
    have := (hfind u t).1
    rw [c] at this
    cases this
  refine ⟨(find u t).nodes[(find u t).nodes.length / 2], ?_⟩
  unfold saddleHighPath
  simp only [List.getLast?_append, List.getLast?_cons, List.map_cons, List.map_nil, List.foldl_cons, List.foldl_nil, overallStep,
    Option.some_or, (hfind u t).1, (hfind u t).2, List.getLast?_nil, Option.getD_none]
  rw [List.getElem?_eq_getElem h1]

/-- Here the path returned has length 9; the shortest has length 2. -/
example : (saddleHighPath exFind [[⟨0, 0, 7⟩], [⟨0, 2, 7⟩, ⟨0, 9, 7⟩]]).toOption =
      some (⟨0, 0, some 7⟩, ⟨0, 9, some 7⟩, ⟨0, 9, some 7⟩) ∧
    (exFind ⟨0, 0, 7⟩ ⟨0, 2, 7⟩).cost = 2 ∧ (exFind ⟨0, 0, 7⟩ ⟨0, 9, 7⟩).cost = 9 := by decide +kernel

/-- C26 fails for three neighbourhoods: those after the second one are never looked at, however near they are to
the first one. -/
theorem C26_third_refuted (find : P3 → P3 → PathInfo)
    (hfind : ∀ u t, (find u t).nodes.head? = some (MPt.ofP3 u) ∧ (find u t).nodes.getLast? = some (MPt.ofP3 t))
    (us them : List P3) (rest : List (List P3)) (hu : us ≠ []) (ht : them ≠ []) (v w : P3)
    (hw : ∀ u ∈ us, ∀ t ∈ them, (find v w).cost < (find u t).cost) :
    ∃ u t m, saddleHighPath find (us :: them :: rest) = .ok (MPt.ofP3 u, MPt.ofP3 t, m) ∧
      (find v w).cost < (find u t).cost := by
  obtain ⟨u0, us, rfl⟩ := List.exists_cons_of_ne_nil hu
  obtain ⟨u, hu, t, ht', m, _, h, _⟩ := C26_path_partial find hfind u0 us them rest ht
  exact ⟨u, t, m, h, hw u hu t ht'⟩

/-- Here the way to the third neighbourhood is shorter. -/
example : (saddleHighPath exFind [[⟨0, 0, 7⟩], [⟨0, 9, 7⟩], [⟨0, 2, 7⟩]]).toOption =
      some (⟨0, 0, some 7⟩, ⟨0, 9, some 7⟩, ⟨0, 9, some 7⟩) ∧
    (exFind ⟨0, 0, 7⟩ ⟨0, 2, 7⟩).cost < (exFind ⟨0, 0, 7⟩ ⟨0, 9, 7⟩).cost := by decide +kernel

end PyProm
