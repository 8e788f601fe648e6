import Verif.Spec.Assumptions
import Verif.Model.Closest
import Mathlib.Data.List.Induction
import Mathlib.Tactic.Linarith
import Mathlib.Algebra.Order.Ring.Rat

/-
Lemmas about the nearest point searches.
-/
namespace PyProm

theorem minStep_spec {α : Type} (f : α → Rat) (M : Rat) (l : List α) :
    ((l.foldl (minStep f) (none, M)) = (none, M) ∧ ∀ a ∈ l, M ≤ f a) ∨
    ∃ pre a post, l = pre ++ a :: post ∧ l.foldl (minStep f) (none, M) = (some a, f a) ∧ f a < M ∧
      (∀ b ∈ pre, f a < f b) ∧ ∀ b ∈ post, f a ≤ f b := by
  induction l using List.reverseRecOn with
  | nil => left; simp
  | append_singleton l x ih =>
    rw [List.foldl_append]
    simp only [List.foldl_cons, List.foldl_nil]
    rcases ih with ⟨h, hb⟩ | ⟨pre, a, post, hl, h, hM, hpre, hpost⟩
    · rw [h]
      unfold minStep
      by_cases hx : f x < M
      · rw [if_pos hx]
        exact .inr ⟨l, x, [], rfl, rfl, hx, fun b hbm => lt_of_lt_of_le hx (hb b hbm), by simp⟩
      · rw [if_neg hx]
        refine .inl ⟨rfl, fun b hbm => ?_⟩
        rcases List.mem_append.1 hbm with h1 | h1
        · exact hb b h1
        · rw [List.mem_singleton.1 h1]; exact not_lt.1 hx
    · rw [h]
      unfold minStep
      by_cases hx : f x < f a
      · rw [if_pos hx]
        refine .inr ⟨l, x, [], rfl, rfl, lt_trans hx hM, fun b hbm => ?_, by simp⟩
        rw [hl] at hbm
        rcases List.mem_append.1 hbm with h1 | h1
        · exact lt_trans hx (hpre b h1)
        · rcases List.mem_cons.1 h1 with h2 | h2
          · rw [h2]; exact hx
          · exact lt_of_lt_of_le hx (hpost b h2)
      · rw [if_neg hx]
        refine .inr ⟨pre, a, post ++ [x], by rw [hl]; simp, rfl, hM, hpre, fun b hbm => ?_⟩
        rcases List.mem_append.1 hbm with h1 | h1
        · exact hpost b h1
        · rw [List.mem_singleton.1 h1]; exact not_lt.1 hx

/-- With a value below the start value the scan finds the first smallest entry. -/
theorem minStep_some {α : Type} (f : α → Rat) (M : Rat) (l : List α) (h : ∃ a ∈ l, f a < M) :
    ∃ pre a post, l = pre ++ a :: post ∧ l.foldl (minStep f) (none, M) = (some a, f a) ∧ f a < M ∧
      (∀ b ∈ pre, f a < f b) ∧ ∀ b ∈ post, f a ≤ f b := by
  rcases minStep_spec f M l with ⟨_, hb⟩ | h'
  · obtain ⟨a, ha, hlt⟩ := h
    exact absurd (hb a ha) (not_le.2 hlt)
  · exact h'

/-- The two nested loops are one loop over all pairs. -/
theorem closestPairBrute_eq (dist : P3 → P3 → Rat) (us them : List P3) :
    closestPairBrute dist us them =
      (us.flatMap fun m => them.map fun t => (m, t)).foldl
        (minStep fun q : P3 × P3 => dist q.1 q.2) (none, maxsize) := by
  unfold closestPairBrute
  rw [List.foldl_flatMap]
  congr 1
  funext best m
  rw [List.foldl_map]

theorem closestMapBrute_spec (hyp : P3 → P3 → Rat) (us them : List P3)
    (hne : them ≠ []) (hM : ∀ u ∈ us, ∀ t ∈ them, hyp u t < maxsize) :
    (∀ u ∈ us, ∃ pre t post, them = pre ++ t :: post ∧ closestMapBrute hyp us them u = some t ∧
      (∀ b ∈ pre, hyp u t < hyp u b) ∧ ∀ b ∈ post, hyp u t ≤ hyp u b) ∧
    ∀ u, u ∉ us → closestMapBrute hyp us them u = none := by
  induction us using List.reverseRecOn with
  | nil => simp [closestMapBrute]
  | append_singleton us m ih =>
    have ih := ih fun u hu t ht => hM u (List.mem_append_left _ hu) t ht
    obtain ⟨t0, ht0⟩ := List.exists_mem_of_ne_nil _ hne
    obtain ⟨pre, t, post, hl, hr, _, hp, hq⟩ := minStep_some (hyp m) maxsize them
      ⟨t0, ht0, hM m (by simp) t0 ht0⟩
    have hstep : closestMapBrute hyp (us ++ [m]) them =
        fun q => if q = m then some t else closestMapBrute hyp us them q := by
      unfold closestMapBrute
      rw [List.foldl_append]
      simp only [List.foldl_cons, List.foldl_nil, hr]
    rw [hstep]
    constructor
    · intro u hu
      by_cases hum : u = m
      · subst hum
        exact ⟨pre, t, post, hl, by simp, hp, hq⟩
      · have : u ∈ us := by
          rcases List.mem_append.1 hu with h | h
          · exact h
          · exact absurd (List.mem_singleton.1 h) hum
        obtain ⟨a, b, c, h1, h2, h3⟩ := ih.1 u this
        exact ⟨a, b, c, h1, by simp [hum, h2], h3⟩
    · intro u hu
      have h1 : u ≠ m := fun h => hu (by simp [h])
      have h2 : u ∉ us := fun h => hu (List.mem_append_left _ h)
      simp [h1, ih.2 u h2]

/-- Loop invariant of `argmin`. -/
theorem argmin_fold (as : List Rat) (a : Rat) :
    let r := as.foldl (fun (s : Nat × Rat × Nat) b =>
      if b < s.2.1 then (s.2.2, b, s.2.2 + 1) else (s.1, s.2.1, s.2.2 + 1)) (0, a, 1)
    r.2.2 = as.length + 1 ∧ (a :: as)[r.1]? = some r.2.1 ∧ (∀ b ∈ a :: as, r.2.1 ≤ b) ∧
      ∀ j, j < r.1 → ∀ b, (a :: as)[j]? = some b → r.2.1 < b := by
  induction as using List.reverseRecOn with
  | nil => simp
  | append_singleton as x ih =>
    rw [List.foldl_append]
    simp only [List.foldl_cons, List.foldl_nil]
    revert ih
    generalize as.foldl (fun (s : Nat × Rat × Nat) b =>
      if b < s.2.1 then (s.2.2, b, s.2.2 + 1) else (s.1, s.2.1, s.2.2 + 1)) (0, a, 1) = r
    rintro ⟨h1, h2, h3, h4⟩
    have hlt : r.1 < (a :: as).length := by
      rcases Nat.lt_or_ge r.1 (a :: as).length with h | h
      · exact h
      · rw [List.getElem?_eq_none h] at h2; simp at h2
    have happ : a :: (as ++ [x]) = (a :: as) ++ [x] := rfl
    by_cases hx : x < r.2.1
    · simp only [if_pos hx]
      refine ⟨by rw [h1]; simp, ?_, ?_, ?_⟩
      · rw [happ, h1, List.getElem?_append_right (by simp)]; simp
      · intro b hb
        rw [happ] at hb
        rcases List.mem_append.1 hb with h | h
        · exact le_trans (le_of_lt hx) (h3 b h)
        · rw [List.mem_singleton.1 h]
      · intro j hj b hb
        rw [h1] at hj
        rw [happ, List.getElem?_append_left (by simpa using hj)] at hb
        exact lt_of_lt_of_le hx (h3 b (List.mem_of_getElem? hb))
    · simp only [if_neg hx]
      refine ⟨by rw [h1]; simp, ?_, ?_, ?_⟩
      · rw [happ, List.getElem?_append_left hlt]; exact h2
      · intro b hb
        rw [happ] at hb
        rcases List.mem_append.1 hb with h | h
        · exact h3 b h
        · rw [List.mem_singleton.1 h]; exact not_lt.1 hx
      · intro j hj b hb
        rw [happ, List.getElem?_append_left (lt_trans hj hlt)] at hb
        exact h4 j hj b hb

theorem argmin_spec (l : List Rat) (hne : l ≠ []) :
    ∃ i v, argmin l = .ok i ∧ l[i]? = some v ∧ (∀ b ∈ l, v ≤ b) ∧
      ∀ j, j < i → ∀ b, l[j]? = some b → v < b := by
  cases l with
  | nil => exact absurd rfl hne
  | cons a as =>
    have h := argmin_fold as a
    simp only [] at h
    exact ⟨_, _, rfl, h.2.1, h.2.2.1, h.2.2.2⟩

theorem closestPairKd_spec (query : KdQuery) (hyp : Pt → Pt → Rat) (hk : KdOk query hyp)
    (dist : P3 → P3 → Rat) (us them : List P3) (hu : us ≠ []) (ht : them ≠ []) :
    ∃ a b, closestPairKd query dist us them = .ok (a, b, dist a b) ∧ a ∈ us ∧ b ∈ them ∧
      ∀ a' ∈ us, ∀ b' ∈ them, hyp b.xy a.xy ≤ hyp b'.xy a'.xy := by
  obtain ⟨hlen, hq⟩ := hk (us.map P3.xy) (them.map P3.xy) (by simpa using hu)
  generalize hds : query (us.map P3.xy) (them.map P3.xy) = ds at hlen hq
  simp only [List.length_map] at hlen
  have hne : ds.map Prod.fst ≠ [] := by
    intro h
    have : ds = [] := by simpa using h
    rw [this] at hlen
    exact ht (List.eq_nil_of_length_eq_zero (by simpa using hlen.symm))
  obtain ⟨i, v, hi, hv, hmin, _⟩ := argmin_spec _ hne
  have hids : i < ds.length := by
    rcases Nat.lt_or_ge i ds.length with h | h
    · exact h
    · rw [List.getElem?_eq_none (by simpa using h)] at hv; simp at hv
  have hit : i < them.length := by omega
  obtain ⟨t, h1, h2, h3⟩ := hq i them[i].xy ds[i] (by simp [hit]) (by simp [hids])
  rw [List.getElem?_map, Option.map_eq_some_iff] at h1
  obtain ⟨u, hus, hut⟩ := h1
  have hv' : v = ds[i].1 := by
    rw [List.getElem?_map, List.getElem?_eq_getElem hids] at hv
    simpa using hv.symm
  refine ⟨u, them[i], ?_, List.mem_of_getElem? hus, List.getElem_mem _, ?_⟩
  · unfold closestPairKd
    rw [hds]
    change (do let idx ← argmin (ds.map Prod.fst); _) = _
    rw [hi]
    change (match them[i]?, ds[i]? with | some theirs, some di => _ | _, _ => _) = _
    rw [List.getElem?_eq_getElem hit, List.getElem?_eq_getElem hids]
    dsimp only
    rw [hus]
  · intro a' ha' b' hb'
    obtain ⟨j, hj, rfl⟩ := List.getElem_of_mem hb'
    have hjd : j < ds.length := by omega
    obtain ⟨t', h1', h2', h3'⟩ := hq j them[j].xy ds[j] (by simp [hj]) (by simp [hjd])
    have e1 : v ≤ ds[j].1 := hmin _ (List.mem_map.2 ⟨_, List.getElem_mem hjd, rfl⟩)
    have e2 := h3' a'.xy (List.mem_map.2 ⟨_, ha', rfl⟩)
    rw [hut, ← h2, ← hv']
    rw [h2'] at e1
    exact le_trans e1 e2

theorem kdAssign_spec (us them : List P3) : ∀ (l : List (P3 × (Rat × Nat))) (m : P3 → Option P3),
    (∀ e ∈ l, e.2.2 < them.length) →
    ∃ m', kdAssign us them l m = .ok m' ∧
      (∀ u, (∀ e ∈ l, e.1 ≠ u) → m' u = m u) ∧
      ∀ u, (∃ e ∈ l, e.1 = u) → ∃ e ∈ l, e.1 = u ∧ m' u = them[e.2.2]? := by
  intro l
  induction l with
  | nil => intro m _; exact ⟨m, rfl, fun _ _ => rfl, by simp⟩
  | cons e l ih =>
    intro m h
    obtain ⟨u, di⟩ := e
    have hb : di.2 < them.length := h (u, di) (by simp)
    obtain ⟨m', h1, h2, h3⟩ := ih (fun q => if q = u then some them[di.2] else m q)
      (fun e he => h e (List.mem_cons_of_mem _ he))
    refine ⟨m', ?_, ?_, ?_⟩
    · unfold kdAssign
      rw [List.getElem?_eq_getElem hb]
      exact h1
    · intro v hv
      rw [h2 v fun e he => hv e (List.mem_cons_of_mem _ he), if_neg]
      exact fun h' => hv (u, di) (by simp) h'.symm
    · intro v hv
      by_cases hl : ∃ e ∈ l, e.1 = v
      · obtain ⟨e, he, h4⟩ := h3 v hl
        exact ⟨e, List.mem_cons_of_mem _ he, h4⟩
      · push Not at hl
        obtain ⟨e, he, hev⟩ := hv
        have : e = (u, di) := by
          rcases List.mem_cons.1 he with h' | h'
          · exact h'
          · exact absurd hev (hl e h')
        subst this
        refine ⟨(u, di), by simp, hev, ?_⟩
        rw [h2 v hl, if_pos hev.symm, List.getElem?_eq_getElem hb]

theorem closestMapKd_spec (query : KdQuery) (hyp : Pt → Pt → Rat) (hk : KdOk query hyp)
    (us them : List P3) (ht : them ≠ []) :
    ∃ m, closestMapKd query us them = .ok m ∧
      (∀ u ∈ us, ∃ t ∈ them, m u = some t ∧ ∀ t' ∈ them, hyp u.xy t.xy ≤ hyp u.xy t'.xy) ∧
      ∀ u, u ∉ us → m u = none := by
  obtain ⟨hlen, hq⟩ := hk (them.map P3.xy) (us.map P3.xy) (by simpa using ht)
  unfold closestMapKd
  generalize query (them.map P3.xy) (us.map P3.xy) = ds at hlen hq
  simp only [List.length_map] at hlen
  have key : ∀ e ∈ us.zip ds, ∃ t, them[e.2.2]? = some t ∧
      ∀ t' ∈ them, hyp e.1.xy t.xy ≤ hyp e.1.xy t'.xy := by
    intro e he
    obtain ⟨i, hi, rfl⟩ := List.getElem_of_mem he
    simp only [List.length_zip, lt_min_iff] at hi
    rw [List.getElem_zip]
    obtain ⟨t, h1, h2, h3⟩ := hq i us[i].xy ds[i] (by simp [hi.1]) (by simp [hi.2])
    rw [List.getElem?_map, Option.map_eq_some_iff] at h1
    obtain ⟨u, hus, hut⟩ := h1
    refine ⟨u, hus, fun t' ht' => ?_⟩
    rw [hut]
    exact h3 _ (List.mem_map.2 ⟨_, ht', rfl⟩)
  obtain ⟨m, h1, h2, h3⟩ := kdAssign_spec us them (us.zip ds) (fun _ => none) (fun e he => by
    obtain ⟨t, h, _⟩ := key e he
    rcases Nat.lt_or_ge e.2.2 them.length with h' | h'
    · exact h'
    · rw [List.getElem?_eq_none h'] at h; simp at h)
  refine ⟨m, h1, ?_, ?_⟩
  · intro u hu
    obtain ⟨i, hi, rfl⟩ := List.getElem_of_mem hu
    have hid : i < ds.length := by omega
    obtain ⟨e, he, he1, he2⟩ := h3 us[i] ⟨(us[i], ds[i]), by
      rw [List.mem_iff_getElem]
      exact ⟨i, by simp [hi, hid], by simp⟩, rfl⟩
    obtain ⟨t, ht1, ht2⟩ := key e he
    refine ⟨t, List.mem_of_getElem? ht1, by rw [he2, ht1], ?_⟩
    rw [← he1]; exact ht2
  · intro u hu
    rw [h2 u]
    intro e he h'
    exact hu (h' ▸ (List.of_mem_zip (a := e.1) (b := e.2) he).1)

end PyProm
