import Verif.Proof.Pseudo
import Verif.Proof.Equality
import Mathlib.Tactic.Tauto

/-
Properties of point containers: C34-C37, C54.
-/
namespace PyProm
open Spec

/-! ### C34: extremes -/

/-- Lowest members of a SpotElevationContainer: all members of least elevation, in order. -/
theorem C34_lowest_spot (c : SContainer) (h : c.points ≠ []) :
    lowestOf Spot.e c.points = .ok (c.points.filter fun p => decide (∀ q ∈ c.points, p.e ≤ q.e)) :=
  lowestOf_spec _ _ h

theorem C34_highest_spot (c : SContainer) (h : c.points ≠ []) :
    highestOf Spot.e c.points = .ok (c.points.filter fun p => decide (∀ q ∈ c.points, q.e ≤ p.e)) :=
  highestOf_spec _ _ h

/-- The same for GridPointContainers. -/
theorem C34_lowest_grid (ps : List P3) (h : ps ≠ []) :
    lowestOf P3.e ps = .ok (ps.filter fun p => decide (∀ q ∈ ps, p.e ≤ q.e)) := lowestOf_spec _ _ h

theorem C34_highest_grid (ps : List P3) (h : ps ≠ []) :
    highestOf P3.e ps = .ok (ps.filter fun p => decide (∀ q ∈ ps, q.e ≤ p.e)) := highestOf_spec _ _ h

/-- The same for the function on tuples. -/
theorem C34_highest_tuples (ps : List P3) (h : ps ≠ []) :
    highestP3 ps = .ok (ps.filter fun p => decide (∀ q ∈ ps, q.e ≤ p.e)) := by
  rw [highestP3_eq]; exact highestOf_spec _ _ h

/-- There is always an extreme member. -/
theorem C34_nonempty (ps : List P3) (h : ps ≠ []) :
    (∃ l, lowestOf P3.e ps = .ok l ∧ l ≠ []) ∧ ∃ l, highestOf P3.e ps = .ok l ∧ l ≠ [] := by
  have key : ∀ (le : Rat → Rat → Prop) (_ : ∀ a, le a a) (_ : ∀ a b c, le a b → le b c → le a c)
      (_ : ∀ a b, le a b ∨ le b a) (l : List P3), l ≠ [] → ∃ p ∈ l, ∀ q ∈ l, le p.e q.e := by
    intro le r t o l
    induction l with
    | nil => intro h; exact absurd rfl h
    | cons a l ih =>
      intro _
      by_cases hl : l = []
      · exact ⟨a, by simp, by simp [hl, r]⟩
      · obtain ⟨p, hp, hq⟩ := ih hl
        rcases o a.e p.e with hh | hh
        · refine ⟨a, by simp, fun q hm => ?_⟩
          rcases List.mem_cons.1 hm with rfl | hm
          · exact r _
          · exact t _ _ _ hh (hq q hm)
        · refine ⟨p, by simp [hp], fun q hm => ?_⟩
          rcases List.mem_cons.1 hm with rfl | hm
          · exact hh
          · exact hq q hm
  constructor
  · refine ⟨_, lowestOf_spec _ _ h, ?_⟩
    obtain ⟨p, hp, hq⟩ := key (· ≤ ·) le_refl (fun _ _ _ => le_trans) le_total ps h
    exact List.ne_nil_of_mem (List.mem_filter.2 ⟨hp, by simpa using (show IsLowest P3.e ps p from hq)⟩)
  · refine ⟨_, highestOf_spec _ _ h, ?_⟩
    obtain ⟨p, hp, hq⟩ := key (fun a b => b ≤ a) le_refl (fun _ _ _ a b => le_trans b a)
      (fun a b => le_total b a) ps h
    exact List.ne_nil_of_mem (List.mem_filter.2 ⟨hp, by simpa using (show IsHighest P3.e ps p from hq)⟩)

/-- An empty container has no extreme: the code raises IndexError instead of returning an empty list. -/
theorem C34_empty {α} (elev : α → Rat) :
    lowestOf elev ([] : List α) = .error .indexError ∧ highestOf elev ([] : List α) = .error .indexError :=
  ⟨rfl, rfl⟩

example : lowestOf P3.e [⟨0, 0, 5⟩, ⟨0, 1, 3⟩, ⟨1, 0, 7⟩, ⟨1, 1, 3⟩] = .ok [⟨0, 1, 3⟩, ⟨1, 1, 3⟩] := by
  decide +kernel

example : highestOf Spot.e [⟨0, 0, 5, 1⟩, ⟨0, 1, 3, 2⟩, ⟨1, 0, 5, 3⟩] = .ok [⟨0, 0, 5, 1⟩, ⟨1, 0, 5, 3⟩] := by
  decide +kernel

/-! ### C35: filters -/

/-- Metres in each documented unit. -/
def Spec.unitTable : List (String × Rat) :=
  [("meters", 1), ("meter", 1), ("m", 1), ("kilometers", 1000), ("kilometer", 1000), ("km", 1000),
    ("feet", 3048 / 10000), ("foot", 3048 / 10000), ("ft", 3048 / 10000),
    ("miles", 1609344 / 1000), ("mile", 1609344 / 1000), ("mi", 1609344 / 1000)]

theorem unitFactor_ok (v f : Rat) (u : String) (h : (u, f) ∈ unitTable) : unitFactor v u = .ok (f * v) := by
  simp only [unitTable, List.mem_cons, Prod.mk.injEq, List.not_mem_nil, or_false] at h
  rcases h with ⟨rfl, rfl⟩ | ⟨rfl, rfl⟩ | ⟨rfl, rfl⟩ | ⟨rfl, rfl⟩ | ⟨rfl, rfl⟩ | ⟨rfl, rfl⟩ | ⟨rfl, rfl⟩ |
    ⟨rfl, rfl⟩ | ⟨rfl, rfl⟩ | ⟨rfl, rfl⟩ | ⟨rfl, rfl⟩ | ⟨rfl, rfl⟩ <;>
  simp [unitFactor, metersPerFoot, feetPerMile] <;> linarith

theorem unitFactor_err (v : Rat) (u : String) (h : ∀ f, (u, f) ∉ unitTable) :
    unitFactor v u = .error .valueError := by
  simp only [unitTable, List.mem_cons, Prod.mk.injEq, List.not_mem_nil, or_false, not_or] at h
  have h1 := h 1
  have h2 := h 1000
  have h3 := h (3048 / 10000)
  have h4 := h (1609344 / 1000)
  simp only [not_and_or] at h1 h2 h3 h4
  unfold unitFactor
  simp only [List.mem_cons, List.not_mem_nil, or_false]
  rw [if_neg, if_neg, if_neg, if_neg]
  · rintro (rfl | rfl | rfl) <;> simp at h4
  · rintro (rfl | rfl | rfl) <;> simp at h3
  · rintro (rfl | rfl | rfl) <;> simp at h2
  · rintro (rfl | rfl | rfl) <;> simp at h1

/-- `radius` keeps exactly the members nearer than the given distance in the given unit, in order, for
every distance function; other units raise ValueError. -/
theorem C35_radius (geo : Rat → Rat → Rat → Rat → Rat) (lower : String → String) (c : SContainer)
    (lat long value : Rat) (unit : String) :
    (∀ f, (lower unit, f) ∈ unitTable → ∃ r, c.radius geo lower lat long value unit = .ok r ∧
      r.points = c.points.filter fun p => decide (geo lat long p.lat p.lon < f * value)) ∧
    ((∀ f, (lower unit, f) ∉ unitTable) → c.radius geo lower lat long value unit = .error .valueError) := by
  constructor
  · intro f hf
    exact ⟨.mk' (c.points.filter fun p => decide (geo lat long p.lat p.lon < f * value)),
      by simp [SContainer.radius, unitFactor_ok _ _ _ hf, bind, Except.bind, pure, Except.pure], rfl⟩
  · intro hf
    simp [SContainer.radius, unitFactor_err _ _ hf, bind, Except.bind]

/-- `elevationRange`: strictly between the bounds, in feet. -/
theorem C35_elevationRange (c : SContainer) (lower upper : Rat) :
    (c.elevationRange lower upper).points =
      c.points.filter fun p => decide (lower * (3048 / 10000) < p.e ∧ p.e < upper * (3048 / 10000)) := by
  refine List.filter_congr fun p _ => ?_
  rw [← Bool.decide_and]
  refine decide_eq_decide.2 ?_
  simp only [Spot.feet, metersPerFoot, gt_iff_lt]
  constructor
  · rintro ⟨a, b⟩
    constructor <;> linarith
  · rintro ⟨a, b⟩
    constructor <;> linarith

/-- `elevationRangeMetric`: strictly between the bounds, in metres. -/
theorem C35_elevationRangeMetric (c : SContainer) (lower upper : Rat) :
    (c.elevationRangeMetric lower upper).points =
      c.points.filter fun p => decide (lower < p.e ∧ p.e < upper) := by
  refine List.filter_congr fun p _ => ?_
  rw [← Bool.decide_and]
  exact decide_eq_decide.2 ⟨fun h => ⟨h.2, h.1⟩, fun h => ⟨h.2, h.1⟩⟩

/-- In the closed rectangle spanned by two corners. -/
def Spec.InRect (lat1 long1 lat2 long2 : Rat) (p : Spot) : Prop :=
  min lat1 lat2 ≤ p.lat ∧ p.lat ≤ max lat1 lat2 ∧ min long1 long2 ≤ p.lon ∧ p.lon ≤ max long1 long2

instance (a b c d : Rat) (p : Spot) : Decidable (InRect a b c d p) := by unfold InRect; infer_instance

/-- The documentation of `rectangle` says inclusive; a member on the border is dropped. -/
theorem C35_rectangle_refuted : ∃ (c : SContainer) (p : Spot), p ∈ c.points ∧ InRect 0 0 2 2 p ∧
    p ∉ (c.rectangle 0 0 2 2).points :=
  ⟨.mk' [⟨1, 1, 10, 1⟩, ⟨2, 1, 10, 2⟩], ⟨2, 1, 10, 2⟩, by decide +kernel, by decide +kernel, by decide +kernel⟩

/-- Missing for the claim: members on the border lines. Without such members `rectangle` is exact,
whichever two opposite corners are given. -/
theorem C35_rectangle_partial (c : SContainer) (lat1 long1 lat2 long2 : Rat)
    (h : ∀ p ∈ c.points, p.lat ≠ lat1 ∧ p.lat ≠ lat2 ∧ p.lon ≠ long1 ∧ p.lon ≠ long2) :
    (c.rectangle lat1 long1 lat2 long2).points =
      c.points.filter fun p => decide (InRect lat1 long1 lat2 long2 p) := by
  refine List.filter_congr fun p hp => ?_
  obtain ⟨h1, h2, h3, h4⟩ := h p hp
  rw [← Bool.decide_and, ← Bool.decide_and, ← Bool.decide_and]
  refine decide_eq_decide.2 ?_
  have mn : ∀ {a b : Rat}, min a b = a ∨ min a b = b := fun {a b} => min_choice a b
  have mx : ∀ {a b : Rat}, max a b = a ∨ max a b = b := fun {a b} => max_choice a b
  unfold InRect
  constructor
  · rintro ⟨⟨a, b⟩, c, d⟩
    exact ⟨a.le, b.le, c.le, d.le⟩
  · rintro ⟨a, b, c, d⟩
    refine ⟨⟨lt_of_le_of_ne a ?_, lt_of_le_of_ne b ?_⟩, lt_of_le_of_ne c ?_, lt_of_le_of_ne d ?_⟩
    · rcases mn (a := lat1) (b := lat2) with e | e <;> rw [e]
      · exact h1.symm
      · exact h2.symm
    · rcases mx (a := lat1) (b := lat2) with e | e <;> rw [e]
      · exact h1
      · exact h2
    · rcases mn (a := long1) (b := long2) with e | e <;> rw [e]
      · exact h3.symm
      · exact h4.symm
    · rcases mx (a := long1) (b := long2) with e | e <;> rw [e]
      · exact h3
      · exact h4

/-- The exact set returned by `rectangle`: the open rectangle. -/
theorem C35_rectangle_open (c : SContainer) (lat1 long1 lat2 long2 : Rat) :
    (c.rectangle lat1 long1 lat2 long2).points = c.points.filter fun p =>
      decide (((lat1 < p.lat ∧ p.lat < lat2) ∨ (lat2 < p.lat ∧ p.lat < lat1)) ∧
        ((long1 < p.lon ∧ p.lon < long2) ∨ (long2 < p.lon ∧ p.lon < long1))) := by
  refine List.filter_congr fun p _ => ?_
  rw [← Bool.decide_and, ← Bool.decide_and, ← Bool.decide_and]
  refine decide_eq_decide.2 ?_
  have key : ∀ a b x : Rat, min a b < x ∧ x < max a b ↔ (a < x ∧ x < b) ∨ (b < x ∧ x < a) := by
    intro a b x
    rcases le_total a b with h | h
    · rw [min_eq_left h, max_eq_right h]
      exact ⟨Or.inl, fun hh => hh.elim id fun ⟨c, d⟩ => absurd (c.trans d) (not_lt.2 h)⟩
    · rw [min_eq_right h, max_eq_left h]
      exact ⟨Or.inr, fun hh => hh.elim (fun ⟨c, d⟩ => absurd (c.trans d) (not_lt.2 h)) id⟩
  rw [key, key]

/-- The results of the filters are containers whose lookup by id works (see C36). -/
theorem C35_lookup (c : SContainer) (lat1 long1 lat2 long2 : Rat) :
    LookupOk (c.rectangle lat1 long1 lat2 long2) ∧ LookupOk (c.elevationRange lat1 lat2) ∧
      LookupOk (c.elevationRangeMetric lat1 lat2) := ⟨LookupOk.mk' _, LookupOk.mk' _, LookupOk.mk' _⟩

example : ((SContainer.mk' [⟨1, 1, 10, 1⟩, ⟨3, 1, 10, 2⟩]).rectangle 2 0 0 2).points = [⟨1, 1, 10, 1⟩] := by
  decide +kernel

example : ∀ p ∈ (SContainer.mk' [⟨1, 1, 10, 1⟩, ⟨3, 1, 10, 2⟩]).points,
    p.lat ≠ 2 ∧ p.lat ≠ 0 ∧ p.lon ≠ 0 ∧ p.lon ≠ 2 := by decide +kernel

example : ("km", 1000) ∈ unitTable ∧ ∀ f, ("furlong", f) ∉ unitTable := by simp [unitTable]

/-! ### C36: lookup by id -/

/-- A container as built by the constructor and any sequence of `append` and `extend`. -/
inductive Spec.Grown : SContainer → Prop
  | new (l : List Spot) : Grown (.mk' l)
  | append {c : SContainer} (s : Spot) : Grown c → Grown (c.append s)
  | extend {c : SContainer} (l : List Spot) : Grown c → Grown (c.extend l)

theorem Spec.Grown.lookupOk {c : SContainer} (h : Grown c) : LookupOk c := by
  induction h with
  | new l => exact LookupOk.mk' l
  | append s _ ih => exact ih.append s
  | extend l _ ih => exact ih.extend l

/-- After any sequence of appends and extends `by_id` returns the last member with that id, and raises
KeyError exactly if there is none. Missing for the claim: item assignment. -/
theorem C36_byId_partial {c : SContainer} (h : Grown c) (i : Nat) :
    (∀ s, c.byId i = .ok s ↔ (c.points.filter fun s => decide (s.id = i)).getLast? = some s) ∧
    (c.byId i = .error .keyError ↔ ∀ s ∈ c.points, s.id ≠ i) := by
  have hl := h.lookupOk i
  simp only [SContainer.byId, hl]
  cases e : (c.points.filter fun s => decide (s.id = i)).getLast? with
  | none =>
    rw [List.getLast?_eq_none_iff, List.filter_eq_nil_iff] at e
    simpa using e
  | some s =>
    have hm := List.mem_of_getLast? e
    simp only [List.mem_filter, decide_eq_true_eq] at hm
    refine ⟨fun t => by simp, ?_⟩
    simp only [reduceCtorEq, false_iff]
    intro hc
    exact hc s hm.1 hm.2

/-- With distinct ids `by_id` returns the member with that id. -/
theorem C36_byId_distinct_partial {c : SContainer} (h : Grown c) (hd : (c.points.map (·.id)).Nodup)
    (i : Nat) (s : Spot) : c.byId i = .ok s ↔ s ∈ c.points ∧ s.id = i := by
  rw [(C36_byId_partial h i).1]
  constructor
  · intro e
    simpa using List.mem_of_getLast? e
  · rintro ⟨hs, rfl⟩
    rw [filter_id hd hs]; rfl

/-- The members themselves: what was given to the constructor, appended and extended, in order. -/
theorem C36_points (l m : List Spot) (s : Spot) :
    (SContainer.mk' l).points = l ∧ ((SContainer.mk' l).append s).points = l ++ [s] ∧
      ((SContainer.mk' l).extend m).points = l ++ m := ⟨rfl, rfl, rfl⟩

/-- Item assignment leaves the table as it was: `by_id` still returns the replaced member and does not
find the new one. -/
theorem C36_setItem_refuted : ∃ (c : SContainer) (c' : SContainer) (old new : Spot), Grown c ∧
    c.setItem 0 new = .ok c' ∧ c'.points = [new] ∧ c'.byId old.id = .ok old ∧ old ∉ c'.points ∧
      c'.byId new.id = .error .keyError := by
  refine ⟨.mk' [⟨0, 0, 1, 7⟩], _, ⟨0, 0, 1, 7⟩, ⟨0, 0, 2, 8⟩, .new _, rfl, ?_, ?_, ?_, ?_⟩ <;> decide +kernel

/-- What item assignment does: the member at that place is replaced, all others stay, and `by_id`
answers as before. -/
theorem C36_setItem {c c' : SContainer} {i : Int} {s : Spot} (h : c.setItem i s = .ok c') :
    (∀ j, c'.byId j = c.byId j) ∧ c'.points.length = c.points.length ∧
    ∃ k, k < c.points.length ∧ (i = k ∨ i = (k : Int) - c.points.length) ∧ c'.points[k]? = some s ∧
      ∀ j, j ≠ k → c'.points[j]? = c.points[j]? := by
  unfold SContainer.setItem at h
  cases hk : pyIndex c.points.length i with
  | none => rw [hk] at h; cases h
  | some k =>
    rw [hk] at h
    cases h
    have hkk : k < c.points.length ∧ (i = k ∨ i = (k : Int) - c.points.length) := by
      unfold pyIndex at hk
      split at hk
      · simp only [Option.some.injEq] at hk; omega
      · split at hk
        · simp only [Option.some.injEq] at hk; omega
        · cases hk
    refine ⟨fun j => rfl, by simp, k, hkk.1, hkk.2, by simp [hkk.1], fun j hj => ?_⟩
    simp [Ne.symm hj]

/-- C36 fails for every item assignment that changes the id: with distinct ids, `by_id` raises for the new member, which is in the
container, and goes on returning the replaced one, which is not. -/
theorem C36_every_setItem_refuted {c c' : SContainer} (hg : Grown c) (hd : (c.points.map (·.id)).Nodup) {i : Int} {new : Spot}
    (h : c.setItem i new = .ok c') (hn : ∀ s ∈ c.points, s.id ≠ new.id) :
    new ∈ c'.points ∧ c'.byId new.id = .error .keyError ∧
      ∃ old ∈ c.points, old ∉ c'.points ∧ c'.byId old.id = .ok old := by
  obtain ⟨h1, h2, k, hk, _, h3, h4⟩ := C36_setItem h
  refine ⟨List.mem_of_getElem? h3, by rw [h1]; exact (C36_byId_partial hg _).2.2 hn, c.points[k], List.getElem_mem hk, fun hm => ?_,
    by rw [h1]; exact (C36_byId_distinct_partial hg hd _ _).2 ⟨List.getElem_mem hk, rfl⟩⟩
  obtain ⟨j, hj, e⟩ := List.getElem_of_mem hm
  have hj' : c'.points[j]? = some c.points[k] := by rw [List.getElem?_eq_getElem hj, e]
  by_cases hjk : j = k
  · subst hjk
    rw [h3, Option.some.injEq] at hj'
    exact hn _ (List.getElem_mem hk) (by rw [← hj'])
  · rw [h4 j hjk] at hj'
    have hjl : j < c.points.length := by omega
    rw [List.getElem?_eq_getElem hjl, Option.some.injEq] at hj'
    refine hjk ((List.Nodup.getElem_inj_iff hd (hi := by simpa using hjl) (hj := by simpa using hk)).1 ?_)
    simp [hj']

/-- Instance: the second of three members is assigned. -/
example : (((SContainer.mk' [⟨0, 0, 1, 7⟩, ⟨0, 1, 1, 8⟩, ⟨0, 2, 1, 9⟩]).setItem (-2) ⟨0, 5, 1, 10⟩).toOption.isSome = true) ∧
    (∀ s ∈ (SContainer.mk' [⟨0, 0, 1, 7⟩, ⟨0, 1, 1, 8⟩, ⟨0, 2, 1, 9⟩]).points, s.id ≠ 10) := by decide +kernel

/-- The members that a sequence of calls enters by appending and extending, in order. -/
def Spec.entered : List COp → List Spot
  | [] => []
  | .append s :: ops => s :: entered ops
  | .extend l :: ops => l ++ entered ops
  | .setItem _ _ :: ops => entered ops

/-- What an assignment names: place and new member. -/
def Spec.assigned : List COp → List (Int × Spot)
  | [] => []
  | .setItem i s :: ops => (i, s) :: assigned ops
  | _ :: ops => assigned ops

/-- The table after any sequence of calls: that of the container to which everything was appended that the calls append, whatever
they assign. The number of members likewise. -/
theorem calls_table : ∀ (ops : List COp) (c c' : SContainer), ops.foldlM SContainer.apply c = .ok c' →
    c'.lookup = (entered ops).foldl lookupPut c.lookup ∧ c'.points.length = c.points.length + (entered ops).length ∧
    ∀ s ∈ c'.points, s ∈ c.points ∨ s ∈ entered ops ∨ s ∈ (assigned ops).map (·.2) := by
  intro ops
  induction ops with
  | nil => intro c c' h; cases h; exact ⟨rfl, rfl, fun s hs => .inl hs⟩
  | cons op ops ih =>
    intro c c' h
    rw [List.foldlM_cons] at h
    have hb : ∃ c1, c.apply op = .ok c1 ∧ ops.foldlM SContainer.apply c1 = .ok c' := by
      dsimp only [bind, Except.bind] at h
      split at h
      · cases h
      · exact ⟨_, by assumption, h⟩
    obtain ⟨c1, h1, h2⟩ := hb
    obtain ⟨g1, g2, g3⟩ := ih c1 c' h2
    cases op with
    | append s =>
      cases h1
      refine ⟨g1, by rw [g2]; simp [SContainer.append, entered]; omega,
        fun t ht => ?_⟩
      rcases g3 t ht with h | h | h
      · simp only [SContainer.append, List.mem_append, List.mem_singleton] at h
        exact h.imp id fun h => .inl (by simp [entered, h])
      · exact .inr (.inl (by simp [entered, h]))
      · exact .inr (.inr h)
    | extend l =>
      cases h1
      refine ⟨by rw [g1]; simp [SContainer.extend, entered, List.foldl_append],
        by rw [g2]; simp only [SContainer.extend, List.length_append, entered]; omega, fun t ht => ?_⟩
      rcases g3 t ht with h | h | h
      · simp only [SContainer.extend, List.mem_append] at h
        exact h.imp id fun h => .inl (by simp [entered, h])
      · exact .inr (.inl (by simp [entered, h]))
      · exact .inr (.inr h)
    | setItem i s =>
      have hset := C36_setItem (show c.setItem i s = .ok c1 from h1)
      have hl : c1.lookup = c.lookup ∧ ∀ t ∈ c1.points, t ∈ c.points ∨ t = s := by
        have h1' : c.setItem i s = .ok c1 := h1
        unfold SContainer.setItem at h1'
        split at h1'
        · cases h1'
        · cases h1'
          exact ⟨rfl, fun t ht => List.mem_or_eq_of_mem_set ht⟩
      refine ⟨by rw [g1, hl.1]; rfl, by rw [g2, hset.2.1]; rfl, fun t ht => ?_⟩
      rcases g3 t ht with h | h | h
      · exact (hl.2 t h).imp id fun h => .inr (by simp [assigned, h])
      · exact .inr (.inl h)
      · exact .inr (.inr (by simp only [assigned, List.map_cons, List.mem_cons]; exact .inr h))

/-- C36 after any sequence of `append`, `extend` and item assignment: `by_id` returns the last of the members with that id that were
given to the constructor, appended or extended, and raises KeyError exactly if there was none; assignments make no difference to it.
The container has as many members as were given, appended and extended. -/
theorem C36_calls_partial (l : List Spot) (ops : List COp) (c : SContainer) (h : ops.foldlM SContainer.apply (.mk' l) = .ok c) (i : Nat) :
    (∀ s, c.byId i = .ok s ↔ ((l ++ entered ops).filter fun s => decide (s.id = i)).getLast? = some s) ∧
    (c.byId i = .error .keyError ↔ ∀ s ∈ l ++ entered ops, s.id ≠ i) ∧
    c.points.length = l.length + (entered ops).length := by
  obtain ⟨h1, h2, _⟩ := calls_table ops _ _ h
  have hb : c.byId i = ((SContainer.mk' l).extend (entered ops)).byId i := by
    simp only [SContainer.byId, h1, SContainer.extend]
  rw [hb]
  obtain ⟨g1, g2⟩ := C36_byId_partial (.extend (entered ops) (.new l)) i
  exact ⟨g1, g2, h2⟩

/-- So `by_id` fails for a member exactly if no member of its id was entered otherwise: after any calls, a member that is there
only because it was assigned, under an id of its own, is not found; and what is found need not be there. -/
theorem C36_assigned_refuted (l : List Spot) (ops : List COp) (c : SContainer) (h : ops.foldlM SContainer.apply (.mk' l) = .ok c)
    (s : Spot) (hs : s ∈ c.points) (hid : ∀ t ∈ l ++ entered ops, t.id ≠ s.id) :
    c.byId s.id = .error .keyError ∧ s ∈ (assigned ops).map (·.2) := by
  refine ⟨((C36_calls_partial l ops c h s.id).2.1).2 hid, ?_⟩
  rcases (calls_table ops _ _ h).2.2 s hs with h | h | h
  · exact absurd rfl (hid s (List.mem_append_left _ h))
  · exact absurd rfl (hid s (List.mem_append_right _ h))
  · exact h

/-- Two members, one of them assigned, one appended afterwards. -/
example : ([COp.setItem (-1) ⟨0, 0, 2, 8⟩, .append ⟨0, 1, 2, 9⟩].foldlM SContainer.apply (.mk' [⟨0, 0, 1, 7⟩])).toOption.map
    (fun c => (c.points, [7, 8, 9].map fun i => (c.byId i).toOption)) =
    some ([⟨0, 0, 2, 8⟩, ⟨0, 1, 2, 9⟩], [some ⟨0, 0, 1, 7⟩, none, some ⟨0, 1, 2, 9⟩]) := by decide +kernel

/-- Item assignment and access fail exactly for indices outside `-n … n - 1`. -/
theorem C36_index (c : SContainer) (i : Int) (s : Spot) :
    ((∃ c', c.setItem i s = .ok c') ↔ -(c.points.length : Int) ≤ i ∧ i < c.points.length) ∧
    ((∃ t, c.getItem i = .ok t) ↔ -(c.points.length : Int) ≤ i ∧ i < c.points.length) ∧
    (∀ c', c.setItem i s = .ok c' → c'.getItem i = .ok s) := by
  have hp : ∀ n : Nat, (∃ k, pyIndex n i = some k ∧ k < n) ∨ (pyIndex n i = none ∧ ¬ (-(n : Int) ≤ i ∧ i < n)) := by
    intro n
    unfold pyIndex
    split
    · exact .inl ⟨_, rfl, by omega⟩
    · split
      · exact .inl ⟨_, rfl, by omega⟩
      · exact .inr ⟨rfl, by omega⟩
  have hin : ∀ (n : Nat) k, pyIndex n i = some k → -(n : Int) ≤ i ∧ i < n := by
    intro n k h
    unfold pyIndex at h
    split at h
    · omega
    · split at h
      · omega
      · cases h
  unfold SContainer.setItem SContainer.getItem
  rcases hp c.points.length with ⟨k, e, hk⟩ | ⟨e, hk⟩
  · simp only [e, Option.bind_some, List.getElem?_eq_getElem hk, hin _ _ e, and_self, iff_true]
    refine ⟨⟨_, rfl⟩, ⟨_, rfl⟩, fun c' h => ?_⟩
    cases h
    simp [e, hk]
  · simp [e, hk]

example : Grown (((SContainer.mk' [⟨0, 0, 1, 7⟩]).append ⟨0, 0, 2, 8⟩).extend [⟨0, 1, 2, 9⟩]) ∧
    (((SContainer.mk' [⟨0, 0, 1, 7⟩]).append ⟨0, 0, 2, 8⟩).extend [⟨0, 1, 2, 9⟩]).byId 8 =
      .ok ⟨0, 0, 2, 8⟩ := ⟨.extend _ (.append _ (.new _)), by decide +kernel⟩

/-! ### C37: equality, inequality, hash -/

/-- A Boolean relation that is an equivalence. -/
def Spec.BEquiv {α} (eq : α → α → Bool) : Prop :=
  (∀ a, eq a a = true) ∧ (∀ a b, eq a b = true → eq b a = true) ∧
    ∀ a b c, eq a b = true → eq b c = true → eq a c = true

theorem Spec.BEquiv.ofKey {α β} {eq : α → α → Bool} (key : α → β) (h : ∀ a b, eq a b = true ↔ key a = key b) :
    BEquiv eq :=
  ⟨fun a => (h a a).2 rfl, fun a b e => (h b a).2 ((h a b).1 e).symm,
    fun a b c e f => (h a c).2 (((h a b).1 e).trans ((h b c).1 f))⟩

/-- What `==` compares. -/
def Spec.locKey (s : Spot) : Option Int × Option Int × Rat := (eqCoord s.lat, eqCoord s.lon, s.e)

theorem spotEq_key (a b : Spot) : a.eq b = true ↔ locKey a = locKey b := seEq_iff ..

theorem spotsEq_iff (a b : List Spot) :
    spotsEq a b = true ↔ (pySorted Spot.lt a).map locKey = (pySorted Spot.lt b).map locKey :=
  pyListEq_iff spotEq_key _ _

theorem gpcEq_iff (a b : List P3) : gpcEq a b = true ↔ pySorted gpLt a = pySorted gpLt b := by
  have := pyListEq_iff (key := id) gpEq_iff (pySorted gpLt a) (pySorted gpLt b)
  rw [List.map_id, List.map_id] at this
  exact this

theorem bgcEq_iff (a b : List Pt) : bgcEq a b = true ↔ pySorted bgLt a = pySorted bgLt b := by
  have := pyListEq_iff (key := id) bgEq_iff (pySorted bgLt a) (pySorted bgLt b)
  rw [List.map_id, List.map_id] at this
  exact this

theorem multiEq_iff (a b : List MPt) : multiEq a b = true ↔ pySorted mptLt a = pySorted mptLt b := by
  have := pyListEq_iff (eq := fun p q : MPt => decide (p = q)) (key := id) (fun _ _ => decide_eq_true_iff)
    (pySorted mptLt a) (pySorted mptLt b)
  rw [List.map_id, List.map_id] at this
  exact this

theorem perimEq_iff (a b : List P3) : perimEq a b = true ↔ pySorted p3Lt a = pySorted p3Lt b := by
  have := pyListEq_iff (eq := fun p q : P3 => decide (p = q)) (key := id) (fun _ _ => decide_eq_true_iff)
    (pySorted p3Lt a) (pySorted p3Lt b)
  rw [List.map_id, List.map_id] at this
  exact this

theorem C37_location_equiv : BEquiv Spot.eq ∧
    BEquiv (fun a b : Rat × Rat => bcEq a.1 a.2 b.1 b.2) ∧ BEquiv gpEq ∧ BEquiv bgEq :=
  ⟨.ofKey locKey spotEq_key, .ofKey (fun a => (eqCoord a.1, eqCoord a.2)) fun _ _ => bcEq_iff ..,
    .ofKey id gpEq_iff, .ofKey id bgEq_iff⟩

/-- Equal locations have equal hashes, whatever hash Python uses for tuples of numbers. -/
theorem C37_hash (hash : Int × Int × Rat → Int) (hash2 : Int × Int → Int) (a b : Spot) :
    (a.eq b = true → seHash hash a.lat a.lon a.e = seHash hash b.lat b.lon b.e) ∧
    (bcEq a.lat a.lon b.lat b.lon = true → bcHash hash2 a.lat a.lon = bcHash hash2 b.lat b.lon) := by
  constructor
  · intro h
    rw [Spot.eq, seEq_iff] at h
    simp only [Prod.mk.injEq, eqCoord_iff] at h
    simp only [seHash, h.1.1, h.2.1.1, h.2.2]
  · intro h
    rw [bcEq_iff] at h
    simp only [Prod.mk.injEq, eqCoord_iff] at h
    simp only [bcHash, h.1.1, h.2.1]

/-- Where Python's hash of tuples has no collisions, the hash tells apart exactly the locations that are `!=`. -/
theorem C37_hash_apart (hash : Int × Int × Rat → Int) (hash2 : Int × Int → Int) (hi : Function.Injective hash)
    (hi2 : Function.Injective hash2) (a b : Spot) :
    (seHash hash a.lat a.lon a.e = seHash hash b.lat b.lon b.e ↔ seNe a.lat a.lon a.e b.lat b.lon b.e = false) ∧
    (bcHash hash2 a.lat a.lon = bcHash hash2 b.lat b.lon ↔ bcNe a.lat a.lon b.lat b.lon = false) := by
  constructor
  · rw [seHash, seHash, hi.eq_iff]
    simp [seNe, and_assoc]
  · rw [bcHash, bcHash, hi2.eq_iff]
    simp [bcNe]

/-- `!=` is not the negation of `==`: at the equator (or the zero meridian) a point closer than the
sixth decimal is neither equal nor unequal to the point at zero. -/
theorem C37_ne_refuted : ∃ a b : Spot, a.eq b = false ∧ seNe a.lat a.lon a.e b.lat b.lon b.e = false ∧
    bcEq a.lat a.lon b.lat b.lon = false ∧ bcNe a.lat a.lon b.lat b.lon = false :=
  ⟨⟨0, 10, 100, 1⟩, ⟨1 / 10000000, 10, 100, 2⟩, by decide +kernel, by decide +kernel, by decide +kernel,
    by decide +kernel⟩

/-- Missing for the claim: a zero coordinate against a nonzero one that rounds to zero. Apart from that
`!=` is the negation of `==`; in particular the two are never both true. -/
theorem C37_ne_partial (a b : Spot) :
    (seNe a.lat a.lon a.e b.lat b.lon b.e = true → a.eq b = false) ∧
    ((a.lat = 0 ↔ b.lat = 0) → (a.lon = 0 ↔ b.lon = 0) →
      seNe a.lat a.lon a.e b.lat b.lon b.e = !a.eq b ∧
      bcNe a.lat a.lon b.lat b.lon = !bcEq a.lat a.lon b.lat b.lon) := by
  constructor
  · intro h
    rw [← Bool.not_eq_true, Spot.eq, seEq_iff]
    rw [seNe_iff] at h
    simp only [Prod.mk.injEq, eqCoord_iff] at h ⊢
    tauto
  · intro h1 h2
    constructor
    · rw [Bool.eq_iff_iff, Bool.not_eq_true', ← Bool.not_eq_true, Spot.eq, seEq_iff, seNe_iff]
      simp only [Prod.mk.injEq, eqCoord_iff]
      tauto
    · rw [Bool.eq_iff_iff, Bool.not_eq_true', ← Bool.not_eq_true, bcEq_iff, bcNe_iff]
      simp only [Prod.mk.injEq, eqCoord_iff]
      tauto

/-- On grid points `!=` is the negation of `==`. -/
theorem C37_ne_grid (a b : P3) : (gpEq a b = true ↔ a = b) ∧ (gpNe a b = true ↔ a ≠ b) := by
  refine ⟨gpEq_iff a b, ?_⟩
  rw [gpNe_eq, Bool.not_eq_true', ← Bool.not_eq_true, gpEq_iff]

/-- A saddle with high neighbourhoods has no hash: the call raises TypeError. -/
theorem C37_saddle_hash_refuted (hash pair : Int × Int → Int) (nil : Int) (lat lon : Rat) (l : List P3)
    (hpn : List (List P3)) : saddleHash hash pair nil lat lon (l :: hpn) = .error .typeError := rfl

/-- Container equality is an equivalence, `!=` is its negation, and equal containers have equal hashes. -/
theorem C37_container_equiv : BEquiv spotsEq ∧ BEquiv gpcEq ∧ BEquiv bgcEq ∧ BEquiv multiEq ∧ BEquiv perimEq :=
  ⟨.ofKey _ spotsEq_iff, .ofKey _ gpcEq_iff, .ofKey _ bgcEq_iff, .ofKey _ multiEq_iff, .ofKey _ perimEq_iff⟩

theorem C37_container_ne (a b : List Spot) (c d : List P3) :
    (spotsNe a b = true ↔ ¬ spotsEq a b = true) ∧ (gpcNe c d = true ↔ ¬ gpcEq c d = true) := by
  simp [spotsNe, spotsEq, gpcNe, gpcEq]

theorem C37_container_hash (hash : List P3 → Int) (hash2 : List Pt → Int) (a b : List P3) (c d : List Pt) :
    (gpcEq a b = true → gpcHash hash a = gpcHash hash b) ∧ (bgcEq c d = true → bgcHash hash2 c = bgcHash hash2 d) := by
  refine ⟨fun h => ?_, fun h => ?_⟩
  · simp only [gpcHash, (gpcEq_iff a b).1 h]
  · simp only [bgcHash, (bgcEq_iff c d).1 h]

/-- Equality of MultiPoints and Perimeters does not depend on the order of insertion: it holds exactly
if one list is a permutation of the other. -/
theorem C37_order_multi (a b : List MPt) : multiEq a b = true ↔ a.Perm b := by
  rw [multiEq_iff]
  exact pySorted_eq_iff mptLt_asymm mptLt_trans mptLt_tie a b

theorem C37_order_perimeter (a b : List P3) : perimEq a b = true ↔ a.Perm b := by
  rw [perimEq_iff]
  exact pySorted_eq_iff (fun a b => by simpa only [p3Lt_eq] using mptLt_asymm a.toMPt b.toMPt)
    (fun a b c => by simpa only [p3Lt_eq] using mptLt_trans a.toMPt b.toMPt c.toMPt)
    (fun a b h1 h2 => P3.toMPt_inj (mptLt_tie _ _ (by simpa only [p3Lt_eq] using h1) (by simpa only [p3Lt_eq] using h2)))
    a b

/-- Equality of SpotElevationContainers, GridPointContainers and BaseGridPointContainers depends on the
order of insertion: members of one height (for BaseGridPoints: of equal coordinate sum) are not
ordered by sorting. -/
theorem C37_order_refuted :
    (∃ a b : List Spot, a.Perm b ∧ spotsEq a b = false) ∧ (∃ a b : List P3, a.Perm b ∧ gpcEq a b = false) ∧
      ∃ a b : List Pt, a.Perm b ∧ bgcEq a b = false :=
  ⟨⟨[⟨1, 1, 5, 1⟩, ⟨2, 2, 5, 2⟩], [⟨2, 2, 5, 2⟩, ⟨1, 1, 5, 1⟩], .swap _ _ _, by decide +kernel⟩,
    ⟨[⟨1, 1, 5⟩, ⟨2, 2, 5⟩], [⟨2, 2, 5⟩, ⟨1, 1, 5⟩], .swap _ _ _, by decide +kernel⟩,
    ⟨[(0, 1), (1, 0)], [(1, 0), (0, 1)], .swap _ _ _, by decide +kernel⟩⟩

/-- Missing for the claim: different members of one height. If members of one height are equal, the
order of insertion does not matter. -/
theorem C37_order_spots_partial {a b : List Spot} (h : a.Perm b)
    (tie : ∀ s ∈ a, ∀ t ∈ a, s.e = t.e → s.eq t = true) : spotsEq a b = true := by
  rw [spotsEq_iff,
    pySorted_map (lt := Spot.lt) (lt' := fun p q : Option Int × Option Int × Rat => decide (p.2.2 < q.2.2))
      (f := locKey) (fun _ _ => rfl),
    pySorted_map (lt := Spot.lt) (lt' := fun p q : Option Int × Option Int × Rat => decide (p.2.2 < q.2.2))
      (f := locKey) (fun _ _ => rfl)]
  refine pySorted_perm_eq ?_ ?_ ?_ (h.map _)
  · intro p q; simp only [decide_eq_true_eq, decide_eq_false_iff_not, not_lt]; exact le_of_lt
  · intro p q r; simp only [decide_eq_false_iff_not, not_lt]; exact le_trans
  · intro p hp q hq
    simp only [decide_eq_false_iff_not, not_lt]
    obtain ⟨s, hs, rfl⟩ := List.mem_map.1 hp
    obtain ⟨t, ht, rfl⟩ := List.mem_map.1 hq
    intro h1 h2
    exact (spotEq_key s t).1 (tie s hs t ht (le_antisymm h2 h1))

theorem C37_order_grid_partial {a b : List P3} (h : a.Perm b)
    (tie : ∀ s ∈ a, ∀ t ∈ a, s.e = t.e → s = t) : gpcEq a b = true := by
  rw [gpcEq_iff]
  refine pySorted_perm_eq ?_ ?_ ?_ h
  · intro p q; simp only [gpLt, decide_eq_true_eq, decide_eq_false_iff_not, not_lt]; exact le_of_lt
  · intro p q r; simp only [gpLt, decide_eq_false_iff_not, not_lt]; exact le_trans
  · intro p hp q hq
    simp only [gpLt, decide_eq_false_iff_not, not_lt]
    intro h1 h2
    exact tie p hp q hq (le_antisymm h2 h1)

/-- Equal containers have the same members up to equality of members. -/
theorem C37_equal_members {a b : List Spot} (h : spotsEq a b = true) : (a.map locKey).Perm (b.map locKey) := by
  rw [spotsEq_iff] at h
  have h1 := (pySorted_perm Spot.lt a).map locKey
  rw [h] at h1
  exact h1.symm.trans ((pySorted_perm Spot.lt b).map locKey)

example : Spot.eq ⟨10, 20, 5, 1⟩ ⟨10 + 1 / 10000000, 20, 5, 2⟩ = true := by decide +kernel

example : ∀ s ∈ [(⟨1, 1, 5, 1⟩ : Spot), ⟨2, 2, 6, 2⟩], ∀ t ∈ [(⟨1, 1, 5, 1⟩ : Spot), ⟨2, 2, 6, 2⟩],
    s.e = t.e → s.eq t = true := by decide +kernel

/-! ### C54: pseudo summits -/

/-- `findPseudoSummits` always returns, and the result contains every member of a connected group of
equal height without higher neighbour. A reported point either has no higher neighbour or has a neighbour
of its own height. Missing for the claim: the last alternative must not occur for groups that have a
higher neighbour; see `C54_refuted`. -/
theorem C54_complete_partial (S : List P3) (hS : (S.map P3.xy).Nodup) :
    ∃ out, findPseudoSummits S = .ok out ∧ (∀ p, Pseudo S p → p ∈ out) ∧
      ∀ p ∈ out, p ∈ S ∧ (NoHigher S p ∨ ∃ n ∈ S, Adj p.xy n.xy ∧ n.e = p.e) := by
  obtain ⟨out, h1, h2, h3⟩ := findPseudo_spec hS
  refine ⟨out, h1, h3, fun p hp => ⟨(h2 p hp).1, ?_⟩⟩
  rcases (h2 p hp).2 with ⟨n, a, b, c⟩ | h
  · exact Or.inr ⟨n, b, a, c⟩
  · exact Or.inl h

/-- Without touching members of equal height the result is exactly the members without higher
neighbour, in order. -/
theorem C54_steep_partial (S : List P3) (hS : (S.map P3.xy).Nodup)
    (hl : ∀ p ∈ S, ∀ n ∈ S, Adj p.xy n.xy → n.e ≠ p.e) :
    findPseudoSummits S = .ok (S.filter fun p => decide (NoHigher S p)) ∧
      ∀ p, Pseudo S p ↔ p ∈ S ∧ NoHigher S p := by
  have hl' : ∀ p ∈ S, ∀ n, ¬ LevelIn S p n := fun p hp n h => hl p hp n h.2.1 h.1 h.2.2
  refine ⟨?_, fun p => ⟨fun h => ⟨h.1, h.2 p .refl⟩, fun h => ⟨h.1, fun q hq => ?_⟩⟩⟩
  · have := psMain_steep hS hl' (17 * S.length + 10) S [] [] (fun p hp => ⟨hp, by simp⟩) hS
    simpa [findPseudoSummits] using this
  · rcases Relation.ReflTransGen.cases_head hq with e | ⟨c, hc, _⟩
    · exact e ▸ h.2
    · exact absurd hc (hl' p h.1 c)

/-- A flat beside a higher point is reported: the search of a flat skips neighbours explored before,
also higher ones. -/
theorem C54_refuted : ∃ (S : List P3) (out : List P3) (p : P3), (S.map P3.xy).Nodup ∧
    findPseudoSummits S = .ok out ∧ p ∈ out ∧ ¬ Pseudo S p := by
  refine ⟨[⟨0, 0, 3⟩, ⟨0, 1, 2⟩, ⟨0, 2, 2⟩], [⟨0, 0, 3⟩, ⟨0, 1, 2⟩, ⟨0, 2, 2⟩], ⟨0, 1, 2⟩, by decide +kernel,
    by decide +kernel, by decide +kernel, fun h => ?_⟩
  have := h.2 _ .refl ⟨0, 0, 3⟩ (by decide +kernel) (by decide +kernel)
  exact absurd this (by decide +kernel)

/-- A point of a flat can be reported more than once. -/
theorem C54_once_refuted : ∃ (S : List P3) (out : List P3), (S.map P3.xy).Nodup ∧
    findPseudoSummits S = .ok out ∧ ¬ out.Nodup := by
  refine ⟨[⟨0, 0, 2⟩, ⟨0, 1, 2⟩, ⟨1, 0, 2⟩, ⟨1, 1, 2⟩], (findPseudoSummits [⟨0, 0, 2⟩, ⟨0, 1, 2⟩, ⟨1, 0, 2⟩,
    ⟨1, 1, 2⟩]).toOption.getD [], by decide +kernel, by decide +kernel, by decide +kernel⟩

example : (([⟨0, 0, 3⟩, ⟨0, 1, 2⟩, ⟨0, 2, 4⟩] : List P3).map P3.xy).Nodup ∧
    findPseudoSummits [⟨0, 0, 3⟩, ⟨0, 1, 2⟩, ⟨0, 2, 4⟩] = .ok [⟨0, 0, 3⟩, ⟨0, 2, 4⟩] := by decide +kernel

end PyProm
