import Verif.Proof.Containers

namespace PyProm
open Spec

theorem gpLookup_fold (l : List P3) : ∀ (f : Pt → Option P3) (q : Pt),
    l.foldl (fun f p => fun q => if q = p.xy then some p else f q) f q =
      ((l.filter fun p => decide (p.xy = q)).getLast?).or (f q) := by
  induction l with
  | nil => intro f q; simp
  | cons s l ih =>
    intro f q
    rw [List.foldl_cons, ih, List.filter_cons]
    by_cases h : s.xy = q
    · simp only [h, decide_true, if_true]
      rw [List.getLast?_cons]
      cases (l.filter fun s => decide (s.xy = q)).getLast? <;> simp
    · have h' : ¬ q = s.xy := fun e => h e.symm
      simp [h, h']

theorem eq_of_xy {S : List P3} (h : (S.map P3.xy).Nodup) {a b : P3} (ha : a ∈ S) (hb : b ∈ S) (e : a.xy = b.xy) :
    a = b := List.inj_on_of_nodup_map h ha hb e

theorem gpLookup_iff {S : List P3} (h : (S.map P3.xy).Nodup) (q : Pt) (p : P3) :
    gpLookup S q = some p ↔ p ∈ S ∧ p.xy = q := by
  rw [gpLookup, gpLookup_fold]
  simp only [Option.or_none]
  constructor
  · intro e
    have := List.mem_of_getLast? e
    simpa using this
  · rintro ⟨hp, rfl⟩
    have : p ∈ S.filter fun x => decide (x.xy = p.xy) := by simp [hp]
    obtain ⟨x, hx⟩ : ∃ x, (S.filter fun x => decide (x.xy = p.xy)).getLast? = some x := by
      cases e : (S.filter fun x => decide (x.xy = p.xy)).getLast? with
      | none => rw [List.getLast?_eq_none_iff] at e; rw [e] at this; cases this
      | some x => exact ⟨x, rfl⟩
    have hm := List.mem_of_getLast? hx
    simp only [List.mem_filter, decide_eq_true_eq] at hm
    rw [hx, eq_of_xy h hm.1 hp hm.2]

theorem mem_gpNeighbors {S : List P3} (h : (S.map P3.xy).Nodup) (p n : P3) :
    n ∈ gpNeighbors (gpLookup S) p ↔ n ∈ S ∧ Adj p.xy n.xy := by
  simp only [gpNeighbors, List.mem_filterMap, gpLookup_iff h]
  constructor
  · rintro ⟨s, hs, hn, e⟩
    refine ⟨hn, ?_⟩
    rw [mem_fullShift] at hs
    obtain ⟨a, b⟩ := s
    rw [e]
    simp only [Adj, P3.xy, ne_eq, Prod.mk.injEq] at hs ⊢
    omega
  · rintro ⟨hn, ha⟩
    refine ⟨(n.x - p.x, n.y - p.y), ?_, hn, ?_⟩
    · rw [mem_fullShift]
      simp only [Adj, P3.xy, ne_eq, Prod.mk.injEq] at ha ⊢
      omega
    · simp [P3.xy]

theorem gpNeighbors_length (lk : Pt → Option P3) (p : P3) : (gpNeighbors lk p).length ≤ 8 :=
  (List.length_filterMap_le _ _).trans (by decide)

theorem psVisit_some (ex : List Pt) (g : P3) : ∀ (ns st st' : List P3), psVisit ex g ns st = some st' →
    ∃ new, st' = new ++ st ∧ (∀ m, m ∈ new ↔ m ∈ ns ∧ m.xy ∉ ex ∧ m.e = g.e) ∧
      new.length ≤ ns.length ∧ ∀ n ∈ ns, n.xy ∉ ex → n.e ≤ g.e
  | [], st, st', h => by
    simp only [psVisit, Option.some.injEq] at h
    exact ⟨[], by simp [h], by simp, by simp, by simp⟩
  | n :: ns, st, st', h => by
    rw [psVisit] at h
    split at h
    · next he =>
      obtain ⟨new, h1, h2, h3, h4⟩ := psVisit_some ex g ns st st' h
      refine ⟨new, h1, fun m => ?_, h3.trans (Nat.le_succ _), fun m hm hx => ?_⟩
      · rw [h2, List.mem_cons]
        constructor
        · exact fun ⟨a, b⟩ => ⟨Or.inr a, b⟩
        · rintro ⟨rfl | a, b⟩
          · exact absurd he b.1
          · exact ⟨a, b⟩
      · rcases List.mem_cons.1 hm with rfl | hm
        · exact absurd he hx
        · exact h4 m hm hx
    · next he =>
      simp only at h
      split at h
      · cases h
      · next hh =>
        obtain ⟨new, h1, h2, h3, h4⟩ := psVisit_some ex g ns _ st' h
        have h4' : ∀ m ∈ n :: ns, m.xy ∉ ex → m.e ≤ g.e := by
          intro m hm hx
          rcases List.mem_cons.1 hm with rfl | hm
          · exact not_lt.1 hh
          · exact h4 m hm hx
        by_cases hl : n.e = g.e
        · rw [if_pos hl] at h1
          refine ⟨new ++ [n], by simp [h1], fun m => ?_, by simp; omega, h4'⟩
          rw [List.mem_append, h2, List.mem_singleton, List.mem_cons]
          constructor
          · rintro (⟨a, b⟩ | rfl)
            · exact ⟨Or.inr a, b⟩
            · exact ⟨Or.inl rfl, he, hl⟩
          · rintro ⟨rfl | a, b⟩
            · exact Or.inr rfl
            · exact Or.inl ⟨a, b⟩
        · rw [if_neg hl] at h1
          refine ⟨new, h1, fun m => ?_, h3.trans (Nat.le_succ _), h4'⟩
          rw [h2, List.mem_cons]
          constructor
          · exact fun ⟨a, b⟩ => ⟨Or.inr a, b⟩
          · rintro ⟨rfl | a, b⟩
            · exact absurd b.2 hl
            · exact ⟨a, b⟩

theorem psVisit_none (ex : List Pt) (g : P3) : ∀ (ns st : List P3), psVisit ex g ns st = none →
    ∃ n ∈ ns, n.xy ∉ ex ∧ g.e < n.e
  | [], st, h => by simp [psVisit] at h
  | n :: ns, st, h => by
    rw [psVisit] at h
    split at h
    · obtain ⟨m, hm, r⟩ := psVisit_none ex g ns _ h
      exact ⟨m, List.mem_cons_of_mem _ hm, r⟩
    · next he =>
      simp only at h
      split at h
      · next hh => exact ⟨n, List.mem_cons_self, he, hh⟩
      · obtain ⟨m, hm, r⟩ := psVisit_none ex g ns _ h
        exact ⟨m, List.mem_cons_of_mem _ hm, r⟩

/-- Points not explored yet. -/
def psLeft (S : List P3) (ex : List Pt) : Nat := (S.filter fun p => decide (p.xy ∉ ex)).length

theorem psLeft_le (S : List P3) (ex : List Pt) : psLeft S ex ≤ S.length := List.length_filter_le _ _

theorem psLeft_cons_le (S : List P3) (q : Pt) (ex : List Pt) : psLeft S (q :: ex) ≤ psLeft S ex := by
  unfold psLeft
  apply List.Sublist.length_le
  apply List.monotone_filter_right
  intro p hp
  simp only [decide_eq_true_eq, List.mem_cons, not_or] at hp ⊢
  exact hp.2

theorem psLeft_cons_lt {S : List P3} {g : P3} (hg : g ∈ S) {ex : List Pt} (h : g.xy ∉ ex) :
    psLeft S (g.xy :: ex) < psLeft S ex := by
  unfold psLeft
  have e : S.filter (fun p => decide (p.xy ∉ g.xy :: ex)) =
      (S.filter fun p => decide (p.xy ∉ ex)).filter fun p => decide (p.xy ≠ g.xy) := by
    rw [List.filter_filter]
    refine List.filter_congr fun p _ => ?_
    simp [List.mem_cons, not_or, Bool.decide_and]
  rw [e]
  refine List.length_filter_lt_length_iff_exists.2 ⟨g, ?_, by simp⟩
  simp [hg, h]

/-- 1 if the top of the stack has been explored already. -/
def psFlag (ex : List Pt) : List P3 → Nat
  | [] => 0
  | g :: _ => if g.xy ∈ ex then 1 else 0

theorem psFlag_le (ex : List Pt) (st : List P3) : psFlag ex st ≤ 1 := by
  cases st with
  | nil => simp [psFlag]
  | cons g _ =>
    simp only [psFlag]
    by_cases h : g.xy ∈ ex <;> simp [h]

/-- The blob loop always finishes. -/
theorem psBlob_terminates {S : List P3} (hS : (S.map P3.xy).Nodup) : ∀ (n : Nat) (ex : List Pt) (st an : List P3),
    (∀ m ∈ st, m ∈ S) → 17 * psLeft S ex + st.length + 8 * psFlag ex st < n →
    ∃ r, psBlob (gpLookup S) n ex st an = .ok r
  | 0, ex, st, an, _, h => absurd h (Nat.not_lt_zero _)
  | n + 1, ex, [], an, _, _ => ⟨_, rfl⟩
  | n + 1, ex, g :: rest, an, hm, h => by
    rw [psBlob]
    cases hv : psVisit (g.xy :: ex) g (gpNeighbors (gpLookup S) g) rest with
    | none => exact ⟨_, rfl⟩
    | some st' =>
      simp only
      obtain ⟨new, rfl, h2, h3, _⟩ := psVisit_some _ _ _ _ _ hv
      have h8 := h3.trans (gpNeighbors_length _ _)
      apply psBlob_terminates hS
      · intro m hm'
        rcases List.mem_append.1 hm' with hm' | hm'
        · exact ((mem_gpNeighbors hS g m).1 ((h2 m).1 hm').1).1
        · exact hm m (List.mem_cons_of_mem _ hm')
      · simp only [List.length_cons, List.length_append] at h ⊢
        by_cases hx : g.xy ∈ ex
        · have hl := psLeft_cons_le S g.xy ex
          have hf : psFlag ex (g :: rest) = 1 := by simp [psFlag, hx]
          cases new with
          | nil =>
            have := psFlag_le (g.xy :: ex) rest
            simp only [List.length_nil, List.nil_append] at h8 ⊢
            omega
          | cons m new =>
            have hf' : psFlag (g.xy :: ex) (m :: new ++ rest) = 0 := by
              have := ((h2 m).1 List.mem_cons_self).2.1
              simp [psFlag, this]
            rw [hf']
            omega
        · have hl := psLeft_cons_lt (hm g List.mem_cons_self) hx
          have hf := psFlag_le (g.xy :: ex) (new ++ rest)
          omega

/-- Reached through touching members of the same height. -/
abbrev LevelReach (S : List P3) (a b : P3) : Prop := Relation.ReflTransGen (LevelIn S) a b

theorem LevelReach.elev {S : List P3} {a b : P3} (h : LevelReach S a b) : b.e = a.e := by
  induction h with
  | refl => rfl
  | tail _ h ih => rw [h.2.2, ih]

theorem LevelReach.mem {S : List P3} {a b : P3} (h : LevelReach S a b) (ha : a ∈ S) : b ∈ S := by
  cases h with
  | refl => exact ha
  | tail _ h => exact h.2.1

theorem LevelReach.symm {S : List P3} {a b : P3} (h : LevelReach S a b) (ha : a ∈ S) : LevelReach S b a := by
  induction h with
  | refl => exact .refl
  | tail h1 h2 ih =>
    refine Relation.ReflTransGen.head ?_ ih
    refine ⟨?_, LevelReach.mem h1 ha, h2.2.2.symm⟩
    have := h2.1
    simp only [Adj, ne_eq, P3.xy, Prod.mk.injEq] at this ⊢
    omega

theorem Spec.Pseudo.reach {S : List P3} {p q : P3} (h : Pseudo S p) (r : LevelReach S p q) : Pseudo S q :=
  ⟨r.mem h.1, fun _ r' => h.2 _ (r.trans r')⟩

/-- What every run of the blob loop does. -/
theorem psBlob_weak {S : List P3} (hS : (S.map P3.xy).Nodup) (p : P3) :
    ∀ (n : Nat) (ex : List Pt) (st an : List P3) (r : List Pt × Option (List P3)),
    (∀ m ∈ st, LevelReach S p m) → (∀ m ∈ an, LevelReach S p m) →
    psBlob (gpLookup S) n ex st an = .ok r →
    (∀ q ∈ ex, q ∈ r.1) ∧ (∀ q ∈ r.1, q ∈ ex ∨ ∃ m, LevelReach S p m ∧ m.xy = q) ∧
      ∀ l, r.2 = some l → ∀ m ∈ l, LevelReach S p m
  | 0, ex, st, an, r, _, _, h => by simp [psBlob] at h
  | n + 1, ex, [], an, r, _, h2, h => by
    simp only [psBlob, Except.ok.injEq] at h
    subst h
    exact ⟨fun _ h => h, fun _ h => Or.inl h, fun l hl => by cases hl; exact h2⟩
  | n + 1, ex, g :: rest, an, r, h1, h2, h => by
    rw [psBlob] at h
    have hg := h1 g List.mem_cons_self
    cases hv : psVisit (g.xy :: ex) g (gpNeighbors (gpLookup S) g) rest with
    | none =>
      simp only [hv, Except.ok.injEq] at h
      subst h
      refine ⟨fun _ h => List.mem_cons_of_mem _ h, fun q hq => ?_, fun l hl => by cases hl⟩
      rcases List.mem_cons.1 hq with rfl | hq
      · exact Or.inr ⟨g, hg, rfl⟩
      · exact Or.inl hq
    | some st' =>
      simp only [hv] at h
      obtain ⟨new, rfl, h3, _, _⟩ := psVisit_some _ _ _ _ _ hv
      have i1 : ∀ m ∈ new ++ rest, LevelReach S p m := by
        intro m hm
        rcases List.mem_append.1 hm with hm | hm
        · obtain ⟨x, _, y⟩ := (h3 m).1 hm
          obtain ⟨x1, x2⟩ := (mem_gpNeighbors hS g m).1 x
          exact hg.tail ⟨x2, x1, y⟩
        · exact h1 m (List.mem_cons_of_mem _ hm)
      have i2 : ∀ m ∈ an ++ [g], LevelReach S p m := by
        intro m hm
        rcases List.mem_append.1 hm with hm | hm
        · exact h2 m hm
        · rw [List.mem_singleton.1 hm]; exact hg
      obtain ⟨a, b, c⟩ := psBlob_weak hS p n _ _ _ r i1 i2 h
      refine ⟨fun q hq => a q (List.mem_cons_of_mem _ hq), fun q hq => ?_, c⟩
      rcases b q hq with hq | hq
      · rcases List.mem_cons.1 hq with rfl | hq
        · exact Or.inr ⟨g, hg, rfl⟩
        · exact Or.inl hq
      · exact Or.inr hq

/-- In an unexplored group without higher neighbour the blob loop finds the whole group. -/
theorem psBlob_full {S : List P3} (hS : (S.map P3.xy).Nodup) {p : P3} (hp : Pseudo S p) :
    ∀ (n : Nat) (ex : List Pt) (st an : List P3) (r : List Pt × Option (List P3)),
    (∀ m ∈ st, LevelReach S p m) →
    (∀ m, LevelReach S p m → m.xy ∈ ex → m ∈ an ∨ m ∈ st) →
    (∀ a ∈ an, ∀ m, LevelIn S a m → m ∈ an ∨ m ∈ st) → (p ∈ an ∨ p ∈ st) → (∀ a ∈ an, a.xy ∈ ex) →
    psBlob (gpLookup S) n ex st an = .ok r →
    ∃ l, r.2 = some l ∧ ∀ m, LevelReach S p m → m ∈ l ∧ m.xy ∈ r.1
  | 0, ex, st, an, r, _, _, _, _, _, h => by simp [psBlob] at h
  | n + 1, ex, [], an, r, _, _, h3, h4, h5, h => by
    simp only [psBlob, Except.ok.injEq] at h
    subst h
    refine ⟨an, rfl, fun m hm => ?_⟩
    have : m ∈ an := by
      induction hm with
      | refl => simpa using h4
      | tail _ hl ih => simpa using h3 _ ih _ hl
    exact ⟨this, h5 m this⟩
  | n + 1, ex, g :: rest, an, r, h1, h2, h3, h4, h5, h => by
    rw [psBlob] at h
    have hg := h1 g List.mem_cons_self
    cases hv : psVisit (g.xy :: ex) g (gpNeighbors (gpLookup S) g) rest with
    | none =>
      obtain ⟨m, hm, _, hh⟩ := psVisit_none _ _ _ _ hv
      obtain ⟨x1, x2⟩ := (mem_gpNeighbors hS g m).1 hm
      exact absurd (hp.2 g hg m x1 x2) (not_le.2 hh)
    | some st' =>
      simp only [hv] at h
      obtain ⟨new, rfl, hn, _, _⟩ := psVisit_some _ _ _ _ _ hv
      have h2' : ∀ m, LevelReach S p m → m.xy ∈ g.xy :: ex → m ∈ an ++ [g] ∨ m ∈ new ++ rest := by
        intro m hm hx
        rcases List.mem_cons.1 hx with e | hx
        · have : m = g := eq_of_xy hS (hm.mem hp.1) (hg.mem hp.1) e
          exact Or.inl (by simp [this])
        · rcases h2 m hm hx with h | h
          · exact Or.inl (by simp [h])
          · rcases List.mem_cons.1 h with rfl | h
            · exact Or.inl (by simp)
            · exact Or.inr (by simp [h])
      refine psBlob_full hS hp n _ _ _ r (fun m hm => ?_) h2' ?_ ?_ ?_ h
      · rcases List.mem_append.1 hm with hm | hm
        · obtain ⟨x, _, y⟩ := (hn m).1 hm
          obtain ⟨x1, x2⟩ := (mem_gpNeighbors hS g m).1 x
          exact hg.tail ⟨x2, x1, y⟩
        · exact h1 m (List.mem_cons_of_mem _ hm)
      · intro a ha m hm
        rcases List.mem_append.1 ha with ha | ha
        · rcases h3 a ha m hm with h | h
          · exact Or.inl (by simp [h])
          · rcases List.mem_cons.1 h with rfl | h
            · exact Or.inl (by simp)
            · exact Or.inr (by simp [h])
        · rw [List.mem_singleton.1 ha] at hm
          by_cases hx : m.xy ∈ g.xy :: ex
          · exact h2' m (hg.tail hm) hx
          · exact Or.inr (List.mem_append.2 (Or.inl ((hn m).2
              ⟨(mem_gpNeighbors hS g m).2 ⟨hm.2.1, hm.1⟩, hx, hm.2.2⟩)))
      · rcases h4 with h | h
        · exact Or.inl (by simp [h])
        · rcases List.mem_cons.1 h with rfl | h
          · exact Or.inl (by simp)
          · exact Or.inr (by simp [h])
      · intro a ha
        rcases List.mem_append.1 ha with ha | ha
        · exact List.mem_cons_of_mem _ (h5 a ha)
        · rw [List.mem_singleton.1 ha]; exact List.mem_cons_self

/-- What the neighbour loop of the main loop does. -/
theorem psNbrs_weak {S : List P3} (hS : (S.map P3.xy).Nodup) {p : P3} (hp : p ∈ S) {fuel : Nat}
    (hf : 17 * S.length + 10 ≤ fuel) : ∀ (ns : List P3) (ex : List Pt), (∀ n ∈ ns, n ∈ S ∧ Adj p.xy n.xy) →
    ∃ r, psNbrs (gpLookup S) fuel p ns ex = .ok r ∧
      (∀ q ∈ ex, q ∈ r.1) ∧ (∀ q ∈ r.1, q ∈ ex ∨ ∃ m, LevelReach S p m ∧ m.xy = q) ∧
      (∀ l, r.2 = .found l → (∃ n ∈ ns, n.e = p.e) ∧ ∀ m ∈ l, LevelReach S p m) ∧
      (r.2 = .open → ∀ n ∈ ns, n.e ≤ p.e)
  | [], ex, _ => ⟨_, rfl, fun _ h => h, fun _ h => Or.inl h, fun l h => (nomatch h), fun _ n h => (nomatch h)⟩
  | n :: ns, ex, hn => by
    have hn' : ∀ n ∈ ns, n ∈ S ∧ Adj p.xy n.xy := fun m hm => hn m (List.mem_cons_of_mem _ hm)
    rw [psNbrs]
    by_cases he : n.e = p.e
    · rw [if_pos he]
      obtain ⟨r, hr⟩ := psBlob_terminates hS fuel ex [p] [] (by simpa using hp) (by
        have := psLeft_le S ex
        have := psFlag_le ex [p]
        simp only [List.length_singleton]
        omega)
      obtain ⟨a, b, c⟩ := psBlob_weak hS p fuel ex [p] [] r (by simp [Relation.ReflTransGen.refl]) (by simp) hr
      rw [hr]
      obtain ⟨ex', o⟩ := r
      have rest : ∀ (hw : ∀ q ∈ ex, q ∈ ex') (hb : ∀ q ∈ ex', q ∈ ex ∨ ∃ m, LevelReach S p m ∧ m.xy = q),
          ∃ r, (if n.e > p.e then .ok (ex', PsEnd.higher) else psNbrs (gpLookup S) fuel p ns ex') = .ok r ∧
          (∀ q ∈ ex, q ∈ r.1) ∧ (∀ q ∈ r.1, q ∈ ex ∨ ∃ m, LevelReach S p m ∧ m.xy = q) ∧
          (∀ l, r.2 = .found l → (∃ x ∈ n :: ns, x.e = p.e) ∧ ∀ m ∈ l, LevelReach S p m) ∧
          (r.2 = .open → ∀ x ∈ n :: ns, x.e ≤ p.e) := by
        intro hw hb
        rw [if_neg (by rw [he]; exact lt_irrefl _)]
        obtain ⟨r, h0, h1, h2, h3, h4⟩ := psNbrs_weak hS hp hf ns ex' hn'
        refine ⟨r, h0, fun q hq => h1 q (hw q hq), fun q hq => ?_, fun l hl => ?_, fun ho x hx => ?_⟩
        · rcases h2 q hq with h | h
          · exact hb q h
          · exact Or.inr h
        · exact ⟨⟨n, List.mem_cons_self, he⟩, (h3 l hl).2⟩
        · rcases List.mem_cons.1 hx with rfl | hx
          · exact he.le
          · exact h4 ho x hx
      match o with
      | none => exact rest a b
      | some [] => exact rest a b
      | some (x :: l) =>
        refine ⟨(ex', .found (x :: l)), rfl, a, b, fun l' hl' => ?_, fun h => by cases h⟩
        cases hl'
        exact ⟨⟨n, List.mem_cons_self, he⟩, c _ rfl⟩
    · rw [if_neg he]
      by_cases hh : n.e > p.e
      · rw [if_pos hh]
        exact ⟨_, rfl, fun _ h => h, fun _ h => Or.inl h, fun l h => (nomatch h), fun h => (nomatch h)⟩
      · rw [if_neg hh]
        obtain ⟨r, h0, h1, h2, h3, h4⟩ := psNbrs_weak hS hp hf ns ex hn'
        refine ⟨r, h0, h1, h2, fun l hl => ?_, fun ho x hx => ?_⟩
        · obtain ⟨⟨x, hx, e⟩, y⟩ := h3 l hl
          exact ⟨⟨x, List.mem_cons_of_mem _ hx, e⟩, y⟩
        · rcases List.mem_cons.1 hx with rfl | hx
          · exact not_lt.1 hh
          · exact h4 ho x hx

/-- The neighbour loop on a point of an unexplored group without higher neighbour. -/
theorem psNbrs_full {S : List P3} (hS : (S.map P3.xy).Nodup) {p : P3} (hp : Pseudo S p) {fuel : Nat}
    {ex : List Pt} (hex : ∀ m, LevelReach S p m → m.xy ∈ ex → m = p) :
    ∀ (ns : List P3) (r : List Pt × PsEnd), (∀ n ∈ ns, n ∈ S ∧ Adj p.xy n.xy) →
    psNbrs (gpLookup S) fuel p ns ex = .ok r →
    ((∃ n ∈ ns, n.e = p.e) → ∃ l, r.2 = .found l ∧ ∀ m, LevelReach S p m → m ∈ l ∧ m.xy ∈ r.1) ∧
    ((∀ n ∈ ns, n.e ≠ p.e) → r.2 = .open)
  | [], r, _, h => by
    simp only [psNbrs, Except.ok.injEq] at h
    subst h
    exact ⟨fun ⟨n, h, _⟩ => (nomatch h), fun _ => rfl⟩
  | n :: ns, r, hn, h => by
    rw [psNbrs] at h
    have hle : ¬ n.e > p.e := by
      obtain ⟨a, b⟩ := hn n List.mem_cons_self
      exact not_lt.2 (hp.2 p .refl n a b)
    by_cases he : n.e = p.e
    · rw [if_pos he] at h
      refine ⟨fun _ => ?_, fun hc => absurd he (hc n List.mem_cons_self)⟩
      cases hb : psBlob (gpLookup S) fuel ex [p] [] with
      | error e => rw [hb] at h; cases h
      | ok o =>
        obtain ⟨ex', o⟩ := o
        obtain ⟨l', hl, hm⟩ := psBlob_full hS hp fuel ex [p] [] _ (by simp [Relation.ReflTransGen.refl])
          (fun m hm hx => Or.inr (by simp [hex m hm hx])) (by simp) (by simp) (by simp) hb
        rw [hb] at h
        dsimp only at hl
        subst hl
        cases l' with
        | nil => exact absurd (hm p .refl).1 (by simp)
        | cons a l =>
          cases h
          exact ⟨_, rfl, hm⟩
    · rw [if_neg he, if_neg hle] at h
      obtain ⟨a, b⟩ := psNbrs_full hS hp hex ns r (fun m hm => hn m (List.mem_cons_of_mem _ hm)) h
      refine ⟨fun ⟨x, hx, e⟩ => a ?_, fun hc => b fun x hx => hc x (List.mem_cons_of_mem _ hx)⟩
      rcases List.mem_cons.1 hx with rfl | hx
      · exact absurd e he
      · exact ⟨x, hx, e⟩

/-- Invariant of the main loop. -/
structure PsInv (S : List P3) (ex : List Pt) (out : List P3) : Prop where
  full : ∀ p, Pseudo S p → p.xy ∈ ex → ∀ q, LevelReach S p q → q.xy ∈ ex ∧ q ∈ out
  sound : ∀ p ∈ out, p ∈ S ∧ ((∃ n, LevelIn S p n) ∨ NoHigher S p)

theorem psMain_spec {S : List P3} (hS : (S.map P3.xy).Nodup) {fuel : Nat} (hf : 17 * S.length + 10 ≤ fuel) :
    ∀ (ps : List P3) (ex : List Pt) (out : List P3), (∀ p ∈ ps, p ∈ S) → PsInv S ex out →
    ∃ out', psMain (gpLookup S) fuel ps ex out = .ok out' ∧
      (∀ p ∈ out', p ∈ S ∧ ((∃ n, LevelIn S p n) ∨ NoHigher S p)) ∧
      ∀ p, Pseudo S p → p.xy ∈ ex ∨ p ∈ ps → p ∈ out'
  | [], ex, out, _, inv => ⟨out, rfl, inv.sound, fun p hp h => (inv.full p hp (by simpa using h) p .refl).2⟩
  | p :: ps, ex, out, hm, inv => by
    have hm' : ∀ p ∈ ps, p ∈ S := fun q hq => hm q (List.mem_cons_of_mem _ hq)
    have hp := hm p List.mem_cons_self
    rw [psMain]
    split
    · next hx =>
      obtain ⟨out', h1, h2, h3⟩ := psMain_spec hS hf ps ex out hm' inv
      refine ⟨out', h1, h2, fun q hq h => h3 q hq ?_⟩
      rcases h with h | h
      · exact Or.inl h
      · rcases List.mem_cons.1 h with rfl | h
        · exact Or.inl hx
        · exact Or.inr h
    · next hx =>
      have hn : ∀ n ∈ gpNeighbors (gpLookup S) p, n ∈ S ∧ Adj p.xy n.xy := fun n h => (mem_gpNeighbors hS p n).1 h
      obtain ⟨⟨ex', e⟩, h0, h1, h2, h3, h4⟩ := psNbrs_weak hS hp hf _ (p.xy :: ex) hn
      have hpseudo : ∀ hq : Pseudo S p, _ := fun hq => psNbrs_full hS hq (ex := p.xy :: ex) (fuel := fuel)
        (fun m hr hmx => by
          rcases List.mem_cons.1 hmx with e | hmx
          · exact eq_of_xy hS (hr.mem hp) hp e
          · exact absurd (inv.full m (hq.reach hr) hmx p (hr.symm hp)).1 hx) _ _ hn h0
      -- invariant for whatever is appended
      have step : ∀ l, (∀ q ∈ l, q ∈ S ∧ ((∃ n, LevelIn S q n) ∨ NoHigher S q)) →
          (∀ hq : Pseudo S p, ∀ m, LevelReach S p m → m.xy ∈ ex' ∧ m ∈ out ++ l) → PsInv S ex' (out ++ l) := by
        intro l hl hlp
        refine ⟨fun q hq hqx m hr => ?_, fun q hq => ?_⟩
        · have old : q.xy ∈ ex → m.xy ∈ ex' ∧ m ∈ out ++ l := fun h => by
            obtain ⟨a, b⟩ := inv.full q hq h m hr
            exact ⟨h1 _ (List.mem_cons_of_mem _ a), List.mem_append.2 (Or.inl b)⟩
          have new : LevelReach S p q → m.xy ∈ ex' ∧ m ∈ out ++ l := fun h =>
            hlp (hq.reach (h.symm hp)) m (h.trans hr)
          rcases h2 _ hqx with h | ⟨x, hx', e⟩
          · rcases List.mem_cons.1 h with h | h
            · exact new (by rw [eq_of_xy hS hq.1 hp h])
            · exact old h
          · rw [eq_of_xy hS (hx'.mem hp) hq.1 e] at hx'
            exact new hx'
        · rcases List.mem_append.1 hq with hq | hq
          · exact inv.sound q hq
          · exact hl q hq
      have fin : ∀ l, PsInv S ex' (out ++ l) → ∃ out', psMain (gpLookup S) fuel ps ex' (out ++ l) = .ok out' ∧
          (∀ p ∈ out', p ∈ S ∧ ((∃ n, LevelIn S p n) ∨ NoHigher S p)) ∧
          ∀ q, Pseudo S q → q.xy ∈ ex ∨ q ∈ p :: ps → q ∈ out' := by
        intro l hl
        obtain ⟨out', g1, g2, g3⟩ := psMain_spec hS hf ps ex' (out ++ l) hm' hl
        refine ⟨out', g1, g2, fun q hq h => g3 q hq ?_⟩
        rcases h with h | h
        · exact Or.inl (h1 _ (List.mem_cons_of_mem _ h))
        · rcases List.mem_cons.1 h with rfl | h
          · exact Or.inl (h1 _ List.mem_cons_self)
          · exact Or.inr h
      rw [h0]
      match e with
      | .found l =>
        obtain ⟨⟨n, hnn, hne⟩, hl⟩ := h3 l rfl
        refine fin l (step l (fun q hq => ⟨(hl q hq).mem hp, Or.inl ?_⟩) fun hq m hr => ?_)
        · have hr := hl q hq
          rcases Relation.ReflTransGen.cases_head (hr.symm hp) with e | ⟨c, hc, _⟩
          · subst e
            obtain ⟨a, b⟩ := hn n hnn
            exact ⟨n, b, a, hne⟩
          · exact ⟨c, hc⟩
        · obtain ⟨l', e, hl'⟩ := (hpseudo hq).1 ⟨n, hnn, hne⟩
          cases e
          exact ⟨(hl' m hr).2, List.mem_append.2 (Or.inr (hl' m hr).1)⟩
      | .higher =>
        have := fin [] (step [] (by simp) fun hq m hr => ?_)
        · simpa using this
        · by_cases hc : ∃ n ∈ gpNeighbors (gpLookup S) p, n.e = p.e
          · obtain ⟨l', e, _⟩ := (hpseudo hq).1 hc
            cases e
          · have := (hpseudo hq).2 fun n hn e => hc ⟨n, hn, e⟩
            cases this
      | .open =>
        refine fin [p] (step [p] (fun q hq => ?_) fun hq m hr => ?_)
        · rw [List.mem_singleton.1 hq]
          exact ⟨hp, Or.inr fun r hr ha => h4 rfl r ((mem_gpNeighbors hS p r).2 ⟨hr, ha⟩)⟩
        · by_cases hc : ∃ n ∈ gpNeighbors (gpLookup S) p, n.e = p.e
          · obtain ⟨l', e, _⟩ := (hpseudo hq).1 hc
            cases e
          · have : m = p := by
              rcases Relation.ReflTransGen.cases_head hr with e | ⟨c, hcc, _⟩
              · exact e.symm
              · exact absurd ⟨c, (mem_gpNeighbors hS p c).2 ⟨hcc.2.1, hcc.1⟩, hcc.2.2⟩ hc
            rw [this]
            exact ⟨h1 _ List.mem_cons_self, by simp⟩

theorem findPseudo_spec {S : List P3} (hS : (S.map P3.xy).Nodup) : ∃ out, findPseudoSummits S = .ok out ∧
    (∀ p ∈ out, p ∈ S ∧ ((∃ n, LevelIn S p n) ∨ NoHigher S p)) ∧ ∀ p, Pseudo S p → p ∈ out := by
  obtain ⟨out, h1, h2, h3⟩ := psMain_spec hS (le_refl _) S [] [] (fun _ h => h)
    ⟨fun _ _ h => (nomatch h), fun _ h => (nomatch h)⟩
  exact ⟨out, h1, h2, fun p hp => h3 p hp (Or.inr hp.1)⟩

/-! ### Sets without flat parts -/

theorem psNbrs_steep (lk : Pt → Option P3) (fuel : Nat) (p : P3) : ∀ (ns : List P3) (ex : List Pt),
    (∀ n ∈ ns, n.e ≠ p.e) →
    psNbrs lk fuel p ns ex = .ok (ex, if ∀ n ∈ ns, n.e ≤ p.e then .open else .higher)
  | [], ex, _ => by simp [psNbrs]
  | n :: ns, ex, h => by
    rw [psNbrs, if_neg (h n List.mem_cons_self)]
    split
    · next hh =>
      rw [if_neg]
      intro hc
      exact absurd hh (not_lt.2 (hc n List.mem_cons_self))
    · next hh =>
      rw [psNbrs_steep lk fuel p ns ex fun m hm => h m (List.mem_cons_of_mem _ hm)]
      congr 2
      simp [not_lt.1 hh]

theorem psMain_steep {S : List P3} (hS : (S.map P3.xy).Nodup) (hl : ∀ p ∈ S, ∀ n, ¬ LevelIn S p n) (fuel : Nat) :
    ∀ (ps : List P3) (ex : List Pt) (out : List P3), (∀ p ∈ ps, p ∈ S ∧ p.xy ∉ ex) → (ps.map P3.xy).Nodup →
    psMain (gpLookup S) fuel ps ex out = .ok (out ++ ps.filter fun p => decide (NoHigher S p))
  | [], ex, out, _, _ => by simp [psMain]
  | p :: ps, ex, out, h, hn => by
    obtain ⟨hp, hx⟩ := h p List.mem_cons_self
    simp only [List.map_cons, List.nodup_cons] at hn
    have hrec : ∀ q ∈ ps, q ∈ S ∧ q.xy ∉ p.xy :: ex := by
      intro q hq
      refine ⟨(h q (List.mem_cons_of_mem _ hq)).1, ?_⟩
      simp only [List.mem_cons, not_or]
      exact ⟨fun e => hn.1 (List.mem_map.2 ⟨q, hq, e⟩), (h q (List.mem_cons_of_mem _ hq)).2⟩
    rw [psMain, if_neg hx, psNbrs_steep _ _ _ _ _ fun n hnn e => by
      obtain ⟨a, b⟩ := (mem_gpNeighbors hS p n).1 hnn
      exact hl p hp n ⟨b, a, e⟩]
    have hiff : (∀ n ∈ gpNeighbors (gpLookup S) p, n.e ≤ p.e) ↔ NoHigher S p := by
      constructor
      · intro h r hr ha
        exact h r ((mem_gpNeighbors hS p r).2 ⟨hr, ha⟩)
      · intro h n hnn
        obtain ⟨a, b⟩ := (mem_gpNeighbors hS p n).1 hnn
        exact h n a b
    by_cases hh : NoHigher S p
    · simp only [hiff, hh, if_true]
      rw [psMain_steep hS hl fuel ps _ _ hrec hn.2]
      simp [hh]
    · simp only [hiff, hh, if_false]
      rw [psMain_steep hS hl fuel ps _ _ hrec hn.2]
      simp [hh]

end PyProm
