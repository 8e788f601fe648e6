import Verif.Proof.Discovery
import Verif.Proof.DomainMap

/-
Sets that yield a chosen point as long as they hold it: the neighbourhood with that point begins with it.
-/
namespace PyProm
open Spec

/-- What a neighbourhood holds while it grows. -/
structure CnSt.Grown (seed : P3) (P : List P3) (s : CnSt) : Prop where
  points : ∀ p ∈ s.points, p ∈ P
  nodup : s.points.Nodup
  nbrs : ∃ l, s.neighbors = seed :: l ∧ ∀ p ∈ l, p ∈ P

theorem cnVisit_grown {seed : P3} {P : List P3} {s t : CnSt} {q : Pt} (h : s.Grown seed P) (e : cnVisit s q = .ok t) :
    t.Grown seed P := by
  unfold cnVisit at e
  split at e
  · cases e; exact h
  · split at e
    · cases e; exact h
    · split at e
      · cases e; exact h
      · dsimp only at e
        split at e
        · rename_i hm
          cases e
          obtain ⟨l, h1, h2⟩ := h.nbrs
          refine ⟨fun p hp => h.points p (List.mem_of_mem_erase hp), h.nodup.erase _, l ++ [_], by rw [h1]; rfl, fun p hp => ?_⟩
          rcases List.mem_append.1 hp with hp | hp
          · exact h2 p hp
          · rw [List.mem_singleton.1 hp]; exact h.points _ hm
        · cases e

theorem cnVisits_grown {seed : P3} {P : List P3} : ∀ (l : List Pt) (s t : CnSt), s.Grown seed P → l.foldlM cnVisit s = .ok t →
    t.Grown seed P
  | [], s, t, h, e => by rw [List.foldlM_nil] at e; cases e; exact h
  | q :: l, s, t, h, e => by
    rw [List.foldlM_cons] at e
    obtain ⟨s1, e1, e2⟩ := bind_ok e
    exact cnVisits_grown l s1 t (cnVisit_grown h e1) e2

theorem cnInner_grown {seed : P3} {P : List P3} : ∀ (n : Nat) (s t : CnSt), s.Grown seed P → cnInner n s = .ok t → t.Grown seed P
  | 0, _, _, _, e => by cases e
  | n + 1, s, t, h, e => by
    unfold cnInner at e
    split at e
    · cases e; exact h
    · rename_i rest _
      obtain ⟨s1, e1, e2⟩ := bind_ok e
      have h0 : CnSt.Grown seed P { s with stack := rest } := ⟨h.points, h.nodup, h.nbrs⟩
      exact cnInner_grown n s1 t (cnVisits_grown _ _ _ h0 e1) e2

theorem cnOuter_entry {X : P3} : ∀ (n : Nat) (points : List P3) (lookup : Pt → Option Rat) (L : List (List P3)), points.Nodup →
    cnOuter (fun l => l.idxOf X) n points lookup = .ok L →
    (∀ c ∈ L, ∀ p ∈ c, p ∈ points) ∧ ∀ c ∈ L, X ∈ c → c.head? = some X
  | 0, _, _, _, _, e => by cases e
  | n + 1, points, lookup, L, hn, e => by
    unfold cnOuter at e
    split at e
    · cases e; exact ⟨by simp, by simp⟩
    · rename_i seed hseed
      have hsm := List.mem_of_getElem? hseed
      obtain ⟨s, e1, e⟩ := bind_ok e
      obtain ⟨rest, e2, e⟩ := bind_ok e
      cases e
      have hg : s.Grown seed (points.erase seed) := cnInner_grown _ _ _ ⟨fun _ h => h, hn.erase _, [], rfl, by simp⟩ e1
      obtain ⟨i1, i2⟩ := cnOuter_entry n s.points s.lookup rest hg.nodup e2
      obtain ⟨l, n1, n2⟩ := hg.nbrs
      have hX : X ∈ points → seed = X := fun hm => by
        rw [Nat.mod_eq_of_lt (List.idxOf_lt_length_of_mem hm), List.getElem?_idxOf hm] at hseed
        exact (Option.some.inj hseed).symm
      refine ⟨fun c hc p hp => ?_, fun c hc hx => ?_⟩
      · rcases List.mem_cons.1 hc with rfl | hc
        · rw [n1] at hp
          rcases List.mem_cons.1 hp with rfl | hp
          · exact hsm
          · exact List.mem_of_mem_erase (n2 p hp)
        · exact List.mem_of_mem_erase (hg.points p (i1 c hc p hp))
      · rcases List.mem_cons.1 hc with rfl | hc
        · rw [n1] at hx ⊢
          rcases List.mem_cons.1 hx with rfl | hx
          · rfl
          · rw [hX (List.mem_of_mem_erase (n2 X hx))]; rfl
        · exact i2 c hc hx

theorem contiguous_entry {X : P3} {points : List P3} {L : List (List P3)}
    (h : contiguousNeighbors (fun l => l.idxOf X) points = .ok L) : ∀ c ∈ L, X ∈ c → c.head? = some X :=
  (cnOuter_entry _ _ _ _ (nodup_toSet points) h).2

/-- A runoff for a border stretch lists it beginning with `X`, if it lists `X`. -/
def EntersAt (X : P3) (f : Feature) : Prop :=
  f.kind = .runoff → f.multipoint = none → X ∈ f.edgePoints → f.edgePoints.head? = some X

/-- The sets of the search for border stretches yield `X` as long as they hold it. -/
def Oracle.entering (o : Oracle) (X : P3) : Oracle := ⟨fun _ l => l.idxOf X, o.cost⟩

theorem runoffBody_entry {X : P3} {d : DataMap} {o : Oracle} {h : Rat} {nbs high : List (List P3)} {s t : RunoffSt}
    {it : Nat × List Nat} (hn : ∀ c ∈ nbs, X ∈ c → c.head? = some X) (hs : ∀ f ∈ s.runoffs, EntersAt X f)
    (e : runoffBody d o h nbs high s it = .ok t) : ∀ f ∈ t.runoffs, EntersAt X f := by
  unfold runoffBody at e
  split at e
  · cases e; exact hs
  · split at e
    · split at e
      · cases e
      · rename_i nb hnb
        split at e
        · cases e
        · dsimp only at e
          obtain ⟨a, _, e⟩ := bind_ok e
          obtain ⟨r, _, e⟩ := bind_ok e
          cases e
          intro f hf
          rcases List.mem_append.1 hf with hf | hf
          · exact hs f hf
          · rw [List.mem_singleton.1 hf]
            exact fun _ _ hx => hn nb (List.mem_of_getElem? hnb) hx
    · cases e; exact hs

theorem runoffs_entry {X : P3} {d : DataMap} {o : Oracle} {h : Rat} {nbs high : List (List P3)}
    (hn : ∀ c ∈ nbs, X ∈ c → c.head? = some X) : ∀ (its : List (Nat × List Nat)) (s t : RunoffSt),
    (∀ f ∈ s.runoffs, EntersAt X f) → its.foldlM (runoffBody d o h nbs high) s = .ok t → ∀ f ∈ t.runoffs, EntersAt X f
  | [], s, t, hs, e => by rw [List.foldlM_nil] at e; cases e; exact hs
  | it :: its, s, t, hs, e => by
    rw [List.foldlM_cons] at e
    obtain ⟨s1, e1, e2⟩ := bind_ok e
    exact runoffs_entry hn its s1 t (runoffBody_entry hn hs e1) e2

theorem mkSaddle_entry (X : P3) (loc : Rat × Rat) (h : Rat) (mp : Option (List MPt)) (b : Bool) (ep : List P3)
    (hp : List (List P3)) : EntersAt X (mkSaddle loc h mp b ep hp) := fun hk => by simp [mkSaddle] at hk

theorem edge_entry {X : P3} {d : DataMap} {o : Oracle} {x y : Int} {h : Rat} {me : List P3} {mp : Option (List MPt)} {edge : Bool}
    {ep : List P3} {high : List (List P3)} {fs : List Feature} (hep : mp = none → X ∈ ep → ep.head? = some X)
    (e : edgeFeatureAnalysis d (o.entering X) x y h me mp edge ep high = .ok fs) : ∀ f ∈ fs, EntersAt X f := by
  unfold edgeFeatureAnalysis at e
  split at e
  · cases e; simp
  · dsimp only at e
    split at e
    · cases e
      intro f hf
      rw [List.mem_singleton.1 hf]
      exact fun _ hm hx => hep hm hx
    · obtain ⟨nb, _, e⟩ := bind_ok e
      obtain ⟨lo, _, e⟩ := bind_ok e
      split at e
      · split at e
        · cases e
          intro f hf
          rw [List.mem_singleton.1 hf]
          exact mkSaddle_entry _ _ _ _ _ _ _
        · cases e; simp
      · obtain ⟨en, h1, e⟩ := bind_ok e
        obtain ⟨s, h2, e⟩ := bind_ok e
        have hr := runoffs_entry (contiguous_entry h1) _ _ _ (by simp) h2
        split at e
        · split at e
          all_goals
            cases e
            intro f hf
            rcases List.mem_append.1 hf with hf | hf
            · exact hr f hf
            · rw [List.mem_singleton.1 hf]
              exact mkSaddle_entry _ _ _ _ _ _ _
        · cases e; exact hr

theorem logic_entry {X : P3} {d : DataMap} {o : Oracle} {x y : Int} {h : Rat} {pe me : List P3} {mp : Option (List MPt)} {edge : Bool}
    {ep : List P3} {fs : List Feature} (hep : mp = none → X ∈ ep → ep.head? = some X)
    (e : consolidatedFeatureLogic d (o.entering X) x y h pe me mp edge ep = .ok fs) : ∀ f ∈ fs, EntersAt X f := by
  unfold consolidatedFeatureLogic at e
  obtain ⟨high, _, e⟩ := bind_ok e
  dsimp only at e
  have hfirst : ∀ f ∈ (if high.isEmpty then [mkSummit (d.xyToLatLon x y) h mp edge ep]
      else if high.length > 1 ∧ edge = false then [mkSaddle (d.xyToLatLon x y) h mp edge ep high] else []), EntersAt X f := by
    intro f hf hk
    split at hf
    · rw [List.mem_singleton.1 hf] at hk; simp [mkSummit] at hk
    · split at hf
      · rw [List.mem_singleton.1 hf] at hk; simp [mkSaddle] at hk
      · cases hf
  split at e
  · obtain ⟨more, h1, e⟩ := bind_ok e
    cases e
    intro f hf
    rcases List.mem_append.1 hf with hf | hf
    · exact hfirst f hf
    · exact edge_entry hep h1 f hf
  · cases e; exact hfirst

theorem ss_entry {X : P3} {d : DataMap} {o : Oracle} {v v' : List Pt} {p : Pt} {h : Rat} {fs : List Feature}
    (e : summitAndSaddle d (o.entering X) v p h = .ok (fs, v')) : ∀ f ∈ fs, EntersAt X f := by
  unfold summitAndSaddle at e
  split at e
  · cases e; simp
  · dsimp only at e
    obtain ⟨r, _, e⟩ := bind_ok e
    cases r with
    | inl q =>
      dsimp only at e
      obtain ⟨⟨f1, mk⟩, h1, e⟩ := bind_ok e
      cases e
      unfold analyzeMultipoint at h1
      split at h1
      · cases h1
      · obtain ⟨f2, h2, h1⟩ := bind_ok h1
        cases h1
        exact logic_entry (fun c => by cases c) h2
    | inr acc =>
      dsimp only at e
      obtain ⟨f1, h1, e⟩ := bind_ok e
      cases e
      refine logic_entry (fun _ hx => ?_) h1
      split at hx
      · rename_i he
        rw [List.mem_singleton.1 hx, if_pos he]; rfl
      · cases hx

theorem analyzeLoop_entry {X : P3} {d : DataMap} {o : Pt → Oracle} : ∀ (ps v : List Pt) (fs : List Feature),
    analyzeLoop d (fun p => (o p).entering X) ps v = .ok fs → ∀ f ∈ fs, EntersAt X f
  | [], v, fs, e => by cases e; simp
  | p :: ps, v, fs, e => by
    unfold analyzeLoop at e
    split at e
    · exact analyzeLoop_entry ps v fs e
    · obtain ⟨⟨f1, v1⟩, h1, e⟩ := bind_ok e
      obtain ⟨rest, h2, e⟩ := bind_ok e
      cases e
      intro f hf
      rcases List.mem_append.1 hf with hf | hf
      · exact ss_entry h1 f hf
      · exact analyzeLoop_entry ps v1 rest h2 f hf

theorem analyze_entry {X : P3} {d : DataMap} {o : Pt → Oracle} {order : List Pt} {D : Discovered}
    (e : analyze d (fun p => (o p).entering X) order = .ok D) : ∀ f ∈ D.runoffs, EntersAt X f := by
  unfold analyze at e
  obtain ⟨fs, h, e⟩ := bind_ok e
  cases e
  exact fun f hf => analyzeLoop_entry _ _ _ h f (List.mem_filter.1 hf).1

end PyProm
