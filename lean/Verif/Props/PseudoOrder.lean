import Verif.Props.Containers

/-
C54: flats whose higher neighbours come first are always reported.
-/
namespace PyProm
open Spec

/-- In an unexplored group whose higher neighbours are all explored the blob loop finds the whole group. -/
theorem psBlob_hidden {S : List P3} (hS : (S.map P3.xy).Nodup) {p : P3} (hp : p ∈ S) :
    ∀ (n : Nat) (ex : List Pt) (st an : List P3) (r : List Pt × Option (List P3)),
    (∀ g, LevelReach S p g → ∀ q ∈ S, Adj g.xy q.xy → g.e < q.e → q.xy ∈ ex) →
    (∀ m ∈ st, LevelReach S p m) →
    (∀ m, LevelReach S p m → m.xy ∈ ex → m ∈ an ∨ m ∈ st) →
    (∀ a ∈ an, ∀ m, LevelIn S a m → m ∈ an ∨ m ∈ st) → (p ∈ an ∨ p ∈ st) →
    psBlob (gpLookup S) n ex st an = .ok r →
    ∃ l, r.2 = some l ∧ ∀ m, LevelReach S p m → m ∈ l
  | 0, ex, st, an, r, _, _, _, _, _, h => by simp [psBlob] at h
  | n + 1, ex, [], an, r, _, _, _, h3, h4, h => by
    simp only [psBlob, Except.ok.injEq] at h
    subst h
    refine ⟨an, rfl, fun m hm => ?_⟩
    induction hm with
    | refl => simpa using h4
    | tail _ hl ih => simpa using h3 _ ih _ hl
  | n + 1, ex, g :: rest, an, r, hh, h1, h2, h3, h4, h => by
    rw [psBlob] at h
    have hg := h1 g List.mem_cons_self
    cases hv : psVisit (g.xy :: ex) g (gpNeighbors (gpLookup S) g) rest with
    | none =>
      obtain ⟨m, hm, hx, hhi⟩ := psVisit_none _ _ _ _ hv
      obtain ⟨x1, x2⟩ := (mem_gpNeighbors hS g m).1 hm
      exact absurd (List.mem_cons_of_mem _ (hh g hg m x1 x2 hhi)) hx
    | some st' =>
      simp only [hv] at h
      obtain ⟨new, rfl, hn, _, _⟩ := psVisit_some _ _ _ _ _ hv
      have h2' : ∀ m, LevelReach S p m → m.xy ∈ g.xy :: ex → m ∈ an ++ [g] ∨ m ∈ new ++ rest := by
        intro m hm hx
        rcases List.mem_cons.1 hx with e | hx
        · have : m = g := eq_of_xy hS (hm.mem hp) (hg.mem hp) e
          exact Or.inl (by simp [this])
        · rcases h2 m hm hx with h | h
          · exact Or.inl (by simp [h])
          · rcases List.mem_cons.1 h with rfl | h
            · exact Or.inl (by simp)
            · exact Or.inr (by simp [h])
      refine psBlob_hidden hS hp n _ _ _ r (fun a ha q hq hadj hlt => List.mem_cons_of_mem _ (hh a ha q hq hadj hlt))
        (fun m hm => ?_) h2' ?_ ?_ h
      · rcases List.mem_append.1 hm with hm | hm
        · obtain ⟨x, _, y⟩ := (hn m).1 hm
          obtain ⟨x1, x2⟩ := (mem_gpNeighbors hS g m).1 x
          exact hg.tail ⟨x2, x1, y⟩
        · exact h1 m (List.mem_cons_of_mem _ hm)
      · intro a ha m hm
        rcases List.mem_append.1 ha with ha | ha
        · rcases h3 a ha m hm with h | h
          · exact Or.inl (by simp [h])
          · rcases List.mem_cons.1 h with rfl | h
            · exact Or.inl (by simp)
            · exact Or.inr (by simp [h])
        · rw [List.mem_singleton.1 ha] at hm
          by_cases hx : m.xy ∈ g.xy :: ex
          · exact h2' m (hg.tail hm) hx
          · exact Or.inr (List.mem_append.2 (Or.inl ((hn m).2
              ⟨(mem_gpNeighbors hS g m).2 ⟨hm.2.1, hm.1⟩, hx, hm.2.2⟩)))
      · rcases h4 with h | h
        · exact Or.inl (by simp [h])
        · rcases List.mem_cons.1 h with rfl | h
          · exact Or.inl (by simp)
          · exact Or.inr (by simp [h])

/-- The neighbour loop on a point without higher neighbours, in such a group. -/
theorem psNbrs_hidden {S : List P3} (hS : (S.map P3.xy).Nodup) {p : P3} (hp : p ∈ S) {fuel : Nat} {ex : List Pt}
    (hh : ∀ g, LevelReach S p g → ∀ q ∈ S, Adj g.xy q.xy → g.e < q.e → q.xy ∈ ex)
    (hex : ∀ m, LevelReach S p m → m.xy ∈ ex → m = p) :
    ∀ (ns : List P3) (r : List Pt × PsEnd), (∀ n ∈ ns, n.e ≤ p.e) → (∃ n ∈ ns, n.e = p.e) →
    psNbrs (gpLookup S) fuel p ns ex = .ok r → ∃ l, r.2 = .found l ∧ ∀ m, LevelReach S p m → m ∈ l
  | [], _, _, hc, _ => by obtain ⟨_, h, _⟩ := hc; cases h
  | n :: ns, r, hn, hc, h => by
    rw [psNbrs] at h
    by_cases he : n.e = p.e
    · rw [if_pos he] at h
      cases hb : psBlob (gpLookup S) fuel ex [p] [] with
      | error e => rw [hb] at h; cases h
      | ok o =>
        obtain ⟨ex', o⟩ := o
        obtain ⟨l', hl, hm⟩ := psBlob_hidden hS hp fuel ex [p] [] _ hh (by simp [Relation.ReflTransGen.refl])
          (fun m hm hx => Or.inr (by simp [hex m hm hx])) (by simp) (by simp) hb
        rw [hb] at h
        dsimp only at hl
        subst hl
        cases l' with
        | nil => exact absurd (hm p .refl) (by simp)
        | cons a l =>
          cases h
          exact ⟨_, rfl, hm⟩
    · rw [if_neg he, if_neg (not_lt.2 (hn n (by simp)))] at h
      refine psNbrs_hidden hS hp hh hex ns r (fun m hm => hn m (by simp [hm])) ?_ h
      obtain ⟨x, hx, e⟩ := hc
      rcases List.mem_cons.1 hx with rfl | hx
      · exact absurd e he
      · exact ⟨x, hx, e⟩

/-- The main loop only adds to its result. -/
theorem psMain_adds (lk : Pt → Option P3) (fuel : Nat) : ∀ (ps : List P3) (ex : List Pt) (out out' : List P3),
    psMain lk fuel ps ex out = .ok out' → ∀ q ∈ out, q ∈ out'
  | [], _, _, _, h => by cases h; exact fun _ h => h
  | p :: ps, ex, out, out', h => by
    rw [psMain] at h
    split at h
    · exact psMain_adds lk fuel ps _ _ _ h
    · split at h
      · cases h
      · exact fun q hq => psMain_adds lk fuel ps _ _ _ h q (List.mem_append_left _ hq)
      · exact psMain_adds lk fuel ps _ _ _ h
      · exact fun q hq => psMain_adds lk fuel ps _ _ _ h q (List.mem_append_left _ hq)

/-- The main loop explores what it passes, and only that and what is reached from there at one height. -/
theorem psMain_prefix {S : List P3} (hS : (S.map P3.xy).Nodup) {fuel : Nat} (hf : 17 * S.length + 10 ≤ fuel) (rest : List P3) :
    ∀ (pre : List P3) (ex : List Pt) (out : List P3), (∀ p ∈ pre, p ∈ S) →
    ∃ ex' out', psMain (gpLookup S) fuel (pre ++ rest) ex out = psMain (gpLookup S) fuel rest ex' out' ∧
      (∀ q ∈ ex, q ∈ ex') ∧ (∀ q ∈ pre, q.xy ∈ ex') ∧
      ∀ q ∈ ex', q ∈ ex ∨ ∃ p ∈ pre, ∃ m, LevelReach S p m ∧ m.xy = q
  | [], ex, out, _ => ⟨ex, out, rfl, fun _ h => h, by simp, fun _ h => .inl h⟩
  | p :: pre, ex, out, hm => by
    have hm' : ∀ p ∈ pre, p ∈ S := fun q hq => hm q (List.mem_cons_of_mem _ hq)
    have hp := hm p List.mem_cons_self
    rw [List.cons_append, psMain]
    split
    · next hx =>
      obtain ⟨ex', out', h1, h2, h3, h4⟩ := psMain_prefix hS hf rest pre ex out hm'
      refine ⟨ex', out', h1, h2, fun q hq => ?_, fun q hq => ?_⟩
      · rcases List.mem_cons.1 hq with rfl | hq
        · exact h2 _ hx
        · exact h3 q hq
      · rcases h4 q hq with h | ⟨p', h, r⟩
        · exact .inl h
        · exact .inr ⟨p', List.mem_cons_of_mem _ h, r⟩
    · next hx =>
      obtain ⟨⟨ex1, e⟩, h0, h1, h2, _⟩ := psNbrs_weak hS hp hf _ (p.xy :: ex) (fun n h => (mem_gpNeighbors hS p n).1 h)
      have fin : ∀ o, ∃ ex' out', psMain (gpLookup S) fuel (pre ++ rest) ex1 o = psMain (gpLookup S) fuel rest ex' out' ∧
          (∀ q ∈ ex, q ∈ ex') ∧ (∀ q ∈ p :: pre, q.xy ∈ ex') ∧
          ∀ q ∈ ex', q ∈ ex ∨ ∃ p' ∈ p :: pre, ∃ m, LevelReach S p' m ∧ m.xy = q := by
        intro o
        obtain ⟨ex', out', g1, g2, g3, g4⟩ := psMain_prefix hS hf rest pre ex1 o hm'
        refine ⟨ex', out', g1, fun q hq => g2 q (h1 q (List.mem_cons_of_mem _ hq)), fun q hq => ?_, fun q hq => ?_⟩
        · rcases List.mem_cons.1 hq with rfl | hq
          · exact g2 _ (h1 _ List.mem_cons_self)
          · exact g3 q hq
        · rcases g4 q hq with h | ⟨p', h, r⟩
          · rcases h2 q h with h | ⟨m, hm1, hm2⟩
            · rcases List.mem_cons.1 h with rfl | h
              · exact .inr ⟨p, List.mem_cons_self, p, .refl, rfl⟩
              · exact .inl h
            · exact .inr ⟨p, List.mem_cons_self, m, hm1, hm2⟩
          · exact .inr ⟨p', List.mem_cons_of_mem _ h, r⟩
      rw [h0]
      match e with
      | .found l => exact fin _
      | .higher => exact fin _
      | .open => exact fin _

/-- C54 fails for every flat whose higher neighbours all come before it in the container, if its first member touches none of
them and the flat has a second member: all of the flat is reported, however high its neighbours are. -/
theorem C54_every_later_refuted (S pre post : List P3) (p : P3) (hS : (S.map P3.xy).Nodup) (hs : S = pre ++ p :: post)
    (hfirst : ∀ q ∈ pre, ¬ LevelReach S p q) (hp : NoHigher S p) (hl : ∃ n, LevelIn S p n)
    (hh : ∀ g, LevelReach S p g → ∀ q ∈ S, Adj g.xy q.xy → g.e < q.e → q ∈ pre) :
    ∃ out, findPseudoSummits S = .ok out ∧ (∀ q, LevelReach S p q → q ∈ out) ∧
      ((∃ q, LevelReach S p q ∧ ¬ NoHigher S q) → ¬ Pseudo S p) := by
  have hpS : p ∈ S := by rw [hs]; simp
  obtain ⟨out, h1, _⟩ := findPseudo_spec hS
  refine ⟨out, h1, ?_, fun ⟨q, hq, hn⟩ h => hn (h.2 q hq)⟩
  unfold findPseudoSummits at h1
  obtain ⟨ex, o, g1, _, g3, g4⟩ := psMain_prefix hS (le_refl _) (p :: post) pre [] []
    (fun q hq => by rw [hs]; simp [hq])
  rw [← hs] at g1
  rw [g1] at h1
  have hun : ∀ m, LevelReach S p m → m.xy ∉ ex := by
    intro m hm hx
    rcases g4 _ hx with h | ⟨q, hq, m', hm', e⟩
    · cases h
    · have hqS : q ∈ S := by rw [hs]; simp [hq]
      have : m' = m := eq_of_xy hS (hm'.mem hqS) (hm.mem hpS) e
      subst this
      exact hfirst q hq (hm.trans (hm'.symm hqS))
  rw [psMain, if_neg (hun p .refl)] at h1
  split at h1
  · cases h1
  all_goals
    rename_i heq
    obtain ⟨l, e, hall⟩ := psNbrs_hidden hS hpS (fuel := 17 * S.length + 10) (ex := p.xy :: ex)
      (fun g hg q hq ha hlt => List.mem_cons_of_mem _ (g3 q (hh g hg q hq ha hlt)))
      (fun m hm hx => by
        rcases List.mem_cons.1 hx with e | hx
        · exact eq_of_xy hS (hm.mem hpS) hpS e
        · exact absurd hx (hun m hm)) _ _
      (fun n hn => by
        obtain ⟨a, b⟩ := (mem_gpNeighbors hS p n).1 hn
        exact hp n a b)
      (by
        obtain ⟨n, ha, hn, e⟩ := hl
        exact ⟨n, (mem_gpNeighbors hS p n).2 ⟨hn, ha⟩, e⟩) heq
    cases e
  exact fun q hq => psMain_adds _ _ _ _ _ _ h1 q (List.mem_append_right _ (hall q hq))

/-- Instance: a row in which the higher point comes first. -/
example : ∃ out, findPseudoSummits [⟨0, 2, 3⟩, ⟨0, 0, 2⟩, ⟨0, 1, 2⟩] = .ok out ∧ (⟨0, 1, 2⟩ : P3) ∈ out ∧
    ¬ Pseudo [⟨0, 2, 3⟩, ⟨0, 0, 2⟩, ⟨0, 1, 2⟩] ⟨0, 0, 2⟩ := by
  have hL : LevelIn [⟨0, 2, 3⟩, ⟨0, 0, 2⟩, ⟨0, 1, 2⟩] ⟨0, 0, 2⟩ ⟨0, 1, 2⟩ := by
    unfold LevelIn; decide +kernel
  obtain ⟨out, h1, h2, h3⟩ := C54_every_later_refuted [⟨0, 2, 3⟩, ⟨0, 0, 2⟩, ⟨0, 1, 2⟩] [⟨0, 2, 3⟩] [⟨0, 1, 2⟩] ⟨0, 0, 2⟩
    (by decide +kernel) rfl
    (fun q hq h => by
      rw [List.mem_singleton.1 hq] at h
      exact absurd h.elev (by decide +kernel))
    (by decide +kernel) ⟨_, hL⟩
    (fun g hg q hq _ hlt => by
      rw [hg.elev] at hlt
      simp only [List.mem_cons, List.not_mem_nil, or_false] at hq ⊢
      rcases hq with rfl | rfl | rfl
      · rfl
      · exact absurd hlt (by decide +kernel)
      · exact absurd hlt (by decide +kernel))
  exact ⟨out, h1, h2 _ (.single hL), h3 ⟨⟨0, 1, 2⟩, .single hL, by decide +kernel⟩⟩

end PyProm
