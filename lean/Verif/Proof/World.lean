import Verif.Spec.World
import Mathlib.Data.List.Induction

/-
Which container objects two maps can share.
-/
namespace PyProm
open Spec

/-- `G` is what the maps of `w` were given. -/
structure WorldInv (G : List (Comp → Bool)) (w : World) : Prop where
  five : 5 ≤ w.cells.length
  len : G.length = w.maps.length
  ref : ∀ (i : Nat) (m : Comp → Nat) (g : Comp → Bool), w.maps[i]? = some m → G[i]? = some g → ∀ c,
    m c < w.cells.length ∧ (g c = true → 5 ≤ m c) ∧ (g c = false → m c = c.default)
  own : ∀ (i j : Nat) (m n : Comp → Nat) (c d : Comp), w.maps[i]? = some m → w.maps[j]? = some n → 5 ≤ m c → m c = n d →
    i = j ∧ c = d

theorem Comp.default_lt (c : Comp) : c.default < 5 := by cases c <;> decide

theorem Comp.default_inj {c d : Comp} (h : c.default = d.default) : c = d := by
  cases c <;> cases d <;> first | rfl | (exact absurd h (by decide))

theorem Comp.all_get (c : Comp) : Comp.all[c.default]? = some c := by cases c <;> rfl

/-- A new assignment refers to new objects where it is given one. -/
theorem assign_true {w : World} {args : Comp → Option (List Nat)} {old : Comp → Nat} {c : Comp}
    (h : (args c).isSome = true) : w.assign args old c = w.cells.length + c.default := by
  simp [World.assign, h]

theorem assign_false {w : World} {args : Comp → Option (List Nat)} {old : Comp → Nat} {c : Comp}
    (h : (args c).isSome = false) : w.assign args old c = old c := by
  simp [World.assign, h]

theorem worldInv_start : WorldInv [] World.start :=
  ⟨by decide, rfl, fun i m g h => by simp [World.start] at h, fun i j m n c d h => by simp [World.start] at h⟩

theorem WorldInv.create {G : List (Comp → Bool)} {w : World} (h : WorldInv G w) (args : Comp → Option (List Nat)) :
    WorldInv (G ++ [fun c => (args c).isSome]) (w.step (.create args)) := by
  have hl : (w.step (.create args)).cells.length = w.cells.length + 5 := by simp [World.step, Comp.all]
  have hm : ∀ (i : Nat) (m : Comp → Nat), (w.step (.create args)).maps[i]? = some m →
      (w.maps[i]? = some m) ∨ (i = w.maps.length ∧ m = w.assign args Comp.default) := by
    intro i m e
    simp only [World.step, List.getElem?_append] at e
    split at e
    · exact .inl e
    · rename_i hi
      have : i - w.maps.length = 0 := by
        by_contra hne
        obtain ⟨k, hk⟩ := Nat.exists_eq_succ_of_ne_zero hne
        simp [hk] at e
      rw [this] at e
      simp at e
      exact .inr ⟨by omega, e.symm⟩
  have old : ∀ (i : Nat) (m : Comp → Nat) c, w.maps[i]? = some m → m c < w.cells.length := by
    intro i m c e
    have hi : i < G.length := by rw [h.len]; exact (List.getElem?_eq_some_iff.1 e).1
    exact (h.ref i m _ e (List.getElem?_eq_getElem hi) c).1
  have new : ∀ c, w.assign args Comp.default c = w.cells.length + c.default ∨
      w.assign args Comp.default c = c.default := by
    intro c
    cases e : (args c).isSome
    · exact .inr (assign_false e)
    · exact .inl (assign_true e)
  refine ⟨by rw [hl]; have := h.five; omega, by simp [World.step, h.len], ?_, ?_⟩
  · intro i m g e eg c
    rcases hm i m e with e1 | ⟨e1, e2⟩
    · have hi : i < G.length := by rw [h.len]; exact (List.getElem?_eq_some_iff.1 e1).1
      rw [List.getElem?_append_left hi] at eg
      obtain ⟨a, b⟩ := h.ref i m g e1 eg c
      exact ⟨by omega, b⟩
    · subst e1 e2
      rw [← h.len] at eg
      simp at eg
      subst eg
      have := c.default_lt
      have := h.five
      refine ⟨?_, fun t => ?_, fun t => assign_false t⟩
      · rcases new c with k | k <;> rw [k, hl] <;> omega
      · rw [assign_true t]; omega
  · intro i j m n c d em en h5 e
    rcases hm i m em with e1 | ⟨e1, e2⟩ <;> rcases hm j n en with f1 | ⟨f1, f2⟩
    · exact h.own i j m n c d e1 f1 h5 e
    · have := old i m c e1
      have := d.default_lt
      subst f2
      rcases new d with k | k <;> omega
    · have := old j n d f1
      have := c.default_lt
      subst e2
      rcases new c with k | k <;> omega
    · subst e2 f2
      have := c.default_lt
      have := d.default_lt
      have := h.five
      refine ⟨by omega, ?_⟩
      rcases new c with k | k <;> rcases new d with k' | k'
      · exact Comp.default_inj (by omega)
      · omega
      · omega
      · omega

theorem WorldInv.replace {G : List (Comp → Bool)} {w : World} (h : WorldInv G w) (i : Nat) (args : Comp → Option (List Nat)) :
    WorldInv (G.modify i fun g c => g c || (args c).isSome) (w.step (.replace i args)) := by
  rcases hi : w.maps[i]? with _ | m0
  · have hlt : w.maps.length ≤ i := by simpa using hi
    rw [List.modify_eq_self (by rw [h.len]; exact hlt)]
    simpa [World.step, hi] using h
  have hlt := (List.getElem?_eq_some_iff.1 hi).1
  have hs : w.step (.replace i args) =
      { cells := w.cells ++ Comp.all.map fun c => (args c).getD [], maps := w.maps.set i (w.assign args m0) } := by
    simp [World.step, hi]
  rw [hs]
  have hl : (w.cells ++ Comp.all.map fun c => (args c).getD []).length = w.cells.length + 5 := by simp [Comp.all]
  have hm : ∀ (j : Nat) (m : Comp → Nat), (w.maps.set i (w.assign args m0))[j]? = some m →
      (j ≠ i ∧ w.maps[j]? = some m) ∨ (j = i ∧ m = w.assign args m0) := by
    intro j m e
    rw [List.getElem?_set] at e
    split at e
    · rename_i hj
      subst hj
      exact .inr ⟨rfl, (Option.some.inj e).symm⟩
    · rename_i hj
      exact .inl ⟨fun t => hj t.symm, e⟩
  have old : ∀ (j : Nat) (m : Comp → Nat) c, w.maps[j]? = some m → m c < w.cells.length := by
    intro j m c e
    have hj : j < G.length := by rw [h.len]; exact (List.getElem?_eq_some_iff.1 e).1
    exact (h.ref j m _ e (List.getElem?_eq_getElem hj) c).1
  have new : ∀ c, w.assign args m0 c = w.cells.length + c.default ∨ w.assign args m0 c = m0 c := by
    intro c
    cases e : (args c).isSome
    · exact .inr (assign_false e)
    · exact .inl (assign_true e)
  refine ⟨by rw [hl]; have := h.five; omega, by simp [h.len], ?_, ?_⟩
  · intro j m g e eg c
    dsimp only
    rw [hl]
    rw [List.getElem?_modify] at eg
    rcases hm j m e with ⟨e0, e1⟩ | ⟨e1, e2⟩
    · obtain ⟨a, b⟩ := h.ref j m g e1 (by simpa [fun t : i = j => e0 t.symm, Ne.symm e0] using eg) c
      exact ⟨by omega, b⟩
    · subst e1 e2
      have hj : j < G.length := by rw [h.len]; exact hlt
      rw [List.getElem?_eq_getElem hj] at eg
      simp at eg
      subst eg
      obtain ⟨a, b, b'⟩ := h.ref j m0 _ hi (List.getElem?_eq_getElem hj) c
      have := c.default_lt
      have := h.five
      refine ⟨?_, fun t => ?_, fun t => ?_⟩
      · rcases new c with k | k <;> rw [k] <;> omega
      · cases ea : (args c).isSome
        · rw [assign_false ea]
          exact b (by simpa [ea] using t)
        · rw [assign_true ea]; omega
      · simp only [Bool.or_eq_false_iff] at t
        rw [assign_false t.2]
        exact b' t.1
  · intro j k m n c d em en h5 e
    have := c.default_lt
    have := d.default_lt
    rcases hm j m em with ⟨e0, e1⟩ | ⟨e1, e2⟩ <;> rcases hm k n en with ⟨f0, f1⟩ | ⟨f1, f2⟩
    · exact h.own j k m n c d e1 f1 h5 e
    · have := old j m c e1
      subst f2
      rcases new d with q | q
      · omega
      · exact absurd (h.own j i m m0 c d e1 hi h5 (by rw [e, q])).1 e0
    · have := old k n d f1
      subst e2
      rcases new c with q | q
      · omega
      · exact absurd (h.own i k m0 n c d hi f1 (by omega) (by omega)).1.symm f0
    · subst e2 f2
      have := old i m0 c hi
      have := old i m0 d hi
      refine ⟨by omega, ?_⟩
      rcases new c with q | q <;> rcases new d with q' | q'
      · exact Comp.default_inj (by omega)
      · omega
      · omega
      · exact (h.own i i m0 m0 c d hi hi (by omega) (by omega)).2

theorem WorldInv.edit {G : List (Comp → Bool)} {w : World} (h : WorldInv G w) (i : Nat) (c : Comp) (g : List Nat → List Nat) :
    WorldInv G (w.step (.edit i c g)) := by
  rcases hi : w.maps[i]? with _ | m0
  · simpa [World.step, hi] using h
  have hs : w.step (.edit i c g) = { w with cells := w.cells.modify (m0 c) g } := by simp [World.step, hi]
  rw [hs]
  exact ⟨by simpa using h.five, h.len, fun j m g' a b d => by simpa using h.ref j m g' a b d, h.own⟩

/-- After any history of calls. -/
theorem worldInv_steps (ops : List WorldOp) : WorldInv (given ops) (World.start.steps ops) := by
  induction ops using List.reverseRecOn with
  | nil => exact worldInv_start
  | append_singleton l op ih =>
    simp only [given, World.steps, List.foldl_append, List.foldl_cons, List.foldl_nil] at ih ⊢
    cases op with
    | create args => exact ih.create args
    | replace i args => exact ih.replace i args
    | edit i c g => exact ih.edit i c g

end PyProm
