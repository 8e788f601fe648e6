import Verif.Spec.Network
import Verif.Proof.DomainMap
import Mathlib.Data.List.Nodup

/-
Proofs about basin saddle detection
-/
namespace PyProm
open Spec

/-! ### Basics -/

theorem saddleDisq_iff (f : Flags) (k : Nat) : f.saddleDisq k = true ↔ SaddleOut f k := by
  unfold Flags.saddleDisq SaddleOut
  cases h : f.over k with
  | none => simp
  | some b => cases b <;> simp

theorem alive_iff (N : FNet) (f : Flags) (n : Node) : N.dead f n = false ↔ Alive N f n := by
  cases n with
  | summit D => simp [FNet.dead, FNet.disq, Alive]
  | saddle k =>
    simp only [FNet.dead, FNet.disq, Alive, Bool.or_eq_false_iff, ← saddleDisq_iff, Bool.not_eq_true]

theorem dead_iff (N : FNet) (f : Flags) (n : Node) : N.dead f n = true ↔ ¬ Alive N f n := by
  rw [← alive_iff]; simp

theorem mem_nbrs {N : FNet} {saddles : List Nat} {f : Flags} (h : NetOk N saddles f) (a b : Node)
    (hs : ∀ k, a = .saddle k ∨ b = .saddle k → N.edge (.saddle k) = false) :
    b ∈ N.nbrs a ↔ Joined N a b := by
  cases a with
  | summit D =>
    cases b with
    | summit D' => simp [FNet.nbrs, Joined]
    | saddle k =>
      simp only [FNet.nbrs, Joined, List.mem_map, Node.saddle.injEq, Linked]
      constructor
      · rintro ⟨i, hi, rfl⟩
        obtain ⟨h1, h2⟩ := h.sum D i hi (hs _ (.inr rfl))
        exact ⟨i, h2, h1⟩
      · rintro ⟨i, hi, rfl⟩
        obtain ⟨h1, h2⟩ := h.sad k (hs k (.inr rfl)) i hi
        exact ⟨i, h2, h1⟩
  | saddle k =>
    cases b with
    | summit D => simp [FNet.nbrs, Joined, Linked]
    | saddle k' => simp [FNet.nbrs, Joined]

theorem nbrs_ne (N : FNet) {a b : Node} (h : b ∈ N.nbrs a) : b ≠ a := by
  rintro rfl
  cases b <;> simp [FNet.nbrs] at h

theorem Spec.Alive.edge {N : FNet} {f : Flags} {k : Nat} (h : Alive N f (.saddle k)) :
    N.edge (.saddle k) = false := h.2

theorem Spec.Joined.symm {N : FNet} {a b : Node} (h : Joined N a b) : Joined N b a := by
  cases a <;> cases b <;> exact h

theorem Spec.Joined.ne {N : FNet} {a b : Node} (h : Joined N a b) : a ≠ b := by
  rintro rfl
  cases a <;> exact h

/-! ### Lowest members -/

/-- `find_lowest_cycle_members` on a list without repetition. -/
theorem lowestFold_spec (elev : Node → Rat) : ∀ (done : List Node) (low : Node) (more rest : List Node),
    (done ++ rest).Nodup → low :: more = done.filter (fun n => decide (elev n = elev low)) →
    (∀ n ∈ done, elev low ≤ elev n) →
    ∃ l ls, rest.foldl (lowestStep elev) (low :: more) = l :: ls ∧
      l :: ls = (done ++ rest).filter (fun n => decide (elev n = elev l)) ∧
      ∀ n ∈ done ++ rest, elev l ≤ elev n := by
  intro done low more rest
  induction rest generalizing done low more with
  | nil => intro _ h1 h2; exact ⟨low, more, rfl, by simpa using h1, by simpa using h2⟩
  | cons n rest ih =>
    intro hn h1 h2
    have hn' : ((done ++ [n]) ++ rest).Nodup := by simpa using hn
    have hlow : low ∈ done := by
      have : low ∈ low :: more := by simp
      rw [h1] at this
      exact (List.mem_filter.1 this).1
    have hne : n ≠ low := by
      rintro rfl
      rw [List.nodup_append] at hn
      exact hn.2.2 n hlow n (by simp) rfl
    rw [List.foldl_cons]
    by_cases he : elev n = elev low
    · have hs : lowestStep elev (low :: more) n = low :: (more ++ [n]) := by
        simp [lowestStep, he, hne]
      rw [hs]
      have := ih (done ++ [n]) low (more ++ [n]) hn' (by
        rw [List.filter_append, ← h1]; simp [he]) (by
        intro m hm
        rcases List.mem_append.1 hm with hm | hm
        · exact h2 m hm
        · rw [List.mem_singleton.1 hm, he])
      simpa using this
    · by_cases hlt : elev n < elev low
      · have hs : lowestStep elev (low :: more) n = [n] := by
          simp [lowestStep, he, hlt]
        rw [hs]
        have := ih (done ++ [n]) n [] hn' (by
          rw [List.filter_append, List.filter_eq_nil_iff.2]
          · simp
          · intro m hm
            have := h2 m hm
            simp only [decide_eq_true_eq]
            exact fun e => absurd (lt_of_lt_of_le hlt this) (by rw [e]; exact lt_irrefl _)) (by
          intro m hm
          rcases List.mem_append.1 hm with hm | hm
          · exact le_trans (le_of_lt hlt) (h2 m hm)
          · rw [List.mem_singleton.1 hm])
        simpa using this
      · have hs : lowestStep elev (low :: more) n = low :: more := by
          simp [lowestStep, he, hlt]
        rw [hs]
        have := ih (done ++ [n]) low more hn' (by
          rw [List.filter_append, ← h1]; simp [he]) (by
          intro m hm
          rcases List.mem_append.1 hm with hm | hm
          · exact h2 m hm
          · rw [List.mem_singleton.1 hm]; exact not_lt.1 hlt)
        simpa using this

theorem findLowest_spec (elev : Node → Rat) (c : List Node) (hc : c ≠ []) (hn : c.Nodup) :
    ∃ l ls, findLowest elev c = l :: ls ∧
      l :: ls = c.filter (fun n => decide (elev n = elev l)) ∧ ∀ n ∈ c, elev l ≤ elev n := by
  cases c with
  | nil => exact absurd rfl hc
  | cons a c =>
    have hs : lowestStep elev [a] a = [a] := by simp [lowestStep]
    have : findLowest elev (a :: c) = c.foldl (lowestStep elev) [a] := by
      simp [findLowest, hs]
    rw [this]
    exact lowestFold_spec elev [a] a [] c hn (by simp) (by simp)

/-- The first lowest member splits the list: before it everything is strictly higher. -/
theorem findLowest_split (elev : Node → Rat) (c : List Node) (hc : c ≠ []) (hn : c.Nodup) :
    ∃ pre y post ls, c = pre ++ y :: post ∧ findLowest elev c = y :: ls ∧
      (∀ n ∈ pre, elev y < elev n) ∧ ∀ n ∈ post, elev y ≤ elev n := by
  obtain ⟨l, ls, h1, h2, h3⟩ := findLowest_spec elev c hc hn
  obtain ⟨pre, post, hp, hpre, _, _⟩ := List.filter_eq_cons_iff.1 h2.symm
  refine ⟨pre, l, post, ls, hp, h1, fun n hm => ?_, fun n hm => h3 n (by rw [hp]; simp [hm])⟩
  have := hpre n hm
  simp only [decide_eq_true_eq] at this
  exact lt_of_le_of_ne (h3 n (by rw [hp]; simp [hm])) fun e => this e.symm

/-! ### Order of expansion -/

/-- `j` was expanded, and before `y` unless `y` was not expanded; `exp` has the last one first. -/
def Older (exp : List Node) (j y : Node) : Prop := ∃ l1 l2, exp = l1 ++ j :: l2 ∧ y ∉ j :: l2

theorem Older.mem {exp : List Node} {j y : Node} (h : Older exp j y) : j ∈ exp := by
  obtain ⟨l1, l2, rfl, _⟩ := h; simp

theorem Older.cons {exp : List Node} {j y : Node} (n : Node) (h : Older exp j y) : Older (n :: exp) j y := by
  obtain ⟨l1, l2, rfl, h⟩ := h
  exact ⟨n :: l1, l2, rfl, h⟩

theorem suffix_cases {α : Type} {l1 l2 m1 m2 : List α} {a b : α} (h : l1 ++ a :: l2 = m1 ++ b :: m2) :
    (∃ t, a :: l2 = t ++ b :: m2) ∨ ∃ t, b :: m2 = t ++ a :: l2 := by
  rcases List.append_eq_append_iff.1 h with ⟨t, _, h2⟩ | ⟨t, _, h2⟩
  · exact .inl ⟨t, h2⟩
  · exact .inr ⟨t, h2⟩

theorem Older.trans {exp : List Node} {j x y : Node} (h1 : Older exp j x) (h2 : Older exp x y) :
    Older exp j y := by
  obtain ⟨l1, l2, e1, hx⟩ := h1
  obtain ⟨m1, m2, e2, hy⟩ := h2
  refine ⟨l1, l2, e1, ?_⟩
  rcases suffix_cases (e1.symm.trans e2) with ⟨t, ht⟩ | ⟨t, ht⟩
  · exact absurd (by rw [ht]; simp) hx
  · intro hm
    exact hy (by rw [ht]; exact List.mem_append_right _ hm)

theorem Older.asymm {exp : List Node} {j y : Node} (h1 : Older exp j y) (h2 : Older exp y j) : False := by
  obtain ⟨l1, l2, e1, hx⟩ := h1.trans h2
  exact hx (by simp)

/-- `j` ranks above `y`: higher, or equally high and expanded before. -/
def Above (elev : Node → Rat) (exp : List Node) (j y : Node) : Prop :=
  elev y < elev j ∨ (elev y = elev j ∧ Older exp j y)

theorem Above.le {elev : Node → Rat} {exp : List Node} {j y : Node} (h : Above elev exp j y) :
    elev y ≤ elev j := h.elim le_of_lt fun h => le_of_eq h.1

theorem Above.cons {elev : Node → Rat} {exp : List Node} {j y : Node} (n : Node)
    (h : Above elev exp j y) : Above elev (n :: exp) j y :=
  h.imp id fun h => ⟨h.1, h.2.cons n⟩

theorem Above.trans {elev : Node → Rat} {exp : List Node} {j x y : Node} (h1 : Above elev exp j x)
    (h2 : Above elev exp x y) : Above elev exp j y := by
  rcases h1 with h1 | ⟨e1, h1⟩
  · exact .inl (lt_of_le_of_lt h2.le h1)
  · rcases h2 with h2 | ⟨e2, h2⟩
    · exact .inl (by rw [← e1]; exact h2)
    · exact .inr ⟨e2.trans e1, h1.trans h2⟩

theorem Above.asymm {elev : Node → Rat} {exp : List Node} {j y : Node} (h1 : Above elev exp j y)
    (h2 : Above elev exp y j) : False := by
  rcases h1.trans h2 with h | ⟨_, h⟩
  · exact lt_irrefl _ h
  · exact h.asymm h

/-! ### Connection over saddles -/

theorem conn_bind {N : FNet} {Q P Q' P' : Nat → Prop}
    (hP : ∀ k a b, P k → Linked N k a → Linked N k b → Q a → Q b → ConnectedBy N Q' P' a b) {a b : Nat}
    (h : ConnectedBy N Q P a b) : ConnectedBy N Q' P' a b := by
  induction h with
  | refl => exact .refl
  | tail _ h2 ih =>
    obtain ⟨q1, q2, k, hk, l1, l2⟩ := h2
    exact ih.trans (hP k _ _ hk l1 l2 q1 q2)

theorem conn_hop {N : FNet} {Q P : Nat → Prop} {k a b : Nat} (hk : P k) (h1 : Linked N k a)
    (h2 : Linked N k b) (q1 : Q a) (q2 : Q b) : ConnectedBy N Q P a b :=
  .single ⟨q1, q2, k, hk, h1, h2⟩

theorem conn_mono {N : FNet} {Q P Q' P' : Nat → Prop} (hQ : ∀ a, Q a → Q' a) (hP : ∀ k, P k → P' k)
    {a b : Nat} (h : ConnectedBy N Q P a b) : ConnectedBy N Q' P' a b :=
  conn_bind (fun _ _ _ hk h1 h2 q1 q2 => conn_hop (hP _ hk) h1 h2 (hQ _ q1) (hQ _ q2)) h

theorem conn_symm {N : FNet} {Q P : Nat → Prop} {a b : Nat} (h : ConnectedBy N Q P a b) :
    ConnectedBy N Q P b a := by
  induction h with
  | refl => exact .refl
  | tail _ h2 ih =>
    obtain ⟨q1, q2, k, hk, l1, l2⟩ := h2
    exact (conn_hop hk l2 l1 q2 q1).trans ih

/-- Where a walk through the network has got to, seen from summit `a`. -/
def At (N : FNet) (Q P : Nat → Prop) (a : Nat) : Node → Prop
  | .summit D => ConnectedBy N Q P a D ∧ Q D
  | .saddle k => ∃ D, Linked N k D ∧ Q D ∧ ConnectedBy N Q P a D

/-- A chain of features connects summits if each saddle on it can be crossed. -/
theorem chain_conn {N : FNet} {Q P : Nat → Prop} {a : Nat} : ∀ (l : List Node) (n : Node),
    (n :: l).IsChain (Joined N) → (∀ D, Node.summit D ∈ n :: l → Q D) →
    (∀ k, Node.saddle k ∈ n :: l → ∀ u v, Linked N k u → Linked N k v → Q u → Q v →
      ConnectedBy N Q P u v) →
    At N Q P a n → ∀ m ∈ n :: l, At N Q P a m := by
  intro l
  induction l with
  | nil => intro n _ _ _ h m hm; rw [List.mem_singleton.1 hm]; exact h
  | cons n' l ih =>
    intro n hc hQ hX hn m hm
    rcases List.mem_cons.1 hm with rfl | hm
    · exact hn
    · rw [List.isChain_cons_cons] at hc
      refine ih n' hc.2 (fun D hD => hQ D (List.mem_cons_of_mem _ hD))
        (fun k hk => hX k (List.mem_cons_of_mem _ hk)) ?_ m hm
      cases n with
      | summit D =>
        cases n' with
        | summit D' => exact hc.1.elim
        | saddle k => exact ⟨D, hc.1, hn.2, hn.1⟩
      | saddle k =>
        cases n' with
        | summit D' =>
          obtain ⟨D, h1, h2, h3⟩ := hn
          have hq := hQ D' (by simp)
          exact ⟨h3.trans (hX k (by simp) _ _ h1 hc.1 h2 hq), hq⟩
        | saddle k' => exact hc.1.elim

/-! ### Cycles -/

theorem linked_two {N : FNet} {k A B u : Nat} (h2 : (N.sadLinks k).length ≤ 2) (hA : Linked N k A)
    (hB : Linked N k B) (hne : A ≠ B) (hu : Linked N k u) : u = A ∨ u = B := by
  obtain ⟨i, hi, rfl⟩ := hA
  obtain ⟨j, hj, rfl⟩ := hB
  obtain ⟨l, hl, rfl⟩ := hu
  have hij : i ≠ j := fun e => hne (by rw [e])
  generalize N.sadLinks k = L at *
  match L, h2 with
  | [], _ => simp at hi
  | [x], _ =>
    rw [List.mem_singleton] at hi hj
    exact absurd (hi.trans hj.symm) hij
  | [x, y], _ =>
    simp only [List.mem_cons, List.not_mem_nil, or_false] at hi hj hl
    rcases hi with rfl | rfl <;> rcases hj with rfl | rfl <;> rcases hl with rfl | rfl <;> simp_all

/-- What is left of a cycle without one member: a chain that starts and ends next to it. -/
theorem cycle_open {N : FNet} {P : Node → Prop} {pre post : List Node} {y : Node}
    (h : Cycle N P (pre ++ y :: post)) :
    ∃ a w, post ++ pre = a :: w ∧ (a :: w).IsChain (Joined N) ∧ Joined N y a ∧
      ∃ b ∈ (a :: w).getLast?, Joined N b y ∧ a ≠ b := by
  have hlen : 2 ≤ (post ++ pre).length := by
    have := h.long
    simp only [List.length_append, List.length_cons] at this ⊢
    omega
  have hnd : (post ++ pre).Nodup := by
    have := (List.perm_middle.nodup_iff).1 h.nodup
    exact (List.perm_append_comm.nodup_iff).1 (List.nodup_cons.1 this).2
  have hc := List.isChain_append.1 h.chain
  have hcy := hc.2.1
  rw [List.isChain_cons] at hcy
  have hchain : (post ++ pre).IsChain (Joined N) := by
    rw [List.isChain_append]
    refine ⟨hcy.2, hc.1, ?_⟩
    intro x hx z hz
    refine h.closed x ?_ z ?_
    · rw [Option.mem_def] at hx ⊢
      rw [List.getLast?_append, List.getLast?_cons, hx]
      simp
    · rw [Option.mem_def] at hz ⊢
      rw [List.head?_append, hz]
      simp
  cases hw : post ++ pre with
  | nil => rw [hw] at hlen; simp at hlen
  | cons a w =>
    rw [hw] at hchain hlen hnd
    refine ⟨a, w, rfl, hchain, ?_, ?_⟩
    · cases post with
      | nil =>
        simp only [List.nil_append] at hw
        subst hw
        exact h.closed y (by rw [Option.mem_def, List.getLast?_append]; simp) a (by simp)
      | cons p post =>
        simp only [List.cons_append, List.cons.injEq] at hw
        rw [← hw.1]
        exact hcy.1 p (by simp)
    · have hgl : (a :: w).getLast? = some ((a :: w).getLast (by simp)) := List.getLast?_eq_getLast_of_ne_nil (by simp)
      refine ⟨_, hgl, ?_, ?_⟩
      · rcases List.eq_nil_or_concat pre with hp | ⟨pre', q, hp⟩
        · subst hp
          simp only [List.append_nil] at hw
          refine h.closed _ ?_ y (by simp)
          rw [Option.mem_def, hw, ← hgl]
          simp
        · have hp' : pre = pre' ++ [q] := by simpa using hp
          have : (a :: w).getLast (by simp) = q := by
            have h2 : (a :: w).getLast? = some q := by rw [← hw, hp']; simp
            rw [hgl] at h2
            simpa using h2
          rw [this]
          refine hc.2.2 q ?_ y (by simp)
          rw [hp']; simp
      · cases w with
        | nil => simp at hlen
        | cons b w =>
          intro e
          rw [List.getLast_cons (by simp)] at e
          exact (List.nodup_cons.1 hnd).1 (e ▸ List.getLast_mem _)

/-- A saddle on a cycle can be bypassed along the rest of the cycle. -/
theorem cycle_bypass {N : FNet} {P : Node → Prop} {pre post : List Node} {k : Nat}
    (h : Cycle N P (pre ++ .saddle k :: post)) (h2 : (N.sadLinks k).length ≤ 2) {Q P' : Nat → Prop}
    (hQ : ∀ D, Node.summit D ∈ pre ++ .saddle k :: post → Q D)
    (hX : ∀ j, Node.saddle j ∈ pre ++ .saddle k :: post → j ≠ k → ∀ u v, Linked N j u → Linked N j v →
      Q u → Q v → ConnectedBy N Q P' u v) :
    ∀ u v, Linked N k u → Linked N k v → ConnectedBy N Q P' u v := by
  obtain ⟨a, w, hw, hc, h1, b, hb, h3, hne⟩ := cycle_open h
  have hmem : ∀ n, n ∈ a :: w → n ∈ pre ++ .saddle k :: post := by
    intro n hn
    rw [← hw] at hn
    simp only [List.mem_append, List.mem_cons] at hn ⊢
    rcases hn with hn | hn
    · exact .inr (.inr hn)
    · exact .inl hn
  have hk : Node.saddle k ∉ a :: w := by
    have := (List.perm_middle.nodup_iff).1 h.nodup
    intro hm
    rw [← hw] at hm
    refine (List.nodup_cons.1 this).1 ?_
    simp only [List.mem_append] at hm ⊢
    exact hm.symm
  have hbm : b ∈ a :: w := List.mem_of_getLast? hb
  cases a with
  | saddle j => exact h1.elim
  | summit A =>
    cases b with
    | saddle j => exact h3.elim
    | summit B =>
      have hAB : A ≠ B := fun e => hne (by rw [e])
      have hall := chain_conn (Q := Q) (P := P') (a := A) w (.summit A) hc (fun D hD => hQ D (hmem _ hD))
        (fun j hj u v => hX j (hmem _ hj) (fun e => hk (e ▸ hj)) u v)
        ⟨.refl, hQ A (hmem _ (by simp))⟩ _ hbm
      intro u v hu hv
      have hA : Linked N k A := h1
      have hB : Linked N k B := h3
      rcases linked_two h2 hA hB hAB hu with rfl | rfl <;>
        rcases linked_two h2 hA hB hAB hv with rfl | rfl
      · exact .refl
      · exact hall.1
      · exact conn_symm hall.1
      · exact .refl

/-! ### The search from one root -/

/-- `a` is `b` or one of its ancestors in the search tree. -/
def Anc (look : Node → Option Node) (root a b : Node) : Prop :=
  Relation.ReflTransGen (fun x y => x ≠ root ∧ look x = some y) b a

theorem Anc.eq_root {look : Node → Option Node} {root a : Node} (h : Anc look root a root) : a = root := by
  rcases Relation.ReflTransGen.cases_head h with h | ⟨_, h, _⟩
  · exact h.symm
  · exact absurd rfl h.1

theorem Anc.mono {look look' : Node → Option Node} {root a b : Node}
    (hl : ∀ n p, look n = some p → look' n = some p) (h : Anc look root a b) : Anc look' root a b :=
  Relation.ReflTransGen.mono (fun _ _ h => ⟨h.1, hl _ _ h.2⟩) _ _ h

theorem Older.irrefl {exp : List Node} {j : Node} (h : Older exp j j) : False := h.asymm h

theorem older_of_not_mem {exp : List Node} {j y : Node} (hj : j ∈ exp) (hy : y ∉ exp) : Older exp j y := by
  obtain ⟨l1, l2, rfl⟩ := List.append_of_mem hj
  exact ⟨l1, l2, rfl, fun h => hy (List.mem_append_right _ h)⟩

theorem climbBack_spec {R : Node → Node → Prop} {look : Node → Option Node} {root : Node} {pn exp : List Node}
    (hl : ∀ n ∈ exp, n ≠ root → ∃ p, look n = some p ∧ Older exp p n ∧ R n p) {q : Node}
    (hq : q ∈ pn) : ∀ (n : Nat) (cycle : List Node) (p : Node) (l1 l2 : List Node),
    exp = l1 ++ p :: l2 → l2.length < n → Anc look root q p →
    ∃ path, climbBack look root pn n cycle p = .ok (cycle ++ p :: path) ∧
      (p :: path).IsChain R ∧ (p :: path).Pairwise (fun a b => Older exp b a) ∧
      ∃ b ∈ (p :: path).getLast?, b ∈ pn := by
  intro n
  induction n with
  | zero => intro _ _ _ l2 _ h; exact absurd h (Nat.not_lt_zero _)
  | succ n ih =>
    intro cycle p l1 l2 he hlen ha
    unfold climbBack
    by_cases hp : p ∈ pn
    · rw [if_pos hp]
      exact ⟨[], rfl, by simp, by simp, p, by simp, hp⟩
    · rw [if_neg hp]
      rcases Relation.ReflTransGen.cases_head ha with h | ⟨p', ⟨hr, hlk⟩, ha'⟩
      · exact absurd (h ▸ hq) hp
      · obtain ⟨p'', e1, hold, hj⟩ := hl p (by rw [he]; simp) hr
        have : p'' = p' := by rw [hlk] at e1; simpa using e1.symm
        subst this
        rw [hlk]
        dsimp only
        by_cases hroot : p'' = root
        · rw [if_pos hroot]
          subst hroot
          have := Anc.eq_root ha'
          subst this
          exact ⟨[q], by simp, by simp [hj], by simp [hold], q, by simp, hq⟩
        · rw [if_neg hroot]
          obtain ⟨m1, m2, e2, hn⟩ := id hold
          have hlt : m2.length < l2.length := by
            rcases suffix_cases (he.symm.trans e2) with ⟨t, ht⟩ | ⟨t, ht⟩
            · cases t with
              | nil =>
                simp only [List.nil_append, List.cons.injEq] at ht
                exact absurd (by rw [ht.1]; simp) hn
              | cons x t =>
                simp only [List.cons_append, List.cons.injEq] at ht
                rw [ht.2]
                simp
                omega
            · exact absurd (by rw [ht]; simp) hn
          obtain ⟨path, h1, h2, h3, b, h4, h5⟩ := ih (cycle ++ [p]) p'' m1 m2 e2 (by omega) ha'
          refine ⟨p'' :: path, by rw [h1]; simp, by rw [List.isChain_cons_cons]; exact ⟨hj, h2⟩, ?_, b, ?_, h5⟩
          · rw [List.pairwise_cons]
            refine ⟨fun b hb => ?_, h3⟩
            rcases List.mem_cons.1 hb with rfl | hb
            · exact hold
            · exact ((List.pairwise_cons.1 h3).1 b hb).trans hold
          · rw [Option.mem_def] at h4 ⊢
            rw [List.getLast?_cons_cons]
            exact h4

/-- The live summits. -/
def okS (N : FNet) (f : Flags) (D : Nat) : Prop := Alive N f (.summit D)

/-- A disqualified saddle is lowest on a cycle and can be bypassed over live saddles ranking above. -/
structure Picked (N : FNet) (f0 f : Flags) (exp : List Node) (k : Nat) : Prop where
  bypass : ∀ u v, Linked N k u → Linked N k v → ConnectedBy N (okS N f0)
    (fun j => Alive N f (.saddle j) ∧ Above N.elev exp (.saddle j) (.saddle k)) u v
  low : ∃ c, Cycle N (Alive N f0) c ∧ Node.saddle k ∈ c ∧ ∀ n ∈ c, N.elev (.saddle k) ≤ N.elev n

/-- One disqualification: the lowest members of a live cycle are labelled. -/
def LabelStep (N : FNet) (f0 f f' : Flags) : Prop :=
  ∃ c, Cycle N (Alive N f0) c ∧ disqualifyAndLabel N f (findLowest N.elev c) = .ok f'

/-- Invariant of the search from `root` which started with flags `f0` and features `F0`. `exp` are the
expanded nodes, the last one first; `pend x n` are neighbours still to be looked at. -/
structure Search (N : FNet) (f0 : Flags) (F0 : List Nat) (root : Node) (pend : Node → Node → Prop)
    (exp : List Node) (s : DSt) : Prop where
  used : ∀ n, s.used n ≠ none ↔ n ∈ s.keys
  lookKeys : ∀ n, s.look n ≠ none → n ∈ s.keys
  keysNodup : s.keys.Nodup
  stackNodup : s.stack.Nodup
  expNodup : exp.Nodup
  disj : ∀ n ∈ s.stack, n ∉ exp
  sub : ∀ n, n ∈ s.stack ∨ n ∈ exp → n ∈ s.keys
  part : ∀ n ∈ s.keys, n ∈ s.stack ∨ n ∈ exp ∨ ¬ Alive N s.flags n
  rootKey : root ∈ s.keys
  rootLook : s.look root = some root
  rootLast : ∀ x, exp.getLast? = some x → x = root
  rootAlive : Alive N s.flags root
  look : ∀ n ∈ s.keys, n ≠ root → ∃ p, s.look n = some p ∧ Older exp p n ∧ Joined N p n ∧
    p ∈ (s.used n).getD []
  usedOk : ∀ n, ∀ x ∈ (s.used n).getD [], x ∈ exp ∧ Joined N x n
  seen : ∀ x ∈ exp, ∀ n, Joined N x n → ¬ pend x n → (n ∈ exp ∨ Alive N s.flags n) →
    n ∈ (s.used x).getD [] ∨ x ∈ (s.used n).getD []
  chain : s.stack.Pairwise fun n m => ∀ p q, s.look n = some p → s.look m = some q →
    Anc s.look root q p
  mono : ∀ n, Alive N s.flags n → Alive N f0 n
  over : s.flags.over = f0.over
  alive0 : ∀ n ∈ s.keys, Alive N f0 n
  range : ∀ n ∈ s.keys, match n with
    | .summit D => D < N.nSummits
    | .saddle k => k < N.nSaddles
  picks : ∀ k, Alive N f0 (.saddle k) → ¬ Alive N s.flags (.saddle k) → Picked N f0 s.flags exp k
  prog : s.cyc ≠ [] → ∃ k, k < N.nSaddles ∧ Alive N f0 (.saddle k) ∧ ¬ Alive N s.flags (.saddle k)
  none : s.cyc = [] → s.flags = f0 ∧ s.used root = some [] ∧
    ∀ n ∈ s.keys, n ≠ root → ∃ p, s.look n = some p ∧ s.used n = some [p]
  feats : s.feats.Sublist F0 ∧ ∀ k ∈ F0, k ∉ s.feats → ¬ Alive N s.flags (.saddle k)
  steps : Relation.ReflTransGen (LabelStep N f0) f0 s.flags

theorem start_search {N : FNet} {f : Flags} {F0 : List Nat} {r : Nat} (hr : Alive N f (.saddle r))
    (hlt : r < N.nSaddles) :
    Search N f F0 (.saddle r) (fun _ _ => False) [] (.start (.saddle r) f F0) := by
  have hmem : ∀ n, n ∈ (DSt.start (.saddle r) f F0).keys ↔ n = .saddle r := by
    intro n; simp [DSt.start]
  constructor
  · intro n
    rw [hmem]
    by_cases h : n = .saddle r <;> simp [DSt.start, h]
  · intro n
    rw [hmem]
    by_cases h : n = .saddle r <;> simp [DSt.start, h]
  · simp [DSt.start]
  · simp [DSt.start]
  · simp
  · simp
  · intro n h
    simpa [DSt.start] using h
  · intro n h
    rw [hmem] at h
    left
    simp [DSt.start, h]
  · rw [hmem]
  · simp [DSt.start]
  · simp
  · exact hr
  · intro n h hne
    rw [hmem] at h
    exact absurd h hne
  · intro n x hx
    by_cases h : n = .saddle r <;> simp [DSt.start, h] at hx
  · simp
  · simp [DSt.start]
  · exact fun _ h => h
  · rfl
  · intro n h
    rw [hmem] at h
    rw [h]; exact hr
  · intro n h
    rw [hmem] at h
    rw [h]; exact hlt
  · intro k h1 h2
    exact absurd h1 h2
  · intro h
    exact absurd rfl h
  · intro _
    refine ⟨rfl, by simp [DSt.start], fun n h hne => ?_⟩
    rw [hmem] at h
    exact absurd h hne
  · exact ⟨List.Sublist.refl _, fun k h1 h2 => absurd h1 h2⟩
  · exact .refl

theorem Picked.cons {N : FNet} {f0 f : Flags} {exp : List Node} {k : Nat} (n : Node)
    (h : Picked N f0 f exp k) : Picked N f0 f (n :: exp) k where
  bypass u v hu hv := conn_mono (fun _ h => h) (fun _ h => ⟨h.1, h.2.cons n⟩) (h.bypass u v hu hv)
  low := h.low

/-- Popping a live node from the stack. -/
theorem open_search {N : FNet} {f0 : Flags} {F0 : List Nat} {root : Node} {exp : List Node} {s : DSt}
    (h : Search N f0 F0 root (fun _ _ => False) exp s) {z : Node} {rest : List Node}
    (hs : s.stack = z :: rest) (hz : Alive N s.flags z) (pend : List Node)
    (hp : ∀ n, Alive N f0 n → Joined N z n → n ∈ pend) :
    Search N f0 F0 root (fun x n => x = z ∧ n ∈ pend) (z :: exp) { s with stack := rest } ∧
      (∀ n, z ∉ (s.used n).getD []) ∧
      ∀ m ∈ rest, ∀ q, s.look m = some q → Anc s.look root q z := by
  have hzs : z ∈ s.stack := by rw [hs]; simp
  have hze : z ∉ exp := h.disj z hzs
  have hnd := h.stackNodup
  rw [hs, List.nodup_cons] at hnd
  have hch := h.chain
  rw [hs, List.pairwise_cons] at hch
  have hempty : exp = [] → z = root := by
    intro he
    by_contra hne
    obtain ⟨p, _, ho, _⟩ := h.look z (h.sub z (.inl hzs)) hne
    have := ho.mem
    rw [he] at this
    simp at this
  refine ⟨?_, ?_, ?_⟩
  · constructor
    · exact h.used
    · exact h.lookKeys
    · exact h.keysNodup
    · exact hnd.2
    · exact List.nodup_cons.2 ⟨hze, h.expNodup⟩
    · intro n hn hm
      rcases List.mem_cons.1 hm with rfl | hm
      · exact hnd.1 hn
      · exact h.disj n (by rw [hs]; exact List.mem_cons_of_mem _ hn) hm
    · intro n hn
      rcases hn with hn | hn
      · exact h.sub n (.inl (by rw [hs]; exact List.mem_cons_of_mem _ hn))
      · rcases List.mem_cons.1 hn with rfl | hn
        · exact h.sub n (.inl hzs)
        · exact h.sub n (.inr hn)
    · intro n hn
      rcases h.part n hn with h1 | h1 | h1
      · rw [hs] at h1
        rcases List.mem_cons.1 h1 with rfl | h1
        · exact .inr (.inl (by simp))
        · exact .inl h1
      · exact .inr (.inl (List.mem_cons_of_mem _ h1))
      · exact .inr (.inr h1)
    · exact h.rootKey
    · exact h.rootLook
    · intro x hx
      cases exp with
      | nil => simp only [List.getLast?_singleton, Option.some.injEq] at hx; rw [← hx]; exact hempty rfl
      | cons e exp => rw [List.getLast?_cons_cons] at hx; exact h.rootLast x hx
    · exact h.rootAlive
    · intro n hn hne
      obtain ⟨p, a, b, c, d⟩ := h.look n hn hne
      exact ⟨p, a, b.cons z, c, d⟩
    · intro n x hx
      obtain ⟨a, b⟩ := h.usedOk n x hx
      exact ⟨List.mem_cons_of_mem _ a, b⟩
    · intro x hx n hj hpd hor
      rcases List.mem_cons.1 hx with rfl | hx
      · refine absurd ⟨rfl, hp n ?_ hj⟩ hpd
        rcases hor with hor | hor
        · rcases List.mem_cons.1 hor with rfl | hor
          · exact h.mono _ hz
          · exact h.alive0 n (h.sub n (.inr hor))
        · exact h.mono _ hor
      · refine h.seen x hx n hj (fun h => h) ?_
        rcases hor with hor | hor
        · rcases List.mem_cons.1 hor with rfl | hor
          · exact .inr hz
          · exact .inl hor
        · exact .inr hor
    · exact hch.2
    · exact h.mono
    · exact h.over
    · exact h.alive0
    · exact h.range
    · intro k a b
      exact (h.picks k a b).cons z
    · exact h.prog
    · exact h.none
    · exact h.feats
    · exact h.steps
  · intro n hm
    exact hze (h.usedOk n z hm).1
  · intro m hm q hq
    by_cases hr : z = root
    · have he : exp = [] := by
        by_contra hne
        have hx := List.getLast?_eq_getLast_of_ne_nil hne
        revert hx
        generalize exp.getLast hne = x
        intro hx
        have := h.rootLast x hx
        rw [this, ← hr] at hx
        exact hze (List.mem_of_getLast? hx)
      have hmne : m ≠ root := by
        rintro rfl
        exact hnd.1 (hr ▸ hm)
      obtain ⟨p, _, ho, _⟩ := h.look m (h.sub m (.inl (by rw [hs]; exact List.mem_cons_of_mem _ hm))) hmne
      have := ho.mem
      rw [he] at this
      simp at this
    · obtain ⟨p, hp', _⟩ := h.look z (h.sub z (.inl hzs)) hr
      exact Relation.ReflTransGen.head ⟨hr, hp'⟩ (hch.1 m hm p q hp' hq)

theorem label_spec (N : FNet) (f : Flags) (k : Nat) (ls : List Node) (hs : ∀ n ∈ ls, ∃ j, n = .saddle j) :
    ∃ f', disqualifyAndLabel N f (.saddle k :: ls) = .ok f' ∧ f'.over = f.over ∧ f'.single = f.single ∧
      ∀ j, f'.basin j = true ↔ (j = k ∨ f.basin j = true) := by
  have hall : ((Node.saddle k :: ls).all Node.isSaddle) = true := by
    rw [List.all_eq_true]
    intro n hn
    rcases List.mem_cons.1 hn with rfl | hn
    · rfl
    · obtain ⟨j, rfl⟩ := hs n hn
      rfl
  unfold disqualifyAndLabel
  dsimp only
  rw [hall]
  split
  all_goals
    refine ⟨_, rfl, ?_, ?_, ?_⟩
    · funext j; simp [disqualifySelf]
    · funext j; simp [disqualifySelf]
    · intro j
      by_cases h : j = k <;> simp [disqualifySelf, h]

theorem alive_label {N : FNet} {f f' : Flags} {k : Nat} (h1 : f'.over = f.over) (h2 : f'.single = f.single)
    (h3 : ∀ j, f'.basin j = true ↔ (j = k ∨ f.basin j = true)) (hk : f.over k = none) (n : Node) :
    Alive N f' n ↔ Alive N f n ∧ n ≠ .saddle k := by
  cases n with
  | summit D => simp [Alive]
  | saddle j =>
    simp only [Alive, SaddleOut, h1, h2, h3, ne_eq, Node.saddle.injEq]
    by_cases hj : j = k
    · subst hj; simp [hk]
    · simp [hj]

/-- Members of a cycle found by the search. -/
structure Found (N : FNet) (f0 : Flags) (E : List Node) (nbr z : Node) (path : List Node) : Prop where
  cycle : Cycle N (Alive N f0) (nbr :: z :: path)
  old : (nbr :: z :: path).Pairwise fun a b => Older E b a

theorem found_cycle {N : FNet} {f0 : Flags} {F0 : List Nat} {root z nbr : Node} {pend : Node → Node → Prop}
    {exp : List Node} {s : DSt} (h : Search N f0 F0 root pend (z :: exp) s)
    (hst : ∀ m ∈ s.stack, ∀ q, s.look m = some q → Anc s.look root q z)
    (hj : Joined N z nbr) (hn : nbr ∈ s.stack) (hzu : z ∉ (s.used nbr).getD []) :
    ∃ p path, z ≠ root ∧ s.look z = some p ∧
      climbBack s.look root ((s.used nbr).getD []) (s.keys.length + 1) [nbr, z] p = .ok ([nbr, z] ++ p :: path) ∧
      Found N f0 (z :: exp) nbr z (p :: path) := by
  have hne : nbr ∉ z :: exp := h.disj nbr hn
  have hkn : nbr ∈ s.keys := h.sub _ (.inl hn)
  have hroot : root ∈ z :: exp := by
    have hx := List.getLast?_eq_getLast_of_ne_nil (l := z :: exp) (by simp)
    have := h.rootLast _ hx
    rw [← this]
    exact List.getLast_mem _
  have hnr : nbr ≠ root := fun e => hne (e ▸ hroot)
  obtain ⟨q, hq, _, _, hqu⟩ := h.look nbr hkn hnr
  have ha := hst nbr hn q hq
  have hqz : q ≠ z := fun e => hzu (e ▸ hqu)
  rcases Relation.ReflTransGen.cases_head ha with e | ⟨p, ⟨hzr, hlz⟩, ha'⟩
  · exact absurd e.symm hqz
  have hzk : z ∈ s.keys := h.sub _ (.inr (by simp))
  obtain ⟨p', e1, hpo, hpj, _⟩ := h.look z hzk hzr
  have : p' = p := by rw [hlz] at e1; simpa using e1.symm
  subst this
  have hlk : ∀ n ∈ z :: exp, n ≠ root → ∃ p, s.look n = some p ∧ Older (z :: exp) p n ∧ Joined N n p := by
    intro n hn hr
    obtain ⟨p, a, b, c, _⟩ := h.look n (h.sub _ (.inr hn)) hr
    exact ⟨p, a, b, c.symm⟩
  obtain ⟨l1, l2, he, _⟩ := id hpo
  have hlen : (z :: exp).length ≤ s.keys.length :=
    (h.expNodup.subperm fun n hn => h.sub n (.inr hn)).length_le
  have hl2 : l2.length < s.keys.length + 1 := by
    rw [he] at hlen
    simp only [List.length_append, List.length_cons] at hlen
    omega
  obtain ⟨path, h1, h2, h3, b, h4, h5⟩ := climbBack_spec (R := Joined N) hlk hqu _ [nbr, z] p' l1 l2 he hl2 ha'
  have hpz : ∀ b ∈ p' :: path, Older (z :: exp) b z := by
    intro b hb
    rcases List.mem_cons.1 hb with rfl | hb
    · exact hpo
    · exact ((List.pairwise_cons.1 h3).1 b hb).trans hpo
  have hold : (nbr :: z :: p' :: path).Pairwise fun a b => Older (z :: exp) b a := by
    rw [List.pairwise_cons, List.pairwise_cons]
    refine ⟨fun b hb => ?_, hpz, h3⟩
    refine older_of_not_mem ?_ hne
    rcases List.mem_cons.1 hb with rfl | hb
    · simp
    · exact (hpz b hb).mem
  refine ⟨p', path, hzr, hlz, h1, ?_, hold⟩
  constructor
  · simp
  · exact hold.imp fun {a b} hab => by rintro rfl; exact hab.irrefl
  · rw [List.isChain_cons_cons, List.isChain_cons_cons]
    exact ⟨hj.symm, hpj.symm, h2⟩
  · intro a ha x hx
    have hb : b = a := by
      rw [Option.mem_def] at ha h4
      rw [List.getLast?_cons_cons, List.getLast?_cons_cons, h4] at ha
      simpa using ha
    have hx' : nbr = x := by simpa using hx
    rw [← hb, ← hx']
    exact (h.usedOk nbr b h5).2
  · intro n hn'
    refine h.alive0 n ?_
    rcases List.mem_cons.1 hn' with rfl | hn'
    · exact hkn
    · rcases List.mem_cons.1 hn' with rfl | hn'
      · exact hzk
      · exact h.sub _ (.inr (hpz n hn').mem)

theorem cycle_lowest_saddle {N : FNet} {saddles : List Nat} {g : Flags} (hN : NetOk N saddles g)
    {f : Flags} {pre post : List Node} {y : Node} (hc : Cycle N (Alive N f) (pre ++ y :: post))
    (hlow : ∀ n ∈ pre ++ y :: post, N.elev y ≤ N.elev n) : ∃ k, y = .saddle k := by
  cases y with
  | saddle k => exact ⟨k, rfl⟩
  | summit D =>
    obtain ⟨a, w, hw, _, hj, _⟩ := cycle_open hc
    cases a with
    | summit D' => exact hj.elim
    | saddle k =>
      have hm : Node.saddle k ∈ pre ++ Node.summit D :: post := by
        have : Node.saddle k ∈ post ++ pre := by rw [hw]; simp
        simp only [List.mem_append, List.mem_cons] at this ⊢
        rcases this with h | h
        · exact .inr (.inr h)
        · exact .inl h
      exact absurd (hlow _ hm) (not_le.2 (hN.above k D (hc.mem _ hm).edge hj))

/-- Disqualifying the lowest member of a found cycle. -/
theorem pick_spec {N : FNet} {saddles : List Nat} {g f0 : Flags} (hN : NetOk N saddles g)
    {F0 : List Nat} {r : Nat} {z nbr : Node} {pend : Node → Node → Prop}
    {exp : List Node} {s : DSt} {path : List Node}
    (hov : ∀ k, f0.over k ≠ some false)
    (hroot : ∀ c, Cycle N (Alive N f0) c → Node.saddle r ∈ c → ∀ j, Node.saddle j ∈ c →
      N.elev (.saddle j) ≤ N.elev (.saddle r))
    (h : Search N f0 F0 (.saddle r) pend (z :: exp) s) (hzr : z ≠ .saddle r)
    (hf : Found N f0 (z :: exp) nbr z path) :
    ∃ f' k, disqualifyAndLabel N s.flags (findLowest N.elev (nbr :: z :: path)) = .ok f' ∧
      LabelStep N f0 s.flags f' ∧
      f'.over = s.flags.over ∧ k < N.nSaddles ∧ Alive N f0 (.saddle k) ∧ k ≠ r ∧
      (∀ n, Alive N f' n ↔ Alive N s.flags n ∧ n ≠ .saddle k) ∧
      ∀ k', Alive N f0 (.saddle k') → ¬ Alive N f' (.saddle k') → Picked N f0 f' (z :: exp) k' := by
  obtain ⟨pre, y, post, ls, hc, hlow, hpre, hpost⟩ :=
    findLowest_split N.elev (nbr :: z :: path) (by simp) hf.cycle.nodup
  have hcyc := hf.cycle
  have hold := hf.old
  rw [hc] at hcyc hold
  have hle : ∀ n ∈ pre ++ y :: post, N.elev y ≤ N.elev n := by
    intro n hn
    rcases List.mem_append.1 hn with hn | hn
    · exact le_of_lt (hpre n hn)
    · rcases List.mem_cons.1 hn with rfl | hn
      · exact le_refl _
      · exact hpost n hn
  obtain ⟨k, rfl⟩ := cycle_lowest_saddle hN hcyc hle
  have hpw := List.pairwise_append.1 hold
  have habove : ∀ j, Node.saddle j ∈ pre ++ .saddle k :: post → j ≠ k →
      Above N.elev (z :: exp) (.saddle j) (.saddle k) := by
    intro j hj hne
    rcases List.mem_append.1 hj with hj | hj
    · exact .inl (hpre _ hj)
    · rcases List.mem_cons.1 hj with e | hj
      · exact absurd (by simpa using e) hne
      · rcases lt_or_eq_of_le (hpost _ hj) with h1 | h1
        · exact .inl h1
        · exact .inr ⟨h1, (List.pairwise_cons.1 hpw.2.1).1 _ hj⟩
  have hk0 : Alive N f0 (.saddle k) := hcyc.mem _ (by simp)
  have hovk : s.flags.over k = none := by
    rw [h.over]
    have h1 := hov k
    have h2 : f0.over k ≠ some true := fun e => hk0.1 (.inl e)
    cases e : f0.over k with
    | none => rfl
    | some b => cases b <;> simp_all
  have hls : ∀ n ∈ ls, ∃ j, n = .saddle j := by
    intro n hn
    obtain ⟨l', ls', q1, q2, q3⟩ := findLowest_spec N.elev (nbr :: z :: path) (by simp) hf.cycle.nodup
    rw [hlow] at q1
    obtain ⟨rfl, rfl⟩ : Node.saddle k = l' ∧ ls = ls' := by simpa using q1
    have hn' := List.mem_cons_of_mem (Node.saddle k) hn
    rw [q2, List.mem_filter, decide_eq_true_eq] at hn'
    obtain ⟨pre', post', e⟩ := List.append_of_mem hn'.1
    have hc' := hf.cycle
    rw [e] at hc' q3
    exact cycle_lowest_saddle hN hc' fun m hm => hn'.2 ▸ q3 m hm
  obtain ⟨f', e1, e2, e3, e4⟩ := label_spec N s.flags k ls hls
  have hal : ∀ n, Alive N f' n ↔ Alive N s.flags n ∧ n ≠ .saddle k := alive_label e2 e3 e4 hovk
  have hkr : k ≠ r := by
    rintro rfl
    have hnil : post = [] := by
      cases post with
      | nil => rfl
      | cons x post =>
        exfalso
        obtain ⟨l1, l2, he, hx⟩ := (List.pairwise_cons.1 hpw.2.1).1 x (by simp)
        have hx' := List.getLast?_eq_getLast_of_ne_nil (l := x :: l2) (by simp)
        have : (z :: exp).getLast? = some ((x :: l2).getLast (by simp)) := by
          rw [he, List.getLast?_append, hx']; rfl
        have hr := h.rootLast _ this
        exact hx (hr ▸ List.getLast_mem _)
    subst hnil
    have hn : Joined N (.saddle k) nbr := by
      refine hf.cycle.closed _ ?_ _ (by simp)
      rw [Option.mem_def, hc, List.getLast?_append]; rfl
    have hz : Joined N nbr z := by
      have := hf.cycle.chain
      rw [List.isChain_cons_cons] at this
      exact this.1
    cases nbr with
    | saddle j => exact hn.elim
    | summit D =>
      cases z with
      | summit D' => exact hz.elim
      | saddle j =>
        have hm : Node.saddle j ∈ pre ++ [Node.saddle k] := by rw [← hc]; simp
        have hp : Node.saddle j ∈ pre := by
          rcases List.mem_append.1 hm with hm | hm
          · exact hm
          · exact absurd (List.mem_singleton.1 hm) hzr
        exact absurd (hroot _ hcyc (by simp) j hm) (not_le.2 (hpre _ hp))
  have hkk : k < N.nSaddles := by
    obtain ⟨a, w, _, _, hj, _⟩ := cycle_open hcyc
    cases a with
    | saddle j => exact hj.elim
    | summit D => exact (hN.range k D hk0.edge hj).1
  have hby : ∀ u v, Linked N k u → Linked N k v → ConnectedBy N (okS N f0)
      (fun j => Alive N f' (.saddle j) ∧ Above N.elev (z :: exp) (.saddle j) (.saddle k)) u v := by
    refine cycle_bypass hcyc (hN.two k hk0.edge) (fun D hD => hcyc.mem _ hD) ?_
    intro j hj hne u v hu hv qu qv
    by_cases hja : Alive N s.flags (.saddle j)
    · exact conn_hop ⟨(hal _).2 ⟨hja, fun e => hne (by simpa using e)⟩, habove j hj hne⟩ hu hv qu qv
    · refine conn_mono (fun _ h => h) ?_ ((h.picks j (hcyc.mem _ hj) hja).bypass u v hu hv)
      intro i ⟨hi, hab⟩
      refine ⟨(hal _).2 ⟨hi, ?_⟩, hab.trans (habove j hj hne)⟩
      intro e
      rw [e] at hab
      exact hab.asymm (habove j hj hne)
  refine ⟨f', k, by rw [hlow]; exact e1, ⟨_, hf.cycle, by rw [hlow]; exact e1⟩, e2, hkk, hk0, hkr, hal, ?_⟩
  intro k' hk' hd
  by_cases hkk' : k' = k
  · subst hkk'
    exact ⟨hby, _, hcyc, by simp, hle⟩
  · have hd' : ¬ Alive N s.flags (.saddle k') := by
      intro ha
      exact hd ((hal _).2 ⟨ha, fun e => hkk' (by simpa using e)⟩)
    have hp := h.picks k' hk' hd'
    refine ⟨fun u v hu hv => ?_, hp.low⟩
    refine conn_bind ?_ (hp.bypass u v hu hv)
    intro j a b ⟨hj, hab⟩ la lb qa qb
    by_cases hjk : j = k
    · subst hjk
      exact conn_mono (fun _ h => h) (fun i hi => ⟨hi.1, hi.2.trans hab⟩) (hby a b la lb)
    · exact conn_hop ⟨(hal _).2 ⟨hj, fun e => hjk (by simpa using e)⟩, hab⟩ la lb qa qb

/-- Invariant while the neighbours of `z` are looked at; `done` have been. -/
structure Inner (N : FNet) (f0 : Flags) (F0 : List Nat) (root z : Node) (exp done todo : List Node)
    (s : DSt) : Prop where
  base : Search N f0 F0 root (fun x n => x = z ∧ n ∈ todo) (z :: exp) s
  usedZ : ∀ n, z ∈ (s.used n).getD [] → n ∈ done
  stackZ : ∀ m ∈ s.stack, ∀ q, s.look m = some q → Anc s.look root q z

theorem popFeature_spec {N : FNet} {f : Flags} {F0 feats : List Nat} {n : Node}
    (h : feats.Sublist F0 ∧ ∀ k ∈ F0, k ∉ feats → ¬ Alive N f (.saddle k)) (hn : ¬ Alive N f n) :
    (popFeature feats n).Sublist F0 ∧ ∀ k ∈ F0, k ∉ popFeature feats n → ¬ Alive N f (.saddle k) := by
  refine ⟨List.filter_sublist.trans h.1, fun k hk hm => ?_⟩
  by_cases e : Node.saddle k = n
  · rw [e]; exact hn
  · exact h.2 k hk fun h' => hm (List.mem_filter.2 ⟨h', by simpa using e⟩)

theorem exploreNbr_spec {N : FNet} {saddles : List Nat} {g f0 : Flags} (hN : NetOk N saddles g)
    {F0 : List Nat} {r : Nat} {z nbr : Node} {exp done todo : List Node} {s : DSt}
    (hov : ∀ k, f0.over k ≠ some false)
    (hroot : ∀ c, Cycle N (Alive N f0) c → Node.saddle r ∈ c → ∀ j, Node.saddle j ∈ c →
      N.elev (.saddle j) ≤ N.elev (.saddle r))
    (h : Inner N f0 F0 (.saddle r) z exp done (nbr :: todo) s)
    (hne : nbr ≠ z) (hj : Alive N f0 nbr → Joined N z nbr) (hd : Alive N s.flags nbr → nbr ∉ done) :
    ∃ s', exploreNbr N (.saddle r) z s nbr = .ok s' ∧
      Inner N f0 F0 (.saddle r) z exp (done ++ [nbr]) todo s' ∧
      (∀ n, Alive N s'.flags n → Alive N s.flags n) ∧
      s'.keys.length + s.stack.length = s.keys.length + s'.stack.length := by
  have hb := h.base
  unfold exploreNbr
  by_cases hdead : N.dead s.flags nbr = true
  · rw [if_pos hdead]
    have hna := (dead_iff N s.flags nbr).1 hdead
    refine ⟨_, rfl, ⟨?_, fun n hn => List.mem_append_left _ (h.usedZ n hn), h.stackZ⟩, fun _ h => h, rfl⟩
    refine { hb with seen := ?_, feats := popFeature_spec hb.feats hna }
    intro x hx n hxn hp hor
    by_cases hc : x = z ∧ n = nbr
    · obtain ⟨rfl, rfl⟩ := hc
      rcases hor with hor | hor
      · have := hb.seen n hor x hxn.symm (fun h => hne h.1) (.inl (by simp))
        exact this.symm
      · exact absurd hor hna
    · refine hb.seen x hx n hxn ?_ hor
      rintro ⟨rfl, hm⟩
      rcases List.mem_cons.1 hm with rfl | hm
      · exact hc ⟨rfl, rfl⟩
      · exact hp ⟨rfl, hm⟩
  · rw [if_neg hdead]
    have hal : Alive N s.flags nbr := by rw [← alive_iff]; simpa using hdead
    have hdn := hd hal
    have hj := hj (hb.mono _ hal)
    have hza : Alive N f0 z := hb.alive0 z (hb.sub z (.inr (by simp)))
    have hna : Alive N f0 nbr := hb.mono _ hal
    cases hu : s.used nbr with
    | none =>
      dsimp only
      have hk : nbr ∉ s.keys := fun hm => (hb.used nbr).2 hm hu
      have hne' : nbr ∉ z :: exp := fun hm => hk (hb.sub _ (.inr hm))
      have hns : nbr ∉ s.stack := fun hm => hk (hb.sub _ (.inl hm))
      have hnr : nbr ≠ .saddle r := fun e => hk (e ▸ hb.rootKey)
      have hlm : ∀ n p, s.look n = some p → (if n = nbr then some z else s.look n) = some p := by
        intro n p hn
        have : n ≠ nbr := fun e => hk (e ▸ hb.lookKeys n (by rw [hn]; simp))
        rw [if_neg this]; exact hn
      have hz0 : ∀ n, n ∈ s.keys → n ≠ nbr := fun n hn e => hk (e ▸ hn)
      refine ⟨_, rfl, ⟨?_, ?_, ?_⟩, fun _ h => h, by simp; omega⟩
      · constructor
        · intro n
          by_cases e : n = nbr
          · simp [e]
          · simp only [e, if_false, List.mem_append, List.mem_singleton, or_false]
            exact hb.used n
        · intro n
          by_cases e : n = nbr
          · simp [e]
          · simp only [e, if_false, List.mem_append, List.mem_singleton, or_false]
            exact hb.lookKeys n
        · simp only
          rw [List.nodup_append]
          refine ⟨hb.keysNodup, by simp, ?_⟩
          intro a ha b hb'
          rw [List.mem_singleton.1 hb']
          exact hz0 a ha
        · exact List.nodup_cons.2 ⟨hns, hb.stackNodup⟩
        · exact hb.expNodup
        · intro n hn
          rcases List.mem_cons.1 hn with rfl | hn
          · exact hne'
          · exact hb.disj n hn
        · intro n hn
          rw [List.mem_append, List.mem_singleton]
          rcases hn with hn | hn
          · rcases List.mem_cons.1 hn with rfl | hn
            · exact .inr rfl
            · exact .inl (hb.sub n (.inl hn))
          · exact .inl (hb.sub n (.inr hn))
        · intro n hn
          rw [List.mem_append, List.mem_singleton] at hn
          rcases hn with hn | rfl
          · rcases hb.part n hn with h1 | h1 | h1
            · exact .inl (List.mem_cons_of_mem _ h1)
            · exact .inr (.inl h1)
            · exact .inr (.inr h1)
          · exact .inl (by simp)
        · exact List.mem_append_left _ hb.rootKey
        · exact hlm _ _ hb.rootLook
        · exact hb.rootLast
        · exact hb.rootAlive
        · intro n hn hr
          rw [List.mem_append, List.mem_singleton] at hn
          rcases hn with hn | rfl
          · obtain ⟨p, a, b, c, d⟩ := hb.look n hn hr
            refine ⟨p, hlm _ _ a, b, c, ?_⟩
            simp only [hz0 n hn, if_false]
            exact d
          · exact ⟨z, by simp, older_of_not_mem (by simp) hne', hj, by simp⟩
        · intro n x hx
          by_cases e : n = nbr
          · simp only [e, if_true, Option.getD_some, List.mem_singleton] at hx
            rw [hx, e]
            exact ⟨by simp, hj⟩
          · simp only [e, if_false] at hx
            exact hb.usedOk n x hx
        · intro x hx n hxn hp hor
          have hxk : x ≠ nbr := fun e => hne' (e ▸ hx)
          by_cases hc : n = nbr
          · subst hc
            by_cases hxz : x = z
            · subst hxz
              right; simp
            · exfalso
              have := hb.seen x hx n hxn (fun h => hxz h.1) (.inr hal)
              rw [hu] at this
              rcases this with h1 | h1
              · exact hne' (hb.usedOk x n h1).1
              · simp at h1
          · simp only [hxk, hc, if_false]
            refine hb.seen x hx n hxn ?_ hor
            rintro ⟨rfl, hm⟩
            rcases List.mem_cons.1 hm with rfl | hm
            · exact hc rfl
            · exact hp ⟨rfl, hm⟩
        · rw [List.pairwise_cons]
          constructor
          · intro m hm p q h1 h2
            simp only [if_true, Option.some.injEq] at h1
            have hmn : m ≠ nbr := fun e => hns (e ▸ hm)
            simp only [hmn, if_false] at h2
            rw [← h1]
            exact (h.stackZ m hm q h2).mono hlm
          · refine hb.chain.imp_of_mem ?_
            intro a b ha hb' hab p q h1 h2
            have h3 : a ≠ nbr := fun e => hns (e ▸ ha)
            have h4 : b ≠ nbr := fun e => hns (e ▸ hb')
            simp only [h3, h4, if_false] at h1 h2
            exact (hab p q h1 h2).mono hlm
        · exact hb.mono
        · exact hb.over
        · intro n hn
          rw [List.mem_append, List.mem_singleton] at hn
          rcases hn with hn | rfl
          · exact hb.alive0 n hn
          · exact hb.mono _ hal
        · intro n hn
          rw [List.mem_append, List.mem_singleton] at hn
          rcases hn with hn | rfl
          · exact hb.range n hn
          · cases n with
            | summit D =>
              cases z with
              | summit D' => exact hj.elim
              | saddle k => exact (hN.range k D hza.edge hj).2
            | saddle k =>
              cases z with
              | summit D => exact (hN.range k D hna.edge hj).1
              | saddle k' => exact hj.elim
        · exact hb.picks
        · exact hb.prog
        · intro hc
          obtain ⟨h1, h2, h3⟩ := hb.none hc
          refine ⟨h1, ?_, ?_⟩
          · simp only [hnr.symm, if_false]; exact h2
          · intro n hn hr
            rw [List.mem_append, List.mem_singleton] at hn
            rcases hn with hn | rfl
            · simp only [hz0 n hn, if_false]
              exact h3 n hn hr
            · exact ⟨z, by simp, by simp⟩
        · exact hb.feats
        · exact hb.steps
      · intro n hn
        by_cases e : n = nbr
        · simp [e]
        · simp only [e, if_false] at hn
          exact List.mem_append_left _ (h.usedZ n hn)
      · intro m hm q hq
        rcases List.mem_cons.1 hm with rfl | hm
        · simp only [if_true, Option.some.injEq] at hq
          rw [← hq]; exact .refl
        · have : m ≠ nbr := fun e => hns (e ▸ hm)
          simp only [this, if_false] at hq
          exact (h.stackZ m hm q hq).mono hlm
    | some pn =>
      dsimp only
      have heq : N.eq nbr z ≠ true := by
        intro e
        have := hN.eqElev _ _ e
        cases z with
        | summit D =>
          cases nbr with
          | summit D' => exact hj.elim
          | saddle k => exact absurd this (ne_of_lt (hN.above k D hna.edge hj))
        | saddle k =>
          cases nbr with
          | summit D => exact absurd this (ne_of_gt (hN.above k D hza.edge hj))
          | saddle k' => exact hj.elim
      rw [if_neg heq]
      have hkn : nbr ∈ s.keys := (hb.used nbr).1 (by rw [hu]; simp)
      by_cases hzu : nbr ∈ (s.used z).getD []
      · rw [if_pos hzu]
        refine ⟨_, rfl, ⟨?_, fun n hn => List.mem_append_left _ (h.usedZ n hn), h.stackZ⟩, fun _ h => h, rfl⟩
        refine { hb with seen := ?_ }
        intro x hx n hxn hp hor
        by_cases hc : x = z ∧ n = nbr
        · obtain ⟨rfl, rfl⟩ := hc
          exact .inl hzu
        · refine hb.seen x hx n hxn ?_ hor
          rintro ⟨rfl, hm⟩
          rcases List.mem_cons.1 hm with rfl | hm
          · exact hc ⟨rfl, rfl⟩
          · exact hp ⟨rfl, hm⟩
      · rw [if_neg hzu]
        have hznu : z ∉ (s.used nbr).getD [] := fun hm => hdn (h.usedZ nbr hm)
        have hne' : nbr ∉ z :: exp := by
          intro hm
          rcases hb.seen nbr hm z hj.symm (fun h => hne h.1) (.inl (by simp)) with h1 | h1
          · exact hznu h1
          · exact hzu h1
        have hns : nbr ∈ s.stack := by
          rcases hb.part nbr hkn with h1 | h1 | h1
          · exact h1
          · exact absurd h1 hne'
          · exact absurd hal h1
        obtain ⟨p, path, hzr, hlz, hcb, hfound⟩ := found_cycle hb h.stackZ hj hns hznu
        obtain ⟨f', k, e1, hstep, e2, e3, e4, e5, e6, e7⟩ := pick_spec hN hov hroot hb hzr hfound
        rw [hu, Option.getD_some] at hcb
        rw [hlz]
        dsimp only
        rw [hcb]
        dsimp only [bind, Except.bind]
        rw [show [nbr, z] ++ p :: path = nbr :: z :: p :: path from rfl, e1]
        have hsub : ∀ n x, x ∈ (s.used n).getD [] →
            x ∈ (if n = nbr then some (pn ++ [z]) else s.used n).getD [] := by
          intro n x hx
          by_cases e : n = nbr
          · rw [e, hu, Option.getD_some] at hx
            simp [e, hx]
          · simp only [e, if_false]; exact hx
        refine ⟨_, rfl, ⟨?_, ?_, h.stackZ⟩, fun n hn => ((e6 n).1 hn).1, rfl⟩
        · constructor
          · intro n
            by_cases e : n = nbr
            · simp [e, hkn]
            · simp only [e, if_false]
              exact hb.used n
          · exact hb.lookKeys
          · exact hb.keysNodup
          · exact hb.stackNodup
          · exact hb.expNodup
          · exact hb.disj
          · exact hb.sub
          · intro n hn
            rcases hb.part n hn with h1 | h1 | h1
            · exact .inl h1
            · exact .inr (.inl h1)
            · exact .inr (.inr fun h' => h1 ((e6 n).1 h').1)
          · exact hb.rootKey
          · exact hb.rootLook
          · exact hb.rootLast
          · exact (e6 _).2 ⟨hb.rootAlive, fun e => e5 (by simpa using e.symm)⟩
          · intro n hn hr
            obtain ⟨p, a, b, c, d⟩ := hb.look n hn hr
            exact ⟨p, a, b, c, hsub _ _ d⟩
          · intro n x hx
            by_cases e : n = nbr
            · simp only [e, if_true, Option.getD_some, List.mem_append, List.mem_singleton] at hx
              rw [e]
              rcases hx with hx | rfl
              · exact hb.usedOk nbr x (by rw [hu]; exact hx)
              · exact ⟨by simp, hj⟩
            · simp only [e, if_false] at hx
              exact hb.usedOk n x hx
          · intro x hx n hxn hp hor
            by_cases hc : x = z ∧ n = nbr
            · obtain ⟨rfl, rfl⟩ := hc
              right; simp
            · have := hb.seen x hx n hxn (by
                rintro ⟨rfl, hm⟩
                rcases List.mem_cons.1 hm with rfl | hm
                · exact hc ⟨rfl, rfl⟩
                · exact hp ⟨rfl, hm⟩) (hor.imp id fun h => ((e6 _).1 h).1)
              exact this.imp (hsub _ _) (hsub _ _)
          · exact hb.chain
          · exact fun n hn => hb.mono n ((e6 n).1 hn).1
          · exact e2.trans hb.over
          · exact hb.alive0
          · exact hb.range
          · exact e7
          · intro _
            exact ⟨k, e3, e4, fun h => ((e6 _).1 h).2 rfl⟩
          · intro hc
            simp at hc
          · exact ⟨hb.feats.1, fun k hk hm h' => hb.feats.2 k hk hm ((e6 _).1 h').1⟩
          · exact hb.steps.tail hstep
        · intro n hn
          by_cases e : n = nbr
          · simp [e]
          · simp only [e, if_false] at hn
            exact List.mem_append_left _ (h.usedZ n hn)

theorem nbrs_once {N : FNet} {saddles : List Nat} {g f : Flags} (hN : NetOk N saddles g)
    (hstub : ∀ k D, Alive N f (.saddle k) → Linked N k D → ∃ B, B ≠ D ∧ Linked N k B)
    {z n : Node} {done todo : List Node} (h : N.nbrs z = done ++ n :: todo) (hz : Alive N f z)
    (hn : Alive N f n) : n ∉ done := by
  intro hm
  cases z with
  | summit D =>
    obtain ⟨l1, l2, e1, e2, e3⟩ := List.map_eq_append_iff.1 h
    obtain ⟨i, l3, e4, e5, _⟩ := List.map_eq_cons_iff.1 e3
    rw [← e2] at hm
    obtain ⟨i', hi', e6⟩ := List.mem_map.1 hm
    have hnd := hN.sumOnce D
    rw [e1, e4] at hnd
    have hne : i' ≠ i := by
      rintro rfl
      exact (List.nodup_append.1 hnd).2.2 i' hi' i' (by simp) rfl
    subst e5
    have e7 : (N.link i').2 = (N.link i).2 := by simpa using e6
    have hi := hN.sum D i (by rw [e1, e4]; simp) hn.edge
    have hi'' := hN.sum D i' (by rw [e1]; simp [hi']) (by rw [e7]; exact hn.edge)
    obtain ⟨B, hB, j, hj, e8⟩ := hstub _ D hn ⟨i, hi.2, hi.1⟩
    have hj1 : j ≠ i := by rintro rfl; exact hB (e8.symm.trans hi.1)
    have hj2 : j ≠ i' := by rintro rfl; exact hB (e8.symm.trans hi''.1)
    have hsub : [i, i', j].Subperm (N.sadLinks (N.link i).2) := by
      refine List.Nodup.subperm (by simp [hne.symm, hj1.symm, hj2.symm]) ?_
      intro x hx
      simp only [List.mem_cons, List.not_mem_nil, or_false] at hx
      rcases hx with rfl | rfl | rfl
      · exact hi.2
      · rw [← e7]; exact hi''.2
      · exact hj
    have h1 := hsub.length_le
    have h2 := hN.two (N.link i).2 hn.edge
    simp only [List.length_cons, List.length_nil] at h1
    omega
  | saddle k =>
    obtain ⟨l1, l2, e1, e2, e3⟩ := List.map_eq_append_iff.1 h
    obtain ⟨i, l3, e4, e5, _⟩ := List.map_eq_cons_iff.1 e3
    rw [← e2] at hm
    obtain ⟨i', hi', e6⟩ := List.mem_map.1 hm
    subst e5
    have e7 : (N.link i').1 = (N.link i).1 := by simpa using e6
    have h2 := hN.two k hz.edge
    rw [e1, e4] at h2
    obtain ⟨B, hB, j, hj, e8⟩ := hstub k (N.link i).1 hz ⟨i, by rw [e1, e4]; simp, rfl⟩
    rw [e1, e4] at hj
    cases l1 with
    | nil => simp at hi'
    | cons a l1 =>
      simp only [List.length_append, List.length_cons] at h2
      have h3 : l1 = [] := List.length_eq_zero_iff.1 (by omega)
      have h4 : l3 = [] := List.length_eq_zero_iff.1 (by omega)
      subst h3 h4
      have h5 : i' = a := by simpa using hi'
      subst h5
      simp only [List.cons_append, List.nil_append, List.mem_cons, List.not_mem_nil, or_false] at hj
      rcases hj with rfl | rfl
      · exact hB (e8.symm.trans e7)
      · exact hB e8.symm

theorem keys_length {N : FNet} {l : List Node} (hn : l.Nodup) (hr : ∀ n ∈ l, match n with
    | .summit D => D < N.nSummits
    | .saddle k => k < N.nSaddles) : l.length ≤ N.nSummits + N.nSaddles := by
  have : l.Subperm ((List.range N.nSummits).map .summit ++ (List.range N.nSaddles).map .saddle) := by
    refine hn.subperm ?_
    intro n hm
    have := hr n hm
    cases n with
    | summit D => simpa using this
    | saddle k => simpa using this
  simpa using this.length_le

theorem exploreNbrs_spec {N : FNet} {saddles : List Nat} {g f0 : Flags} (hN : NetOk N saddles g)
    {F0 : List Nat} {r : Nat} {z : Node} {exp : List Node}
    (hov : ∀ k, f0.over k ≠ some false)
    (hstub : ∀ k D, Alive N f0 (.saddle k) → Linked N k D → ∃ B, B ≠ D ∧ Linked N k B)
    (hroot : ∀ c, Cycle N (Alive N f0) c → Node.saddle r ∈ c → ∀ j, Node.saddle j ∈ c →
      N.elev (.saddle j) ≤ N.elev (.saddle r)) (hz : Alive N f0 z) :
    ∀ (todo done : List Node) (s : DSt), N.nbrs z = done ++ todo →
    Inner N f0 F0 (.saddle r) z exp done todo s →
    ∃ s', todo.foldlM (exploreNbr N (.saddle r) z) s = .ok s' ∧
      Inner N f0 F0 (.saddle r) z exp (done ++ todo) [] s' ∧
      s'.keys.length + s.stack.length = s.keys.length + s'.stack.length := by
  intro todo
  induction todo with
  | nil => intro done s _ h; exact ⟨s, rfl, by simpa using h, rfl⟩
  | cons n todo ih =>
    intro done s he h
    have hmem : n ∈ N.nbrs z := by rw [he]; simp
    have hj : Alive N f0 n → Joined N z n := fun hn => (mem_nbrs hN z n (by
      rintro k (rfl | rfl)
      · exact hz.edge
      · exact hn.edge)).1 hmem
    obtain ⟨s1, h1, h2, h3, h4⟩ := exploreNbr_spec hN hov hroot h (nbrs_ne N hmem) hj
      (fun ha => nbrs_once hN hstub he hz (h.base.mono _ ha))
    obtain ⟨s2, h5, h6, h7⟩ := ih (done ++ [n]) s1 (by rw [he]; simp) h2
    refine ⟨s2, ?_, by simpa using h6, by omega⟩
    rw [List.foldlM_cons, h1]
    exact h5

theorem exploreLoop_spec {N : FNet} {saddles : List Nat} {g f0 : Flags} (hN : NetOk N saddles g)
    {F0 : List Nat} {r : Nat}
    (hov : ∀ k, f0.over k ≠ some false)
    (hstub : ∀ k D, Alive N f0 (.saddle k) → Linked N k D → ∃ B, B ≠ D ∧ Linked N k B)
    (hroot : ∀ c, Cycle N (Alive N f0) c → Node.saddle r ∈ c → ∀ j, Node.saddle j ∈ c →
      N.elev (.saddle j) ≤ N.elev (.saddle r)) :
    ∀ (n : Nat) (s : DSt) (exp : List Node), Search N f0 F0 (.saddle r) (fun _ _ => False) exp s →
    s.stack.length + (N.nSummits + N.nSaddles) < n + s.keys.length →
    ∃ s' exp', exploreLoop N (.saddle r) n s = .ok s' ∧
      Search N f0 F0 (.saddle r) (fun _ _ => False) exp' s' ∧ s'.stack = [] := by
  intro n
  induction n with
  | zero =>
    intro s exp h hn
    have := keys_length h.keysNodup h.range
    omega
  | succ n ih =>
    intro s exp h hn
    unfold exploreLoop
    cases hs : s.stack with
    | nil => exact ⟨s, exp, rfl, h, hs⟩
    | cons z rest =>
      dsimp only
      rw [hs, List.length_cons] at hn
      by_cases hd : N.dead s.flags z = true
      · rw [if_pos hd]
        have hna := (dead_iff N s.flags z).1 hd
        have hnd := h.stackNodup
        rw [hs] at hnd
        have hch := h.chain
        rw [hs] at hch
        refine ih _ exp ?_ (by dsimp only; omega)
        refine { h with
          stackNodup := (List.nodup_cons.1 hnd).2
          disj := fun n hn => h.disj n (by rw [hs]; exact List.mem_cons_of_mem _ hn)
          sub := fun n hn => h.sub n (hn.imp (fun hn => by rw [hs]; exact List.mem_cons_of_mem _ hn) id)
          part := ?_
          chain := (List.pairwise_cons.1 hch).2
          feats := popFeature_spec h.feats hna }
        intro m hm
        rcases h.part m hm with h1 | h1
        · rw [hs] at h1
          rcases List.mem_cons.1 h1 with rfl | h1
          · exact .inr (.inr hna)
          · exact .inl h1
        · exact .inr h1
      · rw [if_neg hd]
        have hal : Alive N s.flags z := by rw [← alive_iff]; simpa using hd
        obtain ⟨h1, h2, h3⟩ := open_search h hs hal (N.nbrs z) (fun m ha hm => (mem_nbrs hN z m (by
          rintro k (rfl | rfl)
          · exact hal.edge
          · exact ha.edge)).2 hm)
        obtain ⟨s', e1, e2, e3⟩ := exploreNbrs_spec hN hov hstub hroot (h.mono _ hal) (N.nbrs z) [] _ rfl
          ⟨h1, fun m hm => absurd hm (h2 m), h3⟩
        rw [e1]
        dsimp only
        refine ih s' (z :: exp) ?_ ?_
        · have := e2.base
          exact { this with seen := fun x hx m hxm _ hor => this.seen x hx m hxm (by simp) hor }
        · have h4 := keys_length e2.base.keysNodup e2.base.range
          dsimp only at e3
          have h5 : s.keys.length ≤ s'.keys.length + rest.length := by omega
          omega

/-! ### One round -/

theorem Spec.Cycle.mono {N : FNet} {P P' : Node → Prop} {c : List Node} (h : Cycle N P c)
    (hP : ∀ n, P n → P' n) : Cycle N P' c :=
  { h with mem := fun n hn => hP n (h.mem n hn) }

/-- No cycle of live features passes the node. -/
def NoCyc (N : FNet) (f : Flags) (n : Node) : Prop := ∀ c, Cycle N (Alive N f) c → n ∉ c

/-- Saddles `j` and `r` are connected over live saddles and summits. -/
def Conn (N : FNet) (f : Flags) (j r : Nat) : Prop :=
  ∃ u v, Linked N j u ∧ Linked N r v ∧ okS N f u ∧ okS N f v ∧
    ConnectedBy N (okS N f) (fun k => Alive N f (.saddle k)) u v

theorem search_closed {N : FNet} {f0 : Flags} {F0 : List Nat} {root : Node} {exp : List Node} {s : DSt}
    (h : Search N f0 F0 root (fun _ _ => False) exp s) (hs : s.stack = []) {x n : Node} (hx : x ∈ exp)
    (hj : Joined N x n) (hn : Alive N s.flags n) : n ∈ exp := by
  rcases h.seen x hx n hj (fun h => h) (.inr hn) with h1 | h1
  · exact (h.usedOk x n h1).1
  · have : n ∈ s.keys := by
      rw [← h.used]
      intro e
      rw [e] at h1
      simp at h1
    rcases h.part n this with h2 | h2 | h2
    · rw [hs] at h2; simp at h2
    · exact h2
    · exact absurd hn h2

theorem cycle_inside {N : FNet} {P : Node → Prop} {S : Node → Prop} {c : List Node} (hc : Cycle N P c)
    (hS : ∀ x n, S x → P n → Joined N x n → S n) {m : Node} (hm : m ∈ c) (h : S m) : ∀ n ∈ c, S n := by
  obtain ⟨pre, post, rfl⟩ := List.append_of_mem hm
  obtain ⟨a, w, hw, hch, hj, _⟩ := cycle_open hc
  have hP : ∀ n ∈ a :: w, P n := by
    intro n hn
    rw [← hw] at hn
    refine hc.mem n ?_
    simp only [List.mem_append, List.mem_cons] at hn ⊢
    rcases hn with hn | hn
    · exact .inr (.inr hn)
    · exact .inl hn
  have hall : ∀ (l : List Node) (a : Node), (a :: l).IsChain (Joined N) → (∀ n ∈ a :: l, P n) → S a →
      ∀ n ∈ a :: l, S n := by
    intro l
    induction l with
    | nil => intro a _ _ ha n hn; rw [List.mem_singleton.1 hn]; exact ha
    | cons b l ih =>
      intro a hch hP ha n hn
      rcases List.mem_cons.1 hn with rfl | hn
      · exact ha
      · rw [List.isChain_cons_cons] at hch
        exact ih b hch.2 (fun n hn => hP n (List.mem_cons_of_mem _ hn))
          (hS a b ha (hP b (by simp)) hch.1) n hn
  have hin := hall w a hch hP (hS m a h (hP a (by simp)) hj)
  intro n hn
  by_cases e : n = m
  · rw [e]; exact h
  · refine hin n ?_
    rw [← hw]
    simp only [List.mem_append, List.mem_cons, e, false_or] at hn ⊢
    exact hn.symm

theorem search_acyclic {N : FNet} {f0 : Flags} {F0 : List Nat} {root : Node} {exp : List Node} {s : DSt}
    (h : Search N f0 F0 root (fun _ _ => False) exp s) (hs : s.stack = []) (hc : s.cyc = []) {n : Node}
    (hn : n ∈ exp) : NoCyc N f0 n := by
  intro c hcy hm
  obtain ⟨hf, hur, hus⟩ := h.none hc
  have hin : ∀ m ∈ c, m ∈ exp := by
    refine cycle_inside (S := fun m => m ∈ exp) hcy ?_ hm hn
    intro x m hx hal hj
    exact search_closed h hs hx hj (by rw [hf]; exact hal)
  -- the member expanded last
  have hlast : ∃ y ∈ c, ∀ x ∈ c, x ≠ y → Older exp x y := by
    have : ∀ (E : List Node), E.Nodup → (∃ m ∈ c, m ∈ E) →
        ∃ y ∈ c, ∃ l1 l2, E = l1 ++ y :: l2 ∧ ∀ x ∈ l1, x ∉ c := by
      intro E
      induction E with
      | nil => rintro _ ⟨m, _, h⟩; simp at h
      | cons e E ih =>
        intro hnd hex
        by_cases he : e ∈ c
        · exact ⟨e, he, [], E, rfl, by simp⟩
        · obtain ⟨m, hm, hmE⟩ := hex
          have hmE' : m ∈ E := by
            rcases List.mem_cons.1 hmE with rfl | h
            · exact absurd hm he
            · exact h
          obtain ⟨y, hy, l1, l2, e1, hl⟩ := ih (List.nodup_cons.1 hnd).2 ⟨m, hm, hmE'⟩
          refine ⟨y, hy, e :: l1, l2, by rw [e1]; rfl, ?_⟩
          intro x hx
          rcases List.mem_cons.1 hx with rfl | hx
          · exact he
          · exact hl x hx
    obtain ⟨y, hy, l1, l2, e1, hl⟩ := this exp h.expNodup ⟨n, hm, hn⟩
    refine ⟨y, hy, fun x hx hne => ?_⟩
    have hxe := hin x hx
    rw [e1] at hxe
    have hx2 : x ∈ l2 := by
      rcases List.mem_append.1 hxe with h1 | h1
      · exact absurd hx (hl x h1)
      · exact (List.mem_cons.1 h1).resolve_left hne
    obtain ⟨m1, m2, rfl⟩ := List.append_of_mem hx2
    refine ⟨l1 ++ y :: m1, m2, by rw [e1]; simp, ?_⟩
    have hnd := h.expNodup
    rw [e1] at hnd
    have hy' := (List.nodup_cons.1 (List.nodup_append.1 hnd).2.1).1
    exact fun h' => hy' (List.mem_append_right _ h')
  obtain ⟨y, hy, hold⟩ := hlast
  obtain ⟨pre, post, rfl⟩ := List.append_of_mem hy
  obtain ⟨a, w, hw, _, hja, b, hb, hjb, hne⟩ := cycle_open hcy
  have hmem : ∀ x ∈ a :: w, x ∈ pre ++ y :: post ∧ x ≠ y := by
    intro x hx
    rw [← hw] at hx
    have hnd := (List.perm_middle.nodup_iff).1 hcy.nodup
    constructor
    · simp only [List.mem_append, List.mem_cons] at hx ⊢
      rcases hx with h | h
      · exact .inr (.inr h)
      · exact .inl h
    · rintro rfl
      refine (List.nodup_cons.1 hnd).1 ?_
      simp only [List.mem_append] at hx ⊢
      exact hx.symm
  have hone : ∀ x ∈ a :: w, Joined N y x → x ∈ (s.used y).getD [] := by
    intro x hx hj
    obtain ⟨h1, h2⟩ := hmem x hx
    have ho := hold x h1 h2
    rcases h.seen y (hin y hy) x hj (fun h => h) (.inl (hin x h1)) with h3 | h3
    · exact h3
    · exfalso
      by_cases hr : x = root
      · rw [hr, hur] at h3; simp at h3
      · have hxk := h.sub x (.inr (hin x h1))
        obtain ⟨p, e1, e2⟩ := hus x hxk hr
        rw [e2, Option.getD_some, List.mem_singleton] at h3
        obtain ⟨p', e3, e4, _⟩ := h.look x hxk hr
        rw [e1] at e3
        have : p = p' := by simpa using e3
        rw [← this, ← h3] at e4
        exact e4.asymm ho
  have h1 := hone a (by simp) hja
  have h2 := hone b (List.mem_of_getLast? hb) hjb.symm
  by_cases hr : y = root
  · rw [hr, hur] at h1; simp at h1
  · obtain ⟨p, _, e2⟩ := hus y (h.sub y (.inr (hin y hy))) hr
    rw [e2, Option.getD_some, List.mem_singleton] at h1 h2
    exact hne (h1.trans h2.symm)

/-- Every expanded node is connected to the root over features live at the start. -/
theorem search_conn {N : FNet} {f0 : Flags} {F0 : List Nat} {r : Nat} {exp : List Node} {s : DSt}
    {pend : Node → Node → Prop} (h : Search N f0 F0 (.saddle r) pend exp s) {j : Nat}
    (hj : Node.saddle j ∈ exp) : j = r ∨ Conn N f0 j r := by
  have key : ∀ l2 l1, exp = l1 ++ l2 → ∀ n ∈ l2, match n with
      | .summit D => ∃ v, Linked N r v ∧ okS N f0 v ∧
          ConnectedBy N (okS N f0) (fun k => Alive N f0 (.saddle k)) D v
      | .saddle j => j = r ∨ Conn N f0 j r := by
    intro l2
    induction l2 with
    | nil => intro _ _ n hn; simp at hn
    | cons m l2 ih =>
      intro l1 he n hn
      have ih' := ih (l1 ++ [m]) (by rw [he]; simp)
      rcases List.mem_cons.1 hn with rfl | hn
      · have hnk : n ∈ s.keys := h.sub n (.inr (by rw [he]; simp))
        by_cases hr : n = .saddle r
        · rw [hr]; exact .inl rfl
        · obtain ⟨p, _, ho, hjn, _⟩ := h.look n hnk hr
          have hpk : p ∈ s.keys := h.sub p (.inr ho.mem)
          have hp : p ∈ l2 := by
            obtain ⟨m1, m2, e2, hno⟩ := ho
            rcases suffix_cases (he.symm.trans e2) with ⟨t, ht⟩ | ⟨t, ht⟩
            · cases t with
              | nil =>
                simp only [List.nil_append, List.cons.injEq] at ht
                exact absurd (by rw [ht.1]; simp) hno
              | cons x t =>
                simp only [List.cons_append, List.cons.injEq] at ht
                rw [ht.2]; simp
            · exact absurd (by rw [ht]; simp) hno
          have hpr := ih' p hp
          have hna := h.alive0 n hnk
          have hpa := h.alive0 p hpk
          cases p with
          | summit D =>
            cases n with
            | summit D' => exact hjn.elim
            | saddle k =>
              obtain ⟨v, h1, h2, h3⟩ := hpr
              exact .inr ⟨D, v, hjn, h1, hpa, h2, h3⟩
          | saddle k =>
            cases n with
            | saddle k' => exact hjn.elim
            | summit D =>
              rcases hpr with rfl | ⟨u, v, h1, h2, h3, h4, h5⟩
              · exact ⟨D, hjn, hna, .refl⟩
              · exact ⟨v, h2, h4, (conn_hop (P := fun k => Alive N f0 (.saddle k)) hpa hjn h1 hna h3).trans h5⟩
      · exact ih' n hn
  exact key exp [] rfl _ hj

theorem conn_search {N : FNet} {f0 : Flags} {F0 : List Nat} {r : Nat} {exp : List Node} {s : DSt}
    (h : Search N f0 F0 (.saddle r) (fun _ _ => False) exp s) (hs : s.stack = []) (hf : s.flags = f0)
    {j : Nat} (hc : Conn N f0 j r) (hj : Alive N f0 (.saddle j)) : Node.saddle j ∈ exp := by
  have hr : Node.saddle r ∈ exp := by
    rcases h.part _ h.rootKey with h1 | h1 | h1
    · rw [hs] at h1; simp at h1
    · exact h1
    · exact absurd h.rootAlive h1
  obtain ⟨u, v, h1, h2, h3, h4, h5⟩ := hc
  have hcl : ∀ x n, x ∈ exp → Joined N x n → Alive N f0 n → n ∈ exp := fun x n hx hj hn =>
    search_closed h hs hx hj (by rw [hf]; exact hn)
  have hv : Node.summit v ∈ exp := hcl _ (.summit v) hr h2 h4
  have hu : ∀ w, ConnectedBy N (okS N f0) (fun k => Alive N f0 (.saddle k)) v w → Node.summit w ∈ exp := by
    intro w hw
    induction hw with
    | refl => exact hv
    | tail _ hab ih =>
      obtain ⟨_, qb, k, hk, la, lb⟩ := hab
      exact hcl (.saddle k) (.summit _) (hcl (.summit _) (.saddle k) ih la hk) lb qb
  exact hcl _ (.saddle j) (hu u (conn_symm h5)) h1 hj

/-! ### All rounds -/

/-- What basin detection has done so far, starting from flags `f1`. -/
structure Done (N : FNet) (f1 f : Flags) : Prop where
  mono : ∀ n, Alive N f n → Alive N f1 n
  over : f.over = f1.over
  bypass : ∀ k, Alive N f1 (.saddle k) → ¬ Alive N f (.saddle k) → ∀ u v, Linked N k u → Linked N k v →
    ConnectedBy N (okS N f1) (fun j => Alive N f (.saddle j) ∧ N.elev (.saddle k) ≤ N.elev (.saddle j)) u v
  low : ∀ k, Alive N f1 (.saddle k) → ¬ Alive N f (.saddle k) →
    ∃ c, Cycle N (Alive N f1) c ∧ Node.saddle k ∈ c ∧ ∀ n ∈ c, N.elev (.saddle k) ≤ N.elev n
  steps : Relation.ReflTransGen (LabelStep N f1) f1 f

theorem Done.refl (N : FNet) (f : Flags) : Done N f f :=
  ⟨fun _ h => h, rfl, fun _ h1 h2 => absurd h1 h2, fun _ h1 h2 => absurd h1 h2, .refl⟩

theorem Done.trans {N : FNet} {f1 f f' : Flags} (h : Done N f1 f) (h' : Done N f f') : Done N f1 f' where
  mono n hn := h.mono n (h'.mono n hn)
  over := h'.over.trans h.over
  bypass k hk hd u v hu hv := by
    by_cases ha : Alive N f (.saddle k)
    · exact h'.bypass k ha hd u v hu hv
    · refine conn_bind ?_ (h.bypass k hk ha u v hu hv)
      intro j a b ⟨hj, he⟩ la lb qa qb
      by_cases hj' : Alive N f' (.saddle j)
      · exact conn_hop ⟨hj', he⟩ la lb qa qb
      · exact conn_mono (fun _ h => h) (fun i hi => ⟨hi.1, le_trans he hi.2⟩) (h'.bypass j hj hj' a b la lb)
  low k hk hd := by
    by_cases ha : Alive N f (.saddle k)
    · obtain ⟨c, h1, h2, h3⟩ := h'.low k ha hd
      exact ⟨c, h1.mono h.mono, h2, h3⟩
    · exact h.low k hk ha
  steps := by
    refine h.steps.trans (Relation.ReflTransGen.mono ?_ _ _ h'.steps)
    rintro a b ⟨c, h1, h2⟩
    exact ⟨c, h1.mono h.mono, h2⟩

theorem Search.done {N : FNet} {f0 : Flags} {F0 : List Nat} {root : Node} {exp : List Node} {s : DSt}
    {pend : Node → Node → Prop} (h : Search N f0 F0 root pend exp s) : Done N f0 s.flags where
  mono := h.mono
  over := h.over
  bypass k hk hd u v hu hv :=
    conn_mono (fun _ h => h) (fun _ hj => ⟨hj.1, hj.2.le⟩) ((h.picks k hk hd).bypass u v hu hv)
  low k hk hd := (h.picks k hk hd).low
  steps := h.steps

theorem Done.conn {N : FNet} {f1 f : Flags} (h : Done N f1 f) {j r : Nat} (hc : Conn N f1 j r) :
    Conn N f j r := by
  obtain ⟨u, v, h1, h2, h3, h4, h5⟩ := hc
  refine ⟨u, v, h1, h2, h3, h4, conn_bind ?_ h5⟩
  intro k a b hk la lb qa qb
  by_cases hk' : Alive N f (.saddle k)
  · exact conn_hop (Q := okS N f) (P := fun k => Alive N f (.saddle k)) hk' la lb qa qb
  · exact conn_mono (fun _ h => h) (fun i hi => hi.1) (h.bypass k hk hk' a b la lb)

theorem Done.noCyc {N : FNet} {f1 f : Flags} (h : Done N f1 f) {n : Node} (hc : NoCyc N f1 n) :
    NoCyc N f n := fun c hcy => hc c (hcy.mono h.mono)

/-- The number of live saddles. -/
def liveCount (N : FNet) (f : Flags) : Nat :=
  ((List.range N.nSaddles).filter fun k => !N.dead f (.saddle k)).length

theorem liveCount_lt {N : FNet} {f f' : Flags} (hm : ∀ n, Alive N f' n → Alive N f n) {k : Nat}
    (hk : k < N.nSaddles) (h1 : Alive N f (.saddle k)) (h2 : ¬ Alive N f' (.saddle k)) :
    liveCount N f' < liveCount N f := by
  have halive : ∀ g j, (!N.dead g (.saddle j)) = true ↔ Alive N g (.saddle j) := by
    intro g j; rw [← alive_iff]; simp
  unfold liveCount
  have hsub : (k :: (List.range N.nSaddles).filter fun k => !N.dead f' (.saddle k)).Subperm
      ((List.range N.nSaddles).filter fun k => !N.dead f (.saddle k)) := by
    refine List.Nodup.subperm ?_ ?_
    · rw [List.nodup_cons]
      refine ⟨fun hm' => h2 ((halive _ _).1 (List.mem_filter.1 hm').2), List.nodup_range.filter _⟩
    · intro x hx
      rcases List.mem_cons.1 hx with rfl | hx
      · exact List.mem_filter.2 ⟨List.mem_range.2 hk, (halive _ _).2 h1⟩
      · obtain ⟨a, b⟩ := List.mem_filter.1 hx
        exact List.mem_filter.2 ⟨a, (halive _ _).2 (hm _ ((halive _ _).1 b))⟩
  have := hsub.length_le
  simp only [List.length_cons] at this
  omega

/-- Every live saddle that is no longer a feature is settled: it is on no live cycle, or it is to be
searched again from the last feature, which is at least as high. -/
def Settled (N : FNet) (f : Flags) (feats : List Nat) : Prop :=
  (∀ j, Alive N f (.saddle j) → j ∉ feats → NoCyc N f (.saddle j)) ∨
  ∃ fs r, feats = fs ++ [r] ∧ Alive N f (.saddle r) ∧ ∀ j, Alive N f (.saddle j) → j ∉ feats →
    NoCyc N f (.saddle j) ∨ (N.elev (.saddle j) ≤ N.elev (.saddle r) ∧ Conn N f j r)

theorem basinLoop_spec {N : FNet} {saddles : List Nat} {g f1 : Flags} (hN : NetOk N saddles g)
    (hov : ∀ k, f1.over k ≠ some false)
    (hstub : ∀ k D, Alive N f1 (.saddle k) → Linked N k D → ∃ B, B ≠ D ∧ Linked N k B) :
    ∀ (n : Nat) (f : Flags) (feats : List Nat), Done N f1 f → feats.Nodup → (∀ k ∈ feats, k < N.nSaddles) →
    (feats.Pairwise fun a b => N.elev (.saddle a) ≤ N.elev (.saddle b)) → Settled N f feats →
    feats.length + liveCount N f < n →
    ∃ f', basinLoop N n f feats = .ok f' ∧ Done N f1 f' ∧ ∀ j, Alive N f' (.saddle j) → NoCyc N f' (.saddle j) := by
  intro n
  induction n with
  | zero => intro _ _ _ _ _ _ _ h; exact absurd h (Nat.not_lt_zero _)
  | succ n ih =>
    intro f feats hd hnd hb hsort hset hlt
    unfold basinLoop
    rcases List.eq_nil_or_concat feats with rfl | ⟨fs, r, hcat⟩
    · refine ⟨f, rfl, hd, fun j hj => ?_⟩
      rcases hset with h | ⟨fs, r, h, _⟩
      · exact h j hj (by simp)
      · simp at h
    · have hfe : feats = fs ++ [r] := by simpa using hcat
      subst hfe
      have hgl : (fs ++ [r]).getLast? = some r := by simp
      rw [hgl]
      dsimp only
      rw [List.dropLast_concat]
      have hndf : fs.Nodup := (List.nodup_append.1 hnd).1
      have hrf : r ∉ fs := fun hm => (List.nodup_append.1 hnd).2.2 r hm r (by simp) rfl
      have hler : ∀ j ∈ fs, N.elev (.saddle j) ≤ N.elev (.saddle r) := fun j hj =>
        (List.pairwise_append.1 hsort).2.2 j hj r (by simp)
      by_cases hdead : N.dead f (.saddle r) = true
      · rw [if_pos hdead]
        have hna := (dead_iff N f (.saddle r)).1 hdead
        refine ih f fs hd hndf (fun k hk => hb k (by simp [hk])) (List.pairwise_append.1 hsort).1 ?_ (by
          simp only [List.length_append, List.length_singleton] at hlt; omega)
        rcases hset with h | ⟨fs', r', h, ha, _⟩
        · refine .inl fun j hj hm => h j hj ?_
          intro hm'
          rcases List.mem_append.1 hm' with h1 | h1
          · exact hm h1
          · rw [List.mem_singleton.1 h1] at hj; exact hna hj
        · have := List.append_inj_right' h rfl
          simp only [List.cons.injEq, and_true] at this
          rw [← this] at ha
          exact absurd ha hna
      · rw [if_neg hdead]
        have hral : Alive N f (.saddle r) := by rw [← alive_iff]; simpa using hdead
        have hov' : ∀ k, f.over k ≠ some false := by rw [hd.over]; exact hov
        have hstub' : ∀ k D, Alive N f (.saddle k) → Linked N k D → ∃ B, B ≠ D ∧ Linked N k B :=
          fun k D hk => hstub k D (hd.mono _ hk)
        have hroot : ∀ c, Cycle N (Alive N f) c → Node.saddle r ∈ c → ∀ j, Node.saddle j ∈ c →
            N.elev (.saddle j) ≤ N.elev (.saddle r) := by
          intro c hc _ j hj
          have hja := hc.mem _ hj
          by_cases hjf : j ∈ fs ++ [r]
          · rcases List.mem_append.1 hjf with h1 | h1
            · exact hler j h1
            · rw [List.mem_singleton.1 h1]
          · rcases hset with h | ⟨fs', r', h, _, h'⟩
            · exact absurd hj (h j hja hjf c hc)
            · have := List.append_inj_right' h rfl
              simp only [List.cons.injEq, and_true] at this
              rw [← this] at h'
              rcases h' j hja hjf with h1 | h1
              · exact absurd hj (h1 c hc)
              · exact h1.1
        have hfuel : (DSt.start (.saddle r) f fs).stack.length + (N.nSummits + N.nSaddles) <
            N.nSummits + N.nSaddles + 2 + (DSt.start (.saddle r) f fs).keys.length := by
          simp only [DSt.start, List.length_singleton]; omega
        obtain ⟨s, exp, e1, hs, hst⟩ := exploreLoop_spec hN hov' hstub' hroot _ _ _
          (start_search (F0 := fs) hral (hb r (by simp))) hfuel
        rw [e1]
        dsimp only
        have hsd := hs.done
        have hmem : ∀ k, Node.saddle k ∈ s.keys → Alive N s.flags (.saddle k) → Node.saddle k ∈ exp := by
          intro k hk ha
          rcases hs.part _ hk with h1 | h1 | h1
          · rw [hst] at h1; simp at h1
          · exact h1
          · exact absurd ha h1
        have hrexp : Node.saddle r ∈ exp := hmem r hs.rootKey hs.rootAlive
        generalize hX : (s.feats.filter fun k =>
          !(decide (Node.saddle k ∈ s.keys) && !decide (Node.saddle k ∈ s.cyc))) = X
        have hXsub : X.Sublist fs := by
          rw [← hX]; exact List.filter_sublist.trans hs.feats.1
        have hXout : ∀ j ∈ fs, j ∉ X → Alive N s.flags (.saddle j) → Node.saddle j ∈ exp := by
          intro j hj hm ha
          have h1 : j ∈ s.feats := by
            by_contra hm'
            exact hs.feats.2 j hj hm' ha
          refine hmem j ?_ ha
          by_contra hk
          refine hm ?_
          rw [← hX]
          exact List.mem_filter.2 ⟨h1, by simp [hk]⟩
        have hrX : r ∉ X := fun hm => hrf (hXsub.subset hm)
        have hset' : ∀ j, Alive N f (.saddle j) → j ∉ fs ++ [r] →
            NoCyc N f (.saddle j) ∨ (N.elev (.saddle j) ≤ N.elev (.saddle r) ∧ Conn N f j r) := by
          intro j hj hm
          rcases hset with h | ⟨fs', r', h, _, h'⟩
          · exact .inl (h j hj hm)
          · have := List.append_inj_right' h rfl
            simp only [List.cons.injEq, and_true] at this
            rw [← this] at h'
            exact h' j hj hm
        by_cases hcy : s.cyc = []
        · rw [if_pos hcy]
          obtain ⟨hfl, _, _⟩ := hs.none hcy
          refine ih s.flags X (hd.trans hsd) (hXsub.nodup hndf) (fun k hk => hb k (by simp [hXsub.subset hk]))
            ((List.pairwise_append.1 hsort).1.sublist hXsub) ?_ ?_
          · refine .inl fun j hj hm => ?_
            rw [hfl] at hj ⊢
            by_cases hjr : j = r
            · rw [hjr]; exact search_acyclic hs hst hcy hrexp
            · by_cases hjf : j ∈ fs
              · exact search_acyclic hs hst hcy (hXout j hjf hm (by rw [hfl]; exact hj))
              · rcases hset' j hj (by simp [hjf, hjr]) with h1 | h1
                · exact h1
                · exact search_acyclic hs hst hcy (conn_search hs hst hfl h1.2 hj)
          · rw [hfl]
            have := hXsub.length_le
            simp only [List.length_append, List.length_singleton] at hlt
            omega
        · rw [if_neg hcy, if_neg hrX]
          have hXr : (X ++ [r]).Sublist (fs ++ [r]) := hXsub.append (List.Sublist.refl _)
          refine ih s.flags (X ++ [r]) (hd.trans hsd) (hXr.nodup hnd) (fun k hk => hb k (hXr.subset hk))
            (hsort.sublist hXr) ?_ ?_
          · refine .inr ⟨X, r, rfl, hs.rootAlive, fun j hj hm => ?_⟩
            have hjr : j ≠ r := fun e => hm (by simp [e])
            have hjX : j ∉ X := fun h => hm (by simp [h])
            by_cases hjf : j ∈ fs
            · right
              refine ⟨hler j hjf, ?_⟩
              rcases search_conn hs (hXout j hjf hjX hj) with h1 | h1
              · exact absurd h1 hjr
              · exact hsd.conn h1
            · rcases hset' j (hsd.mono _ hj) (by simp [hjf, hjr]) with h1 | h1
              · exact .inl (hsd.noCyc h1)
              · exact .inr ⟨h1.1, hsd.conn h1.2⟩
          · obtain ⟨k, hk, h1, h2⟩ := hs.prog hcy
            have h3 := liveCount_lt hsd.mono hk h1 h2
            have := hXr.length_le
            omega

/-! ### Single-source saddles -/

theorem uniqueFold_length (N : FNet) : ∀ (l acc : List Nat), acc.length ≤
    (l.foldl (fun acc x => if acc.any (fun y => N.setEq x y) then acc else acc ++ [x]) acc).length := by
  intro l
  induction l with
  | nil => intro acc; exact le_refl _
  | cons x l ih =>
    intro acc
    rw [List.foldl_cons]
    refine le_trans ?_ (ih _)
    split <;> simp

theorem uniqueFold_one (N : FNet) (h : Nat) : ∀ (l : List Nat),
    (l.foldl (fun acc x => if acc.any (fun y => N.setEq x y) then acc else acc ++ [x]) [h]).length ≤ 1 ↔
      ∀ x ∈ l, N.setEq x h = true := by
  intro l
  induction l with
  | nil => simp
  | cons x l ih =>
    rw [List.foldl_cons]
    by_cases hx : N.setEq x h = true
    · simp only [List.any_cons, hx, List.any_nil, Bool.or_false, if_true, List.forall_mem_cons, true_and]
      exact ih
    · have h0 : ([h].any fun y => N.setEq x y) = false := by simpa using hx
      rw [h0]
      constructor
      · intro h1
        have h2 := uniqueFold_length N l ([h] ++ [x])
        simp only [List.length_append, List.length_singleton] at h2
        simp only [Bool.false_eq_true, if_false] at h1
        omega
      · intro h1
        exact absurd (h1 x (by simp)) hx

/-- All linkers of the saddle lead to summits that a set does not tell apart. -/
theorem unique_iff {N : FNet} {k : Nat} (hrefl : ∀ a, Linked N k a → N.setEq a a = true)
    (hsymm : ∀ a b, Linked N k a → Linked N k b → N.setEq a b = true → N.setEq b a = true)
    (htrans : ∀ a b c, Linked N k a → Linked N k b → Linked N k c → N.setEq a b = true →
      N.setEq b c = true → N.setEq a c = true) :
    (uniqueSummits N ((N.sadLinks k).map fun i => (N.link i).1)).length ≤ 1 ↔
      ∀ u v, Linked N k u → Linked N k v → N.setEq u v = true := by
  have hl : ∀ u, Linked N k u ↔ u ∈ (N.sadLinks k).map fun i => (N.link i).1 := by
    intro u; simp [Linked]
  generalize hL : (N.sadLinks k).map (fun i => (N.link i).1) = L at hl
  cases L with
  | nil =>
    simp only [uniqueSummits, List.foldl_nil, List.length_nil, Nat.zero_le, true_iff]
    intro u v hu
    rw [hl] at hu
    simp at hu
  | cons h t =>
    have : uniqueSummits N (h :: t) =
        t.foldl (fun acc x => if acc.any (fun y => N.setEq x y) then acc else acc ++ [x]) [h] := by
      simp [uniqueSummits]
    rw [this, uniqueFold_one]
    have hh : Linked N k h := (hl h).2 (by simp)
    constructor
    · intro h1 u v hu hv
      have hto : ∀ w, Linked N k w → N.setEq w h = true := by
        intro w hw
        rcases List.mem_cons.1 ((hl w).1 hw) with rfl | hm
        · exact hrefl w hw
        · exact h1 w hm
      exact htrans u h v hu hh hv (hto u hu) (hsymm v h hv hh (hto v hv))
    · intro h1 x hx
      exact h1 x h ((hl x).2 (List.mem_cons_of_mem _ hx)) hh

/-- What `set` does with the summits of saddle `k`. -/
def OneSource (N : FNet) (k : Nat) : Prop :=
  (uniqueSummits N ((N.sadLinks k).map fun i => (N.link i).1)).length ≤ 1

theorem stubPass_spec (N : FNet) : ∀ (feats : List Nat) (f : Flags),
    (stubPass N feats f).over = f.over ∧ (stubPass N feats f).basin = f.basin ∧
    (stubPass N feats f).alts = f.alts ∧
    (∀ j, (stubPass N feats f).single j = true ↔
      f.single j = true ∨ (j ∈ feats ∧ ¬ SaddleOut f j ∧ OneSource N j)) ∧
    ∀ i, (stubPass N feats f).linkDisq i = true ↔
      f.linkDisq i = true ∨ ∃ j ∈ feats, ¬ SaddleOut f j ∧ OneSource N j ∧ i ∈ N.sadLinks j := by
  intro feats
  induction feats with
  | nil => intro f; simp [stubPass]
  | cons k feats ih =>
    intro f
    have hstep : stubPass N (k :: feats) f =
        stubPass N feats (if f.saddleDisq k then f else singleSource N f k) := rfl
    rw [hstep]
    by_cases hk : f.saddleDisq k = true
    · rw [if_pos hk]
      have hk' := (saddleDisq_iff f k).1 hk
      obtain ⟨h1, h2, h3, h4, h5⟩ := ih f
      refine ⟨h1, h2, h3, fun j => ?_, fun i => ?_⟩
      · rw [h4]
        constructor
        · rintro (h | ⟨a, b⟩)
          · exact .inl h
          · exact .inr ⟨List.mem_cons_of_mem _ a, b⟩
        · rintro (h | ⟨a, b⟩)
          · exact .inl h
          · rcases List.mem_cons.1 a with rfl | a
            · exact absurd hk' b.1
            · exact .inr ⟨a, b⟩
      · rw [h5]
        constructor
        · rintro (h | ⟨j, a, b⟩)
          · exact .inl h
          · exact .inr ⟨j, List.mem_cons_of_mem _ a, b⟩
        · rintro (h | ⟨j, a, b⟩)
          · exact .inl h
          · rcases List.mem_cons.1 a with rfl | a
            · exact absurd hk' b.1
            · exact .inr ⟨j, a, b⟩
    · rw [if_neg hk]
      have hk' : ¬ SaddleOut f k := fun h => hk ((saddleDisq_iff f k).2 h)
      by_cases hone : OneSource N k
      · have he : singleSource N f k = disqualifySelf N f k false true := if_pos hone
        rw [he]
        obtain ⟨h1, h2, h3, h4, h5⟩ := ih (disqualifySelf N f k false true)
        have hov : (disqualifySelf N f k false true).over = f.over := by
          funext j; simp [disqualifySelf]
        have hba : (disqualifySelf N f k false true).basin = f.basin := by
          funext j; simp [disqualifySelf]
        have hsi : ∀ j, (disqualifySelf N f k false true).single j = true ↔ j = k ∨ f.single j = true := by
          intro j
          by_cases h : j = k <;> simp [disqualifySelf, h]
        have hli : ∀ i, (disqualifySelf N f k false true).linkDisq i = true ↔
            i ∈ N.sadLinks k ∨ f.linkDisq i = true := by
          intro i; simp [disqualifySelf]
        have hout : ∀ j, j ≠ k → (SaddleOut (disqualifySelf N f k false true) j ↔ SaddleOut f j) := by
          intro j hj
          simp only [SaddleOut, hov, hba, hsi, hj, false_or]
        refine ⟨h1.trans hov, h2.trans hba, h3, fun j => ?_, fun i => ?_⟩
        · rw [h4, hsi]
          by_cases hj : j = k
          · subst hj
            simp [hk', hone]
          · rw [hout j hj]
            simp [hj]
        · rw [h5, hli]
          constructor
          · rintro ((h | h) | ⟨j, a, b, c, d⟩)
            · exact .inr ⟨k, by simp, hk', hone, h⟩
            · exact .inl h
            · by_cases hj : j = k
              · subst hj
                exact .inr ⟨j, by simp, hk', hone, d⟩
              · exact .inr ⟨j, List.mem_cons_of_mem _ a, fun h => b ((hout j hj).2 h), c, d⟩
          · rintro (h | ⟨j, a, b, c, d⟩)
            · exact .inl (.inr h)
            · by_cases hj : j = k
              · subst hj
                exact .inl (.inl d)
              · rcases List.mem_cons.1 a with rfl | a
                · exact absurd rfl hj
                · exact .inr ⟨j, a, fun h => b ((hout j hj).1 h), c, d⟩
      · have he : singleSource N f k = f := if_neg hone
        rw [he]
        obtain ⟨h1, h2, h3, h4, h5⟩ := ih f
        refine ⟨h1, h2, h3, fun j => ?_, fun i => ?_⟩
        · rw [h4]
          constructor
          · rintro (h | ⟨a, b⟩)
            · exact .inl h
            · exact .inr ⟨List.mem_cons_of_mem _ a, b⟩
          · rintro (h | ⟨a, b⟩)
            · exact .inl h
            · rcases List.mem_cons.1 a with rfl | a
              · exact absurd b.2 hone
              · exact .inr ⟨a, b⟩
        · rw [h5]
          constructor
          · rintro (h | ⟨j, a, b⟩)
            · exact .inl h
            · exact .inr ⟨j, List.mem_cons_of_mem _ a, b⟩
          · rintro (h | ⟨j, a, b⟩)
            · exact .inl h
            · rcases List.mem_cons.1 a with rfl | a
              · exact absurd b.2.1 hone
              · exact .inr ⟨j, a, b⟩

/-! ### Sorting -/

theorem insertElev_perm (elev : Nat → Rat) (k : Nat) : ∀ l, (insertElev elev k l).Perm (k :: l)
  | [] => List.Perm.refl _
  | j :: js => by
    unfold insertElev
    split
    · exact List.Perm.refl _
    · exact ((insertElev_perm elev k js).cons j).trans (List.Perm.swap _ _ _)

theorem sortElev_perm (elev : Nat → Rat) : ∀ l, (sortElev elev l).Perm l
  | [] => List.Perm.refl _
  | k :: ks => (insertElev_perm elev k _).trans ((sortElev_perm elev ks).cons k)

theorem insertElev_sorted (elev : Nat → Rat) (k : Nat) : ∀ l,
    (l.Pairwise fun a b => elev a ≤ elev b) → (insertElev elev k l).Pairwise fun a b => elev a ≤ elev b
  | [], _ => by simp [insertElev]
  | j :: js, h => by
    unfold insertElev
    rw [List.pairwise_cons] at h
    split
    · rename_i hk
      rw [List.pairwise_cons, List.pairwise_cons]
      refine ⟨fun b hb => ?_, h.1, h.2⟩
      rcases List.mem_cons.1 hb with rfl | hb
      · exact hk
      · exact le_trans hk (h.1 b hb)
    · rename_i hk
      rw [List.pairwise_cons]
      refine ⟨fun b hb => ?_, insertElev_sorted elev k js h.2⟩
      rcases List.mem_cons.1 ((insertElev_perm elev k js).subset hb) with rfl | hb
      · exact le_of_lt (not_le.1 hk)
      · exact h.1 b hb

theorem sortElev_sorted (elev : Nat → Rat) : ∀ l, (sortElev elev l).Pairwise fun a b => elev a ≤ elev b
  | [] => by simp [sortElev]
  | k :: ks => insertElev_sorted elev k _ (sortElev_sorted elev ks)

theorem features_spec (N : FNet) (saddles : List Nat) :
    (basinFeatures N saddles).Nodup ∧ (∀ k, k ∈ basinFeatures N saddles ↔ k ∈ saddles) ∧
    (basinFeatures N saddles).Pairwise (fun a b => N.elev (.saddle a) ≤ N.elev (.saddle b)) ∧
    (basinFeatures N saddles).length ≤ saddles.length := by
  have hp := sortElev_perm (fun k => N.elev (.saddle k)) (toSet saddles)
  refine ⟨hp.nodup_iff.2 (nodup_toSet _), fun k => ?_, sortElev_sorted _ _, ?_⟩
  · rw [← mem_toSet saddles k]; exact hp.mem_iff
  · have h1 : (basinFeatures N saddles).length = (toSet saddles).length := hp.length_eq
    rw [h1]
    exact ((nodup_toSet saddles).subperm fun x hx => (mem_toSet _ _).1 hx).length_le

/-! ### Effect of the disqualifications on the flags -/

theorem labelStep_cases {N : FNet} {f1 f f' : Flags} (h : LabelStep N f1 f f') :
    ∃ c k ls, Cycle N (Alive N f1) c ∧ findLowest N.elev c = .saddle k :: ls ∧
      f'.over = f.over ∧ f'.single = f.single ∧ (∀ j, f'.basin j = true ↔ j = k ∨ f.basin j = true) ∧
      (∀ i, f'.linkDisq i = true ↔ i ∈ N.sadLinks k ∨ f.linkDisq i = true) ∧
      f'.alts = if ls = [] then f.alts else fun n => if n ∈ .saddle k :: ls then
        removeFirst (fun x => decide (x = n) || N.eq x n) (.saddle k :: ls) else f.alts n := by
  obtain ⟨c, hc, he⟩ := h
  have hfold : ∀ (low l : List Node) (a : Node → List Node), l.foldl (fun (a : Node → List Node) n m =>
      if m = n then removeFirst (fun x => decide (x = n) || N.eq x n) low else a m) a =
      fun n => if n ∈ l then removeFirst (fun x => decide (x = n) || N.eq x n) low else a n := by
    intro low l
    induction l with
    | nil => intro a; simp
    | cons x l ih =>
      intro a
      rw [List.foldl_cons, ih]
      funext n
      by_cases h1 : n ∈ l
      · simp [h1]
      · by_cases h2 : n = x <;> simp [h1, h2]
  cases hl : findLowest N.elev c with
  | nil => rw [hl] at he; simp [disqualifyAndLabel] at he
  | cons y ls =>
    cases y with
    | summit D => rw [hl] at he; simp [disqualifyAndLabel] at he
    | saddle k =>
      rw [hl] at he
      refine ⟨c, k, ls, hc, hl, ?_⟩
      have hls : ∀ n ∈ ls, ∃ j, n = .saddle j := by
        intro n hn
        unfold disqualifyAndLabel at he
        dsimp only at he
        rw [if_pos (by cases ls with
          | nil => cases hn
          | cons _ _ => simp)] at he
        split at he
        · cases he
        · next ha =>
          simp only [Bool.not_eq_true', Bool.not_eq_false] at ha
          have := List.all_eq_true.1 ha n (List.mem_cons_of_mem _ hn)
          cases n with
          | saddle j => exact ⟨j, rfl⟩
          | summit D => cases this
      obtain ⟨f'', e1, e2, e3, e4⟩ := label_spec N f k ls hls
      have hall : ((Node.saddle k :: ls).all Node.isSaddle) = true := by
        rw [List.all_eq_true]
        intro n hn
        rcases List.mem_cons.1 hn with rfl | hn
        · rfl
        · obtain ⟨j, rfl⟩ := hls n hn
          rfl
      rw [e1] at he
      have he' : f'' = f' := by simpa using he
      subst he'
      refine ⟨e2, e3, e4, ?_, ?_⟩
      · intro i
        unfold disqualifyAndLabel at e1
        dsimp only at e1
        rw [hall] at e1
        simp only [Bool.not_true, Bool.false_eq_true, if_false] at e1
        split at e1 <;> simp only [Except.ok.injEq] at e1 <;> rw [← e1] <;> simp [disqualifySelf]
      · unfold disqualifyAndLabel at e1
        dsimp only at e1
        rw [hall] at e1
        simp only [Bool.not_true, Bool.false_eq_true, if_false] at e1
        cases ls with
        | nil =>
          simp only [List.length_singleton, gt_iff_lt, lt_irrefl, if_false, Except.ok.injEq] at e1
          rw [← e1]
          simp [disqualifySelf]
        | cons m ls =>
          rw [if_pos (by simp)] at e1
          simp only [Except.ok.injEq] at e1
          rw [← e1]
          dsimp only
          rw [hfold]
          simp [disqualifySelf]

theorem lowest_mem {N : FNet} {P : Node → Prop} {c ls : List Node} {y : Node} (hc : Cycle N P c)
    (h : findLowest N.elev c = y :: ls) :
    y :: ls = c.filter (fun n => decide (N.elev n = N.elev y)) ∧ ∀ n ∈ c, N.elev y ≤ N.elev n := by
  obtain ⟨l, ls', h1, h2, h3⟩ := findLowest_spec N.elev c
    (by intro e; have := hc.long; rw [e] at this; simp at this) hc.nodup
  rw [h, List.cons.injEq] at h1
  rw [h1.1, h1.2]
  exact ⟨h2, h3⟩

theorem steps_flags {N : FNet} {f1 f : Flags} (hov : ∀ k, f1.over k ≠ some false)
    (h : Relation.ReflTransGen (LabelStep N f1) f1 f) :
    f.single = f1.single ∧
    (∀ j, f1.basin j = true → f.basin j = true) ∧
    (∀ j, f.basin j = true → f1.basin j = true ∨
      ∃ c ls, Cycle N (Alive N f1) c ∧ findLowest N.elev c = .saddle j :: ls) ∧
    ∀ i, f.linkDisq i = true ↔ f1.linkDisq i = true ∨
      ∃ k, i ∈ N.sadLinks k ∧ f.basin k = true ∧ Alive N f1 (.saddle k) := by
  induction h with
  | refl =>
    refine ⟨rfl, fun _ h => h, fun _ h => .inl h, fun i => ⟨.inl, ?_⟩⟩
    rintro (h | ⟨k, _, h1, h2⟩)
    · exact h
    · refine absurd ?_ h2.1
      have h3 := hov k
      cases e : f1.over k with
      | none => exact .inr ⟨e, .inr h1⟩
      | some b =>
        cases b with
        | false => exact absurd e h3
        | true => exact .inl e
  | tail _ hs ih =>
    obtain ⟨h2, h3, h4, h5⟩ := ih
    obtain ⟨c, k, ls, hc, hl, e1, e2, e3, e4, _⟩ := labelStep_cases hs
    have hka : Alive N f1 (.saddle k) := by
      refine hc.mem _ ?_
      have : Node.saddle k ∈ Node.saddle k :: ls := by simp
      rw [(lowest_mem hc hl).1] at this
      exact (List.mem_filter.1 this).1
    refine ⟨e2.trans h2, fun j hj => (e3 j).2 (.inr (h3 j hj)), fun j hj => ?_, fun i => ?_⟩
    · rcases (e3 j).1 hj with rfl | hj
      · exact .inr ⟨c, ls, hc, hl⟩
      · exact h4 j hj
    · rw [e4, h5]
      constructor
      · rintro (h | h | ⟨k', a, b, d⟩)
        · exact .inr ⟨k, h, (e3 k).2 (.inl rfl), hka⟩
        · exact .inl h
        · exact .inr ⟨k', a, (e3 k').2 (.inr b), d⟩
      · rintro (h | ⟨k', a, b, d⟩)
        · exact .inr (.inl h)
        · rcases (e3 k').1 b with rfl | b
          · exact .inl a
          · exact .inr (.inr ⟨k', a, b, d⟩)

/-- The alternatives of a feature after the run. -/
theorem steps_alts {N : FNet} {f1 f : Flags} (h : Relation.ReflTransGen (LabelStep N f1) f1 f) (n : Node) :
    f.alts n = f1.alts n ∨ ∃ c k ls, Cycle N (Alive N f1) c ∧ findLowest N.elev c = .saddle k :: ls ∧
      f.basin k = true ∧ n ∈ Node.saddle k :: ls ∧
      f.alts n = removeFirst (fun x => decide (x = n) || N.eq x n) (.saddle k :: ls) := by
  induction h with
  | refl => exact .inl rfl
  | tail _ hs ih =>
    obtain ⟨c, k, ls, hc, hl, _, _, e3, _, e5⟩ := labelStep_cases hs
    by_cases hls : ls = []
    · rw [if_pos hls] at e5
      rw [e5]
      rcases ih with h | ⟨c', k', ls', a, b, d, e⟩
      · exact .inl h
      · exact .inr ⟨c', k', ls', a, b, (e3 k').2 (.inr d), e⟩
    · rw [if_neg hls] at e5
      by_cases hn : n ∈ Node.saddle k :: ls
      · refine .inr ⟨c, k, ls, hc, hl, (e3 k).2 (.inl rfl), hn, ?_⟩
        rw [e5]
        exact if_pos hn
      · rw [e5]
        dsimp only
        rw [if_neg hn]
        rcases ih with h | ⟨c', k', ls', a, b, d, e⟩
        · exact .inl h
        · exact .inr ⟨c', k', ls', a, b, (e3 k').2 (.inr d), e⟩

/-! ### The whole run -/

/-- What a run of basin detection does. -/
structure BasinResult (N : FNet) (saddles : List Nat) (f f' : Flags) : Prop where
  stub : Done N (stubPass N (basinFeatures N saddles) f) f'
  acyclic : ∀ c, ¬ Cycle N (Alive N f') c

theorem oneSource_iff {N : FNet} {saddles : List Nat} {f : Flags} (hN : NetOk N saddles f) (k : Nat)
    (he : N.edge (.saddle k) = false) :
    OneSource N k ↔ ∀ u v, Linked N k u → Linked N k v → u = v := by
  unfold OneSource
  rw [unique_iff (k := k) (fun a ha => (hN.setEq k a a he ha ha).2 rfl)
    (fun a b ha hb h => (hN.setEq k b a he hb ha).2 ((hN.setEq k a b he ha hb).1 h).symm)
    (fun a b c ha hb hc h1 h2 => (hN.setEq k a c he ha hc).2
      (((hN.setEq k a b he ha hb).1 h1).trans ((hN.setEq k b c he hb hc).1 h2)))]
  exact forall_congr' fun u => forall_congr' fun v =>
    ⟨fun h hu hv => (hN.setEq k u v he hu hv).1 (h hu hv), fun h hu hv => (hN.setEq k u v he hu hv).2 (h hu hv)⟩

theorem alive_stub {N : FNet} {saddles : List Nat} {f : Flags} (hov : ∀ k, f.over k ≠ some false) (n : Node) :
    Alive N (stubPass N (basinFeatures N saddles) f) n ↔
      Alive N f n ∧ ∀ k, n = .saddle k → k ∈ saddles → ¬ OneSource N k := by
  obtain ⟨h1, h2, _, h4, _⟩ := stubPass_spec N (basinFeatures N saddles) f
  have hmem := (features_spec N saddles).2.1
  cases n with
  | summit D => simp [Alive]
  | saddle k =>
    simp only [Alive, Node.saddle.injEq]
    have hout : SaddleOut (stubPass N (basinFeatures N saddles) f) k ↔
        SaddleOut f k ∨ (k ∈ saddles ∧ ¬ SaddleOut f k ∧ OneSource N k) := by
      have h3 := hov k
      have h4' := h4 k
      rw [hmem] at h4'
      simp only [SaddleOut, h1, h2, h4'] at *
      cases e : f.over k with
      | none => simp only [reduceCtorEq, true_and, false_or]; tauto
      | some b =>
        cases b with
        | false => exact absurd e h3
        | true => simp
    rw [hout]
    constructor
    · rintro ⟨a, b⟩
      refine ⟨⟨fun h => a (.inl h), b⟩, ?_⟩
      rintro j rfl hj ho
      exact a (.inr ⟨hj, fun h => a (.inl h), ho⟩)
    · rintro ⟨⟨a, b⟩, c⟩
      refine ⟨?_, b⟩
      rintro (h | ⟨h, _, h'⟩)
      · exact a h
      · exact c k rfl h h'

theorem basin_spec {N : FNet} {saddles : List Nat} {f : Flags} (hN : NetOk N saddles f) {fuel : Nat}
    (hfuel : saddles.length + N.nSaddles < fuel) :
    ∃ f', disqualifyBasinSaddles N fuel saddles f = .ok f' ∧ BasinResult N saddles f f' := by
  obtain ⟨g1, g2, g3, g4⟩ := features_spec N saddles
  have hst := stubPass_spec N (basinFeatures N saddles) f
  have hov : ∀ k, (stubPass N (basinFeatures N saddles) f).over k ≠ some false := by
    rw [hst.1]; exact hN.over
  have hstub : ∀ k D, Alive N (stubPass N (basinFeatures N saddles) f) (.saddle k) → Linked N k D →
      ∃ B, B ≠ D ∧ Linked N k B := by
    intro k D hk hD
    obtain ⟨ha, ho⟩ := (alive_stub hN.over _).1 hk
    by_contra hno
    refine ho k rfl (hN.listed k D ha hD) ((oneSource_iff hN k ha.2).2 ?_)
    have : ∀ u, Linked N k u → u = D := fun u hu => by
      by_contra hne
      exact hno ⟨u, hne, hu⟩
    intro u v hu hv
    rw [this u hu, this v hv]
  have hlive : liveCount N (stubPass N (basinFeatures N saddles) f) ≤ N.nSaddles := by
    unfold liveCount
    exact le_trans (List.length_filter_le _ _) (by simp)
  have hset : Settled N (stubPass N (basinFeatures N saddles) f) (basinFeatures N saddles) := by
    left
    intro j hj hm c hc hjc
    obtain ⟨pre, post, rfl⟩ := List.append_of_mem hjc
    obtain ⟨a, _, _, _, hja, _⟩ := cycle_open hc
    cases a with
    | saddle i => exact hja.elim
    | summit D =>
      exact hm ((g2 j).2 (hN.listed j D ((alive_stub hN.over _).1 hj).1 hja))
  obtain ⟨f', e1, e2, e3⟩ := basinLoop_spec hN hov hstub fuel _ (basinFeatures N saddles) (Done.refl N _) g1
    (fun k hk => hN.bound k ((g2 k).1 hk)) g3 hset (by omega)
  refine ⟨f', e1, e2, ?_⟩
  intro c hc
  have : ∃ k, Node.saddle k ∈ c := by
    have hl := hc.long
    match c, hl, hc.chain with
    | a :: b :: _, _, hch =>
      rw [List.isChain_cons_cons] at hch
      cases a with
      | saddle k => exact ⟨k, by simp⟩
      | summit D =>
        cases b with
        | summit D' => exact hch.1.elim
        | saddle k => exact ⟨k, by simp⟩
  obtain ⟨k, hk⟩ := this
  exact e3 k (hc.mem _ hk) c hc hk

/-! ### Termination on arbitrary networks -/

theorem lowestFold_weak (elev : Node → Rat) (c : List Node) : ∀ (rest : List Node) (low : Node) (more : List Node),
    (∀ n ∈ rest, n ∈ c) → low ∈ c →
    ∃ l ls, rest.foldl (lowestStep elev) (low :: more) = l :: ls ∧ l ∈ c ∧ elev l ≤ elev low ∧
      ∀ n ∈ rest, elev l ≤ elev n := by
  intro rest
  induction rest with
  | nil => intro low more _ h; exact ⟨low, more, rfl, h, le_refl _, by simp⟩
  | cons n rest ih =>
    intro low more hr hl
    rw [List.foldl_cons]
    have hr' : ∀ m ∈ rest, m ∈ c := fun m hm => hr m (List.mem_cons_of_mem _ hm)
    unfold lowestStep
    dsimp only
    split
    · rename_i h
      obtain ⟨l, ls, h1, h2, h3, h4⟩ := ih low (more ++ [n]) hr' hl
      refine ⟨l, ls, h1, h2, h3, fun m hm => ?_⟩
      rcases List.mem_cons.1 hm with rfl | hm
      · rw [h.1]; exact h3
      · exact h4 m hm
    · split
      · rename_i h
        obtain ⟨l, ls, h1, h2, h3, h4⟩ := ih n [] hr' (hr n (by simp))
        refine ⟨l, ls, h1, h2, le_trans h3 (le_of_lt h), fun m hm => ?_⟩
        rcases List.mem_cons.1 hm with rfl | hm
        · exact h3
        · exact h4 m hm
      · rename_i h
        obtain ⟨l, ls, h1, h2, h3, h4⟩ := ih low more hr' hl
        refine ⟨l, ls, h1, h2, h3, fun m hm => ?_⟩
        rcases List.mem_cons.1 hm with rfl | hm
        · exact le_trans h3 (not_lt.1 h)
        · exact h4 m hm

theorem findLowest_weak (elev : Node → Rat) (a : Node) (c : List Node) :
    ∃ l ls, findLowest elev (a :: c) = l :: ls ∧ l ∈ a :: c ∧ ∀ n ∈ a :: c, elev l ≤ elev n := by
  obtain ⟨l, ls, h1, h2, _, h4⟩ := lowestFold_weak elev (a :: c) (a :: c) a [] (fun _ h => h) (by simp)
  exact ⟨l, ls, h1, h2, h4⟩

theorem lowestFold_tied (elev : Node → Rat) (L : List Node) : ∀ (c low : List Node), (∀ n ∈ c, n ∈ L) →
    (∀ n ∈ low, n ∈ L ∧ ∀ m ∈ low, elev n = elev m) →
    ∀ n ∈ c.foldl (lowestStep elev) low, n ∈ L ∧ ∀ m ∈ c.foldl (lowestStep elev) low, elev n = elev m
  | [], _, _, h => h
  | x :: c, low, hc, h => by
    rw [List.foldl_cons]
    refine lowestFold_tied elev L c _ (fun n hn => hc n (List.mem_cons_of_mem _ hn)) ?_
    unfold lowestStep
    cases low with
    | nil => simp
    | cons l ls =>
      dsimp only
      split
      · next hx =>
        intro n hn
        have e : ∀ m ∈ l :: ls ++ [x], elev m = elev l := by
          intro m hm
          rcases List.mem_append.1 hm with hm | hm
          · exact (h m hm).2 l (by simp)
          · rw [List.mem_singleton.1 hm]; exact hx.1
        refine ⟨?_, fun m hm => (e n hn).trans (e m hm).symm⟩
        rcases List.mem_append.1 hn with hn | hn
        · exact (h n hn).1
        · rw [List.mem_singleton.1 hn]; exact hc x (by simp)
      · split
        · intro n hn
          rw [List.mem_singleton.1 hn]
          exact ⟨hc x (by simp), fun m hm => by rw [List.mem_singleton.1 hm]⟩
        · exact h

/-- All members that are returned are as low as the first. -/
theorem findLowest_tied (elev : Node → Rat) (c : List Node) (l : Node) (ls : List Node)
    (h : findLowest elev c = l :: ls) (n : Node) (hn : n ∈ ls) : n ∈ c ∧ elev l = elev n := by
  have := lowestFold_tied elev c c (c.take 1) (fun _ h => h) (by
    cases c with
    | nil => simp
    | cons a c => simp)
  rw [show c.foldl (lowestStep elev) (c.take 1) = l :: ls from h] at this
  exact ⟨(this n (by simp [hn])).1, (this l (by simp)).2 n (by simp [hn])⟩

theorem climbBack_weak {look : Node → Option Node} {root : Node} {keys : List Node} (pn : List Node)
    {d : Node → Nat} (hroot : root ∈ keys) (hrl : look root = some root)
    (hl : ∀ n ∈ keys, n ≠ root → ∃ p ∈ keys, look n = some p ∧ d p < d n) :
    ∀ (n : Nat) (cycle : List Node) (p : Node), p ∈ keys → d p < n →
    ∃ path, climbBack look root pn n cycle p = .ok (cycle ++ p :: path) ∧ (∀ m ∈ p :: path, m ∈ keys) ∧
      ∀ m ∈ path, m = root ∨ ∃ n ∈ p :: path, n ≠ root ∧ look n = some m := by
  intro n
  induction n with
  | zero => intro _ _ _ h; exact absurd h (Nat.not_lt_zero _)
  | succ n ih =>
    intro cycle p hp hd
    unfold climbBack
    by_cases hpn : p ∈ pn
    · rw [if_pos hpn]
      exact ⟨[], rfl, by simpa using hp, by simp⟩
    · rw [if_neg hpn]
      by_cases hr : p = root
      · rw [hr, hrl]
        dsimp only
        rw [if_pos rfl]
        exact ⟨[root], by simp, by simpa using hroot, by simp⟩
      · obtain ⟨q, hq, e1, e2⟩ := hl p hp hr
        rw [e1]
        dsimp only
        by_cases hqr : q = root
        · rw [if_pos hqr]
          refine ⟨[q], by simp, ?_, ?_⟩
          · intro m hm
            simp only [List.mem_cons, List.not_mem_nil, or_false] at hm
            rcases hm with rfl | rfl
            · exact hp
            · exact hq
          · intro m hm
            rw [List.mem_singleton] at hm
            exact .inl (hm.trans hqr)
        · rw [if_neg hqr]
          obtain ⟨path, h1, h2, h3⟩ := ih (cycle ++ [p]) q hq (by omega)
          refine ⟨q :: path, by rw [h1]; simp, ?_, ?_⟩
          · intro m hm
            rcases List.mem_cons.1 hm with rfl | hm
            · exact hp
            · exact h2 m hm
          · intro m hm
            rcases List.mem_cons.1 hm with rfl | hm
            · exact .inr ⟨p, by simp, hr, e1⟩
            · rcases h3 m hm with h | ⟨x, hx, h⟩
              · exact .inl h
              · exact .inr ⟨x, List.mem_cons_of_mem _ hx, h⟩

/-- Invariant of the search on an arbitrary network. -/
structure Weak (N : FNet) (f0 : Flags) (F0 : List Nat) (root : Node) (s : DSt) : Prop where
  used : ∀ n, s.used n ≠ none ↔ n ∈ s.keys
  keysNodup : s.keys.Nodup
  sub : ∀ n ∈ s.stack, n ∈ s.keys
  rootKey : root ∈ s.keys
  rootLook : s.look root = some root
  look : ∃ d : Node → Nat, (∀ n ∈ s.keys, d n < s.keys.length) ∧
    ∀ n ∈ s.keys, n ≠ root → ∃ p ∈ s.keys, s.look n = some p ∧ d p < d n ∧ n ∈ N.nbrs p
  mono : ∀ n, Alive N s.flags n → Alive N f0 n
  over : s.flags.over = f0.over
  alive0 : ∀ n ∈ s.keys, Alive N f0 n
  range : ∀ n ∈ s.keys, match n with
    | .summit D => D < N.nSummits
    | .saddle k => k < N.nSaddles
  prog : s.cyc ≠ [] → ∃ k, k < N.nSaddles ∧ Alive N f0 (.saddle k) ∧ ¬ Alive N s.flags (.saddle k)
  none : s.cyc = [] → s.flags = f0
  feats : s.feats.Sublist F0

theorem nbrs_above {N : FNet} {saddles : List Nat} {g f : Flags} (hN : NetFin N saddles g) {a b : Node}
    (h : b ∈ N.nbrs a) (ha : Alive N f a) (hb : Alive N f b) :
    (∀ D, a = .summit D → N.elev b < N.elev a ∧ ∃ k, b = .saddle k) ∧
    (∀ D, b = .summit D → N.elev a < N.elev b ∧ ∃ k, a = .saddle k) := by
  cases a with
  | summit D =>
    obtain ⟨i, hi, rfl⟩ := List.mem_map.1 h
    refine ⟨fun D' _ => ⟨((hN.sum D i hi).2 hb.edge), _, rfl⟩, fun D' e => by cases e⟩
  | saddle k =>
    obtain ⟨i, hi, rfl⟩ := List.mem_map.1 h
    exact ⟨fun D' e => (by cases e), fun D' _ => ⟨((hN.sad k ha.edge i hi).2), _, rfl⟩⟩

theorem exploreNbr_weak {N : FNet} {saddles : List Nat} {g f0 : Flags} (hN : NetFin N saddles g)
    {F0 : List Nat} {r : Nat} {z nbr : Node} {s : DSt} (hov : ∀ k, f0.over k ≠ some false)
    (h : Weak N f0 F0 (.saddle r) s) (hz : z ∈ s.keys) (hn : nbr ∈ N.nbrs z) :
    ∃ s', exploreNbr N (.saddle r) z s nbr = .ok s' ∧ Weak N f0 F0 (.saddle r) s' ∧
      (∀ n ∈ s.keys, n ∈ s'.keys) ∧
      s'.keys.length + s.stack.length = s.keys.length + s'.stack.length := by
  unfold exploreNbr
  by_cases hdead : N.dead s.flags nbr = true
  · rw [if_pos hdead]
    exact ⟨_, rfl, { h with feats := List.filter_sublist.trans h.feats }, fun _ h => h, rfl⟩
  · rw [if_neg hdead]
    have hal : Alive N s.flags nbr := by rw [← alive_iff]; simpa using hdead
    cases hu : s.used nbr with
    | none =>
      dsimp only
      have hk : nbr ∉ s.keys := fun hm => (h.used nbr).2 hm hu
      have hz0 : ∀ n, n ∈ s.keys → n ≠ nbr := fun n hn e => hk (e ▸ hn)
      refine ⟨_, rfl, ?_, fun n hn => List.mem_append_left _ hn, by simp; omega⟩
      constructor
      · intro n
        by_cases e : n = nbr
        · simp [e]
        · simp only [e, if_false, List.mem_append, List.mem_singleton, or_false]
          exact h.used n
      · simp only
        rw [List.nodup_append]
        refine ⟨h.keysNodup, by simp, ?_⟩
        intro a ha b hb'
        rw [List.mem_singleton.1 hb']
        exact hz0 a ha
      · intro n hn
        rw [List.mem_append, List.mem_singleton]
        rcases List.mem_cons.1 hn with rfl | hn
        · exact .inr rfl
        · exact .inl (h.sub n hn)
      · exact List.mem_append_left _ h.rootKey
      · simp only [hz0 _ h.rootKey, if_false]; exact h.rootLook
      · obtain ⟨d, h1, h2⟩ := h.look
        refine ⟨fun n => if n = nbr then s.keys.length else d n, ?_, ?_⟩
        · intro n hn
          simp only [List.length_append, List.length_singleton]
          by_cases e : n = nbr
          · simp [e]
          · simp only [e, if_false]
            rw [List.mem_append, List.mem_singleton] at hn
            have := h1 n (hn.resolve_right e)
            omega
        · intro n hn hr
          rw [List.mem_append, List.mem_singleton] at hn
          by_cases e : n = nbr
          · subst e
            refine ⟨z, List.mem_append_left _ hz, by simp, ?_, hn.elim (fun h => absurd h hk) fun _ => by assumption⟩
            simp only [hz0 z hz, if_false, if_true]
            exact h1 z hz
          · obtain ⟨p, a, b, c, e'⟩ := h2 n (hn.resolve_right e) hr
            refine ⟨p, List.mem_append_left _ a, by simp only [e, if_false]; exact b, ?_, e'⟩
            simp only [e, hz0 p a, if_false]
            exact c
      · exact h.mono
      · exact h.over
      · intro n hn
        rw [List.mem_append, List.mem_singleton] at hn
        rcases hn with hn | rfl
        · exact h.alive0 n hn
        · exact h.mono _ hal
      · intro n hn'
        rw [List.mem_append, List.mem_singleton] at hn'
        rcases hn' with hn' | rfl
        · exact h.range n hn'
        · cases z with
          | summit D => obtain ⟨i, hi, rfl⟩ := List.mem_map.1 hn; exact (hN.sum D i hi).1
          | saddle k => obtain ⟨i, hi, rfl⟩ := List.mem_map.1 hn; exact (hN.sad k (h.alive0 _ hz).edge i hi).1
      · exact h.prog
      · exact h.none
      · exact h.feats
    | some pn =>
      dsimp only
      have hkn : nbr ∈ s.keys := (h.used nbr).1 (by rw [hu]; simp)
      split
      · exact ⟨_, rfl, h, fun _ h => h, rfl⟩
      · split
        · exact ⟨_, rfl, h, fun _ h => h, rfl⟩
        · obtain ⟨d, h1, h2⟩ := h.look
          have hlz : ∃ p ∈ s.keys, s.look z = some p ∧ (p = .saddle r ∨ z ∈ N.nbrs p) := by
            by_cases hr : z = .saddle r
            · rw [hr]; exact ⟨_, h.rootKey, h.rootLook, .inl rfl⟩
            · obtain ⟨p, a, b, _, e⟩ := h2 z hz hr
              exact ⟨p, a, b, .inr e⟩
          obtain ⟨p, hp, e1, e2⟩ := hlz
          rw [e1]
          dsimp only
          obtain ⟨path, c1, c2, c3⟩ := climbBack_weak (look := s.look) (root := .saddle r) pn h.rootKey
            h.rootLook (d := d) (fun n hn hr => by
              obtain ⟨p, a, b, c, _⟩ := h2 n hn hr
              exact ⟨p, a, b, c⟩) (s.keys.length + 1) [nbr, z] p hp (by have := h1 p hp; omega)
          rw [c1]
          dsimp only [bind, Except.bind]
          obtain ⟨y, ls, g1, g2, g3⟩ := findLowest_weak N.elev nbr (z :: p :: path)
          have hall : ∀ n ∈ nbr :: z :: p :: path, n ∈ s.keys := by
            intro n hn'
            rcases List.mem_cons.1 hn' with rfl | hn'
            · exact hkn
            · rcases List.mem_cons.1 hn' with rfl | hn'
              · exact hz
              · exact c2 n hn'
          have hsads : ∀ y ∈ nbr :: z :: p :: path, (∀ n ∈ nbr :: z :: p :: path, N.elev y ≤ N.elev n) →
              ∃ k, y = .saddle k := by
            intro y g2 g3
            cases y with
            | saddle k => exact ⟨k, rfl⟩
            | summit D =>
              exfalso
              -- a summit on the chain has a lower saddle next to it
              have hlower : ∃ m ∈ nbr :: z :: p :: path, N.elev m < N.elev (.summit D) := by
                have hup : ∀ m ∈ nbr :: z :: p :: path, m ∈ N.nbrs (.summit D) →
                    ∃ m ∈ nbr :: z :: p :: path, N.elev m < N.elev (.summit D) := by
                  intro m hm hb
                  exact ⟨m, hm, ((nbrs_above hN hb (h.alive0 _ (hall _ g2)) (h.alive0 m (hall m hm))).1 D rfl).1⟩
                rcases List.mem_cons.1 g2 with e | g2'
                · subst e
                  exact ⟨z, by simp, ((nbrs_above hN hn (h.alive0 z hz) (h.alive0 _ hkn)).2 D rfl).1⟩
                · rcases List.mem_cons.1 g2' with e | g2'
                  · subst e
                    exact hup nbr (by simp) hn
                  · rcases List.mem_cons.1 g2' with e | g2'
                    · subst e
                      rcases e2 with e2 | e2
                      · cases e2
                      · exact hup z (by simp) e2
                    · rcases c3 _ g2' with e | ⟨n, hn', hr, hlk⟩
                      · cases e
                      · obtain ⟨q, _, b, _, e⟩ := h2 n (c2 n hn') hr
                        rw [hlk] at b
                        have : q = .summit D := by simpa using b.symm
                        subst this
                        exact hup n (by simp only [List.mem_cons] at hn' ⊢; tauto) e
              obtain ⟨m, hm, hlt⟩ := hlower
              exact absurd (g3 m hm) (not_le.2 hlt)
          obtain ⟨k, rfl⟩ := hsads y g2 g3
          have hls : ∀ n ∈ ls, ∃ j, n = .saddle j := by
            intro n hn
            obtain ⟨a, b⟩ := findLowest_tied N.elev _ _ _ g1 n hn
            exact hsads n a fun m hm => b ▸ g3 m hm
          have hk0 : Alive N f0 (.saddle k) := h.alive0 _ (hall _ g2)
          have hovk : s.flags.over k = none := by
            rw [h.over]
            have h1 := hov k
            have h2 : f0.over k ≠ some true := fun e => hk0.1 (.inl e)
            cases e : f0.over k with
            | none => rfl
            | some b => cases b <;> simp_all
          obtain ⟨f', l1, l2, l3, l4⟩ := label_spec N s.flags k ls hls
          have hal' := alive_label (N := N) l2 l3 l4 hovk
          rw [show [nbr, z] ++ p :: path = nbr :: z :: p :: path from rfl, g1, l1]
          refine ⟨_, rfl, ?_, fun _ h => h, rfl⟩
          exact { h with
            used := fun n => by
              by_cases e : n = nbr
              · simp [e, hkn]
              · simp only [e, if_false]; exact h.used n
            mono := fun n hn => h.mono n ((hal' n).1 hn).1
            over := l2.trans h.over
            prog := fun _ => ⟨k, h.range _ (hall _ g2), hk0, fun h => ((hal' _).1 h).2 rfl⟩
            none := fun hc => by simp at hc }

theorem exploreLoop_weak {N : FNet} {saddles : List Nat} {g f0 : Flags} (hN : NetFin N saddles g)
    {F0 : List Nat} {r : Nat} (hov : ∀ k, f0.over k ≠ some false) :
    ∀ (n : Nat) (s : DSt), Weak N f0 F0 (.saddle r) s →
    s.stack.length + (N.nSummits + N.nSaddles) < n + s.keys.length →
    ∃ s', exploreLoop N (.saddle r) n s = .ok s' ∧ Weak N f0 F0 (.saddle r) s' := by
  intro n
  induction n with
  | zero =>
    intro s h hn
    have := keys_length h.keysNodup h.range
    omega
  | succ n ih =>
    intro s h hn
    unfold exploreLoop
    cases hs : s.stack with
    | nil => exact ⟨s, rfl, h⟩
    | cons z rest =>
      dsimp only
      rw [hs, List.length_cons] at hn
      have hsub : ∀ m ∈ rest, m ∈ s.keys := fun m hm => h.sub m (by rw [hs]; exact List.mem_cons_of_mem _ hm)
      have hz : z ∈ s.keys := h.sub z (by rw [hs]; simp)
      split
      · refine ih _ ?_ (by dsimp only; omega)
        exact { h with sub := hsub, feats := List.filter_sublist.trans h.feats }
      · have hfold : ∀ (todo : List Node) (s : DSt), (∀ m ∈ todo, m ∈ N.nbrs z) → z ∈ s.keys →
            Weak N f0 F0 (.saddle r) s → ∃ s', todo.foldlM (exploreNbr N (.saddle r) z) s = .ok s' ∧
              Weak N f0 F0 (.saddle r) s' ∧
              s'.keys.length + s.stack.length = s.keys.length + s'.stack.length := by
          intro todo
          induction todo with
          | nil => intro s _ _ h; exact ⟨s, rfl, h, rfl⟩
          | cons m todo ih =>
            intro s ht hz h
            obtain ⟨s1, a1, a2, a3, a4⟩ := exploreNbr_weak hN hov h hz (ht m (by simp))
            obtain ⟨s2, b1, b2, b3⟩ := ih s1 (fun m hm => ht m (List.mem_cons_of_mem _ hm)) (a3 z hz) a2
            refine ⟨s2, ?_, b2, by omega⟩
            rw [List.foldlM_cons, a1]
            exact b1
        obtain ⟨s', e1, e2, e3⟩ := hfold (N.nbrs z) { s with stack := rest } (fun _ h => h) hz
          { h with sub := hsub }
        rw [e1]
        dsimp only at e3 ⊢
        refine ih s' e2 ?_
        have h4 := keys_length e2.keysNodup e2.range
        omega

theorem basinLoop_weak {N : FNet} {saddles : List Nat} {g : Flags} (hN : NetFin N saddles g) :
    ∀ (n : Nat) (f : Flags) (feats : List Nat), (∀ k, f.over k ≠ some false) → feats.Nodup →
    (∀ k ∈ feats, k < N.nSaddles) → feats.length + liveCount N f < n → ∃ f', basinLoop N n f feats = .ok f' := by
  intro n
  induction n with
  | zero => intro _ _ _ _ _ h; exact absurd h (Nat.not_lt_zero _)
  | succ n ih =>
    intro f feats hov hnd hb hlt
    unfold basinLoop
    rcases List.eq_nil_or_concat feats with rfl | ⟨fs, r, hcat⟩
    · exact ⟨f, rfl⟩
    · have hfe : feats = fs ++ [r] := by simpa using hcat
      subst hfe
      have hgl : (fs ++ [r]).getLast? = some r := by simp
      rw [hgl]
      dsimp only
      rw [List.dropLast_concat]
      have hndf : fs.Nodup := (List.nodup_append.1 hnd).1
      have hrf : r ∉ fs := fun hm => (List.nodup_append.1 hnd).2.2 r hm r (by simp) rfl
      by_cases hdead : N.dead f (.saddle r) = true
      · rw [if_pos hdead]
        exact ih f fs hov hndf (fun k hk => hb k (by simp [hk])) (by
          simp only [List.length_append, List.length_singleton] at hlt; omega)
      · rw [if_neg hdead]
        have hral : Alive N f (.saddle r) := by rw [← alive_iff]; simpa using hdead
        have hst : Weak N f fs (.saddle r) (.start (.saddle r) f fs) := by
          have h := start_search (F0 := fs) hral (hb r (by simp))
          refine ⟨h.used, h.keysNodup, fun n hn => h.sub n (.inl hn), h.rootKey, h.rootLook,
            ⟨fun _ => 0, by simp [DSt.start], ?_⟩, h.mono, h.over, h.alive0, h.range, h.prog,
            fun hc => (h.none hc).1, h.feats.1⟩
          intro n hn hne
          exact absurd (by simpa [DSt.start] using hn) hne
        obtain ⟨s, e1, hs⟩ := exploreLoop_weak hN hov (N.nSummits + N.nSaddles + 2) _ hst (by
          simp only [DSt.start, List.length_singleton]; omega)
        rw [e1]
        dsimp only
        generalize hX : (s.feats.filter fun k =>
          !(decide (Node.saddle k ∈ s.keys) && !decide (Node.saddle k ∈ s.cyc))) = X
        have hXsub : X.Sublist fs := by
          rw [← hX]; exact List.filter_sublist.trans hs.feats
        have hov' : ∀ k, s.flags.over k ≠ some false := by rw [hs.over]; exact hov
        have hrX : r ∉ X := fun hm => hrf (hXsub.subset hm)
        have hlen := hXsub.length_le
        simp only [List.length_append, List.length_singleton] at hlt
        by_cases hcy : s.cyc = []
        · rw [if_pos hcy]
          refine ih s.flags X hov' (hXsub.nodup hndf) (fun k hk => hb k (by simp [hXsub.subset hk])) ?_
          rw [hs.none hcy]
          omega
        · rw [if_neg hcy, if_neg hrX]
          have hXr : (X ++ [r]).Sublist (fs ++ [r]) := hXsub.append (List.Sublist.refl _)
          refine ih s.flags (X ++ [r]) hov' (hXr.nodup hnd) (fun k hk => hb k (hXr.subset hk)) ?_
          obtain ⟨k, hk, h1, h2⟩ := hs.prog hcy
          have h3 := liveCount_lt hs.mono hk h1 h2
          simp only [List.length_append, List.length_singleton]
          omega

theorem basin_terminates {N : FNet} {saddles : List Nat} {f : Flags} (hN : NetFin N saddles f) {fuel : Nat}
    (hfuel : saddles.length + N.nSaddles < fuel) : ∃ f', disqualifyBasinSaddles N fuel saddles f = .ok f' := by
  obtain ⟨g1, g2, _, g4⟩ := features_spec N saddles
  have hst := stubPass_spec N (basinFeatures N saddles) f
  have hlive : liveCount N (stubPass N (basinFeatures N saddles) f) ≤ N.nSaddles := by
    unfold liveCount
    exact le_trans (List.length_filter_le _ _) (by simp)
  exact basinLoop_weak hN fuel _ _ (by rw [hst.1]; exact hN.over) g1
    (fun k hk => hN.bound k ((g2 k).1 hk)) (by omega)

/-! ### Effect on the flags of any network -/

/-- What the cycle search may do to the flags, whatever the network is. -/
structure Marked (N : FNet) (f f' : Flags) : Prop where
  single : f'.single = f.single
  over : f'.over = f.over
  basin : ∀ k, f.basin k = true → f'.basin k = true
  link : ∀ i, f.linkDisq i = true → f'.linkDisq i = true
  all : ∀ k, f'.basin k = true → f.basin k = true ∨ ∀ i ∈ N.sadLinks k, f'.linkDisq i = true
  only : ∀ i, f'.linkDisq i = true → f.linkDisq i = true ∨ ∃ k, f'.basin k = true ∧ i ∈ N.sadLinks k

theorem Marked.refl (N : FNet) (f : Flags) : Marked N f f :=
  ⟨rfl, rfl, fun _ h => h, fun _ h => h, fun _ h => .inl h, fun _ h => .inl h⟩

theorem Marked.trans {N : FNet} {f g h : Flags} (h1 : Marked N f g) (h2 : Marked N g h) : Marked N f h where
  single := h2.single.trans h1.single
  over := h2.over.trans h1.over
  basin k hk := h2.basin k (h1.basin k hk)
  link i hi := h2.link i (h1.link i hi)
  all k hk := by
    rcases h2.all k hk with h | h
    · rcases h1.all k h with h | h
      · exact .inl h
      · exact .inr fun i hi => h2.link i (h i hi)
    · exact .inr h
  only i hi := by
    rcases h2.only i hi with h | h
    · rcases h1.only i h with h | ⟨k, h, h'⟩
      · exact .inl h
      · exact .inr ⟨k, h2.basin k h, h'⟩
    · exact .inr h

theorem disqualifySelf_marked (N : FNet) (f : Flags) (k : Nat) :
    Marked N f (disqualifySelf N f k true false) where
  single := by simp [disqualifySelf]
  over := by simp [disqualifySelf]
  basin j hj := by simp [disqualifySelf, hj]
  link i hi := by simp [disqualifySelf, hi]
  all j hj := by
    simp only [disqualifySelf, Bool.true_and, decide_eq_true_eq] at hj ⊢
    by_cases h : j = k
    · subst h; exact .inr fun i hi => by simp [hi]
    · rw [if_neg h] at hj; exact .inl hj
  only i hi := by
    simp only [disqualifySelf, Bool.or_eq_true, decide_eq_true_eq] at hi
    rcases hi with h | h
    · exact .inr ⟨k, by simp [disqualifySelf], h⟩
    · exact .inl h

theorem label_marked {N : FNet} {f f' : Flags} {low : List Node} (h : disqualifyAndLabel N f low = .ok f') :
    Marked N f f' := by
  unfold disqualifyAndLabel at h
  split at h
  · cases h
  · cases h
  · dsimp only at h
    rename_i k _
    have := disqualifySelf_marked N f k
    split at h
    · split at h
      · cases h
      cases h
      exact ⟨this.single, this.over, this.basin, this.link, this.all, this.only⟩
    · cases h
      exact this

theorem exploreNbr_marked {N : FNet} {root z nbr : Node} {s s' : DSt}
    (h : exploreNbr N root z s nbr = .ok s') : Marked N s.flags s'.flags := by
  unfold exploreNbr at h
  split at h
  · cases h; exact .refl _ _
  · split at h
    · cases h; exact .refl _ _
    · split at h
      · cases h; exact .refl _ _
      · split at h
        · cases h; exact .refl _ _
        · split at h
          · cases h
          · obtain ⟨c, _, h⟩ := bind_ok h
            obtain ⟨g, hg, h⟩ := bind_ok h
            cases h
            exact label_marked hg

theorem exploreNbrs_marked {N : FNet} {root z : Node} : ∀ (l : List Node) (s s' : DSt),
    l.foldlM (exploreNbr N root z) s = .ok s' → Marked N s.flags s'.flags
  | [], s, s', h => by
    rw [List.foldlM_nil] at h; cases h; exact .refl _ _
  | n :: l, s, s', h => by
    rw [List.foldlM_cons] at h
    obtain ⟨s1, h1, h2⟩ := bind_ok h
    exact (exploreNbr_marked h1).trans (exploreNbrs_marked l s1 s' h2)

theorem exploreLoop_marked {N : FNet} {root : Node} : ∀ (n : Nat) (s s' : DSt),
    exploreLoop N root n s = .ok s' → Marked N s.flags s'.flags
  | 0, s, s', h => by cases h
  | n + 1, s, s', h => by
    unfold exploreLoop at h
    split at h
    · cases h; exact .refl _ _
    · split at h
      · rename_i z rest _ _
        exact exploreLoop_marked n { s with stack := rest, feats := popFeature s.feats z } s' h
      · split at h
        · cases h
        · rename_i s1 h1
          have h2 := exploreNbrs_marked _ _ _ h1
          exact h2.trans (exploreLoop_marked n s1 s' h)

theorem basinLoop_marked {N : FNet} : ∀ (n : Nat) (f f' : Flags) (feats : List Nat),
    basinLoop N n f feats = .ok f' → Marked N f f'
  | 0, f, f', feats, h => by cases h
  | n + 1, f, f', feats, h => by
    unfold basinLoop at h
    split at h
    · cases h; exact .refl _ _
    · split at h
      · exact basinLoop_marked n f f' _ h
      · split at h
        · cases h
        · rename_i s h1
          have h2 := exploreLoop_marked _ _ _ h1
          exact h2.trans (basinLoop_marked n _ f' _ h)

/-- A pass that succeeds marks stub saddles and then basin saddles. -/
theorem basins_marked {N : FNet} {fuel : Nat} {saddles : List Nat} {f f' : Flags}
    (h : disqualifyBasinSaddles N fuel saddles f = .ok f') :
    Marked N (stubPass N (basinFeatures N saddles) f) f' := basinLoop_marked _ _ _ _ h

/-! ### Alternatives -/

/-- The alternatives of `n` are what a cycle with ties left. -/
def Noted (N : FNet) (f1 f : Flags) (n : Node) : Prop :=
  ∃ c k ls, Cycle N (Alive N f1) c ∧ findLowest N.elev c = .saddle k :: ls ∧ ls ≠ [] ∧
    n ∈ Node.saddle k :: ls ∧
    f.alts n = removeFirst (fun x => decide (x = n) || N.eq x n) (.saddle k :: ls)

theorem noted_step {N : FNet} {f1 f f' : Flags} (hs : LabelStep N f1 f f') {n : Node}
    (h : Noted N f1 f n) : Noted N f1 f' n := by
  obtain ⟨c, k, ls, hc, hl, _, _, _, _, e5⟩ := labelStep_cases hs
  by_cases hls : ls = []
  · rw [if_pos hls] at e5
    obtain ⟨c', k', ls', a, b, d, e, g⟩ := h
    exact ⟨c', k', ls', a, b, d, e, by rw [e5]; exact g⟩
  · rw [if_neg hls] at e5
    by_cases hn : n ∈ Node.saddle k :: ls
    · exact ⟨c, k, ls, hc, hl, hls, hn, by rw [e5]; simp only [hn, if_true]⟩
    · obtain ⟨c', k', ls', a, b, d, e, g⟩ := h
      exact ⟨c', k', ls', a, b, d, e, by rw [e5]; simp only [hn, if_false]; exact g⟩

theorem steps_noted {N : FNet} {f1 f : Flags} (h : Relation.ReflTransGen (LabelStep N f1) f1 f) :
    (∀ n, f.alts n = f1.alts n ∨ Noted N f1 f n) ∧
    ∀ j, f.basin j = true → f1.basin j = true ∨ ∃ c ls, Cycle N (Alive N f1) c ∧
      findLowest N.elev c = .saddle j :: ls ∧ (ls = [] ∨ Noted N f1 f (.saddle j)) := by
  induction h with
  | refl => exact ⟨fun _ => .inl rfl, fun _ h => .inl h⟩
  | @tail g f2 _ hs ih =>
    have hs' := hs
    obtain ⟨c, k, ls, hc, hl, _, _, e3, _, e5⟩ := labelStep_cases hs
    have hnew : ls ≠ [] → ∀ n ∈ Node.saddle k :: ls, Noted N f1 f2 n := by
      intro hls n hn
      rw [if_neg hls] at e5
      exact ⟨c, k, ls, hc, hl, hls, hn, by rw [e5]; simp only [hn, if_true]⟩
    refine ⟨fun n => ?_, fun j hj => ?_⟩
    · by_cases hls : ls = []
      · rcases ih.1 n with h | h
        · rw [if_pos hls] at e5
          exact .inl (by rw [e5]; exact h)
        · exact .inr (noted_step hs' h)
      · by_cases hn : n ∈ Node.saddle k :: ls
        · exact .inr (hnew hls n hn)
        · rcases ih.1 n with h | h
          · rw [if_neg hls] at e5
            exact .inl (by rw [e5]; simp only [hn, if_false]; exact h)
          · exact .inr (noted_step hs' h)
    · rcases (e3 j).1 hj with rfl | h
      · refine .inr ⟨c, ls, hc, hl, ?_⟩
        by_cases hls : ls = []
        · exact .inl hls
        · exact .inr (hnew hls _ (by simp))
      · rcases ih.2 j h with h | ⟨c', ls', a, b, d⟩
        · exact .inl h
        · exact .inr ⟨c', ls', a, b, d.imp id (noted_step hs')⟩

/-- The alternatives are the other lowest members, if the comparison finds the saddle itself. -/
theorem removeFirst_mem {p : Node → Bool} {n : Node} : ∀ {l : List Node}, l.Nodup →
    (∀ x ∈ l, p x = true ↔ x = n) → ∀ m, m ∈ removeFirst p l ↔ m ∈ l ∧ m ≠ n
  | [], _, _, m => by simp [removeFirst]
  | x :: xs, hn, hp, m => by
    rw [List.nodup_cons] at hn
    unfold removeFirst
    by_cases hx : p x = true
    · rw [if_pos hx]
      have : x = n := (hp x (by simp)).1 hx
      subst this
      constructor
      · intro hm
        exact ⟨List.mem_cons_of_mem _ hm, fun e => hn.1 (e ▸ hm)⟩
      · rintro ⟨h1, h2⟩
        exact (List.mem_cons.1 h1).resolve_left h2
    · rw [if_neg hx, List.mem_cons, removeFirst_mem hn.2 (fun y hy => hp y (List.mem_cons_of_mem _ hy)),
        List.mem_cons]
      have hne : x ≠ n := fun e => hx ((hp x (by simp)).2 e)
      constructor
      · rintro (rfl | ⟨h1, h2⟩)
        · exact ⟨.inl rfl, hne⟩
        · exact ⟨.inr h1, h2⟩
      · rintro ⟨rfl | h1, h2⟩
        · exact .inl rfl
        · exact .inr ⟨h1, h2⟩

end PyProm
