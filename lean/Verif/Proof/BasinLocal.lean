import Verif.Proof.Basin

/-
Basin detection seen from a part of a network which is in order, whatever the rest of the network is
-/
namespace PyProm
open Spec

/-- The saddles of `G` are in order: each is at least `t` high and off the edge, has at most two linkers, all of them listed at both
ends, and a saddle at least `t` high which is off the edge and has a linker, listed at either end, to a summit of a
member is a member. -/
structure Sound (N : FNet) (saddles : List Nat) (t : Rat) (G : Nat → Prop) : Prop where
  level : ∀ k, G k → t ≤ N.elev (.saddle k)
  sad : ∀ k, G k → ∀ i ∈ N.sadLinks k, (N.link i).2 = k ∧ i ∈ N.sumLinks (N.link i).1
  sum : ∀ D, ∀ i ∈ N.sumLinks D, G (N.link i).2 → (N.link i).1 = D ∧ i ∈ N.sadLinks (N.link i).2
  sumOnce : ∀ D, (N.sumLinks D).Nodup
  two : ∀ k, G k → (N.sadLinks k).length ≤ 2
  closed : ∀ k j D, G k → Linked N k D → (Linked N j D ∨ ∃ i ∈ N.sumLinks D, (N.link i).2 = j) →
    N.edge (.saddle j) = false → t ≤ N.elev (.saddle j) → G j
  listed : ∀ k, G k → k ∈ saddles
  eqElev : ∀ a b, N.eq a b = true → N.elev a = N.elev b
  setEq : ∀ k a b, G k → Linked N k a → Linked N k b → (N.setEq a b = true ↔ a = b)

/-- One of the two nodes is a member. -/
def Touches (G : Nat → Prop) (a b : Node) : Prop := ∃ k, G k ∧ (a = .saddle k ∨ b = .saddle k)

theorem Touches.symm {G : Nat → Prop} {a b : Node} (h : Touches G a b) : Touches G b a := by
  obtain ⟨k, h1, h2⟩ := h
  exact ⟨k, h1, h2.symm⟩

theorem mem_nbrs_sound {N : FNet} {saddles : List Nat} {t : Rat} {G : Nat → Prop} (h : Sound N saddles t G) {a b : Node}
    (hs : Touches G a b) : b ∈ N.nbrs a ↔ Joined N a b := by
  obtain ⟨k', hk', hab⟩ := hs
  cases a with
  | summit D =>
    cases b with
    | summit D' => simp [FNet.nbrs, Joined]
    | saddle k =>
      obtain rfl : k = k' := by simpa using hab
      simp only [FNet.nbrs, Joined, List.mem_map, Node.saddle.injEq, Linked]
      constructor
      · rintro ⟨i, hi, rfl⟩
        obtain ⟨h1, h2⟩ := h.sum D i hi hk'
        exact ⟨i, h2, h1⟩
      · rintro ⟨i, hi, rfl⟩
        obtain ⟨h1, h2⟩ := h.sad k hk' i hi
        exact ⟨i, h2, h1⟩
  | saddle k =>
    cases b with
    | summit D => simp [FNet.nbrs, Joined, Linked]
    | saddle k' => simp [FNet.nbrs, Joined]

/-! ### The list that is climbed -/

theorem isChain_of_mem {R S : Node → Node → Prop} : ∀ {l : List Node}, l.IsChain R →
    (∀ a b, a ∈ l → b ∈ l → R a b → S a b) → l.IsChain S := by
  intro l
  induction l with
  | nil => intro _ _; exact List.isChain_nil
  | cons a l ih =>
    intro hc h
    rw [List.isChain_cons] at hc ⊢
    refine ⟨fun b hb => h a b (by simp) (List.mem_cons_of_mem _ (List.mem_of_mem_head? hb)) (hc.1 b hb), ih hc.2 fun x y hx hy => ?_⟩
    exact h x y (List.mem_cons_of_mem _ hx) (List.mem_cons_of_mem _ hy)

/-- The next node on a found list is a parent of the one before, or the same node once more (the root). -/
def Back (N : FNet) (a b : Node) : Prop := a = b ∨ a ∈ N.nbrs b

theorem climbBack_back {N : FNet} {look : Node → Option Node} {root : Node} {keys : List Node} {pn : List Node}
    (hl : ∀ n ∈ keys, ∃ q ∈ keys, look n = some q ∧ Back N n q) :
    ∀ (n : Nat) (cycle : List Node) (p : Node) (c : List Node), p ∈ keys → climbBack look root pn n cycle p = .ok c →
    ∃ path, c = cycle ++ p :: path ∧ (p :: path).IsChain (Back N) ∧ ∀ m ∈ p :: path, m ∈ keys := by
  intro n
  induction n with
  | zero => intro _ _ _ _ h; cases h
  | succ n ih =>
    intro cycle p c hp h
    unfold climbBack at h
    by_cases hpn : p ∈ pn
    · rw [if_pos hpn] at h
      cases h
      exact ⟨[], rfl, by simp, by simpa using hp⟩
    · rw [if_neg hpn] at h
      obtain ⟨q, hq, e1, e2⟩ := hl p hp
      rw [e1] at h
      dsimp only at h
      split at h
      · cases h
        exact ⟨[q], by simp, by simpa using e2, by simp [hp, hq]⟩
      · obtain ⟨path, h1, h2, h3⟩ := ih _ q c hq h
        refine ⟨q :: path, by rw [h1]; simp, by rw [List.isChain_cons_cons]; exact ⟨e2, h2⟩, ?_⟩
        intro m hm
        rcases List.mem_cons.1 hm with rfl | hm
        · exact hp
        · exact h3 m hm

/-- A member, or a summit next to one. -/
def Nigh (N : FNet) (G : Nat → Prop) : Node → Prop
  | .saddle k => G k
  | .summit D => ∃ k, G k ∧ Linked N k D

theorem nigh_back {N : FNet} {saddles : List Nat} {t : Rat} {G : Nat → Prop} (hG : Sound N saddles t G) {a b : Node}
    (h : Back N a b) (ha : ∀ k, a = .saddle k → N.edge (.saddle k) = false ∧ t ≤ N.elev (.saddle k))
    (hb : ∀ k, b = .saddle k → N.edge (.saddle k) = false ∧ t ≤ N.elev (.saddle k)) : Nigh N G a ↔ Nigh N G b := by
  rcases h with rfl | h
  · exact Iff.rfl
  cases b with
  | saddle k =>
    obtain ⟨i, hi, rfl⟩ := List.mem_map.1 h
    have hl : Linked N k (N.link i).1 := ⟨i, hi, rfl⟩
    constructor
    · rintro ⟨j, hj, hjl⟩
      exact hG.closed j k _ hj hjl (.inl hl) (hb k rfl).1 (hb k rfl).2
    · intro hk
      exact ⟨k, hk, hl⟩
  | summit D =>
    obtain ⟨i, hi, rfl⟩ := List.mem_map.1 h
    constructor
    · intro hk
      obtain ⟨h1, h2⟩ := hG.sum D i hi hk
      exact ⟨_, hk, i, h2, h1⟩
    · rintro ⟨j, hj, hjl⟩
      exact hG.closed j _ D hj hjl (.inr ⟨i, hi, rfl⟩) (ha _ rfl).1 (ha _ rfl).2

theorem nigh_chain {N : FNet} {saddles : List Nat} {t : Rat} {G : Nat → Prop} (hG : Sound N saddles t G) :
    ∀ (l : List Node) (a : Node), (a :: l).IsChain (Back N) →
    (∀ k, Node.saddle k ∈ a :: l → N.edge (.saddle k) = false ∧ t ≤ N.elev (.saddle k)) →
    ∀ x ∈ a :: l, (Nigh N G x ↔ Nigh N G a) := by
  intro l
  induction l with
  | nil => intro a _ _ x hx; rw [List.mem_singleton.1 hx]
  | cons b l ih =>
    intro a hc hk x hx
    rw [List.isChain_cons_cons] at hc
    rcases List.mem_cons.1 hx with rfl | hx
    · exact Iff.rfl
    · refine (ih b hc.2 (fun k hm => hk k (List.mem_cons_of_mem _ hm)) x hx).trans
        (nigh_back hG hc.1 (fun k e => hk k (by simp [e])) fun k e => hk k (by simp [e])).symm

/-! ### The search -/

/-- Invariant of the search from `root` on an arbitrary network, as far as the members of `G` are concerned. -/
structure LSearch (N : FNet) (G : Nat → Prop) (f0 : Flags) (root : Node) (pend : Node → Node → Prop)
    (exp : List Node) (s : DSt) : Prop where
  used : ∀ n, s.used n ≠ none ↔ n ∈ s.keys
  lookKeys : ∀ n, s.look n ≠ none → n ∈ s.keys
  keysNodup : s.keys.Nodup
  stackNodup : s.stack.Nodup
  expNodup : exp.Nodup
  disj : ∀ n ∈ s.stack, n ∉ exp
  sub : ∀ n, n ∈ s.stack ∨ n ∈ exp → n ∈ s.keys
  part : ∀ n ∈ s.keys, n ∈ s.stack ∨ n ∈ exp ∨ ¬ Alive N s.flags n
  rootKey : root ∈ s.keys
  rootLook : s.look root = some root
  rootLast : ∀ x, exp.getLast? = some x → x = root
  look : ∀ n ∈ s.keys, n ≠ root → ∃ p, s.look n = some p ∧ Older exp p n ∧ n ∈ N.nbrs p ∧
    p ∈ (s.used n).getD []
  usedOk : ∀ n, ∀ x ∈ (s.used n).getD [], x ∈ exp ∧ n ∈ N.nbrs x
  seen : ∀ x ∈ exp, ∀ n, Touches G x n → Joined N x n → ¬ pend x n → (n ∈ exp ∨ Alive N s.flags n) →
    n ∈ (s.used x).getD [] ∨ x ∈ (s.used n).getD []
  chain : s.stack.Pairwise fun n m => ∀ p q, s.look n = some p → s.look m = some q →
    Anc s.look root q p
  mono : ∀ n, Alive N s.flags n → Alive N f0 n
  over : s.flags.over = f0.over
  alive0 : ∀ n ∈ s.keys, Alive N f0 n
  picks : ∀ k, G k → Alive N f0 (.saddle k) → ¬ Alive N s.flags (.saddle k) → ∀ u v, Linked N k u → Linked N k v →
    ConnectedBy N (okS N f0)
      (fun j => (G j ∧ Alive N s.flags (.saddle j)) ∧ Above N.elev exp (.saddle j) (.saddle k)) u v

theorem start_local {N : FNet} {G : Nat → Prop} {f : Flags} {F0 : List Nat} {r : Nat} (hr : Alive N f (.saddle r)) :
    LSearch N G f (.saddle r) (fun _ _ => False) [] (.start (.saddle r) f F0) := by
  have hmem : ∀ n, n ∈ (DSt.start (.saddle r) f F0).keys ↔ n = .saddle r := by
    intro n; simp [DSt.start]
  constructor
  · intro n
    rw [hmem]
    by_cases h : n = .saddle r <;> simp [DSt.start, h]
  · intro n
    rw [hmem]
    by_cases h : n = .saddle r <;> simp [DSt.start, h]
  · simp [DSt.start]
  · simp [DSt.start]
  · simp
  · simp
  · intro n h
    simpa [DSt.start] using h
  · intro n h
    rw [hmem] at h
    left
    simp [DSt.start, h]
  · rw [hmem]
  · simp [DSt.start]
  · simp
  · intro n h hne
    rw [hmem] at h
    exact absurd h hne
  · intro n x hx
    by_cases h : n = .saddle r <;> simp [DSt.start, h] at hx
  · simp
  · simp [DSt.start]
  · exact fun _ h => h
  · rfl
  · intro n h
    rw [hmem] at h
    rw [h]; exact hr
  · intro k _ h1 h2
    exact absurd h1 h2

theorem open_local {N : FNet} {G : Nat → Prop} {f0 : Flags} {root : Node} {exp : List Node} {s : DSt}
    (h : LSearch N G f0 root (fun _ _ => False) exp s) {z : Node} {rest : List Node}
    (hs : s.stack = z :: rest) (hz : Alive N s.flags z) (pend : List Node)
    (hp : ∀ n, Touches G z n → Joined N z n → n ∈ pend) :
    LSearch N G f0 root (fun x n => x = z ∧ n ∈ pend) (z :: exp) { s with stack := rest } ∧
      (∀ n, z ∉ (s.used n).getD []) ∧
      ∀ m ∈ rest, ∀ q, s.look m = some q → Anc s.look root q z := by
  have hzs : z ∈ s.stack := by rw [hs]; simp
  have hze : z ∉ exp := h.disj z hzs
  have hnd := h.stackNodup
  rw [hs, List.nodup_cons] at hnd
  have hch := h.chain
  rw [hs, List.pairwise_cons] at hch
  have hempty : exp = [] → z = root := by
    intro he
    by_contra hne
    obtain ⟨p, _, ho, _⟩ := h.look z (h.sub z (.inl hzs)) hne
    have := ho.mem
    rw [he] at this
    simp at this
  refine ⟨?_, ?_, ?_⟩
  · constructor
    · exact h.used
    · exact h.lookKeys
    · exact h.keysNodup
    · exact hnd.2
    · exact List.nodup_cons.2 ⟨hze, h.expNodup⟩
    · intro n hn hm
      rcases List.mem_cons.1 hm with rfl | hm
      · exact hnd.1 hn
      · exact h.disj n (by rw [hs]; exact List.mem_cons_of_mem _ hn) hm
    · intro n hn
      rcases hn with hn | hn
      · exact h.sub n (.inl (by rw [hs]; exact List.mem_cons_of_mem _ hn))
      · rcases List.mem_cons.1 hn with rfl | hn
        · exact h.sub n (.inl hzs)
        · exact h.sub n (.inr hn)
    · intro n hn
      rcases h.part n hn with h1 | h1 | h1
      · rw [hs] at h1
        rcases List.mem_cons.1 h1 with rfl | h1
        · exact .inr (.inl (by simp))
        · exact .inl h1
      · exact .inr (.inl (List.mem_cons_of_mem _ h1))
      · exact .inr (.inr h1)
    · exact h.rootKey
    · exact h.rootLook
    · intro x hx
      cases exp with
      | nil => simp only [List.getLast?_singleton, Option.some.injEq] at hx; rw [← hx]; exact hempty rfl
      | cons e exp => rw [List.getLast?_cons_cons] at hx; exact h.rootLast x hx
    · intro n hn hne
      obtain ⟨p, a, b, c, d⟩ := h.look n hn hne
      exact ⟨p, a, b.cons z, c, d⟩
    · intro n x hx
      obtain ⟨a, b⟩ := h.usedOk n x hx
      exact ⟨List.mem_cons_of_mem _ a, b⟩
    · intro x hx n ht hj hpd hor
      rcases List.mem_cons.1 hx with rfl | hx
      · exact absurd ⟨rfl, hp n ht hj⟩ hpd
      · refine h.seen x hx n ht hj (fun h => h) ?_
        rcases hor with hor | hor
        · rcases List.mem_cons.1 hor with rfl | hor
          · exact .inr hz
          · exact .inl hor
        · exact .inr hor
    · exact hch.2
    · exact h.mono
    · exact h.over
    · exact h.alive0
    · intro k hk a b u v hu hv
      exact conn_mono (fun _ h => h) (fun _ h => ⟨h.1, h.2.cons z⟩) (h.picks k hk a b u v hu hv)
  · intro n hm
    exact hze (h.usedOk n z hm).1
  · intro m hm q hq
    by_cases hr : z = root
    · have he : exp = [] := by
        by_contra hne
        have hx := List.getLast?_eq_getLast_of_ne_nil hne
        revert hx
        generalize exp.getLast hne = x
        intro hx
        have := h.rootLast x hx
        rw [this, ← hr] at hx
        exact hze (List.mem_of_getLast? hx)
      have hmne : m ≠ root := by
        rintro rfl
        exact hnd.1 (hr ▸ hm)
      obtain ⟨p, _, ho, _⟩ := h.look m (h.sub m (.inl (by rw [hs]; exact List.mem_cons_of_mem _ hm))) hmne
      have := ho.mem
      rw [he] at this
      simp at this
    · obtain ⟨p, hp', _⟩ := h.look z (h.sub z (.inl hzs)) hr
      exact Relation.ReflTransGen.head ⟨hr, hp'⟩ (hch.1 m hm p q hp' hq)

theorem found_local {N : FNet} {G : Nat → Prop} {f0 : Flags} {root z nbr : Node} {pend : Node → Node → Prop}
    {exp : List Node} {s : DSt} (h : LSearch N G f0 root pend (z :: exp) s)
    (hst : ∀ m ∈ s.stack, ∀ q, s.look m = some q → Anc s.look root q z)
    (hj : nbr ∈ N.nbrs z) (hn : nbr ∈ s.stack) (hzu : z ∉ (s.used nbr).getD []) :
    ∃ p path, s.look z = some p ∧
      climbBack s.look root ((s.used nbr).getD []) (s.keys.length + 1) [nbr, z] p = .ok ([nbr, z] ++ p :: path) ∧
      (nbr :: z :: p :: path).IsChain (fun a b => a ∈ N.nbrs b) ∧
      (nbr :: z :: p :: path).Pairwise (fun a b => Older (z :: exp) b a) ∧
      ∃ b ∈ (nbr :: z :: p :: path).getLast?, nbr ∈ N.nbrs b := by
  have hne : nbr ∉ z :: exp := h.disj nbr hn
  have hkn : nbr ∈ s.keys := h.sub _ (.inl hn)
  have hroot : root ∈ z :: exp := by
    have hx := List.getLast?_eq_getLast_of_ne_nil (l := z :: exp) (by simp)
    have := h.rootLast _ hx
    rw [← this]
    exact List.getLast_mem _
  have hnr : nbr ≠ root := fun e => hne (e ▸ hroot)
  obtain ⟨q, hq, _, _, hqu⟩ := h.look nbr hkn hnr
  have ha := hst nbr hn q hq
  have hqz : q ≠ z := fun e => hzu (e ▸ hqu)
  rcases Relation.ReflTransGen.cases_head ha with e | ⟨p, ⟨hzr, hlz⟩, ha'⟩
  · exact absurd e.symm hqz
  have hzk : z ∈ s.keys := h.sub _ (.inr (by simp))
  obtain ⟨p', e1, hpo, hpj, _⟩ := h.look z hzk hzr
  have : p' = p := by rw [hlz] at e1; simpa using e1.symm
  subst this
  have hlk : ∀ n ∈ z :: exp, n ≠ root → ∃ p, s.look n = some p ∧ Older (z :: exp) p n ∧ n ∈ N.nbrs p := by
    intro n hn hr
    obtain ⟨p, a, b, c, _⟩ := h.look n (h.sub _ (.inr hn)) hr
    exact ⟨p, a, b, c⟩
  obtain ⟨l1, l2, he, _⟩ := id hpo
  have hlen : (z :: exp).length ≤ s.keys.length :=
    (h.expNodup.subperm fun n hn => h.sub n (.inr hn)).length_le
  have hl2 : l2.length < s.keys.length + 1 := by
    rw [he] at hlen
    simp only [List.length_append, List.length_cons] at hlen
    omega
  obtain ⟨path, h1, h2, h3, b, h4, h5⟩ := climbBack_spec (R := fun a b => a ∈ N.nbrs b) hlk hqu _ [nbr, z] p' l1 l2
    he hl2 ha'
  have hpz : ∀ b ∈ p' :: path, Older (z :: exp) b z := by
    intro b hb
    rcases List.mem_cons.1 hb with rfl | hb
    · exact hpo
    · exact ((List.pairwise_cons.1 h3).1 b hb).trans hpo
  refine ⟨p', path, hlz, h1, ?_, ?_, b, ?_, (h.usedOk nbr b h5).2⟩
  · rw [List.isChain_cons_cons, List.isChain_cons_cons]
    exact ⟨hj, hpj, h2⟩
  · rw [List.pairwise_cons, List.pairwise_cons]
    refine ⟨fun b hb => ?_, hpz, h3⟩
    refine older_of_not_mem ?_ hne
    rcases List.mem_cons.1 hb with rfl | hb
    · simp
    · exact (hpz b hb).mem
  · rw [Option.mem_def] at h4 ⊢
    rw [List.getLast?_cons_cons, List.getLast?_cons_cons, h4]

theorem label_ok {N : FNet} {f f' : Flags} {l : List Node} (h : disqualifyAndLabel N f l = .ok f') :
    ∃ k ls, l = .saddle k :: ls ∧ f'.over = f.over ∧ f'.single = f.single ∧
      ∀ j, f'.basin j = true ↔ (j = k ∨ f.basin j = true) := by
  unfold disqualifyAndLabel at h
  cases l with
  | nil => cases h
  | cons n ls =>
    cases n with
    | summit D => cases h
    | saddle k =>
      refine ⟨k, ls, rfl, ?_⟩
      dsimp only at h
      split at h
      · split at h
        · cases h
        · cases h
          refine ⟨?_, ?_, ?_⟩
          · funext j; simp [disqualifySelf]
          · funext j; simp [disqualifySelf]
          · intro j
            by_cases h : j = k <;> simp [disqualifySelf, h]
      · cases h
        refine ⟨?_, ?_, ?_⟩
        · funext j; simp [disqualifySelf]
        · funext j; simp [disqualifySelf]
        · intro j
          by_cases h : j = k <;> simp [disqualifySelf, h]

/-- Invariant while the neighbours of `z` are looked at; `done` have been. -/
structure LInner (N : FNet) (G : Nat → Prop) (f0 : Flags) (root z : Node) (exp done todo : List Node)
    (s : DSt) : Prop where
  base : LSearch N G f0 root (fun x n => x = z ∧ n ∈ todo) (z :: exp) s
  usedZ : ∀ n, z ∈ (s.used n).getD [] → n ∈ done
  stackZ : ∀ m ∈ s.stack, ∀ q, s.look m = some q → Anc s.look root q z

/-- A member that is marked on a found list can be bypassed over members. -/
theorem bypass_local {N : FNet} {saddles : List Nat} {t : Rat} {G : Nat → Prop} (hG : Sound N saddles t G)
    {f0 : Flags} {root z nbr : Node} {pend : Node → Node → Prop} {exp : List Node} {s : DSt}
    (h : LSearch N G f0 root pend (z :: exp) s)
    {f' : Flags} {k : Nat} {path ls : List Node} (hk : G k)
    (hall : ∀ j, Node.saddle j ∈ nbr :: z :: path → G j)
    (hkeys : ∀ n ∈ nbr :: z :: path, n ∈ s.keys)
    (hch : (nbr :: z :: path).IsChain (fun a b => a ∈ N.nbrs b))
    (hpw : (nbr :: z :: path).Pairwise (fun a b => Older (z :: exp) b a))
    (hlast : ∃ b ∈ (nbr :: z :: path).getLast?, nbr ∈ N.nbrs b) (hlen : 3 ≤ (nbr :: z :: path).length)
    (hlow : findLowest N.elev (nbr :: z :: path) = .saddle k :: ls)
    (hal : ∀ n, Alive N f' n ↔ Alive N s.flags n ∧ n ≠ .saddle k) :
    ∀ u v, Linked N k u → Linked N k v → ConnectedBy N (okS N f0)
      (fun j => (G j ∧ Alive N f' (.saddle j)) ∧ Above N.elev (z :: exp) (.saddle j) (.saddle k)) u v := by
  have htouch : ∀ a b : Node, a ∈ nbr :: z :: path → b ∈ nbr :: z :: path → a ∈ N.nbrs b → Touches G b a := by
    intro a b ha hb hab
    cases b with
    | saddle j => exact ⟨j, hall j hb, .inl rfl⟩
    | summit D =>
      obtain ⟨i, hi, rfl⟩ := List.mem_map.1 hab
      exact ⟨_, hall _ ha, .inr rfl⟩
  have hjoin : ∀ a b : Node, a ∈ nbr :: z :: path → b ∈ nbr :: z :: path → a ∈ N.nbrs b → Joined N a b :=
    fun a b ha hb hab => ((mem_nbrs_sound hG (htouch a b ha hb hab)).1 hab).symm
  have hcyc : Cycle N (Alive N f0) (nbr :: z :: path) := by
    constructor
    · exact hlen
    · exact hpw.imp fun {a b} hab => by rintro rfl; exact hab.irrefl
    · exact isChain_of_mem hch hjoin
    · intro a ha x hx
      obtain ⟨b, hb, hb'⟩ := hlast
      obtain rfl : b = a := by
        rw [Option.mem_def] at ha hb
        rw [hb] at ha
        simpa using ha
      obtain rfl : nbr = x := by simpa using hx
      exact (hjoin _ _ (by simp) (List.mem_of_getLast? hb) hb').symm
    · exact fun n hn => h.alive0 n (hkeys n hn)
  obtain ⟨pre, y, post, ls', hc, hlow', hpre, hpost⟩ :=
    findLowest_split N.elev (nbr :: z :: path) (by simp) hcyc.nodup
  rw [hlow] at hlow'
  obtain ⟨rfl, rfl⟩ : Node.saddle k = y ∧ ls = ls' := by simpa using hlow'
  rw [hc] at hcyc hpw hall
  have hpw' := List.pairwise_append.1 hpw
  have habove : ∀ j, Node.saddle j ∈ pre ++ .saddle k :: post → j ≠ k →
      Above N.elev (z :: exp) (.saddle j) (.saddle k) := by
    intro j hj hne
    rcases List.mem_append.1 hj with hj | hj
    · exact .inl (hpre _ hj)
    · rcases List.mem_cons.1 hj with e | hj
      · exact absurd (by simpa using e) hne
      · rcases lt_or_eq_of_le (hpost _ hj) with h1 | h1
        · exact .inl h1
        · exact .inr ⟨h1, (List.pairwise_cons.1 hpw'.2.1).1 _ hj⟩
  refine cycle_bypass hcyc (hG.two k hk) (fun D hD => hcyc.mem _ hD) ?_
  intro j hj hne u v hu hv qu qv
  by_cases hja : Alive N s.flags (.saddle j)
  · exact conn_hop ⟨⟨hall j hj, (hal _).2 ⟨hja, fun e => hne (by simpa using e)⟩⟩, habove j hj hne⟩ hu hv qu qv
  · refine conn_mono (fun _ h => h) ?_ (h.picks j (hall j hj) (hcyc.mem _ hj) hja u v hu hv)
    intro i ⟨⟨hg, hi⟩, hab⟩
    refine ⟨⟨hg, (hal _).2 ⟨hi, ?_⟩⟩, hab.trans (habove j hj hne)⟩
    intro e
    rw [e] at hab
    exact hab.asymm (habove j hj hne)

theorem exploreNbr_local {N : FNet} {saddles : List Nat} {t : Rat} {G : Nat → Prop} (hG : Sound N saddles t G)
    {g f0 : Flags} (hN : NetFin N saddles g) {r : Nat} {z nbr : Node} {exp done todo : List Node} {s s' : DSt}
    (hov : ∀ k, f0.over k ≠ some false)
    (h : LInner N G f0 (.saddle r) z exp done (nbr :: todo) s) (hn : nbr ∈ N.nbrs z)
    (hd : Touches G z nbr → Alive N s.flags nbr → nbr ∉ done)
    (he : exploreNbr N (.saddle r) z s nbr = .ok s') :
    LInner N G f0 (.saddle r) z exp (done ++ [nbr]) todo s' := by
  have hb := h.base
  have hne : nbr ≠ z := nbrs_ne N hn
  have hkeep : ∀ x n, ¬ (x = z ∧ n = nbr) → ¬ (x = z ∧ n ∈ todo) → ¬ (x = z ∧ n ∈ nbr :: todo) := by
    rintro x n hc hp ⟨rfl, hm⟩
    rcases List.mem_cons.1 hm with rfl | hm
    · exact hc ⟨rfl, rfl⟩
    · exact hp ⟨rfl, hm⟩
  unfold exploreNbr at he
  by_cases hdead : N.dead s.flags nbr = true
  · rw [if_pos hdead] at he
    cases he
    have hna := (dead_iff N s.flags nbr).1 hdead
    refine ⟨?_, fun n hn => List.mem_append_left _ (h.usedZ n hn), h.stackZ⟩
    refine { hb with seen := ?_ }
    intro x hx n ht hxn hp hor
    by_cases hc : x = z ∧ n = nbr
    · obtain ⟨rfl, rfl⟩ := hc
      rcases hor with hor | hor
      · exact (hb.seen n hor x ht.symm hxn.symm (fun h => hne h.1) (.inl (by simp))).symm
      · exact absurd hor hna
    · exact hb.seen x hx n ht hxn (hkeep x n hc hp) hor
  · rw [if_neg hdead] at he
    have hal : Alive N s.flags nbr := by rw [← alive_iff]; simpa using hdead
    have hzk : z ∈ s.keys := hb.sub z (.inr (by simp))
    have hza : Alive N f0 z := hb.alive0 z hzk
    have hna : Alive N f0 nbr := hb.mono _ hal
    cases hu : s.used nbr with
    | none =>
      rw [hu] at he
      dsimp only at he
      cases he
      have hk : nbr ∉ s.keys := fun hm => (hb.used nbr).2 hm hu
      have hne' : nbr ∉ z :: exp := fun hm => hk (hb.sub _ (.inr hm))
      have hns : nbr ∉ s.stack := fun hm => hk (hb.sub _ (.inl hm))
      have hlm : ∀ n p, s.look n = some p → (if n = nbr then some z else s.look n) = some p := by
        intro n p hn
        have : n ≠ nbr := fun e => hk (e ▸ hb.lookKeys n (by rw [hn]; simp))
        rw [if_neg this]; exact hn
      have hz0 : ∀ n, n ∈ s.keys → n ≠ nbr := fun n hn e => hk (e ▸ hn)
      refine ⟨?_, ?_, ?_⟩
      · constructor
        · intro n
          by_cases e : n = nbr
          · simp [e]
          · simp only [e, if_false, List.mem_append, List.mem_singleton, or_false]
            exact hb.used n
        · intro n
          by_cases e : n = nbr
          · simp [e]
          · simp only [e, if_false, List.mem_append, List.mem_singleton, or_false]
            exact hb.lookKeys n
        · simp only
          rw [List.nodup_append]
          refine ⟨hb.keysNodup, by simp, ?_⟩
          intro a ha b hb'
          rw [List.mem_singleton.1 hb']
          exact hz0 a ha
        · exact List.nodup_cons.2 ⟨hns, hb.stackNodup⟩
        · exact hb.expNodup
        · intro n hn
          rcases List.mem_cons.1 hn with rfl | hn
          · exact hne'
          · exact hb.disj n hn
        · intro n hn
          rw [List.mem_append, List.mem_singleton]
          rcases hn with hn | hn
          · rcases List.mem_cons.1 hn with rfl | hn
            · exact .inr rfl
            · exact .inl (hb.sub n (.inl hn))
          · exact .inl (hb.sub n (.inr hn))
        · intro n hn
          rw [List.mem_append, List.mem_singleton] at hn
          rcases hn with hn | rfl
          · rcases hb.part n hn with h1 | h1 | h1
            · exact .inl (List.mem_cons_of_mem _ h1)
            · exact .inr (.inl h1)
            · exact .inr (.inr h1)
          · exact .inl (by simp)
        · exact List.mem_append_left _ hb.rootKey
        · exact hlm _ _ hb.rootLook
        · exact hb.rootLast
        · intro n hn' hr
          rw [List.mem_append, List.mem_singleton] at hn'
          rcases hn' with hn' | rfl
          · obtain ⟨p, a, b, c, d⟩ := hb.look n hn' hr
            refine ⟨p, hlm _ _ a, b, c, ?_⟩
            simp only [hz0 n hn', if_false]
            exact d
          · exact ⟨z, by simp, older_of_not_mem (by simp) hne', hn, by simp⟩
        · intro n x hx
          by_cases e : n = nbr
          · simp only [e, if_true, Option.getD_some, List.mem_singleton] at hx
            rw [hx, e]
            exact ⟨by simp, hn⟩
          · simp only [e, if_false] at hx
            exact hb.usedOk n x hx
        · intro x hx n ht hxn hp hor
          have hxk : x ≠ nbr := fun e => hne' (e ▸ hx)
          by_cases hc : n = nbr
          · subst hc
            by_cases hxz : x = z
            · subst hxz
              right; simp
            · exfalso
              have := hb.seen x hx n ht hxn (fun h => hxz h.1) (.inr hal)
              rw [hu] at this
              rcases this with h1 | h1
              · exact hne' (hb.usedOk x n h1).1
              · simp at h1
          · simp only [hxk, hc, if_false]
            exact hb.seen x hx n ht hxn (hkeep x n (fun h => hc h.2) hp) hor
        · rw [List.pairwise_cons]
          constructor
          · intro m hm p q h1 h2
            simp only [if_true, Option.some.injEq] at h1
            have hmn : m ≠ nbr := fun e => hns (e ▸ hm)
            simp only [hmn, if_false] at h2
            rw [← h1]
            exact (h.stackZ m hm q h2).mono hlm
          · refine hb.chain.imp_of_mem ?_
            intro a b ha hb' hab p q h1 h2
            have h3 : a ≠ nbr := fun e => hns (e ▸ ha)
            have h4 : b ≠ nbr := fun e => hns (e ▸ hb')
            simp only [h3, h4, if_false] at h1 h2
            exact (hab p q h1 h2).mono hlm
        · exact hb.mono
        · exact hb.over
        · intro n hn
          rw [List.mem_append, List.mem_singleton] at hn
          rcases hn with hn | rfl
          · exact hb.alive0 n hn
          · exact hna
        · exact hb.picks
      · intro n hn
        by_cases e : n = nbr
        · simp [e]
        · simp only [e, if_false] at hn
          exact List.mem_append_left _ (h.usedZ n hn)
      · intro m hm q hq
        rcases List.mem_cons.1 hm with rfl | hm
        · simp only [if_true, Option.some.injEq] at hq
          rw [← hq]; exact .refl
        · have : m ≠ nbr := fun e => hns (e ▸ hm)
          simp only [this, if_false] at hq
          exact (h.stackZ m hm q hq).mono hlm
    | some pn =>
      rw [hu] at he
      dsimp only at he
      have hkn : nbr ∈ s.keys := (hb.used nbr).1 (by rw [hu]; simp)
      have hnab := nbrs_above hN hn hza hna
      have heq : N.eq nbr z ≠ true := by
        intro e
        have he' := hG.eqElev _ _ e
        cases z with
        | summit D => exact absurd he' (ne_of_lt (hnab.1 D rfl).1)
        | saddle k =>
          cases nbr with
          | summit D => exact absurd he' (ne_of_gt (hnab.2 D rfl).1)
          | saddle k' => simp [FNet.nbrs] at hn
      rw [if_neg heq] at he
      by_cases hzu : nbr ∈ (s.used z).getD []
      · rw [if_pos hzu] at he
        cases he
        refine ⟨?_, fun n hn => List.mem_append_left _ (h.usedZ n hn), h.stackZ⟩
        refine { hb with seen := ?_ }
        intro x hx n ht hxn hp hor
        by_cases hc : x = z ∧ n = nbr
        · obtain ⟨rfl, rfl⟩ := hc
          exact .inl hzu
        · exact hb.seen x hx n ht hxn (hkeep x n hc hp) hor
      · rw [if_neg hzu] at he
        have hl : ∀ n ∈ s.keys, ∃ q ∈ s.keys, s.look n = some q ∧ Back N n q := by
          intro n hn
          by_cases e : n = .saddle r
          · rw [e]; exact ⟨_, hb.rootKey, hb.rootLook, .inl rfl⟩
          · obtain ⟨p, a, b, c, _⟩ := hb.look n hn e
            exact ⟨p, hb.sub p (.inr b.mem), a, .inr c⟩
        obtain ⟨p, hp, hlz, hzb⟩ := hl z hzk
        rw [hlz] at he
        dsimp only [bind, Except.bind] at he
        cases hcb : climbBack s.look (.saddle r) pn (s.keys.length + 1) [nbr, z] p with
        | error e => rw [hcb] at he; cases he
        | ok c =>
          rw [hcb] at he
          dsimp only at he
          obtain ⟨path, rfl, hback, hpk⟩ := climbBack_back hl _ _ _ _ hp hcb
          rw [show [nbr, z] ++ p :: path = nbr :: z :: p :: path from rfl] at he
          cases hlab : disqualifyAndLabel N s.flags (findLowest N.elev (nbr :: z :: p :: path)) with
          | error e => rw [hlab] at he; cases he
          | ok f' =>
            rw [hlab] at he
            cases he
            obtain ⟨k, ls, e1, e2, e3, e4⟩ := label_ok hlab
            obtain ⟨y, ls', g1, g2, g3⟩ := findLowest_weak N.elev nbr (z :: p :: path)
            rw [e1] at g1
            obtain ⟨rfl, rfl⟩ : Node.saddle k = y ∧ ls = ls' := by simpa using g1
            have hkeys : ∀ n ∈ nbr :: z :: p :: path, n ∈ s.keys := by
              intro n hn'
              rcases List.mem_cons.1 hn' with rfl | hn'
              · exact hkn
              · rcases List.mem_cons.1 hn' with rfl | hn'
                · exact hzk
                · exact hpk n hn'
            have hk0 : Alive N f0 (.saddle k) := hb.alive0 _ (hkeys _ g2)
            have hovk : s.flags.over k = none := by
              rw [hb.over]
              have h1 := hov k
              have h2 : f0.over k ≠ some true := fun e => hk0.1 (.inl e)
              cases e : f0.over k with
              | none => rfl
              | some b => cases b <;> simp_all
            have e6 := alive_label (N := N) e2 e3 e4 hovk
            have hby : G k → ∀ u v, Linked N k u → Linked N k v → ConnectedBy N (okS N f0)
                (fun j => (G j ∧ Alive N f' (.saddle j)) ∧ Above N.elev (z :: exp) (.saddle j) (.saddle k)) u v := by
              intro hk
              have hlev : ∀ j, Node.saddle j ∈ nbr :: z :: p :: path →
                  N.edge (.saddle j) = false ∧ t ≤ N.elev (.saddle j) := fun j hj =>
                ⟨(hb.alive0 _ (hkeys _ hj)).edge, le_trans (hG.level k hk) (g3 _ hj)⟩
              have hch : (nbr :: z :: p :: path).IsChain (Back N) := by
                rw [List.isChain_cons_cons, List.isChain_cons_cons]
                exact ⟨.inr hn, hzb, hback⟩
              have hall : ∀ j, Node.saddle j ∈ nbr :: z :: p :: path → G j := by
                intro j hj
                have hnc := nigh_chain hG _ _ hch hlev
                exact (hnc _ hj).2 ((hnc _ g2).1 hk)
              have ht : Touches G z nbr := by
                cases z with
                | saddle j => exact ⟨j, hall j (by simp), .inl rfl⟩
                | summit D =>
                  obtain ⟨i, hi, rfl⟩ := List.mem_map.1 hn
                  exact ⟨_, hall _ (by simp), .inr rfl⟩
              have hznu : z ∉ (s.used nbr).getD [] := fun hm => hd ht hal (h.usedZ nbr hm)
              have hj : Joined N z nbr := (mem_nbrs_sound hG ht).1 hn
              have hne' : nbr ∉ z :: exp := by
                intro hm
                rcases hb.seen nbr hm z ht.symm hj.symm (fun h => hne h.1) (.inl (by simp)) with h1 | h1
                · exact hznu h1
                · exact hzu h1
              have hns : nbr ∈ s.stack := by
                rcases hb.part nbr hkn with h1 | h1 | h1
                · exact h1
                · exact absurd h1 hne'
                · exact absurd hal h1
              obtain ⟨p', path', f1, f2, f3, f4, f5⟩ := found_local hb h.stackZ hn hns hznu
              obtain rfl : p = p' := by rw [hlz] at f1; simpa using f1
              rw [hu, Option.getD_some, hcb] at f2
              obtain rfl : path = path' := by simpa using f2
              exact bypass_local hG hb hk hall hkeys f3 f4 f5 (by simp) e1 e6
            have hsub : ∀ n x, x ∈ (s.used n).getD [] →
                x ∈ (if n = nbr then some (pn ++ [z]) else s.used n).getD [] := by
              intro n x hx
              by_cases e : n = nbr
              · rw [e, hu, Option.getD_some] at hx
                simp [e, hx]
              · simp only [e, if_false]; exact hx
            refine ⟨?_, ?_, h.stackZ⟩
            · constructor
              · intro n
                by_cases e : n = nbr
                · simp [e, hkn]
                · simp only [e, if_false]
                  exact hb.used n
              · exact hb.lookKeys
              · exact hb.keysNodup
              · exact hb.stackNodup
              · exact hb.expNodup
              · exact hb.disj
              · exact hb.sub
              · intro n hn
                rcases hb.part n hn with h1 | h1 | h1
                · exact .inl h1
                · exact .inr (.inl h1)
                · exact .inr (.inr fun h' => h1 ((e6 n).1 h').1)
              · exact hb.rootKey
              · exact hb.rootLook
              · exact hb.rootLast
              · intro n hn hr
                obtain ⟨p, a, b, c, d⟩ := hb.look n hn hr
                exact ⟨p, a, b, c, hsub _ _ d⟩
              · intro n x hx
                by_cases e : n = nbr
                · simp only [e, if_true, Option.getD_some, List.mem_append, List.mem_singleton] at hx
                  rw [e]
                  rcases hx with hx | rfl
                  · exact hb.usedOk nbr x (by rw [hu]; exact hx)
                  · exact ⟨by simp, hn⟩
                · simp only [e, if_false] at hx
                  exact hb.usedOk n x hx
              · intro x hx n ht hxn hp hor
                by_cases hc : x = z ∧ n = nbr
                · obtain ⟨rfl, rfl⟩ := hc
                  right; simp
                · exact (hb.seen x hx n ht hxn (hkeep x n hc hp) (hor.imp id fun h => ((e6 _).1 h).1)).imp
                    (hsub _ _) (hsub _ _)
              · exact hb.chain
              · exact fun n hn => hb.mono n ((e6 n).1 hn).1
              · exact e2.trans hb.over
              · exact hb.alive0
              · intro k' hk' ha hdd u v hu' hv'
                by_cases hkk' : k' = k
                · subst hkk'
                  exact hby hk' u v hu' hv'
                · have hd' : ¬ Alive N s.flags (.saddle k') := by
                    intro ha
                    exact hdd ((e6 _).2 ⟨ha, fun e => hkk' (by simpa using e)⟩)
                  refine conn_bind ?_ (hb.picks k' hk' ha hd' u v hu' hv')
                  intro j a b ⟨⟨hjg, hj⟩, hab⟩ la lb qa qb
                  by_cases hjk : j = k
                  · subst hjk
                    exact conn_mono (fun _ h => h) (fun i hi => ⟨hi.1, hi.2.trans hab⟩) (hby hjg a b la lb)
                  · exact conn_hop ⟨⟨hjg, (e6 _).2 ⟨hj, fun e => hjk (by simpa using e)⟩⟩, hab⟩ la lb qa qb
            · intro n hn
              by_cases e : n = nbr
              · simp [e]
              · simp only [e, if_false] at hn
                exact List.mem_append_left _ (h.usedZ n hn)

theorem nbrs_once_local {N : FNet} {saddles : List Nat} {t : Rat} {G : Nat → Prop} (hG : Sound N saddles t G) {f : Flags}
    (hstub : ∀ k D, G k → Alive N f (.saddle k) → Linked N k D → ∃ B, B ≠ D ∧ Linked N k B)
    {z n : Node} {done todo : List Node} (ht : Touches G z n) (h : N.nbrs z = done ++ n :: todo) (hz : Alive N f z)
    (hn : Alive N f n) : n ∉ done := by
  intro hm
  obtain ⟨g, hg, hgz⟩ := ht
  cases z with
  | summit D =>
    obtain ⟨l1, l2, e1, e2, e3⟩ := List.map_eq_append_iff.1 h
    obtain ⟨i, l3, e4, e5, _⟩ := List.map_eq_cons_iff.1 e3
    rw [← e2] at hm
    obtain ⟨i', hi', e6⟩ := List.mem_map.1 hm
    have hnd := hG.sumOnce D
    rw [e1, e4] at hnd
    have hne : i' ≠ i := by
      rintro rfl
      exact (List.nodup_append.1 hnd).2.2 i' hi' i' (by simp) rfl
    subst e5
    obtain rfl : (N.link i).2 = g := by simpa using hgz
    have e7 : (N.link i').2 = (N.link i).2 := by simpa using e6
    have hi := hG.sum D i (by rw [e1, e4]; simp) hg
    have hi'' := hG.sum D i' (by rw [e1]; simp [hi']) (by rw [e7]; exact hg)
    obtain ⟨B, hB, j, hj, e8⟩ := hstub _ D hg hn ⟨i, hi.2, hi.1⟩
    have hj1 : j ≠ i := by rintro rfl; exact hB (e8.symm.trans hi.1)
    have hj2 : j ≠ i' := by rintro rfl; exact hB (e8.symm.trans hi''.1)
    have hsub : [i, i', j].Subperm (N.sadLinks (N.link i).2) := by
      refine List.Nodup.subperm (by simp [hne.symm, hj1.symm, hj2.symm]) ?_
      intro x hx
      simp only [List.mem_cons, List.not_mem_nil, or_false] at hx
      rcases hx with rfl | rfl | rfl
      · exact hi.2
      · rw [← e7]; exact hi''.2
      · exact hj
    have h1 := hsub.length_le
    have h2 := hG.two (N.link i).2 hg
    simp only [List.length_cons, List.length_nil] at h1
    omega
  | saddle k =>
    obtain ⟨l1, l2, e1, e2, e3⟩ := List.map_eq_append_iff.1 h
    obtain ⟨i, l3, e4, e5, _⟩ := List.map_eq_cons_iff.1 e3
    rw [← e2] at hm
    obtain ⟨i', hi', e6⟩ := List.mem_map.1 hm
    subst e5
    obtain rfl : k = g := by simpa using hgz
    have e7 : (N.link i').1 = (N.link i).1 := by simpa using e6
    have h2 := hG.two k hg
    rw [e1, e4] at h2
    obtain ⟨B, hB, j, hj, e8⟩ := hstub k (N.link i).1 hg hz ⟨i, by rw [e1, e4]; simp, rfl⟩
    rw [e1, e4] at hj
    cases l1 with
    | nil => simp at hi'
    | cons a l1 =>
      simp only [List.length_append, List.length_cons] at h2
      have h3 : l1 = [] := List.length_eq_zero_iff.1 (by omega)
      have h4 : l3 = [] := List.length_eq_zero_iff.1 (by omega)
      subst h3 h4
      have h5 : i' = a := by simpa using hi'
      subst h5
      simp only [List.cons_append, List.nil_append, List.mem_cons, List.not_mem_nil, or_false] at hj
      rcases hj with rfl | rfl
      · exact hB (e8.symm.trans e7)
      · exact hB e8.symm

theorem exploreNbrs_local {N : FNet} {saddles : List Nat} {t : Rat} {G : Nat → Prop} (hG : Sound N saddles t G)
    {g f0 : Flags} (hN : NetFin N saddles g) {r : Nat} {z : Node} {exp : List Node}
    (hov : ∀ k, f0.over k ≠ some false)
    (hstub : ∀ k D, G k → Alive N f0 (.saddle k) → Linked N k D → ∃ B, B ≠ D ∧ Linked N k B)
    (hz : Alive N f0 z) :
    ∀ (todo done : List Node) (s s' : DSt), N.nbrs z = done ++ todo →
    LInner N G f0 (.saddle r) z exp done todo s → todo.foldlM (exploreNbr N (.saddle r) z) s = .ok s' →
    LInner N G f0 (.saddle r) z exp (done ++ todo) [] s' := by
  intro todo
  induction todo with
  | nil => intro done s s' _ h e; cases e; simpa using h
  | cons n todo ih =>
    intro done s s' he h e
    have hmem : n ∈ N.nbrs z := by rw [he]; simp
    rw [List.foldlM_cons] at e
    cases e1 : exploreNbr N (.saddle r) z s n with
    | error x => rw [e1] at e; cases e
    | ok s1 =>
      rw [e1] at e
      have h2 := exploreNbr_local hG hN hov h hmem
        (fun ht ha => nbrs_once_local hG hstub ht he hz (h.base.mono _ ha)) e1
      have := ih (done ++ [n]) s1 s' (by rw [he]; simp) h2 e
      simpa using this

theorem exploreLoop_local {N : FNet} {saddles : List Nat} {t : Rat} {G : Nat → Prop} (hG : Sound N saddles t G)
    {g f0 : Flags} (hN : NetFin N saddles g) {r : Nat}
    (hov : ∀ k, f0.over k ≠ some false)
    (hstub : ∀ k D, G k → Alive N f0 (.saddle k) → Linked N k D → ∃ B, B ≠ D ∧ Linked N k B) :
    ∀ (n : Nat) (s s' : DSt) (exp : List Node), LSearch N G f0 (.saddle r) (fun _ _ => False) exp s →
    exploreLoop N (.saddle r) n s = .ok s' →
    ∃ exp', LSearch N G f0 (.saddle r) (fun _ _ => False) exp' s' := by
  intro n
  induction n with
  | zero => intro s s' exp _ e; cases e
  | succ n ih =>
    intro s s' exp h e
    unfold exploreLoop at e
    cases hs : s.stack with
    | nil => rw [hs] at e; cases e; exact ⟨exp, h⟩
    | cons z rest =>
      rw [hs] at e
      dsimp only at e
      by_cases hd : N.dead s.flags z = true
      · rw [if_pos hd] at e
        have hna := (dead_iff N s.flags z).1 hd
        have hnd := h.stackNodup
        rw [hs] at hnd
        have hch := h.chain
        rw [hs] at hch
        refine ih _ s' exp ?_ e
        refine { h with
          stackNodup := (List.nodup_cons.1 hnd).2
          disj := fun n hn => h.disj n (by rw [hs]; exact List.mem_cons_of_mem _ hn)
          sub := fun n hn => h.sub n (hn.imp (fun hn => by rw [hs]; exact List.mem_cons_of_mem _ hn) id)
          part := ?_
          chain := (List.pairwise_cons.1 hch).2 }
        intro m hm
        rcases h.part m hm with h1 | h1
        · rw [hs] at h1
          rcases List.mem_cons.1 h1 with rfl | h1
          · exact .inr (.inr hna)
          · exact .inl h1
        · exact .inr h1
      · rw [if_neg hd] at e
        have hal : Alive N s.flags z := by rw [← alive_iff]; simpa using hd
        obtain ⟨h1, h2, h3⟩ := open_local h hs hal (N.nbrs z) (fun m ht hm => (mem_nbrs_sound hG ht).2 hm)
        cases e1 : (N.nbrs z).foldlM (exploreNbr N (.saddle r) z) { s with stack := rest } with
        | error x => rw [e1] at e; cases e
        | ok s1 =>
          rw [e1] at e
          have e2 := exploreNbrs_local hG hN hov hstub (h.mono _ hal) (N.nbrs z) [] _ s1 rfl
            ⟨h1, fun m hm => absurd hm (h2 m), h3⟩ e1
          refine ih s1 s' (z :: exp) ?_ e
          have := e2.base
          exact { this with seen := fun x hx m ht hxm _ hor => this.seen x hx m ht hxm (by simp) hor }

/-! ### All rounds -/

/-- What basin detection has done to the members so far, starting from flags `f1`. -/
structure LDone (N : FNet) (G : Nat → Prop) (f1 f : Flags) : Prop where
  mono : ∀ n, Alive N f n → Alive N f1 n
  over : f.over = f1.over
  bypass : ∀ k, G k → Alive N f1 (.saddle k) → ¬ Alive N f (.saddle k) → ∀ u v, Linked N k u → Linked N k v →
    ConnectedBy N (okS N f1)
      (fun j => (G j ∧ Alive N f (.saddle j)) ∧ N.elev (.saddle k) ≤ N.elev (.saddle j)) u v

theorem LDone.refl (N : FNet) (G : Nat → Prop) (f : Flags) : LDone N G f f :=
  ⟨fun _ h => h, rfl, fun _ _ h1 h2 => absurd h1 h2⟩

theorem LDone.trans {N : FNet} {G : Nat → Prop} {f1 f f' : Flags} (h : LDone N G f1 f) (h' : LDone N G f f') :
    LDone N G f1 f' where
  mono n hn := h.mono n (h'.mono n hn)
  over := h'.over.trans h.over
  bypass k hg hk hd u v hu hv := by
    by_cases ha : Alive N f (.saddle k)
    · exact h'.bypass k hg ha hd u v hu hv
    · refine conn_bind ?_ (h.bypass k hg hk ha u v hu hv)
      intro j a b ⟨⟨hjg, hj⟩, he⟩ la lb qa qb
      by_cases hj' : Alive N f' (.saddle j)
      · exact conn_hop ⟨⟨hjg, hj'⟩, he⟩ la lb qa qb
      · exact conn_mono (fun _ h => h) (fun i hi => ⟨hi.1, le_trans he hi.2⟩) (h'.bypass j hjg hj hj' a b la lb)

theorem LSearch.done {N : FNet} {G : Nat → Prop} {f0 : Flags} {root : Node} {exp : List Node} {s : DSt}
    {pend : Node → Node → Prop} (h : LSearch N G f0 root pend exp s) : LDone N G f0 s.flags where
  mono := h.mono
  over := h.over
  bypass k hg hk hd u v hu hv :=
    conn_mono (fun _ h => h) (fun _ hj => ⟨hj.1, hj.2.le⟩) (h.picks k hg hk hd u v hu hv)

theorem basinLoop_local {N : FNet} {saddles : List Nat} {t : Rat} {G : Nat → Prop} (hG : Sound N saddles t G)
    {g f1 : Flags} (hN : NetFin N saddles g)
    (hov : ∀ k, f1.over k ≠ some false)
    (hstub : ∀ k D, G k → Alive N f1 (.saddle k) → Linked N k D → ∃ B, B ≠ D ∧ Linked N k B) :
    ∀ (n : Nat) (f f' : Flags) (feats : List Nat), LDone N G f1 f → basinLoop N n f feats = .ok f' →
    LDone N G f1 f' := by
  intro n
  induction n with
  | zero => intro _ _ _ _ h; cases h
  | succ n ih =>
    intro f f' feats hd e
    unfold basinLoop at e
    cases hgl : feats.getLast? with
    | none => rw [hgl] at e; cases e; exact hd
    | some r =>
      rw [hgl] at e
      dsimp only at e
      by_cases hdead : N.dead f (.saddle r) = true
      · rw [if_pos hdead] at e
        exact ih f f' _ hd e
      · rw [if_neg hdead] at e
        have hral : Alive N f (.saddle r) := by rw [← alive_iff]; simpa using hdead
        cases e1 : exploreLoop N (.saddle r) (N.nSummits + N.nSaddles + 2) (.start (.saddle r) f feats.dropLast) with
        | error x => rw [e1] at e; cases e
        | ok s =>
          rw [e1] at e
          dsimp only at e
          obtain ⟨exp, hs⟩ := exploreLoop_local hG hN (by rw [hd.over]; exact hov)
            (fun k D hg hk => hstub k D hg (hd.mono _ hk)) _ _ _ _ (start_local (G := G) hral) e1
          exact ih s.flags f' _ (hd.trans hs.done) e

theorem oneSource_sound {N : FNet} {saddles : List Nat} {t : Rat} {G : Nat → Prop} (hG : Sound N saddles t G) (k : Nat)
    (he : G k) : OneSource N k ↔ ∀ u v, Linked N k u → Linked N k v → u = v := by
  unfold OneSource
  rw [unique_iff (k := k) (fun a ha => (hG.setEq k a a he ha ha).2 rfl)
    (fun a b ha hb h => (hG.setEq k b a he hb ha).2 ((hG.setEq k a b he ha hb).1 h).symm)
    (fun a b c ha hb hc h1 h2 => (hG.setEq k a c he ha hc).2
      (((hG.setEq k a b he ha hb).1 h1).trans ((hG.setEq k b c he hb hc).1 h2)))]
  exact forall_congr' fun u => forall_congr' fun v =>
    ⟨fun h hu hv => (hG.setEq k u v he hu hv).1 (h hu hv), fun h hu hv => (hG.setEq k u v he hu hv).2 (h hu hv)⟩

/-- A member that basin detection disqualifies can be bypassed over members that are left and as high. -/
theorem basin_local {N : FNet} {saddles : List Nat} {t : Rat} {G : Nat → Prop} (hG : Sound N saddles t G)
    {f f' : Flags} (hN : NetFin N saddles f) {fuel : Nat} (h : disqualifyBasinSaddles N fuel saddles f = .ok f') {k : Nat}
    (hk : G k) (ha : Alive N f (.saddle k)) (hd : ¬ Alive N f' (.saddle k)) {u v : Nat} (hu : Linked N k u)
    (hv : Linked N k v) : ConnectedBy N (fun _ => True)
      (fun j => (G j ∧ Alive N f' (.saddle j)) ∧ N.elev (.saddle k) ≤ N.elev (.saddle j)) u v := by
  have hst := stubPass_spec N (basinFeatures N saddles) f
  have hov : ∀ k, (stubPass N (basinFeatures N saddles) f).over k ≠ some false := by
    rw [hst.1]; exact hN.over
  have hstub : ∀ k D, G k → Alive N (stubPass N (basinFeatures N saddles) f) (.saddle k) → Linked N k D →
      ∃ B, B ≠ D ∧ Linked N k B := by
    intro k D hg hk hD
    obtain ⟨ha, ho⟩ := (alive_stub hN.over _).1 hk
    by_contra hno
    refine ho k rfl (hG.listed k hg) ((oneSource_sound hG k hg).2 ?_)
    have : ∀ u, Linked N k u → u = D := fun u hu => by
      by_contra hne
      exact hno ⟨u, hne, hu⟩
    intro u v hu hv
    rw [this u hu, this v hv]
  have hdone := basinLoop_local hG hN hov hstub fuel _ f' _ (LDone.refl N G _) h
  by_cases hs : Alive N (stubPass N (basinFeatures N saddles) f) (.saddle k)
  · exact conn_mono (fun _ _ => trivial) (fun _ h => h) (hdone.bypass k hk hs hd u v hu hv)
  · have : OneSource N k := by
      by_contra hno
      refine hs ((alive_stub hN.over _).2 ⟨ha, ?_⟩)
      intro j e _ ho
      obtain rfl : k = j := by simpa using e
      exact hno ho
    rw [(oneSource_sound hG k hk).1 this u v hu hv]
    exact .refl

end PyProm
