import Verif.Spec.DomainMap
import Verif.Model.SaddleNet
import Verif.Proof.Closest
import Verif.Spec.Tree

/-
The internal saddle network is a spanning tree.
-/
namespace PyProm
open Spec

/-- Links attached one at a time to a growing node set. -/
inductive Grown : List (Nat × Nat) → Finset Nat → Prop
  | root (r : Nat) : Grown [] {r}
  | add {E A u v e} : Grown E A → u ∈ A → v ∉ A → (e = (u, v) ∨ e = (v, u)) →
      Grown (E ++ [e]) (insert v A)

theorem Grown.card {E A} (h : Grown E A) : E.length + 1 = A.card := by
  induction h with
  | root r => simp
  | add _ _ hv _ ih => rw [Finset.card_insert_of_notMem hv, ← ih]; simp

theorem Grown.mem {E A} (h : Grown E A) : ∀ e ∈ E, e.1 ∈ A ∧ e.2 ∈ A ∧ e.1 ≠ e.2 := by
  induction h with
  | root r => simp
  | @add E A u v e _ hu hv he ih =>
    intro x hx
    rcases List.mem_append.1 hx with h | h
    · exact ⟨Finset.mem_insert_of_mem (ih x h).1, Finset.mem_insert_of_mem (ih x h).2.1, (ih x h).2.2⟩
    · rw [List.mem_singleton.1 h]
      have : u ≠ v := fun h => hv (h ▸ hu)
      rcases he with rfl | rfl
      · exact ⟨Finset.mem_insert_of_mem hu, Finset.mem_insert_self _ _, this⟩
      · exact ⟨Finset.mem_insert_self _ _, Finset.mem_insert_of_mem hu, this.symm⟩

/-- Any two nodes of the grown set are joined by a chain of links. -/
theorem Grown.chain {E A} (h : Grown E A) : ∃ r ∈ A, ∀ a ∈ A,
    Relation.ReflTransGen (fun i j => i ∈ A ∧ j ∈ A ∧ i ≠ j ∧ ((i, j) ∈ E ∨ (j, i) ∈ E)) r a := by
  induction h with
  | root r => exact ⟨r, by simp, fun a ha => by rw [Finset.mem_singleton.1 ha]⟩
  | @add E A u v e hg hu hv he ih =>
    obtain ⟨r, hr, ih⟩ := ih
    have lift : ∀ a ∈ A, Relation.ReflTransGen (fun i j => i ∈ insert v A ∧ j ∈ insert v A ∧ i ≠ j ∧
        ((i, j) ∈ E ++ [e] ∨ (j, i) ∈ E ++ [e])) r a := fun a ha =>
      Relation.ReflTransGen.mono (fun i j h => ⟨Finset.mem_insert_of_mem h.1,
        Finset.mem_insert_of_mem h.2.1, h.2.2.1,
        h.2.2.2.imp (List.mem_append_left _) (List.mem_append_left _)⟩) r a (ih a ha)
    refine ⟨r, Finset.mem_insert_of_mem hr, fun a ha => ?_⟩
    rcases Finset.mem_insert.1 ha with rfl | ha
    · refine (lift u hu).tail ⟨Finset.mem_insert_of_mem hu, Finset.mem_insert_self _ _,
        fun h => hv (h ▸ hu), ?_⟩
      rcases he with rfl | rfl
      · exact .inl (by simp)
      · exact .inr (by simp)
    · exact lift a ha

theorem Grown.spanning {E : List (Nat × Nat)} {N : Nat} (h : Grown E (Finset.range N)) :
    SpanningTree N E := by
  have hc := h.card
  rw [Finset.card_range] at hc
  refine ⟨hc, fun e he => ?_, ?_⟩
  · have := h.mem e he
    exact ⟨Finset.mem_range.1 this.1, Finset.mem_range.1 this.2.1⟩
  · obtain ⟨r, hr, hch⟩ := h.chain
    have hr := Finset.mem_range.1 hr
    have reach : ∀ a (ha : a < N), (linkGraph N E).Reachable ⟨r, hr⟩ ⟨a, ha⟩ := by
      intro a ha
      have h1 := hch a (Finset.mem_range.2 ha)
      clear hch
      induction h1 with
      | refl => exact SimpleGraph.Reachable.refl _
      | @tail b c _ hbc ih =>
        have hb := Finset.mem_range.1 hbc.1
        refine (ih hb).trans (SimpleGraph.Adj.reachable ?_)
        exact ⟨fun h => hbc.2.2.1 (congrArg Fin.val h), hbc.2.2.2⟩
    have hconn : (linkGraph N E).Connected := by
      have : Nonempty (Fin N) := ⟨⟨r, hr⟩⟩
      exact ⟨fun a b => (reach a.1 a.2).symm.trans (reach b.1 b.2)⟩
    refine SimpleGraph.isTree_iff_connected_and_card.2 ⟨hconn, ?_⟩
    have h1 := hconn.card_vert_le_card_edgeSet_add_one
    have h2 : Nat.card (linkGraph N E).edgeSet ≤ E.length := by
      classical
      have hsub : (linkGraph N E).edgeSet ⊆
          ((E.map fun e => if he : e.1 < N ∧ e.2 < N then
            some s((⟨e.1, he.1⟩ : Fin N), (⟨e.2, he.2⟩ : Fin N)) else none).filterMap id).toFinset := by
        intro x
        induction x using Sym2.ind with
        | _ a b =>
          rw [SimpleGraph.mem_edgeSet]
          rintro ⟨_, hab⟩
          simp only [List.coe_toFinset, Set.mem_ofPred_eq, List.mem_filterMap, List.mem_map, id_eq,
            exists_eq_right]
          rcases hab with hab | hab
          · exact ⟨_, hab, by simp [a.2, b.2]⟩
          · exact ⟨_, hab, by simp [a.2, b.2, Sym2.eq_swap]⟩
      calc Nat.card (linkGraph N E).edgeSet
          ≤ Nat.card ((((E.map fun e => if he : e.1 < N ∧ e.2 < N then
            some s((⟨e.1, he.1⟩ : Fin N), (⟨e.2, he.2⟩ : Fin N)) else none).filterMap id).toFinset :
              Set (Sym2 (Fin N)))) := Nat.card_mono (Finset.finite_toSet _) hsub
        _ ≤ E.length := by
          rw [Nat.card_eq_card_toFinset, Finset.toFinset_coe]
          refine (List.toFinset_card_le _).trans ?_
          exact (List.length_filterMap_le _ _).trans (by simp)
    rw [Nat.card_fin] at h1 ⊢
    omega

/-- What the exploration needs of the table of links. -/
structure TabOk (tab : Nat → List VLink) (N : Nat) : Prop where
  link : ∀ k, k < N → ∀ l ∈ tab k, l.holder = k ∧ l.remote < N ∧ l.remote ≠ k ∧ l.dist < maxsize
  all : ∀ k, k < N → ∀ r, r < N → r ≠ k → ∃ l ∈ tab k, l.remote = r

theorem shortestLink_eq (links : List VLink) (ig : Nat → Bool) :
    shortestLink links ig =
      ((links.filter fun l => !ig l.remote).foldl (minStep VLink.dist) (none, maxsize)).1 := by
  unfold shortestLink
  rw [List.foldl_filter]
  congr 2
  funext best l
  cases ig l.remote <;> simp

theorem shortestLink_mem {links : List VLink} {ig : Nat → Bool} {l : VLink}
    (h : shortestLink links ig = some l) : l ∈ links ∧ ig l.remote = false ∧
      ∀ l' ∈ links, ig l'.remote = false → l.dist ≤ l'.dist := by
  rw [shortestLink_eq] at h
  rcases minStep_spec VLink.dist maxsize (links.filter fun l => !ig l.remote) with
    ⟨h1, _⟩ | ⟨pre, a, post, hl, h1, hM, hp, hq⟩
  · rw [h1] at h; simp at h
  · rw [h1] at h
    simp only [Option.some.injEq] at h
    subst h
    have hm : a ∈ links.filter fun l => !ig l.remote := by rw [hl]; simp
    have hm' := List.mem_filter.1 hm
    refine ⟨hm'.1, by simpa using hm'.2, fun l' hl' hi => ?_⟩
    have : l' ∈ links.filter fun l => !ig l.remote := List.mem_filter.2 ⟨hl', by simp [hi]⟩
    rw [hl] at this
    rcases List.mem_append.1 this with h | h
    · exact le_of_lt (hp l' h)
    · rcases List.mem_cons.1 h with rfl | h
      · exact le_refl _
      · exact hq l' h

theorem shortestLink_some {links : List VLink} {ig : Nat → Bool}
    (h : ∃ l ∈ links, ig l.remote = false ∧ l.dist < maxsize) : ∃ l, shortestLink links ig = some l := by
  rw [shortestLink_eq]
  obtain ⟨l, h1, h2, h3⟩ := h
  obtain ⟨pre, a, post, hl, h1, _⟩ := minStep_some VLink.dist maxsize
    (links.filter fun l => !ig l.remote) ⟨l, List.mem_filter.2 ⟨h1, by simp [h2]⟩, h3⟩
  exact ⟨a, by rw [h1]⟩

/-- Pairs joined by the links. -/
def pairs (l : List VLink) : List (Nat × Nat) := l.map fun v => (v.holder, v.remote)

/-- Invariant while the links of `node` are looked at. -/
structure InnerInv (tab : Nat → List VLink) (N node : Nat) (s : NetSt) : Prop where
  nodup : (node :: (s.explored ++ s.queue)).Nodup
  bound : ∀ i ∈ node :: (s.explored ++ s.queue), i < N
  tbe : ∀ i, s.tbe i = true ↔ i ∈ s.queue
  grown : Grown (pairs s.links) (node :: (s.explored ++ s.queue)).toFinset
  mem : ∀ l ∈ s.links, l.holder < N ∧ l ∈ tab l.holder

theorem InnerInv.attach {tab : Nat → List VLink} {N node : Nat} {s : NetSt} (h : InnerInv tab N node s)
    {l : VLink} (ht : l ∈ tab node) (hl : l.holder = node) (hr : l.remote < N) (hn : l.remote ≠ node)
    (he : l.remote ∉ s.explored) (hq : l.remote ∉ s.queue) :
    InnerInv tab N node { s with queue := s.queue ++ [l.remote]
                                 tbe := setIdx s.tbe l.remote true
                                 links := s.links ++ [l] } := by
  have hnot : l.remote ∉ node :: (s.explored ++ s.queue) := by simp [hn, he, hq]
  have hperm : (node :: (s.explored ++ (s.queue ++ [l.remote]))).Perm
      (l.remote :: (node :: (s.explored ++ s.queue))) := by
    have : node :: (s.explored ++ (s.queue ++ [l.remote])) =
        (node :: (s.explored ++ s.queue)) ++ [l.remote] := by simp
    rw [this]
    exact List.perm_append_singleton _ _
  refine ⟨?_, ?_, ?_, ?_, ?_⟩
  · exact hperm.nodup_iff.2 (List.nodup_cons.2 ⟨hnot, h.nodup⟩)
  · intro i hi
    rcases List.mem_cons.1 (hperm.mem_iff.1 hi) with rfl | hi
    · exact hr
    · exact h.bound i hi
  · intro i
    simp only [setIdx, List.mem_append, List.mem_singleton]
    by_cases hi : i = l.remote
    · simp [hi]
    · simp [hi, h.tbe i]
  · have e1 : (node :: (s.explored ++ (s.queue ++ [l.remote]))).toFinset =
        insert l.remote (node :: (s.explored ++ s.queue)).toFinset := by
      ext i
      simp only [List.mem_toFinset, Finset.mem_insert]
      rw [hperm.mem_iff, List.mem_cons]
    change Grown (pairs (s.links ++ [l])) _
    rw [e1]
    have e2 : pairs (s.links ++ [l]) = pairs s.links ++ [(l.holder, l.remote)] := by simp [pairs]
    rw [e2]
    exact h.grown.add (u := node) (v := l.remote) (by simp) (by simpa using hnot) (.inl (by rw [hl]))
  · intro x hx
    rcases List.mem_append.1 hx with hx | hx
    · exact h.mem x hx
    · rw [List.mem_singleton.1 hx]
      exact ⟨by rw [hl]; exact h.bound node (by simp), by rw [hl]; exact ht⟩

theorem exploreFold_spec {tab : Nat → List VLink} {N node : Nat} :
    ∀ (ls : List VLink) (s : NetSt) (g : Bool), InnerInv tab N node s →
      (∀ l ∈ ls, l ∈ tab node ∧ l.holder = node ∧ l.remote < N ∧ l.remote ≠ node) →
      InnerInv tab N node (ls.foldl (exploreLink tab node) (s, g)).1 ∧
      (ls.foldl (exploreLink tab node) (s, g)).1.explored = s.explored ∧
      (ls.foldl (exploreLink tab node) (s, g)).1.first = s.first ∧
      ((ls.foldl (exploreLink tab node) (s, g)).2 = false →
        (ls.foldl (exploreLink tab node) (s, g)).1 = s) := by
  intro ls
  induction ls with
  | nil => intro s g h _; exact ⟨h, rfl, rfl, fun _ => rfl⟩
  | cons l ls ih =>
    intro s g h hls
    obtain ⟨h0, h1, h2, h3⟩ := hls l (by simp)
    have hls' := fun l' hl' => hls l' (List.mem_cons_of_mem _ hl')
    simp only [List.foldl_cons]
    have hstep : exploreLink tab node (s, g) l = (s, g) ∨
        (exploreLink tab node (s, g) l = ({ s with queue := s.queue ++ [l.remote]
                                                   tbe := setIdx s.tbe l.remote true
                                                   links := s.links ++ [l] }, true) ∧
          l.remote ∉ s.explored ∧ l.remote ∉ s.queue) := by
      unfold exploreLink
      dsimp only
      by_cases hc : (s.explored.contains l.remote || s.tbe l.remote) = true
      · rw [if_pos hc]; exact .inl rfl
      · rw [if_neg hc]
        cases hs : shortestLink (tab l.remote) fun i => s.explored.contains i with
        | none => exact .inl rfl
        | some rev =>
          dsimp only
          by_cases hr : rev.remote = node
          · rw [if_pos hr]
            simp only [Bool.or_eq_true, not_or, Bool.not_eq_true] at hc
            refine .inr ⟨rfl, ?_, ?_⟩
            · simpa using hc.1
            · intro hq
              rw [(h.tbe _).2 hq] at hc
              simp at hc
          · rw [if_neg hr]; exact .inl rfl
    have mono : ∀ (ls : List VLink) (s : NetSt), (ls.foldl (exploreLink tab node) (s, true)).2 = true := by
      intro ls
      induction ls with
      | nil => intro s; rfl
      | cons l ls ih =>
        intro s
        simp only [List.foldl_cons]
        have : (exploreLink tab node (s, true) l).2 = true := by
          unfold exploreLink
          dsimp only
          split
          · rfl
          · split
            · split <;> rfl
            · rfl
        generalize exploreLink tab node (s, true) l = r at this
        obtain ⟨s', b⟩ := r
        simp only at this
        subst this
        exact ih s'
    rcases hstep with he | ⟨he, hx, hq⟩
    · rw [he]; exact ih s g h hls'
    · rw [he]
      obtain ⟨a, b, c, _⟩ := ih _ true (h.attach h0 h1 h2 h3 hx hq) hls'
      exact ⟨a, b, c, fun hf => by rw [mono] at hf; simp at hf⟩

/-- Invariant at the head of `while toBeExplored`. -/
structure HeadInv (tab : Nat → List VLink) (N : Nat) (s : NetSt) : Prop where
  nodup : (s.explored ++ s.queue).Nodup
  bound : ∀ i ∈ s.explored ++ s.queue, i < N
  tbe : ∀ i, s.tbe i = true → i ∈ s.queue
  tail : ∀ i ∈ s.queue.tail, s.tbe i = true
  grown : Grown (pairs s.links) (s.explored ++ s.queue).toFinset
  first : s.first = true → s.explored = [] ∧ s.queue.length = 1
  mem : ∀ l ∈ s.links, l.holder < N ∧ l ∈ tab l.holder

theorem InnerInv.finish {tab : Nat → List VLink} {N node : Nat} {s : NetSt} (h : InnerInv tab N node s) :
    HeadInv tab N { s with explored := setAdd s.explored node, first := false } ∧
    (setAdd s.explored node).length = s.explored.length + 1 := by
  have hn : node ∉ s.explored := fun h' => (List.nodup_cons.1 h.nodup).1 (by simp [h'])
  have hset : setAdd s.explored node = s.explored ++ [node] := by
    simp [setAdd, hn]
  have hperm : (s.explored ++ [node] ++ s.queue).Perm (node :: (s.explored ++ s.queue)) := by
    rw [List.append_assoc]
    exact List.perm_middle
  refine ⟨?_, by simp [hset]⟩
  refine ⟨?_, ?_, ?_, ?_, ?_, ?_, h.mem⟩
  · change (setAdd s.explored node ++ s.queue).Nodup
    rw [hset]; exact hperm.nodup_iff.2 h.nodup
  · intro i hi
    change i ∈ setAdd s.explored node ++ s.queue at hi
    rw [hset] at hi
    exact h.bound i (hperm.mem_iff.1 hi)
  · intro i hi; exact (h.tbe i).1 hi
  · intro i hi; exact (h.tbe i).2 (List.mem_of_mem_tail hi)
  · change Grown _ (setAdd s.explored node ++ s.queue).toFinset
    rw [hset]
    have : (s.explored ++ [node] ++ s.queue).toFinset = (node :: (s.explored ++ s.queue)).toFinset := by
      ext i; simp only [List.mem_toFinset]; exact hperm.mem_iff
    rw [this]; exact h.grown
  · intro h'; simp at h'

theorem nodup_bound_length {l : List Nat} {N : Nat} (h : l.Nodup) (hb : ∀ i ∈ l, i < N) :
    l.length ≤ N := by
  have : l.toFinset ⊆ Finset.range N := fun i hi => Finset.mem_range.2 (hb i (List.mem_toFinset.1 hi))
  have := Finset.card_le_card this
  rw [List.toFinset_card_of_nodup h, Finset.card_range] at this
  exact this

theorem treeExploration_spec {tab : Nat → List VLink} {N : Nat} (ht : TabOk tab N) (hN : 2 ≤ N) :
    ∀ (n : Nat) (s : NetSt), HeadInv tab N s → N < n + s.explored.length →
      ∃ s', treeExploration tab n s = .ok s' ∧ HeadInv tab N s' ∧ s'.queue = [] ∧
        s.explored.length ≤ s'.explored.length ∧
        (s.queue ≠ [] → s.explored.length < s'.explored.length ∧ s'.first = false) := by
  intro n
  induction n with
  | zero =>
    intro s h hn
    have := nodup_bound_length h.nodup h.bound
    simp at this; omega
  | succ n ih =>
    intro s h hn
    unfold treeExploration
    cases hq : s.queue with
    | nil => exact ⟨s, rfl, h, hq, le_refl _, fun h' => absurd rfl h'⟩
    | cons node rest =>
      dsimp only
      have hperm : (s.explored ++ node :: rest).Perm (node :: (s.explored ++ rest)) := List.perm_middle
      have hnd := h.nodup
      have hbd := h.bound
      have hgr := h.grown
      have htl := h.tail
      have htb := h.tbe
      rw [hq] at hnd hbd hgr htl htb
      have hnN : node < N := hbd node (by simp)
      have hnr : node ∉ rest := fun h' =>
        (List.nodup_cons.1 (hperm.nodup_iff.1 hnd)).1 (by simp [h'])
      have inv0 : InnerInv tab N node { s with queue := rest, tbe := setIdx s.tbe node false } := by
        refine ⟨hperm.nodup_iff.1 hnd, fun i hi => hbd i (hperm.mem_iff.2 hi), ?_, ?_, h.mem⟩
        · intro i
          simp only [setIdx]
          by_cases hi : i = node
          · subst hi; simp [hnr]
          · simp only [hi, if_false]
            constructor
            · intro h'
              exact (List.mem_cons.1 (htb i h')).resolve_left hi
            · intro h'; exact htl i (by simpa using h')
        · have : (node :: (s.explored ++ rest)).toFinset = (s.explored ++ node :: rest).toFinset := by
            ext i; simp only [List.mem_toFinset]; exact hperm.symm.mem_iff
          change Grown _ (node :: (s.explored ++ rest)).toFinset
          rw [this]; exact hgr
      obtain ⟨hI, hex, hfi, hno⟩ := exploreFold_spec (tab node) _ false inv0
        (fun l hl => ⟨hl, (ht.link node hnN l hl).1, (ht.link node hnN l hl).2.1, (ht.link node hnN l hl).2.2.1⟩)
      generalize (tab node).foldl (exploreLink tab node)
        ({ s with queue := rest, tbe := setIdx s.tbe node false }, false) = r at hI hex hfi hno
      simp only at hex hfi
      by_cases hc : (!r.2 && s.first) = true
      · rw [if_pos hc]
        simp only [Bool.and_eq_true, Bool.not_eq_true'] at hc
        have hr1 := hno hc.1
        obtain ⟨hexn, hlen⟩ := h.first hc.2
        rw [hq] at hlen
        have hrest : rest = [] := by
          simpa using hlen
        have hrq : r.1.queue = [] := by rw [hr1]; exact hrest
        have hre : r.1.explored = [] := by rw [hex]; exact hexn
        obtain ⟨k, hk, hkn⟩ : ∃ k, k < N ∧ k ≠ node := by
          by_cases h0 : node = 0
          · exact ⟨1, by omega, by omega⟩
          · exact ⟨0, by omega, fun h => h0 h.symm⟩
        obtain ⟨l0, hl0, hl0r⟩ := ht.all node hnN k hk hkn
        obtain ⟨sh, hsh⟩ := shortestLink_some (links := tab node)
          (ig := fun i => r.1.explored.contains i)
          ⟨l0, hl0, by simp [hre], (ht.link node hnN l0 hl0).2.2.2⟩
        rw [hsh]
        dsimp only
        have hm := (shortestLink_mem hsh).1
        have hp := ht.link node hnN sh hm
        have hA := hI.attach hm hp.1 hp.2.1 hp.2.2.1 (by rw [hre]; simp) (by rw [hrq]; simp)
        obtain ⟨hF, hFl⟩ := hA.finish
        simp only at hFl
        obtain ⟨s', e1, e2, e3, e4, e5⟩ := ih _ hF (by simp only; rw [hFl, hex]; omega)
        refine ⟨s', e1, e2, e3, ?_, ?_⟩
        · simp only at e4; rw [hFl, hex] at e4; omega
        · intro _
          have e5' := e5 (by simp)
          simp only at e4
          rw [hFl, hex] at e4
          exact ⟨by omega, e5'.2⟩
      · rw [if_neg hc]
        obtain ⟨hF, hFl⟩ := hI.finish
        obtain ⟨s', e1, e2, e3, e4, e5⟩ := ih _ hF (by simp only; rw [hFl, hex]; omega)
        refine ⟨s', e1, e2, e3, ?_, ?_⟩
        · simp only at e4; rw [hFl, hex] at e4; omega
        · intro _
          simp only at e4
          rw [hFl, hex] at e4
          refine ⟨by omega, ?_⟩
          by_cases hqq : r.1.queue = []
          · cases n with
            | zero =>
              unfold treeExploration at e1; simp at e1
            | succ n =>
              unfold treeExploration at e1
              dsimp only at e1
              rw [hqq] at e1
              simp only [Except.ok.injEq] at e1
              rw [← e1]
          · exact (e5 hqq).2

theorem reseed_spec {tab : Nat → List VLink} (un : List Nat) : ∀ (ns : List Nat)
    (best : Option (VLink × Nat) × Rat),
    (∀ n ∈ ns, ∃ l, shortestLink (tab n) (fun i => un.contains i) = some l) →
    ∃ r, reseed tab un ns best = .ok r ∧
      (r = best ∨ ∃ n ∈ ns, ∃ l, shortestLink (tab n) (fun i => un.contains i) = some l ∧
        r = (some (l, n), l.dist)) ∧
      (best.1 = none → (∃ n ∈ ns, ∀ l, shortestLink (tab n) (fun i => un.contains i) = some l →
        l.dist < best.2) → r.1 ≠ none) := by
  intro ns
  induction ns with
  | nil => intro best _; exact ⟨best, rfl, .inl rfl, by simp⟩
  | cons n ns ih =>
    intro best h
    obtain ⟨l, hl⟩ := h n (by simp)
    obtain ⟨r, h1, h2, h3⟩ := ih (if l.dist < best.2 then (some (l, n), l.dist) else best)
      (fun n' hn' => h n' (List.mem_cons_of_mem _ hn'))
    refine ⟨r, ?_, ?_, ?_⟩
    · unfold reseed; rw [hl]; exact h1
    · rcases h2 with h2 | ⟨n', hn', l', hl', hr⟩
      · by_cases hc : l.dist < best.2
        · rw [if_pos hc] at h2; exact .inr ⟨n, by simp, l, hl, h2⟩
        · rw [if_neg hc] at h2; exact .inl h2
      · exact .inr ⟨n', List.mem_cons_of_mem _ hn', l', hl', hr⟩
    · intro hb hex
      by_cases hc : l.dist < best.2
      · rcases h2 with h2 | ⟨n', hn', l', hl', hr⟩
        · rw [if_pos hc] at h2; rw [h2]; simp
        · rw [hr]; simp
      · rw [if_neg hc] at h3
        refine h3 hb ?_
        obtain ⟨n', hn', hlt⟩ := hex
        rcases List.mem_cons.1 hn' with rfl | hn'
        · exact absurd (hlt l hl) hc
        · exact ⟨n', hn', hlt⟩

theorem buildLoop_spec {tab : Nat → List VLink} {N : Nat} (ht : TabOk tab N) (hN : 2 ≤ N) :
    ∀ (n : Nat) (s : NetSt), HeadInv tab N s → s.queue ≠ [] → N < n + s.explored.length →
      ∃ links, buildLoop tab N (N + 1) n s = .ok links ∧ Grown (pairs links) (Finset.range N) ∧
        ∀ l ∈ links, l.holder < N ∧ l ∈ tab l.holder := by
  intro n
  induction n with
  | zero =>
    intro s h _ hn
    have := nodup_bound_length h.nodup h.bound
    simp at this; omega
  | succ n ih =>
    intro s h hq hn
    obtain ⟨s', e1, e2, e3, e4, e5⟩ := treeExploration_spec ht hN (N + 1) s h (by omega)
    have e5' := e5 hq
    unfold buildLoop
    rw [e1]
    dsimp only [bind, Except.bind]
    have hnd := e2.nodup
    have hbd := e2.bound
    have hgr := e2.grown
    rw [e3] at hnd hbd hgr
    simp only [List.append_nil] at hnd hbd hgr
    by_cases hc : N > s'.explored.length
    · rw [if_pos hc]
      generalize hun : (List.range N).filter (fun i => !s'.explored.contains i) = un
      have hmem : ∀ i, i ∈ un ↔ i < N ∧ i ∉ s'.explored := by
        intro i; rw [← hun, List.mem_filter]; simp
      -- an explored node exists
      obtain ⟨x, hx⟩ : ∃ x, x ∈ s'.explored := by
        cases hE : s'.explored with
        | nil => rw [hE] at e5'; simp at e5'
        | cons a as => exact ⟨a, by simp⟩
      obtain ⟨y, hy⟩ : ∃ y, y ∈ un := by
        by_contra hno
        push Not at hno
        have : (Finset.range N) ⊆ s'.explored.toFinset := by
          intro i hi
          by_contra hni
          exact hno i ((hmem i).2 ⟨Finset.mem_range.1 hi, fun h' => hni (List.mem_toFinset.2 h')⟩)
        have := Finset.card_le_card this
        rw [List.toFinset_card_of_nodup hnd, Finset.card_range] at this
        omega
      have hshort : ∀ m ∈ un, ∃ l, shortestLink (tab m) (fun i => un.contains i) = some l := by
        intro m hm
        obtain ⟨hmN, hme⟩ := (hmem m).1 hm
        obtain ⟨l, hl, hlr⟩ := ht.all m hmN x (hbd x hx) (fun h' => hme (h' ▸ hx))
        refine shortestLink_some ⟨l, hl, ?_, (ht.link m hmN l hl).2.2.2⟩
        have : x ∉ un := fun h' => ((hmem x).1 h').2 hx
        simp [hlr, this]
      obtain ⟨r, hr1, hr2, hr3⟩ := reseed_spec un un (none, maxsize) hshort
      have hrn : r.1 ≠ none := by
        refine hr3 rfl ⟨y, hy, fun l hl => ?_⟩
        exact (ht.link y ((hmem y).1 hy).1 l (shortestLink_mem hl).1).2.2.2
      obtain ⟨m, hm, l, hl, hr⟩ : ∃ m ∈ un, ∃ l, shortestLink (tab m) (fun i => un.contains i) = some l ∧
          r = (some (l, m), l.dist) := by
        rcases hr2 with h' | h'
        · rw [h'] at hrn; simp at hrn
        · exact h'
      rw [hr1, hr]
      dsimp only
      obtain ⟨hmN, hme⟩ := (hmem m).1 hm
      obtain ⟨hlm, hli, _⟩ := shortestLink_mem hl
      have hlt := ht.link m hmN l hlm
      have hlex : l.remote ∈ s'.explored := by
        by_contra hne
        have : l.remote ∈ un := (hmem _).2 ⟨hlt.2.1, hne⟩
        simp [this] at hli
      have e2t := e2.tbe
      rw [e3] at e2t
      refine ih _ ?_ (by simp) (by simp only; omega)
      rw [e3]
      refine ⟨?_, ?_, ?_, by simp, ?_, ?_, ?_⟩
      · simp only [List.nil_append]
        exact List.nodup_append.2 ⟨hnd, by simp, fun a ha b hb => by
          rw [List.mem_singleton.1 hb]; exact fun h' => hme (h' ▸ ha)⟩
      · intro i hi
        simp only [List.nil_append, List.mem_append, List.mem_singleton] at hi
        rcases hi with hi | rfl
        · exact hbd i hi
        · exact hmN
      · intro i hi; exact absurd (e2t i hi) (by simp)
      · simp only [List.nil_append]
        have : (s'.explored ++ [m]).toFinset = insert m s'.explored.toFinset := by
          ext i; simp
        rw [this]
        have e2 : pairs (s'.links ++ [l]) = pairs s'.links ++ [(l.holder, l.remote)] := by simp [pairs]
        rw [e2]
        exact hgr.add (u := l.remote) (v := m) (by simpa using hlex) (by simpa using hme)
          (.inr (by rw [hlt.1]))
      · intro hf; simp only at hf; rw [e5'.2] at hf; simp at hf
      · intro x hx
        rcases List.mem_append.1 hx with hx | hx
        · exact e2.mem x hx
        · rw [List.mem_singleton.1 hx, hlt.1]
          exact ⟨hmN, hlm⟩
    · rw [if_neg hc]
      refine ⟨s'.links, rfl, ?_, e2.mem⟩
      have : s'.explored.toFinset = Finset.range N := by
        refine Finset.eq_of_subset_of_card_le
          (fun i hi => Finset.mem_range.2 (hbd i (List.mem_toFinset.1 hi))) ?_
        rw [List.toFinset_card_of_nodup hnd, Finset.card_range]; omega
      rw [← this]; exact hgr

theorem buildInternalTree_spec {tab : Nat → List VLink} {N : Nat} (ht : TabOk tab N) (hN : 2 ≤ N) :
    ∃ links, buildInternalTree tab N = .ok links ∧ SpanningTree N (pairs links) ∧
      ∀ l ∈ links, l.holder < N ∧ l ∈ tab l.holder := by
  unfold buildInternalTree
  rw [if_neg (by omega)]
  obtain ⟨links, h1, h2, h3⟩ := buildLoop_spec ht hN (N + 1)
    { queue := [0], tbe := fun _ => false, explored := [], links := [], first := true }
    ⟨by simp, by simp; omega, by simp, by simp, by simpa [pairs] using Grown.root 0, by simp, by simp⟩
    (by simp) (by simp only [List.length_nil]; omega)
  exact ⟨links, h1, h2.spanning, h3⟩

end PyProm
