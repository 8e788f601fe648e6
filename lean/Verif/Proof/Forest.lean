import Verif.Proof.Basin

/-
Counting in a network: without cycles every saddle joins two parts, so there are as many summits as saddles and
parts together.
-/
namespace PyProm
open Spec

/-- A chain of related items, each listed once, from `a` to `b`. -/
theorem simple_chain {α : Type} [DecidableEq α] {r : α → α → Prop} {a b : α} (h : Relation.ReflTransGen r a b) :
    ∃ l : List α, l.IsChain r ∧ l.Nodup ∧ l.head? = some a ∧ l.getLast? = some b ∧
      ∀ x ∈ l, x = a ∨ ∃ y, r y x := by
  induction h with
  | refl => exact ⟨[a], by simp, by simp, rfl, rfl, by simp⟩
  | @tail b c _ h2 ih =>
    obtain ⟨l, h1, h3, h4, h5, h6⟩ := ih
    by_cases hc : c ∈ l
    · obtain ⟨l1, l2, rfl⟩ := List.append_of_mem hc
      have e : l1 ++ c :: l2 = (l1 ++ [c]) ++ l2 := by simp
      rw [e] at h1 h3
      refine ⟨l1 ++ [c], h1.left_of_append, (List.nodup_append.1 h3).1, ?_, by simp, fun x hx => h6 x ?_⟩
      · cases l1 with
        | nil => simpa using h4
        | cons y l1 => simpa using h4
      · rw [e]; exact List.mem_append_left _ hx
    · refine ⟨l ++ [c], ?_, ?_, ?_, by simp, fun x hx => ?_⟩
      · rw [List.isChain_append]
        refine ⟨h1, by simp, fun x hx y hy => ?_⟩
        simp only [List.head?_cons, Option.mem_def, Option.some.injEq] at hy
        rw [h5] at hx
        simp only [Option.mem_def, Option.some.injEq] at hx
        subst hx; subst hy
        exact h2
      · rw [List.nodup_append]
        refine ⟨h3, by simp, ?_⟩
        rintro x hx y hy rfl
        rw [List.mem_singleton] at hy
        subst hy
        exact hc hx
      · cases l with
        | nil => simp at h4
        | cons y l => simpa using h4
      · rcases List.mem_append.1 hx with hx | hx
        · exact h6 x hx
        · rw [List.mem_singleton] at hx
          exact .inr ⟨b, hx ▸ h2⟩

/-- One of the first `n` summits or one of the saddles `L`. -/
def InNet (n : Nat) (L : List Nat) : Node → Prop
  | .summit D => D < n
  | .saddle k => k ∈ L

/-- Two ends of a saddle that are connected otherwise are on a cycle. -/
theorem bypass_cycle {N : FNet} {n : Nat} {L : List Nat} {k u v : Nat} (hb : ∀ j ∈ L, ∀ D, Linked N j D → D < n)
    (hun : u < n) (hk : k ∉ L) (hne : u ≠ v) (hu : Linked N k u)
    (hv : Linked N k v) (hc : ConnectedBy N (fun _ => True) (· ∈ L) u v) :
    ∃ c, Cycle N (InNet n (k :: L)) c := by
  have hn : Relation.ReflTransGen (fun x y => Joined N x y ∧ InNet n L y) (Node.summit u) (Node.summit v) := by
    clear hv hne
    induction hc with
    | refl => exact .refl
    | tail _ h2 ih =>
      obtain ⟨_, _, j, hj, l1, l2⟩ := h2
      exact (ih.tail ⟨(show Joined N (.summit _) (.saddle j) from l1), hj⟩).tail
        ⟨(show Joined N (.saddle j) (.summit _) from l2), hb j hj _ l2⟩
  obtain ⟨l, h1, h2, h3, h4, h5⟩ := simple_chain hn
  have hin : ∀ x ∈ l, InNet n L x := fun x hx => by
    rcases h5 x hx with rfl | ⟨y, _, h⟩
    · exact hun
    · exact h
  refine ⟨.saddle k :: l, ?_, ?_, ?_, ?_, ?_⟩
  · rcases l with _ | ⟨x, _ | ⟨y, l⟩⟩
    · simp at h3
    · simp at h3 h4
      rw [h3] at h4
      exact absurd (by simpa using h4) hne
    · simp
  · exact List.nodup_cons.2 ⟨fun h => hk (hin _ h), h2⟩
  · cases l with
    | nil => simp
    | cons x l =>
      simp only [List.head?_cons, Option.some.injEq] at h3
      subst h3
      exact List.isChain_cons_cons.2 ⟨hu, h1.imp fun _ _ h => h.1⟩
  · intro a ha b hb
    simp only [List.head?_cons, Option.mem_def, Option.some.injEq] at hb
    subst hb
    have : (Node.saddle k :: l).getLast? = some (.summit v) := by
      cases l with
      | nil => simp at h3
      | cons x l => rw [List.getLast?_cons_cons]; exact h4
    rw [this] at ha
    simp only [Option.mem_def, Option.some.injEq] at ha
    subst ha
    exact hv
  · intro n hn
    rcases List.mem_cons.1 hn with rfl | hn
    · simp [InNet]
    · have := hin n hn
      cases n with
      | summit _ => exact this
      | saddle j => exact List.mem_cons_of_mem _ this

/-- The ends of the saddle `k`: two summits of the first `n`. -/
def TwoEnds (N : FNet) (n k : Nat) : Prop :=
  ∃ u v, u ≠ v ∧ u < n ∧ v < n ∧ ∀ D, Linked N k D ↔ D = u ∨ D = v

/-- One more saddle connects what it did not only through its ends. -/
theorem conn_cons {N : FNet} {L : List Nat} {k u v : Nat} (hl : ∀ D, Linked N k D → D = u ∨ D = v) {a b : Nat}
    (h : ConnectedBy N (fun _ => True) (· ∈ k :: L) a b) :
    ConnectedBy N (fun _ => True) (· ∈ L) a b ∨ ConnectedBy N (fun _ => True) (· ∈ L) a u ∨
      ConnectedBy N (fun _ => True) (· ∈ L) a v := by
  induction h with
  | refl => exact .inl .refl
  | tail _ h2 ih =>
    rcases ih with ih | ih
    · obtain ⟨_, _, j, hj, l1, l2⟩ := h2
      rcases List.mem_cons.1 hj with rfl | hj
      · rcases hl _ l1 with rfl | rfl
        · exact .inr (.inl ih)
        · exact .inr (.inr ih)
      · exact .inl (ih.tail ⟨trivial, trivial, j, hj, l1, l2⟩)
    · exact .inr ih

/-- `reps` has one of the first `n` summits of every part that the saddles `L` connect. -/
structure PartReps (N : FNet) (n : Nat) (L reps : List Nat) : Prop where
  bound : ∀ r ∈ reps, r < n
  apart : reps.Pairwise fun r s => ¬ ConnectedBy N (fun _ => True) (· ∈ L) r s
  all : ∀ a, a < n → ∃ r ∈ reps, ConnectedBy N (fun _ => True) (· ∈ L) a r

theorem forest_count (N : FNet) (n : Nat) : ∀ (L reps : List Nat), L.Nodup → (∀ k ∈ L, TwoEnds N n k) →
    PartReps N n L reps →
    n ≤ L.length + reps.length ∧ ((∀ c, ¬ Cycle N (InNet n L) c) → L.length + reps.length = n) := by
  intro L
  induction L with
  | nil =>
    intro reps _ _ h
    have heq : ∀ {a b : Nat}, ConnectedBy N (fun _ => True) (· ∈ ([] : List Nat)) a b → a = b := by
      intro a b hc
      induction hc with
      | refl => rfl
      | tail _ h2 _ =>
        obtain ⟨_, _, j, hj, _⟩ := h2
        cases hj
    have hnd : reps.Nodup := h.apart.imp (S := (· ≠ ·)) fun {a b} hab he => hab (by rw [he]; exact .refl)
    have hp : reps.Perm (List.range n) := by
      rw [List.perm_ext_iff_of_nodup hnd List.nodup_range]
      intro a
      rw [List.mem_range]
      refine ⟨h.bound a, fun ha => ?_⟩
      obtain ⟨r, hr, hc⟩ := h.all a ha
      rw [heq hc]
      exact hr
    have := hp.length_eq
    simp only [List.length_range] at this
    simp [this]
  | cons k L ih =>
    intro reps hL hT h
    obtain ⟨hk, hL⟩ := List.nodup_cons.1 hL
    have hT' : ∀ j ∈ L, TwoEnds N n j := fun j hj => hT j (by simp [hj])
    obtain ⟨u, v, hne, hun, hvn, hD⟩ := hT k (by simp)
    have hu := (hD u).2 (.inl rfl)
    have hv := (hD v).2 (.inr rfl)
    have hb : ∀ j ∈ L, ∀ D, Linked N j D → D < n := fun j hj D hl => by
      obtain ⟨a, b, _, h1, h2, h3⟩ := hT' j hj
      rcases (h3 D).1 hl with rfl | rfl
      · exact h1
      · exact h2
    have up : ∀ {a b : Nat}, ConnectedBy N (fun _ => True) (· ∈ L) a b →
        ConnectedBy N (fun _ => True) (· ∈ k :: L) a b := fun hc =>
      conn_mono (fun _ h => h) (fun j hj => List.mem_cons_of_mem _ hj) hc
    have huv : ConnectedBy N (fun _ => True) (· ∈ k :: L) u v :=
      conn_hop (List.mem_cons_self) hu hv trivial trivial
    by_cases hc : ConnectedBy N (fun _ => True) (· ∈ L) u v
    · -- the saddle closes a cycle
      have same : ∀ {a b : Nat}, ConnectedBy N (fun _ => True) (· ∈ k :: L) a b →
          ConnectedBy N (fun _ => True) (· ∈ L) a b := by
        refine conn_bind fun j a b hj ha hb _ _ => ?_
        rcases List.mem_cons.1 hj with rfl | hj
        · rcases (hD a).1 ha with rfl | rfl <;> rcases (hD b).1 hb with rfl | rfl
          · exact .refl
          · exact hc
          · exact conn_symm hc
          · exact .refl
        · exact conn_hop hj ha hb trivial trivial
      obtain ⟨h1, _⟩ := ih reps hL hT' ⟨h.bound, h.apart.imp fun hab hc => hab (up hc), fun a ha => by
        obtain ⟨r, hr, hc⟩ := h.all a ha
        exact ⟨r, hr, same hc⟩⟩
      refine ⟨by simp only [List.length_cons]; omega, fun hno => ?_⟩
      obtain ⟨c, hc⟩ := bypass_cycle (n := n) hb hun hk hne hu hv hc
      exact absurd hc (hno c)
    · -- the saddle joins two parts
      obtain ⟨r0, hr0, hur⟩ := h.all u hun
      have hdec : ∀ {a b : Nat}, ConnectedBy N (fun _ => True) (· ∈ k :: L) a b →
          ConnectedBy N (fun _ => True) (· ∈ L) a b ∨ ConnectedBy N (fun _ => True) (· ∈ L) a u ∨
          ConnectedBy N (fun _ => True) (· ∈ L) a v := fun hc => conn_cons (fun D hl => (hD D).1 hl) hc
      have hrnd : reps.Nodup := h.apart.imp (S := (· ≠ ·)) fun {a b} hab he => hab (by rw [he]; exact .refl)
      have hap : ∀ r ∈ reps, ∀ s ∈ reps, r ≠ s → ¬ ConnectedBy N (fun _ => True) (· ∈ k :: L) r s := by
        intro r hr s hs hrs
        have : Std.Symm fun r s => ¬ ConnectedBy N (fun _ => True) (· ∈ k :: L) r s :=
          ⟨fun _ _ h1 h2 => h1 (conn_symm h2)⟩
        exact h.apart.forall hr hs hrs
      have hother : ∀ r ∈ reps.erase r0, r ∈ reps ∧ ¬ ConnectedBy N (fun _ => True) (· ∈ k :: L) u r := by
        intro r hr
        have hr' := (hrnd.mem_erase_iff.1 hr)
        refine ⟨hr'.2, fun hc => hap r0 hr0 r hr'.2 (Ne.symm hr'.1) ?_⟩
        exact (conn_symm hur).trans hc
      have hrep : PartReps N n L (u :: v :: reps.erase r0) := by
        refine ⟨?_, ?_, ?_⟩
        · intro r hr
          simp only [List.mem_cons] at hr
          rcases hr with rfl | rfl | hr
          · exact hun
          · exact hvn
          · exact h.bound r (hother r hr).1
        · refine .cons ?_ (.cons ?_ ?_)
          · intro r hr
            rcases List.mem_cons.1 hr with rfl | hr
            · exact hc
            · exact fun h' => (hother r hr).2 (up h')
          · intro r hr h'
            exact (hother r hr).2 (huv.trans (up h'))
          · exact (h.apart.sublist List.erase_sublist).imp fun hab h' => hab (up h')
        · intro a ha
          obtain ⟨r, hr, hcr⟩ := h.all a ha
          by_cases hrr : r = r0
          · subst hrr
            rcases hdec (hcr.trans (conn_symm hur)) with h' | h' | h'
            · exact ⟨u, by simp, h'⟩
            · exact ⟨u, by simp, h'⟩
            · exact ⟨v, by simp, h'⟩
          · rcases hdec hcr with h' | h' | h'
            · exact ⟨r, by simp [(hrnd.mem_erase_iff).2 ⟨hrr, hr⟩], h'⟩
            · exact ⟨u, by simp, h'⟩
            · exact ⟨v, by simp, h'⟩
      obtain ⟨h1, h2⟩ := ih _ hL hT' hrep
      have hlen : (u :: v :: reps.erase r0).length = reps.length + 1 := by
        have := List.length_erase_of_mem hr0
        have : 0 < reps.length := List.length_pos_of_mem hr0
        simp only [List.length_cons]
        omega
      rw [hlen] at h1 h2
      simp only [List.length_cons]
      refine ⟨by omega, fun hno => ?_⟩
      have := h2 fun c hcy => hno c (hcy.mono fun x hx => by
        cases x with
        | summit _ => exact hx
        | saddle j => exact List.mem_cons_of_mem _ hx)
      omega

end PyProm
