import Verif.Proof.Kruskal

/-
How the number of parts of a network changes with the number of saddles.
-/
namespace PyProm
open Spec

/-- The parts depend only on which saddles there are. -/
theorem PartReps.congr {N : FNet} {n : Nat} {L L' reps : List Nat} (h : PartReps N n L reps) (hL : ∀ k, k ∈ L ↔ k ∈ L') :
    PartReps N n L' reps where
  bound := h.bound
  apart := h.apart.imp fun hn hc => hn (conn_mono (fun _ h => h) (fun k hk => (hL k).2 hk) hc)
  all a ha := by
    obtain ⟨r, hr, hc⟩ := h.all a ha
    exact ⟨r, hr, conn_mono (fun _ h => h) (fun k hk => (hL k).1 hk) hc⟩

theorem PartReps.nodup {N : FNet} {n : Nat} {L reps : List Nat} (h : PartReps N n L reps) : reps.Nodup :=
  h.apart.imp (S := (· ≠ ·)) fun {a b} hab he => hab (by rw [he]; exact .refl)

theorem PartReps.unique {N : FNet} {n : Nat} {L reps : List Nat} (h : PartReps N n L reps) {r s : Nat} (hr : r ∈ reps)
    (hs : s ∈ reps) (hc : ConnectedBy N (fun _ => True) (· ∈ L) r s) : r = s := by
  by_contra hne
  have : Std.Symm fun r s => ¬ ConnectedBy N (fun _ => True) (· ∈ L) r s := ⟨fun _ _ h1 h2 => h1 (conn_symm h2)⟩
  exact h.apart.forall hr hs hne hc

/-- One summit of every part, without those that are to be left out. -/
theorem parts_inj {N : FNet} {n : Nat} {L reps l : List Nat} (h : PartReps N n L reps) (hl : l.Nodup) (hb : ∀ r ∈ l, r < n)
    (hi : ∀ r ∈ l, ∀ s ∈ l, ConnectedBy N (fun _ => True) (· ∈ L) r s → r = s) : l.length ≤ reps.length := by
  have hg : ∀ r : Nat, ∃ g, r < n → g ∈ reps ∧ ConnectedBy N (fun _ => True) (· ∈ L) r g := fun r => by
    by_cases hr : r < n
    · obtain ⟨g, g1, g2⟩ := h.all r hr
      exact ⟨g, fun _ => ⟨g1, g2⟩⟩
    · exact ⟨0, fun h => absurd h hr⟩
  choose g hg using hg
  have hnd : (l.map g).Nodup := hl.map_on fun r hr s hs e => hi r hr s hs
    ((hg r (hb r hr)).2.trans (e ▸ conn_symm (hg s (hb s hs)).2))
  have := (List.Nodup.subperm hnd fun x hx => by
    obtain ⟨r, hr, rfl⟩ := List.mem_map.1 hx
    exact (hg r (hb r hr)).1 : (l.map g).Subperm reps).length_le
  simpa using this

/-- Every list of parts is equally long. -/
theorem parts_len {N : FNet} {n : Nat} {L reps reps' : List Nat} (h : PartReps N n L reps) (h' : PartReps N n L reps') :
    reps.length = reps'.length :=
  le_antisymm (parts_inj h' h.nodup h.bound fun _ hr _ hs hc => h.unique hr hs hc)
    (parts_inj h h'.nodup h'.bound fun _ hr _ hs hc => h'.unique hr hs hc)

/-- A saddle joins two parts at most. -/
theorem parts_cons {N : FNet} {n k : Nat} {L reps reps' : List Nat} (hk : TwoEnds N n k) (h : PartReps N n (k :: L) reps)
    (h' : PartReps N n L reps') : reps'.length ≤ reps.length + 1 := by
  obtain ⟨u, v, _, hun, hvn, hD⟩ := hk
  obtain ⟨r0, hr0, hur⟩ := h'.all u hun
  have hnd := h'.nodup
  have hmem : ∀ r ∈ reps'.erase r0, r ∈ reps' ∧ ¬ ConnectedBy N (fun _ => True) (· ∈ L) r u := fun r hr => by
    obtain ⟨h1, h2⟩ := hnd.mem_erase_iff.1 hr
    exact ⟨h2, fun hc => h1 (h'.unique h2 hr0 (hc.trans hur))⟩
  have := parts_inj h (hnd.erase r0) (fun r hr => h'.bound r (hmem r hr).1) fun r hr s hs hc => by
    obtain ⟨r1, r2⟩ := hmem r hr
    obtain ⟨s1, s2⟩ := hmem s hs
    rcases conn_cons (fun D hl => (hD D).1 hl) hc with h1 | h1 | h1
    · exact h'.unique r1 s1 h1
    · exact absurd h1 r2
    · rcases conn_cons (fun D hl => (hD D).1 hl) (conn_symm hc) with h2 | h2 | h2
      · exact h'.unique r1 s1 (conn_symm h2)
      · exact absurd h2 s2
      · exact h'.unique r1 s1 (h1.trans (conn_symm h2))
  rw [List.length_erase_of_mem hr0] at this
  omega

/-- Removing saddles makes at most as many more parts. -/
theorem parts_le {N : FNet} {n : Nat} : ∀ (A L reps reps' : List Nat), (∀ k ∈ A, TwoEnds N n k) → PartReps N n (A ++ L) reps →
    PartReps N n L reps' → reps'.length ≤ A.length + reps.length
  | [], _, _, _, _, h, h' => by
    have := parts_len h h'
    simp only [List.length_nil]
    omega
  | k :: A, L, reps, reps', hA, h, h' => by
    obtain ⟨mid, hm⟩ := exists_reps N (A ++ L) n
    have h1 := parts_le A L mid reps' (fun k hk => hA k (List.mem_cons_of_mem _ hk)) hm h'
    have h2 := parts_cons (hA k (List.mem_cons_self ..)) h hm
    simp only [List.length_cons]
    omega

end PyProm
