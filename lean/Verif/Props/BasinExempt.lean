import Verif.Proof.BasinExempt
import Verif.Props.Basin

/-
C27 on every network with saddles exempted by hand.
-/
namespace PyProm
open Spec

theorem Spec.Cycle.saddle {N : FNet} {P : Node → Prop} {c : List Node} (h : Cycle N P c) : ∃ k, Node.saddle k ∈ c := by
  match c, h with
  | [], h => exact absurd h.long (by simp)
  | [_], h => exact absurd h.long (by simp)
  | .saddle k :: _ :: _, _ => exact ⟨k, by simp⟩
  | .summit D :: .saddle k :: _, _ => exact ⟨k, by simp⟩
  | .summit D :: .summit E :: l, h => exact ((List.isChain_cons_cons.1 h.chain).1).elim

/-- C27 fails on every network whose saddles off the edge lead to two summits and are all exempted by hand from disqualification, as
soon as there is a cycle off the edge: detection does not return, after any number of rounds. -/
theorem C27_every_exempt_refuted (N : FNet) (saddles : List Nat) (f : Flags) (hN : NetOk N saddles newFlags)
    (hf : ∀ k, N.edge (.saddle k) = false → f.over k = some false)
    (htwo : ∀ k D, N.edge (.saddle k) = false → Linked N k D → ∃ B, B ≠ D ∧ Linked N k B)
    (c : List Node) (hc : Cycle N (Alive N f) c) (fuel : Nat) (f' : Flags) :
    disqualifyBasinSaddles N fuel saddles f ≠ .ok f' := by
  have hg : ∀ k, N.edge (.saddle k) = false → N.dead newFlags (.saddle k) = false := fun k hk => by
    simp [FNet.dead, hk, FNet.disq, Flags.saddleDisq, newFlags]
  have hf0 : AllExempt N f := hf
  have hc' : Cycle N (Alive N newFlags) c :=
    { hc with mem := fun n hn => by rw [← alive_iff, ← hf0.dead hg, alive_iff]; exact hc.mem n hn }
  obtain ⟨k, hk⟩ := hc.saddle
  obtain ⟨h1, h2, h3, _⟩ := features_spec N saddles
  refine basinLoop_exempt hN hg htwo hc' hk fuel _ f' _ (by unfold AllExempt; rw [(stubPass_spec N _ f).1]; exact hf) h1
    (fun k hk => hN.bound k ((h2 k).1 hk)) h3 ?_
  intro j hj hm c2 hc2 hm2
  obtain ⟨a, _, _, _, _, ha, _⟩ := cycle_two hc2 hm2
  cases a with
  | saddle i => exact ha
  | summit u => exact hm ((h2 j).2 (hN.listed j u hj ha))

/-- The ring of two summits and two saddles is such a network. -/
example (fuel : Nat) (f' : Flags) :
    disqualifyBasinSaddles exRing fuel [0, 1] { newFlags with over := fun _ => some false } ≠ .ok f' := by
  have hN : NetOk exRing (List.range 2) newFlags := netOf_ok (by decide +kernel) (by decide +kernel) (by simp)
  refine C27_every_exempt_refuted exRing (List.range 2) _ hN (fun _ _ => rfl) ?_
    [.saddle 0, .summit 0, .saddle 1, .summit 1] ⟨by decide, by decide, ?_, ?_, ?_⟩ fuel f'
  · rintro k D _ ⟨i, hi, rfl⟩
    have hi' : i < 4 ∧ (exRing.link i).2 = k := by
      simp only [exRing, netOf, List.mem_filter, List.mem_range, decide_eq_true_eq] at hi ⊢
      exact hi
    obtain ⟨hi', rfl⟩ := hi'
    match i, hi' with
    | 0, _ => exact ⟨1, by decide +kernel, 1, by decide +kernel, by decide +kernel⟩
    | 1, _ => exact ⟨0, by decide +kernel, 0, by decide +kernel, by decide +kernel⟩
    | 2, _ => exact ⟨1, by decide +kernel, 3, by decide +kernel, by decide +kernel⟩
    | 3, _ => exact ⟨0, by decide +kernel, 2, by decide +kernel, by decide +kernel⟩
  · refine List.isChain_cons_cons.2 ⟨⟨0, by decide +kernel, by decide +kernel⟩, List.isChain_cons_cons.2
      ⟨⟨2, by decide +kernel, by decide +kernel⟩, List.isChain_cons_cons.2 ⟨⟨3, by decide +kernel, by decide +kernel⟩, .singleton _⟩⟩⟩
  · intro a ha b hb
    cases ha
    cases hb
    exact ⟨1, by decide +kernel, by decide +kernel⟩
  · intro n hn
    rw [← alive_iff]
    simp only [List.mem_cons, List.not_mem_nil, or_false] at hn
    rcases hn with rfl | rfl | rfl | rfl <;> decide +kernel

end PyProm
