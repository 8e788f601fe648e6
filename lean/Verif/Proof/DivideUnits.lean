import Verif.Model.DivideTree
import Mathlib.Algebra.Order.Ring.Rat

/-
The divide tree reads heights of summits only to compare them.
-/
namespace PyProm

theorem foldl_agree {α β : Type} {g g' : α → β → α} : ∀ (l : List β) (a : α), (∀ a, ∀ b ∈ l, g a b = g' a b) → l.foldl g a = l.foldl g' a
  | [], _, _ => rfl
  | b :: l, a, h => by
    rw [List.foldl_cons, List.foldl_cons, h a b (by simp)]
    exact foldl_agree l _ fun a b hb => h a b (by simp [hb])

theorem divideRun_cons (N : FNet) (f : Flags) (D : Nat) (l : List Nat) (t : TreeSt) :
    divideRun N f (D :: l) t = .ok ((D :: l).foldl (localProminentRegion N f) t) := rfl

theorem divideRun_nil (N : FNet) (f : Flags) (t : TreeSt) : divideRun N f [] t = .error .indexError := rfl

section
variable {N : FNet} {f : Flags} {e : Node → Rat} {P : Nat → Prop}

theorem chase_elev (ho : ∀ a b, P a → P b → (e (.summit a) ≤ e (.summit b) ↔ N.elev (.summit a) ≤ N.elev (.summit b)))
    (hP : ∀ k, ∀ j ∈ N.sadLinks k, P (N.link j).1) (M : Nat) : ∀ (left D : Nat) (p : List Nat) (c : ChaseSt), P D →
    chase { N with elev := e } f M left D p c = chase N f M left D p c
  | 0, _, _, _, _ => rfl
  | left + 1, D, p, c, hD => by
    refine foldl_agree _ c fun c i _ => ?_
    unfold chaseLinker
    have hin : ∀ c, (FNet.linkersViaSaddle { N with elev := e } f true true i).foldl
        (chaseNext { N with elev := e } f (chase { N with elev := e } f M left) M D i p) c =
        (N.linkersViaSaddle f true true i).foldl (chaseNext N f (chase N f M left) M D i p) c := fun c => by
      refine foldl_agree _ c fun c j hj => ?_
      have hj' := hP _ j (List.mem_filter.1 hj).1
      have h1 := ho _ _ hj' hD
      have h2 := ho _ _ hD hj'
      unfold chaseNext
      dsimp only
      rw [chase_elev ho hP M left _ _ c hj']
      have h3 : e (.summit (N.link j).1) > e (.summit D) ↔ N.elev (.summit (N.link j).1) > N.elev (.summit D) := by
        rw [gt_iff_lt, gt_iff_lt, ← not_le, ← not_le, h1]
      simp only [h1, h3]
      rfl
    dsimp only
    simp only [hin]

theorem divide_elev (ho : ∀ a b, P a → P b → (e (.summit a) ≤ e (.summit b) ↔ N.elev (.summit a) ≤ N.elev (.summit b)))
    (hP : ∀ k, ∀ j ∈ N.sadLinks k, P (N.link j).1) (sums : List Nat) (hs : ∀ D ∈ sums, P D) (t : TreeSt) :
    divideRun { N with elev := e } f sums t = divideRun N f sums t := by
  have : sums.foldl (localProminentRegion { N with elev := e } f) t = sums.foldl (localProminentRegion N f) t :=
    foldl_agree _ t fun t D hD => by
      have key : ∀ n c, chase { N with elev := e } f D n D [] c = chase N f D n D [] c :=
        fun n c => chase_elev ho hP D n D [] c (hs D hD)
      simp only [localProminentRegion, key]
  cases sums with
  | nil => rw [divideRun_nil, divideRun_nil]
  | cons D l => rw [divideRun_cons, divideRun_cons, this]

end

end PyProm
