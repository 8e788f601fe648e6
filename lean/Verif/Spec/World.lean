import Verif.Model.World

/-
What histories of calls say about the maps, without container objects.
-/
namespace PyProm

/-- Which containers the maps were given so far, at their creation or by a later run: one entry for each map. -/
def Spec.given (ops : List WorldOp) : List (Comp → Bool) :=
  ops.foldl (fun G op => match op with
    | .create args => G ++ [fun c => (args c).isSome]
    | .replace i args => G.modify i fun g c => g c || (args c).isSome
    | .edit _ _ _ => G) []

/-- Map `i` exists and was never given a container of kind `c`. -/
def Spec.Ungiven (ops : List WorldOp) (i : Nat) (c : Comp) : Prop :=
  ∃ g, (Spec.given ops)[i]? = some g ∧ g c = false

end PyProm
