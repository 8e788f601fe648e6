import Verif.Model.History

/-
Model of sequences of calls on a DomainMap and on its saddles after the run: /repo/pyprom/domain_map.py and
/repo/pyprom/lib/locations/saddle.py
-/
namespace PyProm

/-- A call on the map, or one of the calls on the saddle `k`: `soft_delete` (saddle.py:307-321),
`disqualify_self_and_linkers` (saddle.py:269-287), the assignment `disqualified = True` (saddle.py:262-267),
`emancipate` (saddle.py:289-296), `disown_children` (saddle.py:298-305). -/
inductive EditCall where
  | map (c : MapCall)
  | delete (k : Nat)
  | disqualify (k : Nat) (basin single : Bool)
  | override (k : Nat)
  | emancipate (k : Nat)
  | disown (k : Nat)

/-- One call. -/
def DMap.edit (fuel : Nat) (mf : DMap × Flags) : EditCall → Except PyErr (DMap × Flags)
  | .map c => DMap.call fuel mf c
  | .delete k => .ok (mf.1.softDelete mf.2 k)
  | .disqualify k basin single => .ok (mf.1, disqualifySelf mf.1.net mf.2 k basin single)
  | .override k => .ok (mf.1, { mf.2 with over := fun j => if j = k then some true else mf.2.over j })
  | .emancipate k => .ok (mf.1.emancipate k, mf.2)
  | .disown k => .ok (mf.1.disown k, mf.2)

/-- Calls one after the other. -/
def DMap.edits (fuel : Nat) (mf : DMap × Flags) : List EditCall → Except PyErr (DMap × Flags)
  | [] => .ok mf
  | c :: cs =>
    match DMap.edit fuel mf c with
    | .ok mf' => DMap.edits fuel mf' cs
    | .error e => .error e

end PyProm
