import Verif.Model.Graph

/-
Model of sequences of calls on a DomainMap after its run: /repo/pyprom/domain_map.py
-/
namespace PyProm

/-- A call of `detect_basin_saddles` (domain_map.py:352-358) or `purge_saddles` with its three options
(domain_map.py:267-318). -/
inductive MapCall where
  | detect
  | purge (single basin all : Bool)

/-- One call. -/
def DMap.call (fuel : Nat) (mf : DMap × Flags) : MapCall → Except PyErr (DMap × Flags)
  | .detect => (mf.1.detectBasins fuel mf.2).map fun f => (mf.1, f)
  | .purge single basin all => .ok (mf.1.purge mf.2 single basin all)

/-- Calls one after the other. -/
def DMap.calls (fuel : Nat) (mf : DMap × Flags) : List MapCall → Except PyErr (DMap × Flags)
  | [] => .ok mf
  | c :: cs =>
    match DMap.call fuel mf c with
    | .ok mf' => DMap.calls fuel mf' cs
    | .error e => .error e

end PyProm
