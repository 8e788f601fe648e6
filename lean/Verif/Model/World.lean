import Verif.Model.Serial

/-
Model of the containers that DomainMap objects hold, as objects that can be shared:
/repo/pyprom/domain_map.py
-/
namespace PyProm

/-- The attributes of a DomainMap that are containers or lists (domain_map.py:78-82). -/
inductive Comp
  | summits | saddles | runoffs | linkers | domains
deriving DecidableEq, Repr

/-- All of them. -/
def Comp.all : List Comp := [.summits, .saddles, .runoffs, .linkers, .domains]

/-- The object that is the default value of the argument (domain_map.py:49-53). Python evaluates default
values once, when the function is defined. -/
def Comp.default : Comp → Nat
  | .summits => 0
  | .saddles => 1
  | .runoffs => 2
  | .linkers => 3
  | .domains => 4

/-- All container objects by number, with their members (numbers of features), and the DomainMaps in order
of creation: for every attribute the number of the object it refers to. -/
structure World where
  cells : List (List Nat)
  maps : List (Comp → Nat)

/-- After import: the five default values. -/
def World.start : World := ⟨[[], [], [], [], []], []⟩

/-- New container objects for the attributes that are given, the old ones for the others. (The model makes
five objects; those that are not given are not referred to.) -/
def World.assign (w : World) (args : Comp → Option (List Nat)) (old : Comp → Nat) : Comp → Nat :=
  fun c => if (args c).isSome then w.cells.length + c.default else old c

/-- The calls. `create` is `DomainMap(data, …)` with the arguments that are given (domain_map.py:46-82);
`replace` is assignment to attributes, as `run`, `walk` and `purge_saddles` do it; `edit` changes a container
in place, as `append`, `extend` and `__setitem__` do. -/
inductive WorldOp
  | create (args : Comp → Option (List Nat))
  | replace (i : Nat) (args : Comp → Option (List Nat))
  | edit (i : Nat) (c : Comp) (g : List Nat → List Nat)

/-- One call. -/
def World.step (w : World) : WorldOp → World
  | .create args =>
    { cells := w.cells ++ Comp.all.map fun c => (args c).getD []
      maps := w.maps ++ [w.assign args Comp.default] }
  | .replace i args =>
    match w.maps[i]? with
    | none => w
    | some m =>
      { cells := w.cells ++ Comp.all.map fun c => (args c).getD []
        maps := w.maps.set i (w.assign args m) }
  | .edit i c g =>
    match w.maps[i]? with
    | none => w
    | some m => { w with cells := w.cells.modify (m c) g }

/-- Calls one after the other. -/
def World.steps (w : World) (ops : List WorldOp) : World := ops.foldl World.step w

/-- What attribute `c` of map `j` holds. -/
def World.view (w : World) (j : Nat) (c : Comp) : Option (List Nat) :=
  w.maps[j]?.bind fun m => w.cells[m c]?

/-- `run(superSparse=True)`, domain_map.py:107-122: new summits, saddles and runoffs, an empty list of
linkers; `summit_domains` is not assigned. -/
def superSparseRun (i : Nat) (su sa ru : List Nat) : WorldOp :=
  .replace i fun
    | .summits => some su
    | .saddles => some sa
    | .runoffs => some ru
    | .linkers => some []
    | .domains => none

/-- `run()` and `run(sparse=True)`, domain_map.py:107-129, with `walk`, domain_map.py:330-332. -/
def walkedRun (i : Nat) (su sa ru li dm : List Nat) : WorldOp :=
  .replace i fun
    | .summits => some su
    | .saddles => some sa
    | .runoffs => some ru
    | .linkers => some li
    | .domains => some dm

/-- `DomainMap.run` of a map with the objects `m`, domain_map.py:107-131: the map after the run, given the
features that are found and, unless `superSparse`, the linkers and domains of the walk. -/
def LMap.run (m : LMap) (superSparse : Bool) (su sa ru li dm : List Nat) : LMap :=
  { m with
    summits := su
    saddles := sa
    runoffs := ru
    linkers := if superSparse then [] else li
    domains := if superSparse then m.domains else dm }

end PyProm
