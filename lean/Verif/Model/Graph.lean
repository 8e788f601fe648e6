import Verif.Model.Basin
import Verif.Model.Equality

/-
Model of operations on the walked network: neighbour queries of
/repo/pyprom/lib/locations/saddle.py, summit.py and lib/containers/linker.py, soft deletion of
saddles, and DomainMap.purge_saddles
-/
namespace PyProm

/-! ### Linkers -/

/-- `_linker_ok`, linker.py:302-325. `exempt` is the dict `exemptLinkers`. -/
def linkerOk (f : Flags) (skip : Bool) (exempt : Nat → Bool) (i : Nat) : Bool :=
  if skip then
    if f.linkDisq i || exempt i then false else true
  else if exempt i then false
  else true

/-- `Linker.saddles_connected_via_summit`, linker.py:72-97. -/
def FNet.saddlesVia (N : FNet) (f : Flags) (skip : Bool) (exempt : Nat → Bool) (i : Nat) : List Nat :=
  if skip && f.linkDisq i then []
  else if exempt i then []
  else ((N.sumLinks (N.link i).1).filter (linkerOk f skip exempt)).map fun j => (N.link j).2

/-- `Linker.summits_connected_via_saddle`, linker.py:99-124. -/
def FNet.summitsVia (N : FNet) (f : Flags) (skip : Bool) (exempt : Nat → Bool) (i : Nat) : List Nat :=
  if skip && f.linkDisq i then []
  else if exempt i then []
  else ((N.sadLinks (N.link i).2).filter (linkerOk f skip exempt)).map fun j => (N.link j).1

/-- `Linker.linkers_to_saddles_connected_via_summit`, linker.py:143-159, with `_help_exclude_self`,
126-141. -/
def FNet.linkersViaSummit (N : FNet) (f : Flags) (excludeSelf skip : Bool) (i : Nat) : List Nat :=
  (N.sumLinks (N.link i).1).filter fun j => linkerOk f skip (fun _ => false) j && !(excludeSelf && decide (i = j))

/-- `Linker.linkers_to_summits_connected_via_saddle`, linker.py:161-177. -/
def FNet.linkersViaSaddle (N : FNet) (f : Flags) (excludeSelf skip : Bool) (i : Nat) : List Nat :=
  (N.sadLinks (N.link i).2).filter fun j => linkerOk f skip (fun _ => false) j && !(excludeSelf && decide (i = j))

/-! ### Neighbours -/

/-- `Saddle.all_neighbors`, saddle.py:166-187. -/
def FNet.saddleAllNbrs (N : FNet) (f : Flags) (filterDisq : Bool) (k : Nat) : List Nat :=
  if filterDisq then
    ((N.sadLinks k).filter fun i => !f.linkDisq i).flatMap (N.saddlesVia f true fun _ => false)
  else (N.sadLinks k).flatMap (N.saddlesVia f false fun _ => false)

/-- `Summit.all_neighbors`, summit.py:117-136. -/
def FNet.summitAllNbrs (N : FNet) (f : Flags) (filterDisq : Bool) (D : Nat) : List Nat :=
  if filterDisq then
    ((N.sumLinks D).filter fun i => !f.linkDisq i).flatMap (N.summitsVia f true fun _ => false)
  else (N.sumLinks D).flatMap (N.summitsVia f false fun _ => false)

/-- `Summit.neighbors`, summit.py:101-115. The order of the list is that of a Python set; the model keeps
the order of first insertion, and the theorems speak of members only. -/
def FNet.summitNbrs (N : FNet) (f : Flags) (D : Nat) : List Nat :=
  (uniqueSummits N (N.summitAllNbrs f true D)).filter fun x => !N.setEq x D

/-- Whether a Python set holds two Saddles without high neighbourhoods as one: equal hashes
(saddle.py:412-423, base_coordinate.py:101-108; the hashed values stand for the hash) and equality. -/
def sadSetEq (a b : Option SObj) : Bool :=
  match a, b with
  | some s, some t => decide (round6 s.f.lat = round6 t.f.lat) && decide (round6 s.f.lon = round6 t.f.lon) &&
      seEq s.f.lat s.f.lon s.f.elevation t.f.lat t.f.lon t.f.elevation
  | _, _ => false

/-- Whether `hash(saddle)` returns: the hash of a saddle with high neighbourhoods raises TypeError
(`saddleHash` in Model/Equality). -/
def DMap.hashable (m : DMap) (k : Nat) : Bool := ((m.st.objs[k]?.map (·.f.hpn)).getD []).isEmpty

/-- `Saddle.neighbors`, saddle.py:150-164. Every member that enters the set is hashed, and so is the
saddle itself by `discard`. The order of the result is that of a Python set. -/
def DMap.saddleNbrs (m : DMap) (f : Flags) (k : Nat) : Except PyErr (List Nat) :=
  let all := m.net.saddleAllNbrs f true k
  if !all.all m.hashable || !m.hashable k then .error .typeError
  else
    let eq := fun a b => sadSetEq m.st.objs[a]? m.st.objs[b]?
    let set := all.foldl (fun acc x => if acc.any (fun y => eq x y) then acc else acc ++ [x]) []
    .ok (set.filter fun x => !eq x k)

/-! ### Deleting saddles -/

/-- `x != y` for two features (`SpotElevation.__ne__`). -/
def DMap.ne (m : DMap) (a b : Node) : Bool :=
  match m.feature a, m.feature b with
  | some s, some t => seNe s.lat s.lon s.elevation t.lat t.lon t.elevation
  | _, _ => true

/-- `Saddle.emancipate`, saddle.py:289-296. -/
def DMap.emancipate (m : DMap) (k : Nat) : DMap :=
  match m.st.objs[k]?.bind (·.parent) with
  | none => m
  | some p =>
    let objs := modObj m.st.objs p fun o =>
      { o with children := o.children.filter fun x => m.ne (.saddle x) (.saddle k) }
    let st := { m.st with objs := modObj objs k fun o => { o with parent := none } }
    { m with st := st }

/-- `Saddle.disown_children`, saddle.py:298-305. The loop runs over the list as it was at the start. -/
def DMap.disown (m : DMap) (k : Nat) : DMap :=
  let m' := ((m.st.objs[k]?.map (·.children)).getD []).foldl DMap.emancipate m
  { m' with st := { m'.st with objs := modObj m'.st.objs k fun o => { o with children := [] } } }

/-- `Saddle.soft_delete`, saddle.py:307-321. -/
def DMap.softDelete (m : DMap) (f : Flags) (k : Nat) : DMap × Flags :=
  let m1 := if (m.st.objs[k]?.map (·.children)).getD [] = [] then m else m.disown k
  let m2 := if (m1.st.objs[k]?.bind (·.parent)).isSome then m1.emancipate k else m1
  let alts := (f.alts (.saddle k)).foldl (fun (a : Node → List Node) b n =>
    if n = b then (a n).filter fun x => m.ne x (.saddle k) else a n) f.alts
  let f1 := { f with alts := fun n => if n = .saddle k then [] else alts n }
  (m2, disqualifySelf m.net f1 k false false)

/-- `Saddle.domains`, saddle.py:142-147: the domains of the linked summits. -/
def DMap.domainsOf (m : DMap) (k : Nat) : List Nat :=
  ((m.st.sadLinks k).map fun i => (m.net.link i).1).filter fun D => (m.domPoints D).isSome

/-- `SummitDomain.remove_saddle`, summit_domain.py:101-107. -/
def DMap.removeSaddle (m : DMap) (k : Nat) (D : Nat) : DMap :=
  { m with st := { m.st with domSaddles := fun E =>
      if E = D then (m.st.domSaddles E).filter fun x => m.ne (.saddle x) (.saddle k) else m.st.domSaddles E } }

/-- Body of the loop over the culled saddles, domain_map.py:310-313. -/
def cull (mf : DMap × Flags) (k : Nat) : DMap × Flags :=
  let (m, f) := mf.1.softDelete mf.2 k
  ((m.domainsOf k).foldl (fun m D => m.removeSaddle k D) m, f)

/-- Whether `purge_saddles` selects a saddle, domain_map.py:287-301. -/
def purgeSelects (f : Flags) (single basin all : Bool) (k : Nat) : Bool :=
  if f.basin k && (basin || all) then
    if all then true
    else if (f.alts (.saddle k)).isEmpty then true
    else f.single k && single
  else f.single k && single

/-- `DomainMap.purge_saddles`, domain_map.py:267-318. -/
def DMap.purge (m : DMap) (f : Flags) (single basin all : Bool) : DMap × Flags :=
  let keep := m.saddles.filter fun k => !purgeSelects f single basin all k
  let drop := m.saddles.filter (purgeSelects f single basin all)
  let (m', f') := drop.foldl cull (m, f)
  ({ m' with linkers := keep.flatMap m.st.sadLinks, saddles := keep }, f')

end PyProm
