import Verif.Model.RunSerial

/-
A loaded DomainMap as one that can be walked: the way back from the model of saving and loading to that of runs
-/
namespace PyProm

/-- The cells of a loaded MultiPoint: pairs (`MultiPoint.from_dict`, containers/multipoint.py:106). -/
def MultiObj.cells (a : MultiObj) : List MPt := a.points.map fun p => ⟨p.x, p.y, none⟩

/-- A loaded Summit (summit.py:161-187) as the walk sees it. -/
def LSummit.feature (t : LSummit) : Feature :=
  mkSummit (t.lat, t.lon) t.ele (t.mp.map MultiObj.cells) t.edge t.edgePoints

/-- A loaded Saddle or Runoff (saddle.py:360-412, runoff.py:29-53) as the walk sees it. -/
def LSaddle.feature (t : LSaddle) : Feature where
  kind := if t.runoff then .runoff else .saddle
  lat := t.lat
  lon := t.lon
  elevation := t.ele
  multipoint := t.mp.map MultiObj.cells
  edge := t.edge
  edgePoints := t.edgePoints
  hpn := t.hpn

/-- The DomainMap that `from_dict` makes of what it loaded, domain_map.py:239-241, with `n` saddles; what follows them are
the runoffs. Objects are numbered by their place; domains are named by the numbers of their summits; the order of the set they are in is left out (walking replaces it). The points of a domain
are those of `summit.domain` (summit_domain.py:228-230), so that a summit whose domain was not saved has none. -/
def LState.toDMap (s : LState) (n : Nat) : DMap where
  summits := s.summits.map LSummit.feature
  st := { CSt.start (s.saddles.map fun t => { f := t.feature, parent := t.parent, children := t.children, disq := t.over }) with
    store := s.linkers.map fun l => ⟨l.summit, l.saddle⟩
    sumLinks := fun D => (s.summits[D]?.map (·.links)).getD []
    sadLinks := fun k => (s.saddles[k]?.map (·.links)).getD []
    domSaddles := fun D => (((s.summits[D]?.bind (·.domain)).bind (s.domains[·]?)).map (·.saddles)).getD [] }
  domPoints D := ((s.summits[D]?.bind (·.domain)).bind (s.domains[·]?)).map fun q => q.points.map fun p => (p.x, p.y)
  saddles := List.range n
  runoffs := (List.range (s.saddles.length - n)).map (n + ·)
  linkers := List.range s.linkers.length
  domains := s.domains.map (·.summit)

end PyProm
