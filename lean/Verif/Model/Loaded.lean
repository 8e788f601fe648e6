import Verif.Model.Serial
import Verif.Model.Basin

/-
Model of a DomainMap that was loaded from a file, as basin saddle detection sees it:
/repo/pyprom/domain_map.py (from_dict, detect_basin_saddles)
-/
namespace PyProm

/-- Latitude, longitude, elevation and edge effect of a feature. -/
def LState.spot (s : LState) : Node → Option (Rat × Rat × Rat × Bool)
  | .summit D => s.summits[D]?.map fun t => (t.lat, t.lon, t.ele, t.edge)
  | .saddle k => s.saddles[k]?.map fun t => (t.lat, t.lon, t.ele, t.edge)

/-- `SpotElevation.__eq__`, spot_elevation.py:147-166. -/
def LState.spotEq (s : LState) (a b : Node) : Bool :=
  match s.spot a, s.spot b with
  | some x, some y => seEq x.1 x.2.1 x.2.2.1 y.1 y.2.1 y.2.2.1
  | _, _ => false

/-- Whether a Python set holds two Summits as one, as `sumSetEq`. -/
def LState.summitSetEq (s : LState) (a b : Nat) : Bool :=
  match s.spot (.summit a), s.spot (.summit b) with
  | some x, some y => !seNe x.1 x.2.1 x.2.2.1 y.1 y.2.1 y.2.2.1 && seEq x.1 x.2.1 x.2.2.1 y.1 y.2.1 y.2.2.1
  | _, _ => false

/-- The feature network of a loaded map. -/
def LState.net (s : LState) : FNet where
  nSummits := s.summits.length
  nSaddles := s.saddles.length
  elev n := ((s.spot n).map (·.2.2.1)).getD 0
  edge n := ((s.spot n).map (·.2.2.2)).getD true
  eq := s.spotEq
  setEq := s.summitSetEq
  link i := (s.linkers[i]?.map fun l => (l.summit, l.saddle)).getD (0, 0)
  sumLinks D := (s.summits[D]?.map (·.links)).getD []
  sadLinks k := (s.saddles[k]?.map (·.links)).getD []
  sumDisq D := (s.summits[D]?.map (·.disq)).getD false

/-- The flags of a loaded map. -/
def LState.flags (s : LState) : Flags where
  basin k := (s.saddles[k]?.map (·.basin)).getD false
  single k := (s.saddles[k]?.map (·.single)).getD false
  over k := (s.saddles[k]?.map (·.over)).getD none
  linkDisq i := (s.linkers[i]?.map (·.disq)).getD false
  alts
    | .saddle k => ((s.saddles[k]?.map (·.alts)).getD []).map .saddle
    | .summit _ => []

/-- `DomainMap.detect_basin_saddles` (domain_map.py:352-358) of a loaded map whose first `n` saddles are in
`self.saddles` and whose others are runoffs. -/
def LState.detectBasins (s : LState) (n fuel : Nat) : Except PyErr Flags :=
  disqualifyBasinSaddles s.net fuel (List.range n) s.flags

/-- An object for numbers that belong to no summit. -/
def LSummit.blank : LSummit := ⟨0, 0, 0, 0, false, [], none, false, [], none⟩
/-- An object for numbers that belong to no saddle. -/
def LSaddle.blank : LSaddle := ⟨false, 0, 0, 0, 0, false, [], false, false, none, none, [], none, [], [], []⟩
/-- An object for numbers that belong to no linker. -/
def LLinker.blank : LLinker := ⟨0, 0, 0, false⟩
/-- An object for numbers that belong to no domain. -/
def LDomain.blank : LDomain := ⟨0, [], []⟩

/-- The DomainMap that `from_dict` returns (domain_map.py:240-242), of loaded objects of which the first `n` saddles are saddles
and the others runoffs. The domains are in a Python set; `ds` is the order in which it lists them, without those it
dropped because they are equal to another one. -/
def LState.toMap (s : LState) (n : Nat) (ds : List Nat) : LMap where
  sum D := s.summits[D]?.getD .blank
  sad k := s.saddles[k]?.getD .blank
  link i := s.linkers[i]?.getD .blank
  dom i := s.domains[i]?.getD .blank
  summits := List.range s.summits.length
  saddles := List.range n
  runoffs := (List.range (s.saddles.length - n)).map (n + ·)
  linkers := List.range s.linkers.length
  domains := ds

end PyProm
