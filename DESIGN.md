# Formal model of pyProm in Lean 4

The subject is the Python source in /repo (Marchowes/pyProm at the pinned commit).
The code was read as text and never run. `properties.jsonl` lists the claims,
`MANIFEST.json` maps each claim to theorems, this file explains model, proofs,
trusted base, and the places where the code does not do what the claim says.

## 1. Layout

* `lean/Verif/Model/*.lean` the model: one Lean definition per Python function,
  each with a comment naming the file and lines it models and its simplifications.
* `lean/Verif/Spec/*.lean` small specifications written on raw data (raster
  function, lists, relations), not on the model's helpers.
* `lean/Verif/Proof/*.lean` helper lemmas and invariants.
* `lean/Verif/Props/*.lean` property theorems named after the claim (`C03_...`),
  each followed by a concrete instance satisfying its hypotheses.
* `lean/Verif/Conform/*.lean` results that the unit tests of the repository state for the code, evaluated on the
  model. These are tests of the model, not proofs, and no claim rests on them (see section 4).
* A theorem with suffix `_partial` proves less than the English claim; a theorem
  with suffix `_refuted` proves the negation of the claim for the model on a
  concrete witness (the code disagrees with the claim).

## 2. Modelling decisions

* Elevations, slopes and coordinates are rationals (`Rat`). Every finite
  float is a rational; NaN and infinities are outside the model. The slope of a
  step is an arbitrary function of the offset and the rise, so that any rounding
  of it is covered (C113). Every operation on coordinates in `xy_to_latlon`, `latlong_to_xy` and `point_geom` is followed by a
  rounding, `DataMap.fl`, which is any function; theorems say what they ask of it. Those about runs ask only that
  cells can be found by their coordinates (`Findable`), which C129 proves for double precision. Exact arithmetic is the instance where `fl` is the identity. Distances are exact.
* A raster is `maxX maxY : Nat` plus a total function `cell : Int -> Int -> Rat`;
  reads outside `0..maxX x 0..maxY` are modelled explicitly (numpy wraps small
  negative indices and raises otherwise).
* `nodata : Option Rat` (GDAL may return None).
* Loops over work lists are fuel recursive and return `none` when the fuel ends.
  The property theorems show that the computed fuel never ends.
* Python set `pop` takes an arbitrary element: the model takes a choice function
  and the theorems quantify over it. The scan order of a raster is likewise any
  enumeration of the cells.
* `hypot`, Dijkstra costs, KD-trees, geodesics, string hashing are parameters; what
  is assumed about them is a hypothesis of the theorem.
* Mutable objects are records in a heap addressed by identity; Python `==` by
  coordinates is kept separate from identity.
* cbor/gzip is the identity on JSON-like values (tuples become lists).

## 3. Plan per property

| id | modelled | proof |
|----|----------|-------|
| C01 | iterateFull/Orthogonal/Diagonal, coord_inbounds | direct, exactness of list and of values |
| C02 | xy_to_latlon, latlong_to_xy | rational arithmetic on rounding |
| C03-C05 | equalHeightBlob | loop invariant, closure = reachability |
| C06 | contiguous_neighbors with arbitrary pop | loop invariant, components |
| C07 | touching_neighborhoods | loop invariant |
| C08-C10, C13 | AnalyzeData.analyze and callees | invariant over the scan |
| C11, C12 | edge_feature_analysis | decision table |
| C14 | make_corner_runoffs, corners | direct; nodata corner refuted |
| C15 | aliasing of multipoint.points | refuted by witness, partial for features without the in-place extension |
| C16 | high_perimeter_neighborhood_shortest_path | refuted by witness |
| C17-C20 | steepestNeighbor, climb_points, climb_from_saddles | measure and invariant |
| C21, C22 | prepopulate, runoffs in climb_from_saddles | refuted by witness + what does hold |
| C23, C24 | internal_saddle_network | invariant; C24 refuted by witness |
| C25, C26 | shortest_path_by_points, closestPoint, Saddle.high_perimeter... | fold invariants; C26 partial |
| C27-C33 | basin_saddle_finder, feature_neighbors, DomainMap.detect_basin_saddles and run | invariant of the search (stack, lookback, used), measure on live saddles; conditions derived for complete runs; edge saddles are the ones the walk disqualifies (Proof/DisqEdge.lean, Props/InnerNetwork.lean); refutations on rasters |
| C34-C37 | containers | list inductions |
| C38-C42 | object graph operations, with Saddle.summits_set (Model/SummitsSet.lean) | heap invariants |
| C43-C46 | to_dict/from_dict | round trips, refutations |
| C47, C48 | kmlwriter | invariant over operations |
| C49 | loader units | decision logic |
| C50-C52 | util, fastlookup | algebraic laws |
| C53, C75 | dividetree | invariants of the depth-first search (everything reported is justified, everything looked at is complete, depth against looked-at linkers); refutations |
| C54 | findPseudoSummits | termination, completeness; soundness refuted |
| C55 | DomainMap.walk | refutation (linkers, domains); saddles and runoffs kept |
| C56 | steepestNeighbor | fold invariant |
| C57, C58 | subset, point_geom | rational arithmetic |
| C59, C60 | climb, climb_points | walk invariant; C60 refuted, partial without flats, and without flat shoulders |
| C61 | generate_child_saddles | fold invariants over the internal network |
| C62, C63, C65, C66 | climb_from_saddles, DomainMap.run | invariant over the object store; C63 refuted |
| C64 | rebuildSaddles | invariant over the object store |
| C67, C68 | complete runs (families, containers) | invariant over the object store; C67 partly refuted |
| C69 | FastLookup.slice | refutation |
| C70, C71 | coordinate hashes, checksums | induction |
| C72, C73 | unit detection and loading | decision logic; C73 refuted |
| C74 | generateDocument | direct |
| C76 | complete runs, then to_dict/from_dict | the saved form of every run is closed (areas, families, alternatives, linkers, domains); refuted with rebuilding |
| C77, C78 | analyze, climb_from_saddles, complete runs | lowering the level: whenever a region joins others at its height it is a discovered saddle (C09), which the run stands in for by live saddles (C61-C66); the other way along the recorded climbs. C78 through C28, C29 and C41; refuted with edge saddles |
| C79 | complete runs | counting parts saddle by saddle (a saddle either joins two parts or closes a cycle), with C28, C29 and C77; exact criterion: no cycle with any summits; refuted with edge features, on all rasters with a bypass beside an edge summit |
| C80 | iterNeighbor... of perimeters and GridPointContainers, append | the index is exact; refuted after item assignment, for empty and grown perimeters, and for diagonals |
| C81 | constructors, append, extend, item assignment, filters of typed containers | induction over calls; refuted for runoffs and unchecked construction |
| C82 | views of SummitDomain | with C02 and the walk invariant; two views refuted |
| C83, C84 | conversions of points, Linker.prom, prom_ft | rational arithmetic, C20 |
| C85 | DomainMap.read, write | direct; refuted without extension |
| C86 | basin_saddle_finder | strict lowest members are marked: a live bypass of every marked member would leave a cycle (C28, C29); with C30 exact for distinct heights, hence independent of order, for every saddle with a height of its own; for ties the number marked at each height is independent of order (forests with the same parts above every level have equally many saddles); which ones are marked is refuted |
| C87 | complete runs | C86 with C77: bypasses in the network are bypasses on the terrain; refuted for all bypassed saddles beside an edge summit, and for ties |
| C88 | DomainMap after a run | detection leaves no live cycle, so it has nothing left to do; purging removes only what is out, so the network over the live saddles stays; refuted with edge saddles |
| C89 | BaseDataMap.distance, BaseGridPoint.distance, find_closest_points | rational arithmetic on squares; refuted for all north-up rasters with cells that are not square |
| C90 | index of containers | first position with an equal member |
| C91 | loading, then detect_basin_saddles | same flags and alternatives at each position if equal linkers have the same ends (simulation by the network without repeated linkers); refuted otherwise |
| C92 | detect_basin_saddles, purge_saddles, then to_dict/from_dict | invariant of calls: parents are disqualified edge saddles and never selected, a saddle with alternatives is never culled without all_basin_saddles; with it, loads exactly if no alternative was culled (refuted) |
| C93 | DomainMap.walk on a walked map, `Walk._prepopulate_summit_domain_points` | with an empty lookup nothing is entered by any climb and no linker is made (induction over the walk); lists of the map lost for every second walk (refuted, universal); exact condition under which a second walk of a finished map raises |
| C94 | FeatureDiscovery.analyze on a raster and on `DataMap.subset` of it | terrain relations of cells off the ring carry over, the cell reported for an area is fixed by its first cell in the scan; unflagged saddle on the ring (refuted) |
| C95 | FeatureDiscovery.analyze on a raster and on the raster with converted heights | terrain relations are equal; components of equal sets match one to one; the first cells of areas in the scan are the same, so results align in order |
| C96 | FeatureDiscovery.analyze twice on one raster with different sets and paths | as C95 with the identity, multipoint and edge points computed before any set choice; place of runoffs (refuted) |
| C97 | default arguments of DomainMap, assignment and change in place of its containers | containers as objects by number; invariant over all histories: two maps share an object only if it is the default of one argument that neither was ever given; sharing of defaults (refuted, universal in the history) |
| C98 | DomainMap.run on a map with any history | a run that walks replaces all five containers; superSparse keeps the domains (refuted), and the file then cannot be loaded, by C45 |
| C99 | places of discovered, rebuilt and walked features | a property of features that new saddles inherit holds for all objects of a map (induction over rebuilding and walk); with level areas the height is right; refuted for saddles on the border |
| C100 | places of all features, extent of the map | the same induction with "is a cell of the raster"; a linear function is between its corner values |
| C101 | numpy_array_override, subset, md5 of a data map | lookups after replacement; subsets and fingerprint keep to the file (refuted, universal) |
| C102 | argument of DomainMap | attribute access on loaders; refuted for every loader, shown for its data map |
| C103 | complete runs | C77/C78 read as key cols: every way has a lowest saddle, the greatest of these heights is the key col; refuted with edge saddles |
| C104 | from_dict, to_dict, from_dict | the loaded objects are numbered by position; ids of positions give the positions back; the index of a perimeter is a fixed point of regrouping |
| C105 | climb, climb_points, climb_from_saddles | the walk is one sequence of climbs from data cells (`walk_explored`); without flat shoulders a climb only extends lists; refuted by a shoulder |
| C106 | climb_from_saddles, Linker | the walk as a sequence of climbs and new linkers (`Walks`); the start of a linker keeps its domain; refuted by a shoulder |
| C107 | run, walk on a converted raster | every function gives the converted result on converted arguments (`Proof/RunHeights*`); slopes scale with the unit; detection only compares heights of features off the edge; `C107_only_units`: other increasing functions change linkers |
| C108 | run with another nodata marker | the walk only compares heights, and slopes between heights, of data cells (`Climbable`, `Firm`: points it climbs from are data, by the invariant `FeatOk`), so a conversion that is only increasing below them changes nothing (`Proof/RunHeightsWalk`, `Proof/Marker`); `C108_any_marker` builds it for any two markers; `C108_only_low`: a marker above data is climbed |
| C109 | steepestNeighbor, climb, climb_from_saddles | the line of steepest ascent is a function of the raster (`FirstSteep`, `LeadsTo`, unique ends); invariant `Led` of climbs without shelves; `TiedTo` keeps the place of each linker in the list of its saddle (`Proof/Ascent`); refuted by a shoulder that was given to the nearest higher cell before a climb crossed it |
| C110 | KMLFileWriter.append, extend, generateDocument; elements_for_kml | `Drawable`: references of the map lead to its objects, kept by detection and purging (`calls_drawable`); the writer's invariant `Holds` of C47 turned into statements about folders; linkers of reported paths by induction over `Descent` |
| C111 | DataMap.point_geom, latlong_to_xy, elevation; SummitDomain.shape | sides of a cell's edges computed in coordinates of the grid (`geom_turns`); integers at most 1/2 away; disjointness of domains (C19) |
| C112 | AnalyzeData.run, equalHeightBlob, contiguous_neighbors, DomainMap.run/walk, xy_to_latlon | notions of the terrain under a renumbering of cells (`Turned`); areas of the two scans matched; connections from C77 and C103. Limits: single linkers can differ where ways up are equally steep (`C112_only_connections`); exchanging rows and columns gives a rotated geotransform, for which walks are outside `RunOk`, so there only discovery is covered |
| C113 | steepestNeighbor, DomainMap.run with rounded slopes | slopes are a parameter of the model; runs whose slopes compare alike are equal (the induction of C107 with heights unchanged); connections from C77 |
| C114 | DomainMap.run, walk on a moved raster | every function of discovery, walk and detection commutes with moving features; features stay on the grid (the same induction with a move that fixes only the grid), where rounded coordinates tell cells apart |
| C115 | DomainMap.to_dict, from_dict; KMLFileWriter.append | what the writer does with a leaf does not depend on the object (`SameLeaf`); positions of loaded objects lead back to the saved ones (`posOf_summit`, `posOf_saddle`); closure of the map after calls as for C92 |
| C116 | DomainMap.run on two rasters of one terrain | ways on one raster are ways on the other, lower by the error (`Spec.Measures.passable`); the highest place that can be reached at a level is a summit (`reach_top`); connections and prominence from C77 and C103; after detection through C127 |
| C117 | DomainMap.run on rasters that agree above a height; DataMap.subset | ways, flat areas and tops above the height are the same in both (`above_passable`, `above_flat`, `above_isTop`); connections and prominence from C77 and C103; after detection through C127 |
| C118 | AnalyzeData.run before and after a change | everything asked of the report for an area (`RegionTable`) depends only on the area and the cells that touch it (`untouched_table`); the comparison of two reports for one area is that of C112 |
| C119 | DomainMap.run on rasters of the same ground | flat areas, ways and tops of the finer raster are those of the coarser one (`shows_flat`, `shows_passable`, `shows_isTop`); blocks and margins are instances (`blocks_shows`, `framed_shows`); connections and prominence from C77 and C103 |
| C120 | DomainMap.run | counting: in a forest the highest summits of the parts are as many as summits minus saddles (`highest_reps`, `forest_count`); applied to the saddles above and from a height on, the difference are the summits whose key col has this height (`key_count`); without a forest, removing saddles makes at most as many more parts (`parts_le`), so that no saddle is missing, and a cycle means one too many (`escape_count`, `forest_cycle`); the terrain from C77 and C103 |
| C121 | DomainMap.run, DivideTree.run | closure: if nothing of at least a height is reported, the region is closed under passages over saddles from this height on (`region_closed`, from C53), so that it contains all that is connected; higher summits are connected by C103 but not in the region |
| C122 | SpotElevation equality, AnalyzeData.run, DomainMap.run | different features are at different cells (C09, C10), whose rounded coordinates differ (`round6_grid`); with it C78 needs no assumption on summits |
| C123 | DomainMap.run, BasinSaddleFinder | counting: the saddles from a height on form a forest whose parts are the summits below it and one summit of every piece of ground (`forest_count`, connection as on the terrain); with a cycle they are more (`forest_cycle`), and beside summits on the edge there are cycles (`run_beside_edge`); lists of heights with equal counts from every height on are permutations of each other (`perm_of_counts`) |
| C124 | AnalyzeData, DomainMap.run(sparse) | counting: sites of summits fall into different blocks of two by two cells (touching tops are of one area); an area has at most four high neighbourhoods per cell (`quarter`) and no more border stretches than cells; a walk makes at most one linker per high neighbourhood of what it walks (`GrownBy`); the summit bound is attained at every size (`peaks`) |
| C125 | calls on a map and on its saddles in any order | an invariant of every call (`Edited`): same network, containers shrink, flags grow, families thin out; connection by C29 and C28 from any flags; separation because detection left no cycle (order of deletion and detection refuted for every raster) |
| C126 | saving and loading after calls on a map and on its saddles in any order | an invariant of every call (`Leftover`: closed references but for parents and alternatives), families by induction over calls, then the exact condition of C45 (refuted by a saddle that is listed as an alternative by one it does not list) |
| C127 | DomainMap.run with edge saddles anywhere | basin detection restricted to a set of saddles that is closed upwards (`Sound`): what is marked there has a way round there (`basin_local`); on clear ground no saddle is made from an edge saddle (`WalkedMap.origin`), so that all its linkers are listed at both ends (`LinkSteps.listed`); the terrain from C77 |
| C128 | subset, then DomainMap.run, against the whole raster | ways on the part are ways on the whole (`passable_tile`); ground that stays off the border of the part is all there is of it on the whole (`passable_inland`); C127 on both |
| C129 | xy_to_latlon, latlong_to_xy, elevation with rounding after each operation | error bounds step by step (`rounded_near`, `axis_back`, `axis_lookup`); double precision defined by the binary exponent (`Spec.double`), its relative error and monotonicity proved |
| C130 | run on a raster with rounded coordinates against the run without rounding | simulation (`run_rounded`) on the features housed in cells (`Housed`), as for C114, with the error bounds of C129 |
| C131 | records of linkers made by climb_from_saddles, feature by feature | invariant of the walk: the records of an object change only when it, or the edge saddle it comes from, is walked (`walkFeatures_recs`) |
| C132 | DomainMap.from_dict, then DomainMap.walk | what was loaded is read back as a map of the run model (`LState.toDMap`); its summits, neighbourhoods and domains are those of the run (C76), so the walk is a second walk (C93): refuted for every run whose summits all have linkers, with the exact condition for raising |
| C133 | DomainMap.walk, detect_basin_saddles, to_dict, from_dict | the loaded linkers and saddles are those of the map (C76); crossings over them are crossings of the network, which is faithful to the terrain (C77, C78), also after purges (C88, C92): partial, as files of rebuilt maps do not load and detection can lose a connection where saddles coincide (Spec/FileProminence.lean) |
| C134 | DivideTree.run, branchChaser, DomainMap.to_dict, from_dict | the search commutes with a renaming of saddles that keeps the lists of linkers (Proof/DivideRename.lean), and leaves out disqualified linkers; a loaded map is such a renaming (C91): partial, as repeated linkers are listed once after loading (Props/DivideLoaded.lean) |
| C135 | DivideTree.run, localProminentRegion, branchChaser | the search reads no notes (Proof/DivideAgain.lean, DivideOrder.lean, DivideExtra.lean), notes that are there already are not repeated; partial, as notes of earlier runs stay (Props/DivideAgain.lean) |
| C136 | DivideTree.run, branchChaser, LPRpath | the runs give the same network with converted heights (C107, C108), or the same network (C114, C130); the search compares heights of summits only (Proof/DivideUnits.lean, Props/DivideUnits.lean) |
| C137 | multipoints of SummitsContainer and SaddlesContainer, SaddlesContainer.disqualified, Saddle.summits_set | the recorded areas of discovery (C08-C10), the saddles made by a walk (C65) and the marks of detection (C31) (Model/ContainerLists.lean, Props/ContainerLists.lean); the walk disqualifies edge saddles only (Proof/DisqEdge.lean); detection marks live inner saddles only, on every network (Proof/BasinInner.lean, C30_inner) |

## 4. Trusted base

Lean's kernel; axioms at most `propext`, `Classical.choice`, `Quot.sound`
(checked with `#print axioms` for every theorem named after a property); the
faithfulness of the model to the Python text, which is argued by the comments and
not machine checked. As evidence for it `Conform/` replays on the model most of the cases of the repository's unit tests that do not need
the elevation file, geopy or hashes of strings: raster geometry and steepest neighbours, neighbour searches and containers, rebuilding of saddles,
linker and neighbour queries, soft deletion, all thirteen networks of the basin saddle tests, and the KML writer. The stated results
come out in every case that is replayed; orders of lists are compared where the tests compare them. Distances are compared squared,
coordinates up to 1e-12, slopes with an approximate square root of 2. The third case of emancipation is replayed as it is
meant (the test binds the name of the parent anew). In double precision (`Spec.double`) the stated results of
`testDataMapGeneralDataMap`, `testDataMapLatLongToXY`, `testDataMapSubset` and `testDataMapGeom` come out to the last bit, also for the seven places that lie exactly half way
between two cells, where the result depends on the rounding of floats. Not replayed, though possible: sorting, `index`, `from_dict` and
`to_tuples` of GridPointContainer, `add_to_remote_saddle_and_summit`, `Linker.from_dict`, `addSaddleLinker`, representations.

Assumptions about external code are hypotheses of the theorems that need them and
are collected in `Spec/Assumptions.lean`:

* `KdOk`: `scipy.spatial.KDTree.query` returns a nearest point of the tree.
* distances between points of one raster are below `sys.maxsize`.
* `EnvOk.pos` (`Upward`): the slope computed for a step to a touching cell is positive if the step rises and 0 if it is level. `C113_upward` shows this for quotients of rise and length with a relative error below 1.
* `RunOk.find`: dijkstar's `find_path` returns a path with the requested ends; `PathsInside` (C100 only): all its nodes are nodes
  of the graph, that is cells of the area and high points around it.
* `SameChoices`, `SameOrders`, `SameSlopes` (C107 and C108 only; slopes compare alike if they are exact, `C107_slopes`): the two runs that are compared take elements out of sets in the same order and find
  the same cheapest paths. Hashes of points depend on heights, so Python need not do so; C95 holds for all orders.
* `Findable`: the coordinates of a cell, looked up, give this cell (needed where the code turns a coordinate back into a cell). It holds for
  rasters that are not rotated, without rounding (`Unrotated.findable`) and in double precision (`C129_back`). `Unrotated`, for theorems about exact
  positions: no rotation terms, nonzero pixel sizes, coordinates not rounded.
* `double`: correct rounding to 53 binary digits, ties to even. Overflow, underflow and indices above 2^53 are outside the model. The rounding of
  coordinates to six digits is exact, as `round(x, 6)` of a float is correctly rounded. The origin of a window is taken to be computed like the coordinates of its first cell; the stated coordinates of the tests for subsets come out only that way.
* cbor: loading what was dumped gives the same value with tuples turned into lists.
* `fingerprint`: md5, string hashing and number formatting are parameters; numpy's
  `array2string` depends only on the cells it prints (above 1000 cells: three at each
  end of each axis). Identifiers of objects are numbers that are only compared.
* `expanduser` is a function of the name; decompressing what gzip wrote gives it back (C85).
* `ObjIds.Distinct`: the random ids of different objects differ (C76).
* `Streaming`: updating a digest by two chunks is updating it by their concatenation.
* `WktOk`: different coordinates have different texts (KML writer).
* `Gdal`: reading, percentiles and warping are parameters of the loader model.
* `NodataLow`: the nodata marker lies below all data (needed by the walk, since
  `steepestNeighbor` does not skip nodata cells).

Not modelled: GDAL, numpy internals, pyproj, networkx and dijkstar except where
written out, scipy, logging, progress bars, floating-point rounding of distances, NaN, Python's
recursion limit and memory. Annotations are not evaluated: the project asks for Python 3.14 (pyproject.toml), so names that are
imported for type checking only do no harm. `DivideTree.__init__` sets `datamap` to its argument even if that is None; nothing
reads it. `SummitDomain.from_dict` takes a missing list of points as empty where the model raises KeyError; saved files always have the
list.

## 5. Where the code is modelled

| file in /repo/pyprom | module |
|----|----|
| lib/datamaps/base_datamap.py (iteration, steepestNeighbor), datamap.py (coordinates, subset, point_geom) | Model/Grid, Model/Coords, Model/Walk |
| lib/logic/equalheight.py | Model/Blob |
| lib/logic/contiguous_neighbors.py, tuple_funcs.py | Model/Neighbors |
| feature_discovery.py | Model/Discovery |
| lib/logic/shortest_path_by_points.py | Model/Closest |
| lib/logic/internal_saddle_network.py | Model/SaddleNet |
| lib/locations (equality, order, hash), equality of containers | Model/Location, Model/Equality |
| lib/containers/spot_elevation.py, gridpoint.py | Model/Containers |
| lib/logic/summit_domain_walk.py, linker.py (construction), summit_domain.py (append, extend) | Model/Walk |
| lib/containers/saddles.py (rebuildSaddles), domain_map.py (run, walk) | Model/DomainMap |
| Saddle.emancipate, disown_children, soft_delete, neighbors; Summit.neighbors; linker.py (queries); summit_domain.py (remove_saddle); DomainMap.purge_saddles | Model/Graph |
| lib/logic/basin_saddle_finder.py, feature_neighbors, Saddle.disqualified, DomainMap.detect_basin_saddles | Model/Basin |
| to_dict/from_dict of lib/locations and lib/containers (multipoint, perimeter, gridpoint, linker, saddles, runoffs, summits, summit_domain), domain_map.py (to_dict, from_dict), DataMap.md5 | Model/Serial |
| lib/util.py (conversions, compression, hash listing, checksum), lib/fastlookup/fastlookup.py | Model/Util |
| lib/loaders (gdal_loader.py, util/detect_vertical_units.py, util/metricate_vertical_dataset.py), DataMap.__init__ | Model/Loader |
| sequences of calls of detect_basin_saddles and purge_saddles | Model/History |
| sequences that also call soft_delete, disqualify_self_and_linkers, emancipate, disown_children or set disqualified | Model/Edits |
| base_datamap.py (distance), base_gridpoint.py (distance; index of containers) | Model/Measure |
| detect_basin_saddles on a loaded map, saving it again | Model/Loaded |
| dividetree.py (run, localProminentRegion, branchChaser, decline) | Model/DivideTree |
| connection of runs with saving: the objects of a DomainMap as saved | Model/RunSerial |
| the way back: a loaded DomainMap as one that can be walked | Model/LoadedMap |
| lib/containers/base_self_iterable.py, typed containers (checks), views of summit_domain.py, conversions of points, linker.py (prom, equality, hash), DomainMap.read and write | Model/Points |
| lib/kmlwriter.py (append, extend, generateDocument) | Model/Kml |
| what a KML writer reads of the objects of a DomainMap, dividetree.py (elements_for_kml) | Model/Drawing |
| the same for maps whose objects are named one by one, in particular loaded ones | Model/DrawingSaved |
| summit_domain.py (shape, up to the union of polygons) | Model/Outline |

The comment on each definition gives the exact lines. Of serialization not modelled:
entries that are written but never read back, and `to_dict` of the
plain spot elevation container, which calls a method that lists do not have. `Model/DomainMap` composes
them: `DMap.runSparse` is `DomainMap.run` from the raster to linkers and domains;
`DMap.run` (Model/Basin) adds basin saddle detection.

`Spec/Network` states what is asked of a feature network. `NetFin` (enough for
termination) holds for every complete run (`WalkedMap.netFin`). `NetOk` (enough for
C28-C30, C33) is proved for complete runs whose linkers (of saddles off the edge) are listed by
both ends or by none (`LinkersPaired`) and whose summits differ in location or elevation
(`WalkedMap.netOk`). Linkers are so if no saddle touches the edge of the map
(`C41_no_edge_saddles_partial`), or if no saddle that was split off an edge saddle has the place
and height of a different one that was linked with the same summit before
(`C41_apart_partial`); `Untwinned` is either of these conditions.

## 6. Where the code does not do what the claim says

Each is a theorem with suffix `_refuted`, for all inputs of a kind where possible and
else on a concrete raster; next to it stands what does hold (`_partial`).
`Props/Always.lean` and `Props/AlwaysNet.lean` have the theorems `…_every…_refuted`: C02, C21, C28, C35, C37, C38, C39,
C42, C43, C52, C55, C63 and C67 fail on
every input of the kind, not only on the raster first found.

* C02: with a rotated geotransform `latlong_to_xy` does not invert `xy_to_latlon`.
* C12: the runoff of an area without higher ground is placed where the area was
  first met, which need not be on the border (always, `Props/Misplaced.lean`).
* C14: every nodata corner gets a corner runoff with the nodata value as elevation; on every one-row or one-column raster each corner gets two runoffs.
* C15: the points of a border saddle's high neighbourhoods are appended in place to
  its own area whenever a runoff is made for the area, so listed members do not have its elevation.
* C16: the high point attached to a runoff does not depend on the runoff: it is the
  last point of the last neighbourhood.
* C20: a runoff without high neighbourhood is linked with prominence zero; so every summit on the edge has
  a linker of prominence zero (`C20_edge_summit_refuted`, for every raster).
* C21: a second walk of the same map finds nothing, or raises KeyError: summits that
  have a domain are skipped when the lookup is filled.
* C22: every runoff with higher ground around it is appended twice to the walked features and becomes its own child.
* C24: the local end of every vertex link lies in the remote neighbourhood and vice
  versa.
* C25: for large inputs the search uses the plain grid metric; it is wrong whenever no nearest pair of the
  grid is nearest on the map.
* C26: the high path ignores neighbourhoods beyond the second, and for the first
  point of the first one it keeps the last path, not the shortest.
* C27: exempting a saddle by hand (`disqualified = False`) makes detection loop for
  ever; a summit as lowest member of a cycle raises AttributeError (not reachable by
  runs, for which termination is proved). With all saddles exempted detection does not return on any network with a cycle
  off the edge whose saddles lead to two summits each (`C27_every_exempt_refuted`).
* C28: cycles through edge summits are left. On complete runs with rebuilding also
  cycles without edge features survive, because of linkers listed on one side only.
* C29, C30: on complete runs a saddle split off an edge saddle can be marked as
  basin saddle although the cycle has a lower member, so that a key saddle is lost;
  on general networks three linkers per saddle, or parallel linkers, are enough.
* C33: among co-located saddles the wrong one is removed from the alternatives.
* C35: `rectangle` is documented as inclusive but drops members on its border.
* C36: item assignment leaves the lookup by id as it was: every assignment of a member with a new id is
  not found, and the replaced one still is.
* C37: a zero coordinate and one that rounds to zero are neither equal nor unequal;
  a saddle with high neighbourhoods cannot be hashed; equality of containers that sort
  by elevation depends on the order of members of one elevation.
* C38: purging drops the linkers of runoffs from the map; summits keep listing the
  (disqualified) linkers of removed saddles; a remaining saddle at the place of a removed
  one vanishes from its domain and from its parent's children; alternatives can name
  removed saddles.
* C39: emancipation and deletion recognise the child by coordinates, so siblings at the
  same place leave the parent's list but keep their parent.
* C41 in walks: a linker to a co-located feature is listed on one side only, since
  duplicates are recognised by coordinates. So on every raster with a corner cell above its neighbours (`C41_corner_refuted`).
  `C41_listed` says for every linker of every run whether its summit and whether its saddle lists it.
* C42: `Saddle.neighbors` raises TypeError for every saddle of a complete run;
  parallel linkers put a feature twice among the feature neighbours.
* C43: a spot elevation is written under other keys than it is read from; a perimeter
  without list of edge points cannot be read (TypeError), a multipoint or saddle without
  perimeter cannot be written (AttributeError); a cell listed twice comes back once (`C43_every_repeated_cell_refuted`: every such perimeter compares unequal to its copy); cells
  with elevation come back without; a summit's disqualification and a saddle's
  `disqualified = False` are lost.
* C44, C76, C91: linkers that compare equal are listed once by their features after loading, in every map (`C44_listed` and
  `C44_equal_refuted` give the exact lists; the walk lists them all for saddles off the edge). So detection on a loaded map
  leaves the second of two linkers between a saddle and a summit enabled (`C91_linkers_refuted`), and where linkers of other
  saddles compare equal it marks other basin saddles (`C91_saddles_refuted`).
* C45: a process with another string hash seed rejects the file; a change in cells that
  numpy does not print is accepted, on every raster (`C45_heights_partial`: the file is accepted exactly if all printed cells
  agree, where numpy prints the first and last three rows and columns of large arrays); a runoff listed twice comes back as two objects.
* C46: a reference to a saddle outside the saved container makes loading fail (KeyError);
  a saddle listed twice comes back as two, the first always without parent, children and alternatives
  (`C46_every_twice_refuted`); runoffs lose parents and children.
* C76: after a run with rebuilding on a raster with an edge saddle the saved map can never
  be loaded (KeyError): the edge saddle names a child that is not in the map.
* C92: after purging with all_basin_saddles a saddle can list a removed one among its alternatives; the map is
  saved, but loading raises KeyError.
* C115: a saddle with a flag that the user declared not disqualified (`disqualified = False`) is drawn as basin saddle after loading. This is so for every such saddle, unless a disqualified one is at the same place (`C115_every_flag_refuted`).
* C125: deleting a saddle after detection separates its summits at every height for good, even where detection had taken out a way
  round it (marks of basin saddles are never taken back); deleted before detection, the way round stays.
* C126: alternatives are not symmetric where saddles are at the same place. A saddle that is deleted stays on the lists of those it does
  not list itself; a plain purge, which alone does no harm (C92), then removes it, and the saved map cannot be loaded (KeyError). Likewise
  for a parent that is purged after a child was emancipated which had a sibling at the same place.
* C78: with a saddle on the edge that is split into saddles at the same place, two summits can be left unconnected at a level at
  which the terrain connects them. Edge saddles that are not split so do no harm (`C41_apart_partial`), and ground
  without edge saddles is right in any case (C127).
* C79: with a summit on the edge cycles through it are left; with rebuilt edge saddles too. The number of
  remaining saddles is right exactly if they form no cycle with any summits, and too high on every raster
  on which a saddle beside a summit on the edge can be bypassed.
* C53: heights are compared with the last summit of the path, not with the summit the
  path starts at, so a region ends at any rise; beyond depth 400 boundaries are lost
  (`C53_depth_refuted`, for every way to run it). Both are so on every network that has such a place (`C53_every_dip_refuted`,
  `C53_every_far_refuted`).
* C75: of saddles at one place a summit lists one only.
* C54: a flat beside a higher point is reported as pseudo summit if the higher point
  was met first, and points of a flat can be reported several times. So it is for every flat of two or more points whose higher
  neighbours all come before it and whose first point touches none of them (`C54_every_later_refuted`).
* C55: walking selected saddles overwrites the map's linkers and domains.
* C93: a second walk, after any first walk, finds no domain and leaves the map without linkers and domains; where a way up
  meets a flat it raises. (The hash of cells starts empty and summits that have a domain are skipped.) `C93_again_partial` says exactly when that is so on a finished map: if and only if some climb does
  not rise strictly to a single cell. So on every raster whose summits all are flats (`C93_every_flat_refuted`),
  and never where no two touching cells are equally high (`C93_no_flats_partial`).
* C132: loading gives every summit whose domain was saved that domain again (summit_domain.py:228-230), so a walk of the loaded
  map skips them, finds no domain, and leaves the map without linkers and domains, for every run whose summits all have
  linkers (`C132_every_refuted`). It raises exactly where a second walk of the map itself would (`C132_again_partial`).
* C133: a file written after a rebuild of edge saddles does not load (C76), and where a saddle split off an edge saddle coincides with
  another one, detection disqualifies a saddle that is needed (C78): the file then gives a summit too much prominence.
* C134: before detection a saddle can have two linkers to one summit; the loaded map lists only the first. The divide tree of the saved
  map goes over both, back to the same summit, and reports paths that start with this loop; that of the loaded map does not
  (`C134_repeated_refuted`). Detection disqualifies both linkers off the edge (`C134_detected_partial`).
* C135: `lprBoundary` of summits and saddles is never reset: a divide tree that is run again after basin saddles were detected leaves
  saddles in the boundary of summits that do not belong there any more, for all of them (`C135_stale_refuted`); paths are replaced.
* C94: a tile can report a saddle that is not flagged as an edge feature although the whole map has no saddle there: when every
  border stretch of a flat area was turned into a runoff, the saddle itself keeps `edgeEffect` false. Users who stitch tiles cannot
  rely on the flag for saddles; for summits they can.
* C96: a runoff is placed at the middle of its border stretch *as listed*; the list starts with an arbitrary element of a set, so
  the runoff can be reported elsewhere in another run. That is so for every runoff with higher ground and two or more border points:
  some order of sets leaves no runoff at its place (`C96_every_runoff_refuted`).
* C97: the default containers of `DomainMap(data)` are shared by all maps created without them: appending to one shows in all of
  them, and in maps created later. Runs replace the containers and so end the sharing. The model has every container that is
  passed as an argument made for that call; a caller who passes one object to two maps shares it knowingly.
* C98: `run(superSparse=True)` on a map that was walked keeps the old summit domains (`summit_domains` is not reset with the
  other lists); such a map can be saved but the file cannot be loaded (KeyError). Elsewhere in the model (`DMap.discover`) the
  map that is run has no domains, i.e. it is new.
* C99: the place of a child or rebuilt saddle is chosen among the points of the multipoint, to which `edge_feature_analysis` adds
  the high points of border saddles (C15). Such a saddle can be reported at a summit (`C99_border_refuted`: elevation 5 at a
  cell of height 9).
* C101: `subset` cuts out of the GDAL dataset and `md5` is computed once, so neither follows `numpy_array_override`
  (`C101_subset_refuted`, `C101_fingerprint_refuted`).
* C102: `DomainMap.__init__` reads `data.datamap` of a loader, which no loader has (`C102_loader_refuted`).
* C103: with a saddle on the edge, detection can mark a saddle off the edge that is the key saddle of a summit; the prominence read
  off the map is then too large (`C103_edge_saddles_refuted`).
* C105: the cells of a flat shoulder are assigned to domains but listed by none, so a domain that extends below a shoulder
  falls apart: on `9 5 5 5 4 8` the domain of the summit 9 lists the summit and the cell next to the saddle (`C105_one_piece_refuted`).
* C106: on the same raster the linker to the summit 9 begins at a point from which no other point of the domain is reached
  (`C106_inside_refuted`).
* C109: a climb across a flat shoulder gives all its cells to the nearest higher cell; a later climb whose steepest line crosses the
  shoulder and rises directly to another summit stops there and takes the domain of the shoulder (`C109_steepest_refuted`, where a
  saddle between two summits gets two linkers to the same one).
* C60: a climb over a flat re-assigns cells that an earlier climb has listed.
* C67: a runoff is its own parent; with rebuilding an edge saddle has children that are
  not in the map.
* C47: two features of one kind at one location give one placemark, and so do parallel
  linkers; a domain passed twice is listed twice, and so is a saddle passed before and
  after it was disqualified.
* C48: appending a linker adds neither its saddle nor its summit.
* C49: a raster in feet is never loaded (AttributeError), and the result of a conversion
  would be thrown away, since the source is warped.
* C73: whichever band is asked for, the data map holds the first.
* C50: no negative coordinate with a fraction of a degree survives the conversion to
  minutes and seconds and back; the sign is lost on the minutes.
* C52: after a removal None is returned and not the default; a lookup on a prebuilt
  plain dict fails on new rows.
* C69: slicing raises AttributeError as soon as a row lies within the bounds.
* C71: with zero chunk blocks nothing is read.
* C63: an edge saddle with three or more high neighbourhoods lists each child twice.
* C37: a Linker whose saddle has high neighbourhoods cannot be hashed; two saddles of one
  elevation in another order make summit domains unequal.
* C80: after item assignment a GridPointContainer still finds the replaced member and not
  the new one; an empty perimeter has no neighbours but an AttributeError; points appended
  to a perimeter are not found; the diagonal iteration gives the orthogonal neighbours.
* C81: runoff containers take plain saddles by `append`, `extend` and item assignment; spot
  elevation containers can be constructed from anything.
* C82: `members` and `baseCoordinate` give grid coordinates as latitude and longitude;
  `baseGridPoint` converts grid coordinates as if they were geographic.
* C83: on every rotated raster some cell does not come back.
* C85: `write` adds the extension that `read` does not.
* C86, C87: among equally low saddles of a cycle the order of the list decides which one is marked (though not how many of each height), and it
  need not be possible to go around it higher up; a cycle through an edge summit is not found at all.
* C88: where basin detection has marked a saddle because of a cycle through an edge saddle (C78), purging
  all edge saddles cuts the last connection.
* C89: `distance` multiplies rows with the cell width and columns with the cell height; on cells that are not
  square all distances but the diagonal ones are wrong, and the search for closest points takes a farther one.
