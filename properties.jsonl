{"id": "C01", "title": "Neighbour iteration never leaves the raster", "statement": "Iterating the neighbours of a raster point (full, orthogonal or diagonal) yields each of the 8 (resp. 4) surrounding coordinates exactly once, in a fixed clockwise order; a coordinate inside the raster carries exactly the stored elevation, and a coordinate outside carries the nodata marker, never a value wrapped around from the opposite side.", "quantifier": "every raster size, every raster content, every point of the raster", "why_tests_cant": "Negative numpy indices wrap silently; a test fixes a few points, the claim is about every border point of every raster shape.", "anchors": ["pyprom/lib/datamaps/base_datamap.py: iterateFull, iterateOrthogonal, iterateDiagonal, coord_inbounds"]}
{"id": "C02", "title": "Grid to lat/long round trip", "statement": "Converting a grid point to latitude/longitude and back gives the same grid point for any axis-aligned north-up geotransform, even when the geographic value is perturbed by less than half a pixel.", "quantifier": "every geotransform with nonzero pixel size and zero rotation, every grid point, every perturbation under half a pixel, in exact arithmetic (floating point is C129)", "why_tests_cant": "Continuous family of geotransforms and perturbations.", "anchors": ["pyprom/lib/datamaps/datamap.py: xy_to_latlon, latlong_to_xy"]}
{"id": "C03", "title": "Equal-height blob is the whole flat area", "statement": "Exploring a flat area from a point returns exactly the points reachable from it through 8-neighbour steps of equal (non-nodata) elevation, without duplicates, and the exploration always terminates.", "quantifier": "every raster, every start point in the raster", "why_tests_cant": "Reachability closure over arbitrary shaped flat areas cannot be enumerated.", "anchors": ["pyprom/lib/logic/equalheight.py: equalHeightBlob"]}
{"id": "C04", "title": "Perimeter of a flat area", "statement": "The perimeter returned for a flat area contains every strictly higher 8-neighbour of the area exactly once with its elevation, and no point that is lower, inside the area, off the map or nodata.", "quantifier": "every raster, every start point", "why_tests_cant": "Depends on an arbitrary flat area shape and on traversal order.", "anchors": ["pyprom/lib/logic/equalheight.py: equalHeightBlob", "pyprom/lib/containers/perimeter.py: Perimeter"]}
{"id": "C05", "title": "Map-edge bookkeeping of a flat area", "statement": "A flat area is flagged as touching the map edge if and only if one of its points is on the map border; the reported edge points are exactly its border points, and the reported perimeter map-edge points are exactly the non-nodata neighbours of other elevation that lie on the border.", "quantifier": "every raster, every start point", "why_tests_cant": "Holds for arbitrary area shapes and traversal order.", "anchors": ["pyprom/lib/logic/equalheight.py: equalHeightBlob"]}
{"id": "C06", "title": "Neighbourhood split is a partition into connected components", "statement": "Splitting a set of points into contiguous neighbourhoods returns lists which partition the points and which are exactly the connected components of 8-adjacency, irrespective of the arbitrary order in which set elements are popped.", "quantifier": "every finite list of grid points with distinct nonnegative coordinates, every set pop order", "why_tests_cant": "Python set pop order is hash dependent; tests exercise one order.", "anchors": ["pyprom/lib/logic/contiguous_neighbors.py: contiguous_neighbors"]}
{"id": "C07", "title": "Touching neighbourhood report is complete", "statement": "For disjoint neighbourhoods the touching report lists, for each neighbourhood, each later one that has a point 8-adjacent to one of its points, exactly once and nothing else.", "quantifier": "every list of pairwise disjoint neighbourhoods", "why_tests_cant": "Pairs of neighbourhoods of any shapes and any count.", "anchors": ["pyprom/lib/logic/contiguous_neighbors.py: touching_neighborhoods"]}
{"id": "C08", "title": "Summit soundness", "statement": "Every summit reported by feature discovery is a maximal connected area of equal, non-nodata elevation with no strictly higher non-nodata neighbour.", "quantifier": "every raster, every scan order of the raster", "why_tests_cant": "All terrains.", "anchors": ["pyprom/feature_discovery.py: AnalyzeData.analyze, summit_and_saddle, analyze_multipoint, consolidatedFeatureLogic"]}
{"id": "C09", "title": "Summit completeness and uniqueness", "statement": "Every maximal connected equal-height area with no higher neighbour gives exactly one summit.", "quantifier": "every raster, every scan order", "why_tests_cant": "Uniqueness depends on the visited bookkeeping over every plateau shape.", "anchors": ["pyprom/feature_discovery.py: AnalyzeData.analyze, analyze_multipoint"]}
{"id": "C10", "title": "Interior saddles", "statement": "A flat area or single point not on the map border is reported as a saddle if and only if its higher perimeter falls into at least two 8-connected components, exactly once, and the recorded high neighbourhoods are those components.", "quantifier": "every raster, every scan order", "why_tests_cant": "All plateau shapes.", "anchors": ["pyprom/feature_discovery.py: consolidatedFeatureLogic", "pyprom/lib/containers/perimeter.py: findHighPerimeterNeighborhoods"]}
{"id": "C11", "title": "Edge decision table", "statement": "A border area with higher ground yields: nothing when it has fewer than two high neighbourhoods and fewer than two lower border neighbourhoods; a border saddle when it has at least two high and fewer than two lower border neighbourhoods; with two or more lower border neighbourhoods, runoffs for the border stretches that separate exactly two of them, and a saddle when at least two high neighbourhoods exist, flagged as border saddle exactly when some border stretch did not become a runoff.", "quantifier": "every border area of every raster", "why_tests_cant": "Combinatorial table over arbitrary shapes.", "anchors": ["pyprom/feature_discovery.py: edge_feature_analysis"]}
{"id": "C12", "title": "Runoff placement", "statement": "Every edge runoff lies on the map border, is one of the border points of its flat area, has the elevation of that area, and is the middle element of the border stretch it represents.", "quantifier": "every raster, every border area, every set pop order", "why_tests_cant": "Arbitrary shapes and orders.", "anchors": ["pyprom/feature_discovery.py: edge_feature_analysis"]}
{"id": "C13", "title": "Nodata never becomes a feature", "statement": "No summit, saddle or edge runoff is ever created at a nodata cell, and no nodata cell belongs to the points, perimeter or high neighbourhoods of a feature.", "quantifier": "every raster with any placement of nodata cells, every scan order", "why_tests_cant": "Every nodata layout.", "anchors": ["pyprom/feature_discovery.py: analyze, summit_and_saddle", "pyprom/lib/logic/equalheight.py"]}
{"id": "C14", "title": "Corner runoffs", "statement": "Feature discovery puts exactly one corner runoff on each of the four map corners, located at that corner and with the elevation stored there; a corner without data gets none.", "quantifier": "every raster, including one-row and one-column rasters and nodata corners", "why_tests_cant": "All rasters including degenerate shapes where corners coincide.", "anchors": ["pyprom/feature_discovery.py: make_corner_runoffs", "pyprom/lib/datamaps/datamap.py: upper_left, lower_left, upper_right, lower_right"]}
{"id": "C15", "title": "Flat-area members keep the feature's elevation", "statement": "All points recorded in the multipoint of a discovered feature have the elevation of that feature.", "quantifier": "every raster, every scan order", "why_tests_cant": "Aliasing effects show up only on particular border shapes.", "anchors": ["pyprom/feature_discovery.py: edge_feature_analysis", "pyprom/lib/logic/shortest_path_by_points.py: high_perimeter_neighborhood_shortest_path"]}
{"id": "C16", "title": "Runoff nearest high point", "statement": "The high neighbourhood point attached to an edge runoff is the high perimeter point with the least path cost from the runoff.", "quantifier": "every flat area, every set of high neighbourhoods, every cost function", "why_tests_cant": "Quantifies over all cost functions and layouts.", "anchors": ["pyprom/lib/logic/shortest_path_by_points.py: high_perimeter_neighborhood_shortest_path"]}
{"id": "C17", "title": "Ascent terminates and rises", "statement": "Climbing from any data point always stops, and the elevation of successive steps never falls and strictly rises whenever the climb leaves a flat area.", "quantifier": "every raster whose nodata value lies below all data, every start point, every slope weighting", "why_tests_cant": "Termination over all terrains with plateaus.", "anchors": ["pyprom/lib/logic/summit_domain_walk.py: climb, climb_points", "pyprom/lib/datamaps/base_datamap.py: steepestNeighbor"]}
{"id": "C18", "title": "Ascent ends on a summit", "statement": "A climb started at a data point ends at a point recorded as belonging to a summit's domain, and every visited point is assigned to that same domain; it never leaves the raster.", "quantifier": "every raster with nodata below data, every previously explored state reachable by climbing", "why_tests_cant": "Depends on the history of earlier climbs.", "anchors": ["pyprom/lib/logic/summit_domain_walk.py: climb, climb_points"]}
{"id": "C19", "title": "Summit domains are disjoint", "statement": "After any number of climbs, no grid point is listed by two summit domains and no domain lists a point twice.", "quantifier": "every sequence of climbs on every raster", "why_tests_cant": "History quantification.", "anchors": ["pyprom/lib/logic/summit_domain_walk.py: climb_points, climb_from_saddles"]}
{"id": "C20", "title": "Linked summits are above their saddle", "statement": "Every linker made by walking up from a saddle connects it to a summit which is strictly higher than the saddle, so every prominence figure of a walked linker is positive.", "quantifier": "every raster, every saddle, every walk history", "why_tests_cant": "All terrains and histories.", "anchors": ["pyprom/lib/logic/summit_domain_walk.py: climb_from_saddles", "pyprom/lib/containers/linker.py: prom"]}
{"id": "C21", "title": "Walking twice is safe", "statement": "Running the walk again on an already walked map (or on a loaded one) succeeds and yields the same domains.", "quantifier": "every walked map", "why_tests_cant": "Second run state depends on the first.", "anchors": ["pyprom/lib/logic/summit_domain_walk.py: _prepopulate_summit_domain_points, climb", "pyprom/domain_map.py: walk"]}
{"id": "C22", "title": "Each runoff is walked once", "statement": "The collection of walked features lists every runoff exactly once.", "quantifier": "every list of runoffs", "why_tests_cant": "Holds for every list.", "anchors": ["pyprom/lib/logic/summit_domain_walk.py: climb_from_saddles"]}
{"id": "C23", "title": "Internal saddle network is a spanning tree", "statement": "The network built between N high neighbourhoods of a saddle has exactly N-1 child links, which connect all neighbourhoods without a cycle, for any tie pattern in the pairwise distances.", "quantifier": "every N of at least two, every symmetric distance table", "why_tests_cant": "All distance tables, all N.", "anchors": ["pyprom/lib/logic/internal_saddle_network.py: build_internal_tree, treeExploration"]}
{"id": "C24", "title": "Vertex links join the right neighbourhoods", "statement": "The two ends of every vertex link belong to the neighbourhoods which the link claims to join, the local end to the holder and the remote end to the remote container.", "quantifier": "every list of high neighbourhoods", "why_tests_cant": "All layouts.", "anchors": ["pyprom/lib/logic/internal_saddle_network.py: find_shortest_paths_between_high_perimeter_neighborhoods"]}
{"id": "C25", "title": "Closest pair search", "statement": "The brute force closest-pair and closest-point searches return a pair drawn from the inputs whose distance is minimal, the earliest such pair on ties, and its actual distance.", "quantifier": "every pair of nonempty point lists, every distance function", "why_tests_cant": "All distance functions.", "anchors": ["pyprom/lib/logic/shortest_path_by_points.py: closest_points_between_sets_brute_force, find_closest_point_by_distance_map", "pyprom/lib/containers/multipoint.py: closestPoint"]}
{"id": "C26", "title": "Saddle high shortest path", "statement": "The high-perimeter shortest path of a saddle is the minimum over all pairs of its high neighbourhoods.", "quantifier": "every saddle with any number of high neighbourhoods", "why_tests_cant": "Number of neighbourhoods unbounded.", "anchors": ["pyprom/lib/locations/saddle.py: high_perimeter_neighborhood_shortest_path"]}
{"id": "C27", "title": "Basin saddle detection terminates", "statement": "Detecting basin saddles always finishes.", "quantifier": "every feature network built of linkers", "why_tests_cant": "Termination over all graphs.", "anchors": ["pyprom/lib/logic/basin_saddle_finder.py: disqualify_basin_saddles"]}
{"id": "C28", "title": "No cycles survive basin detection", "statement": "After basin detection the network of non-disqualified features contains no cycle.", "quantifier": "every feature network", "why_tests_cant": "All graphs.", "anchors": ["pyprom/lib/logic/basin_saddle_finder.py: disqualify_basin_saddles"]}
{"id": "C29", "title": "Basin detection keeps key saddles", "statement": "Basin detection never disconnects summits: two summits connected through saddles of at least some height before detection are still connected through non-disqualified saddles of at least that height afterwards, so key saddles and prominence are unchanged.", "quantifier": "every feature network", "why_tests_cant": "All graphs, all elevation assignments including ties.", "anchors": ["pyprom/lib/logic/basin_saddle_finder.py: disqualify_basin_saddles, find_lowest_cycle_members"]}
{"id": "C30", "title": "Only lowest cycle members are disqualified", "statement": "Each saddle disqualified as a basin saddle is a lowest member of a cycle of the network and is at least as low as all saddles on that cycle.", "quantifier": "every feature network", "why_tests_cant": "All graphs.", "anchors": ["pyprom/lib/logic/basin_saddle_finder.py: _disqualify_and_label, find_lowest_cycle_members"]}
{"id": "C31", "title": "Single-source saddles", "statement": "A live saddle is disqualified as single-source exactly when all of its linkers lead to fewer than two distinct summits; the pass changes no other saddle.", "quantifier": "every list of saddles and linkers", "why_tests_cant": "All link patterns including parallel linkers.", "anchors": ["pyprom/lib/logic/basin_saddle_finder.py: _disqualify_single_source_saddles"]}
{"id": "C32", "title": "Lowest cycle members", "statement": "The lowest-member selection returns exactly the members of minimal elevation, in order, for every nonempty cycle.", "quantifier": "every nonempty list of distinct features", "why_tests_cant": "All lists and ties.", "anchors": ["pyprom/lib/logic/basin_saddle_finder.py: find_lowest_cycle_members"]}
{"id": "C33", "title": "Basin saddle alternatives", "statement": "The alternatives recorded for a disqualified basin saddle are the other lowest saddles of the same cycle and never the saddle itself.", "quantifier": "every tie pattern, including co-located saddles", "why_tests_cant": "Equality by coordinates versus identity.", "anchors": ["pyprom/lib/logic/basin_saddle_finder.py: _disqualify_and_label"]}
{"id": "C34", "title": "Extremes of point containers", "statement": "lowest and highest return exactly the members attaining the minimum/maximum elevation, all ties included, in container order.", "quantifier": "every container of elevations", "why_tests_cant": "All lists.", "anchors": ["pyprom/lib/containers/spot_elevation.py: lowest, highest", "pyprom/lib/containers/gridpoint.py: lowest, highest", "pyprom/lib/logic/tuple_funcs.py: highest"]}
{"id": "C35", "title": "Range filters", "statement": "Elevation range, rectangle and radius filters return exactly the members satisfying the documented condition, in order.", "quantifier": "every container, every range", "why_tests_cant": "All boundary values.", "anchors": ["pyprom/lib/containers/spot_elevation.py: radius, rectangle, elevationRange, elevationRangeMetric"]}
{"id": "C36", "title": "Lookup by id", "statement": "by_id returns the member with that id after any sequence of append, extend and item assignment, and nothing for absent ids.", "quantifier": "every sequence of container operations", "why_tests_cant": "History quantification.", "anchors": ["pyprom/lib/containers/spot_elevation.py: by_id, append, extend, __setitem__"]}
{"id": "C37", "title": "Equality, inequality and hash agree", "statement": "For locations and containers, == is an equivalence, != is its negation, and equal objects have equal hashes; container equality does not depend on insertion order.", "quantifier": "every pair of objects", "why_tests_cant": "All pairs.", "anchors": ["pyprom/lib/locations/spot_elevation.py: __eq__, __ne__, __hash__", "pyprom/lib/locations/base_coordinate.py", "pyprom/lib/locations/gridpoint.py", "pyprom/lib/containers/base_gridpoint.py", "pyprom/lib/containers/spot_elevation.py: __eq__"]}
{"id": "C38", "title": "Purging saddles", "statement": "Purging basin or single-source saddles removes exactly the selected disqualified saddles and their linkers; every remaining linker still joins a remaining saddle with a summit, and no summit refers to a removed saddle.", "quantifier": "every domain map and every combination of purge options", "why_tests_cant": "All graphs.", "anchors": ["pyprom/domain_map.py: purge_saddles", "pyprom/lib/containers/saddles.py"]}
{"id": "C39", "title": "Soft delete and emancipation", "statement": "Deleting a saddle detaches exactly that saddle from its parent and siblings, and emancipating removes exactly that child from its parent.", "quantifier": "every parent/child family, co-located siblings included", "why_tests_cant": "Coordinate equality versus identity.", "anchors": ["pyprom/lib/locations/saddle.py: soft_delete, emancipate, disown_children"]}
{"id": "C40", "title": "Disqualification is derived consistently", "statement": "A saddle reports disqualified exactly when it is a basin saddle, single-source, was deleted or explicitly overridden, with the override taking precedence, and disqualifying a saddle disqualifies all of its linkers.", "quantifier": "every flag combination", "why_tests_cant": "All flag states along histories.", "anchors": ["pyprom/lib/locations/saddle.py: disqualified, disqualify_self_and_linkers"]}
{"id": "C41", "title": "Linkers stay bidirectional", "statement": "After adding linkers to their remotes in any order, a linker is held by its saddle exactly when it is held by its summit, and with duplicate suppression each side holds it at most once.", "quantifier": "every sequence of linker additions", "why_tests_cant": "History quantification.", "anchors": ["pyprom/lib/containers/linker.py: add_to_remote_saddle_and_summit", "pyprom/lib/locations/saddle.py", "pyprom/lib/locations/summit.py"]}
{"id": "C42", "title": "Neighbour queries are symmetric and duplicate-free", "statement": "Summit B is reachable as neighbour of saddle A through live linkers exactly when A is a neighbour of B, and neighbour lists contain no duplicate. The set of summits of a saddle holds every summit linked with it once.", "quantifier": "every bidirectional linker graph", "why_tests_cant": "All graphs.", "anchors": ["pyprom/lib/locations/saddle.py: feature_neighbors, neighbors, summits_set", "pyprom/lib/locations/summit.py: feature_neighbors, neighbors", "pyprom/lib/containers/linker.py: saddles_connected_via_summit, summits_connected_via_saddle"]}
{"id": "C43", "title": "Location serialisation round trip", "statement": "Serialising a location (coordinate, spot elevation, grid point, multipoint, perimeter, summit, saddle, runoff) and loading it gives back an equal object with the same attributes.", "quantifier": "every object of each class", "why_tests_cant": "All field values.", "anchors": ["pyprom/lib/locations/spot_elevation.py: to_dict, from_dict", "pyprom/lib/locations/summit.py: to_dict, from_dict", "pyprom/lib/locations/saddle.py: to_dict, from_dict", "pyprom/lib/locations/runoff.py: to_dict, from_dict", "pyprom/lib/containers/multipoint.py", "pyprom/lib/containers/perimeter.py"]}
{"id": "C44", "title": "Linker serialisation", "statement": "Saving and loading the linkers of a map restores the same linker multigraph.", "quantifier": "every set of linkers including parallel ones and co-located saddles", "why_tests_cant": "All multigraphs.", "anchors": ["pyprom/lib/containers/linker.py: to_dict, from_dict, add_to_remote_saddle_and_summit"]}
{"id": "C45", "title": "DomainMap save and load", "statement": "A saved DomainMap can be loaded against the same raster in any later process, and a DomainMap saved from a different raster is rejected.", "quantifier": "every map, every process hash seed", "why_tests_cant": "Process hash seed and raster contents.", "anchors": ["pyprom/domain_map.py: to_dict, from_dict", "pyprom/lib/datamaps/datamap.py: __init__ (md5)"]}
{"id": "C46", "title": "Saddle family survives a save", "statement": "Parent, child and basin-alternative references between saddles survive saving and loading of a saddles container.", "quantifier": "every forest of saddles", "why_tests_cant": "All reference structures.", "anchors": ["pyprom/lib/containers/saddles.py: from_dict", "pyprom/lib/locations/saddle.py: to_dict, from_dict"]}
{"id": "C47", "title": "KML document lists each feature once", "statement": "Appending features to a KML writer lists each summit, saddle, runoff, linker and domain at most once and drops none.", "quantifier": "every sequence of append/extend", "why_tests_cant": "History quantification.", "anchors": ["pyprom/lib/kmlwriter.py: append, extend, _append_spotElevation_derivative"]}
{"id": "C48", "title": "KML appends linked features", "statement": "Appending a linker also adds its saddle and summit to the document.", "quantifier": "every linker and every writer state", "why_tests_cant": "All states.", "anchors": ["pyprom/lib/kmlwriter.py: _append_linker, append"]}
{"id": "C49", "title": "Raster is metric after load", "statement": "A raster detected as feet is exposed in metres; one detected as metres is unchanged.", "quantifier": "every raster and declared vertical unit", "why_tests_cant": "All rasters.", "anchors": ["pyprom/lib/loaders/gdal_loader.py: GDALLoader.__init__", "pyprom/lib/loaders/util/detect_vertical_units.py", "pyprom/lib/loaders/util/metricate_vertical_dataset.py"]}
{"id": "C50", "title": "Degrees conversions are inverse", "statement": "Converting decimal degrees to degrees-minutes-seconds and back is the identity.", "quantifier": "every decimal degree value, negative ones included", "why_tests_cant": "Continuum of values.", "anchors": ["pyprom/lib/util.py: dottedDecimaltoDegrees, degreesToDottedDecimal"]}
{"id": "C51", "title": "Repeated characters are compressed to one", "statement": "compressRepetetiveChars keeps one character per maximal run, in order: neighbouring characters of the result differ, the original is obtained from the result by repeating characters, and compressing again changes nothing.", "quantifier": "every string", "why_tests_cant": "All strings.", "anchors": ["pyprom/lib/util.py: compressRepetetiveChars"]}
{"id": "C52", "title": "FastLookup behaves as a map", "statement": "After construction from points and any sequence of set, remove and get, get returns the value stored last at the coordinate, and the lookup's default where nothing is stored (also after a removal); no call fails.", "quantifier": "every sequence of operations", "why_tests_cant": "History quantification.", "anchors": ["pyprom/lib/fastlookup/fastlookup.py: FastLookup.__init__, set, get, remove"]}
{"id": "C53", "title": "Divide tree local prominence region", "statement": "For every summit the divide tree reports the boundary of its region, that is of the summits reached over saddles without ever climbing to a higher summit: each reported path starts at the summit, stays in the region and ends at a saddle behind which lies a summit higher than the summit itself, or the edge of the map; and every such saddle is reported, with its height below the summit.", "quantifier": "every network, every map produced by a run", "why_tests_cant": "All networks.", "anchors": ["pyprom/dividetree.py: run, localProminentRegion, branchChaser, LPRpath"]}
{"id": "C54", "title": "Pseudo summits", "statement": "Pseudo summits of a set of points are exactly the maximal connected equal-height groups with no higher neighbour within the set.", "quantifier": "every finite grid point container", "why_tests_cant": "All shapes.", "anchors": ["pyprom/lib/containers/gridpoint.py: findPseudoSummits"]}
{"id": "C55", "title": "Walking selected saddles leaves the map alone", "statement": "Calling walk with an explicit list of saddles does not modify the DomainMap's own linkers, saddles or domains.", "quantifier": "every map and list of saddles", "why_tests_cant": "All states.", "anchors": ["pyprom/domain_map.py: walk"]}
{"id": "C56", "title": "Steepest neighbour", "statement": "The steepest-neighbour query returns a neighbour that is at least as high as the point and of maximal slope, the first on ties, and returns nothing exactly when all neighbours are lower.", "quantifier": "every raster, every point, every positive distance weighting", "why_tests_cant": "All rasters.", "anchors": ["pyprom/lib/datamaps/base_datamap.py: steepestNeighbor"]}
{"id": "C57", "title": "Subsets show the same terrain", "statement": "A subset of a raster taken at numpy origin (x, y) has the requested number of rows and columns, and each of its cells has the elevation and the latitude/longitude of the corresponding cell of the original.", "quantifier": "every raster, every geotransform, every window inside the raster, in exact arithmetic", "why_tests_cant": "Axis swaps between numpy and GDAL order hide on square windows.", "anchors": ["pyprom/lib/datamaps/datamap.py: subset"]}
{"id": "C58", "title": "Cell polygons tile the map", "statement": "The polygon of a raster cell has its corners half way to the diagonal neighbours, and horizontally or vertically neighbouring cells share exactly an edge.", "quantifier": "every geotransform (rotated ones included), every cell, in exact arithmetic; sharing of edges with any rounding for those not rotated", "why_tests_cant": "Continuum of geotransforms.", "anchors": ["pyprom/lib/datamaps/datamap.py: point_geom"]}
{"id": "C59", "title": "Domain points ascend to their summit", "statement": "Every grid point listed by a summit's domain holds data, and there is a path of touching points from it to the summit's area that never descends.", "quantifier": "every raster whose nodata value is below all data, every sequence of climbs", "why_tests_cant": "All rasters and climbing orders.", "anchors": ["pyprom/lib/logic/summit_domain_walk.py: climb, climb_points", "pyprom/lib/containers/summit_domain.py"]}
{"id": "C60", "title": "A point's domain is settled", "statement": "Once a grid point is listed by a summit's domain it stays listed there, and later climbs from it report that same domain.", "quantifier": "every raster, every sequence of climbs", "why_tests_cant": "Needs a particular order of climbs on particular flats.", "anchors": ["pyprom/lib/logic/summit_domain_walk.py: climb, climb_points"]}
{"id": "C61", "title": "Place of child saddles", "statement": "A child saddle made when a saddle with three or more high neighbourhoods is split has the saddle's elevation, exactly one high point on either side, and lies at the point of the saddle's area nearest to the midpoint of these two.", "quantifier": "every raster, every saddle area, every arrangement of high neighbourhoods", "why_tests_cant": "All shapes.", "anchors": ["pyprom/lib/logic/internal_saddle_network.py: generate_child_saddles"]}
{"id": "C62", "title": "One linker per high neighbourhood", "statement": "After walking, every saddle that is away from the map edge and was not split off an edge saddle has exactly one linker per high neighbourhood, in order, to a summit that can be reached from this neighbourhood without descent.", "quantifier": "every raster, with and without rebuilding of saddles", "why_tests_cant": "All rasters.", "anchors": ["pyprom/lib/logic/summit_domain_walk.py: climb_from_saddles"]}
{"id": "C63", "title": "Children are listed once", "statement": "After walking, a saddle that was split lists each of its children once.", "quantifier": "every raster with edge saddles", "why_tests_cant": "Needs an edge saddle with three high neighbourhoods.", "anchors": ["pyprom/lib/logic/summit_domain_walk.py: climb_from_saddles", "pyprom/lib/logic/internal_saddle_network.py: generate_child_saddles"]}
{"id": "C64", "title": "Rebuilt saddles", "statement": "Rebuilding replaces every saddle that has n high neighbourhoods by n-1 saddles of the same elevation with two high sides each. A saddle on the map edge is kept as well, disqualified, and lists each of the new saddles once as its child. A rebuilt saddle lies on the cell of the original area nearest to the middle of its two high points.", "quantifier": "every raster", "why_tests_cant": "All shapes of saddle areas.", "anchors": ["pyprom/lib/containers/saddles.py: rebuildSaddles"]}
{"id": "C65", "title": "Saddles after a walk", "statement": "Walking replaces every saddle away from the map edge that has n high neighbourhoods by n-1 saddles of the same elevation with two high sides each and no parent. A saddle on the map edge is kept, disqualified, after the n-1 saddles made from it, whose parent it is.", "quantifier": "every raster, with and without rebuilding of saddles", "why_tests_cant": "All rasters.", "anchors": ["pyprom/lib/logic/summit_domain_walk.py: climb_from_saddles", "pyprom/domain_map.py: walk"]}
{"id": "C66", "title": "Collections of a walked map", "statement": "After a run the map lists every linker once, and exactly the domains of linked summits, each once; the saddles listed by a domain are those of its summit's linkers, in order.", "quantifier": "every raster, with and without rebuilding of saddles", "why_tests_cant": "All rasters.", "anchors": ["pyprom/lib/logic/summit_domain_walk.py: climb_from_saddles", "pyprom/domain_map.py: walk, run"]}
{"id": "C67", "title": "Families agree", "statement": "After a run a saddle lists another one as its child exactly when that one names it as its parent; parent and child are both saddles of the map or both runoffs of the map, and no feature is its own parent.", "quantifier": "every raster, with and without rebuilding of saddles", "why_tests_cant": "All rasters.", "anchors": ["pyprom/lib/logic/summit_domain_walk.py: climb_from_saddles", "pyprom/lib/containers/saddles.py: rebuildSaddles"]}
{"id": "C68", "title": "Linkers stay inside the map", "statement": "After a run every linker of the map joins one of its summits with one of its saddles or runoffs, and the map lists no saddle twice.", "quantifier": "every raster, with and without rebuilding of saddles", "why_tests_cant": "All rasters.", "anchors": ["pyprom/lib/logic/summit_domain_walk.py: climb_from_saddles", "pyprom/domain_map.py: walk, run"]}
{"id": "C69", "title": "Slices of a lookup", "statement": "The slice of a lookup between two corners is a lookup that returns, at every coordinate within the bounds, what the original returns, and the default elsewhere.", "quantifier": "every lookup, all bounds", "why_tests_cant": "All contents.", "anchors": ["pyprom/lib/fastlookup/fastlookup.py: FastLookup.slice"]}
{"id": "C70", "title": "Coordinate hashes list their coordinates", "statement": "The list made from a coordinate hash holds exactly the coordinates of the hash, each once.", "quantifier": "every hash", "why_tests_cant": "All hashes.", "anchors": ["pyprom/lib/util.py: coordinateHashToXYTupleList"]}
{"id": "C71", "title": "Checksums cover the whole file", "statement": "The checksum of a file is the digest of its whole content, whatever chunk size is asked for.", "quantifier": "every file, every number of chunk blocks, every block size of the hash function", "why_tests_cant": "All files.", "anchors": ["pyprom/lib/util.py: checksum"]}
{"id": "C72", "title": "By default a raster is loaded only if its unit of height is known", "statement": "Without an override a raster is loaded exactly if its band declares metres, or declares no feet and the reference system is projected in metres. Whatever confidence is asked for, a raster loaded without an override was detected as metres with at least that confidence.", "quantifier": "every dataset, every band, every confidence", "why_tests_cant": "All datasets.", "anchors": ["pyprom/lib/loaders/gdal_loader.py: GDALLoader.__init__", "pyprom/lib/loaders/util/detect_vertical_units.py"]}
{"id": "C73", "title": "The data map holds the band asked for", "statement": "The data map of a loaded raster holds the heights of the band that was asked for.", "quantifier": "every dataset, every band", "why_tests_cant": "All datasets.", "anchors": ["pyprom/lib/loaders/gdal_loader.py: GDALLoader.__init__", "pyprom/lib/datamaps/datamap.py: DataMap.__init__"]}
{"id": "C74", "title": "KML documents are complete", "statement": "A KML document has exactly the nonempty folders, each once, which together hold every placemark collected, and every style a placemark refers to is defined.", "quantifier": "every state of the writer", "why_tests_cant": "History quantification.", "anchors": ["pyprom/lib/kmlwriter.py: generateDocument"]}
{"id": "C75", "title": "Both sides know a boundary", "statement": "After the divide tree was run a summit lists a saddle as boundary of its region exactly if the saddle lists the summit.", "quantifier": "every network", "why_tests_cant": "All networks.", "anchors": ["pyprom/dividetree.py: branchChaser"]}
{"id": "C76", "title": "Results survive saving", "statement": "The result of a complete run can be saved and loaded again against the same raster; the loaded map has the same summits, saddles and runoffs with the same attributes, the same families, linkers and domains.", "quantifier": "every raster, with and without rebuilding of saddles, all ids", "why_tests_cant": "All rasters.", "anchors": ["pyprom/domain_map.py: run, to_dict, from_dict", "pyprom/lib/containers/saddles.py: to_dict, from_dict, rebuildSaddles"]}
{"id": "C77", "title": "The network is faithful to the terrain", "statement": "On the walked map two summits are connected by linkers over saddles that are off the edge, not disqualified and not lower than a level exactly if one can go from one to the other over touching data cells without going below the level. No linker whatever connects summits at a level at which the terrain does not.", "quantifier": "every raster, every pair of summits, every level not above the first of them, with and without rebuilding of saddles", "why_tests_cant": "All rasters, all levels and all pairs of summits; the right side is about paths over cells.", "anchors": ["pyprom/domain_map.py: walk, run", "pyprom/feature_discovery.py: analyze", "pyprom/lib/logic/summit_domain_walk.py: climb_from_saddles, generate_synthetic_saddles"]}
{"id": "C78", "title": "Complete runs stay faithful to the terrain", "statement": "After a complete run with basin saddle detection two summits are connected over saddles that are not disqualified and not lower than a level exactly if one can go from one to the other over the terrain without going below the level.", "quantifier": "every raster without saddles on the edge, or whose saddles split off edge saddles coincide with no earlier saddle of the same summit, every level, every pair of summits; one direction for every raster", "why_tests_cant": "All rasters, all levels and all pairs of summits.", "anchors": ["pyprom/domain_map.py: run", "pyprom/lib/logic/basin_saddle_finder.py"]}
{"id": "C79", "title": "What a run leaves is a tree", "statement": "After a complete run every saddle that is neither disqualified nor on the edge links exactly two different summits, and the number of summits is the number of such saddles plus the number of separate areas of data cells; so on every area the network is a tree.", "quantifier": "every raster without summits on the edge and without saddles on the edge that split into coinciding ones, whose summits differ in location or elevation, with and without rebuilding of saddles", "why_tests_cant": "All rasters; a count over the whole result of a run.", "anchors": ["pyprom/domain_map.py: run", "pyprom/lib/logic/basin_saddle_finder.py"]}
{"id": "C80", "title": "Neighbours within a collection", "statement": "Asking a point collection for the neighbours of a place gives exactly its members that touch the place (for the full neighbourhood), that share a side with it (for the orthogonal one), or that share only a corner (for the diagonal one), each once, also after the collection has grown.", "quantifier": "every collection of grid points, every perimeter, every place", "why_tests_cant": "All collections and all histories of them.", "anchors": ["pyprom/lib/containers/base_self_iterable.py", "pyprom/lib/containers/gridpoint.py: iterNeighborFull, iterNeighborOrthogonal, append", "pyprom/lib/containers/perimeter.py: append"]}
{"id": "C81", "title": "Containers hold only their kind", "statement": "A container of summits, saddles, runoffs or spot elevations only ever holds objects of its kind: construction and every modifying call with another object raise TypeError and change nothing. Multipoints and perimeters only ever take points with two, respectively three entries.", "quantifier": "every container, every sequence of calls with arbitrary arguments", "why_tests_cant": "History quantification.", "anchors": ["pyprom/lib/containers/spot_elevation.py", "pyprom/lib/containers/summits.py", "pyprom/lib/containers/saddles.py", "pyprom/lib/containers/runoffs.py", "pyprom/lib/containers/multipoint.py: append, __setitem__", "pyprom/lib/containers/perimeter.py: append, __setitem__"]}
{"id": "C82", "title": "Views of a domain show its points", "statement": "Each view of a summit's domain (as coordinates, grid points, spot elevations, base grid points) lists its points in order, at their places, with their elevations in the raster where the view has elevations. On the result of a run no view fails.", "quantifier": "every domain, every raster", "why_tests_cant": "All domains of all runs.", "anchors": ["pyprom/lib/containers/summit_domain.py: members, baseCoordinate, spotElevation, baseGridPoint, gridPoint"]}
{"id": "C83", "title": "Points survive conversion", "statement": "A grid point converted to a spot elevation and back is the same. A spot elevation converted to a grid point and back keeps its elevation and moves by at most half a pixel on each axis. The coordinates of a multipoint are those of its cells.", "quantifier": "every raster, every point", "why_tests_cant": "All geotransforms and points.", "anchors": ["pyprom/lib/locations/gridpoint.py: toSpotElevation", "pyprom/lib/locations/spot_elevation.py: toGridPoint, toXYTuple", "pyprom/lib/containers/multipoint.py: pointsLatLong, points_with_elevation"]}
{"id": "C84", "title": "Prominence in feet and metres", "statement": "The prominence of a linker in feet is that in metres converted; linkers are ordered the same way by both. After a run no linker has a negative prominence, and only linkers of runoffs can have prominence zero.", "quantifier": "all elevations; every raster", "why_tests_cant": "All rasters.", "anchors": ["pyprom/lib/containers/linker.py: prom, prom_ft", "pyprom/domain_map.py: run"]}
{"id": "C85", "title": "Files are read back under the name they were written", "statement": "Writing a domain map to a file and reading the same file name gives the same content; no other file changes.", "quantifier": "every file name, every content of the file system", "why_tests_cant": "All names.", "anchors": ["pyprom/domain_map.py: read, write"]}
{"id": "C86", "title": "Exactly the lowest saddles of cycles are basin saddles", "statement": "Detection marks exactly the saddles that are the lowest feature of some cycle of live summits and saddles, whatever the order in which saddles and linkers are listed.", "quantifier": "every network of summits and saddles, every order", "why_tests_cant": "All networks and all orders.", "anchors": ["pyprom/lib/logic/basin_saddle_finder.py", "pyprom/domain_map.py: detect_basin_saddles"]}
{"id": "C87", "title": "Basin saddles can be bypassed on the terrain", "statement": "After a complete run a saddle between two summits is a basin saddle exactly if one can go on the terrain from one summit to the other while staying above the saddle.", "quantifier": "every raster, with and without rebuilding", "why_tests_cant": "All rasters; the way may be arbitrarily long.", "anchors": ["pyprom/domain_map.py: run", "pyprom/lib/logic/basin_saddle_finder.py"]}
{"id": "C88", "title": "Detecting and purging again keep the result", "statement": "After a complete run, basin saddles can be detected and saddles purged with any options, as often and in any order: no call fails, the live saddles stay, and summits stay connected over them by the linkers of the map exactly as on the terrain. Detection alone changes nothing the second time.", "quantifier": "every raster, every sequence of calls", "why_tests_cant": "History quantification on top of all rasters.", "anchors": ["pyprom/domain_map.py: detect_basin_saddles, purge_saddles, run"]}
{"id": "C89", "title": "Distances on the map", "statement": "The distance of two cells of a raster agrees with the distance of their coordinates, so that searches for the closest of several points find it. Between grid points the distance counted in cells is symmetric, zero exactly on the same cell and one exactly to direct neighbours.", "quantifier": "every raster, every pair of cells", "why_tests_cant": "All geotransforms, in particular cells that are not square.", "anchors": ["pyprom/lib/datamaps/base_datamap.py: distance", "pyprom/lib/locations/base_gridpoint.py: distance", "pyprom/lib/logic/shortest_path_by_points.py"]}
{"id": "C90", "title": "Position of a member in a container", "statement": "Asking a container for the position of a member gives the first position that holds an equal point; the answer exists exactly if the member is contained, and looking at that position gives an equal point.", "quantifier": "every container, every point", "why_tests_cant": "All containers.", "anchors": ["pyprom/lib/containers/spot_elevation.py: index", "pyprom/lib/containers/base_gridpoint.py: index"]}
{"id": "C91", "title": "A loaded map is analysed like the saved one", "statement": "Saving the map of a run, loading it and detecting basin saddles gives what detecting them in the map itself gives: the same saddles are basin saddles or single-summit saddles, with the same alternatives, and the same linkers are disqualified. It does not matter whether the map was saved before or after its own detection.", "quantifier": "every raster, with and without rebuilding, every loaded map", "why_tests_cant": "All rasters; the loaded network numbers its saddles differently and shares no objects with the saved one.", "anchors": ["pyprom/domain_map.py: to_dict, from_dict, detect_basin_saddles", "pyprom/lib/logic/basin_saddle_finder.py"]}
{"id": "C92", "title": "Purged maps survive saving and loading", "statement": "After a run, basin saddles can be detected and saddles purged as often and in any order: what is left can be saved and loaded, and comes back as a whole, that is all summits, runoffs and domains, the saddles that are left with their attributes, families and alternatives, and the linkers between them.", "quantifier": "every raster, with and without rebuilding, every sequence of detections and purges", "why_tests_cant": "History quantification on top of all rasters; a single dangling reference makes the saved file unreadable.", "anchors": ["pyprom/domain_map.py: detect_basin_saddles, purge_saddles, to_dict, from_dict", "pyprom/lib/containers/saddles.py: from_dict"]}
{"id": "C93", "title": "Walking a map again", "statement": "Walking a map that was walked before, whole or selected saddles of it, changes nothing that is known already: the summits, the points and saddles of their domains and the linkers of summits and saddles stay as they are, and the map keeps its linkers and domains.", "quantifier": "every map, every first and second walk", "why_tests_cant": "All maps and selections.", "anchors": ["pyprom/domain_map.py: walk", "pyprom/lib/logic/summit_domain_walk.py: _prepopulate_summit_domain_points, climb, climb_points, climb_from_saddles"]}
{"id": "C94", "title": "Tiles agree with the whole map", "statement": "Analysing a part of a raster (a subset) finds away from its edges what analysing the whole raster finds there: the summits and saddles of the part that are not edge features are the summits and saddles of the whole whose area keeps off the edge of the part, at the same cell, with the same height, cells and higher neighbourhoods, and at the same coordinates (in floating point up to thirteen units of rounding).", "quantifier": "every raster, every subset of it, every order of sets and every choice among equal paths in the two analyses", "why_tests_cant": "Relates two analyses of different rasters; all rasters and windows.", "anchors": ["pyprom/feature_discovery.py: analyze", "pyprom/lib/datamaps/datamap.py: subset"]}
{"id": "C95", "title": "Unit and datum of heights do not matter", "statement": "Giving all heights in another unit or above another datum (any function that keeps the order of heights apart, applied to the nodata marker too) does not change what is found: the same summits and saddles in the same order, at the same coordinates, with the same edge flags, cells, edge points and higher neighbourhoods, their heights converted, and runoffs for the same border points.", "quantifier": "every raster, every strictly increasing conversion, every scan order, every order of sets and every choice among equal paths in the two analyses", "why_tests_cant": "Quantifies over rasters and functions and relates two analyses.", "anchors": ["pyprom/feature_discovery.py: analyze, consolidatedFeatureLogic, edge_feature_analysis"]}
{"id": "C96", "title": "Two analyses of one raster agree", "statement": "Analysing one raster twice gives the same result, although python sets may be iterated in another order and equal paths chosen differently: identical summits, the same saddles and runoffs at the same coordinates.", "quantifier": "every raster, every scan order, every order of sets and every choice among equal paths in the two analyses", "why_tests_cant": "Set order depends on the interpreter and the run; tests see one order.", "anchors": ["pyprom/feature_discovery.py: analyze, edge_feature_analysis", "pyprom/lib/logic/contiguous_neighbors.py: contiguous_neighbors"]}
{"id": "C97", "title": "Maps are independent of each other", "statement": "Creating, running, walking or purging a DomainMap, or appending to one of its containers, changes nothing in another DomainMap.", "quantifier": "every history of such calls on any number of maps", "why_tests_cant": "Sharing shows only in histories with several maps; tests build one map at a time.", "anchors": ["pyprom/domain_map.py: __init__, run, walk, purge_saddles"]}
{"id": "C98", "title": "Running a map again replaces its results", "statement": "After run, in each of its modes, a DomainMap holds what a new DomainMap would hold after the same run, whatever it held before; in particular it can be saved and loaded.", "quantifier": "every map, every history before the run, every mode", "why_tests_cant": "History quantification; tests run each map once.", "anchors": ["pyprom/domain_map.py: run, walk, to_dict, from_dict"]}
{"id": "C99", "title": "The raster has a feature's height at its coordinates", "statement": "Looking up the coordinates of a summit, saddle or runoff in the data map, datamap.elevation(f.latitude, f.longitude), gives its elevation: for everything discovery finds and for the saddles made from it by rebuilding and by the walk.", "quantifier": "every raster, with and without rebuilding, every scan order and choice among equal paths", "why_tests_cant": "All rasters; the place of a made saddle depends on the shape of its area and of its surroundings.", "anchors": ["pyprom/feature_discovery.py: analyze, make_corner_runoffs", "pyprom/lib/containers/saddles.py: rebuildSaddles", "pyprom/lib/logic/internal_saddle_network.py: generate_child_saddles", "pyprom/lib/datamaps/datamap.py: elevation"]}
{"id": "C100", "title": "Features lie within the extent of the map", "statement": "Every summit, saddle and runoff of a DomainMap, found or made, has the coordinates of a cell of the raster; its latitude and longitude are between those of the corners that the map reports as its extent.", "quantifier": "every raster, also rotated ones, with and without rebuilding, before and after the walk, every rounding of coordinates that keeps order (double precision does, C129)", "why_tests_cant": "All rasters and geotransforms.", "anchors": ["pyprom/domain_map.py: __init__, run, walk", "pyprom/lib/datamaps/datamap.py: xy_to_latlon, upper_left, upper_right, lower_left, lower_right"]}
{"id": "C101", "title": "Replacing the heights of a data map", "statement": "numpy_array_override accepts exactly arrays of the shape of the map; from then on the map has the new heights in every respect: lookups, subsets of it, and the check that a saved DomainMap belongs to the data map.", "quantifier": "every data map, every array, every sequence of replacements", "why_tests_cant": "All arrays and histories; the parts that keep the old heights show only in combination.", "anchors": ["pyprom/lib/datamaps/datamap.py: numpy_array_override, subset", "pyprom/lib/datamaps/base_datamap.py: get", "pyprom/domain_map.py: from_dict"]}
{"id": "C102", "title": "A DomainMap can be made from a loader", "statement": "DomainMap(data) accepts a loader as well as a data map; the map of a loader is the map of the data map made by the loader, and anything else is refused with TypeError.", "quantifier": "every raster file that loads, every unit and confidence given", "why_tests_cant": "All loaders.", "anchors": ["pyprom/domain_map.py: __init__", "pyprom/lib/loaders/gdal_loader.py: GDALLoader, to_datamap"]}
{"id": "C103", "title": "Prominence can be read off the network", "statement": "The height to which one has to descend from a summit to get to higher ground can be read off the result: it is the height of a saddle that lies, along linkers, on the way to a higher summit and is the lowest saddle of this way; unless the summit is the highest point around, such a saddle was found. So summit height minus the height of that saddle is the prominence, before and after basin saddle detection.", "quantifier": "every raster, every summit, with and without rebuilding of saddles", "why_tests_cant": "A statement about all ways over the terrain, on all rasters.", "anchors": ["pyprom/domain_map.py: run, walk, detect_basin_saddles", "pyprom/lib/logic/basin_saddle_finder.py: disqualify_basin_saddles", "pyprom/lib/logic/summit_domain_walk.py: climb_from_saddles", "pyprom/lib/containers/linker.py: prom"]}
{"id": "C104", "title": "A loaded map can be saved again", "statement": "What is lost in a file is lost once: a DomainMap that was loaded from a file can be saved and loaded again, and comes back with the same summits, saddles, runoffs, linkers and domains, with the same ids, attributes, flags and references; only the order of the domains, which are kept in a set, can change. The third file is the second, except for that order.", "quantifier": "every map whose references stay in its containers, every order in which the set lists the domains; in particular the result of every run that does not rebuild edge saddles", "why_tests_cant": "All maps, and all orders of a Python set.", "anchors": ["pyprom/domain_map.py: to_dict, from_dict", "pyprom/lib/containers/saddles.py: to_dict, from_dict", "pyprom/lib/containers/linker.py: to_dict, from_dict, add_to_remote_saddle_and_summit", "pyprom/lib/containers/perimeter.py: to_dict, from_dict", "pyprom/lib/containers/multipoint.py: to_dict, from_dict", "pyprom/lib/containers/summit_domain.py: to_dict, from_dict"]}
{"id": "C105", "title": "A domain is one piece", "statement": "The points listed by a summit domain hang together: from each of them one comes to the summit over touching points that are listed by the same domain, without ever going down; and a point is listed by a domain exactly if the walk assigned it to that domain.", "quantifier": "every raster, every walk", "why_tests_cant": "A statement about paths of any length in all domains of all rasters.", "anchors": ["pyprom/lib/logic/summit_domain_walk.py: climb, climb_points, climb_from_saddles", "pyprom/lib/containers/summit_domain.py: points, append, extend"]}
{"id": "C106", "title": "Linkers run inside the domain of their summit", "statement": "Every linker begins at a point listed by the domain of its summit: at the first point of a high neighbourhood of its saddle, or at the runoff itself if that has none. From there the summit is reached over touching points of this domain, without going down, so the linker can be followed on the map.", "quantifier": "every raster, every linker of every walked map", "why_tests_cant": "A statement about paths of any length in all domains of all rasters.", "anchors": ["pyprom/lib/logic/summit_domain_walk.py: climb, climb_points, climb_from_saddles", "pyprom/lib/containers/linker.py: Linker", "pyprom/lib/containers/summit_domain.py: points"]}
{"id": "C107", "title": "The unit of heights does not matter to a run", "statement": "A complete run on a raster whose heights and nodata marker are given in another unit and above another datum ends as the run on the raster itself: it raises the same exception or gives the same map - the same summits, saddles, runoffs, linkers, domains and families, with heights converted - and disqualifies the same saddles and linkers. Prominences are multiplied by the ratio of the units. The same holds for further walks of a map. Only the choices Python leaves open (the order of elements in sets, which of several cheapest paths is found) have to be made alike.", "quantifier": "every raster, every change of unit (factor > 0) and datum, with and without rebuilding of saddles, every choice of set orders and paths", "why_tests_cant": "All rasters and all conversions; slopes, comparisons and equality of linkers all depend on heights.", "anchors": ["pyprom/domain_map.py: run, walk, detect_basin_saddles", "pyprom/feature_discovery.py: AnalyzeData.run", "pyprom/lib/datamaps/base_datamap.py: steepestNeighbor", "pyprom/lib/logic/summit_domain_walk.py: climb, climb_points, climb_from_saddles", "pyprom/lib/logic/basin_saddle_finder.py: disqualify_basin_saddles", "pyprom/lib/containers/saddles.py: rebuildSaddles", "pyprom/lib/containers/linker.py: prom, __eq__"]}
{"id": "C108", "title": "The value of the nodata marker does not matter to a run", "statement": "If the marker for cells without data is replaced, in the raster and in its declaration, by any other value that is also below all data, a complete run ends with the same map - the same summits, saddles and runoffs at the same places with the same heights and high points, the same linkers, domains and families - and disqualifies the same saddles and linkers. The heights of the data may be converted to another unit and datum at the same time, with the marker kept or changed. The only place where the marker shows is the height of a runoff in a corner of the raster that has no data.", "quantifier": "every raster whose marker is below all data, every other such marker, every conversion of the data, every choice of set orders and paths", "why_tests_cant": "All rasters and all pairs of markers; cells without data are compared and subtracted like heights in several places.", "anchors": ["pyprom/domain_map.py: run, walk", "pyprom/feature_discovery.py: AnalyzeData.run, make_corner_runoffs", "pyprom/lib/datamaps/base_datamap.py: iterateFull, steepestNeighbor, get", "pyprom/lib/logic/equalheight.py: equalHeightBlob", "pyprom/lib/logic/summit_domain_walk.py: climb"]}
{"id": "C109", "title": "A point belongs to the summit its steepest ascent leads to", "statement": "The domain a point is listed in is a matter of the terrain, not of the order of the walk: following the steepest rising step again and again (the first one clockwise from north if several are equally steep) one arrives at the summit of the domain that lists the point, and a climb reports this summit whatever was explored before. The linkers of a saddle lead, one per high neighbourhood and in their order, to the summit at the end of the steepest ascent from the first point of the neighbourhood. Two runs over the same raster, with sets listed in different orders, never list a point for different summits.", "quantifier": "every raster, every state of the exploration, every cell, every saddle, every pair of runs", "why_tests_cant": "A statement about ascents of any length and about all orders of exploration.", "anchors": ["pyprom/lib/datamaps/base_datamap.py: steepestNeighbor", "pyprom/lib/logic/summit_domain_walk.py: climb, climb_points, climb_from_saddles", "pyprom/lib/containers/summit_domain.py: points"]}
{"id": "C110", "title": "Drawings of a map are complete", "statement": "When the map a run made is put into a new KML writer, also after basin saddles were detected and saddles purged, no exception is raised and the document shows the map and nothing else: each summit once with its height, each saddle and runoff as what it is (a disqualified saddle as basin saddle), each linker as a line between features that are shown themselves, each domain with the height of its summit. The elements of the paths that a divide tree reports around a summit can be drawn as well: the document shows every linker of the paths with both its ends, the summit itself and the saddles where the paths end; otherwise only summits of its region, and no saddle that is disqualified.", "quantifier": "every raster, with and without rebuilding of saddles, every sequence of detection and purging, all flags, every summit", "why_tests_cant": "All maps; the writer merges placemarks by their text, and references between the objects have to lead to objects that are drawn.", "anchors": ["pyprom/lib/kmlwriter.py: append, extend, generateDocument", "pyprom/dividetree.py: LPRPaths.elements_for_kml, LPRpath.elements_for_kml, run", "pyprom/domain_map.py: run, detect_basin_saddles, purge_saddles"]}
{"id": "C111", "title": "Outlines of domains do not overlap", "statement": "The outlines of the cells of a raster cover the plane without overlapping: no position inside the polygon of one cell belongs to the polygon of another, every position belongs to at least one, the coordinates of a cell are inside its polygon, and all polygons have the same area. So on the map of a run the outlines of different domains have at most borders in common, the area of a domain is that of as many cells as it has points, and looking up a position in the data map agrees with the outlines: inside a cell of a domain it gives a point of that domain with its height, and a position that is looked up as a point of the domain is covered by its outline.", "quantifier": "every geotransform that does not collapse the plane, in exact arithmetic, every position; every map of a run, also after detection and purging", "why_tests_cant": "All positions of the plane, all geotransforms and all maps.", "anchors": ["pyprom/lib/datamaps/datamap.py: point_geom, latlong_to_xy, elevation", "pyprom/lib/containers/summit_domain.py: shape"]}
{"id": "C112", "title": "It does not matter which way up a raster is stored", "statement": "If the rows of a raster are stored from south to north instead of north to south, the columns from east to west, or rows and columns exchanged, with the geotransform saying so, discovery finds the same features: summits and saddles for the same cells, at one of these cells, with the same heights, edge flags, edge points and higher neighbourhoods, and runoffs for the same border points. The maps of complete walks have the same summits, connected at the same heights: two summits are connected over saddles not lower than a given height in one map exactly if they are in the other, so key cols have the same height as well.", "quantifier": "every raster, every arrangement of its cells that keeps neighbours, border and places; every order of scans, sets and paths, with and without rebuilding", "why_tests_cant": "All rasters in all arrangements; cells are scanned, grouped and reported in an order that depends on the arrangement.", "anchors": ["pyprom/feature_discovery.py: AnalyzeData.run, analyze, edge_feature_analysis", "pyprom/lib/logic/equalheight.py: equalHeightBlob", "pyprom/lib/logic/contiguous_neighbors.py: contiguous_neighbors", "pyprom/domain_map.py: run, walk", "pyprom/lib/datamaps/datamap.py: xy_to_latlon"]}
{"id": "C113", "title": "Rounding errors of slopes do no harm", "statement": "Slopes are computed in floating point. Whatever the rounding, as long as the relative error stays below 100 %, runs end, and everything claimed of them holds: two runs with different rounding errors have the same summits, connected at the same heights. The way up from a cell is steepest up to the rounding error. And if slopes that differ at all differ by more than the rounding error while equal ones are computed equal, the run ends with exactly the map it would have without rounding; otherwise a saddle can be linked to another summit.", "quantifier": "every raster, every rounding of slopes with a relative error below 1, every order of scans and sets, with and without rebuilding", "why_tests_cant": "All rasters and all floating point implementations.", "anchors": ["pyprom/lib/datamaps/base_datamap.py: steepestNeighbor", "pyprom/lib/logic/summit_domain_walk.py: climb, climb_points", "pyprom/domain_map.py: run, walk"]}
{"id": "C114", "title": "It does not matter where a raster lies", "statement": "If a raster is moved (another origin in its geotransform, rows or columns counted the other way round), a complete run ends the same way: with the same exception, or with the same map in which every summit, saddle and runoff has moved along, so that it is at the same cell as before, with the same linkers, domains and families and the same saddles and linkers disqualified; further walks on the map give the same result too. Neighbouring cells have to differ by more than a millionth of a degree: features are compared by coordinates rounded to six decimals, and on finer rasters the result depends on the place.", "quantifier": "every raster, every pair of geotransforms without rotation and with pixels larger than a millionth of a degree, every order of scans, sets and paths, with and without rebuilding, every selection of saddles", "why_tests_cant": "All rasters and all places; features are compared by rounded coordinates, with zero treated apart.", "anchors": ["pyprom/domain_map.py: run, walk", "pyprom/feature_discovery.py: AnalyzeData.run, make_corner_runoffs", "pyprom/lib/locations/spot_elevation.py: __eq__, __ne__, __hash__", "pyprom/lib/datamaps/datamap.py: xy_to_latlon, latlong_to_xy", "pyprom/lib/logic/summit_domain_walk.py: climb_from_saddles", "pyprom/lib/containers/linker.py: __eq__, add_to_remote_saddle_and_summit"]}
{"id": "C115", "title": "The drawing of a loaded map is the drawing of the saved one", "statement": "If a map is saved, loaded and put into a KML writer, no exception is raised and the document is the one the writer makes of the map that was saved: the same folders with the same placemarks in the same order - each with the same geometry, type and height - except that the domains, which a loaded map holds in a set, may be in another order. This holds for the map of a run after any sequence of basin saddle detection and purging, so long as it can be loaded at all.", "quantifier": "every map whose references lead to its own objects, every order of the set of domains, every way geometries are written as text; every raster, every sequence of detection and purging", "why_tests_cant": "All maps; the writer gets to the places of linkers and domains through references that saving and loading has to restore.", "anchors": ["pyprom/lib/kmlwriter.py: append, extend, generateDocument", "pyprom/domain_map.py: to_dict, from_dict", "pyprom/lib/locations/saddle.py: to_dict, from_dict, disqualified", "pyprom/lib/containers/linker.py: to_dict, from_dict", "pyprom/lib/containers/summit_domain.py: to_dict, from_dict, shape"]}
{"id": "C116", "title": "Errors of heights do limited harm", "statement": "If two rasters measure the same terrain with heights that differ by at most an error, their maps correspond. Every summit of one map has a counterpart in the other that is reached from it without descending and is not lower by more than the error. Where summits are connected over saddles not lower than some height, their counterparts are connected over saddles not lower than that height less the error, and the other way round if that height is lower than the summits by twice the error. A summit whose prominence exceeds twice the error has a counterpart that differs in height by at most the error and is separated from higher summits by saddles that are higher by at most the error, so that its prominence is smaller by at most twice the error; the counterparts of such summits of different heights are different. A summit with a prominence of just twice the error may have no counterpart. All this is about maps before basin detection; that a prominence is smaller by at most twice the error holds after detection too, where the ground around the summit does not reach the border and no two summits have equal location and height.", "quantifier": "every pair of rasters with data in the same cells, every error, every order of scans, sets and paths, with and without rebuilding", "why_tests_cant": "All pairs of rasters; a small error can create and remove flat areas, summits and saddles anywhere.", "anchors": ["pyprom/domain_map.py: run, walk", "pyprom/feature_discovery.py: AnalyzeData.run, analyze", "pyprom/lib/logic/equalheight.py: equalHeightBlob", "pyprom/lib/logic/summit_domain_walk.py: climb, climb_from_saddles"]}
{"id": "C117", "title": "What lies lower does not matter", "statement": "If two rasters show the same ground from some height upwards - because low ground was filled, cut off, measured otherwise or marked as having no data - their maps have the same summits from this height on: of the same height, for the same cells, at one of them. Two of these summits are connected over saddles not lower than a height above that in one map exactly if they are in the other, and a summit is connected that way with a higher one in one map exactly if it is in the other, so that key cols above the height, and with them prominences, agree. In particular a part of a raster that contains all of the high ground can be analysed instead of the whole. Lower summits, and edge flags, may differ. After basin detection the key saddles agree where the ground down to them does not reach the border of either raster and no two summits have equal location and height.", "quantifier": "every pair of rasters that agree from a height upwards, of the same size or not, every order of scans, sets and paths, with and without rebuilding", "why_tests_cant": "All pairs of rasters; lower ground determines saddles, flat areas and the border of the raster.", "anchors": ["pyprom/domain_map.py: run, walk", "pyprom/feature_discovery.py: AnalyzeData.run, analyze", "pyprom/lib/datamaps/datamap.py: subset, xy_to_latlon", "pyprom/lib/logic/summit_domain_walk.py: climb, climb_from_saddles"]}
{"id": "C118", "title": "A change of heights has local effects", "statement": "If heights are changed in some cells of a raster, discovery reports the same features before and after, apart from those at flat areas that contain or touch a changed cell: the same number of summits, saddles and runoffs elsewhere, at the same cells, with the same heights, edge flags, edge points and higher neighbourhoods. So a correction of the data, or an artefact, cannot make features appear or disappear far away. This does not extend to the walk: a saddle can get another summit through a change far from it.", "quantifier": "every raster and every change of heights in any number of cells, also to and from no data; every order of scans, sets and paths", "why_tests_cant": "All rasters and all changes; flat areas can have any size and shape, and the scan keeps lists of cells already explored.", "anchors": ["pyprom/feature_discovery.py: AnalyzeData.run, analyze, edge_feature_analysis, analyze_multipoint, summit_and_saddle", "pyprom/lib/logic/equalheight.py: equalHeightBlob", "pyprom/lib/logic/contiguous_neighbors.py: contiguous_neighbors"]}
{"id": "C119", "title": "Only heights and neighbourhoods matter", "statement": "Two rasters that show the same ground - one perhaps with several cells for one cell of the other - give the same result as far as summits and prominences go: their summits correspond, with the same heights and for corresponding areas; corresponding summits are connected over live saddles not lower than a height in one map exactly if they are in the other, and a summit is connected that way with a higher one in one map exactly if it is in the other. In particular it does not matter if a raster is stored with every cell repeated (a block of any size for each cell), or with more or fewer rows and columns of cells without data around it. Edge flags, edge saddles and runoffs, which come from the edge of the raster, may differ.", "quantifier": "every pair of rasters one of which shows the cells of the other; blocks of any size, margins of any width; every order of scans, sets and paths, with and without rebuilding", "why_tests_cant": "All pairs of rasters; single cells become flat areas of any size, features that were at the edge no longer are.", "anchors": ["pyprom/domain_map.py: run, walk", "pyprom/feature_discovery.py: AnalyzeData.run, analyze, analyze_multipoint, edge_feature_analysis", "pyprom/lib/logic/equalheight.py: equalHeightBlob", "pyprom/lib/logic/summit_domain_walk.py: climb, climb_from_saddles"]}
{"id": "C120", "title": "The saddles that are left are the key saddles", "statement": "The saddles that are left after a complete run are exactly those needed for prominences: for every height there are as many of them of this height as there are summits from which one has to descend exactly to this height to get to higher ground. So if these saddles differ in height, each of them is the key saddle of exactly one summit, no saddle is left over and none is missing. With summits on the edge none is missing either, but some are left over if a saddle beside such a summit can be bypassed above it.", "quantifier": "every raster without summits on the edge and without saddles on the edge that split into coinciding ones, whose summits differ in height; every order of scans, sets and paths, with and without rebuilding", "why_tests_cant": "All rasters; which saddles survive is decided by a search through all cycles of the network, prominence is a property of all ways on the terrain.", "anchors": ["pyprom/domain_map.py: run, walk, detect_basin_saddles", "pyprom/lib/logic/basin_saddle_finder.py: BasinSaddleFinder.disqualify_basin_saddles", "pyprom/feature_discovery.py: AnalyzeData.run", "pyprom/lib/logic/summit_domain_walk.py: climb_from_saddles"]}
{"id": "C121", "title": "Declines in the divide tree and prominence", "statement": "For a summit of a complete run the divide tree reports a path with a positive decline that is not greater than the prominence of the summit: if one can get from the summit to higher ground without going below some height, one of the reported paths leads down to a saddle not lower than this height. So a summit for which no path is reported is not lower than any ground that can be reached from it. The least decline reported is a lower bound for the prominence and in general not the prominence itself.", "quantifier": "every raster without summits on the edge and without saddles on the edge that split into coinciding ones, with fewer than 400 linkers and without summits of equal location and height; every order of scans, sets and paths, with and without rebuilding", "why_tests_cant": "All rasters and all networks of summits; the region of a summit is found by a recursive search in the network, prominence is a property of all ways on the terrain.", "anchors": ["pyprom/dividetree.py: DivideTree.run, localProminentRegion, LPRpath.decline", "pyprom/domain_map.py: run", "pyprom/lib/logic/basin_saddle_finder.py: BasinSaddleFinder.disqualify_basin_saddles"]}
{"id": "C122", "title": "Features are told apart by their locations", "statement": "On a raster whose neighbouring cells are more than a millionth apart in both coordinates (every usual raster in degrees or metres), no two of the summits and saddles found by discovery agree in latitude and longitude to six digits, which is what their equality and hashes go by. So a summit of a map is equal to another one, by itself or in a set, only if it is the same summit, whatever their heights; and after a complete run on such a raster, if no saddle is on the edge (or none that was split off an edge saddle coincides with an earlier one), the remaining saddles form a forest in which summits are connected above a height exactly if they are on the terrain. On finer rasters different summits can be taken for one, and the saddle between them is lost.", "quantifier": "every raster whose cells have different coordinates to six digits: unrotated ones with cells more than a millionth apart, in double precision with cells larger than a millionth by eight units of rounding (C129); every order of scans, sets and paths, with and without rebuilding", "why_tests_cant": "All rasters and all pairs of features; equality is by rounded floating-point coordinates.", "anchors": ["pyprom/lib/locations/spot_elevation.py: __eq__, __ne__, __hash__", "pyprom/feature_discovery.py: AnalyzeData.run", "pyprom/lib/datamaps/datamap.py: xy_to_latlon", "pyprom/lib/logic/basin_saddle_finder.py: BasinSaddleFinder.disqualify_basin_saddles", "pyprom/domain_map.py: run"]}
{"id": "C123", "title": "Remaining saddles, summits and pieces of ground", "statement": "Let the sea rise to any height: the ground not lower falls into pieces. After a complete run the summits that are not lower than this height are exactly as many as these pieces and the remaining saddles that are not lower together. So the heights of the remaining saddles, with how often each occurs, depend on the ground only: two runs on one raster, in whatever order the cells are scanned and with or without rebuilding, leave saddles of the same heights, and so do runs on two rasters that show the same ground (with every cell repeated, or with other margins of cells without data). With summits on the edge never fewer saddles are left; there are too many exactly if some of those not lower form a cycle with summits, as is the case whenever a saddle beside a summit on the edge can be bypassed above it.", "quantifier": "every raster without summits on the edge, without saddles on the edge that split into coinciding ones and without summits of equal location and height, every height; every pair of rasters one of which shows the cells of the other; every order of scans, sets and paths, with and without rebuilding", "why_tests_cant": "All rasters and all heights; which saddles survive is decided by a search through all cycles of the network.", "anchors": ["pyprom/domain_map.py: run, walk, detect_basin_saddles", "pyprom/lib/logic/basin_saddle_finder.py: BasinSaddleFinder.disqualify_basin_saddles", "pyprom/feature_discovery.py: AnalyzeData.run", "pyprom/lib/logic/summit_domain_walk.py: climb_from_saddles"]}
{"id": "C124", "title": "The size of results", "statement": "The results of a run are linear in the size of the raster, whatever is on it. Discovery finds at most one summit for every block of two by two cells (a bound that is attained at every size), not more summits and saddles together than there are cells, and not more runoffs than cells; the saddles together have at most four high neighbourhoods for every cell. A sparse run makes at most 20 linkers for every cell and 8 more, and at most 6 saddles and runoffs for every cell and 8 more; with rebuilding 32 and 10.", "quantifier": "every raster for discovery; every unrotated raster whose missing value is lower than its heights for runs; every order of scans, sets and paths, with and without rebuilding", "why_tests_cant": "All rasters of all sizes; the worst raster of a size cannot be found by trying.", "anchors": ["pyprom/feature_discovery.py: AnalyzeData.run, analyze, consolidatedFeatureLogic, make_corner_runoffs", "pyprom/domain_map.py: run, walk", "pyprom/lib/logic/summit_domain_walk.py: climb_from_saddles", "pyprom/lib/logic/internal_saddle_network.py: generate_child_saddles"]}
{"id": "C125", "title": "Editing a map by hand", "statement": "On the map of a run one may detect basin saddles, purge saddles with any options, and soft delete, disqualify, emancipate or disown the children of any saddles, in any order and as often as one likes. No call fails; summits and runoffs stay the same, saddles are only removed, and whatever is missing is disqualified. What is disqualified stays disqualified, families lose members only, and a saddle once soft deleted has no parent, children or alternatives whatever is done later. Detection never costs a connection between summits that is there at the time, and leaves no cycle. Deleting a saddle costs only the connections for which there is no way round it.", "quantifier": "every run and every sequence of calls; for detection and deletion of ways round, runs without summits on the edge, without saddles on the edge that split into coinciding ones and without summits of equal location and height", "why_tests_cant": "All rasters and all sequences of calls; what a call does depends on the marks that the earlier ones left.", "anchors": ["pyprom/lib/locations/saddle.py: soft_delete, disqualify_self_and_linkers, disqualified, emancipate, disown_children", "pyprom/domain_map.py: detect_basin_saddles, purge_saddles", "pyprom/lib/logic/basin_saddle_finder.py: BasinSaddleFinder.disqualify_basin_saddles"]}
{"id": "C126", "title": "Saving a map that was edited by hand", "statement": "After any sequence of basin detections, purges, soft deletions, disqualifications and separations of families on the map of a run, what is left can be saved and loaded, and everything comes back as it was. Parents and children agree after any such sequence. So long as nothing is purged this holds whatever is done; after purges the file can be loaded exactly if the parents and alternatives of the saddles that are left are left too, otherwise loading stops with a KeyError.", "quantifier": "every run without rebuilt edge saddles and without summits of equal location and height, every sequence of calls; families: every map on which parents and children agree and siblings are at different places", "why_tests_cant": "All rasters and all sequences of calls; what is left in the lists of alternatives depends on the order of calls.", "anchors": ["pyprom/domain_map.py: to_dict, from_dict, detect_basin_saddles, purge_saddles", "pyprom/lib/locations/saddle.py: soft_delete, disqualify_self_and_linkers, emancipate, disown_children, to_dict, from_dict"]}
{"id": "C127", "title": "What edge saddles cannot spoil", "statement": "After a complete run, whatever lies on the edge of the raster: a summit is connected over saddles that are left and not lower than a height exactly with the summits to which one can go over the terrain without going below this height, provided that the ground one can get to in this way has no edge saddle on it; in particular if it does not reach the border of the raster. So the key saddle, and with it the prominence, of every such summit can be read off the map, even where detection goes wrong elsewhere.", "quantifier": "every raster, with edge saddles or without, with or without rebuilding; no two summits of equal location and height (nothing to ask if cells are further apart than the sixth decimal)", "why_tests_cant": "All rasters; detection is one search through the whole network, in which marks made at the edge could have effects far away.", "anchors": ["pyprom/domain_map.py: run, detect_basin_saddles", "pyprom/lib/logic/basin_saddle_finder.py: BasinSaddleFinder.disqualify_basin_saddles", "pyprom/lib/logic/summit_domain_walk.py: climb_from_saddles"]}
{"id": "C128", "title": "Prominence read off a part of a terrain", "statement": "Analyse a part of a larger raster. The key saddle read off the finished map of the part for a summit is never higher than the col at which one has to cross to higher ground in the whole terrain, so the prominence read off is never too small, whatever lies on the edge of the part. If the ground around the summit down to the saddle does not reach the border of the part, what is read off is exactly the col in the whole terrain, and complete runs on the part and on the whole read off the same saddle height for the same hill.", "quantifier": "every raster, every part of it, every summit; exactness where no two summits have equal location and height and the ground down to the saddle stays off the border of the part; every order of scans, sets and paths, with and without rebuilding", "why_tests_cant": "All rasters and all ways of cutting them; the features and networks of the part and of the whole differ along the cut.", "anchors": ["pyprom/lib/datamaps/datamap.py: subset", "pyprom/domain_map.py: run, detect_basin_saddles", "pyprom/lib/logic/basin_saddle_finder.py: BasinSaddleFinder.disqualify_basin_saddles", "pyprom/feature_discovery.py: AnalyzeData.run"]}
{"id": "C129", "title": "Floating point coordinates do no harm", "statement": "Coordinates are computed in floating point: every product, sum, difference and quotient is rounded. On a raster that is not rotated and whose pixels are larger than sixteen units of rounding at the size of its greatest coordinate (for double precision and a grid in degrees: larger than 3e-13 degrees), the coordinates reported for a cell are right up to four units of rounding, looking them up gives back this cell and its elevation, and so does every position less than half a pixel, less sixteen units of rounding, from its centre. So complete runs in double precision have what is asserted of runs here: turning coordinates of features back into cells, as the walk does, never meets a wrong cell. If pixels are larger than a millionth by eight units of rounding, different cells have different coordinates to six digits. Subsets of such a raster are such rasters again (with seventeen units for sixteen), and their cells have the coordinates of the whole up to thirteen units. Rounding keeps order, so features stay within the reported extent.", "quantifier": "every raster that is not rotated with pixels larger than the rounding errors, every rounding with a relative error of at most u, double precision (53 binary digits, ties to even) in particular, every cell and position", "why_tests_cant": "All geotransforms, sizes and positions; a test sees the rounding of one grid, and whether an index is hit or missed by one depends on the last bits of the numbers.", "anchors": ["pyprom/lib/datamaps/datamap.py: xy_to_latlon", "pyprom/lib/datamaps/datamap.py: latlong_to_xy", "pyprom/lib/datamaps/datamap.py: elevation", "pyprom/domain_map.py: run", "pyprom/lib/locations/base_coordinate.py: BaseCoordinate.__eq__"]}
{"id": "C130", "title": "Rounding changes nothing but the last digits of coordinates", "statement": "A complete run whose coordinates are computed in floating point ends as the run with exact coordinates would: with the same exception, or with the same map, the same summits, saddles and runoffs with the same heights, cells, linkers, domains and families, and the same saddles and linkers disqualified. Only the latitudes and longitudes of features differ, by at most four units of rounding. Cells have to be further apart than a millionth of a degree and eight units of rounding.", "quantifier": "every raster that is not rotated with pixels larger than a millionth by the rounding errors, every rounding with a relative error of at most u, double precision in particular; every order of scans, sets and paths, with and without rebuilding", "why_tests_cant": "All rasters; features are compared by rounded coordinates at every step of the walk and the search for basins, and exact runs cannot be made by the code.", "anchors": ["pyprom/domain_map.py: run, walk, detect_basin_saddles", "pyprom/lib/datamaps/datamap.py: xy_to_latlon, latlong_to_xy", "pyprom/lib/locations/base_coordinate.py: BaseCoordinate.__eq__", "pyprom/lib/locations/spot_elevation.py: __eq__, __ne__, __hash__", "pyprom/feature_discovery.py: AnalyzeData.run"]}
{"id": "C131", "title": "The linkers of every saddle and runoff", "statement": "After a complete walk every saddle off the edge, whether made from an inner saddle or from one on the edge, has exactly two high neighbourhoods and exactly two linkers, one per neighbourhood and in their order, each to a summit that can be reached from there without descent; a saddle on the edge has none, its linkers belong to the saddles made from it. A runoff with high neighbourhoods has exactly one linker for each. A runoff without has at most one, to a summit that can be reached from its own cell without descent, and has one for certain if the cell belongs to a summit.", "quantifier": "every raster, with and without rebuilding of saddles, every order of scans, sets and paths", "why_tests_cant": "All rasters; whether a linker is made twice, for the wrong end or not at all depends on the branch for edges, on the order of the walk and on what is already in domains.", "anchors": ["pyprom/lib/logic/summit_domain_walk.py: climb_from_saddles, climb_points, generate_synthetic_saddles", "pyprom/domain_map.py: walk"]}
{"id": "C132", "title": "Walking a map that was loaded from a file", "statement": "A map that was saved after a run and loaded from the file can be walked like the map of a fresh run: walk() goes through, and afterwards the map has linkers and domains for its saddles and summits again.", "quantifier": "every raster, every order of scans, sets and paths, every choice of ids, with and without basin detection before saving", "why_tests_cant": "All rasters; whether the climbs find a domain depends on what loading restored on each summit, and whether one raises depends on flats on the ways up.", "anchors": ["pyprom/domain_map.py: from_dict, walk", "pyprom/lib/logic/summit_domain_walk.py: Walk._prepopulate_summit_domain_points, climb, climb_from_saddles", "pyprom/lib/containers/summit_domain.py: from_dict"]}
{"id": "C133", "title": "Prominence can be read off a saved file", "statement": "The file of a saved map is enough to work out prominences: in the map loaded from it every summit has its height, and one can get from a summit to higher ground over the terrain without going below a level exactly if the loaded linkers connect the summit with a higher one over saddles that are not disqualified and not lower than the level. If higher ground can be reached at all, the highest such level is the height of a saddle in the file that is not disqualified. The same holds between any two summits, and whether the map was saved before or after basin saddle detection.", "quantifier": "every raster, every level, every summit and pair of summits, every order of scans, sets and paths, all ids", "why_tests_cant": "All rasters and levels; the file must keep the right end of every linker and the disqualification of every saddle, and detection must leave enough saddles, for ways over arbitrary terrain.", "anchors": ["pyprom/domain_map.py: to_dict, from_dict, walk, detect_basin_saddles", "pyprom/lib/containers/linker.py: to_dict, from_dict", "pyprom/lib/locations/saddle.py: to_dict, from_dict, disqualified"]}
{"id": "C134", "title": "The divide tree of a loaded map is that of the saved one", "statement": "Save the map of a run, load it, and run the divide tree on both: the trees are the same. Every summit gets the same boundary saddles and every saddle the same boundary summits, in the same order; the local prominence region of every summit has the same paths of linkers, with the same declines, ending at the same saddles and runoffs, and reaches the edge of the map in both or in neither; and the same summits are given up. So declines that a loaded map reports bound prominence as those of C121 do.", "quantifier": "every raster, every order of scans, sets and paths, all ids, saved before or after basin saddle detection, every list of summits", "why_tests_cant": "All rasters; the search follows the lists of linkers of summits and saddles in their order, so a linker missing from one list or out of place changes paths far away.", "anchors": ["pyprom/dividetree.py: run, localProminentRegion, branchChaser", "pyprom/domain_map.py: to_dict, from_dict", "pyprom/lib/containers/linker.py: linkers_to_summits_connected_via_saddle"]}
{"id": "C135", "title": "Running the divide tree again", "statement": "Running the divide tree a second time on a map that did not change leaves all its results as they are. The paths reported for a summit depend neither on what earlier runs left on the features nor on which other summits there are and in which order; the order of the summits decides only the order in which a saddle lists the summits it bounds. After the map was changed, say because basin saddles were detected, a run of the divide tree gives what a first run would give.", "quantifier": "every network with every combination of disqualifications, every list of summits, every state left by earlier runs", "why_tests_cant": "All networks and histories; the search writes on the summits and saddles it is reading, and what one summit leaves there must not influence the search for another.", "anchors": ["pyprom/dividetree.py: run, localProminentRegion, branchChaser", "pyprom/lib/locations/summit.py: lprBoundary", "pyprom/lib/locations/saddle.py: lprBoundary"]}
{"id": "C136", "title": "The divide tree does not depend on units, datum, marker, place and rounding", "statement": "Run a raster, and the same raster with heights in another unit and above another datum, with another marker for cells without data, at another place, or with coordinates computed in floating point: the divide trees of the two maps are the same. Summits and saddles get the same boundaries, every summit gets the same paths over the same linkers to the same saddles, and the same summits are given up. Declines are multiplied by the ratio of the units, and are unchanged by a move or by rounding; another marker changes at most declines to runoffs in corners without data.", "quantifier": "every raster, every change of unit (factor > 0) and datum; every marker below all data; every pair of places for rasters that are not rotated and whose pixels are larger than a millionth of a degree; every rounding as in C130; every order of scans, sets and paths, every list of summits and every state left by earlier runs", "why_tests_cant": "All rasters and conversions; heights of summits are compared at every step of the search, and features by rounded coordinates, so one comparison that comes out differently changes all paths behind it.", "anchors": ["pyprom/dividetree.py: run, branchChaser, LPRpath.__init__", "pyprom/domain_map.py: run", "pyprom/lib/locations/spot_elevation.py: __eq__"]}
{"id": "C137", "title": "Lists of multipoints and of disqualified saddles", "statement": "The summits that the container of a discovery lists as multipoints are exactly those whose flat area has more than one cell, and so are the saddles off the border of the raster. After a walk only saddles on the edge of the map are listed as multipoints, and all of them are disqualified: the saddles that the walk makes have no multipoint. After a complete run the container of saddles lists as disqualified, each once, the saddles on the edge of the map (exactly the ones the walk disqualified), the saddles whose set of summits has fewer than two members, and the basin saddles, and no others. No saddle is disqualified for two of the reasons edge, single-source mark and basin mark at once.", "quantifier": "every raster, every order of scans, sets and paths, with and without rebuilding", "why_tests_cant": "Needs flat areas of every shape, and all ways in which saddles can be made and disqualified.", "anchors": ["pyprom/lib/containers/summits.py: multipoints", "pyprom/lib/containers/saddles.py: multipoints, disqualified", "pyprom/lib/locations/saddle.py: summits_set, disqualified"]}
