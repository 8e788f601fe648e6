{
 "claims": [
  {
   "property": "C01",
   "status": "proved",
   "theorems": [
    "PyProm.C01_order",
    "PyProm.C01_exact",
    "PyProm.C01_values",
    "PyProm.C01_split"
   ],
   "note": ""
  },
  {
   "property": "C02",
   "status": "proved",
   "theorems": [
    "PyProm.C02_every_rotated_refuted",
    "PyProm.C02_roundtrip",
    "PyProm.C02_nearest",
    "PyProm.C02_elevation",
    "PyProm.C02_rotated_refuted"
   ],
   "note": "Proved for axis-aligned geotransforms, as the claim says; C02_rotated_refuted records that rotated geotransforms do not round-trip."
  },
  {
   "property": "C03",
   "status": "proved",
   "theorems": [
    "PyProm.C03_blob_points"
   ],
   "note": ""
  },
  {
   "property": "C04",
   "status": "proved",
   "theorems": [
    "PyProm.C04_perimeter"
   ],
   "note": ""
  },
  {
   "property": "C05",
   "status": "proved",
   "theorems": [
    "PyProm.C05_edges"
   ],
   "note": ""
  },
  {
   "property": "C06",
   "status": "proved",
   "theorems": [
    "PyProm.C06_components"
   ],
   "note": ""
  },
  {
   "property": "C07",
   "status": "proved",
   "theorems": [
    "PyProm.C07_touching"
   ],
   "note": ""
  },
  {
   "property": "C08",
   "status": "proved",
   "theorems": [
    "PyProm.C08_summit_sound"
   ],
   "note": ""
  },
  {
   "property": "C09",
   "status": "proved",
   "theorems": [
    "PyProm.C09_summit_complete"
   ],
   "note": ""
  },
  {
   "property": "C10",
   "status": "proved",
   "theorems": [
    "PyProm.C10_saddles"
   ],
   "note": ""
  },
  {
   "property": "C11",
   "status": "proved",
   "theorems": [
    "PyProm.C11_edge_table"
   ],
   "note": ""
  },
  {
   "property": "C12",
   "status": "partial",
   "theorems": [
    "PyProm.C12_runoff_placement_partial",
    "PyProm.C12_top_runoff_refuted"
   ],
   "note": "The code violates the property. C12 fails for areas without higher ground that touch the border: wherever the cell from which the area is reported is not a border cell, the runoff of the area sits there and not at any border cell. Shown with restrictions: C12, the part that holds: every edge runoff belongs to a flat area on the border, has its elevation and is flagged as edge feature; its edge points are border cells of the area. Unless the area has no higher ground, they form one border stretch, and the runoff is located at the middle element of that stretch. Missing: the runoff of an area without higher ground is located at the cell where the area was first met, which need not be on the border (`C12_top_runoff_refuted`)."
  },
  {
   "property": "C13",
   "status": "proved",
   "theorems": [
    "PyProm.C13_no_nodata"
   ],
   "note": ""
  },
  {
   "property": "C14",
   "status": "partial",
   "theorems": [
    "PyProm.C14_corners_partial",
    "PyProm.C14_nodata_refuted",
    "PyProm.C14_one_row_refuted"
   ],
   "note": "The code violates the property. C14 fails: every corner without data gets a corner runoff, with the nodata value as elevation. C14 fails: on every raster of one row, and on every raster of one column, each corner gets two runoffs. Shown with restrictions: C14, the part that holds: one runoff per corner in the order lower left, lower right, upper left, upper right, each located at its corner with the elevation stored there and that cell as its only edge point. Missing: corners without data (`C14_nodata_refuted`), and on a one-row or one-column raster corners coincide and get several runoffs (`C14_one_row_refuted`)."
  },
  {
   "property": "C15",
   "status": "partial",
   "theorems": [
    "PyProm.C15_level_partial",
    "PyProm.C15_border_saddle_refuted"
   ],
   "note": "The code violates the property. C15 fails for border saddles: once a runoff has been made for the area, the cells of all its high neighbourhoods are recorded as cells of the saddle. Shown with restrictions: C15, the part that holds: the points recorded for a summit, a runoff or a saddle off the border lie at the elevation of the feature. Missing: border saddles (`C15_border_saddle_refuted`)."
  },
  {
   "property": "C16",
   "status": "partial",
   "theorems": [
    "PyProm.C16_ignores_runoff_refuted",
    "PyProm.C16_wrong_point_refuted",
    "PyProm.C16_member_partial"
   ],
   "note": "The code violates the property. C16 fails: for every cost that is zero from a point to itself and positive otherwise, the selected high point is the last point of the last non-empty neighbourhood, whatever runoff point the caller asks about. Instance of C16 with a wrong answer: the runoff touches the high point (1, 0), but the far end (1, 9) of the flat strip is attached. Shown with restrictions: C16, the part that holds: the attached point is a high neighbourhood point of the area. Missing: that it is the nearest one."
  },
  {
   "property": "C17",
   "status": "proved",
   "theorems": [
    "PyProm.C17_ascent",
    "PyProm.C17_total"
   ],
   "note": ""
  },
  {
   "property": "C18",
   "status": "proved",
   "theorems": [
    "PyProm.C18_ends_on_summit"
   ],
   "note": ""
  },
  {
   "property": "C19",
   "status": "proved",
   "theorems": [
    "PyProm.C19_disjoint"
   ],
   "note": ""
  },
  {
   "property": "C20",
   "status": "partial",
   "theorems": [
    "PyProm.C20_linkers_rise_partial",
    "PyProm.C20_summit_like_refuted",
    "PyProm.C20_edge_summit_refuted"
   ],
   "note": "The code violates the property. C20 fails for runoffs without high neighbourhood: linker 2 has a prominence of zero. C20 fails on every raster with a summit on the edge: the finished map has, for every area without higher neighbour that reaches the edge, a runoff with a linker to the summit of this area, and the prominence of this linker is zero. Shown with restrictions: C20 (weaker for runoffs without high neighbourhood): every linker of the map connects a saddle or runoff of the map's objects with a summit that is strictly higher, or not lower in the case of a runoff without high neighbourhood."
  },
  {
   "property": "C21",
   "status": "partial",
   "theorems": [
    "PyProm.C21_every_refuted",
    "PyProm.C21_first_walk_partial",
    "PyProm.C21_second_walk_empty_refuted",
    "PyProm.C21_second_walk_error_refuted"
   ],
   "note": "The code violates the property. C21 fails on every walked map with linkers: if the second walk does not raise, it leaves the map without linkers and domains. C21 fails: walking the same map again finds no domain and no linker. C21 fails: with a flat summit the second walk raises KeyError. Shown with restrictions: C21 (first walk only): discovery, rebuilding and the walk succeed on every raster; the run keeps the discovered summits. What is missing: a second walk, see the refutations below."
  },
  {
   "property": "C22",
   "status": "partial",
   "theorems": [
    "PyProm.C22_runoffs_partial",
    "PyProm.C22_twice_refuted"
   ],
   "note": "The code violates the property. C22 fails: every runoff that was found with higher ground around it is listed twice. Shown with restrictions: C22 (weaker): the walk reports the discovered runoffs (among them the four corners) in order and no others, each once or twice in a row; once only if it has no high neighbourhood."
  },
  {
   "property": "C23",
   "status": "proved",
   "theorems": [
    "PyProm.C23_spanning_tree",
    "PyProm.C23_small",
    "PyProm.C23_children"
   ],
   "note": ""
  },
  {
   "property": "C24",
   "status": "partial",
   "theorems": [
    "PyProm.C24_ends_partial",
    "PyProm.C24_sides_refuted"
   ],
   "note": "The code violates the property. C24 fails: as neighbourhoods have no point in common, no link at all has its ends on the claimed sides: the local end is never in the holder's neighbourhood, the remote end never in the other. Shown with restrictions: C24, the part that holds: both ends of every vertex link come from the two neighbourhoods it joins, but crosswise: the *local* end lies in the remote neighbourhood and the *remote* end in the holder's. Missing: the ends being on the claimed sides (`C24_sides_refuted`)."
  },
  {
   "property": "C25",
   "status": "partial",
   "theorems": [
    "PyProm.C25_pair",
    "PyProm.C25_map",
    "PyProm.C25_large_partial",
    "PyProm.C25_map_any_size",
    "PyProm.C25_large_refuted",
    "PyProm.C25_every_large_refuted",
    "PyProm.C25_container"
   ],
   "note": "The code violates the property. C25 fails for 100 points and more on non-square pixels: the search returns `(2, 0)` at map distance 6 although `(0, 3)` is at map distance 3. All pairs are axis-parallel, so the rational distances used are the exact ones. C25 fails for all lists of together at least 100 points whose nearest pairs in the plain grid are not nearest on the map: the search returns a pair that is farther apart than another one. Shown with restrictions: C25 for the large-input branch, relative to the assumption `KdOk` on `KDTree.query`: a pair of the inputs that is nearest in *plain grid distance*; the reported number is the map distance. Missing for the full claim: minimality in the map distance, which is false for rasters whose pixels are not square (`C25_large_refuted`)."
  },
  {
   "property": "C26",
   "status": "partial",
   "theorems": [
    "PyProm.C26_path_partial",
    "PyProm.C26_first_row_refuted",
    "PyProm.C26_third_refuted"
   ],
   "note": "The code violates the property. C26 fails: with a single point in the first neighbourhood the path to the *last* point of the second one is returned, however long it is. C26 fails for three neighbourhoods: those after the second one are never looked at, however near they are to the first one. Shown with restrictions: C26, the part that holds. `find u t` is the path search; it returns a path that starts at `u` and ends at `t`. The result joins a point of the first and a point of the second high neighbourhood by a path which is no longer than any path from a point of the first neighbourhood other than its first point. Missing: the paths from the first point (`C26_first_row_refuted`) and the neighbourhoods after the second one (`C26_third_refuted`)."
  },
  {
   "property": "C27",
   "status": "partial",
   "theorems": [
    "PyProm.C27_basin_terminates_partial",
    "PyProm.C27_exempt_refuted",
    "PyProm.C27_low_summit_refuted",
    "PyProm.C27_every_exempt_refuted",
    "PyProm.C27_run_terminates"
   ],
   "note": "The code violates the property. C27 fails: with saddles that are exempted by hand from disqualification detection never finishes; no number of rounds is enough. C27 fails: if a summit is the lowest member of a cycle the attempt to disqualify it raises AttributeError. C27 fails on every network whose saddles off the edge lead to two summits and are all exempted by hand from disqualification, as soon as there is a cycle off the edge: detection does not return, after any number of rounds. Shown with restrictions: C27 (where it holds): detection finishes without an exception on every network in which the saddles off the edge are lower than their summits and no saddle is exempted by hand from disqualification; linkers may be held at one end only, in any number. What is missing: exempted saddles and saddles above their summits, see below."
  },
  {
   "property": "C28",
   "status": "partial",
   "theorems": [
    "PyProm.C28_every_edge_refuted",
    "PyProm.C28_acyclic_partial",
    "PyProm.C28_edge_summit_refuted",
    "PyProm.C28_run_acyclic_partial",
    "PyProm.C28_run_refuted"
   ],
   "note": "The code violates the property. C28 fails for every cycle whose saddles are off the edge and on no cycle that avoids the edge, such as one on which a summit is on the edge: nothing on it is disqualified by detection. C28 fails: a cycle through an edge summit survives, although none of its features is disqualified. C28 fails on complete runs with rebuilding: the saddles 16 and 21 (split off edge saddles) both join the summits 0 and 1, nothing on this cycle is disqualified or on the edge. Shown with restrictions: C28 (where it holds): after detection no cycle of features that are neither disqualified nor on the edge of the map is left. What is missing: cycles through edge features are not looked at; linkers held at one end only and saddles with more than two linkers are excluded by `NetOk`. C28 for complete runs (where it holds): no cycle of features that are neither disqualified nor on the edge is left, provided summits differ in location or elevation and linkers of saddles off the edge are listed by both ends or by none; the latter is so if no saddle is on the edge, or none split off an edge saddle coincides with an earlier one (C41)."
  },
  {
   "property": "C29",
   "status": "partial",
   "theorems": [
    "PyProm.C29_connection_kept_partial",
    "PyProm.C29_off_edge_partial",
    "PyProm.C29_three_linkers_refuted",
    "PyProm.C29_run_inner_partial",
    "PyProm.C29_run_connection_partial",
    "PyProm.C29_run_refuted"
   ],
   "note": "The code violates the property. C29 fails: a saddle with three linkers is disqualified as lowest member of a cycle, and the third summit is cut off. C29 fails on complete runs: before detection the summits 1 and 2 are connected over saddles of elevation at least 2, afterwards only over one of elevation 1, so prominences change. Shown with restrictions: C29 (where it holds): for every height `t`, two summits are connected over non-disqualified saddles of at least height `t` after detection exactly if they were before; so the key saddle elevation of every pair of summits is the same. What is missing: saddles with more than two linkers and linkers held at one end only, which `NetOk` excludes. C29 off the edge: the same counting only saddles that are not on the edge. C29 for complete runs, over the inside of the map (where it holds): two summits are connected over saddles off the edge of at least some height exactly if they are so over those of these saddles that are not disqualified by the run, under the conditions of C28. C29 for complete runs (where it holds): two summits of the map are connected over saddles of at least some height after detection exactly if they were before, under the conditions of C28."
  },
  {
   "property": "C30",
   "status": "partial",
   "theorems": [
    "PyProm.C30_lowest_of_cycle_partial",
    "PyProm.C30_parallel_linkers_refuted",
    "PyProm.C30_inner",
    "PyProm.C30_run_lowest_partial",
    "PyProm.C30_run_refuted"
   ],
   "note": "The code violates the property. C30 fails: parallel linkers pass for a cycle, and a saddle that is on no cycle is marked. C30 fails on complete runs: saddle 9 is marked as basin saddle, but every cycle of live features through it has a lower member. Shown with restrictions: C30 (where it holds): every saddle that detection marks as basin saddle lies on a cycle of features that were live before and is at least as low as everything on it. What is missing: networks outside `NetOk`, where a saddle may be marked without a cycle, see below. C30 for complete runs (where it holds): every basin saddle is a lowest member of a cycle of features that were live before detection, under the conditions of C28."
  },
  {
   "property": "C31",
   "status": "proved",
   "theorems": [
    "PyProm.C31_single_source",
    "PyProm.C31_pass_changes",
    "PyProm.C31_inner",
    "PyProm.C31_run",
    "PyProm.C31_set"
   ],
   "note": ""
  },
  {
   "property": "C32",
   "status": "proved",
   "theorems": [
    "PyProm.C32_lowest_members"
   ],
   "note": ""
  },
  {
   "property": "C33",
   "status": "partial",
   "theorems": [
    "PyProm.C33_alternatives_partial",
    "PyProm.C33_co_located_refuted"
   ],
   "note": "The code violates the property. C33 fails: the disqualified basin saddle 3 is its own alternative, because another saddle at the same place was removed from the list in its stead. Shown with restrictions: C33 (where it holds): if features at the same place are identical, the alternatives of each feature are either untouched or exactly the other lowest members of a live cycle on which it is lowest itself; and a newly marked basin saddle with untouched alternatives is the only lowest member of a cycle. What is missing: different saddles at the same place, see below."
  },
  {
   "property": "C34",
   "status": "proved",
   "theorems": [
    "PyProm.C34_lowest_spot",
    "PyProm.C34_highest_spot",
    "PyProm.C34_lowest_grid",
    "PyProm.C34_highest_grid",
    "PyProm.C34_highest_tuples",
    "PyProm.C34_nonempty",
    "PyProm.C34_empty"
   ],
   "note": ""
  },
  {
   "property": "C35",
   "status": "partial",
   "theorems": [
    "PyProm.C35_every_refuted",
    "PyProm.C35_radius",
    "PyProm.C35_elevationRange",
    "PyProm.C35_elevationRangeMetric",
    "PyProm.C35_rectangle_refuted",
    "PyProm.C35_rectangle_partial",
    "PyProm.C35_rectangle_open",
    "PyProm.C35_lookup"
   ],
   "note": "The code violates the property. C35 fails for every member on a border line of the rectangle: it is dropped. The documentation of `rectangle` says inclusive; a member on the border is dropped. Shown with restrictions: Missing for the claim: members on the border lines. Without such members `rectangle` is exact, whichever two opposite corners are given."
  },
  {
   "property": "C36",
   "status": "partial",
   "theorems": [
    "PyProm.C36_byId_partial",
    "PyProm.C36_byId_distinct_partial",
    "PyProm.C36_points",
    "PyProm.C36_setItem_refuted",
    "PyProm.C36_setItem",
    "PyProm.C36_every_setItem_refuted",
    "PyProm.C36_calls_partial",
    "PyProm.C36_assigned_refuted",
    "PyProm.C36_index"
   ],
   "note": "The code violates the property. Item assignment leaves the table as it was: `by_id` still returns the replaced member and does not find the new one. C36 fails for every item assignment that changes the id: with distinct ids, `by_id` raises for the new member, which is in the container, and goes on returning the replaced one, which is not. So `by_id` fails for a member exactly if no member of its id was entered otherwise: after any calls, a member that is there only because it was assigned, under an id of its own, is not found; and what is found need not be there. Shown with restrictions: After any sequence of appends and extends `by_id` returns the last member with that id, and raises KeyError exactly if there is none. Missing for the claim: item assignment. With distinct ids `by_id` returns the member with that id. C36 after any sequence of `append`, `extend` and item assignment: `by_id` returns the last of the members with that id that were given to the constructor, appended or extended, and raises KeyError exactly if there was none; assignments make no difference to it. The container has as many members as were given, appended and extended."
  },
  {
   "property": "C37",
   "status": "partial",
   "theorems": [
    "PyProm.C37_every_refuted",
    "PyProm.C37_location_equiv",
    "PyProm.C37_hash",
    "PyProm.C37_hash_apart",
    "PyProm.C37_ne_refuted",
    "PyProm.C37_ne_partial",
    "PyProm.C37_ne_grid",
    "PyProm.C37_saddle_hash_refuted",
    "PyProm.C37_container_equiv",
    "PyProm.C37_container_ne",
    "PyProm.C37_container_hash",
    "PyProm.C37_order_multi",
    "PyProm.C37_order_perimeter",
    "PyProm.C37_order_refuted",
    "PyProm.C37_order_spots_partial",
    "PyProm.C37_order_grid_partial",
    "PyProm.C37_equal_members",
    "PyProm.C37_linker_partial",
    "PyProm.C37_linker_hash_refuted",
    "PyProm.C37_domain_partial",
    "PyProm.C37_domain_order_refuted"
   ],
   "note": "The code violates the property. C37 fails for every point off the equator by less than half a millionth of a degree: it is neither equal nor unequal to the point of the equator with its longitude. `!=` is not the negation of `==`: at the equator (or the zero meridian) a point closer than the sixth decimal is neither equal nor unequal to the point at zero. A saddle with high neighbourhoods has no hash: the call raises TypeError. Equality of SpotElevationContainers, GridPointContainers and BaseGridPointContainers depends on the order of insertion: members of one height (for BaseGridPoints: of equal coordinate sum) are not ordered by sorting. C37 fails for Linkers of saddles with high neighbourhoods: they have no hash. C37 fails for SummitDomains: two saddles of one elevation in the other order make domains unequal. Shown with restrictions: Missing for the claim: a zero coordinate against a nonzero one that rounds to zero. Apart from that `!=` is the negation of `==`; in particular the two are never both true. Missing for the claim: different members of one height. If members of one height are equal, the order of insertion does not matter. C37 for Linkers: `==` is an equivalence, `!=` its negation. Linkers of saddles without high neighbourhoods that are equal have equal hashes. C37 for SummitDomains: `==` is an equivalence, equal domains have equal hashes, and the order in which points were listed does not matter. The order of the saddles does not matter if saddles of one elevation are equal."
  },
  {
   "property": "C38",
   "status": "partial",
   "theorems": [
    "PyProm.C38_every_summit_refuted",
    "PyProm.C38_every_runoff_refuted",
    "PyProm.C38_purge_exact",
    "PyProm.C38_run_linkers",
    "PyProm.C38_references_partial",
    "PyProm.C38_domains_partial",
    "PyProm.C38_run_domains_partial",
    "PyProm.C38_summit_refuted",
    "PyProm.C38_runoff_linkers_refuted",
    "PyProm.C38_co_located_refuted",
    "PyProm.C38_alternatives_refuted"
   ],
   "note": "The code violates the property. C38 fails whenever a saddle is removed: the summits it is linked with still list its linkers. C38 fails on every complete run with runoffs that have linkers: whatever is asked for, also if there is nothing to remove, all linkers of runoffs are gone from the map. C38 fails for summits: summit 0 of the crater still lists the (disqualified) linker 2 to the removed saddle 9. C38 fails for linkers: nothing is removed from this map, but its linkers 2 and 3 (of the runoffs 1 and 2) are gone. C38 fails for domains and families: only saddle 15 is purged; saddle 14 at the same place remains, but the domain of summit 0 and its parent 1 do not list it any more. C38 fails for alternatives: saddle 13 remains, and so does its alternative 14, which is purged. Shown with restrictions: C38, references between saddles (where they are kept consistent): if families are consistent, alternatives mutual, and siblings and alternatives apart, no remaining saddle has a removed one as parent, child or alternative, and all other relations are kept. C38, domains (where they are known to the saddle): if every saddle of a domain has a linker to its summit, then after purging a domain lists exactly the saddles it listed before which are not at the place of a removed saddle of this domain; in particular no removed one. C38 for complete runs: if summits are apart, purging leaves no removed saddle in any domain."
  },
  {
   "property": "C39",
   "status": "partial",
   "theorems": [
    "PyProm.C39_every_refuted",
    "PyProm.C39_emancipate_partial",
    "PyProm.C39_soft_delete_partial",
    "PyProm.C39_emancipate_refuted",
    "PyProm.C39_soft_delete_refuted",
    "PyProm.C39_run_partial"
   ],
   "note": "The code violates the property. C39 fails for every two children of one saddle at the same place: emancipating one takes the other from the list of their parent as well, but the other still names it as parent. So does soft deletion. C39 fails on a complete run: the children 15 and 17 of saddle 1 are at the same place, so emancipating 15 also removes 17 from the children of 1, while 17 still names 1 as parent. Soft deletion has the same fault. Shown with restrictions: C39, emancipation (where it holds): if no sibling is at the same place, emancipating removes exactly the saddle from its parent's children and its own parent, and changes nothing else. What is missing: co-located siblings, see below. C39, soft deletion (where it holds): in consistent families, if no sibling is at the same place, soft deletion leaves the saddle without parent and children, its children without parent, its siblings with their parent, and every other family as it was; the saddle and all its linkers are disqualified, no other saddle and no other linker. C39 after a run: if no sibling of a saddle is at the same place, soft deletion leaves it without parent and children, its children without parent, and every other family as it was."
  },
  {
   "property": "C40",
   "status": "proved",
   "theorems": [
    "PyProm.C40_reported",
    "PyProm.C40_disqualify",
    "PyProm.C40_detection_linkers",
    "PyProm.C40_run_edge"
   ],
   "note": ""
  },
  {
   "property": "C41",
   "status": "partial",
   "theorems": [
    "PyProm.C41_listed",
    "PyProm.C41_corner_refuted",
    "PyProm.C41_walk_partial",
    "PyProm.C41_walk_refuted",
    "PyProm.C41_no_edge_saddles_partial",
    "PyProm.C41_apart_partial",
    "PyProm.C41_edge_children_refuted"
   ],
   "note": "The code violates the property. C41 fails on every raster with a corner cell above all its neighbours: two runoffs stand there, and one of them has a linker to the summit that the summit does not list. C41 fails in walks: the summit in the corner has two linkers to co-located runoffs; the second is listed by its runoff but not by the summit. C41 fails for saddles split off an edge saddle: linker 3 is in the map, its saddle is not on the edge, but the summit does not list it, as an equal linker of another saddle at the same place came first. Shown with restrictions: C41 for walks (up to equality of linkers): every linker listed by a saddle belongs to that saddle and every linker listed by a summit to that summit, and for every linker of the map there is an equal one (in the sense of `==`) in the list of its saddle and in the list of its summit. C41 for maps without saddles on the edge: if no discovered saddle is an edge saddle then every linker of the map that belongs to a saddle off the edge is listed by its saddle and by its summit. C41 for maps on which no two summits agree in location and elevation, nor a saddle that was split off another with an earlier one that is linked with the same summit: every linker of a saddle off the edge is listed by both its summit and its saddle or by neither, and the saddle lists one between the same two."
  },
  {
   "property": "C42",
   "status": "partial",
   "theorems": [
    "PyProm.C42_every_refuted",
    "PyProm.C42_feature_neighbors",
    "PyProm.C42_via_linker",
    "PyProm.C42_exempt",
    "PyProm.C42_other_linkers",
    "PyProm.C42_saddle_all_neighbors",
    "PyProm.C42_summit_all_neighbors",
    "PyProm.C42_summit_neighbors",
    "PyProm.C42_duplicates_refuted",
    "PyProm.C42_saddle_neighbors_refuted",
    "PyProm.C42_saddle_neighbors_partial",
    "PyProm.C42_summits_set",
    "PyProm.C42_summits_set_run"
   ],
   "note": "The code violates the property. C42 fails for every saddle with two linkers to one summit: the summit is listed twice among its neighbours. C42 fails for duplicates: two linkers between the same features put the summit twice among the feature neighbours of the saddle. C42 fails for `Saddle.neighbors`: on the map of any complete run it raises TypeError for every saddle, because saddles with high neighbourhoods cannot be hashed. Shown with restrictions: C42 (saddles without high neighbourhoods, such as saddles made by hand or loaded from a file): `Saddle.neighbors` returns exactly one representative of each saddle connected through a summit that is not the saddle itself, where saddles that are the same in a set count once. Missing: saddles with high neighbourhoods (`C42_saddle_neighbors_refuted`)."
  },
  {
   "property": "C43",
   "status": "partial",
   "theorems": [
    "PyProm.C43_every_disqualified_refuted",
    "PyProm.C43_grid_points",
    "PyProm.C43_perimeter_partial",
    "PyProm.C43_multipoint_partial",
    "PyProm.C43_summit_partial",
    "PyProm.C43_saddle_partial",
    "PyProm.C43_spot_elevation_refuted",
    "PyProm.C43_no_edge_points_refuted",
    "PyProm.C43_repeated_cell_refuted",
    "PyProm.C43_elevations_refuted",
    "PyProm.C43_no_perimeter_refuted",
    "PyProm.C43_summit_disqualified_refuted",
    "PyProm.C43_saddle_qualified_refuted",
    "PyProm.C43_every_repeated_cell_refuted",
    "PyProm.C43_every_qualified_refuted"
   ],
   "note": "The code violates the property. C43 fails for every disqualified summit that can be saved and loaded: the flag is lost. C43 fails for every SpotElevation: the keys written are not those read. C43 fails for every perimeter without a list of edge points (the default of the constructor): loading stops with a TypeError. C43 fails for perimeters with a repeated cell: the copy has fewer points and compares unequal. C43 fails for MultiPoints made of tuples with elevation: the copy compares unequal. C43 fails for MultiPoints without perimeter: they cannot be saved. C43 fails for disqualified summits: the flag is lost. C43 fails for saddles whose disqualification was lifted by hand: the copy is disqualified. C43 fails for every perimeter with a repeated cell: the copy has fewer points and compares unequal. C43 fails for every saddle whose disqualification was lifted by hand: the copy is disqualified. Shown with restrictions: C43 for perimeters. Missing for the claim: points with equal coordinates, and perimeters whose edge points are not a list. The loaded perimeter compares equal, keeps its edge attributes, and finds exactly its members by coordinates. C43 for MultiPoints. Missing for the claim: MultiPoints without perimeter, and those of `C43_perimeter_partial`; elevations in the tuples are dropped, so the loaded MultiPoint compares equal exactly if there were none. C43 for summits. Missing for the claim: the flag `disqualified` is never written (so it has to be unset), and the areas of `C43_multipoint_partial`. C43 for saddles and runoffs. Missing for the claim: a flag `disqualified` set to False by hand against the automatic flags, runoffs without edge effect (the constructor sets it), and the areas of `C43_multipoint_partial`."
  },
  {
   "property": "C44",
   "status": "partial",
   "theorems": [
    "PyProm.C44_linkers",
    "PyProm.C44_features_partial",
    "PyProm.C44_represented",
    "PyProm.C44_listed",
    "PyProm.C44_equal_refuted",
    "PyProm.C44_parallel_refuted",
    "PyProm.C44_co_located_refuted"
   ],
   "note": "The code violates the property. C44 fails for every map with two linkers from one summit to saddles that compare equal, in particular to one saddle: after loading, the second still leads to the summit, but the summit does not list it. C44 fails for parallel linkers: saddle 0 has two linkers to summit 0; after loading summit and saddle list only the first. C44 fails for co-located saddles: summit 0 is linked to both; after loading it lists only the first linker, while the second saddle still lists its own. Shown with restrictions: C44, the lists of the features. Missing for the claim: linkers that compare equal, i.e. whose summits and whose saddles compare equal. Without such, every loaded summit and saddle lists the linkers it listed when saved, in the order of all linkers of the map."
  },
  {
   "property": "C45",
   "status": "partial",
   "theorems": [
    "PyProm.C45_heights_partial",
    "PyProm.C45_hidden_cells_refuted",
    "PyProm.C45_references_exact",
    "PyProm.C45_load_partial",
    "PyProm.C45_same_process_partial",
    "PyProm.C45_reject_partial",
    "PyProm.C45_hash_seed_refuted",
    "PyProm.C45_repeated_runoff_refuted",
    "PyProm.C45_runoff_twice_refuted"
   ],
   "note": "The code violates the property. C45 fails for rasters of more than 1000 cells: whatever the heights of the cells that numpy does not print are, a map saved for one raster is accepted for the other. C45 fails in another process: if Python's hash of strings, which is salted per process, differs on the printed raster, then the map is rejected for the very raster it was saved from. C45 fails for every map with a runoff twice in its container (as runs produce them, `C22`): after loading there are two objects for it, and the first has no linkers, whatever the runoff had. The first of the two loaded runoffs has no linkers. Shown with restrictions: C45, heights. Missing for the claim: cells that numpy does not print (`C45_hidden_cells_refuted`). A map saved for one data map is accepted, in one process, for another one of the same size out of files with the same checksum exactly if all cells that numpy prints have the same heights, provided that different printed cells do not have the same text and texts not the same hash. Up to 1000 cells all are printed. C45, loading. Missing for the claim: saddles or summits that are in a container twice, runoffs that are in it twice (`C45_repeated_runoff_refuted`), references out of the containers, equal linkers in the lists of the features (`C44_features_partial`), and flags that are not written (`C43_summit_partial`, `C43_saddle_partial`). A map can be loaded against every DataMap with the fingerprint it was saved with, and then has all features, attributes, families, linkers and domains; it is rejected for every other fingerprint. C45 in one process (or with a fixed hash seed): a saved map can be loaded against the raster it was saved from. Missing for the claim: other processes. C45, rejection. Missing for the claim: different rasters out of files with the same checksum. A map is rejected for every raster out of a file with another checksum, in whatever process."
  },
  {
   "property": "C46",
   "status": "partial",
   "theorems": [
    "PyProm.C46_family_partial",
    "PyProm.C46_outside_refuted",
    "PyProm.C46_child_outside_refuted",
    "PyProm.C46_twice_refuted",
    "PyProm.C46_runoffs_refuted",
    "PyProm.C46_every_twice_refuted"
   ],
   "note": "The code violates the property. C46 fails if a saddle refers to one that is not in the container, for instance because it was purged: loading stops with a KeyError. C46 fails for every container with a saddle whose child is not in it: loading stops with a KeyError. C46 fails for a container that holds a saddle twice: the first copy loses its references, the second has all of them doubled. C46 fails for containers of runoffs: no reference survives. C46 fails for every container that holds two saddles with one id, for instance one saddle twice: the first of them comes back without parent, children and alternatives, whatever it had. Shown with restrictions: C46. Missing for the claim: references to saddles outside the container (loading stops), containers that hold a saddle twice, and runoffs. Saving and loading a container of saddles with different ids restores all references between them, in order."
  },
  {
   "property": "C47",
   "status": "partial",
   "theorems": [
    "PyProm.C47_locations_partial",
    "PyProm.C47_each_once_partial",
    "PyProm.C47_one_location_refuted",
    "PyProm.C47_parallel_linkers_refuted",
    "PyProm.C47_domain_twice_refuted",
    "PyProm.C47_disqualified_refuted"
   ],
   "note": "The code violates the property. C47 fails for features at one location: the second of two different summits (saddles, runoffs, ...) there is dropped, in every state of the writer. C47 fails for linkers between the same locations: two linkers of a saddle to one summit (as the walk makes them when both sides of a saddle lead to it) are listed once. C47 fails for domains: one that is passed twice is listed twice, in every state of the writer. C47 fails for a saddle that is passed before and after it is disqualified: it is listed twice. Shown with restrictions: C47 as it holds: the writer accepts everything but objects of other classes. No folder but that of the domains lists a type of feature at a location twice, every feature passed is listed, if need be by another one of its type at its location, nothing else is listed, and domains are all listed. C47 for features at different locations: if no two different features of a type passed have one location, no saddle is disqualified in between and no two linkers join the same locations, the folders list exactly the features passed, each once, in the order they were first passed."
  },
  {
   "property": "C48",
   "status": "partial",
   "theorems": [
    "PyProm.C48_linker_only_refuted",
    "PyProm.C48_map_partial"
   ],
   "note": "The code violates the property. C48 fails in every state: appending a linker changes no folder but that of the linkers. Shown with restrictions: C48 for whole maps: after a map whose linkers join its own features was appended, the ends of all linkers are listed."
  },
  {
   "property": "C49",
   "status": "partial",
   "theorems": [
    "PyProm.C49_metres_partial",
    "PyProm.C49_feet_refuted",
    "PyProm.C49_conversion_lost_refuted"
   ],
   "note": "The code violates the property. C49, feet, fails for every raster: one that is detected as feet, or is declared to be in feet by the user, cannot be loaded. C49 would fail with any conversion in place of the one that raises: the converted dataset is thrown away and the source is warped instead. Shown with restrictions: C49, metres: a raster whose unit was detected, with enough confidence, as metres, or is declared to be metres by the user, is loaded, with nothing done to it but the warp to latitude and longitude."
  },
  {
   "property": "C50",
   "status": "partial",
   "theorems": [
    "PyProm.C50_minutes_seconds",
    "PyProm.C50_nonneg_partial",
    "PyProm.C50_whole_degrees_partial",
    "PyProm.C50_negative_refuted",
    "PyProm.C50_arcseconds"
   ],
   "note": "The code violates the property. C50 fails for every negative coordinate with six decimals that is not a whole number of degrees. Shown with restrictions: C50 for coordinates that are not negative: back within half a millionth of a degree, and exactly if the coordinate has at most six decimals. C50 holds for negative coordinates in whole degrees."
  },
  {
   "property": "C51",
   "status": "proved",
   "theorems": [
    "PyProm.C51_compress",
    "PyProm.C51_unique"
   ],
   "note": ""
  },
  {
   "property": "C52",
   "status": "partial",
   "theorems": [
    "PyProm.C52_every_removed_refuted",
    "PyProm.C52_map",
    "PyProm.C52_built",
    "PyProm.C52_prebuilt",
    "PyProm.C52_removed_refuted",
    "PyProm.C52_plain_dict_refuted"
   ],
   "note": "The code violates the property. C52 fails for every lookup with a default, whatever was done before: what is removed is not absent but None. C52 fails for a lookup with a default: after removal None is returned, not the default. C52 fails for a lookup on a prebuilt plain dict: a coordinate in a new row can be neither stored nor read."
  },
  {
   "property": "C53",
   "status": "partial",
   "theorems": [
    "PyProm.C53_paths_partial",
    "PyProm.C53_complete_partial",
    "PyProm.C53_depth_partial",
    "PyProm.C53_decline_partial",
    "PyProm.C53_runs_partial",
    "PyProm.C53_not_higher_refuted",
    "PyProm.C53_depth_refuted",
    "PyProm.C53_every_far_refuted",
    "PyProm.C53_every_dip_refuted"
   ],
   "note": "The code violates the property. C53 fails as it stands: the only path reported for the summit of height 100 ends at a saddle between summits of heights 50 and 60, and nothing here is at the edge of the map. The heights are compared with the last summit of the path. C53 fails on large maps: from the first of 401 falling summits the last one is reached, which has a higher neighbour. But however the divide tree is run, the saddle between them is not among the ends of the paths of the first summit, as the search stops at depth 400. C53 fails on every network for every summit whose region has a summit that is only reached over more than 400 saddles: the higher summits beside that one are not told. C53 fails as it stands on every network for every summit `D` whose region touches, over a saddle between summits lower than `D`, a summit outside: the saddle is reported although what is behind it is not higher than `D`. Shown with restrictions: C53, first part: after a run every summit has its list of paths. Each starts at the summit, leads over saddles to summits that are not higher than the one before, and ends at a saddle behind which lies a summit higher than the last one, or the edge of the map. If the edge is reported then some path ends there. Missing: that the summit behind the last saddle is higher than the summit itself; see `C53_not_higher_refuted`. C53, second part: unless the run gave up on the summit, all of the boundary of its region is reported, and saddles with a higher summit outside of the region behind them are recorded with the summit (up to `==`). Missing: that the run does not give up; see `C53_depth_partial` and `C53_depth_refuted`. C53, third part: on a network of fewer than 400 linkers the run gives up on no summit. Missing: larger networks; see `C53_depth_refuted`. C53, fourth part: the decline of a reported path is the height of the summit above the saddle where the path ends; unless that is an edge saddle, it is positive on networks whose saddles are lower than their summits. C53 on complete runs with fewer than 400 linkers: on every map the divide tree, built with any flags, reports for each summit all of the boundary of its region and nothing else."
  },
  {
   "property": "C54",
   "status": "partial",
   "theorems": [
    "PyProm.C54_complete_partial",
    "PyProm.C54_steep_partial",
    "PyProm.C54_refuted",
    "PyProm.C54_once_refuted",
    "PyProm.C54_every_later_refuted"
   ],
   "note": "The code violates the property. A flat beside a higher point is reported: the search of a flat skips neighbours explored before, also higher ones. A point of a flat can be reported more than once. C54 fails for every flat whose higher neighbours all come before it in the container, if its first member touches none of them and the flat has a second member: all of the flat is reported, however high its neighbours are. Shown with restrictions: `findPseudoSummits` always returns, and the result contains every member of a connected group of equal height without higher neighbour. A reported point either has no higher neighbour or has a neighbour of its own height. Missing for the claim: the last alternative must not occur for groups that have a higher neighbour; see `C54_refuted`. Without touching members of equal height the result is exactly the members without higher neighbour, in order."
  },
  {
   "property": "C55",
   "status": "partial",
   "theorems": [
    "PyProm.C55_every_refuted",
    "PyProm.C55_overwrites_refuted",
    "PyProm.C55_selected_partial"
   ],
   "note": "The code violates the property. C55 fails on every walked map with linkers: if walking selected saddles does not raise, the map has neither linkers nor domains afterwards. C55 fails: walking the selected saddle 0 on a fresh map replaces the linkers and domains of the map, although the walked saddles are only returned. Shown with restrictions: C55 (saddles and runoffs only): walking selected saddles leaves the map's own lists of saddles, runoffs and summits as they are, whatever the selection. Its linkers and domains are replaced."
  },
  {
   "property": "C56",
   "status": "proved",
   "theorems": [
    "PyProm.C56_steepest"
   ],
   "note": ""
  },
  {
   "property": "C57",
   "status": "proved",
   "theorems": [
    "PyProm.C57_subset",
    "PyProm.C57_window"
   ],
   "note": ""
  },
  {
   "property": "C58",
   "status": "proved",
   "theorems": [
    "PyProm.C58_corners",
    "PyProm.C58_tiling",
    "PyProm.C58_tiling_rounded"
   ],
   "note": ""
  },
  {
   "property": "C59",
   "status": "proved",
   "theorems": [
    "PyProm.C59_listed_ascends"
   ],
   "note": ""
  },
  {
   "property": "C60",
   "status": "partial",
   "theorems": [
    "PyProm.C60_no_shelves_partial",
    "PyProm.C60_stays_listed_partial",
    "PyProm.C60_settled_partial",
    "PyProm.C60_reassigned_refuted"
   ],
   "note": "The code violates the property. C60 fails: after the climb from `(0, 1)` this cell is listed by domain 0 and a climb from it reports domain 0; after a climb from `(4, 1)` it is still listed there, but a climb from it reports domain 1. Shown with restrictions: C60 (rasters without flat shoulders, explored states): flat summits do no harm; once a cell is assigned to a domain, this domain lists it, and after any further climbs the domain still lists it and a climb from it reports that domain. What is missing: rasters with flat ground below a summit, see `C60_reassigned_refuted`. C60 (staying listed): whatever a domain lists stays listed there, in the same place, through every further climb. What is missing: that later climbs report the same domain, see the refutation. C60 (terrain without flat areas): where no two touching cells are equally high, every later climb from an assigned cell reports the domain that it was assigned to."
  },
  {
   "property": "C61",
   "status": "proved",
   "theorems": [
    "PyProm.C61_child_location"
   ],
   "note": ""
  },
  {
   "property": "C62",
   "status": "proved",
   "theorems": [
    "PyProm.C62_linkers"
   ],
   "note": ""
  },
  {
   "property": "C63",
   "status": "partial",
   "theorems": [
    "PyProm.C63_every_refuted",
    "PyProm.C63_children_partial",
    "PyProm.C63_twice_refuted"
   ],
   "note": "The code violates the property. C63 fails on every raster with a saddle on the edge that has more than two high neighbourhoods: it lists children twice. C63 fails: the saddle on the border with four high neighbourhoods lists its three children twice. Shown with restrictions: C63 (two high neighbourhoods only): after walking, an edge saddle with two high neighbourhoods has the saddle made from it as its only new child; with more of them every child is listed twice."
  },
  {
   "property": "C64",
   "status": "proved",
   "theorems": [
    "PyProm.C64_rebuild"
   ],
   "note": ""
  },
  {
   "property": "C65",
   "status": "proved",
   "theorems": [
    "PyProm.C65_walked_saddles",
    "PyProm.C65_once"
   ],
   "note": ""
  },
  {
   "property": "C66",
   "status": "proved",
   "theorems": [
    "PyProm.C66_collections"
   ],
   "note": ""
  },
  {
   "property": "C67",
   "status": "partial",
   "theorems": [
    "PyProm.C67_every_runoff_refuted",
    "PyProm.C67_every_rebuilt_refuted",
    "PyProm.C67_families_agree",
    "PyProm.C67_family_members_partial",
    "PyProm.C67_child_outside_refuted",
    "PyProm.C67_own_parent_refuted"
   ],
   "note": "The code violates the property. C67 fails on every raster with a runoff below higher ground: it is its own parent and its own child. C67 fails with rebuilding on every raster with a saddle on the edge: it lists a child that is neither a saddle nor a runoff of the map, but names it as its parent. C67 fails with rebuilding: the edge saddle lists a child that is no saddle of the map. C67 fails: a runoff is its own parent. Shown with restrictions: C67, second part (without rebuilding): parent and child are both saddles or both runoffs of the map."
  },
  {
   "property": "C68",
   "status": "proved",
   "theorems": [
    "PyProm.C68_containers_closed"
   ],
   "note": ""
  },
  {
   "property": "C69",
   "status": "partial",
   "theorems": [
    "PyProm.C69_slice_refuted",
    "PyProm.C69_empty_partial"
   ],
   "note": "The code violates the property. C69 fails whenever there is something to return: slicing raises AttributeError as soon as a row is within the bounds. Shown with restrictions: C69 where nothing is within the bounds: the slice is empty and keeps the default."
  },
  {
   "property": "C70",
   "status": "proved",
   "theorems": [
    "PyProm.C70_hash_list"
   ],
   "note": ""
  },
  {
   "property": "C71",
   "status": "partial",
   "theorems": [
    "PyProm.C71_checksum",
    "PyProm.C71_zero_blocks_refuted"
   ],
   "note": "The code violates the property. With a chunk size of zero blocks nothing is read: all files have one checksum."
  },
  {
   "property": "C72",
   "status": "proved",
   "theorems": [
    "PyProm.C72_default_units",
    "PyProm.C72_confidence",
    "PyProm.C72_heights"
   ],
   "note": ""
  },
  {
   "property": "C73",
   "status": "partial",
   "theorems": [
    "PyProm.C73_first_band_partial",
    "PyProm.C73_band_refuted"
   ],
   "note": "The code violates the property. C73 fails: whichever band is asked for, the data map holds the first. Shown with restrictions: C73 for the first band."
  },
  {
   "property": "C74",
   "status": "proved",
   "theorems": [
    "PyProm.C74_document"
   ],
   "note": ""
  },
  {
   "property": "C75",
   "status": "partial",
   "theorems": [
    "PyProm.C75_both_sides_partial",
    "PyProm.C75_equal_saddles_refuted"
   ],
   "note": "The code violates the property. C75 fails for saddles that compare equal: the middle summit lists the first of the two only, both saddles list the summit. Shown with restrictions: C75: if no two summits and no two saddles compare equal then after a run on fresh features a summit lists a saddle as its boundary exactly if the saddle lists the summit; a path of the summit ends at it, with a higher summit behind. Missing: features that compare equal; see `C75_equal_saddles_refuted`."
  },
  {
   "property": "C76",
   "status": "partial",
   "theorems": [
    "PyProm.C76_run_saved_partial",
    "PyProm.C76_rebuilt_refuted",
    "PyProm.C76_content_partial",
    "PyProm.C76_links_partial",
    "PyProm.C76_listed_partial",
    "PyProm.C76_parallel_refuted",
    "PyProm.C76_once_partial"
   ],
   "note": "The code violates the property. C76 fails for every run that rebuilds saddles of a raster with an edge saddle: the map is saved, but loading it stops with a KeyError, as the edge saddle names a child that is not in the map. C76 fails for every run with two linkers between the same saddle and summit: whether the saddle and the summit listed the second or not, they do not list it after loading. Shown with restrictions: C76. Missing for the claim: runs that rebuild edge saddles (`C76_rebuilt_refuted`), families of runoffs (`C46_runoffs_refuted`), and the lists of linkers in the features (`C44_features_partial`, `C45_repeated_runoff_refuted`). The result of every other run can be saved, and loaded against a raster with the same fingerprint; every summit, saddle and runoff comes back in its place with its attributes, saddles with their families, and linkers and domains with the same ends. C76, compared with the run itself. Missing as for `C76_run_saved_partial`. After loading, summit `D` shows the `D`-th summit of the run, the saddle or runoff at a position the one the map lists there; linkers come in order with their flags and ends, domains in order with their points and the saddles that have linkers to their summits. C76, the lists of linkers. Missing as for `C76_run_saved_partial`, and maps with linkers that compare equal. In all others, every summit and every saddle of the run lists exactly its linkers, and after loading it lists them again in the same order (for a runoff listed several times: its last copy). C76, which linkers the features list after loading. Missing as for `C76_run_saved_partial`. Summit `D` lists, in order, the linkers of the run that lead to it and of which no earlier one leads from it to a saddle that compares equal; a saddle lists its linkers to summits of which none came before, in the same way (for a runoff listed several times: its last copy). C76, the lists of linkers when equal linkers join the same objects: after loading, summits and saddles list the linkers they listed before, but of several between the same summit and saddle the first only."
  },
  {
   "property": "C77",
   "status": "proved",
   "theorems": [
    "PyProm.C77_faithful",
    "PyProm.C77_nothing_false"
   ],
   "note": ""
  },
  {
   "property": "C78",
   "status": "partial",
   "theorems": [
    "PyProm.C78_nothing_false",
    "PyProm.C78_faithful_partial",
    "PyProm.C78_edge_saddles_refuted"
   ],
   "note": "The code violates the property. C78 fails where a saddle is on the edge: after the run on this raster the summits 1 and 2 are not connected at level 2, although one can go from one to the other there. Shown with restrictions: C78 for rasters without saddles on the edge, or on which no saddle split off an edge saddle coincides with an earlier one that is linked with the same summit, if no two summits agree in location and elevation: after a complete run two summits are connected over saddles that are not disqualified and not lower than `h` exactly if they are connected on the terrain without going below `h`. So the network that is left still has the right key saddle elevation for every pair of summits, without any cycle off the edge (C28). What is missing: rasters on which saddles coincide, see below."
  },
  {
   "property": "C79",
   "status": "partial",
   "theorems": [
    "PyProm.C79_every_edge_summit_refuted",
    "PyProm.C79_tree_partial",
    "PyProm.C79_edge_summit_refuted",
    "PyProm.C79_edge_saddle_refuted"
   ],
   "note": "The code violates the property. C79 fails on every such raster: more saddles are left than a tree on every area has. C79 fails with a summit on the edge: this raster has two summits, no saddle is on the edge, but two saddles are left, which form a cycle with the summits. C79 fails with a saddle on the edge: with rebuilding this raster (see C28) has four summits and five saddles that are neither disqualified nor on the edge. Shown with restrictions: C79, for maps with no summit on the edge on which no two summits agree in location and elevation and whose linkers are listed by both ends or by none (as they are without edge saddles, C41): after a complete run every saddle that is neither disqualified nor on the edge has exactly two summits, and there are exactly as many summits as such saddles and areas of data cells together, so that on every area they form a tree. With summits on the edge the number is right exactly if those saddles form no cycle with any summits, and too high otherwise. What is missing: rasters with features on the edge, see below."
  },
  {
   "property": "C80",
   "status": "partial",
   "theorems": [
    "PyProm.C80_grid_partial",
    "PyProm.C80_setItem_refuted",
    "PyProm.C80_perimeter_partial",
    "PyProm.C80_empty_refuted",
    "PyProm.C80_append_refuted",
    "PyProm.C80_diagonal_refuted"
   ],
   "note": "The code violates the property. Item assignment in a GridPointContainer leaves the table as it was. Whatever the container, an assignment that moves the member `o` elsewhere keeps yielding `o`, which is no member any more. An empty collection cannot be asked for neighbours: AttributeError. A point appended to a Perimeter is never found as a neighbour. `iterNeighborOrthogonalDiagonal` yields no diagonal neighbour, although it is said to yield the orthogonal and then the diagonal ones. Shown with restrictions: C80 for GridPointContainers. Missing for the claim: item assignment. The neighbours are members, no coordinate occurs twice, and the coordinates are exactly those of touching members. With members at distinct coordinates the neighbours are exactly the touching members. C80 for collections made from a list of points at distinct coordinates, for those loaded from a file, and for the Perimeters that exploring a flat area makes. Missing for the claim: empty collections and points added later."
  },
  {
   "property": "C81",
   "status": "partial",
   "theorems": [
    "PyProm.C81_new",
    "PyProm.C81_call_partial",
    "PyProm.C81_members_partial",
    "PyProm.C81_runoffs_refuted",
    "PyProm.C81_spots_refuted",
    "PyProm.C81_points",
    "PyProm.C81_effect",
    "PyProm.C81_stored"
   ],
   "note": "The code violates the property. A saddle that is no runoff can be put into any RunoffsContainer; afterwards every range filter that keeps it raises TypeError. The constructor of SpotElevationContainer takes anything that has an id, for instance a Linker, which `append` refuses. Shown with restrictions: One call on a container that is not for runoffs: it succeeds only with objects of the right kind, fails with TypeError otherwise, and then changes nothing. C81 for SummitsContainers and SaddlesContainers, and for SpotElevationContainers made with SpotElevations: after any calls, with any arguments, whether they raise or not, all members are of the right kind. In consequence the range filters never raise. Missing for the claim: RunoffsContainers."
  },
  {
   "property": "C82",
   "status": "partial",
   "theorems": [
    "PyProm.C82_views_partial",
    "PyProm.C82_run_partial",
    "PyProm.C82_members_refuted",
    "PyProm.C82_baseGridPoint_refuted"
   ],
   "note": "The code violates the property. C82 fails for `members` and `baseCoordinate`: the coordinates of the grid are passed on as latitude and longitude. In every raster whose rows are not one degree apart to the north, for every domain with points in two rows, some member is not at the place of its point. C82 fails for `baseGridPoint`: the coordinates of the grid are converted once more. In every raster with columns less than half a degree apart, for every domain with points in two columns, the cells are not those of the domain. Shown with restrictions: C82 for the views with elevation. The view as GridPoints gives each listed cell with its elevation in the raster, in order; the view as SpotElevations gives the same cells in the same order: looking up its coordinates finds the cell and its elevation. Missing for the claim: the views without elevation. C82 on the result of a run: all cells listed by the domain of a summit are data cells, so the views above never fail."
  },
  {
   "property": "C83",
   "status": "partial",
   "theorems": [
    "PyProm.C83_conversions_partial",
    "PyProm.C83_rotated_refuted"
   ],
   "note": "The code violates the property. C83 fails on every rotated raster: some cell does not come back. Shown with restrictions: C83: a GridPoint converted to a SpotElevation and back is the same. A SpotElevation converted to a GridPoint and back keeps its elevation and moves by at most half a pixel on each axis. The coordinates of a MultiPoint find its cells. Missing for the claim: rotated rasters."
  },
  {
   "property": "C84",
   "status": "proved",
   "theorems": [
    "PyProm.C84_feet",
    "PyProm.C84_run"
   ],
   "note": ""
  },
  {
   "property": "C85",
   "status": "partial",
   "theorems": [
    "PyProm.C85_read_partial",
    "PyProm.C85_extension_refuted"
   ],
   "note": "The code violates the property. C85 fails for every name without the extension: `write` adds it, `read` does not. Reading under the name that was written gives what was there before: nothing, or an older file. Shown with restrictions: C85 for names with the extension: what is written can be read under the same name, whatever was there before. For other names it can be read under the name with the extension. No other file changes. Missing for the claim: reading under a name without extension, see `C85_extension_refuted`."
  },
  {
   "property": "C86",
   "status": "partial",
   "theorems": [
    "PyProm.C86_exact_partial",
    "PyProm.C86_order_partial",
    "PyProm.C86_ties_refuted",
    "PyProm.C86_number_partial"
   ],
   "note": "The code violates the property. C86 fails for saddles of equal height: with two summits joined by two equally high saddles detection disqualifies the saddle that is listed first, so that the order of the saddles decides. Shown with restrictions: C86 (where it holds): if no other live saddle is as high as saddle `j`, detection marks `j` exactly if it is the lowest feature of some cycle of live features. Whatever the heights, it marks every saddle that is the only lowest feature of some cycle. Missing: other saddles of the same height, see below, and networks outside `NetOk`. C86, order (where it holds): in whatever order saddles and linkers are listed, the same saddles are disqualified as single-source saddles, and a saddle such that no other live saddle is as high is a basin saddle and disqualified in either order or in neither. Missing: other saddles of equal height, see below, and networks outside `NetOk`. C86, number (where it holds): whatever the heights, in whatever order saddles and linkers are listed, the same number of saddles of each height are basin saddles, and the same number of each height are left that are neither disqualified nor on the edge. So ties decide only which of the equally high saddles are marked. Missing: networks outside `NetOk`."
  },
  {
   "property": "C87",
   "status": "partial",
   "theorems": [
    "PyProm.C87_bypass_partial",
    "PyProm.C87_edge_summit_refuted",
    "PyProm.C87_ties_refuted",
    "PyProm.C87_every_edge_summit_refuted"
   ],
   "note": "The code violates the property. C87 fails with summits on the edge: between the two summits of this raster there is a saddle of height 2 and also a way on which no cell is lower than 3, but the saddle is not a basin saddle. C87 fails for saddles of equal height: on this raster, without edge features, saddle 8 between the summits at (1, 1) and (1, 3) becomes a basin saddle, but one cannot go from one to the other staying above it; and saddle 11, which is just as low, stays. C87 fails on every raster on which a saddle beside a summit on the edge can be bypassed: one can go from the one summit of the saddle to the other while staying above it, but it is not a basin saddle after a complete run. Shown with restrictions: C87 (where it holds), for maps on which no two summits agree in location and elevation and whose linkers are held at both ends: let a complete run find a live saddle `k` between the summits at `p` and at `q`. If there is no summit on the edge and one can go from `p` to `q` on the terrain staying above the saddle, `k` is disqualified as a basin saddle. If no other live saddle is as high and `k` is so disqualified, it can be bypassed in this way. Missing: summits on the edge and other saddles of the same height, see below."
  },
  {
   "property": "C88",
   "status": "partial",
   "theorems": [
    "PyProm.C88_again_partial",
    "PyProm.C88_history_partial",
    "PyProm.C88_edge_saddles_refuted"
   ],
   "note": "The code violates the property. C88 fails with a saddle on the edge: after the run on this raster and purging, no saddle of the map connects the summits 1 and 2 at level 2, although one can go from one to the other there. Shown with restrictions: C88, detection alone (where it holds): detecting basin saddles a second time changes nothing at all. Missing: networks outside `NetOk`. C88 (where it holds), under the conditions of C28: after a complete run, detect basin saddles and purge saddles with any options, as often and in whatever order: no call fails, the saddles that are neither disqualified nor on the edge stay the same, and by the linkers that the map then has two summits are connected over them above a level exactly if they are on the terrain. Detection by itself changes nothing any more. Missing: rasters with features on the edge, see C78 and below."
  },
  {
   "property": "C89",
   "status": "partial",
   "theorems": [
    "PyProm.C89_square_partial",
    "PyProm.C89_oblong_refuted",
    "PyProm.C89_closest_refuted",
    "PyProm.C89_grid"
   ],
   "note": "The code violates the property. C89 fails on every raster with north up whose cells are not square: rows are measured with the width of a cell and columns with its height. Two cells have the right distance exactly if they are as many rows as columns apart, and of the two direct neighbours of a cell, across and down, always the wrong one is reported to be nearer. C89, what follows for the search of closest points on every such raster: of the cells below and beside the first cell it takes the farther one by coordinates. `dist` is any way to measure that grows with `distanceSq`. Shown with restrictions: C89 (where it holds): on a raster with north up and square cells the distance of two cells is that of their coordinates. Missing: other rasters, see below."
  },
  {
   "property": "C90",
   "status": "proved",
   "theorems": [
    "PyProm.C90_spots",
    "PyProm.C90_grid"
   ],
   "note": ""
  },
  {
   "property": "C91",
   "status": "partial",
   "theorems": [
    "PyProm.C91_loaded_partial",
    "PyProm.C91_linkers_refuted",
    "PyProm.C91_saddles_refuted"
   ],
   "note": "The code violates the property. C91 fails for linkers, for every map with a saddle off the edge that lists two linkers to the same summit and reports no disqualification: detection disqualifies both linkers in the map of the run, but only the first of them in the loaded map. C91 fails for saddles where linkers of other saddles compare equal: the detection marks other saddles in the loaded map than in the map of the run, although the loaded map has the same saddles in the same places. Shown with restrictions: C91 (where it holds): save the map of a run, before or after basin saddle detection, load it again and detect basin saddles in both. It finishes in both and marks the same: at every position the saddle of the loaded map has the flags and alternatives of the saddle of the run, and linkers are disqualified alike; of several linkers between a summit and a saddle this holds for the first, the others keep the flag they were saved with (`C91_linkers_refuted`). In particular the loaded map has these flags before. Missing: what is missing in C76, and maps where linkers of other summits or saddles compare equal (`C91_saddles_refuted`)."
  },
  {
   "property": "C92",
   "status": "partial",
   "theorems": [
    "PyProm.C92_purged_partial",
    "PyProm.C92_all_partial",
    "PyProm.C92_all_refuted"
   ],
   "note": "The code violates the property. C92 fails for purging with `all_basin_saddles`: two saddles are removed that others list as alternatives, and the map cannot be loaded, though summits are apart and nothing was rebuilt. Shown with restrictions: C92. Missing: rebuilt edge saddles (`C76_rebuilt_refuted`), summits at the same place (to six digits), and purging with `all_basin_saddles` (`C92_all_partial`, `C92_all_refuted`). For all other runs: no sequence of basin detections and purges of single summit or basin saddles fails, and what is left can be saved and loaded as a whole. C92 for all options. Missing: rebuilt edge saddles and summits at the same place, as for `C92_purged_partial`. What is left can be saved; it is loaded as a whole if no saddle that is left lists a removed one among its alternatives, otherwise loading stops with a KeyError."
  },
  {
   "property": "C93",
   "status": "partial",
   "theorems": [
    "PyProm.C93_lists_refuted",
    "PyProm.C93_links_partial",
    "PyProm.C93_selected_first_refuted",
    "PyProm.C93_raises_refuted",
    "PyProm.C93_again_partial",
    "PyProm.C93_every_flat_refuted",
    "PyProm.C93_no_flats_partial"
   ],
   "note": "The code violates the property. C93 fails, always: a second walk, with or without a selection and after any first walk on any map, makes no linker. If it does not raise, the map has neither linkers nor domains afterwards, whatever it had before. The same for a selection on a map as it comes out of discovery: after the selected saddles were walked, the walk of the whole map finds nothing. C93 fails otherwise too: where a way up crosses a flat, the second walk raises KeyError. C93 fails on every raster without single highest cells, such as one whose summits all are flats, that has a saddle: walking its map a second time raises. Shown with restrictions: C93 (what hangs on the features only): a second walk that does not raise keeps the summits, the points and saddles of every domain, and the linkers of every summit and of every saddle known before. The lists `linkers` and `domains` of the map itself are lost (`C93_lists_refuted`). C93, when it raises, exactly: walking a finished map a second time goes through if and only if every climb, from the high points of its saddles and runoffs, rises strictly to a single cell; that is, if none meets a flat, be it a shelf or a summit of several cells. Where no two touching data cells are equally high a second walk never raises."
  },
  {
   "property": "C94",
   "status": "partial",
   "theorems": [
    "PyProm.C94_rounded",
    "PyProm.C94_tiles_partial",
    "PyProm.C94_coordinates",
    "PyProm.C94_unflagged_saddle_refuted"
   ],
   "note": "The code violates the property. C94 fails for saddles: a tile can report a saddle that is not flagged as an edge feature although the map has no saddle at all. All border stretches of its area were turned into runoffs. Shown with restrictions: C94, the part that holds: whatever the sets and path searches do in the two analyses, every summit of a tile that is not flagged as an edge feature, and every saddle of the tile whose flat area keeps off the outermost ring of the tile, is reported for the whole map too: same cell, height, cells and higher neighbourhoods. Conversely every summit and saddle of the map whose flat area keeps off the ring of the tile is found in the tile. Missing: saddles whose area reaches the ring, flagged or not (`C94_unflagged_saddle_refuted`)."
  },
  {
   "property": "C95",
   "status": "proved",
   "theorems": [
    "PyProm.C95_heights"
   ],
   "note": ""
  },
  {
   "property": "C96",
   "status": "partial",
   "theorems": [
    "PyProm.C96_two_runs_partial",
    "PyProm.C96_runoff_place_refuted",
    "PyProm.C96_every_runoff_refuted"
   ],
   "note": "The code violates the property. C96 fails for runoffs: with another order of the sets the runoff of the shelf is reported elsewhere. C96 fails for every runoff of every raster that has higher ground and more than one border point: if the set of border points yields another point first the runoff is reported elsewhere, and no runoff is reported at its place any more. Shown with restrictions: C96, the part that holds: two analyses of one raster report identical lists of summits; the saddles are the same one by one (place, height, edge flag, the cells, edge points and higher neighbourhoods, up to order); and there is the same number of runoffs, for the same border points. Missing: the place of a runoff (`C96_runoff_place_refuted`)."
  },
  {
   "property": "C97",
   "status": "partial",
   "theorems": [
    "PyProm.C97_independent_partial",
    "PyProm.C97_shared_defaults_refuted"
   ],
   "note": "The code violates the property. C97 is false of the defaults. After any calls: whatever is done in place to a container that map `i` was not given is done to every other map that was not given one; and a map created afterwards starts with what it holds. Shown with restrictions: C97, what is true. After any calls, on any maps: creating a map, or running or purging one, leaves every other map as it is; changing a container of map `i` in place leaves everything of another map as it is, except the container of the same kind if neither map was ever given one."
  },
  {
   "property": "C98",
   "status": "partial",
   "theorems": [
    "PyProm.C98_run_replaces_partial",
    "PyProm.C98_domains_stay_refuted",
    "PyProm.C98_super_sparse_file_refuted",
    "PyProm.C98_fresh_loads"
   ],
   "note": "The code violates the property. C98 is false of superSparse runs: the domains of the earlier run stay. C98, the consequence for files. A map with a domain is run again with superSparse, and finds new summits: it can be saved, and the file cannot be loaded. Had the domains been replaced as well, it could (`C98_fresh_loads`). Shown with restrictions: C98, what is true. After any calls, a run that walks replaces all five containers of the map: it shows exactly what was found, whatever it held before. A superSparse run replaces all but the domains."
  },
  {
   "property": "C99",
   "status": "partial",
   "theorems": [
    "PyProm.C99_found_partial",
    "PyProm.C99_made_partial",
    "PyProm.C99_border_refuted"
   ],
   "note": "The code violates the property. C99 fails for saddles made from a saddle on the border: their place is chosen among the area *and* the high points around it (C15). Here the only saddle of the map, of elevation 5, is reported at the summit of height 9. Shown with restrictions: C99 for everything discovery finds: looking up the coordinates of a summit, saddle, runoff or corner runoff in the raster gives its elevation. C99 for saddles made from others, by rebuilding and by the walk: it holds for all saddles and runoffs of the map if the areas of the saddles found are level (which they are off the border, C15) and no path has to be searched to place a saddle: either all saddles are rebuilt and none is an edge saddle, or no saddle with two high neighbourhoods has an area."
  },
  {
   "property": "C100",
   "status": "proved",
   "theorems": [
    "PyProm.C100_discovered",
    "PyProm.C100_walked"
   ],
   "note": ""
  },
  {
   "property": "C101",
   "status": "partial",
   "theorems": [
    "PyProm.C101_override_partial",
    "PyProm.C101_subset_refuted",
    "PyProm.C101_fingerprint_refuted"
   ],
   "note": "The code violates the property. C101 fails for subsets: they are cut out of the file. After any number of replacements a subset shows the heights of the file, so wherever the heights put in place differ from those of the file inside the window, the subset does not show the height of the map. C101 fails for saved maps: the fingerprint stays that of the file, so a map of the replaced heights is accepted for the raster of the file, whatever the heights are. Shown with restrictions: C101, the map itself: exactly an array of the shape of the map is accepted; all lookups, by cell or by coordinates, then give the new heights; coordinates, corners and the nodata value are as before."
  },
  {
   "property": "C102",
   "status": "partial",
   "theorems": [
    "PyProm.C102_loader_refuted",
    "PyProm.C102_datamap_partial"
   ],
   "note": "The code violates the property. C102 fails: a loader has no attribute `datamap`, so a DomainMap cannot be made from any loader. Shown with restrictions: C102 through the data map: the DataMap made by a loader is accepted, and the map is one of the first band of the warped file. Nothing else is accepted."
  },
  {
   "property": "C103",
   "status": "partial",
   "theorems": [
    "PyProm.C103_prominence",
    "PyProm.C103_run_partial",
    "PyProm.C103_edge_saddles_refuted"
   ],
   "note": "The code violates the property. C103 fails where a saddle is on the edge: on this raster one can go from the summit of height 10 to higher ground without going below 2, but after the run its only connection with a higher summit is over a saddle of height 1. The prominence read off the map is too large. Shown with restrictions: C103 after a complete run, for rasters without saddles on the edge or on which no saddles coincide, if no two summits agree in location and elevation: the saddles that are left, which form no cycle off the edge, still have the prominence of every summit. Missing: rasters on which saddles coincide (`C103_edge_saddles_refuted`)."
  },
  {
   "property": "C104",
   "status": "proved",
   "theorems": [
    "PyProm.C104_again",
    "PyProm.C104_runs"
   ],
   "note": ""
  },
  {
   "property": "C105",
   "status": "partial",
   "theorems": [
    "PyProm.C105_one_piece_partial",
    "PyProm.C105_climbs_partial",
    "PyProm.C105_one_piece_refuted"
   ],
   "note": "The code violates the property. C105 fails: the climb across a flat shoulder lists none of its cells, so the domain of the higher summit consists of the summit and of a point further down that touches no other point of the domain. Shown with restrictions: C105 (rasters without flat shoulders): after a walk every point listed by the domain of a summit is joined to an area of the summit by a path that never descends and enters only points listed by that domain. The listed points are those the walk assigns to the summit. What is missing: rasters with flat ground below a summit, see the refutation. The same after any sequence of climbs."
  },
  {
   "property": "C106",
   "status": "partial",
   "theorems": [
    "PyProm.C106_inside_partial",
    "PyProm.C106_inside_refuted"
   ],
   "note": "The code violates the property. C106 fails: below a flat shoulder the linker to the higher summit begins at a point from which no other point of the domain is reached, neither at this nor at its other high neighbourhood. Shown with restrictions: C106 (rasters without flat shoulders): every linker of a walked map begins at a point that the domain of its summit lists, and from there its summit is reached without descent over points of this domain. What is missing: rasters with flat ground below a summit, see the refutation."
  },
  {
   "property": "C107",
   "status": "proved",
   "theorems": [
    "PyProm.C107_run",
    "PyProm.C107_walk",
    "PyProm.C107_slopes",
    "PyProm.C107_searches",
    "PyProm.C107_read",
    "PyProm.C107_only_units"
   ],
   "note": ""
  },
  {
   "property": "C108",
   "status": "proved",
   "theorems": [
    "PyProm.C108_run",
    "PyProm.C108_slopes",
    "PyProm.C108_any_marker",
    "PyProm.C108_read",
    "PyProm.C108_only_low"
   ],
   "note": ""
  },
  {
   "property": "C109",
   "status": "partial",
   "theorems": [
    "PyProm.C109_points_partial",
    "PyProm.C109_climb_partial",
    "PyProm.C109_linkers_partial",
    "PyProm.C109_agree_partial",
    "PyProm.C109_steepest_refuted"
   ],
   "note": "The code violates the property. C109 fails: from `(3, 1)` the ground rises strictly and steepest to the summit of height 20, but the flat shoulder on the way was given to the nearest higher cell before, so the point is listed for the summit of height 30 and the saddle below has two linkers to that summit and none to the other. Shown with restrictions: C109 (rasters without flat shoulders, domains): after a walk every point listed by the domain of a summit is at the beginning of a line of steepest ascent that ends in the area of this summit, and in no other. What is missing: rasters with flat ground below a summit, see the refutation. C109 (rasters without flat shoulders, climbs): in any state of the exploration a climb from any cell reports the summit to which the line of steepest ascent leads. What is missing: as before. C109 (rasters without flat shoulders, linkers): every saddle of a walked map that is off the map edge and was not split off an edge saddle has one linker for each of its high neighbourhoods, in order, to the summit at the end of the line of steepest ascent from the first point of the neighbourhood. What is missing: as before. C109 (rasters without flat shoulders, several runs): a point listed in two runs over the same raster and the same lengths of steps, whatever the order of their work and their search for nearest points, is listed by the domains of the same summit. What is missing: as before."
  },
  {
   "property": "C110",
   "status": "proved",
   "theorems": [
    "PyProm.C110_map",
    "PyProm.C110_region"
   ],
   "note": ""
  },
  {
   "property": "C111",
   "status": "proved",
   "theorems": [
    "PyProm.C111_cells",
    "PyProm.C111_cover",
    "PyProm.C111_domains"
   ],
   "note": ""
  },
  {
   "property": "C112",
   "status": "proved",
   "theorems": [
    "PyProm.C112_found",
    "PyProm.C112_network",
    "PyProm.C112_only_connections"
   ],
   "note": ""
  },
  {
   "property": "C113",
   "status": "proved",
   "theorems": [
    "PyProm.C113_upward",
    "PyProm.C113_choice",
    "PyProm.C113_run",
    "PyProm.C113_network",
    "PyProm.C113_only_distinct"
   ],
   "note": ""
  },
  {
   "property": "C114",
   "status": "proved",
   "theorems": [
    "PyProm.C114_run",
    "PyProm.C114_walk",
    "PyProm.C114_cells",
    "PyProm.C114_shift",
    "PyProm.C114_only_coarse"
   ],
   "note": ""
  },
  {
   "property": "C115",
   "status": "partial",
   "theorems": [
    "PyProm.C115_every_flag_refuted",
    "PyProm.C115_loaded_partial",
    "PyProm.C115_runs_partial",
    "PyProm.C115_flag_refuted"
   ],
   "note": "The code violates the property. C115 fails for every saddle that is flagged (as basin saddle or as not linking two summits) and was declared not to be disqualified, unless a saddle that is disqualified is at the same place: its placemark is that of a basin saddle once the map is loaded, which no placemark there was when the map was saved. C115 fails for a basin saddle that was declared not to be disqualified: after loading it is drawn as a basin saddle. Shown with restrictions: C115 for maps in general. Missing: maps out of which something refers to objects that are not in a container, which in general cannot be loaded (`C45_load_partial`), and saddles that were declared not disqualified though they are flagged (`C115_flag_refuted`). A writer draws the loaded map as it draws the saved one, in whatever order the set of domains is. C115 for runs. Missing: rebuilt edge saddles (`C76_rebuilt_refuted`), summits at the same place (to six digits), and purging with `all_basin_saddles` that removes a saddle others list as alternative (`C92_all_refuted`): these maps cannot be loaded or do not come back as a whole. In all other cases the map can be saved after any sequence of detections and purges, and a KML writer draws the map that is loaded as it draws the map that was saved, but for the order of the domains."
  },
  {
   "property": "C116",
   "status": "proved",
   "theorems": [
    "PyProm.C116_counterparts",
    "PyProm.C116_connections",
    "PyProm.C116_prominence",
    "PyProm.C116_apart",
    "PyProm.C116_only_twice",
    "PyProm.C116_finished"
   ],
   "note": ""
  },
  {
   "property": "C117",
   "status": "proved",
   "theorems": [
    "PyProm.C117_above",
    "PyProm.C117_tile",
    "PyProm.C117_only_above",
    "PyProm.C117_finished"
   ],
   "note": ""
  },
  {
   "property": "C118",
   "status": "proved",
   "theorems": [
    "PyProm.C118_found",
    "PyProm.C118_only_discovery"
   ],
   "note": ""
  },
  {
   "property": "C119",
   "status": "proved",
   "theorems": [
    "PyProm.C119_shown",
    "PyProm.C119_blocks",
    "PyProm.C119_framed",
    "PyProm.C119_only_ground"
   ],
   "note": ""
  },
  {
   "property": "C120",
   "status": "proved",
   "theorems": [
    "PyProm.C120_every_edge_summit",
    "PyProm.C120_exact",
    "PyProm.C120_count",
    "PyProm.C120_key",
    "PyProm.C120_only_off_edge",
    "PyProm.C120_only_apart"
   ],
   "note": ""
  },
  {
   "property": "C121",
   "status": "proved",
   "theorems": [
    "PyProm.C121_decline",
    "PyProm.C121_none",
    "PyProm.C121_only_bound"
   ],
   "note": ""
  },
  {
   "property": "C122",
   "status": "proved",
   "theorems": [
    "PyProm.C122_discovery",
    "PyProm.C122_summits",
    "PyProm.C122_forest",
    "PyProm.C122_only_coarse"
   ],
   "note": ""
  },
  {
   "property": "C123",
   "status": "proved",
   "theorems": [
    "PyProm.C123_every_edge_summit",
    "PyProm.C123_exact",
    "PyProm.C123_level",
    "PyProm.C123_shown",
    "PyProm.C123_same",
    "PyProm.C123_only_off_edge"
   ],
   "note": ""
  },
  {
   "property": "C124",
   "status": "proved",
   "theorems": [
    "PyProm.C124_discovery",
    "PyProm.C124_run",
    "PyProm.C124_attained"
   ],
   "note": ""
  },
  {
   "property": "C125",
   "status": "partial",
   "theorems": [
    "PyProm.C125_calls",
    "PyProm.C125_return",
    "PyProm.C125_deleted",
    "PyProm.C125_detection_partial",
    "PyProm.C125_order_refuted"
   ],
   "note": "The code violates the property. C125 fails: the order counts, on every raster. Suppose that two summits of a saddle have a way round it before detection, and that detection leaves the saddle. If the saddle is deleted before detection, the way round stays. If it is deleted afterwards, the two summits are separated at every height, and nothing that can be done connects them again: detection had taken the way round for superfluous. Shown with restrictions: C125, detection (where it holds): whatever was done to the map of a run before, basin detection costs no route between summits that is there at the time, at any height, and leaves no cycle of live features. Missing: rasters with features on the edge whose linkers are held at one end only (C41) and maps with two summits at one place."
  },
  {
   "property": "C126",
   "status": "partial",
   "theorems": [
    "PyProm.C126_families",
    "PyProm.C126_saved_partial",
    "PyProm.C126_unpurged_partial",
    "PyProm.C126_refuted",
    "PyProm.C126_parent_refuted"
   ],
   "note": "The code violates the property. C126 fails: after deletion of a saddle and a purge of plain basin saddles, which alone does no harm (C92), the map cannot be loaded: another saddle still lists the deleted one, which did not list it, as an alternative. C126 fails for parents too: emancipating a saddle removes its sibling at the same place from the children of their parent, the sibling still names the parent, and once the parent is disqualified and purged the map cannot be loaded. Shown with restrictions: C126. Missing: rebuilt edge saddles (`C76_rebuilt_refuted`) and summits at the same place (to six digits). For all other runs and any sequence of detections, purges, deletions, disqualifications and separations of families, what is left can be saved. It is loaded as a whole if the parents and alternatives of what is left are left too, otherwise loading stops with a KeyError. Parents are left if no saddle has two children at the same place, or nothing was purged. C126 without purges. Missing: rebuilt edge saddles and summits at the same place, as for `C126_saved_partial`. Whatever is detected, deleted, disqualified or separated, the map with all its saddles is saved and loaded as a whole."
  },
  {
   "property": "C127",
   "status": "proved",
   "theorems": [
    "PyProm.C127_clear_ground",
    "PyProm.C127_inland",
    "PyProm.C127_coarse",
    "PyProm.C127_key_saddle"
   ],
   "note": ""
  },
  {
   "property": "C128",
   "status": "proved",
   "theorems": [
    "PyProm.C128_never_short",
    "PyProm.C128_exact",
    "PyProm.C128_agree"
   ],
   "note": ""
  },
  {
   "property": "C129",
   "status": "proved",
   "theorems": [
    "PyProm.C129_near",
    "PyProm.C129_back",
    "PyProm.C129_lookup",
    "PyProm.C129_elevation",
    "PyProm.C129_told",
    "PyProm.C129_double",
    "PyProm.C129_monotone",
    "PyProm.C129_run",
    "PyProm.C129_subset",
    "PyProm.C129_subset_near"
   ],
   "note": ""
  },
  {
   "property": "C130",
   "status": "proved",
   "theorems": [
    "PyProm.C130_run",
    "PyProm.C130_exact"
   ],
   "note": ""
  },
  {
   "property": "C131",
   "status": "proved",
   "theorems": [
    "PyProm.C131_saddles",
    "PyProm.C131_runoffs"
   ],
   "note": ""
  },
  {
   "property": "C132",
   "status": "partial",
   "theorems": [
    "PyProm.C132_every_refuted",
    "PyProm.C132_again_partial"
   ],
   "note": "The code violates the property. C132 fails for every run whose summits all have linkers: after its map was saved and loaded, walking the loaded map raises, or leaves it without linkers and domains. The saddles it can be walked from are those of the file. Shown with restrictions: C132, what remains. Missing: the linkers and domains (`C132_every_refuted`). For a run whose summits all have linkers, walking the loaded map goes through if and only if walking the map itself again does: if every climb rises strictly to a single cell. What the loaded summits, saddles and domains know of each other is then kept."
  },
  {
   "property": "C133",
   "status": "partial",
   "theorems": [
    "PyProm.C133_walked_partial",
    "PyProm.C133_detected_partial",
    "PyProm.C133_purged_partial",
    "PyProm.C133_edge_saddles_refuted"
   ],
   "note": "The code violates the property. C133 fails where a saddle is on the edge: the file written after the complete run has the saddle of height 2 between the summits 9 and 10 disqualified, so that the summit 10 gets its connection with a higher one only over the saddle of height 1, although one can go to higher ground without going below 2. Shown with restrictions: C133 for maps that are saved before basin saddles are detected: on every raster, unless edge saddles were rebuilt, the file has the heights of the summits, and from a summit one gets to a higher cell without going below `x` exactly if the loaded map connects the summit with a higher one over saddles that are not lower than `x`. Between any two summits too the file tells how far down one has to go. C133 for complete runs, on rasters without saddles on the edge or on which no saddles coincide, if no two summits agree in location and elevation: the same holds for the file written after basin saddles were detected, so that the saddles in it that are not disqualified suffice. C133 for maps that were thinned out, under the same conditions: after a complete run purge saddles and detect basin saddles, as often and in whatever order, only not with `all_basin_saddles` (see C92): the file written then, which no longer has the saddles that were purged nor their linkers, still tells the prominence of every summit."
  },
  {
   "property": "C134",
   "status": "partial",
   "theorems": [
    "PyProm.C134_tree_partial",
    "PyProm.C134_detected_partial",
    "PyProm.C134_bound_partial",
    "PyProm.C134_repeated_refuted"
   ],
   "note": "The code violates the property. C134 fails before detection: the path from the summit of the ring to the saddle goes round the ring first, over both linkers of the notch; the loaded map, where the notch lists only the first, has the path of one linker. Shown with restrictions: C134 (where it holds): save the map of a run, before or after basin saddle detection, load it, and run the divide tree on both: the trees are the same, with the same declines. Missing: what is missing in C76, maps where linkers of other summits or saddles compare equal (see C91), and maps with several linkers between a summit and a saddle that are not disqualified (`C134_repeated_refuted`). C134 (where it holds) after basin saddle detection: it disqualifies the linkers of every saddle with two linkers to one summit, so that the trees are the same if only those saddles are off the edge of the map. C134 (where it holds) and prominence: if one can get from a summit to higher ground without going below height `h`, the divide tree of the loaded map reports for the summit a path with a positive decline of at most the height of the summit above `h`, as the tree of the map itself does (C121)."
  },
  {
   "property": "C135",
   "status": "partial",
   "theorems": [
    "PyProm.C135_again",
    "PyProm.C135_paths",
    "PyProm.C135_order",
    "PyProm.C135_changed_partial",
    "PyProm.C135_stale_refuted",
    "PyProm.C135_crater_refuted"
   ],
   "note": "The code violates the property. C135 fails for boundaries if the map changed: whatever is noted on summits and saddles, and the summits that were given up, is still there after every run, on whatever network with whatever disqualifications. C135 fails on the crater: the divide tree is run before basin saddles are detected and again afterwards. Saddle 9, now a basin saddle, is still listed by the third summit, although no path of it ends there any more; a tree run only afterwards does not list it. Shown with restrictions: C135 (where it holds) if the map changed in between, say because basin saddles were detected: if no two summits and no two saddles compare equal, the regions are those of a first run, and the boundaries those of a first run together with what was noted before. Missing: the latter should not be there, see below."
  },
  {
   "property": "C136",
   "status": "proved",
   "theorems": [
    "PyProm.C136_units",
    "PyProm.C136_marker",
    "PyProm.C136_place",
    "PyProm.C136_rounding"
   ],
   "note": ""
  },
  {
   "property": "C137",
   "status": "proved",
   "theorems": [
    "PyProm.C137_found",
    "PyProm.C137_walked",
    "PyProm.C137_disqualified",
    "PyProm.C137_reasons"
   ],
   "note": ""
  }
 ]
}