{"id": "C01", "title": "Heap returns a minimum after every history", "statement": "After any sequence of successful insertheap/deleteheap/updateheap/deleteminheap/makeemptyheap calls, getminheap/deleteminheap return a state whose key is <= the key of every state currently in the heap, and deleteminheap removes exactly that state.", "quantifier": "all histories of heap operations, all states, all keys from a total order, all heap sizes", "why_tests_cant": "the number of operation histories and tie patterns is unbounded; a percolation slip shows only for particular shapes", "anchors": ["src/utils/heap.cpp: CHeap::percolatedown, percolateup, percolateupordown, insertheap, deleteheap, updateheap, deleteminheap, getminheap", "src/include/sbpl/utils/heap.h: CHeap"]}
{"id": "C02", "title": "Heap membership and stored keys follow the operation history", "statement": "After any history, inheap(s) is true exactly if s was inserted and not since removed, getkeyheap(s) is the key last given to s by insertheap/updateheap, and calls on a wrong-membership state (insert of a present state, delete/update/getkey of an absent one, deletemin of an empty heap) raise an error instead of corrupting the heap.", "quantifier": "all histories, states and keys", "why_tests_cant": "back-pointer corruption is silent until a much later operation uses the stale index", "anchors": ["src/utils/heap.cpp: CHeap::insertheap, deleteheap, updateheap, getkeyheap, inheap, makeemptyheap"]}
{"id": "C03", "title": "makeheap repairs any bulk re-keying", "statement": "From any heap whose back-pointers are consistent, whatever keys have been written by the unsafe operations (insert_unsafe, deleteheap_unsafe, updateheap_unsafe), makeheap yields a heap with the same states and keys in which deletemin again returns a minimum.", "quantifier": "all sequences of unsafe operations with arbitrary keys, followed by makeheap", "why_tests_cant": "all key permutations of all sizes", "anchors": ["src/utils/heap.cpp: CHeap::makeheap, insert_unsafe, deleteheap_unsafe, updateheap_unsafe", "src/planners/araplanner.cpp: ARAPlanner::Reevaluatefvals"]}
{"id": "C04", "title": "Heap never touches memory outside its allocation and reports fullness", "statement": "Starting from an allocation of at least one slot, every operation history keeps currentsize strictly below allocated <= HEAPSIZE, so every slot accessed is allocated; growing preserves the content; insertion fails exactly when HEAPSIZE-1 states are stored. A CIntHeap constructed with initial size 0 violates this on its first insertion.", "quantifier": "all histories, all initial allocations", "why_tests_cant": "growth boundaries need up to 2*10^7 insertions; off-by-one writes are silent in C++", "anchors": ["src/utils/heap.cpp: CHeap::sizecheck, growheap, fullheap, CIntHeap::CIntHeap(int)", "src/include/sbpl/utils/heap.h: HEAPSIZE"]}
{"id": "C05", "title": "CKey comparisons form one lexicographic total order", "statement": "The six CKey comparison operators are mutually coherent and are the lexicographic order on the two components: irreflexive, transitive, total, with >=, <=, == and != exactly the corresponding negations/combinations.", "quantifier": "all pairs and triples of two-component keys", "why_tests_cant": "a comparison law quantifies over all triples of 64-bit pairs", "anchors": ["src/include/sbpl/utils/key.h: CKey"]}
{"id": "C06", "title": "CList behaves as an ordered set with O(1) membership", "statement": "For any history of insert/insertinfront/remove/makeemptylist, inlist(s) is true exactly if s was inserted and not since removed, getfirst/getnext enumerate exactly the members without repetition in most-recent-first order, currentsize is their number, and a wrong-membership or overfull call raises an error.", "quantifier": "all histories over any number of states", "why_tests_cant": "linked-list corruption depends on removal position and history", "anchors": ["src/include/sbpl/utils/list.h: CList"]}
{"id": "C07", "title": "sbpl_fifo is a bounded first-in first-out queue", "statement": "For any history of insert/remove/clear on a fifo created with size n>=1, removed values come out in insertion order, insert returns false exactly if n-1 values are stored, remove returns false exactly if none are, and a failed call changes nothing.", "quantifier": "all histories, all sizes, all element types", "why_tests_cant": "wrap-around positions interact with every history", "anchors": ["src/include/sbpl/utils/sbpl_fifo.h: sbpl_fifo"]}
{"id": "C08", "title": "2D BFS returns exact shortest step distances", "statement": "compute_distance_from_point on any grid returns at every cell the length of a shortest 8-connected path from the source through cells below the obstacle threshold, and -1 exactly at cells not so reachable, provided the internal queue is large enough never to reject an insertion (a queue larger than the number of cells is; the distances are never too small in any case). The shipped default queue size is not: on an 11x11 maze with a single source a cell is reported one step too far.", "quantifier": "all grid sizes, obstacle maps, thresholds and source cells, after any history of calls on the object", "why_tests_cant": "all obstacle layouts of all sizes", "anchors": ["src/include/sbpl/utils/sbpl_bfs_2d.h: sbpl_bfs_2d::compute_distance_from_point, compute"]}
{"id": "C09", "title": "2D multi-source BFS (distance from obstacles / points) is exact", "statement": "compute_distance_from_obs and compute_distance_from_points return at every cell the minimum over all sources of the 8-connected step distance, for every map. (The shipped default queue size makes this false: with many sources the queue silently drops cells.)", "quantifier": "all grids and all source sets", "why_tests_cant": "the failing source layouts depend on queue occupancy, which a few test maps do not reach", "anchors": ["src/include/sbpl/utils/sbpl_bfs_2d.h: compute_distance_from_obs, compute_distance_from_points", "src/include/sbpl/utils/sbpl_fifo.h"]}
{"id": "C10", "title": "3D BFS returns exact shortest step distances", "statement": "The 3D BFS returns at every cell the length of a shortest 26-connected path from the source set through free cells, -1 exactly if unreachable, when the queue never rejects an insertion.", "quantifier": "all 3D grids, obstacle maps and source sets", "why_tests_cant": "all obstacle layouts of all sizes", "anchors": ["src/include/sbpl/utils/sbpl_bfs_3d.h: sbpl_bfs_3d"]}
{"id": "C11", "title": "Discrete angle normalisation is a canonical residue", "statement": "NORMALIZEDISCTHETA(t,n) for n>0 lies in [0,n), differs from t by a multiple of n, is idempotent, and is the only such value, for negative t too.", "quantifier": "all integers t and all positive n", "why_tests_cant": "all integers, including negatives where C remainder truncates", "anchors": ["src/include/sbpl/utils/utils.h: NORMALIZEDISCTHETA"]}
{"id": "C12", "title": "Cell/metre conversions round-trip", "statement": "CONTXY2DISC(DISCXY2CONT(i)) = i for every integer cell and positive cell size; CONTXY2DISC(x) is the cell containing x (floor) for every non-negative x and every negative x that is not a cell boundary; at negative cell boundaries it is off by one.", "quantifier": "all integer cells, all positive cell sizes, all coordinates (exact arithmetic)", "why_tests_cant": "continuous domain; the failing boundary points have measure zero", "anchors": ["src/include/sbpl/utils/utils.h: CONTXY2DISC, DISCXY2CONT"]}
{"id": "C13", "title": "Bresenham line iteration visits a correct digital line", "statement": "Iterating get_current_point/get_next_point after get_bresenham_parameters(p1,p2) yields exactly max(|dx|,|dy|)+1 cells, starting at p1 and ending at p2, successive cells are 8-adjacent and each visited cell is within half a cell of the ideal segment along the minor axis; the line from p2 to p1 visits the same cells in reverse.", "quantifier": "all integer end points", "why_tests_cant": "all slopes and octants", "anchors": ["src/utils/utils.cpp: get_bresenham_parameters, get_current_point, get_next_point"]}
{"id": "C14", "title": "State IDs and coordinates are in bijection", "statement": "For any history of environment calls that look up or create states, two lookups of the same cell return the same ID, different cells get different IDs, IDs are dense 0..SizeofCreatedEnv()-1, and GetCoordFromState(GetStateFromCoord(x,y)) = (x,y); the hash function has no influence on this.", "quantifier": "all histories of lookups, all coordinates, any hash function", "why_tests_cant": "hash collisions and creation order vary without bound", "anchors": ["src/discrete_space_information/environment_nav2D.cpp: GetHashEntry, CreateNewHashEntry, GetStateFromCoord, GetCoordFromState"]}
{"id": "C15", "title": "Nav2D successors are exactly the legal moves at the documented cost", "statement": "GetSuccs(s) for a non-goal in-map state lists, once each, exactly the moves whose target and all crossed cells lie in the map with cost below obsthresh, at cost (1+max crossed cell cost)*distance; no grid access is out of bounds; the goal has no successors.", "quantifier": "all grids (any size), thresholds, 8- and 16-connected action sets, states", "why_tests_cant": "all map contents and border positions; out-of-bounds reads may go unnoticed in a test", "anchors": ["src/discrete_space_information/environment_nav2D.cpp: GetSuccs, IsValidCell, Computedxy"]}
{"id": "C16", "title": "Nav2D predecessors and successors describe the same edges", "statement": "(s,c) is returned by GetPreds(t) exactly if (t,c) is returned by GetSuccs(s), for obstacle-free non-goal s. (For s = goal or s on an obstacle the two disagree.)", "quantifier": "all grids, thresholds, action sets and state pairs", "why_tests_cant": "quantifies over all maps and all pairs of cells", "anchors": ["src/discrete_space_information/environment_nav2D.cpp: GetSuccs, GetPreds"]}
{"id": "C17", "title": "Nav2D heuristic is consistent with edge costs", "statement": "GetGoalHeuristic is a lower bound that is consistent with every edge returned by GetSuccs. (False of the code: diagonal moves cost 1414 but are valued at 1000*sqrt(2); what holds is consistency up to the factor 1414.22/1414.)", "quantifier": "all pairs of cells at any distance, all edges", "why_tests_cant": "the violation is 0.015% and shows only at particular distances", "anchors": ["src/discrete_space_information/environment_nav2D.cpp: EuclideanDistance, GetFromToHeuristic, GetGoalHeuristic, Computedxy"]}
{"id": "C18", "title": "Nav2D change report covers every affected edge", "statement": "If two maps differ only on the reported cells, then every state whose outgoing edges (resp. incoming edges) differ is returned by GetPredsofChangedEdges (resp. GetSuccsofChangedEdges).", "quantifier": "all pairs of maps, all changed-cell lists, both action sets", "why_tests_cant": "a missed edge corrupts an incremental planner only on maps where that edge matters", "anchors": ["src/discrete_space_information/environment_nav2D.cpp: GetPredsofChangedEdges, GetSuccsofChangedEdges, UpdateCost"]}
{"id": "C19", "title": "ARA* returns a genuine path no dearer than the reported cost", "statement": "Whenever ARAPlanner reports success, the returned state sequence starts at the start state, ends at the goal, each step is an edge of the environment, and the sum of edge costs is at most the g-value of the goal.", "quantifier": "all graphs with positive integer costs, all heuristics, all histories of set_start/set_goal/costs_changed/force_planning_from_scratch/replan calls, all eps schedules, all interruption points, both search directions", "why_tests_cant": "all graphs and all interleavings of iterations and interruptions", "anchors": ["src/planners/araplanner.cpp: ImprovePath, UpdateSuccs, ReconstructPath, GetSearchPath, Search"]}
{"id": "C20", "title": "ARA* solution is within the suboptimality factor", "statement": "When replan reports a satisfied bound eps (get_final_epsilon) and the heuristic is consistent, a solution is found whenever a path exists and its cost is <= ceil(eps) * the cost of every path; for integral eps, in particular eps=1, it is <= eps * optimal.", "quantifier": "all graphs, consistent heuristics, eps>=1 and previous iterations", "why_tests_cant": "quantifies over all graphs and all optimal paths", "anchors": ["src/planners/araplanner.cpp: ImprovePath, BuildNewOPENList, Reevaluatefvals, Search"]}
{"id": "C21", "title": "ARA* reported real-valued eps is not a true bound", "statement": "A user relies on cost <= eps * optimal for the real number eps that get_solution_eps reports. The code violates this: keys truncate eps*h to an integer, and there is an environment with positive costs and a consistent heuristic on which replan reports eps = 1.25 and returns a path of cost 15 although a path of cost 11 exists. (ceil(eps) is a bound, see the previous property.)", "quantifier": "all graphs, consistent heuristics and real eps", "why_tests_cant": "the failing graphs need long chains of ties created by truncation", "anchors": ["src/planners/araplanner.cpp: ImprovePath, key.key[0] = g + (int)(eps*h)"]}
{"id": "C22", "title": "ARA* reports failure only if no path exists", "statement": "If replan reports failure and the clock cut short none of its passes, then (consistent heuristic) no path from start to goal exists whose cost is below INFINITECOST / E, where E bounds the requested eps values.", "quantifier": "all graphs and histories of iterations", "why_tests_cant": "completeness quantifies over all graphs", "anchors": ["src/planners/araplanner.cpp: ImprovePath"]}
{"id": "C23", "title": "ARA* expands a state at most once per iteration", "statement": "Within one ImprovePath call no state is expanded twice.", "quantifier": "all graphs (even with inconsistent heuristics), all iterations", "why_tests_cant": "re-expansion depends on the graph and tie order", "anchors": ["src/planners/araplanner.cpp: ImprovePath, UpdateSuccs (iterationclosed)"]}
{"id": "C24", "title": "PathExists decides reachability", "statement": "PathExists(markov chain, s, t) returns true exactly if t is reachable from s along outcomes of the chain (their probabilities play no role), for every chain with at most one action per state, distinct state IDs and all successors present.", "quantifier": "all finite chains", "why_tests_cant": "all graph shapes", "anchors": ["src/utils/utils.cpp: PathExists"]}
{"id": "C25", "title": "MDP predecessor lists are sets; outcome lookup is exact", "statement": "AddPred/RemovePred/ContainsPred on a state behave as a set for every history; GetIndofOutcome finds an outcome exactly if present; GetIndofMostLikelyOutcome returns an index of maximal probability.", "quantifier": "all histories and action contents", "why_tests_cant": "histories are unbounded", "anchors": ["src/utils/mdp.cpp: CMDPSTATE::AddPred, RemovePred, ContainsPred, CMDPACTION::GetIndofOutcome, GetIndofMostLikelyOutcome"]}
{"id": "C26", "title": "ARA* raises only capacity exceptions", "statement": "On environments with positive edge costs, the only exceptions replan can raise after any history of interface calls are those of a full OPEN heap or a full INCONS list: it never inserts a state twice, removes an absent one, misses a predecessor on the path or finds non-decreasing values along it.", "quantifier": "all environments with positive costs, all histories, all time limits", "why_tests_cant": "the internal consistency checks depend on the whole history of searches", "anchors": ["src/planners/araplanner.cpp: replan, Search, ReconstructPath, UpdateSuccs, UpdatePreds, BuildNewOPENList"]}
{"id": "C27", "title": "ARA* terminates and reaches the requested eps", "statement": "If finitely many states are reachable, a pass allowed more loop checks than that number is never cut short; and if no pass is cut short and enough passes are allowed, replan ends with final_epsilon satisfied or reports that there is no path.", "quantifier": "all environments with finitely many reachable states, all histories and eps schedules", "why_tests_cant": "termination and progress quantify over all graphs", "anchors": ["src/planners/araplanner.cpp: Search, ImprovePath"]}
{"id": "C28", "title": "ARA* cannot return a path ending in a zero-cost edge", "statement": "Edge costs are arbitrary non-negative integers in the environment interface, but a goal reached over a zero-cost edge makes replan raise an exception instead of returning the path (witness).", "quantifier": "existence of an environment and a call sequence (a negative result delimiting the previous properties)", "why_tests_cant": "shows why positivity of costs is a hypothesis of the universally quantified properties", "anchors": ["src/planners/araplanner.cpp: ReconstructPath"]}
{"id": "C29", "title": "ARA* with expired time may raise on a stale goal", "statement": "A user expects a replan whose time is already over to report no solution or a valid one. After moving the start and then setting a goal reached only in an earlier search, such a call follows stale pointers and raises an exception (witness).", "quantifier": "existence of an environment and a call history (a negative result)", "why_tests_cant": "depends on a particular history of start/goal changes and on the clock", "anchors": ["src/planners/araplanner.cpp: Search, SetSearchGoalState, ReconstructPath"]}
{"id": "C30", "title": "Nav2D never touches memory outside the map for in-map calls", "statement": "If the goal given to InitializeEnv lies in the map, no sequence of calls with map coordinates and existing state IDs (SetStart/SetGoal with any coordinates) reads or writes outside the cost map or uses an unknown ID, and every state ever created is a map cell.", "quantifier": "all maps, sizes (down to 1x1), thresholds, call histories", "why_tests_cant": "out-of-bounds accesses are silent and depend on border geometry and history", "anchors": ["src/discrete_space_information/environment_nav2D.cpp: GetSuccs, GetPreds, UpdateCost, SetGoal, SetStart"]}
{"id": "C31", "title": "Nav2D does not validate the initial goal or looked-up coordinates", "statement": "A user expects InitializeEnv to reject a goal outside the map as it rejects such a start. It does not: for every map and every goal outside it initialisation succeeds and GetPreds(goal) reads outside the map; likewise GetStateFromCoord creates states outside the map whose expansion reads outside the map.", "quantifier": "all maps and all goals outside the map", "why_tests_cant": "the effect is undefined behaviour, which a test may not notice", "anchors": ["src/discrete_space_information/environment_nav2D.cpp: SetConfiguration, InitializeEnvironment, GetPreds, GetStateFromCoord"]}
{"id": "C32", "title": "ARA* on Nav2D returns valid near-optimal grid paths", "statement": "For ARAPlanner on EnvironmentNAV2D, any history, either direction: a returned path is a sequence of passable straight moves from the start cell to the goal cell of cost at most the reported cost; when replan reports eps, the cost is at most (1.001*eps+0.001) times the cost of every such walk, and at most 1415/1414 times for eps = 1 (backward search: start cell not an obstacle), although the heuristic is inadmissible.", "quantifier": "all maps, thresholds, 8/16-connected, start/goal cells, histories of both, eps schedules, time limits", "why_tests_cant": "combines planner and environment over all maps; the error of the heuristic is too small to show in examples", "anchors": ["src/planners/araplanner.cpp: Search", "src/discrete_space_information/environment_nav2D.cpp: GetSuccs, GetPreds, GetGoalHeuristic, GetStartHeuristic"]}
{"id": "C33", "title": "Angle normalisation returns the same direction in one turn", "statement": "normalizeAngle(a) differs from a by a whole number of turns and lies in [0,2*PI); two angles get the same value exactly if they are the same direction. (Exception in the code: the argument 2*PI itself is returned unchanged, so 0 and 2*PI are told apart.)", "quantifier": "all (exact) angles", "why_tests_cant": "infinitely many angles; the exception is a single point", "anchors": ["src/utils/utils.cpp: normalizeAngle"]}
{"id": "C34", "title": "Discrete headings are nearest bins and round-trip", "statement": "ContTheta2Disc(a,n) is in 0..n-1 and is the bin of width 2*PI/n centred on a multiple of 2*PI/n that contains a; ContTheta2Disc(DiscTheta2Cont(i,n),n)=i; computeMinUnsignedAngleDiff is the smallest absolute difference over all turns. (Exception in the code, for every n: the angle half a bin below 2*PI is mapped to the non-existent bin n.)", "quantifier": "all (exact) angles and all numbers of bins", "why_tests_cant": "infinitely many angles; the exception is a single point per bin count", "anchors": ["src/utils/utils.cpp: ContTheta2Disc, DiscTheta2Cont, computeMinUnsignedAngleDiff"]}
{"id": "C35", "title": "MHA* returns valid paths", "statement": "Whenever MHAPlanner::replan returns success with something other than the goal state alone, the returned IDs form a path without repetitions from the last set start to the last set goal of the current environment whose cost is at most the reported cost (below INFINITECOST), and the reported bound is initial eps times MHA eps; for start = goal the single state at cost 0. Zero-cost edges are allowed.", "quantifier": "all environments, anchor and additional heuristics, histories of calls, parameters, time and expansion limits", "why_tests_cant": "the back pointers depend on the interleaving of several searches sharing g-values", "anchors": ["src/planners/mhaplanner.cpp: replan, expand, extract_path, reinit_state"]}
{"id": "C36", "title": "MHA* respects its suboptimality bound", "statement": "If the anchor heuristic is consistent (the additional ones are arbitrary), the cost reported on success is at most MHA-eps times E times the cost of every path for every integer E >= eps; for integral eps that is the bound reported by get_solution_eps.", "quantifier": "all environments, arbitrary inadmissible additional heuristics, histories, eps values", "why_tests_cant": "quantifies over all graphs, heuristics and all alternative paths", "anchors": ["src/planners/mhaplanner.cpp: replan, expand, compute_key, get_minf"]}
{"id": "C37", "title": "MHA* failure by exhaustion is conclusive", "statement": "If replan fails because the anchor search ran out of states, every path from start to goal costs at least INFINITECOST/E (E integer >= eps): there is no path of ordinary cost.", "quantifier": "all environments with consistent anchor heuristic, all additional heuristics, histories", "why_tests_cant": "absence of any path", "anchors": ["src/planners/mhaplanner.cpp: replan"]}
{"id": "C38", "title": "MHA* expands each state at most twice", "statement": "During one replan no state is expanded more than once by the anchor search or more than once by all additional searches together, none is expanded by an additional search after the anchor search, the goal is never expanded, and only states reachable from the start are.", "quantifier": "all environments, heuristics, histories", "why_tests_cant": "needs an invariant over the interplay of the OPEN lists and closed flags", "anchors": ["src/planners/mhaplanner.cpp: replan, expand, closed_in_anc_search, closed_in_add_search"]}
{"id": "C39", "title": "MHA* terminates, respects its limits and raises only on full heaps", "statement": "The only exception replan can raise is a full heap; with finitely many (R) reachable states the main loop makes at most 2R passes, so with more time it ends by success, exhaustion or the expansion limit; with an expansion limit L and k additional heuristics it makes fewer than L + max(1,k) expansions (unless only the first solution is asked for, when the limit is ignored).", "quantifier": "all environments, heuristics, histories, limits", "why_tests_cant": "termination and absence of exceptions over all runs", "anchors": ["src/planners/mhaplanner.cpp: replan, time_limit_reached, expand, insert_or_update"]}
{"id": "C40", "title": "MHA* may report success without a path, and does not refine", "statement": "A user expects success to come with a path, and the solution to be improved to final_eps while time remains. Witnesses: when the start's anchor heuristic is INFINITECOST (goal unreachable) replan returns success with the goal alone at cost 0; with initial eps 6, final eps 1 and ample time replan returns a path of cost 5 with bound 6 although one of cost 2 exists.", "quantifier": "existence of environments and calls (negative results)", "why_tests_cant": "delimits the previous properties; depends on infinite heuristic values", "anchors": ["src/planners/mhaplanner.cpp: replan, extract_path"]}
{"id": "C41", "title": "2D grid searches are total", "statement": "Whatever searches (maps, thresholds, starts, goals, termination conditions) an SBPL2DGridSearch object has been used for, a further search with the heap ends, raises no exception and reads no cell outside the map; it returns true exactly if the (downsampled) start and goal cells are in the map. Witness: with downsampling, a start at (-1,-1) is accepted.", "quantifier": "all maps, thresholds, cell sizes, downsampling factors and histories of searches (map within heap capacity)", "why_tests_cant": "absence of exceptions, out-of-range reads and endless loops over all histories", "anchors": ["src/utils/2Dgridsearch.cpp: search, search_withheap, getCostT, getCostN", "src/include/sbpl/utils/2Dgridsearch.h: withinMap"]}
{"id": "C42", "title": "2D grid search values are lower bounds, exact below the frontier", "statement": "After a successful search with any termination condition but OPTPATHFOUND, getlowerboundoncostfromstart_inmm of every cell is at most the cost of every sequence of moves (8 king moves and 8 knight moves; cost = length times one plus the largest cell cost touched) from the start, is the cost of an actual sequence whenever it is below getlargestcomputedoptimalf_inmm, and exceeds neither that value nor INFINITECOST. After a rejected search this fails: the bound of the previous search is returned for every cell.", "quantifier": "all maps, cells, starts, goals, termination conditions, histories", "why_tests_cant": "quantifies over all ways through all maps", "anchors": ["src/utils/2Dgridsearch.cpp: search_withheap, computedxy", "src/include/sbpl/utils/2Dgridsearch.h: getlowerboundoncostfromstart_inmm, getlargestcomputedoptimalf_inmm"]}
{"id": "C43", "title": "2D grid search termination conditions keep their promise", "statement": "After such a search the value of the goal is the exact cheapest cost (capped at INFINITECOST), and so is the value of every cell costing less than 1.2, 2 or 3 times the goal (20PERCENTOVEROPTPATH, TWOTIMESOPTPATH, THREETIMESOPTPATH), or of all cells (ALLCELLS) if the cost of the goal is not 0. Witness that the exception is real: ALLCELLS with start = goal computes nothing and every cell is reported as costing 0.", "quantifier": "all maps, cells, starts, goals, histories", "why_tests_cant": "optimality over all ways", "anchors": ["src/utils/2Dgridsearch.cpp: search_withheap", "src/include/sbpl/utils/2Dgridsearch.h: SBPL_2DGRIDSEARCH_TERM_CONDITION"]}
{"id": "C44", "title": "2D A* is exact for whole-millimetre cells only", "statement": "With OPTPATHFOUND and cells a whole number of millimetres wide, the value of the goal is the exact cheapest cost and the value of every cell is a lower bound (unless cost plus heuristic reaches INFINITECOST). With cells of 5/3 mm it is not: on a 3x2 map the goal is reported at 5 although a way of cost 4 exists, because the heuristic is rounded once and the moves are rounded individually.", "quantifier": "all maps, cells, histories; existence of a map for the negative part", "why_tests_cant": "optimality over all ways; the failure needs an unusual cell size", "anchors": ["src/utils/2Dgridsearch.cpp: search_withheap, computedxy", "src/include/sbpl/utils/2Dgridsearch.h: SBPL_2DGRIDSEARCH_HEUR2D, getlowerboundoncostfromstart_inmm"]}
{"id": "C45", "title": "forward and backward 2D searches agree", "statement": "On the same map the cost of the goal found by a search from the start equals the cost of the start found by a search from the goal, whatever the two objects were used for before.", "quantifier": "all maps, starts, goals, histories, termination conditions", "why_tests_cant": "needs the symmetry of all 16 moves, including the cells touched, and optimality of both searches", "anchors": ["src/utils/2Dgridsearch.cpp: computedxy, search_withheap"]}
{"id": "C46", "title": "the sliding bucket queue is a stable priority queue", "statement": "Every history of insert, popminelement, getminelement, getminkey, empty and reset on a new CSlidingBucket gives the answers of a list ordered by priority and, among equal priorities, by age; insert raises an exception exactly if the priority lies outside the window of n priorities starting at the one popped last, or if the bucket's slots are used up; no array is accessed out of range, whether the buckets are allocated at once or grown on demand. getminkey is the smallest priority only after a pop or getminelement (or an insertion at the start of the window); before, it is the start of the window.", "quantifier": "all histories of calls, all bucket numbers, sizes and initial sizes", "why_tests_cant": "unbounded histories; the ring of buckets wraps around", "anchors": ["src/include/sbpl/utils/list.h: CSlidingBucket"]}
{"id": "C47", "title": "2D search with sliding buckets: total, and valid lower bounds", "statement": "With OPEN set to sliding buckets (as the x,y,theta lattice does), an obstacle threshold of at most 254 and cells of at least 1 mm, every search ends, reads no cell outside the map, and raises an exception only if a bucket is full, which cannot happen on maps of at most max(1000, width + height) cells; afterwards every reported value is a lower bound on the cost of every way from the start and is exact below getlargestcomputedoptimalf_inmm. With threshold 255 and cells of cost 254 the search raises 'invalid priority' on a map without obstacles.", "quantifier": "all maps, thresholds, starts, goals, termination conditions, histories", "why_tests_cant": "quantifies over all ways and maps; the bucket window is exceeded by one at a single cost value", "anchors": ["src/utils/2Dgridsearch.cpp: setOPENdatastructure, search_withslidingbuckets", "src/include/sbpl/utils/2Dgridsearch.h: getlowerboundoncostfromstart_inmm", "src/include/sbpl/utils/list.h: CSlidingBucket"]}
{"id": "C48", "title": "2D search with sliding buckets: exact for all cells, but the goal may be under-reported", "statement": "With ALLCELLS and different start and goal cells the value of every cell is the exact cheapest cost. With the other termination conditions even the value of the goal need not be: the frontier value is read from an outdated duplicate entry; witness: a 3x2 map where the goal costs 10 and is reported as 8 (with the heap it is always exact).", "quantifier": "all maps and cells; existence of a map for the negative part", "why_tests_cant": "optimality over all ways; the failure needs a particular order of duplicates", "anchors": ["src/utils/2Dgridsearch.cpp: search_withslidingbuckets"]}
{"id": "C49", "title": "x,y,theta lattice: states and IDs are in bijection", "statement": "With at most 128 headings, GetStateFromCoord and GetCoordFromState are mutually inverse, IDs are 0..n-1, never change their coordinates whatever is called in between, the start and goal IDs have the coordinates last accepted by SetStart and SetGoal, and no call with existing IDs and cells is undefined behaviour; in both state stores (lookup table and hash table). Beyond 128 headings this fails (the heading is a char: coordinates come back different, successors read outside the action table, in large maps each lookup creates a new ID), and so it does for SetStart/SetGoal with the angle half a heading below a full turn (two states share a slot of the lookup table).", "quantifier": "all maps, primitive sets, thresholds, histories of calls", "why_tests_cant": "unbounded histories over two state stores; failures need particular headings", "anchors": ["src/discrete_space_information/environment_navxythetalat.cpp: GetStateFromCoord, GetHashEntry_lookup, GetHashEntry_hash, CreateNewHashEntry_lookup, CreateNewHashEntry_hash, SetStart, SetGoal"]}
{"id": "C50", "title": "x,y,theta lattice: GetSuccs reports exactly the feasible primitives", "statement": "GetSuccs of a state other than the goal reports the i-th primitive of its heading, with its end and a cost, exactly if source, end and the cells the centre crosses are in the map and below the thresholds and, for a polygonal robot whose centre crosses a cell at or above the circumscribed threshold, all swept cells are free; the cost is the primitive's cost times one plus the largest cell cost on the centre's way. Costs are those after all UpdateCost and SetMap calls. Each primitive is reported at most once, in order; the goal has no successors.", "quantifier": "all maps, primitive sets, robots, thresholds, states, histories", "why_tests_cant": "quantifies over all primitive sets and maps", "anchors": ["src/discrete_space_information/environment_navxythetalat.cpp: GetSuccs, GetActionCost, PrecomputeActionswithCompleteMotionPrimitive, UpdateCost, SetMap"]}
{"id": "C51", "title": "x,y,theta lattice: forward and backward search see the same graph", "statement": "GetPreds reports exactly the states from which some primitive leads to the state, with the cost of that primitive; for a source other than the goal, GetSuccs(a) contains b with a cost and action iff GetPreds(b) contains a with this cost and action.", "quantifier": "all maps, primitive sets, pairs of states, histories", "why_tests_cant": "quantifies over all pairs of states and primitive sets (negative end angles, wrap-around)", "anchors": ["src/discrete_space_information/environment_navxythetalat.cpp: GetPreds, GetSuccs, PrecomputeActionswithCompleteMotionPrimitive"]}
{"id": "C52", "title": "x,y,theta lattice: changed edges are reported to incremental planners", "statement": "GetPredsofChangedEdges reports, each once, exactly the existing states with a primitive whose source, end or swept cells (those not covered at the source pose) contain a changed cell; so if centres only cross such cells, every state with an edge that changed is reported. For larger robots it is not: a cell on the centre's way that the robot covers at the source pose is missing; witness: a cost change from 1000 to 5000 is reported for no state.", "quantifier": "all maps, primitive sets, robots, histories, sets of changed cells", "why_tests_cant": "needs all edges, before and after; the failure needs a robot larger than a cell", "anchors": ["src/discrete_space_information/environment_navxythetalat.cpp: GetPredsofChangedEdges, ComputeReplanningDataforAction, ComputeReplanningData"]}
{"id": "C53", "title": "x,y,theta lattice: lazy successors cover the true ones and GetTrueCost completes them", "statement": "Every successor (predecessor) is also a lazy one, by the same action, with a lazy cost not above the true cost. If no two primitives of a heading have the same end, GetTrueCost is the cost GetSuccs reports, -1 exactly for lazy successors that are none, and raises an exception exactly for pairs not connected lazily. With two primitives to the same end it is wrong: only the first is looked at (a larger cost or -1 although GetSuccs reports a cheaper edge).", "quantifier": "all maps, primitive sets, pairs of states, histories", "why_tests_cant": "quantifies over all pairs of states; the failure needs two primitives to the same end", "anchors": ["src/discrete_space_information/environment_navxythetalat.cpp: GetLazySuccs, GetLazyPreds, GetTrueCost"]}
{"id": "C54", "title": "x,y,theta lattice: a path of IDs is turned into its cheapest actions", "statement": "GetActionsFromStateIDPath gives one action per transition, each a cheapest one among those GetSuccs reports for it, and raises an exception exactly if some transition is not reported by GetSuccs.", "quantifier": "all paths, maps, primitive sets, histories", "why_tests_cant": "quantifies over all paths; states are created while the path is treated", "anchors": ["src/discrete_space_information/environment_navxythetalat.cpp: GetActionsFromStateIDPath"]}
{"id": "C55", "title": "x,y,theta lattice: the heuristic between two states", "statement": "GetFromToHeuristic is the straight-line distance over the nominal velocity in whole milliseconds (rounded down), symmetric; if no primitive is faster than the nominal velocity it never exceeds the cost of a path and is consistent (drops by at most the cost along a transition).", "quantifier": "all maps, primitive sets, velocities, pairs of states, histories of calls", "why_tests_cant": "quantifies over all paths and pairs of states; the triangle inequality must survive rounding", "anchors": ["src/discrete_space_information/environment_navxythetalat.cpp: GetFromToHeuristic, EuclideanDistance_m"]}
{"id": "C56", "title": "x,y,theta lattice: goal and start heuristics are admissible while up to date", "statement": "After EnsureHeuristicsUpdated, as long as costs, start and goal are not changed, GetGoalHeuristic (GetStartHeuristic) is 0 at the goal (start), never exceeds the cost of a path to the goal (from the start), and changes along a transition by at most its cost for whole velocities, by at most the cost plus the rounded-up reciprocal of the velocity otherwise; provided every primitive is neither faster than the nominal velocity nor than 2D moves along the cells its centre visits. EnsureHeuristicsUpdated raises only when a bucket of the 2D search is full, never on maps of at most 1000 cells.", "quantifier": "all maps with an inscribed threshold of at most 254, primitive sets, velocities, histories of calls", "why_tests_cant": "quantifies over all paths, and over all interleavings of changes and updates", "anchors": ["src/discrete_space_information/environment_navxythetalat.cpp: GetGoalHeuristic, GetStartHeuristic, EnsureHeuristicsUpdated, UpdateCost, SetMap, SetStart, SetGoal", "src/utils/2Dgridsearch.cpp: search_withslidingbuckets"]}
{"id": "C57", "title": "x,y,theta lattice: where the goal heuristic overestimates", "statement": "The conditions are needed: for a straight primitive in a direction other than the 16 of the 2D search the heuristic exceeds the cost of the primitive (423 for 413, on an empty map); between UpdateCost and the next EnsureHeuristicsUpdated it can be infinite for a reachable goal; and for a velocity of 0.1 it is not consistent.", "quantifier": "existence: three environments", "why_tests_cant": "the failures need particular primitives, velocities or call sequences", "anchors": ["src/discrete_space_information/environment_navxythetalat.cpp: GetGoalHeuristic, EnsureHeuristicsUpdated"]}
{"id": "C58", "title": "x,y,theta lattice: ARA* end to end", "statement": "ARA* run on the x,y,theta lattice (forward or backward, any sequence of planner calls, environment after any history): a reported path leads from start to goal without repeating a state, along valid (collision-free) transitions, of total cost at most the reported cost; when eps is reported as final and some path of cost n exists, a path is found whose cost is at most (eps + (k eps + 1)/m) n with m the cheapest primitive and k the heuristic slack (0 for whole velocities), and optimal for eps = 1 and whole velocities.", "quantifier": "all maps, primitive sets, velocities, planner and environment histories, budgets", "why_tests_cant": "quantifies over all paths and planner runs; depends on the heuristics, the graph and the planner together", "anchors": ["src/discrete_space_information/environment_navxythetalat.cpp: GetSuccs, GetPreds, GetGoalHeuristic, GetStartHeuristic", "src/planners/araplanner.cpp: replan, ImprovePath"]}
{"id": "C59", "title": "Distance transform is exact", "statement": "computeDistancestoNonfreeAreas writes, for every cell, the 8-connected distance (diagonal step 1.414) to the nearest obstacle or cell outside of the map, and the one to the nearest cell that is an obstacle, has a positive cost or is outside; whatever the arrays contained before; nothing outside of the map is written.", "quantifier": "all maps, sizes, thresholds, previous array contents", "why_tests_cant": "quantifies over all maps and all cells; the two-pass propagation must reach the minimum over all paths", "anchors": ["src/utils/utils.cpp: computeDistancestoNonfreeAreas"]}
{"id": "C60", "title": "Point-in-footprint test is exact on convex polygons", "statement": "IsInsideFootprint returns true exactly for the points of a strictly convex polygon (interior, plus the sides going up or horizontally to the left in counterclockwise order); for every polygon the answer does not depend on the first vertex, the orientation or a common translation, is false outside of the bounding box, and adds up (exclusive or) along a diagonal; an empty polygon raises an exception.", "quantifier": "all polygons with any number of vertices, all points", "why_tests_cant": "quantifies over all polygons and points, including those level with a vertex or on a side", "anchors": ["src/utils/utils.cpp: IsInsideFootprint"]}
{"id": "C61", "title": "Footprint cells contain a gapless outline and all that it encloses", "statement": "get_2d_footprint_cells ends for every polygon and pose; each side is drawn as a chain of edge-adjacent cells within one cell of the line; the result contains the outline and every cell of the bounding box that cannot reach the outside by 8-connected moves, nothing outside of the bounding box and, unless the search queue was full, nothing that can reach the outside. get_2d_motion_cells gives exactly the later cells not in the first footprint. A polygon of at most one vertex gives exactly the cell of the position. Cells are not those covered by the robot: vertices are rounded to the nearest integer while cells are floors, so covered cells can be missing.", "quantifier": "all polygons, poses, resolutions, initial array contents", "why_tests_cant": "quantifies over all polygons and all escape paths; leaks would need particular slopes", "anchors": ["src/utils/utils.cpp: get_2d_footprint_cells, get_2d_motion_cells", "src/include/sbpl/utils/sbpl_bfs_2d.h: compute_distance_from_point"]}
{"id": "C62", "title": "Adjacency-list environment is the undirected graph of its history", "statement": "After any sequence of addPoint (of a new point), removeLastPoints, setCost (of two different points), setStartState and setGoalState, hasPoint is true exactly for the points added and not removed, and GetSuccs of a point other than the goal lists every neighbour exactly once, with the cost set last; edges are symmetric and disappear with their points. (Outside of these: a point added twice is lost when its copy is removed; removing a point that has an edge to itself uses an erased list element.)", "quantifier": "all histories of calls, all point types, any number of points and edges", "why_tests_cant": "quantifies over all call histories; removal has to clean up lists of other points", "anchors": ["src/include/sbpl/discrete_space_information/environment_precomputed_adjacency_list.h: addPoint, hasPoint, removeLastPoints, setCost, GetSuccs"]}
{"id": "C63", "title": "findOptimalPath of the adjacency-list environment is correct end to end", "statement": "After any such history, with edge costs of at least 1 and a consistent heuristicDistanceTo: the points returned form a path of the graph from start to goal without repetition whose cost is at most the reported one; when the planner reports eps 1 the reported cost is minimal over all paths; and nothing is found although the time was not over only if there is no path cheaper than INFINITECOST.", "quantifier": "all histories, graphs, heuristics, time budgets", "why_tests_cant": "quantifies over all graphs, all alternative paths and all interruption points of the planner", "anchors": ["src/include/sbpl/discrete_space_information/environment_precomputed_adjacency_list.h: findOptimalPath", "src/planners/araplanner.cpp: replan"]}
{"id": "C64", "title": "AD*: a returned path is a path", "statement": "Whenever AD* replan reports success, the returned states lead from the start to the goal of the current environment, without repetition, along edges the environment lists, at a total cost of at most the reported one (only a solution costing more than 100000 may come back with an empty path). A replan without success returns an empty path and no bound. Holds after any sequence of set_start, set_goal, costs_changed (with every changed state listed), parameter changes and earlier replans cut short at any point.", "quantifier": "all environments with positive costs and consistent heuristics, both search directions, all histories, time limits", "why_tests_cant": "quantifies over histories of incremental repairs and over all interruptions", "anchors": ["src/planners/adplanner.cpp: replan, Search, ComputePath, GetSearchPath, ReconstructPath, Update_SearchSuccs_of_ChangedEdges"]}
{"id": "C65", "title": "AD*: the reported suboptimality bound holds after incremental repairs", "statement": "When AD* replan reports the bound eps, the reported cost is at most E times the cost of every path of the current environment for every integer E >= eps, and at most (eps + 1/m) times it when every edge costs at least m; also after costs_changed repaired the search incrementally (over- and underconsistent states), provided no edge appeared towards a state that was not visited before.", "quantifier": "all environments with positive costs and consistent heuristics, both directions, all histories and time limits, all paths", "why_tests_cant": "quantifies over all paths and all repair histories", "anchors": ["src/planners/adplanner.cpp: ComputePath, UpdateSetMembership, Recomputegval, costs_changed"]}
{"id": "C66", "title": "AD*: failure without a time-out means there is no path", "statement": "If AD* replan reports failure although no pass was cut short, every path from start to goal costs at least INFINITECOST/E, E the largest eps requested.", "quantifier": "all environments, histories, both directions", "why_tests_cant": "a missed path would need one particular repair history", "anchors": ["src/planners/adplanner.cpp: ComputePath, Search"]}
{"id": "C67", "title": "AD*: at most two expansions per state and pass", "statement": "No pass (ComputePath call) expands a state more than twice, whatever happened before.", "quantifier": "all environments, histories, states, passes", "why_tests_cant": "repeated expansions depend on the order of cost changes", "anchors": ["src/planners/adplanner.cpp: ComputePath, UpdateSetMembership"]}
{"id": "C68", "title": "AD*: long solutions are lost", "statement": "A path returned by AD* replan never has more than 100000 steps; if every path from start to goal has more, a successful replan (return value 1, finite cost) returns an empty path.", "quantifier": "all planner states; all environments whose solutions are long", "why_tests_cant": "needs solutions of more than 100000 steps", "anchors": ["src/planners/adplanner.cpp: GetSearchPath, ReconstructPath"]}
{"id": "C69", "title": "AD*: no internal error", "statement": "After any covered history, replan and costs_changed raise no exception other than that of a full heap or list: no consistent state is expanded, no state inserted twice or removed while absent, no back pointer missing, no underconsistent or non-decreasing state on the extracted path.", "quantifier": "all environments, histories, time limits", "why_tests_cant": "quantifies over histories; the checks in the code guard states tests do not reach", "anchors": ["src/planners/adplanner.cpp: ComputePath, ReconstructPath, GetSearchPath, UpdateSetMembership"]}
{"id": "C70", "title": "AD*: the final eps is reached", "statement": "If no pass is cut short and enough passes are allowed, AD* replan ends with the requested final eps satisfied or reports that there is no path.", "quantifier": "all environments, histories, eps parameters", "why_tests_cant": "liveness over an unbounded number of passes", "anchors": ["src/planners/adplanner.cpp: Search"]}
{"id": "C71", "title": "AD*: newly opened ways are missed", "statement": "Refuted expectation: after costs_changed with a complete list of changed states, replan may report failure although a path exists and no time limit was hit, when the change opened edges towards states not visited before (such states are skipped).", "quantifier": "existence: an environment and a history", "why_tests_cant": "needs a particular change after a particular search", "anchors": ["src/planners/adplanner.cpp: Update_SearchSuccs_of_ChangedEdges, costs_changed"]}
{"id": "C72", "title": "AD*: moving the goal of a forward search is unsafe", "statement": "Refuted expectation: in a forward search with an absorbing goal (as in all bundled grid environments), a cost increase of the state that is currently the goal is not passed on to the states behind it; after the goal is moved back, replan raises the exception 'g-values are non-decreasing'.", "quantifier": "existence: an environment and a history", "why_tests_cant": "needs a particular sequence of goal changes and cost changes", "anchors": ["src/planners/adplanner.cpp: SetSearchGoalState, UpdateSuccsofUnderconsState, ReconstructPath"]}
{"id": "C73", "title": "AD* on the 2D grid: repairs break when the map gets worse", "statement": "Refuted expectation: on a free 20x20 map of the 2D grid environment (whose heuristic overestimates by rounding), after a cell on the path becomes dearer and a complete list of changed cells is passed to costs_changed, replan raises an exception; if the cell becomes an obstacle, replan reports success with bound 1, the old cost and an empty path, although a way around exists.", "quantifier": "existence: a map and a change", "why_tests_cant": "needs a map large enough for the rounding to matter and one particular change", "anchors": ["src/planners/adplanner.cpp: ComputePath, ReconstructPath, GetSearchPath", "src/discrete_space_information/environment_nav2D.cpp: GetFromToHeuristic"]}
{"id": "C74", "title": "Lazy ARA*: the path exists", "statement": "If no pass of a forward LazyARAPlanner was ended by the clock, a path reported leads from the start to the goal over edges that exist (listed with a true cost, or evaluated by GetTrueCost to a positive cost); the reported cost is the sum of the smallest listed costs along the path, so, if listed costs are lower bounds, it is at most the real cost. With return_first_solution no pass is ended by the clock. If a pass was ended by the clock this holds for all edges but the last, which is at least listed.", "quantifier": "all environments (changing between calls), histories of set_start/set_goal/replan/parameter changes, time limits, implementations of the priority queue", "why_tests_cant": "quantifies over histories, clocks and the order in which edges are evaluated", "anchors": ["src/planners/lazyARA.cpp: ImprovePath, EvaluateState, insertLazyList, getNextLazyElement, GetSearchPath, Search, replan"]}
{"id": "C75", "title": "Lazy ARA*: initial eps bounds the real cost", "statement": "Forward LazyARAPlanner, listed costs are lower bounds, consistent heuristic, no pass ended by the clock: the real cost of the path returned is at most initial eps times the cost of every path over existing edges, and a path is found whenever one of cost below INFINITECOST / eps exists.", "quantifier": "all environments, histories, eps parameters, priority queues", "why_tests_cant": "optimality over all paths; unevaluated edges may turn out invalid in any order", "anchors": ["src/planners/lazyARA.cpp: ImprovePath, putStateInHeap, prepareNextSearchIteration, Search"]}
{"id": "C76", "title": "Lazy ARA*: with true costs the reported eps is a bound", "statement": "Forward LazyARAPlanner in an environment whose lazy lists contain true costs only: for any time limits, the path's cost is at most the reported eps times that of every path.", "quantifier": "all environments without unevaluated edges, histories, time limits", "why_tests_cant": "optimality over all paths, any interruption", "anchors": ["src/planners/lazyARA.cpp: ImprovePath, Search, prepareNextSearchIteration"]}
{"id": "C77", "title": "Lazy ARA*: no state is expanded twice in a pass", "statement": "No ImprovePath call of LazyARAPlanner expands a state twice, and none expands the search goal.", "quantifier": "all environments, histories, passes", "why_tests_cant": "quantifies over all runs", "anchors": ["src/planners/lazyARA.cpp: ImprovePath, putStateInHeap"]}
{"id": "C78", "title": "Lazy ARA*: exceptions", "statement": "LazyARAPlanner's replan raises no exception other than that of a full heap: no consistent state is expanded, no back pointer missing, no state inserted twice (heuristic value of the goal 0, fewer than 65534 replan calls, fewer than 65535 passes in a call).", "quantifier": "all environments, histories, time limits", "why_tests_cant": "quantifies over all runs", "anchors": ["src/planners/lazyARA.cpp: ImprovePath, EvaluateState, insertLazyList, GetSearchPath"]}
{"id": "C79", "title": "Lazy ARA*: start and goal are used up", "statement": "A replan call of LazyARAPlanner that had both a start and a goal forgets both: any later replan without both being set again returns failure immediately and changes nothing.", "quantifier": "all environments, histories", "why_tests_cant": "quantifies over histories", "anchors": ["src/planners/lazyARA.cpp: replan, set_start, set_goal"]}
{"id": "C80", "title": "Lazy ARA*: backward search plans the wrong way round", "statement": "Refuted expectation: with forward_search = false the IDs are exchanged twice; a path found is, read in the order returned, a path from the goal to the start. In a one-way street from goal to start a path is reported although the goal cannot be reached; in one from start to goal none is found.", "quantifier": "all environments with a start heuristic that is 0 at the goal, histories; existence for the witnesses", "why_tests_cant": "needs directed graphs; a statement about all runs", "anchors": ["src/planners/lazyARA.cpp: set_goal, set_start, initializeSearch, replan, GetSearchPath"]}
{"id": "C81", "title": "Lazy ARA*: success with an edge that does not exist when time runs out", "statement": "Refuted expectation: if the clock ends a pass, LazyARAPlanner may report a path, together with an eps bound, although the goal is unreachable: the last edge has not been evaluated.", "quantifier": "existence: an environment and a time limit", "why_tests_cant": "needs the clock to expire at one particular moment", "anchors": ["src/planners/lazyARA.cpp: ImprovePath, outOfTime, Search, GetSearchPath"]}
{"id": "C82", "title": "Lazy ARA*: reported cost below the real cost", "statement": "Refuted expectation: the cost reported by LazyARAPlanner is computed from the listed costs, so it may be far below the real cost of the path (1 instead of 100) even with unlimited time.", "quantifier": "existence: an environment", "why_tests_cant": "needs listed costs that differ from the true ones", "anchors": ["src/planners/lazyARA.cpp: GetSearchPath"]}
{"id": "C83", "title": "Lazy ARA*: reported eps is not a bound", "statement": "Refuted expectation: with unlimited time, lower bounds as listed costs and a consistent heuristic, LazyARAPlanner may report eps = 1 for a path of real cost 10 although one of cost 8 exists, because values inside its priority queues (libstdc++ std::priority_queue) change after insertion.", "quantifier": "existence: an environment", "why_tests_cant": "needs a particular interplay of three passes and the queue's internal order", "anchors": ["src/planners/lazyARA.cpp: ImprovePath, getNextLazyElement, insertLazyList", "src/include/sbpl/planners/lazyARA.h: LazyListElement::operator<"]}
{"id": "C84", "title": "Lazy ARA*: out-of-date heuristic of the goal", "statement": "Refuted expectation: LazyARAPlanner reads the heuristic value of the goal before it calls EnsureHeuristicsUpdated; if that value is out of date, a path over an edge that does not exist may be reported as optimal although time is unlimited and the heuristic in force is consistent.", "quantifier": "existence: an environment", "why_tests_cant": "needs heuristics that change between calls", "anchors": ["src/planners/lazyARA.cpp: initializeSearch, GetState, ImprovePath"]}
{"id": "C85", "title": "Lazy ARA*: terminates, and reaches final_eps, given enough time", "statement": "If the start, the goal and everything reachable from the start by listed edges are finitely many states, LazyARAPlanner's passes terminate: a number of loop turns that depends only on the number of states, edges and passes is never exceeded. So with return_first_solution replan terminates whatever the time limit, and with a long enough time limit no pass is ended by the clock, a path within the initial eps is found whenever one (cheaper than INFINITECOST / eps) exists, and with enough passes the reported eps is at most final_eps.", "quantifier": "all environments with finitely many reachable states, histories, eps parameters, priority queues", "why_tests_cant": "termination over all graphs and all outcomes of edge evaluation", "anchors": ["src/planners/lazyARA.cpp: ImprovePath, EvaluateState, insertLazyList, getNextLazyElement, Search, outOfTime"]}
{"id": "C86", "title": "ANA*: returned path exists", "statement": "Whenever anaPlanner::replan reports success, the returned state IDs form a path from the start to the goal of the environment as it is now, without repeated states, whose cost is at most the reported cost, which is below INFINITECOST; otherwise the path is empty. No replan may have been made after a change of the searched-towards state without a restart (C92), and a restarted search needs time for one check of the main loop (C93).", "quantifier": "all environments with positive costs, heuristics, both search directions, histories of interface calls and time limits", "why_tests_cant": "any graph, any history of calls and any moment at which the clock expires", "anchors": ["src/planners/ANAplanner.cpp: replan, Search, ImprovePath, GetSearchPath, ReconstructPath, UpdateSuccs, UpdatePreds"]}
{"id": "C87", "title": "ANA*: exceptions of replan", "statement": "Once start and goal are set, the only exception anaPlanner::replan can raise is that of a full heap: none of its consistency checks fails and path extraction ends.", "quantifier": "all environments with positive costs, heuristics, histories and time limits (as for C86)", "why_tests_cant": "absence of exceptions over all histories", "anchors": ["src/planners/ANAplanner.cpp: replan, ReconstructPath, GetSearchPath", "src/utils/heap.cpp: CHeap"]}
{"id": "C88", "title": "ANA*: get_solution_eps is a true bound", "statement": "With an admissible heuristic the value of get_solution_eps after replan is at least 1, and the reported cost is at most that value times the cost of every path from start to goal, whenever the search was interrupted.", "quantifier": "all environments with positive costs and admissible heuristics, histories and time limits (as for C86)", "why_tests_cant": "quantifies over all paths and interruption points", "anchors": ["src/planners/ANAplanner.cpp: Search (eps_satisfied), get_e_value, ImprovePath"]}
{"id": "C89", "title": "ANA*: optimal and complete given enough time", "statement": "If finitely many states are reachable, the heuristic is admissible and the time is long enough (a number of loop checks that depends only on the number of states), the goal is found iff a path cheaper than INFINITECOST exists, and the reported cost is optimal; in first-solution mode the goal is still found iff it can be reached.", "quantifier": "all environments with positive costs, finitely many reachable states, admissible heuristics; all histories", "why_tests_cant": "termination and optimality over all graphs, although expanded states are re-expanded and OPEN is pruned", "anchors": ["src/planners/ANAplanner.cpp: Search, ImprovePath, UpdateSuccs, UpdatePreds"]}
{"id": "C90", "title": "ANA*: anytime monotonicity", "statement": "A second replan right after the first never loses the solution and never reports a higher cost; with a consistent heuristic its suboptimality bound is not higher either.", "quantifier": "all environments with positive costs, histories, pairs of time limits", "why_tests_cant": "all pairs of interruption points", "anchors": ["src/planners/ANAplanner.cpp: Search, ImprovePath"]}
{"id": "C91", "title": "ANA*: which states are expanded", "statement": "anaPlanner never expands the state it searches towards, and every state it expands can be reached in the search graph.", "quantifier": "all environments with positive costs, heuristics, histories and time limits", "why_tests_cant": "all graphs and histories", "anchors": ["src/planners/ANAplanner.cpp: ImprovePath"]}
{"id": "C92", "title": "ANA*: changing the goal without a restart", "statement": "Refuted expectation: after set_goal of a forward anaPlanner (set_start of a backward one) the search goes on without a restart: replan may report that there is no path to the new goal, however much time it has, although there is one; and it may return a path over an edge removed before an earlier costs_changed.", "quantifier": "existence: environments and histories; all time limits", "why_tests_cant": "needs particular sequences of calls", "anchors": ["src/planners/ANAplanner.cpp: SetSearchGoalState, set_goal, Search"]}
{"id": "C93", "title": "ANA*: expired time, stale bound, zero-cost edges", "statement": "Refuted expectations: (a) a replan whose time is over before its first check, made after costs_changed, may report success with the cost of before the change, or raise an exception; (b) get_solution_eps may stay INFINITECOST for ever after the search has ended with an optimal solution; (c) a goal reached over an edge of cost 0 makes replan raise an exception.", "quantifier": "existence: environments and histories; (b) for all later calls", "why_tests_cant": "needs particular sequences of calls and moments", "anchors": ["src/planners/ANAplanner.cpp: Search, ReInitializeSearchStateSpace, ReconstructPath"]}
{"id": "C94", "title": "ANA* on the (x, y, theta) lattice", "statement": "With an EnvironmentNAVXYTHETALAT after any history of UpdateCost, GetStateFromCoord, ... calls, a path returned by anaPlanner is a sequence of different lattice poses from start to goal joined by motion primitives that are valid with the current costs, not dearer than the reported cost; the reported cost is at most get_solution_eps times the cost of every walk over the lattice; with enough time the goal is found iff reachable and the path is optimal.", "quantifier": "all maps, footprints, primitives, histories of environment and planner calls, time limits, both search directions", "why_tests_cant": "all maps and histories", "anchors": ["src/planners/ANAplanner.cpp: replan", "src/discrete_space_information/environment_navxythetalat.cpp: GetSuccs, GetPreds, GetGoalHeuristic, GetStartHeuristic"]}
{"id": "C95", "title": "AD* on the (x, y, theta) lattice, with the environment's own report of changed states", "statement": "When the costs of cells of an EnvironmentNAVXYTHETALAT change and the states reported by GetPredsofChangedEdges for the changed cells are handed to costs_changed / update_preds_of_changededges of a backward ADPlanner, every path it reports afterwards is valid with the new costs and its cost is within the reported eps of the cost of every walk over the lattice with the new costs (as long as no passage opens at a state never visited, see the AD* property on incremental changes).", "quantifier": "all maps, footprints, primitives, cost changes, histories of environment and planner calls, time limits", "why_tests_cant": "all maps and histories of changes", "anchors": ["src/planners/adplanner.cpp: costs_changed, Update_SearchSuccs_of_ChangedEdges, replan", "src/discrete_space_information/environment_navxythetalat.cpp: GetPredsofChangedEdges, UpdateCost"]}
{"id": "C96", "title": "R*: returned paths", "statement": "After any history of set_start, set_goal, costs_changed, force_planning_from_scratch, set_search_mode and replan calls, whenever a replan of RSTARPlanner with start different from goal reports success, the returned path is a path of the current graph: for a backward search it leads from the start to the goal, and the reported cost is the sum of its edge costs; for a forward search the start state followed by the returned list without its last entry is such a path. This holds whatever the environment's AreEquivalent and random successors return.", "quantifier": "all environments with positive costs, heuristics, equivalences, random successors, histories, time limits, both directions", "why_tests_cant": "all graphs, random choices and histories", "anchors": ["src/planners/rstarplanner.cpp: replan, Search, ImprovePath, ComputeLocalPath, GetSearchPath"]}
{"id": "C97", "title": "R*: no invalid memory access", "statement": "With start different from goal no history of interface calls makes replan of RSTARPlanner dereference a null pointer or use an action it has already deleted, even when deadlines expire at arbitrary points.", "quantifier": "all environments with positive costs, equivalences, random successors, histories, time limits, both directions", "why_tests_cant": "all graphs, random choices, moments at which the time runs out and histories", "anchors": ["src/planners/rstarplanner.cpp: ReInitializeSearchStateInfo, SetBestPredecessor, GetSearchPath, ImprovePath"]}
{"id": "C98", "title": "R*: no exception", "statement": "If AreEquivalent relates a state only to itself, costs are positive and every path cost of the reachable graph stays below INFINITECOST, none of the internal consistency checks of RSTARPlanner fails: replan raises no exception other than a full heap.", "quantifier": "all such environments, random successors, histories, time limits, both directions", "why_tests_cant": "all graphs, random choices and histories", "anchors": ["src/planners/rstarplanner.cpp: ImprovePath, ComputeLocalPath, GetSearchPath"]}
{"id": "C99", "title": "R*: form of forward paths", "statement": "Refuted expectation: a path returned by a forward search of RSTARPlanner never begins with the start state, and lists the goal twice at its end.", "quantifier": "all environments with positive costs and all histories", "why_tests_cant": "all graphs and histories", "anchors": ["src/planners/rstarplanner.cpp: GetSearchPath"]}
{"id": "C100", "title": "R*: start equal to goal", "statement": "Refuted expectation: if start and goal are the same state, replan of RSTARPlanner does not return: it dereferences a null pointer (or fills the heap, or goes on for ever), unless its time is over at the start.", "quantifier": "all environments with identity equivalence and small costs, all histories", "why_tests_cant": "all graphs and histories", "anchors": ["src/planners/rstarplanner.cpp: ImprovePath, Search, GetSearchPath"]}
{"id": "C101", "title": "R*: incompleteness", "statement": "Refuted expectation: RSTARPlanner may report that there is no solution, with unlimited time and although the random successors it drew include a path to the goal.", "quantifier": "existence: environment, random successors", "why_tests_cant": "needs a particular graph and random choice", "anchors": ["src/planners/rstarplanner.cpp: ImprovePath, Search"]}
{"id": "C102", "title": "R*: coarse equivalence", "statement": "Refuted expectation: with an AreEquivalent that is reflexive and symmetric but relates different states, replan of RSTARPlanner may raise an exception about its own bookkeeping.", "quantifier": "existence: environment", "why_tests_cant": "needs a particular graph and equivalence", "anchors": ["src/planners/rstarplanner.cpp: ComputeLocalPath, ImprovePath", "src/discrete_space_information/environment_robarm.cpp: AreEquivalent"]}
{"id": "C103", "title": "EvaluatePolicy: no spurious exception, full policies", "statement": "For a policy (different state IDs, one action per state whose outcomes exist, probabilities adding up to 1, costs not negative) EvaluatePolicy never raises an exception - in particular not 'val is decreasing' - and reports the policy as full exactly if every state except the goal has an action.", "quantifier": "all policies, start and goal states", "why_tests_cant": "all policies", "anchors": ["src/utils/utils.cpp: EvaluatePolicy", "src/include/sbpl/utils/mdp.h: CMDP"]}
{"id": "C104", "title": "EvaluatePolicy: accuracy of the value", "statement": "For a full policy the reported value is never more than the expected cost of following the policy to the goal, and falls short of it by at most a tenth of the expected number of steps.", "quantifier": "all full policies, including cyclic ones", "why_tests_cant": "all policies; the expected cost is a limit", "anchors": ["src/utils/utils.cpp: EvaluatePolicy", "src/include/sbpl/utils/mdp.h: CMDP"]}
{"id": "C105", "title": "EvaluatePolicy: when it returns", "statement": "For a full policy in which the goal can be reached from every state EvaluatePolicy returns. Refuted expectation: if every step costs at least 1 and the goal cannot be reached from some state of the policy - even one that is not reachable from the start - it never returns.", "quantifier": "all full policies", "why_tests_cant": "termination", "anchors": ["src/utils/utils.cpp: EvaluatePolicy", "src/include/sbpl/utils/mdp.h: CMDP"]}
{"id": "C106", "title": "EvaluatePolicy: exact for certain outcomes", "statement": "If every action has one certain outcome, the value reported for a full policy is exactly the cost of following it.", "quantifier": "all full deterministic policies", "why_tests_cant": "all policies", "anchors": ["src/utils/utils.cpp: EvaluatePolicy", "src/include/sbpl/utils/mdp.h: CMDP"]}
{"id": "C107", "title": "EvaluatePolicy: merges and cycles", "statement": "For a full policy the reported number of merges is the sum over the states other than the goal of (number of outcomes leading there minus one, if any), and cycles are reported exactly if some state can be reached from itself in one or more steps (provided the caller's flag was false before).", "quantifier": "all full policies", "why_tests_cant": "all policies", "anchors": ["src/utils/utils.cpp: EvaluatePolicy", "src/include/sbpl/utils/mdp.h: CMDP"]}
{"id": "C108", "title": "EvaluatePolicy: probability of the goal for ordered states", "statement": "If every outcome of a state is listed after the state, the reported probability of the goal is the probability that the policy reaches it from the start.", "quantifier": "all full policies listed in such an order", "why_tests_cant": "all policies", "anchors": ["src/utils/utils.cpp: EvaluatePolicy", "src/include/sbpl/utils/mdp.h: CMDP"]}
{"id": "C109", "title": "EvaluatePolicy: probability of the goal depends on the order", "statement": "Refuted expectation: for a full policy without cycles that reaches the goal with certainty the reported probability of the goal may be 0, if the states are listed in another order.", "quantifier": "existence", "why_tests_cant": "needs a particular order of the states", "anchors": ["src/utils/utils.cpp: EvaluatePolicy", "src/include/sbpl/utils/mdp.h: CMDP"]}
{"id": "C110", "title": "Robot arm: collision checking is exact and safe", "statement": "EnvironmentROBARM accepts a configuration exactly if every link begins and ends in the map and no cell of the digital line between the cells of its ends has an obstacle (each cell of the line is within half a cell of the straight line); the check never reads outside the map and always ends; the end effector of an accepted configuration is in a free cell of the map.", "quantifier": "all maps, arms, configurations", "why_tests_cant": "all geometries", "anchors": ["src/discrete_space_information/environment_robarm.cpp: IsValidCoord, IsValidLineSegment, ContXY2Cell, ComputeEndEffectorPos"]}
{"id": "C111", "title": "Robot arm: initialisation and heuristic tables", "statement": "InitializeEnv returns false exactly if the start configuration collides or the goal cell is outside the map. On square maps the 2D heuristic tables contain for each pair of cells the exact least number of moves between adjacent free cells. Refuted expectation: on every map that is not square memory is corrupted (wider than high) or uninitialised memory is used (higher than wide).", "quantifier": "all maps and start configurations", "why_tests_cant": "all maps; memory errors", "anchors": ["src/discrete_space_information/environment_robarm.cpp: InitializeEnvironment, ComputeHeuristicValues, Create2DStateSpace, Search2DwithQueue"]}
{"id": "C112", "title": "Robot arm: successors and state IDs", "statement": "In every history of GetSuccs calls: GetSuccs lists, with cost 1, exactly the states of the valid configurations obtained by turning one joint one step; state IDs keep their meaning and identify configurations, except that all configurations with the end effector in the goal cell are the goal state, which has no successors.", "quantifier": "all maps, arms, histories of calls", "why_tests_cant": "all histories", "anchors": ["src/discrete_space_information/environment_robarm.cpp: GetSuccs, GetHashEntry, CreateNewHashEntry, cost"]}
{"id": "C113", "title": "Robot arm: consistent heuristic", "statement": "GetFromToHeuristic towards any state decreases by at most the cost along every edge and GetGoalHeuristic is 0 at the goal, in every history of calls, provided one step of a joint moves its link by at most one cell and the configuration with all joints 0 is harmless (the start, colliding, or at the goal).", "quantifier": "all maps, arms, histories, states", "why_tests_cant": "all maps and histories", "anchors": ["src/discrete_space_information/environment_robarm.cpp: GetFromToHeuristic, GetGoalHeuristic, ComputeHeuristicValues"]}
{"id": "C114", "title": "Robot arm: the configuration with all joints 0, edge costs, equivalence", "statement": "Refuted expectations: (1) the valid configuration with all joints 0 is taken for the goal wherever its end effector is, so a plan may exist although no configuration has its end effector in the goal cell; (2) GetEdgeCost is 1 for any two states other than the goal, adjacent or not. AreEquivalent holds exactly for states whose end effectors are in the same cell.", "quantifier": "existence (1), all histories and states (2, AreEquivalent)", "why_tests_cant": "needs a particular arm and map; all histories", "anchors": ["src/discrete_space_information/environment_robarm.cpp: InitializeEnvironment, GetEdgeCost, AreEquivalent"]}
{"id": "C115", "title": "Robot arm: angle discretisation", "statement": "With exact real arithmetic DiscretizeAngles chooses steps for which one step of a joint, the step from the last value back to 0 included, moves the end of the link by at most one cell width in x and in y (for links of at least half a cell, the hairline case of its rounding constant excluded).", "quantifier": "all cell sizes and link lengths", "why_tests_cant": "real numbers, trigonometry", "anchors": ["src/discrete_space_information/environment_robarm.cpp: DiscretizeAngles, ComputeContAngles"]}
{"id": "C116", "title": "Robot arm: plans are motions", "statement": "When replan of a forward ARAPlanner on the robot arm succeeds, the returned states are a motion from the start configuration: every configuration is collision-free, each results from the one before by turning one joint one step, and the end effector ends in the goal cell (or all joints are 0); the number of moves is at most the reported cost.", "quantifier": "all arms, maps, histories of planner calls, time limits", "why_tests_cant": "all histories", "anchors": ["src/discrete_space_information/environment_robarm.cpp: GetSuccs, GetGoalHeuristic", "src/planners/araplanner.cpp: replan"]}
{"id": "C117", "title": "Robot arm: plans are near-optimal and failures definite", "statement": "When replan of a forward ARAPlanner on the robot arm reports the bound eps and some motion of at least one move reaches the goal cell, a plan is found with at most ceil(eps) times the number of moves of every such motion (optimal for eps = 1). If it fails without a timeout, every such motion has at least INFINITECOST / E moves, E being the largest eps requested. Same provisos as for the heuristic.", "quantifier": "all arms, maps, histories of planner calls", "why_tests_cant": "all histories; optimality", "anchors": ["src/discrete_space_information/environment_robarm.cpp: GetSuccs, GetGoalHeuristic", "src/planners/araplanner.cpp: replan"]}
{"id": "C118", "title": "Robot arm: start angles", "statement": "A start angle from 0 to just beyond a full turn is converted to a joint value at most half a step away (cyclically), and the angle of a value back to this value. Refuted expectation: negative angles of more than 3/2 steps and angles beyond a full turn become values above the joint's number of values.", "quantifier": "all angles and steps", "why_tests_cant": "real numbers", "anchors": ["src/discrete_space_information/environment_robarm.cpp: ComputeCoord"]}
{"id": "C119", "title": "Robot arm: random successors for R*", "statement": "GetRandomSuccsatDistance, for all random numbers and in every history: if every joint has at least 30 values, every listed state is the goal or the state of a valid configuration with every joint at most 30 steps and the end effector at most 30 cells away, and its CLow is at most the number of moves of every motion there. Refuted expectation: a joint with fewer values may get a value above its number of values.", "quantifier": "all arms, maps, histories, random numbers", "why_tests_cant": "all random numbers", "anchors": ["src/discrete_space_information/environment_robarm.cpp: GetRandomSuccsatDistance"]}
{"id": "C120", "title": "Value iteration: values are lower bounds", "statement": "In every history of replan calls of a VIPlanner with a consistent heuristic, the value of a state is at least the heuristic and at most the expected cost of every plan or policy that reaches the goal with probability 1 from it; more generally at most the expected cost of any plan plus the expected value of the state where it ends.", "quantifier": "all decision processes, consistent heuristics, histories, states, plans (history-dependent) and policies", "why_tests_cant": "all policies and histories; infinite horizon", "anchors": ["src/planners/viplanner.cpp: backup, perform_iteration_forward, replan"]}
{"id": "C121", "title": "Value iteration: replan returns", "statement": "On a finite state space replan of a new VIPlanner returns when the allocated time is over. Refuted expectation: it returns 1 whether or not a policy was found and never fills the solution vector, although the header says the policy is returned in it.", "quantifier": "all finite decision processes, time limits", "why_tests_cant": "all inputs; termination", "anchors": ["src/planners/viplanner.cpp: replan, perform_iteration_forward, PrintPolicy"]}
{"id": "C122", "title": "Value iteration: converged policies", "statement": "If replan of a new VIPlanner stops because the values have converged, every state that can be met under its policy is the goal or has an action; if all costs are at least 1 the policy reaches the goal with probability 1 (not reached after k steps: at most (50/49)value/k) and its expected cost is at most 50/49 of the cost of any policy that reaches the goal with probability 1.", "quantifier": "all decision processes with costs of at least 1, consistent heuristics, time limits", "why_tests_cant": "optimality over all policies", "anchors": ["src/planners/viplanner.cpp: backup, perform_iteration_forward, replan", "src/include/sbpl/planners/viplanner.h: MDP_ERRDELTA"]}
{"id": "C123", "title": "Value iteration: unreachable goals", "statement": "Refuted expectation: if the goal cannot be reached from the start state, replan of a new VIPlanner never stops before its time is over, and then returns 1.", "quantifier": "all decision processes with costs of at least 1 whose goal is unreachable", "why_tests_cant": "all inputs; never terminates", "anchors": ["src/planners/viplanner.cpp: replan, backup"]}
{"id": "C124", "title": "Value iteration: convergence", "statement": "If the goal can be reached, with positive probability, from every state of a finite state space, replan of a new VIPlanner converges after finitely many passes.", "quantifier": "all such decision processes", "why_tests_cant": "termination for all inputs", "anchors": ["src/planners/viplanner.cpp: replan, perform_iteration_forward"]}
{"id": "C125", "title": "Value iteration: policy and its evaluation", "statement": "PrintPolicy hands to EvaluatePolicy exactly the states that can be met under the best actions, each once with its best action; after convergence (costs at least 1) the evaluation returns and reports a full policy of value at most 50/49 of the value of the start state.", "quantifier": "all decision processes", "why_tests_cant": "all inputs", "anchors": ["src/planners/viplanner.cpp: PrintPolicy", "src/utils/utils.cpp: EvaluatePolicy"]}
{"id": "C126", "title": "Value iteration: several planners in one process", "statement": "Refuted expectation: after one VIPlanner has converged, replan of every other VIPlanner (for whatever problem) does nothing and returns 1, because the largest change is kept in a static variable.", "quantifier": "all problems", "why_tests_cant": "state shared between planners", "anchors": ["src/planners/viplanner.cpp: g_belldelta, replan"]}
{"id": "C127", "title": "Value iteration: replan after a timeout", "statement": "Refuted expectation: replan called again after a timeout may report convergence although its policy costs almost twice the optimum, because the marks of visited states survive while the iteration counter starts again.", "quantifier": "existence", "why_tests_cant": "a particular history", "anchors": ["src/planners/viplanner.cpp: InitializePlanner, perform_iteration_forward"]}
{"id": "C128", "title": "Multi-level lattice: successors", "statement": "After any history of calls GetSuccs of the lattice environment with additional levels reports, for each motion primitive of the heading in order, exactly the transition that is valid with the current costs of all levels (free cells at source and end, inscribed threshold and map border for the cells the centre visits, swept cells of each level where its circumscribed threshold is met), at the basic cost times one plus the largest cost of a cell the centre visits at any level; the goal has no successors.", "quantifier": "all maps, levels, primitives, call histories", "why_tests_cant": "all inputs and histories", "anchors": ["src/discrete_space_information/environment_navxythetamlevlat.cpp: IsValidCell, GetActionCost, GetActionCostacrossAddLevels, InitializeAdditionalLevels, Set2DMapforAddLev, UpdateCostinAddLev"]}
{"id": "C129", "title": "Multi-level lattice: predecessors", "statement": "GetPreds reports exactly the transitions, with their costs, that lead to the state, also for the goal; forward and backward search see the same graph.", "quantifier": "all maps, levels, primitives, call histories", "why_tests_cant": "all inputs and histories", "anchors": ["src/discrete_space_information/environment_navxythetamlevlat.cpp: GetActionCost", "src/discrete_space_information/environment_navxythetalat.cpp: GetPreds"]}
{"id": "C130", "title": "Multi-level lattice: what additional levels change", "statement": "Every transition with additional levels is a transition of the base class at no greater cost, and obeys the map, thresholds and footprint of every additional level; without additional levels the transitions and costs are those of the base class; raising costs of cells at any level never adds a transition and never makes one cheaper.", "quantifier": "all maps, levels, primitives", "why_tests_cant": "all inputs", "anchors": ["src/discrete_space_information/environment_navxythetamlevlat.cpp: GetActionCost, GetActionCostacrossAddLevels"]}
{"id": "C131", "title": "Multi-level lattice: cell and configuration queries", "statement": "IsValidCell, IsObstacle and GetMapCost combine all levels (free at all levels, obstacle at some level, largest cost), and IsValidConfiguration accepts a configuration exactly if at every level the cells covered by the footprint of this level are free map cells of this level.", "quantifier": "all maps, levels, cells, configurations", "why_tests_cant": "all inputs and histories", "anchors": ["src/discrete_space_information/environment_navxythetamlevlat.cpp: IsValidCell, IsObstacle, GetMapCost, IsValidConfiguration"]}
{"id": "C132", "title": "ARA* on the multi-level lattice", "statement": "A path reported by ARA* on the lattice with additional levels is a sequence of transitions valid at all levels from start to goal, of total cost at most the reported cost; the reported cost obeys the same bound (eps, rounding) as at the base level although the heuristics only know the base level.", "quantifier": "all maps, levels, primitives, environment and planner histories", "why_tests_cant": "all inputs and histories", "anchors": ["src/discrete_space_information/environment_navxythetamlevlat.cpp", "src/planners/araplanner.cpp"]}
{"id": "C133", "title": "Multi-level lattice: which footprint is checked at which level", "statement": "Refuted expectation: a motion that is valid at every level with the footprint and map of this level may still be missing from GetSuccs, because the cells swept by the base footprint are also compared with the maps of the additional levels; if these cells are free at all levels (and inscribed thresholds are at most the obstacle threshold) the motion is reported.", "quantifier": "all maps, levels, primitives / a witness", "why_tests_cant": "all inputs", "anchors": ["src/discrete_space_information/environment_navxythetamlevlat.cpp: IsValidCell, GetActionCost"]}
{"id": "C134", "title": "Lattice: IsValidConfiguration and GetSuccs agree", "statement": "Refuted expectation: GetSuccs may report a transition from a configuration accepted by IsValidConfiguration to one that is rejected, and may miss a one-cell transition between two accepted configurations: the cells swept by a motion are computed with the robot at the corner of its cell, those of a configuration with the robot at the centre of its cell.", "quantifier": "existence", "why_tests_cant": "needs the composition of footprint, primitives and transitions", "anchors": ["src/discrete_space_information/environment_navxythetalat.cpp: IsValidConfiguration, PrecomputeActionswithCompleteMotionPrimitive", "src/utils/utils.cpp: get_2d_motion_cells, get_2d_footprint_cells"]}
{"id": "C135", "title": "Lattice: conversion of a path to poses", "statement": "After any history of calls ConvertStateIDPathintoXYThetaPath of a list of state IDs gives, transition by transition, the poses of a cheapest motion primitive that is valid for this transition with the current costs of the cells, translated to the centre of the cell of the source state, the last pose of each primitive excepted. It succeeds exactly if consecutive states are connected, raises an exception otherwise, and therefore never fails on a path of valid transitions that only ends at the goal.", "quantifier": "all maps, primitives, call histories, lists of state IDs", "why_tests_cant": "all inputs and histories", "anchors": ["src/discrete_space_information/environment_navxythetalat.cpp: ConvertStateIDPathintoXYThetaPath, GetSuccs"]}
{"id": "C136", "title": "Lattice: converted paths are safe and have no jumps", "statement": "Every pose of a converted path has its position in a map cell (border included) whose current cost is below the inscribed threshold; if the primitives begin and end at cell centres, the first pose is at the centre of the cell of the first state, and neither between consecutive poses nor from the last pose to the centre of the last cell is there a step longer than the longest step inside a primitive.", "quantifier": "all maps, primitives, call histories, lists of state IDs", "why_tests_cant": "all inputs and histories", "anchors": ["src/discrete_space_information/environment_navxythetalat.cpp: ConvertStateIDPathintoXYThetaPath"]}
{"id": "C137", "title": "Lattice: converted paths reach the goal", "statement": "Refuted expectation: the pose of the goal is never part of the converted path (the last pose of the last primitive is dropped), and a transition by a primitive with a single pose contributes no pose at all, so a non-trivial path can be converted to the empty list.", "quantifier": "existence", "why_tests_cant": "documentation versus behaviour", "anchors": ["src/discrete_space_information/environment_navxythetalat.cpp: ConvertStateIDPathintoXYThetaPath"]}
{"id": "C138", "title": "Lattice: cost of a motion primitive", "statement": "The cost computed for a motion primitive, before its multiplier, is the smallest whole number of milliseconds in which the robot can both drive the length of the primitive at the nominal velocity and turn by the smallest rotation between its headings at the nominal rate. Hence costs are positive for primitives that move or turn, satisfy what the admissibility of the heuristics needs if primitives begin and end at cell centres, and a path never costs less than the time the straight line between its ends takes.", "quantifier": "all primitives, velocities, turning times, paths", "why_tests_cant": "all inputs", "anchors": ["src/discrete_space_information/environment_navxythetalat.cpp: PrecomputeActionswithCompleteMotionPrimitive"]}
{"id": "C139", "title": "Lattice: end of a motion primitive", "statement": "A primitive read from a file is accepted only if its last pose, started at the centre of cell (0, 0), lies in its end cell and has its end heading; a primitive that ends exactly at the centre of its end cell with the angle of its end heading is accepted.", "quantifier": "all primitives, resolutions", "why_tests_cant": "all inputs", "anchors": ["src/discrete_space_information/environment_navxythetalat.cpp: ReadinMotionPrimitive, ContTheta2DiscNew"]}
{"id": "C140", "title": "Lattice: headings given by a list of angles", "statement": "With non-uniform headings every angle, of any number of turns and sign, is converted to a heading of the list nearest to it by rotation (across the full turn as well), and every heading is converted to its angle and back.", "quantifier": "all increasing lists of angles from 0 to a full turn, all angles", "why_tests_cant": "all inputs", "anchors": ["src/discrete_space_information/environment_navxythetalat.cpp: ContTheta2DiscFromSet, DiscTheta2ContFromSet, normalizeDiscAngle"]}
{"id": "C141", "title": "Lattice: accepted primitives and the heuristics", "statement": "Refuted expectation: the check of the end pose does not make a primitive safe for the heuristics; a primitive that ends at the border of its end cell is accepted, its cost is computed from the shorter way, and the heuristic may be twice the true cost.", "quantifier": "existence", "why_tests_cant": "composition of primitive reading, costs and heuristics", "anchors": ["src/discrete_space_information/environment_navxythetalat.cpp: ReadinMotionPrimitive, PrecomputeActionswithCompleteMotionPrimitive, GetGoalHeuristic"]}
{"id": "C142", "title": "ARA*: counters within their range", "statement": "The call and iteration counters of the planner are 16 bits wide. In every history with at most 65535 calls of replan that make at most 65535 search passes altogether, the planner behaves exactly as if they were unbounded: same exceptions, paths, costs and reported bounds. So the guarantees for histories (sound paths, reported bound) hold for the real counters within these limits.", "quantifier": "all environments, histories within the limits, time limits", "why_tests_cant": "histories of tens of thousands of calls", "anchors": ["src/planners/araplanner.cpp: ReInitializeSearchStateSpace, Search", "src/include/sbpl/planners/araplanner.h: ARAState, ARASearchStateSpace_t"]}
{"id": "C143", "title": "ARA*: unlimited lifetime of a planner object", "statement": "Refuted expectation: after 65536 plans the call counter has wrapped around, and a state last visited 65536 plans ago is taken for one already visited in the current plan; replan then reports eps 1 (optimal) for a path that costs five times the optimum, with a consistent heuristic and an unchanged environment.", "quantifier": "existence", "why_tests_cant": "needs a history of 65537 plans", "anchors": ["src/planners/araplanner.cpp: ReInitializeSearchStateSpace, UpdateSuccs"]}
{"id": "C144", "title": "Grid navigation: random neighbours", "statement": "GetRandomSuccsatDistance and GetRandomPredsatDistance of EnvironmentNAV2D, for whatever random directions are drawn, never raise their displacement exception; every neighbour they list is a free map cell at Chebyshev distance exactly 100 (5 for predecessors) in the drawn direction, with the cost of the heuristic between the two cells; at most 10 are listed, of at most 50 draws, and the goal (start) in addition exactly if it is within this distance. AreEquivalent holds exactly for equal states. For the goal (start) itself the output lists are left unchanged.", "quantifier": "all maps, call histories, states and outcomes of the random generator", "why_tests_cant": "all outcomes of a random generator", "anchors": ["src/discrete_space_information/environment_nav2D.cpp: GetRandomNeighs, GetRandomSuccsatDistance, GetRandomPredsatDistance, AreEquivalent"]}
{"id": "C145", "title": "R* on grid maps", "statement": "Whatever random neighbours are drawn, if R* (forward or backward) reports success on a grid map, the path leads from the start cell to the goal cell over free cells by moves of the map, and the reported cost is exactly the cost of these moves; on maps whose paths stay below INFINITECOST it raises no exception.", "quantifier": "all maps, histories, random neighbours, time limits", "why_tests_cant": "composition of planner and environment; randomness", "anchors": ["src/discrete_space_information/environment_nav2D.cpp", "src/planners/rstarplanner.cpp"]}
{"id": "C146", "title": "ANA*, MHA* and Lazy ARA* on grid maps", "statement": "If ANA*, MHA* or Lazy ARA* reports success on a grid map, its path leads from the start cell to the goal cell over free cells by moves of the map. The cost reported by MHA* is at most MHA eps times (1.001 eps + 0.001) times that of any walk over the map; the path of Lazy ARA* costs at most 1.001 eps + 0.001 times any walk if the clock ends no pass, and is valid even if it does.", "quantifier": "all maps, histories, additional heuristics, time limits", "why_tests_cant": "composition of planners and environment", "anchors": ["src/discrete_space_information/environment_nav2D.cpp", "src/planners/ANAplanner.cpp", "src/planners/mhaplanner.cpp", "src/planners/lazyARA.cpp"]}
{"id": "C147", "title": "Grid navigation: a map file is read as the map it describes", "statement": "A file consisting of the words of a map file (width, height, obsthresh:, threshold, start, goal, cells), separated by any white space, is read by InitializeEnv as exactly this map: sizes, threshold (rounded down), start, goal and every cell cost 0..255. If a cell is missing or not a number, or start or goal is outside the map, an exception is raised. Whatever the file contains, an accepted file gives a non-empty map with start and goal inside and costs and threshold at most 255, and its fourth word is obsthresh:.", "quantifier": "all files (texts of any length)", "why_tests_cant": "all texts", "anchors": ["src/discrete_space_information/environment_nav2D.cpp: ReadConfiguration, InitializeEnv"]}
{"id": "C148", "title": "Grid navigation: malformed map files are rejected", "statement": "Refuted expectation: a cost of 256 is read as 0 (free), a threshold of 256 as 0 (everything is an obstacle), the labels of start and goal are not looked at (a file that gives the goal first is accepted with start and goal exchanged), and a word of 1024 or more characters overflows a buffer.", "quantifier": "existence / all files beginning with a long word", "why_tests_cant": "documentation versus behaviour", "anchors": ["src/discrete_space_information/environment_nav2D.cpp: ReadConfiguration"]}
{"id": "C149", "title": "Lattice: a map file is read as the map it describes", "statement": "A file consisting of the words of a map file with headings is read as exactly this map: sizes, number of headings (16 if not given), thresholds, cell size, velocity, turning time, the cells that contain the start and goal points, their angles, and every cell cost 0..255. A missing cell raises an exception. Whatever the file contains, an accepted file has the words of a map file with all labels up to those of the speeds in place, gives a non-empty map with start and goal inside, costs and thresholds at most 255 and a cell size that is not 0.", "quantifier": "all files (texts of any length)", "why_tests_cant": "all texts", "anchors": ["src/discrete_space_information/environment_navxythetalat.cpp: ReadConfiguration"]}
{"id": "C150", "title": "Lattice: unusable map files are rejected", "statement": "Refuted expectation: a negative cell size, zero headings, a negative threshold (read as 255) and a cost of 256 (read as 0) are accepted.", "quantifier": "existence", "why_tests_cant": "documentation versus behaviour", "anchors": ["src/discrete_space_information/environment_navxythetalat.cpp: ReadConfiguration"]}
{"id": "C151", "title": "Lattice: files of motion primitives", "statement": "A file of motion primitives for the cell size (up to 1e-7) and number of headings of the environment, in which every primitive ends in the cell and heading it gives, is read as exactly these primitives, in order. If one of them does not, or the cell size or number of headings differs, reading fails. Whatever the file contains, every primitive accepted has a pose, its last pose lies in its end cell and has its end heading, and this heading is one of the environment.", "quantifier": "all files (texts of any length), cell sizes, numbers of headings", "why_tests_cant": "all texts", "anchors": ["src/discrete_space_information/environment_navxythetalat.cpp: ReadMotionPrimitives, ReadinMotionPrimitive, ReadinCell, ReadinPose"]}
{"id": "C152", "title": "Lattice: damaged files of motion primitives are rejected", "statement": "Refuted expectation: the end of the file is not noticed. A file that ends before the number of primitives is accepted with no primitives; one cut in the middle of the last pose is accepted, the missing numbers being replaced by those read before. A start heading that the environment does not have and a negative number of primitives are accepted.", "quantifier": "all files of this form / existence", "why_tests_cant": "damaged files", "anchors": ["src/discrete_space_information/environment_navxythetalat.cpp: ReadMotionPrimitives, ReadinMotionPrimitive, ReadinPose"]}
{"id": "C153", "title": "From a map file to a plan", "statement": "If EnvironmentNAV2D is initialised from a map file and ARA* finds a path on it, the path is a walk over the cells of the file below its threshold, from its start to its goal, of at most the reported cost; and with reported eps the cost is at most 1.001 eps + 0.001 times that of any such walk.", "quantifier": "all map files, planner histories, time limits", "why_tests_cant": "composition of parser, environment and planner", "anchors": ["src/discrete_space_information/environment_nav2D.cpp: ReadConfiguration", "src/planners/araplanner.cpp"]}
{"id": "C154", "title": "Navigation under uncertainty: state IDs", "statement": "On a map of at most 1024 rows SetStart and SetGoal accept exactly the cells of the map, leave the environment alone otherwise, and two cells have the same ID only if they are the same. Refuted for more rows: the cells (0, 1024) and (1, 0) share an ID on every such map.", "quantifier": "all maps and cells", "why_tests_cant": "all map sizes", "anchors": ["src/discrete_space_information/environment_nav2Duu.cpp: SetStart, SetGoal", "src/include/sbpl/discrete_space_information/environment_nav2Duu.h: ENVNAV2DUU_XYTOSTATEID"]}
{"id": "C155", "title": "Navigation under uncertainty: initialisation and hidden variables", "statement": "InitializeEnv on a square map succeeds, keeps costs and probabilities, and numbers the cells with a probability strictly between 0 and 1 one to one with 0 .. SizeofH()-1, all others with -1. Refuted for other maps: on every map wider than high it accesses memory outside its arrays; on a map higher than wide it throws exactly if a row from the width on has an unknown cell, and otherwise leaves the hidden variables of these rows unset.", "quantifier": "all maps, costs and probabilities", "why_tests_cant": "all map sizes", "anchors": ["src/discrete_space_information/environment_nav2Duu.cpp: InitializeEnv, SetConfiguration, InitializeEnvConfig"]}
{"id": "C156", "title": "Navigation under uncertainty: GetPreds is exact", "statement": "For a cell that is neither an obstacle of the map nor reported to be one, GetPreds returns exactly one action for each of the 8 neighbours with a legal move into it (both cells, and the two side cells of a diagonal move, below the threshold; side cells known to be free by map or report). Outcomes are the cell, with the cost of the move, and the neighbour, with twice the cost, with the current probability of the cell (last report, otherwise the map); they add up to 1. For an obstacle, a cell reported as one or an ID outside the map there are no actions.", "quantifier": "all square maps of at most 1024 rows, cells, lists of reports; numofdirs 8", "why_tests_cant": "all maps and report lists", "anchors": ["src/discrete_space_information/environment_nav2Duu.cpp: GetPreds"]}
{"id": "C157", "title": "Navigation under uncertainty: GetPreds, expectations that fail", "statement": "Refuted expectations: no action is ever deterministic; moves into cells known to be free are reported with hidden variable -1, and once -1 is reported to be an obstacle every cell that is free on the map is closed; numofdirs is never set (no actions for values up to 0, access outside the tables for more than 8); on maps higher than wide an unset hidden variable is used; cells reported to be obstacles are still sources of moves; UpdateCost writes outside the map; an obstacle of the map file freed by UpdateCost stays closed.", "quantifier": "all maps, states and reports", "why_tests_cant": "all maps and report lists", "anchors": ["src/discrete_space_information/environment_nav2Duu.cpp: GetPreds, UpdateCost"]}
{"id": "C158", "title": "Navigation under uncertainty: a map file is read as the map it describes", "statement": "A file that describes a square map (cells: costs 0..255, or probabilities strictly between 0 and 1) is accepted; the environment has its threshold, start, goal, costs and probabilities, cells at or above the threshold have probability 1. Refuted: the number is not, as the comment says, the probability of being free but of being an obstacle; files for maps wider than high lead to an access outside the arrays.", "quantifier": "all files of this form / existence", "why_tests_cant": "all texts", "anchors": ["src/discrete_space_information/environment_nav2Duu.cpp: ReadConfiguration, InitializeEnv"]}
{"id": "C159", "title": "From a map file and a file of motion primitives to a plan on the lattice", "statement": "A map file and a file of motion primitives laid out as described are accepted by InitializeEnv if and only if every heading has the same number of primitives. On the resulting environment a path found by ARA* from the start to the goal of the map file is a chain of primitives of the file, collision-free for the costs and thresholds of the map file, from the cell and heading of the start pose to those of the goal pose, of at most the reported cost; the cost is at least the time of the straight line between the two cells if primitives begin and end at cell centres; it is within the reported bound of every such chain.", "quantifier": "all file texts of this form, footprints, histories of planner calls", "why_tests_cant": "all texts, histories", "anchors": ["src/discrete_space_information/environment_navxythetalat.cpp: InitializeEnv, ReadConfiguration, ReadMotionPrimitives, PrecomputeActionswithCompleteMotionPrimitive", "src/planners/araplanner.cpp: replan"]}
{"id": "C160", "title": "Value iteration with heuristics that are not consistent, and on graphs", "statement": "Whatever nonnegative heuristic (zero at the goal): if it is at most K>=1 times the expected cost of every plan that surely reaches the goal, all values stay at most K times it after any number of replans; when a new planner stops because the values have converged, its policy reaches the goal with probability 1 and costs at most 25/24 of the value of the start; replan returns when the time is over. On a graph whose edges cost at least 1, the converged policy is exactly a path from start to goal of cost at most the value of the start, hence at most N/M times every walk when the heuristic drops along every edge by at most N/M of its cost.", "quantifier": "all MDPs/graphs, heuristics, time limits, histories", "why_tests_cant": "all MDPs and histories", "anchors": ["src/planners/viplanner.cpp: replan, backup, perform_iteration_forward, PrintPolicy"]}
{"id": "C161", "title": "Value iteration on grid maps", "statement": "The actions the grid environment gives to MDP planners (SetAllActionsandAllOutcomes) are exactly the successors of GetSuccs, in order, one certain outcome each, with the same costs, errors and created states. A value iteration planner that has converged on a grid map has found a walk over free cells from start to goal, its policy consists of the cells of that walk, and the walk costs at most 1415/1414 times any other.", "quantifier": "all maps, 8 or 16 directions, states, histories", "why_tests_cant": "all maps and histories", "anchors": ["src/discrete_space_information/environment_nav2D.cpp: SetAllActionsandAllOutcomes, GetSuccs", "src/planners/viplanner.cpp: replan"]}
{"id": "C162", "title": "Value iteration on the lattice and on adjacency lists", "statement": "The actions the lattice environment gives to MDP planners are exactly the successors of GetSuccs, in order, as sure outcomes; those of the adjacency list environment are the stored edges (all with action ID 0). A value iteration planner that has converged on a lattice has found a path of collision-free primitives from start to goal costing at most (m+k)/m times any other (m least primitive cost, k rounding slack of the heuristic, 0 for whole speeds); on an adjacency list it has found a path of least cost.", "quantifier": "all lattices, graphs and histories of calls", "why_tests_cant": "all environments and histories", "anchors": ["src/discrete_space_information/environment_navxythetalat.cpp: SetAllActionsandAllOutcomes", "src/include/sbpl/discrete_space_information/environment_precomputed_adjacency_list.h: SetAllActionsandAllOutcomes", "src/planners/viplanner.cpp: replan"]}
{"id": "C163", "title": "Bucket list: least priorities first", "statement": "As long as no element is put into the mixed bucket (priorities beyond the range given to the constructor, below INFINITECOST) after one has left it: inserting an element that is not stored, removing a stored element with its priority, and popping succeed; empty() holds exactly if nothing is stored; getminpriority is the least stored priority (INFINITECOST if none); getminelement and popminelement give a stored element of least priority, and popping takes out exactly it; popping everything gives the stored elements once each in order of priority; reset gives an empty list.", "quantifier": "all ranges and histories of calls", "why_tests_cant": "all histories", "anchors": ["src/include/sbpl/utils/list.h: CBucket"]}
{"id": "C164", "title": "Bucket list: expectations that fail", "statement": "Refuted expectations: after an element has left the mixed bucket the next one put there is reported with the old priority, and elements come out in the wrong order; makeemptybucketV leaves the elements in the buckets, so that an old element comes back as the minimum; the lower end of the range is ignored, so that for a range [first, max] with max < 2*first every priority of the range is in the mixed bucket.", "quantifier": "existence / all ranges", "why_tests_cant": "negative results about histories of calls", "anchors": ["src/include/sbpl/utils/list.h: CBucket"]}
{"id": "C165", "title": "Value iteration converges on finite graphs whatever the heuristic", "statement": "If the goal can be reached from every state that can be reached from the start (finitely many), edges cost at least 1 and the heuristic is any nonnegative integer function that is 0 at the goal, replan of a new value iteration planner with enough time stops because the values have converged. Hence on a grid map with a free start cell and no time limit it returns exactly if there is a way to the goal; likewise it stops on lattices and adjacency lists whose reachable states can all reach the goal.", "quantifier": "all finite graphs, maps, lattices, heuristics", "why_tests_cant": "unbounded runs: termination", "anchors": ["src/planners/viplanner.cpp: replan, backup, perform_iteration_forward"]}
{"id": "C166", "title": "Environment parameters are the last accepted ones", "statement": "Before an x-y-theta environment is initialised, SetEnvParameter succeeds exactly for the names cost_inscribed_thresh, cost_possibly_circumscribed_thresh and cost_obsthresh with values from 0 to 255; a call that fails changes nothing. GetEnvParameter returns the last accepted value (initially 254, -1, 254) and throws for other names. InitializeEnv with arguments uses the two thresholds for the robot that were set, the obstacle threshold of the call (one set before is ignored), and the states nearest to the given poses as start and goal; afterwards no parameter can be changed. On grid maps, is16connected selects 16 or 8 neighbours by the last call.", "quantifier": "all sequences of parameter calls, all names and values, all arguments", "why_tests_cant": "arbitrary sequences of calls", "anchors": ["src/discrete_space_information/environment_navxythetalat.cpp: SetEnvParameter, GetEnvParameter, InitializeEnv, SetConfiguration", "src/discrete_space_information/environment_nav2D.cpp: SetEnvParameter"]}
{"id": "C167", "title": "An x-y-theta environment can be copied through its interface", "statement": "Take an environment after any history of calls. A new environment whose two thresholds are set to the same values (from 0 to 255) and which is initialised with the parameters reported by GetEnvParms, the costs reported by GetMapCost, the same footprint and the same file of motion primitives is created without error, and has the same start, the same goal, and exactly the same transitions with the same costs as the original has at that time.", "quantifier": "all setups, histories of calls, primitive files", "why_tests_cant": "all histories; round trip through floating-point poses and files", "anchors": ["src/discrete_space_information/environment_navxythetalat.cpp: GetEnvParms, GetMapCost, InitializeEnv, SetEnvParameter, ReadMotionPrimitives"]}
{"id": "C168", "title": "Conversion between poses and states of the lattice", "statement": "PoseDiscToCont returns true exactly for the coordinates of states, and PoseContToDisc takes the pose back to the same state and returns true. PoseContToDisc returns true exactly for positions in the map with an angle of at most a full turn in absolute value, and then returns the map cell that contains the position. The heading is that of the bin that contains the angle, except for the one angle half a bin below a full turn: there it returns true with a heading that does not exist.", "quantifier": "all poses, states, numbers of headings, cell sizes", "why_tests_cant": "all rational poses", "anchors": ["src/discrete_space_information/environment_navxythetalat.cpp: PoseContToDisc, PoseDiscToCont", "src/utils/utils.cpp: ContTheta2Disc, DiscTheta2Cont"]}
{"id": "C169", "title": "ARA*: the suboptimality computed after planning", "statement": "After replan, compute_suboptimality never raises and returns -1 or a number from 1 to the eps reported by replan (1 or -1 if eps 1 is satisfied). Unless the last element of OPEN is the only state of OPEN and INCONS with the least g+h, the number is a valid bound: for a consistent heuristic (and whole eps) the cost of the solution is at most that many times the cost of every path. -1 is returned exactly when INCONS is empty and OPEN has at most one element.", "quantifier": "all environments, histories, time limits, search directions", "why_tests_cant": "all graphs and histories", "anchors": ["src/planners/araplanner.cpp: compute_suboptimality"]}
{"id": "C170", "title": "ARA*: the computed suboptimality can be wrong", "statement": "Refuted expectation: the number returned by compute_suboptimality bounds the ratio of the cost of the solution and the least cost. With a consistent heuristic the planner can return a solution of cost 3, report 1 (optimal) and there is a path of cost 2: the last element of OPEN is never looked at. For the same reason it returns -1 after finding the optimal solution of a graph with a single edge.", "quantifier": "existence", "why_tests_cant": "negative result", "anchors": ["src/planners/araplanner.cpp: compute_suboptimality"]}
{"id": "C171", "title": "ARA*: machine integers do not overflow", "statement": "In every history of at most 65535 replan calls and search passes in which all edge costs are ints, all heuristic values are at most H and all requested eps at most E with E*H < 2^31, the planner computing with its machine integers (32-bit g, v and keys, 16-bit counters, arbitrary results of overflowing conversions) behaves exactly as the planner with unbounded integers: same exceptions, paths, costs and bounds. No bound on the costs of paths is needed.", "quantifier": "all environments, histories, time limits, search directions, results of overflowing conversions", "why_tests_cant": "all histories and values", "anchors": ["src/planners/araplanner.cpp: UpdateSuccs, UpdatePreds, BuildNewOPENList, Reevaluatefvals, ReInitializeSearchStateSpace", "src/include/sbpl/planners/araplanner.h: ARAState"]}
{"id": "C172", "title": "ARA*: large heuristic values", "statement": "Refuted expectations: with eps = 3 and a consistent heuristic with values of 8*10^8 whether a path is found depends on what the overflowing conversion (int)(eps*h) gives; and without any overflow, with eps = 3, the planner reports that there is no path although one of cost 400000001 exists and time is left.", "quantifier": "existence (second part: for every result of overflowing conversions)", "why_tests_cant": "negative results", "anchors": ["src/planners/araplanner.cpp: UpdateSuccs, ImprovePath"]}
{"id": "C173", "title": "Planners agree on the least cost", "statement": "Whenever ARA*, AD*, ANA*, MHA* or Lazy ARA* (on true costs) returns a solution together with the suboptimality bound 1, the reported cost is the cost of the returned path and the least cost of all paths. So two such planners asked for a path between the same states of the same graph report the same cost, whatever their directions of search, parameters, consistent (ANA*: admissible) heuristics, additional heuristics of MHA*, histories of calls and time limits. If one of ARA*, AD*, MHA* with eps at most E reports failure without having been interrupted, every such cost is at least INFINITECOST/E; for eps = 1 no other planner reports one.", "quantifier": "all graphs, heuristics, histories of calls, directions, parameters", "why_tests_cant": "all histories of several planners", "anchors": ["src/planners/araplanner.cpp: replan", "src/planners/adplanner.cpp: replan", "src/planners/ANAplanner.cpp: replan", "src/planners/mhaplanner.cpp: replan", "src/planners/lazyARA.cpp: replan"]}
{"id": "C174", "title": "AD*: repairing is as good as planning anew", "statement": "An AD* planner whose edge costs were changed any number of times, with any replan calls in between, and an AD* planner constructed just now on the environment as it is (in any direction and with any parameters) report the same cost once both report the bound 1.", "quantifier": "all histories of cost changes and replan calls", "why_tests_cant": "all histories", "anchors": ["src/planners/adplanner.cpp: replan, costs_changed, Update_SearchSuccs_of_ChangedEdges"]}
{"id": "C175", "title": "Planners sharing an environment keep their own search records", "statement": "Consider any number of planners of all kinds constructed and destroyed over the life of one environment. If at every time the marks in the environment belong to at most one planner other than Lazy ARA* (a planner starts using the environment only when there are no marks: at the beginning, after an MHA* planner was destroyed, after ARA* or AD* freed its memory, after the adjacency list environment was reset), then each request for the search record of a state returns a record of that very state or raises: 'invalid' only for IDs not given to a state yet, 'too many states' only at the limit. Repeated requests return the same object until the planner deletes its records, whatever the environment and other planners did; requests that differ in planner, state or kind of search never get the same object. All planners behave as if each had private records; nothing reads outside an array.", "quantifier": "all histories of state creations, planner constructions, destructions, requests, memory releases, table resets", "why_tests_cant": "histories of several objects sharing mutable state", "anchors": ["src/include/sbpl/discrete_space_information/environment.h: StateID2IndexMapping", "src/include/sbpl/planners/planner.h: state-to-index slots", "src/planners/araplanner.cpp: GetState, CreateState, force_planning_from_scratch_and_free_memory", "src/planners/adplanner.cpp: GetState, CreateState", "src/planners/ANAplanner.cpp: GetState", "src/planners/rstarplanner.cpp: GetState, GetLSearchState, DestroyLocalSearchMemory", "src/planners/viplanner.cpp: GetState", "src/planners/mhaplanner.cpp: get_state, clear", "src/planners/lazyARA.cpp: GetState"]}
{"id": "C176", "title": "Planners sharing an environment: what goes wrong", "statement": "Refuted expectations: (i) after an ARA*, AD*, ANA*, R* or value iteration planner was destroyed, a new planner (other than Lazy ARA*) on the same environment reads outside its array at the first request for a state the old planner had seen; (ii) two planners used in turn on one environment get each other's associations: a request for state 1 silently returns the record of state 0; (iii) force_planning_from_scratch_and_free_memory of an ARA* planner makes all other planners of the environment create second records of states they know.", "quantifier": "all combinations of kinds of planners", "why_tests_cant": "negative results", "anchors": ["src/include/sbpl/discrete_space_information/environment.h: StateID2IndexMapping", "src/include/sbpl/planners/planner.h: state-to-index slots", "src/planners/araplanner.cpp: GetState, CreateState, force_planning_from_scratch_and_free_memory", "src/planners/adplanner.cpp: GetState, CreateState", "src/planners/ANAplanner.cpp: GetState", "src/planners/rstarplanner.cpp: GetState, GetLSearchState, DestroyLocalSearchMemory", "src/planners/viplanner.cpp: GetState", "src/planners/mhaplanner.cpp: get_state, clear", "src/planners/lazyARA.cpp: GetState"]}
{"id": "C177", "title": "Lazy ARA* on the lattice", "statement": "For every history of calls to a Lazy ARA* planner (forward search) and an x-y-theta lattice environment: if no pass was ended by the clock and a path is returned, its consecutive states are joined by collision-free motion primitives from the start to the goal. If moreover no two primitives of a heading have the same end, the reported cost is at most the real cost of the path, and the real cost is at most (eps + (k*eps+1)/m) times the cost of every path, where eps is the initial eps, m the cost of the cheapest primitive and k the rounding slack of the nominal velocity; for whole velocities it is at most eps (rounded up) times that cost, so optimal for eps = 1; and a path is found whenever there is one cheaper than INFINITECOST divided by the factor.", "quantifier": "all lattices, maps, primitives, histories, time limits, priority queues", "why_tests_cant": "all maps and histories", "anchors": ["src/discrete_space_information/environment_navxythetalat.cpp: GetLazySuccs, GetTrueCost", "src/planners/lazyARA.cpp: replan, EvaluateState"]}
{"id": "C178", "title": "Lazy ARA* on the lattice: primitives with the same end", "statement": "Refuted expectation: Lazy ARA* finds a path if there is one. If two motion primitives of a heading have the same end and the first is blocked, GetTrueCost reports the pair of states as unconnected, and the planner, never interrupted and with a consistent heuristic, reports that there is no path although one of cost 20 exists.", "quantifier": "existence", "why_tests_cant": "negative result", "anchors": ["src/discrete_space_information/environment_navxythetalat.cpp: GetTrueCost", "src/planners/lazyARA.cpp: EvaluateState"]}
{"id": "C179", "title": "Lattice without motion primitives: built-in actions", "statement": "InitializeEnv without a file of motion primitives (or, with arguments, with a file that lists none) succeeds, for at most 128 headings, exactly if start and goal are states; the environment then behaves, in every history of calls, exactly as one initialised with an explicit list of five primitives per heading, so every guarantee about lattices with primitives (successors, predecessors, IDs, copies made through GetEnvParms) also holds for it.", "quantifier": "all setups and histories of calls", "why_tests_cant": "all histories; the deprecated table is computed with trigonometric functions for every number of headings", "anchors": ["src/discrete_space_information/environment_navxythetalat.cpp: DeprecatedPrecomputeActions, InitializeEnvConfig, InitGeneral, InitializeEnv"]}
{"id": "C180", "title": "Lattice without motion primitives: which moves there are", "statement": "After any history, GetSuccs of a state other than the goal and GetPreds of every state report exactly these moves: turn by at most one heading and step to the neighbouring cell in the direction of the new heading (each coordinate 1 in absolute value if the cosine or sine is at least 1/2), at the time for the distance rounded up to ms; turn in place by one heading, at the time of a turn by 45 degrees rounded down; times one plus the larger cost of the two cells, which are free, the target below the inscribed threshold.", "quantifier": "all setups with 2 to 128 headings, maps, histories", "why_tests_cant": "all maps and histories, real-valued directions", "anchors": ["src/discrete_space_information/environment_navxythetalat.cpp: DeprecatedPrecomputeActions, GetSuccs, GetPreds, GetActionCost"]}
{"id": "C181", "title": "Lattice without motion primitives: directions", "statement": "A move that is not a turn in place always leaves the cell, to one of its eight neighbours, in a direction that differs from the new heading by at most 30 degrees, for every number of headings; the heading changes by at most one.", "quantifier": "all numbers of headings, headings", "why_tests_cant": "all real angles", "anchors": ["src/discrete_space_information/environment_navxythetalat.cpp: DeprecatedPrecomputeActions"]}
{"id": "C182", "title": "Lattice without motion primitives: the footprint is not checked", "statement": "Refuted expectation: reported transitions are collision-free for the given footprint. If the circumscribed threshold is positive, the moves of a lattice without primitives do not depend on the footprint at all; there is a map, with correctly inflated costs, and a robot for which a successor of the start covers an obstacle cell.", "quantifier": "all setups; existence", "why_tests_cant": "negative result", "anchors": ["src/discrete_space_information/environment_navxythetalat.cpp: DeprecatedPrecomputeActions, GetActionCost"]}
{"id": "C183", "title": "Lattice without motion primitives: paths without poses, headings of the file ignored", "statement": "Refuted expectations: (i) ConvertStateIDPathintoXYThetaPath returns no pose at all for every path; (ii) InitializeEnv from a map file takes the cells of start and goal from the file, but not the headings: they are whatever two members of the object contain, and the initialisation succeeds exactly if these happen to be headings; (iii) with a file that lists no primitives, the environment initialised from a map file has no transitions at all, though the one initialised with arguments has the built-in ones.", "quantifier": "all setups, paths, map files", "why_tests_cant": "negative results", "anchors": ["src/discrete_space_information/environment_navxythetalat.cpp: ConvertStateIDPathintoXYThetaPath, InitializeEnv"]}
{"id": "C184", "title": "Planning on the lattice without motion primitives", "statement": "On a lattice initialised without motion primitives, after any history of calls, forward or backward: a path reported by ARA* is a sequence of the built-in moves from the start to the goal, valid with the current costs of the cells and of total cost at most the reported one; when eps is reported and the obstacle threshold is not above the inscribed threshold, a path is found whenever one exists and its cost is at most eps times that of any path, up to the stated rounding of the heuristic; for eps = 1 and whole velocities it is optimal.", "quantifier": "all lattices with 2 to 128 headings, maps, histories of calls, eps", "why_tests_cant": "all maps and histories; involves the geometry of all moves", "anchors": ["src/discrete_space_information/environment_navxythetalat.cpp: DeprecatedPrecomputeActions, GetGoalHeuristic", "src/planners/araplanner.cpp: replan"]}
{"id": "C185", "title": "A start that the heuristic considers unreachable is never left", "statement": "Refuted expectation: if there is a path and the clock does not run out, replan finds one. If the heuristic of the start, multiplied by eps, is INFINITECOST (1e9) or more, ARA* reports that there is no path without expanding a state. On a lattice without motion primitives this happens for a start cell with a cost between the inscribed and the obstacle threshold: there is a map with a path of two moves for which every search from scratch, forward or backward, with any eps and any time, reports that there is none.", "quantifier": "all environments, histories, eps; existence", "why_tests_cant": "negative result", "anchors": ["src/planners/araplanner.cpp: ImprovePath, ReInitializeSearchStateSpace", "src/discrete_space_information/environment_navxythetalat.cpp: GetGoalHeuristic, GetStartHeuristic, DeprecatedPrecomputeActions"]}
{"id": "C186", "title": "Files of motion primitives with a list of headings", "statement": "A file of motion primitives that lists the angles of its headings is read as the angles (with 2 pi appended) and the primitives it describes, if every primitive ends in the cell it gives and with an angle nearest to the heading it gives; if one does not, reading fails. Whatever the file contains: if it is accepted and its angles begin with 0, increase and stay below 2 pi, every accepted primitive has a pose, ends in the cell it gives, and the heading it gives is one of the list nearest to its last angle. Refuted: the order of the angles is checked; a file with the angles 0, 3, 1 is accepted, and then angle 1 is converted to heading 0 though heading 2 has this very angle.", "quantifier": "all texts, numbers of headings, angles, primitives", "why_tests_cant": "all files", "anchors": ["src/discrete_space_information/environment_navxythetalat.cpp: ReadMotionPrimitives, ReadinMotionPrimitive, ReadinCell, ContTheta2DiscFromSet, DiscTheta2ContFromSet"]}
{"id": "C187", "title": "Lattice with a list of headings: behaviour", "statement": "A lattice whose headings are given by a list of angles is, after any calls, in a state that a lattice with the same number of uniform headings reaches by as many calls with the same cell costs, so every guarantee about the latter (successors, predecessors, IDs, lazy versions, predecessors of changed edges, paths of planners) holds for it. SetStart and SetGoal take every angle to a nearest heading of the list, refuse positions outside the map without effect, and change only start or goal. PoseContToDisc and PoseDiscToCont are inverse on states; PoseContToDisc accepts exactly positions in the map with an angle of at most a full turn. The cost of a primitive is its multiplier times the least number of ms in which the robot can drive its length and turn by the smallest rotation between the two angles of the list; if primitives begin and end in centres of cells, the cost of a path is at least the time of the straight line.", "quantifier": "all setups, lists of headings, histories, poses", "why_tests_cant": "all histories and lists", "anchors": ["src/discrete_space_information/environment_navxythetalat.cpp: SetStart, SetGoal, PoseContToDisc, PoseDiscToCont, PrecomputeActionswithCompleteMotionPrimitive, normalizeDiscAngle"]}
{"id": "C188", "title": "From files with a list of headings to a plan", "statement": "InitializeEnv with a map file and a file of motion primitives with a list of headings succeeds exactly if the latter has the same number of primitives for every heading; start and goal become the cells of their positions with headings nearest to their angles. After any calls, ARA* on the lattice, forward or backward: a path found is a chain of primitives of the file, collision-free with the current cell costs and the thresholds of the map file, of at most the reported cost; when eps is reported, a path is found if there is one, at most eps times (plus rounding) as expensive as any, optimal for eps 1 and whole velocities.", "quantifier": "all files, maps, histories of calls, eps", "why_tests_cant": "all files and histories", "anchors": ["src/discrete_space_information/environment_navxythetalat.cpp: InitializeEnv, ReadConfiguration, ReadMotionPrimitives", "src/planners/araplanner.cpp: replan"]}
{"id": "C189", "title": "Lattice with additional levels and a list of headings: valid configurations", "statement": "IsValidConfiguration checks the base level with the angle the list gives to the heading, but every additional level with the angle it would have if the headings were uniform. With a list of uniform headings it therefore accepts exactly the configurations free at all levels. Refuted: it does so for every list; with the headings 0 and 1 there is a robot and a level whose obstacle under the robot is not seen, and one whose obstacle the robot does not touch makes the configuration invalid.", "quantifier": "all setups, levels, lists of headings, histories; existence", "why_tests_cant": "all histories; negative result", "anchors": ["src/discrete_space_information/environment_navxythetamlevlat.cpp: IsValidConfiguration", "src/discrete_space_information/environment_navxythetalat.cpp: IsValidConfiguration, DiscTheta2ContNew"]}
{"id": "C190", "title": "Lattice with a list of headings, initialised with arguments", "statement": "A new lattice object, any calls of SetEnvParameter, and then InitializeEnv with arguments and a file of motion primitives with a list of headings (at most 128, beginning with 0, increasing, below 2 pi): the call succeeds exactly if start and goal are in the map and the file has the same number of primitives for every heading. The environment is then the one with the arguments, the primitives of the file and the thresholds set last (defaults otherwise), start and goal have headings of the list nearest to their angles, and parameters can no longer be set. Every later call acts on that environment and uses that list of headings, until a further InitializeEnv.", "quantifier": "all arguments, files, parameter calls", "why_tests_cant": "all files and call sequences", "anchors": ["src/discrete_space_information/environment_navxythetalat.cpp: InitializeEnv, SetEnvParameter, ReadMotionPrimitives, InitGeneral"]}
{"id": "C191", "title": "Lattice with a list of headings, re-created from GetEnvParms", "statement": "After any calls on a lattice with a list of headings GetEnvParms succeeds, and InitializeEnv on a new object with the values it reports, the same file of primitives and the same two thresholds succeeds and makes an environment with the same transitions - those of the changed map - and the same start and goal states.", "quantifier": "all setups, lists of headings, histories of calls", "why_tests_cant": "all histories", "anchors": ["src/discrete_space_information/environment_navxythetalat.cpp: GetEnvParms, InitializeEnv, SetEnvParameter"]}
{"id": "C192", "title": "InitializeEnv after a call that failed", "statement": "As long as no call of InitializeEnv succeeded, a call with arguments and a well-formed file of motion primitives (with a list of headings, or without one if no file with a list was read before) succeeds exactly if start and goal are in the map and the primitives of all files read so far, those of failed calls included, are equally many for every heading; the environment has all these primitives. In particular, if the earlier call failed because start or goal was not in the map, the corrected call with the same file succeeds exactly if it does on a new object, with the same transitions, start and goal - though every primitive is there twice.", "quantifier": "all histories of failing calls, arguments, files", "why_tests_cant": "all call sequences", "anchors": ["src/discrete_space_information/environment_navxythetalat.cpp: InitializeEnv, ReadMotionPrimitives, PrecomputeActionswithCompleteMotionPrimitive"]}
{"id": "C193", "title": "InitializeEnv after a faulty file of primitives", "statement": "Refuted expectation: after InitializeEnv failed because of a faulty file of motion primitives, a call with the corrected file succeeds. The primitives read before the faulty one stay in the object; if they are not equally many for every heading, every later call fails, whatever its arguments and however good its file for that number of headings, though a new object accepts it.", "quantifier": "all files with a primitive that does not end where it says, all later calls", "why_tests_cant": "all call sequences; negative result", "anchors": ["src/discrete_space_information/environment_navxythetalat.cpp: ReadMotionPrimitives, PrecomputeActionswithCompleteMotionPrimitive, InitializeEnv"]}
{"id": "C194", "title": "InitializeEnv: a list of headings is never forgotten", "statement": "Refuted expectation: a failed call of InitializeEnv leaves no trace. Once a call - failed or not - has read a file of motion primitives with a list of headings, every later call with a file without a list fails, although a new object accepts it under the condition of C192.", "quantifier": "all call sequences, files", "why_tests_cant": "all call sequences; negative result", "anchors": ["src/discrete_space_information/environment_navxythetalat.cpp: ReadMotionPrimitives, bUseNonUniformAngles"]}
{"id": "C195", "title": "A lattice is initialised once", "statement": "Refuted expectation: an environment can be initialised again, with another map or other primitives. After a call of InitializeEnv that succeeded, and any other calls, every further call of InitializeEnv throws, whatever its arguments and file: the table StateID2IndexMapping is not cleared, and the first state gets the number 0 again.", "quantifier": "all call sequences, arguments, files", "why_tests_cant": "all call sequences; negative result", "anchors": ["src/discrete_space_information/environment_navxythetalat.cpp: InitializeEnvironment, CreateNewHashEntry_lookup, CreateNewHashEntry_hash"]}
{"id": "C196", "title": "MHA* on the (x, y, theta) lattice, end to end", "statement": "After any calls on the environment and on the planner, MHA* with any heuristics: a path it returns (except the goal alone, which it returns when the best key reaches INFINITECOST) is a sequence of states without repetitions from start to goal, each joined to the next by a primitive that is collision-free with the current costs of the cells, of total cost at most the reported cost, which is below INFINITECOST. With the heuristic of the environment as the anchor, the reported cost is at most MHA eps times (eps plus rounding) times the cost of every way over the lattice; for whole velocities there is no rounding. With time for more loop checks than twice the number of states and no limit on expansions, failure means that every way costs at least INFINITECOST divided by eps.", "quantifier": "all setups, histories of both, heuristics, eps, MHA eps", "why_tests_cant": "all histories and unbounded paths", "anchors": ["src/planners/mhaplanner.cpp: replan", "src/discrete_space_information/environment_navxythetalat.cpp: GetSuccs, GetGoalHeuristic"]}
{"id": "C197", "title": "A grid map is initialised once, and calls that fail before do no harm", "statement": "As long as no call of InitializeEnv on a grid map succeeded, calls that failed (start outside the map, no file, unreadable file) have no effect: the next call with arguments succeeds exactly if its start is in the map, one with a file exactly if the file can be read, and the environment is that of a new object with the connectivity set last. Refuted: a grid map can be initialised again; after a call that succeeded, and any other calls, every further call of InitializeEnv fails, because StateID2IndexMapping is not cleared.", "quantifier": "all histories of failing calls, all later calls", "why_tests_cant": "all call sequences; positive and negative result", "anchors": ["src/discrete_space_information/environment_nav2D.cpp: InitializeEnv, SetConfiguration, ReadConfiguration, InitializeEnvironment, CreateNewHashEntry, SetEnvParameter"]}
{"id": "C198", "title": "Grid map: a rejected call of InitializeEnv changes its size", "statement": "Refuted expectation: a call of InitializeEnv that throws because the start is outside its map leaves an initialised grid map as it is. States and costs of the cells stay, but width, height and threshold are those of the rejected call, while the array still has the old size. If the rejected map is wider, GetSuccs of a state in the last column of the old map (not the goal, not in the last row of the rejected map or below) reads outside the array. If it is higher, the same holds for the last row of the old map (not in the last column of the rejected map or beyond).", "quantifier": "all histories, all rejected calls", "why_tests_cant": "all histories; negative result (memory safety)", "anchors": ["src/discrete_space_information/environment_nav2D.cpp: InitializeEnv, SetConfiguration, GetSuccs, IsValidCell"]}
{"id": "C199", "title": "Grid map re-created from GetEnvParms", "statement": "After any calls on a grid map, GetEnvParms and GetMapCost report values with which InitializeEnv on a new object of the same connectivity succeeds; start and goal are the same cells, and GetSuccs of every cell of the map other than the goal lists the same cells at the same costs.", "quantifier": "all maps, histories of calls", "why_tests_cant": "all histories", "anchors": ["src/discrete_space_information/environment_nav2D.cpp: GetEnvParms, GetMapCost, InitializeEnv, GetSuccs"]}
{"id": "C200", "title": "Navigating robot (ARA*): every move is possible in the real world", "statement": "The robot of the example program plans with ARA* (backward) on EnvironmentNAV2D with the map it has seen so far, makes the first step of the path, sees the true costs of the map cells at most two cells away, reports changes through UpdateCost and costs_changed, and plans again. For every true map, every eps, search mode and time limits, the cells it visits start at the start cell, and every move is a 16-connected move that crosses no obstacle of the TRUE map; when the loop ends normally, the last cell is the goal.", "quantifier": "all true maps, numberings, eps, time limits, numbers of passes", "why_tests_cant": "all maps and histories of replanning", "anchors": ["src/test/main.cpp: planandnavigate2d", "src/planners/araplanner.cpp: replan, costs_changed, set_start", "src/discrete_space_information/environment_nav2D.cpp: UpdateCost, SetStart, GetPreds"]}
{"id": "C201", "title": "Navigating robot (ARA*): the only exceptions", "statement": "The main loop never raises 'robot is commanded to move into an obstacle' and never asks for the cell of an unknown state. It is left early only because replan found no plan, or because OPEN or the INCONS list of the planner is full.", "quantifier": "all true maps, numberings, eps, time limits, numbers of passes", "why_tests_cant": "all maps and histories of replanning", "anchors": ["src/test/main.cpp: planandnavigate2d", "src/planners/araplanner.cpp: replan"]}
{"id": "C202", "title": "Navigating robot (ARA*): it gives up rightly", "statement": "If the start cell is not an obstacle, and the robot gives up at some cell because replan found no plan, and the clock interrupted no pass of that search, then every way over the TRUE map from that cell to the goal costs at least INFINITECOST / (1.001 eps + 0.001), eps at least 1 being a bound of the eps values: the unknown parts of the map, which count as free, hide no way.", "quantifier": "all true maps, numberings, eps, time limits, numbers of passes", "why_tests_cant": "all maps and histories of replanning", "anchors": ["src/test/main.cpp: planandnavigate2d", "src/planners/araplanner.cpp: replan, costs_changed", "src/discrete_space_information/environment_nav2D.cpp: GetPreds"]}
{"id": "C203", "title": "Navigating robot (ARA*): it does not wander forever", "statement": "Whatever the time limits, after at most (width * height + 1) * (INFINITECOST + 1) passes the robot has arrived or the loop was left by an exception: between two changes of the map the planned cost of the robot's cell strictly decreases with every move, also when plans are suboptimal.", "quantifier": "all true maps, numberings, eps, time limits (each allows one pass of the search)", "why_tests_cant": "termination over all maps and histories", "anchors": ["src/test/main.cpp: planandnavigate2d", "src/planners/araplanner.cpp: replan, SetSearchGoalState, ReInitializeSearchStateSpace"]}
{"id": "C204", "title": "Navigating robot (ARA*): it arrives", "statement": "If width * height * threshold * 2236 times (1.001 eps + 0.001) is below INFINITECOST, the start is no obstacle, some way of the true map leads from start to goal, and every pass of every search may take more than width * height loop checks, then the robot arrives at the goal after at most the passes above, unless OPEN or the INCONS list is full.", "quantifier": "all true maps of that size, numberings, eps, numbers of passes", "why_tests_cant": "all maps and histories of replanning", "anchors": ["src/test/main.cpp: planandnavigate2d", "src/planners/araplanner.cpp: replan", "src/discrete_space_information/environment_nav2D.cpp: GetPreds, UpdateCost"]}
{"id": "C205", "title": "Navigating robot with ANA*: commanded into an obstacle", "statement": "Refuted expectation: the exception 'robot is commanded to move into an obstacle' of the example program is not possible with ANA* either. The program tells only ARA* and AD* that costs changed; with ANA* the old search goes on. On a map of 6 by 2 cells with one obstacle the robot sees the obstacle, a way around exists, no search is interrupted, and two moves later the program ends with that exception.", "quantifier": "the ANA* branch of the program, backward search", "why_tests_cant": "negative result over histories", "anchors": ["src/test/main.cpp: planandnavigate2d", "src/planners/ANAplanner.cpp: replan, set_start", "src/discrete_space_information/environment_nav2D.cpp: UpdateCost, SetStart"]}
{"id": "C206", "title": "Grid map: a rejected InitializeEnv with a smaller map keeps memory safety", "statement": "Companion of C198: if an initialised grid map (after any calls on it) rejects a further InitializeEnv because the start is outside its map, and that map is neither wider nor higher than the old one, then GetSuccs of every state in the old map other than the goal reads inside the array only, and lists exactly the straight passable moves of the OLD map for the threshold of the rejected call that end inside the rejected map, at their old costs.", "quantifier": "all objects, histories, rejected calls with maps that are not larger, all states of the old map", "why_tests_cant": "all histories and maps; memory safety", "anchors": ["src/discrete_space_information/environment_nav2D.cpp: InitializeEnv, SetConfiguration, GetSuccs, IsValidCell"]}
{"id": "C207", "title": "Grid map: GetPreds after a rejected InitializeEnv with a smaller map", "statement": "In the setting of C206, GetPreds of every state in the old map reads inside the array only, and lists, of the cells of the old map that are passable for the threshold of the rejected call, exactly those inside the REJECTED map with a straight passable move to the state on the OLD map, at the old cost. (So GetSuccs and GetPreds of cells outside the rejected map no longer agree.)", "quantifier": "all objects, histories, rejected calls with maps that are not larger, all states of the old map", "why_tests_cant": "all histories and maps; memory safety", "anchors": ["src/discrete_space_information/environment_nav2D.cpp: InitializeEnv, SetConfiguration, GetPreds, IsValidCell"]}
