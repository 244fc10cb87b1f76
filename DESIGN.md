# Formal model of sbpl/sbpl in Lean 4

## Layout

* `lean/Verif/Model/*.lean` – executable model of the C++ code, function by function; every definition
  cites the file and lines it models and says where it simplifies.
* `lean/Verif/Spec/*.lean` – small specifications (abstract map, queue, shortest path, ...) that do not
  mention the model.
* `lean/Verif/Proofs/*.lean` – helper lemmas.
* `lean/Verif/Props/*.lean` – the property theorems, each with a concrete example meeting its hypotheses,
  and negation witnesses where the unchanged code violates the property.
* `properties.jsonl` – the properties; `MANIFEST.json` – property → theorems; `seeded/LOG.jsonl` – log of
  mutation tests of the theorems.

## Plan per property

| Id | What is modelled | How it is proved |
|---|---|---|
| C01,C02 | `CHeap`/`CIntHeap` array + `heapindex` back-pointers, every public op, percolation loops | invariant (heap order + back-pointers) preserved by each op; refinement of op histories to an abstract map `state → Option key` |
| C03 | unsafe ops and `makeheap` | back-pointer invariant for unsafe ops; `makeheap` re-establishes order by descending induction |
| C04 | `allocated`, `sizecheck`, `growheap` | invariant `currentsize < allocated ≤ HEAPSIZE`; error iff full; negation witness for initial size 0 |
| C05 | `CKey` comparison operators | direct case analysis, order instance |
| C06 | `CList` doubly linked list with list-element back-pointers | refinement to an abstract `List` |
| C07 | `sbpl_fifo` ring buffer | refinement to an abstract `List` |
| C08,C09,C10 | `sbpl_bfs_2d`, `sbpl_bfs_3d` loops with ring-buffer queue | BFS invariant (two adjacent levels in the queue), exactness against an inductive walk specification; witness for the default queue size |
| C11,C12 | macros of utils.h on Int / exact rationals | arithmetic |
| C13 | bresenham parameter set-up and iteration | loop invariant of the error term |
| C14 | hash table + coord/ID tables of the environments | invariant of a history of lookups/creations |
| C15–C18 | Nav2D GetSuccs/GetPreds/heuristics/changed-edge report | direct reasoning over the 8/16 action tables |
| C19–C23 | ARA* (`UpdateSuccs`, `ImprovePath`, `BuildNewOPENList`, `Reevaluatefvals`, `GetSearchPath`, `Search`) over the concrete heap | loop invariant, induction over an optimal path |
| C24,C25 | `PathExists`, CMDPSTATE/CMDPACTION utilities | worklist invariant; refinement to sets |
| C26–C29 | ARA* error returns, loop budgets, zero-cost edges, expired time | error analysis of every call in the model; measure on CLOSED / OPEN for termination; witnesses |
| C30,C31 | Nav2D array accesses as partial functions (an access outside the map is an error value) | case analysis; witnesses for the unchecked entry points |
| C32 | ARA* composed with Nav2D (`navPEnv`: IDs as a numbering fixed in hindsight) | C15–C17 give the hypotheses of C19, C20 |
| C33,C34 | normalizeAngle, DiscTheta2Cont, ContTheta2Disc over exact rationals, π a positive rational parameter | floor arithmetic |
| C35–C40 | MHA*: keys, `CIntHeap` per queue, expand, SMHA replan loop | invariant with anchor/inadmissible closed sets, induction over an optimal path; witnesses |
| C41–C45 | SBPL2DGridSearch with heap: `search_astar`, costs, lower bounds | A* invariant with exact costs against an inductive way specification |
| C46 | CSlidingBucket | refinement to a stable priority queue |
| C47,C48 | `search_withslidingbuckets` | invariant with lazy deletion; witnesses |
| C49–C54 | EnvironmentNAVXYTHETALAT: initialisation, lookup and hash tables, actions, costs, GetSuccs/GetPreds/lazy/true cost, changed edges, paths to actions | histories of calls; a declarative `Edge` relation |
| C55–C57 | its heuristics, using the model of the 2D search | triangle inequality under rounding; following a primitive through the 2D graph; witnesses |
| C58 | ARA* composed with EnvironmentNAVXYTHETALAT | C50, C51, C56 give the hypotheses of C19, C20 |
| C59 | computeDistancestoNonfreeAreas | invariants of the two passes: values are distances of some source; after both passes no neighbour improves a value |
| C60 | IsInsideFootprint | perturbation of the point to general position, then induction on vertices by cutting along diagonals |
| C61 | get_2d_footprint_cells, get_2d_motion_cells | line loop: induction with the error term as an invariant; filling: C08 on the padded grid |
| C62 | AdjacencyListSBPLEnv: points, ids, adjacency lists, every interface call | refinement: representation invariant between the lists and an abstract undirected graph, induction over the history |
| C63 | findOptimalPath = the ARA* model on `Env.penv` | instance of C18/C20/C22 through the refinement of C62; paths cut at the first visit of the goal |
| C64–C70 | `ADPlanner`: keys, set membership, over-/underconsistent expansions, ComputePath, Search, path extraction, costs_changed (Model/AD.lean) | AD* invariant over an abstract graph `Gr` (Proofs/ADCore, AD): g is the best value over visited predecessors, inconsistent = in OPEN or INCONS, v of unflagged states bounded by eps times every walk; preserved by each loop body; histories by induction (ADRun) |
| C71, C72 | the same | witnesses evaluated in the kernel |
| C73 | the same with `Model/Nav2D` | witness on a 20x20 map evaluated in the kernel |
| C74 | `Model/LazyARA`: states, OPEN (concrete heap), INCONS, lists of unevaluated edges in an abstract priority queue (`LQueue`), clock, 16-bit counters, histories; `Spec/LazyARA`: existing edges, walks | invariant of Search (back pointers of expanded states are evaluated edges whose costs add up to at most v) by induction over loop, passes and history |
| C75 | the same | invariant that every existing edge out of an expanded state is represented at its end (value, list element or pending evaluation), lists ordered within the first pass; front argument on walks |
| C76 | the same | the same without lists, for all passes; reported eps is that of the last completed pass |
| C77, C78, C79 | the same | part of the invariant |
| C80 | the same, `preds` | backward search is forward search on the reversed graph; witness |
| C81, C82, C83, C84 | the same with libstdc++'s `push_heap`/`pop_heap` (`StdHeap`) | witnesses evaluated in the kernel |
| C85 | the same; queues that preserve multiplicities (`QueuePerm`, proved for libstdc++'s) | potential = unevaluated candidates + (1 + out-degree) of states not yet expanded in the pass; falls with every turn of the loop |
| C86, C87, C91 | `Model/ANA`: state information re-initialised lazily per call number, OPEN (concrete heap incl. unsafe operations and makeheap), ImprovePath, the pruning and re-keying loop, Search, path extraction, histories (`Spec/ANA`) | invariant over an abstract graph: g is realised by back-pointers with strictly smaller v, preserved by every loop body; induction over passes and history |
| C88, C90 | the same | invariant: on every walk there is an OPEN state with optimal-prefix g, or the walk costs at least G / eps (pruned states); comparison of successive re-keying passes |
| C89 | the same | measure: sum of g over the finitely many reachable states falls with every expansion after the first; every pass that does not end the search lowers G or empties OPEN |
| C92, C93 | the same | witnesses evaluated in the kernel |
| C94, C95 | ANA* and AD* (models above) running on the x-y-theta environment model after any history of environment calls | the planner theorems instantiated; paths decoded into lattice transitions; the states the environment reports as affected by changed cells (`changedPreds`) shown to satisfy the hypothesis of the AD* theorems |
| C96 | `Model/RStar`: high-level OPEN, actions (predecessor edges with clow and path), ComputeLocalPath (weighted A* with its own heap and hash), SetBestPredecessor, random successors as an arbitrary function, GetSearchPath, Search, replan, histories (`Spec/RStar`) | invariant over the table of actions: every stored path is a path of the graph with the stored cost, g is the sum along best predecessors; ranking by positive costs shows that the traces end; induction over the loops and the history |
| C97, C98 | the same; pointers are optional values and deleted actions are an error value | the invariant excludes each error value; for C98 additionally bounds of the reachable graph |
| C99, C100 | the same | consequences of the invariant, for every environment and history |
| C101, C102 | the same | witnesses evaluated in the kernel |
| C103, C104, C106 | `Model/EvalPolicy`: EvaluatePolicy (backups in place, PathExists, merges, probabilities); expected cost and steps of k steps in `Spec/EvalPolicy` | invariant: values never exceed their backup; upper bound by the number of updates made, lower bound from the residual of the last pass |
| C105 | the same | geometric decay of the unfinished probability bounds the values, each pass adds more than 1/10; a state of least value among those that never reach the goal has residual at least 1 |
| C107, C108 | the same | induction over the passes; exchange of summation between forward and backward probabilities |
| C109 | the same | witness evaluated in the kernel |
| C110 | `Model/RobArm`: links as segments, ContXY2Cell, IsValidLineSegment (Bresenham model of C13), IsValidCoord; `Spec/RobArm` gives the geometry | cells of points are unique; the line of cells stays between its ends |
| C111 | the same: Create2DStateSpace, Search2DwithQueue, ComputeHeuristicValues, InitializeEnvironment | breadth-first invariant (distances in the queue differ by at most 1); for other shapes the first bad access is exhibited |
| C112 | the same: hash table, tables, GetSuccs | invariant of the tables over all histories |
| C113 | the same | a step moves the end effector by at most one cell, so the distance by at most 1 |
| C114 | the same; GetEdgeCost, AreEquivalent | witness in the kernel (1); invariant of the tables |
| C115 | DiscretizeAngles over ℝ with Mathlib's cos, sin, arcsin | chord of an angle difference is monotone |
| C116, C117 | `Model/RobArmPlan`: the arm as an environment of the ARA* model, with a numbering fixed in hindsight | planner theorems instantiated; paths decoded into motions, motions encoded as walks |
| C118 | ComputeCoord | arithmetic of rounding |
| C119 | `Model/RobArmRand`: GetRandomSuccsatDistance, with the random numbers as arguments | invariant of the tables; distance changes by at most 1 per move, by induction over the motion |
| C120 | `Model/VI`: backup, perform_iteration_forward, replan, PrintPolicy; `Spec/VI`: decision-tree plans, policies followed for k steps | invariant: every value is below the value of every action (kept by backups, which only raise values); induction over plans; limit argument for policies |
| C121, C124 | same | each state is expanded at most once per pass (start twice); potential #(no best action) + 100 Σ(B − v) drops by 1 per pass that does not converge, B from plans that reach the goal with positive probability |
| C122, C123 | same | pass invariant: values rise by at most 0.01 per backup, the expanded states are closed under best actions; cost ≤ value + 0.02·steps, steps ≤ cost; Markov bound for the probability |
| C125 | same, with the EvaluatePolicy model (C103–C106) | the policy MDP is a chain with the same k-step costs; C103–C105 instantiated |
| C126, C127 | same | refuted: no pass is made / a two-call history evaluated in the kernel |
| C128, C129 | `Model/MLev`: every function of environment_navxythetamlevlat.cpp, on top of `Model/XYT`; `Spec/MLev`: transitions over user-level descriptions of the levels (`MEdge`) | loop invariants for the cost across levels; invariant over call histories relating the level maps to the calls made |
| C130, C131 | same | from the exact characterisation of transitions; folds over levels |
| C132 | same, `Model/MLevPlan` | base-class heuristics remain consistent since costs only rise; ARA* theorems instantiated |
| C133, C134 | same, with `Model/Footprint` | refuted: environments evaluated in the kernel; positive condition proved for C133 |
| C135–C137 | `Model/XYTPath` (ConvertStateIDPathintoXYThetaPath), `Spec/XYTPath` | induction over the list of IDs with C50 for each transition; C137 by witnesses |
| C138–C141 | `Model/XYTPrim` (end check of ReadinMotionPrimitive, cost computation over the reals, headings from a list), `Spec/XYTPrim` | ceiling and triangle inequality; induction over the list of angles; C141 by a witness |
| C142–C143 | `Model/ARA16`: ARA* with 16-bit call and iteration counters, `Spec/Counters` (replan calls and passes of a history) | agreement with the unbounded model by induction over the history; C143 by a witness of 65537 plans, the idle ones by induction |
| C144 | `Model/Nav2DRand`: GetRandomNeighs and its callers, AreEquivalent; directions as arbitrary reals | real analysis of the ring of displacements; induction over the draws |
| C145 | R* (`Model/RStar`) with `navREnv`: the grid map with arbitrary random neighbours | C96, C98 and the facts of C15–C17 |
| C146 | ANA*, MHA*, Lazy ARA* with the grid map (`navPEnv`, `navLEnv`) | C74, C75, C35, C87 and the facts of C15–C17, C32 |
| C147, C148 | fscanf / atoi / atof on texts (`Model/Scan`), ReadConfiguration of EnvironmentNAV2D (`Model/CfgFile: readNav2D`) | `Layout ws t` (`Spec/Files`) says that a text consists of words; each reader is shown to consume a word; converse by inversion of the readers; witnesses |
| C149, C150 | ReadConfiguration of the lattice (`readXYT`) | as C147 |
| C151, C152 | ReadMotionPrimitives, ReadinMotionPrimitive, ReadinCell, ReadinPose (`readPrims`), with buffers that keep their contents at the end of the file | as C147, by induction over primitives and poses |
| C153 | composition of `readNav2D`, `navPEnv` and ARA* | C147 and C32; the map outside is irrelevant for walks |
| C154 | `enc`, `decX`, `decY`, SetStart, SetGoal of EnvironmentNAV2DUU | division by 1024 |
| C155 | `init`: SetConfiguration and the numbering loop, whose inner bound is the width (Model/Nav2DUU) | induction on the cells; counting by permutation of the cell lists |
| C156, C157 | GetPreds with reports, UpdateCost; errors for unset variables and accesses outside arrays | case analysis per direction, induction on the directions; `Prob` is an unsigned char |
| C158 | ReadConfiguration of EnvironmentNAV2DUU (`readUU`) | as C147 |
| C159 | InitializeEnv of the lattice from two files (`Model/XYTFile: initFiles`) | composition of C149, C151, the tables of C49 and C107/C138; acceptance by unfolding the checks of the tables |
| C160–C162 | value iteration with any nonnegative heuristic, on graphs, maps, lattices, adjacency lists (`Model/SetActions`) | invariant "value at most K times every sure plan/walk" kept by every backup; a converged pass leaves a set of states closed under the best actions with residual at most 1/25; on graphs the values are natural numbers, so the residual is 0, and the best actions give a path by induction on the value; the actions are the successors by induction on the loops |
| C163–C164 | `CBucket` (`Model/Bucket`), states as numbers with their heap index | representation invariant (buckets, indices, parallel priorities, stored minimum) kept by every call; abstract map as specification; witnesses for the defects |
| C165 | value iteration on finite graphs | potential: every state counts ±M^(B − value), minus if an edge justifies the value; every backup that changes a value lowers it; moves between free cells of a map can be reversed |
| C166–C168 | `Model/XYTInit`: SetEnvParameter, GetEnvParameter, InitializeEnv with arguments, GetEnvParms, PoseContToDisc, PoseDiscToCont; SetEnvParameter of the grid map | induction over the calls; round trip of cells, headings and map indices with the facts of C11, C34, C49; edges depend on map cells only |
| C169–C170 | `Model/ARASub`: compute_suboptimality on the state left by any history and a replan | a state of every walk waits in OPEN or INCONS with g + h at most the cost of the walk; minimum over the traversed slots; witnesses for the skipped slot |
| C171–C172 | `Model/ARAMach`: the planner with 32-bit sums, `(int)(eps*h)` with an arbitrary result on overflow, 16-bit counters | g, v ≤ INFINITECOST, h ≤ H, eps ≤ M kept by every function; function by function equality with `Model/ARA`; witnesses |
| C173–C174 | the planner models themselves; `Spec/Agree` (least cost of a path), `Reports` and `Fails` (what some planner says after some history) | soundness and bound of each planner at eps 1 give the least cost, which is unique |
| C175–C176 | `StateID2IndexMapping` shared by all planners of an environment: GetState/CreateState of every planner, destructors, force_planning_from_scratch_and_free_memory, DestroyLocalSearchMemory, resetStateId2IndexMapping (`Model/PlannerTable`); `Spec/PlannerTable`: ideal machine with private records, allowed histories | simulation of the ideal machine by induction over histories; misuse: kernel-evaluated histories for every pair of planner kinds. This is what justifies that the planner models index search data by state ID; the exception at MAXSTATESPACESIZE states is only in this model |
| C177–C178 | Lazy ARA* with the lattice environment: GetLazySuccs/GetTrueCost/GetLazyPreds with a fixed numbering (`Model/XYTLazy`), tied to the stateful model by `xytLEnv_succs`, `xytLEnv_preds`, `xytLEnv_true` | edges found to exist = transitions of C50 (both directions when ends are distinct), then C74/C75 and the heuristics of C57; witness for C178 |
| C179–C183 | `Model/XYTDefault`: DeprecatedPrecomputeActions and the variants of InitializeEnv without primitives; real sine, cosine and square root | the tables are those of a list of explicit primitives (`default_init`), so C49–C58 apply; rounding of cosines by cases, Pythagoras for the directions; witness with 4 headings for C182, C183 |
| C184, C185 | as C58 and C179; the condition `Followable` of C58 allows a move to start in a cell that the 2D search may not enter if the obstacle threshold is at most the inscribed one | the built-in moves satisfy the conditions of C58 (`default_fast`, `default_follow`, `default_cost`); re-initialised OPEN list holds the start only, whose key is not below INFINITECOST; witness for C185 |
| C186 – C189 | ReadMotionPrimitives and what it calls for a file with `min_turning_radius_m:` (Model/XYTAngles.lean), InitializeEnv, SetStart, SetGoal, PoseContToDisc, PoseDiscToCont with `bUseNonUniformAngles`; IsValidConfiguration of the lattice with levels | reading as C151; every call is the call of a uniform lattice with another angle (`stepSet_unif`), hence all theorems about histories transfer; costs by `ceil_least` shared with C138; witness for C186d, C189c |
| C190 – C195 | one lattice object through several calls of InitializeEnv with arguments (Model/XYTAgain.lean): the three members that survive a call (`mprimV`, `bUseNonUniformAngles`, `StateID2IndexMapping`), the reading of a file with what it leaves in them, GetEnvParms with a list of headings | the reader with effects agrees with the readers of C151/C186 whenever they succeed (`prims_split`); the object after a call is characterised exactly (`made`, `core_iff`); counting argument for unequal numbers of primitives, by induction over the later calls |
| C196 | MHA* (C36–C39) on the lattice (C49, C57) | the path is decoded as in C94; the anchor heuristic is that of C57, which drops along an edge by at most the cost and the rounding; termination from the number of states |
| C197 – C199 | one grid map object through several calls of InitializeEnv (Model/Nav2DAgain.lean): numofdirs, bInitialized, the size of StateID2IndexMapping, the environment, and the extent of the array Grid2D apart from the configured size | invariant of objects without a successful call; monotonicity of the mapping; GetSuccs with array reads agrees with C15 while the sizes agree (`succs_synced`), first action out of range otherwise; edges depend only on cells of the map |
| C200 – C204 | the robot of the test program (Model/Nav2DRobot.lean, `planandnavigate2d` with ARA*): sensing within two cells, UpdateCost, costs_changed, replan, one step of the path, SetStart, set_start | invariant of the loop head on top of `replan_spec`; moves from a cell depend only on cells within two cells, which were just seen (C200, C201); the seen map is never dearer than the true one (C202); measure: wrong cells of the map, then the planner's g of the robot's cell, which never grows between re-initialisations (Proofs/ARAMono.lean) and drops along the path (C203); moves are reversible, a simple way visits every cell once, so C202 contradicts a way (C204) |
| C205 | the same loop with ANA* (Model/Nav2DRobotANA.lean), which is not told about changed costs | refuted expectation: kernel-evaluated run on a 6 x 2 map, and a way around the obstacle |
| C206 | NavMem of C198 with a rejected map that is not larger | the bounds test of GetSuccs is stricter than before, so a target is read only inside both maps, and the cells crossed lie between start and target; each action equals the one on the array, cut off at the rejected size; `actLoop_spec` of C15 |
| C207 | GetPreds of NavMem | as C206; duality of GetPreds and GetSuccs (C16) on the array |

## Trusted base

* Lean 4.33.0's kernel.
* The axioms each theorem depends on: a subset of `propext`, `Classical.choice`, `Quot.sound`. No others; none are added, and no compiled evaluation is used
  (`decide +kernel` reduces in the kernel).
* The faithfulness of the hand-written model to the cited C++ lines. Nothing is run against the C++ code.
* Mathlib is used for arithmetic lemmas and tactics only; everything is checked by the kernel.

## How the model abstracts the code

* **Integers.** `int` values are unbounded integers (naturals where they cannot be negative); overflow is not modelled, except where a value is stored into a `char`
  (theta and displacements of motion primitives) or clamped to INFINITECOST. In particular the Bresenham increments, the MHA* keys (double to int) and g + cost sums
  are assumed not to overflow; for ARA* C171 proves this within explicit bounds. The 16-bit call and iteration counters are modelled for ARA* (C142, C143) and Lazy ARA*; those of AD*, ANA* and R* are unbounded.
* **Floating point.** Exact: rationals, and the exact value of square roots where the code takes `sqrt` (defined by floor of the exact value). eps of ARA*/MHA* is a
  rational e / D; `(int)(eps * h)` is its floor. Comparisons of floats are exact comparisons.
* **Time.** Every check of the clock is a budget: a list of natural numbers, one per improvement iteration, says after how many loop checks the time is up; the theorems
  quantify over all of them. Time limits are therefore arbitrary.
* **Memory.** Pointers are state IDs; arrays are lists or functions, with accesses outside their bounds being error values where the code does not check them.
  Heaps keep the array and the `heapindex` back-pointers.
* **State IDs.** Environments that create IDs on demand (Nav2D, x-y-theta) are modelled with their tables (C14, C15, C49, C50). When composed with a planner (C32, C58) the
  IDs are a numbering fixed in hindsight; theorems relate it to the table-based model.

## What is modelled and what is not

| Code | Modelled | Not modelled |
|---|---|---|
| utils/heap.cpp, heap.h, key.h | all operations, growth, errors | CIntHeap separately (same code with another key); deleteheap_unsafe on a heap that is later used without makeheap |
| utils/list.h | CList; `CBucket`; sliding bucket (`CSlidingBucket`) | state of a sliding bucket after an exception |
| utils/sbpl_fifo.h, sbpl_bfs_2d.h, sbpl_bfs_3d.h | all | fifo of size 0; threads of bfs_3d |
| utils/2Dgridsearch.cpp | 8/16 connected moves, A* with heap, search with sliding buckets, lower bounds, downsampling | search_exp, search_withbuckets; destroying and re-creating OPEN lists; queries outside the downsampled map |
| utils/mdp.cpp | predecessor and successor lists, outcomes | printing, deletion of memory |
| utils/utils.cpp, utils.h | angle and cell conversions, Bresenham, PathExists, EvaluatePolicy, distance transform, IsInsideFootprint, footprint and motion cells | CheckMDP, file output |
| environment_precomputed_adjacency_list.h | points, edges, GetSuccs, heuristics, findOptimalPath | printing (StateID2IndexMapping: C175) |
| planners/araplanner.cpp | initialisation, replan, Search, ImprovePath, CLOSED/INCONS, backward and forward, set_start/goal, costs_changed, force_planning_from_scratch(_and_free_memory), eps steps, search parameters, compute_suboptimality (C169) | bOptimalSolution flag, statistics output |
| planners/mhaplanner.cpp | IMHA/SMHA loops as implemented, keys, expansion, replan | statistics (StateID2IndexMapping: C175) |
| environment_nav2D.cpp | configuration, tables, GetSuccs/GetPreds, heuristics, UpdateCost, SetMap, SetStart/SetGoal, changed edges, random neighbours, AreEquivalent, ReadConfiguration (C147), SetAllActionsandAllOutcomes (C161) | SetAllPreds |
| environment_navxythetalat.cpp | initialisation from primitives, tables, actions, costs, footprint cells of primitives (given the footprint as a function of the pose), all Get* calls listed under C49–C57, ConvertStateIDPathintoXYThetaPath (C135–C137), costs and end check of primitives (C138–C141), map files and files of motion primitives (C149–C152), InitializeEnv from both (C159), repeated (C190–C195), or with arguments, parameters, GetEnvParms, pose conversion (C166–C168), SetAllActionsandAllOutcomes (C162), the built-in actions used without primitives (C179–C183), lists of headings (C140, C186–C189) | the built-in actions with a list of headings (a file that lists headings but no primitives, with arguments), the base-primitive action table (PrecomputeActionswithBaseMotionPrimitive, which nothing calls), isTrueCost flags |
| environment_robarm.cpp | InitializeEnvironment, DiscretizeAngles, ComputeCoord, collision checking, 2D heuristics, hash table, GetSuccs, heuristics, GetEdgeCost, AreEquivalent, GetRandomSuccsatDistance, exceptions of GetPreds/GetStartHeuristic | ReadConfiguration (with `linkgoalangles` it uses GridCellWidth before it is set), `pTestedCells`, GetRandomState, printing, the switches ENDEFF_CHECK_ONLY and UNIFORM_COST at other values |
| environment_navxythetamlevlat.cpp | all functions (C128–C134) except printing and memory; incremental planning throws in the code | cells covered by the polygon are an input (except C134) |
| environment_nav2Duu.cpp | state IDs, reading files, InitializeEnv, SetStart, SetGoal, UpdateCost, GetPreds with reports (C154–C158) | functions that always throw, printing, rounding of floats |
| planners/adplanner.cpp | both directions, all of replan, costs_changed, set_start/goal, force_planning_from_scratch | `costtobestnextstate` (never read), force_planning_from_scratch_and_free_memory, statistics, printing |
| planners/lazyARA.cpp | GetState, ExpandState, EvaluateState, lazy lists, OPEN/INCONS, ImprovePath, GetSearchPath, Search, prepareNextSearchIteration, set_start/goal, replan, 16-bit counters; libstdc++'s priority queue | statistics, printing; `states` vector growth; overflow of costs |
| planners/ANAplanner.cpp | both directions, replan, Search, ImprovePath, pruning and re-keying, path extraction, set_start/goal, costs_changed, force_planning_from_scratch, set_search_mode | `eps`, `iterationclosed`, `costtobestnextstate`, GetState/CreateState tables, statistics, printing |
| planners/rstarplanner.cpp | both directions, replan, Search, ImprovePath, ComputeLocalPath, GetSearchPath, set_start/goal, costs_changed, force_planning_from_scratch, set_search_mode | how the environment draws random neighbours (arbitrary), 16-bit call numbers, statistics, printing |
| planners/viplanner.cpp | replan, backup, perform_iteration_forward, PrintPolicy (what it builds and evaluates), the static `g_belldelta` | perform_iteration_backward (never called), `Pc` (only printed; the start state's is never set), rounding to float, files and statistics |
| planners/ppcpplanner.cpp (a stub) | - | everything |
| src/test/main.cpp | `planandnavigate2d` with ARA* and ANA* (C200 – C205) | the other planners in that loop, the other programs, command line, printing, statistics, files |

## Refuted expectations

Where the code does not do what its documentation suggests, the property records it and the theorem is a witness: initial heap size 0 (C04), default queue size of the BFS
(C08–C10), real-valued eps of ARA* (C21), zero-cost last edge (C28), expired time (C29), unvalidated goal of Nav2D (C31), MHA* success without a path (C40), 2D A* with cells that
are not whole millimetres (C44), under-reported goal of the bucket search (C48), GetTrueCost with two primitives to one end (C53), x-y-theta heuristics (C57),
cells of the footprint (C61: covered cells missing, small robots in the wrong cell), duplicate points and self-loops of the adjacency list (C62),
AD*: paths of more than 100000 steps (C68), opened ways (C71), moved goals (C72), dearer cells of Nav2D maps (C73),
Lazy ARA*: backward search (C80), expired time (C81), reported cost (C82), reported eps (C83), out-of-date heuristic (C84),
ANA*: goal changed without a restart (C92), expired time, stale bound, zero costs (C93),
R*: form of forward paths (C99), start equal to goal (C100), incompleteness (C101), coarse AreEquivalent (C102),
EvaluatePolicy: policies that do not reach the goal (C105), probability of the goal (C109),
robot arm: maps that are not square (C111), all joints 0 and edge costs (C114), start angles outside a full turn (C118), random successors of coarse joints (C119);
value iteration: always returns 1 (C121), never stops on unreachable goals (C123), static convergence flag (C126), stale marks (C127);
lattice: base footprint compared with the obstacles of other levels (C133), IsValidConfiguration half a cell away from GetSuccs (C134), converted paths without the goal pose (C137), accepted primitives that are too fast (C141);
ARA*: call counter wraps around after 65536 plans (C143); map files: costs and thresholds modulo 256, unchecked labels, long words (C148, C150); truncated files of motion primitives (C152);
navigation under uncertainty: IDs beyond 1024 rows (C154), maps that are not square (C155), everything listed under C157, meaning of the probabilities in files (C158);
bucket list: stale priorities, elements after makeemptybucketV, ignored range (C164);
ARA*: the last element of OPEN ignored by compute_suboptimality (C170); large heuristic values (C172);
several planners on one environment: marks left by destroyed planners, interleaved use, memory release of one planner affecting others (C176);
Lazy ARA* on lattices with primitives of the same end (C178);
lattice without primitives: footprint never checked (C182), no poses, headings of the map file ignored (C183);
ARA*: start with an infinite heuristic, starts between the inscribed and the obstacle threshold on lattices without primitives (C185);
grid map: a rejected InitializeEnv resizes it without its array (C198) and makes GetSuccs and GetPreds disagree (C207), a second one always throws (C197); lists of headings: order not checked (C186), additional levels checked with angles of uniform headings (C189); InitializeEnv: a faulty file spoils the object (C193), a list of headings is never forgotten (C194), a second initialisation always throws (C195);
the navigating robot of the test program with ANA* is commanded into an obstacle (C205).
