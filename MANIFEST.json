{
 "claims": [
  {
   "property": "C01",
   "status": "proved",
   "theorems": [
    "Sbpl.HeapProps.heap_deletemin_is_min",
    "Sbpl.HeapProps.heap_history_refines"
   ],
   "note": ""
  },
  {
   "property": "C02",
   "status": "proved",
   "theorems": [
    "Sbpl.HeapProps.heap_history_refines"
   ],
   "note": ""
  },
  {
   "property": "C03",
   "status": "proved",
   "theorems": [
    "Sbpl.HeapProps.makeheap_repairs",
    "Sbpl.HeapProps.heap_history_refines"
   ],
   "note": ""
  },
  {
   "property": "C04",
   "status": "proved",
   "theorems": [
    "Sbpl.HeapProps.heap_bounds",
    "Sbpl.HeapProps.heap_reads_only_live_slots",
    "Sbpl.HeapProps.heap_writes_in_range",
    "Sbpl.HeapProps.heap_insert_fails_iff_full",
    "Sbpl.HeapProps.intheap_size_zero_overflows"
   ],
   "note": "initial size 0 violates; witness proved"
  },
  {
   "property": "C05",
   "status": "proved",
   "theorems": [
    "Sbpl.ContainerProps.ckey_lexicographic",
    "Sbpl.ContainerProps.ckey_total_order"
   ],
   "note": ""
  },
  {
   "property": "C06",
   "status": "proved",
   "theorems": [
    "Sbpl.ContainerProps.clist_history_refines",
    "Sbpl.ContainerProps.clist_set",
    "Sbpl.ContainerProps.clist_traversal"
   ],
   "note": ""
  },
  {
   "property": "C07",
   "status": "proved",
   "theorems": [
    "Sbpl.ContainerProps.fifo_history_refines",
    "Sbpl.ContainerProps.fifo_in_range"
   ],
   "note": ""
  },
  {
   "property": "C19",
   "status": "proved",
   "theorems": [
    "Sbpl.ARAProps.replan_path_sound"
   ],
   "note": "every history, heuristic, eps schedule and time limit; both directions; positive costs"
  },
  {
   "property": "C20",
   "status": "proved",
   "theorems": [
    "Sbpl.ARAProps.replan_bound",
    "Sbpl.ARAProps.replan_bound_general",
    "Sbpl.ARAProps.replan_bound_fractional"
   ],
   "note": "replan_bound: integer eps; replan_bound_general: any rational bound N/M on eps*h; replan_bound_fractional: (eps+1/m) for costs at least m"
  },
  {
   "property": "C21",
   "status": "proved",
   "theorems": [
    "Sbpl.ARAProps.reported_eps_not_a_bound",
    "Sbpl.ARAProps.replan_bound"
   ],
   "note": "negation of the naive claim proved with a concrete witness; the ceil(eps) bound is C20"
  },
  {
   "property": "C22",
   "status": "proved",
   "theorems": [
    "Sbpl.ARAProps.replan_failure_complete"
   ],
   "note": ""
  },
  {
   "property": "C23",
   "status": "proved",
   "theorems": [
    "Sbpl.ARAProps.replan_expands_once"
   ],
   "note": "also: the search goal is never expanded"
  },
  {
   "property": "C26",
   "status": "proved",
   "theorems": [
    "Sbpl.ARAProps.replan_exceptions"
   ],
   "note": ""
  },
  {
   "property": "C27",
   "status": "proved",
   "theorems": [
    "Sbpl.ARAProps.replan_terminates",
    "Sbpl.ARAProps.replan_reaches_final_eps"
   ],
   "note": "time is modelled as the number of loop checks the clock allows"
  },
  {
   "property": "C28",
   "status": "proved",
   "theorems": [
    "Sbpl.ARAProps.zero_cost_edge_raises"
   ],
   "note": "negative result, witness"
  },
  {
   "property": "C29",
   "status": "proved",
   "theorems": [
    "Sbpl.ARAProps.expired_replan_raises"
   ],
   "note": "negative result, witness"
  },
  {
   "property": "C14",
   "status": "proved",
   "theorems": [
    "Sbpl.Nav2DProps.id_round_trip",
    "Sbpl.Nav2DProps.ids_dense_injective",
    "Sbpl.Nav2DProps.start_goal_ids",
    "Sbpl.Nav2DProps.hash_in_range"
   ],
   "note": "Nav2D histories; the table proofs (Proofs/StateTable) are generic in the coordinate type and hash function"
  },
  {
   "property": "C15",
   "status": "proved",
   "theorems": [
    "Sbpl.Nav2DProps.succs_exact",
    "Sbpl.Nav2DProps.succs_goal",
    "Sbpl.Nav2DProps.updateCost_grid"
   ],
   "note": "crossed cells specified geometrically (cells touched by the straight line)"
  },
  {
   "property": "C16",
   "status": "proved",
   "theorems": [
    "Sbpl.Nav2DProps.preds_dual",
    "Sbpl.Nav2DProps.preds_not_dual_for_obstacles_and_goal"
   ],
   "note": ""
  },
  {
   "property": "C17",
   "status": "proved",
   "theorems": [
    "Sbpl.Nav2DProps.heuristic_value",
    "Sbpl.Nav2DProps.heuristic_nearly_consistent",
    "Sbpl.Nav2DProps.heuristic_nearly_admissible",
    "Sbpl.Nav2DProps.heuristic_not_admissible"
   ],
   "note": "consistency itself is refuted with a witness; the exact slack is proved; sqrt modelled exactly"
  },
  {
   "property": "C18",
   "status": "proved",
   "theorems": [
    "Sbpl.Nav2DProps.changed_succs_reported",
    "Sbpl.Nav2DProps.changed_preds_reported"
   ],
   "note": ""
  },
  {
   "property": "C30",
   "status": "proved",
   "theorems": [
    "Sbpl.Nav2DProps.calls_safe"
   ],
   "note": ""
  },
  {
   "property": "C31",
   "status": "proved",
   "theorems": [
    "Sbpl.Nav2DProps.goal_outside_map_reads_out_of_bounds",
    "Sbpl.Nav2DProps.outside_state_reads_out_of_bounds"
   ],
   "note": "negative result, for every map and outside goal"
  },
  {
   "property": "C32",
   "status": "proved",
   "theorems": [
    "Sbpl.Nav2DProps.ara_nav2d_path",
    "Sbpl.Nav2DProps.ara_nav2d_bound",
    "Sbpl.Nav2DProps.navPEnv_succs"
   ],
   "note": "state IDs: any fixed numbering of the cells; navPEnv_succs relates it to the on-demand numbering"
  },
  {
   "property": "C08",
   "status": "proved",
   "theorems": [
    "Sbpl.BFSProps.fromPoint2",
    "Sbpl.BFSProps.fromPoint2_outside",
    "Sbpl.BFSProps.fromPoint2_default_wrong"
   ],
   "note": "exact if no insertion was rejected, which a queue larger than the map guarantees; default queue refuted with a witness"
  },
  {
   "property": "C09",
   "status": "proved",
   "theorems": [
    "Sbpl.BFSProps.fromPoints2",
    "Sbpl.BFSProps.fromObs2",
    "Sbpl.BFSProps.fromObs2_default_wrong"
   ],
   "note": "default queue refuted with a witness"
  },
  {
   "property": "C10",
   "status": "proved",
   "theorems": [
    "Sbpl.BFSProps.fromPoint3",
    "Sbpl.BFSProps.fromPoint3_outside",
    "Sbpl.BFSProps.fromPoints3",
    "Sbpl.BFSProps.fromObs3"
   ],
   "note": ""
  },
  {
   "property": "C11",
   "status": "proved",
   "theorems": [
    "Sbpl.UtilsProps.normDiscTheta_residue",
    "Sbpl.UtilsProps.residue_unique",
    "Sbpl.UtilsProps.normDiscTheta_idem",
    "Sbpl.UtilsProps.normDiscTheta_period"
   ],
   "note": ""
  },
  {
   "property": "C12",
   "status": "proved",
   "theorems": [
    "Sbpl.UtilsProps.contXY2Disc_nonneg",
    "Sbpl.UtilsProps.contXY2Disc_neg",
    "Sbpl.UtilsProps.contXY2Disc_boundary",
    "Sbpl.UtilsProps.disc_cont_disc",
    "Sbpl.UtilsProps.cont_disc_cont"
   ],
   "note": "exact rationals"
  },
  {
   "property": "C13",
   "status": "proved",
   "theorems": [
    "Sbpl.UtilsProps.line_digital",
    "Sbpl.UtilsProps.line_reverse"
   ],
   "note": ""
  },
  {
   "property": "C24",
   "status": "proved",
   "theorems": [
    "Sbpl.MDPProps.pathExists_iff"
   ],
   "note": ""
  },
  {
   "property": "C25",
   "status": "proved",
   "theorems": [
    "Sbpl.MDPProps.preds_are_set",
    "Sbpl.MDPProps.indOfOutcome_some",
    "Sbpl.MDPProps.indOfOutcome_none",
    "Sbpl.MDPProps.mostLikely_max"
   ],
   "note": ""
  },
  {
   "property": "C33",
   "status": "proved",
   "theorems": [
    "Sbpl.AngleProps.normalizeAngle_range",
    "Sbpl.AngleProps.normalizeAngle_canonical",
    "Sbpl.AngleProps.normalizeAngle_not_canonical"
   ],
   "note": "exact rationals, PI_CONST as written"
  },
  {
   "property": "C34",
   "status": "proved",
   "theorems": [
    "Sbpl.AngleProps.contTheta2Disc_bin",
    "Sbpl.AngleProps.contTheta2Disc_out_of_range",
    "Sbpl.AngleProps.disc_cont_disc_theta",
    "Sbpl.AngleProps.minUnsignedAngleDiff_spec"
   ],
   "note": "exact rationals"
  },
  {
   "property": "C35",
   "status": "proved",
   "theorems": [
    "Sbpl.MHAProps.replan_path_sound",
    "Sbpl.MHAProps.replan_start_is_goal"
   ],
   "note": ""
  },
  {
   "property": "C36",
   "status": "proved",
   "theorems": [
    "Sbpl.MHAProps.replan_bound_general",
    "Sbpl.MHAProps.replan_bound",
    "Sbpl.MHAProps.reported_bound"
   ],
   "note": ""
  },
  {
   "property": "C37",
   "status": "proved",
   "theorems": [
    "Sbpl.MHAProps.replan_failure_complete"
   ],
   "note": ""
  },
  {
   "property": "C38",
   "status": "proved",
   "theorems": [
    "Sbpl.MHAProps.replan_expands"
   ],
   "note": ""
  },
  {
   "property": "C39",
   "status": "proved",
   "theorems": [
    "Sbpl.MHAProps.replan_exceptions",
    "Sbpl.MHAProps.replan_terminates",
    "Sbpl.MHAProps.replan_expansion_limit"
   ],
   "note": ""
  },
  {
   "property": "C40",
   "status": "proved",
   "theorems": [
    "Sbpl.MHAProps.success_without_path",
    "Sbpl.MHAProps.final_eps_ignored"
   ],
   "note": "negative results with witnesses"
  },
  {
   "property": "C41",
   "status": "proved",
   "theorems": [
    "Sbpl.GridProps.search_total",
    "Sbpl.GridProps.negative_start_accepted"
   ],
   "note": ""
  },
  {
   "property": "C42",
   "status": "proved",
   "theorems": [
    "Sbpl.GridProps.lower_bounds",
    "Sbpl.GridProps.rejected_search_stale"
   ],
   "note": ""
  },
  {
   "property": "C43",
   "status": "proved",
   "theorems": [
    "Sbpl.GridProps.promised_exact",
    "Sbpl.GridProps.allcells_start_is_goal"
   ],
   "note": ""
  },
  {
   "property": "C44",
   "status": "proved",
   "theorems": [
    "Sbpl.GridProps.astar_exact",
    "Sbpl.GridProps.astar_not_exact_fractional"
   ],
   "note": ""
  },
  {
   "property": "C45",
   "status": "proved",
   "theorems": [
    "Sbpl.GridProps.forward_backward"
   ],
   "note": ""
  },
  {
   "property": "C46",
   "status": "proved",
   "theorems": [
    "Sbpl.SBuckProps.history_refines"
   ],
   "note": ""
  },
  {
   "property": "C47",
   "status": "proved",
   "theorems": [
    "Sbpl.GridBProps.bucket_search_total",
    "Sbpl.GridBProps.bucket_lower_bounds",
    "Sbpl.GridBProps.bucket_lower_optpath",
    "Sbpl.GridBProps.bucket_window_exception"
   ],
   "note": ""
  },
  {
   "property": "C48",
   "status": "proved",
   "theorems": [
    "Sbpl.GridBProps.bucket_allcells_exact",
    "Sbpl.GridBProps.bucket_goal_underreported"
   ],
   "note": ""
  },
  {
   "property": "C49",
   "status": "proved",
   "theorems": [
    "Sbpl.XYTProps.ids_injective",
    "Sbpl.XYTProps.ids_dense",
    "Sbpl.XYTProps.ids_stable",
    "Sbpl.XYTProps.ids_total",
    "Sbpl.XYTProps.start_goal",
    "Sbpl.XYTProps.calls_safe",
    "Sbpl.XYTProps.headings_overflow",
    "Sbpl.XYTProps.headings_overflow_hash",
    "Sbpl.XYTProps.goal_heading_aliases"
   ],
   "note": ""
  },
  {
   "property": "C50",
   "status": "proved",
   "theorems": [
    "Sbpl.XYTProps.succs_exact",
    "Sbpl.XYTProps.goal_absorbing"
   ],
   "note": ""
  },
  {
   "property": "C51",
   "status": "proved",
   "theorems": [
    "Sbpl.XYTProps.preds_exact",
    "Sbpl.XYTProps.succs_preds_dual"
   ],
   "note": ""
  },
  {
   "property": "C52",
   "status": "proved",
   "theorems": [
    "Sbpl.XYTProps.changed_preds_exact",
    "Sbpl.XYTProps.changed_preds_reported",
    "Sbpl.XYTProps.changed_edge_missed"
   ],
   "note": ""
  },
  {
   "property": "C53",
   "status": "proved",
   "theorems": [
    "Sbpl.XYTProps.lazy_succs_cover",
    "Sbpl.XYTProps.lazy_preds_cover",
    "Sbpl.XYTProps.true_cost_exact",
    "Sbpl.XYTProps.true_cost_wrong"
   ],
   "note": ""
  },
  {
   "property": "C54",
   "status": "proved",
   "theorems": [
    "Sbpl.XYTProps.path_actions",
    "Sbpl.XYTProps.path_actions_total"
   ],
   "note": ""
  },
  {
   "property": "C55",
   "status": "proved",
   "theorems": [
    "Sbpl.XHeurProps.from_to_value",
    "Sbpl.XHeurProps.from_to_consistent"
   ],
   "note": ""
  },
  {
   "property": "C56",
   "status": "proved",
   "theorems": [
    "Sbpl.XHeurProps.goal_heuristic_admissible",
    "Sbpl.XHeurProps.goal_heuristic_consistent",
    "Sbpl.XHeurProps.start_heuristic_admissible",
    "Sbpl.XHeurProps.start_heuristic_consistent",
    "Sbpl.XHeurProps.ensure_ok",
    "Sbpl.XHeurProps.goal_value",
    "Sbpl.XHeurProps.start_value"
   ],
   "note": ""
  },
  {
   "property": "C57",
   "status": "proved",
   "theorems": [
    "Sbpl.XHeurProps.straight_primitive_overestimated",
    "Sbpl.XHeurProps.stale_overestimates",
    "Sbpl.XHeurProps.slow_inconsistent"
   ],
   "note": ""
  },
  {
   "property": "C58",
   "status": "proved",
   "theorems": [
    "Sbpl.XYTARAProps.ara_xyt_path",
    "Sbpl.XYTARAProps.ara_xyt_bound",
    "Sbpl.XYTARAProps.xyt_envOk",
    "Sbpl.XYTARAProps.xyt_predsOk",
    "Sbpl.XYTARAProps.xyt_heur",
    "Sbpl.XYTARAProps.xyt_heurOk",
    "Sbpl.XYTARAProps.xytPEnv_succs",
    "Sbpl.XYTARAProps.xytPEnv_preds",
    "Sbpl.XYTARAProps.env_goal_table",
    "Sbpl.XYTARAProps.env_start_table",
    "Sbpl.XYTARAProps.fresh_table"
   ],
   "note": "IDs as a numbering fixed in hindsight; the tables of heuristics are those of the environment (env_goal_table, env_start_table, fresh_table)"
  },
  {
   "property": "C59",
   "status": "proved",
   "theorems": [
    "Sbpl.DistProps.distances_exact",
    "Sbpl.DistProps.nearest_unique",
    "Sbpl.DistProps.distances_fresh",
    "Sbpl.DistProps.outside_untouched"
   ],
   "note": "distances as exact multiples of 1/1000"
  },
  {
   "property": "C60",
   "status": "proved",
   "theorems": [
    "Sbpl.PolyProps.inside_convex_exact",
    "Sbpl.PolyProps.interior_inside",
    "Sbpl.PolyProps.exterior_outside",
    "Sbpl.PolyProps.rotation_invariant",
    "Sbpl.PolyProps.reversal_invariant",
    "Sbpl.PolyProps.translation_invariant",
    "Sbpl.PolyProps.outside_box",
    "Sbpl.PolyProps.cut_along_diagonal",
    "Sbpl.PolyProps.empty_raises"
   ],
   "note": "double as exact rationals"
  },
  {
   "property": "C61",
   "status": "proved",
   "theorems": [
    "Sbpl.FpProps.fill_encloses",
    "Sbpl.FpProps.footprint_encloses",
    "Sbpl.FpProps.point_robot",
    "Sbpl.FpProps.motion_exact",
    "Sbpl.FpProps.rounding_misses_cells",
    "Sbpl.FpProps.small_robot_wrong_cell"
   ],
   "note": "exactness of the filling under the ghost flag that the queue of the search never was full"
  },
  {
   "property": "C62",
   "status": "proved",
   "theorems": [
    "Sbpl.AdjProps.history_is_graph",
    "Sbpl.AdjProps.graph_wf",
    "Sbpl.AdjProps.duplicate_point_lost",
    "Sbpl.AdjProps.self_loop_removal"
   ],
   "note": ""
  },
  {
   "property": "C63",
   "status": "proved",
   "theorems": [
    "Sbpl.AdjProps.findOptimalPath_correct",
    "Sbpl.AdjProps.eps_irrelevant"
   ],
   "note": "time budgets as in C17-C25; eps in fifths"
  },
  {
   "property": "C64",
   "status": "proved",
   "theorems": [
    "Sbpl.ADProps.replan_path_sound",
    "Sbpl.ADProps.replan_failure_empty",
    "Sbpl.ADProps.histOk_of_plain"
   ],
   "note": "covered calls: HistOk (histOk_of_plain gives a simple sufficient condition)"
  },
  {
   "property": "C65",
   "status": "proved",
   "theorems": [
    "Sbpl.ADProps.replan_bound",
    "Sbpl.ADProps.replan_bound_fractional"
   ],
   "note": "covered calls: HistOk (histOk_of_plain gives a simple sufficient condition)"
  },
  {
   "property": "C66",
   "status": "proved",
   "theorems": [
    "Sbpl.ADProps.replan_failure_complete"
   ],
   "note": "covered calls: HistOk (histOk_of_plain gives a simple sufficient condition)"
  },
  {
   "property": "C67",
   "status": "proved",
   "theorems": [
    "Sbpl.ADProps.replan_expands_twice"
   ],
   "note": "covered calls: HistOk (histOk_of_plain gives a simple sufficient condition)"
  },
  {
   "property": "C68",
   "status": "proved",
   "theorems": [
    "Sbpl.ADProps.replan_path_length",
    "Sbpl.ADProps.long_path_is_lost"
   ],
   "note": ""
  },
  {
   "property": "C69",
   "status": "proved",
   "theorems": [
    "Sbpl.ADProps.replan_exceptions",
    "Sbpl.ADProps.costsChanged_exceptions"
   ],
   "note": "covered calls: HistOk (histOk_of_plain gives a simple sufficient condition)"
  },
  {
   "property": "C70",
   "status": "proved",
   "theorems": [
    "Sbpl.ADProps.replan_reaches_final_eps"
   ],
   "note": "covered calls: HistOk (histOk_of_plain gives a simple sufficient condition)"
  },
  {
   "property": "C71",
   "status": "proved",
   "theorems": [
    "Sbpl.ADProps.opened_way_is_missed"
   ],
   "note": "refuted expectation, witness"
  },
  {
   "property": "C72",
   "status": "proved",
   "theorems": [
    "Sbpl.ADProps.moved_goal_raises"
   ],
   "note": "refuted expectation, witness"
  },
  {
   "property": "C73",
   "status": "proved",
   "theorems": [
    "Sbpl.ADProps.nav2d_dearer_cell_raises",
    "Sbpl.ADProps.nav2d_new_obstacle_empty_path"
   ],
   "note": "refuted expectation, witness"
  },
  {
   "property": "C74",
   "status": "proved",
   "theorems": [
    "Sbpl.LazyProps.path_sound",
    "Sbpl.LazyProps.first_not_cut",
    "Sbpl.LazyProps.stdQueue_ok"
   ],
   "note": "any priority queue satisfying QueueOk (stdQueue_ok); covered calls: HistOk"
  },
  {
   "property": "C75",
   "status": "proved",
   "theorems": [
    "Sbpl.LazyProps.bound",
    "Sbpl.LazyProps.bound_general"
   ],
   "note": "any priority queue satisfying QueueOk (stdQueue_ok); covered calls: HistOk"
  },
  {
   "property": "C76",
   "status": "proved",
   "theorems": [
    "Sbpl.LazyProps.true_costs_bound"
   ],
   "note": "any priority queue satisfying QueueOk (stdQueue_ok); covered calls: HistOk"
  },
  {
   "property": "C77",
   "status": "proved",
   "theorems": [
    "Sbpl.LazyProps.expands_once"
   ],
   "note": "any priority queue satisfying QueueOk (stdQueue_ok); covered calls: HistOk"
  },
  {
   "property": "C78",
   "status": "proved",
   "theorems": [
    "Sbpl.LazyProps.exceptions"
   ],
   "note": "any priority queue satisfying QueueOk (stdQueue_ok); covered calls: HistOk"
  },
  {
   "property": "C79",
   "status": "proved",
   "theorems": [
    "Sbpl.LazyProps.ids_consumed"
   ],
   "note": "any priority queue satisfying QueueOk (stdQueue_ok); covered calls: HistOk"
  },
  {
   "property": "C80",
   "status": "proved",
   "theorems": [
    "Sbpl.LazyProps.backward_path_reversed",
    "Sbpl.LazyProps.backward_wrong_way",
    "Sbpl.LazyProps.backward_misses"
   ],
   "note": "refuted expectation; universal statement and witnesses"
  },
  {
   "property": "C81",
   "status": "proved",
   "theorems": [
    "Sbpl.LazyProps.timeout_reports_nonexistent_edge"
   ],
   "note": "refuted expectation, witness"
  },
  {
   "property": "C82",
   "status": "proved",
   "theorems": [
    "Sbpl.LazyProps.reported_cost_too_low"
   ],
   "note": "refuted expectation, witness; the other direction is part of C74"
  },
  {
   "property": "C83",
   "status": "proved",
   "theorems": [
    "Sbpl.LazyProps.reported_eps_not_a_bound"
   ],
   "note": "refuted expectation, witness with the model of libstdc++'s heap"
  },
  {
   "property": "C84",
   "status": "proved",
   "theorems": [
    "Sbpl.LazyProps.stale_goal_heuristic"
   ],
   "note": "refuted expectation, witness"
  },
  {
   "property": "C85",
   "status": "proved",
   "theorems": [
    "Sbpl.LazyProps.enough_time",
    "Sbpl.LazyProps.enough_time_found",
    "Sbpl.LazyProps.stdQueue_perm"
   ],
   "note": "bound on the number of loop turns from a potential (unevaluated candidates + states not yet expanded in the pass); the full-heap exception stays possible"
  },
  {
   "property": "C86",
   "status": "proved",
   "theorems": [
    "Sbpl.ANAProps.replan_path_sound"
   ],
   "note": "histories: Ready (C92, C93 show why)"
  },
  {
   "property": "C87",
   "status": "proved",
   "theorems": [
    "Sbpl.ANAProps.replan_exceptions"
   ],
   "note": "histories: Ready (C92, C93 show why)"
  },
  {
   "property": "C88",
   "status": "proved",
   "theorems": [
    "Sbpl.ANAProps.replan_bound",
    "Sbpl.ANAProps.admOk_of_heurOk"
   ],
   "note": "histories: Ready (C92, C93 show why)"
  },
  {
   "property": "C89",
   "status": "proved",
   "theorems": [
    "Sbpl.ANAProps.replan_optimal",
    "Sbpl.ANAProps.replan_complete"
   ],
   "note": "histories: Ready (C92, C93 show why); the full-heap exception stays possible"
  },
  {
   "property": "C90",
   "status": "proved",
   "theorems": [
    "Sbpl.ANAProps.replan_monotone"
   ],
   "note": "histories: Ready (C92, C93 show why)"
  },
  {
   "property": "C91",
   "status": "proved",
   "theorems": [
    "Sbpl.ANAProps.replan_expansions"
   ],
   "note": "histories: Ready (C92, C93 show why)"
  },
  {
   "property": "C92",
   "status": "proved",
   "theorems": [
    "Sbpl.ANAProps.goal_change_misses_path",
    "Sbpl.ANAProps.goal_change_stale_path"
   ],
   "note": "refuted expectation, witnesses"
  },
  {
   "property": "C93",
   "status": "proved",
   "theorems": [
    "Sbpl.ANAProps.expired_replan_stale",
    "Sbpl.ANAProps.expired_replan_raises",
    "Sbpl.ANAProps.eps_not_lowered",
    "Sbpl.ANAProps.zero_cost_edge_raises"
   ],
   "note": "refuted expectations, witnesses"
  },
  {
   "property": "C94",
   "status": "proved",
   "theorems": [
    "Sbpl.XYTARAProps.ana_xyt_path",
    "Sbpl.XYTARAProps.ana_xyt_bound"
   ],
   "note": "under the IEEE idealisation and the footprint hypotheses of C60-C66; whole nominal velocity for the bound"
  },
  {
   "property": "C95",
   "status": "proved",
   "theorems": [
    "Sbpl.XYTARAProps.ad_xyt_path",
    "Sbpl.XYTARAProps.ad_xyt_bound",
    "Sbpl.XYTARAProps.xyt_covers",
    "Sbpl.XYTARAProps.xyt_stepOk"
   ],
   "note": "the reported states of the environment satisfy the hypothesis of the AD* theorems; heuristics re-read condition and newly opened passages as in C71"
  },
  {
   "property": "C96",
   "status": "proved",
   "theorems": [
    "Sbpl.RStarProps.rstar_backward_path",
    "Sbpl.RStarProps.rstar_forward_path"
   ],
   "note": "arbitrary AreEquivalent, random successors and clock; 16-bit call counter and overflow not modelled"
  },
  {
   "property": "C97",
   "status": "proved",
   "theorems": [
    "Sbpl.RStarProps.rstar_memory_safe"
   ],
   "note": "arbitrary AreEquivalent, random successors and clock; 16-bit call counter and overflow not modelled"
  },
  {
   "property": "C98",
   "status": "proved",
   "theorems": [
    "Sbpl.RStarProps.rstar_no_exception"
   ],
   "note": "noTermination in the theorem stands for loops longer than the model's fuel"
  },
  {
   "property": "C99",
   "status": "proved",
   "theorems": [
    "Sbpl.RStarProps.rstar_forward_not_from_start"
   ],
   "note": "refuted expectation, for every environment and history"
  },
  {
   "property": "C100",
   "status": "proved",
   "theorems": [
    "Sbpl.RStarProps.rstar_start_is_goal"
   ],
   "note": "refuted expectation, for every environment and history"
  },
  {
   "property": "C101",
   "status": "proved",
   "theorems": [
    "Sbpl.RStarProps.rstar_incomplete"
   ],
   "note": "refuted expectation, witness"
  },
  {
   "property": "C102",
   "status": "proved",
   "theorems": [
    "Sbpl.RStarProps.rstar_equiv_exception"
   ],
   "note": "refuted expectation, witness"
  },
  {
   "property": "C103",
   "status": "proved",
   "theorems": [
    "Sbpl.EvProps.evaluate_no_exception",
    "Sbpl.EvProps.evaluate_full_iff"
   ],
   "note": "float and double as exact rationals"
  },
  {
   "property": "C104",
   "status": "proved",
   "theorems": [
    "Sbpl.EvProps.evaluate_value"
   ],
   "note": "float and double as exact rationals"
  },
  {
   "property": "C105",
   "status": "proved",
   "theorems": [
    "Sbpl.EvProps.evaluate_returns",
    "Sbpl.EvProps.evaluate_hangs"
   ],
   "note": "float and double as exact rationals"
  },
  {
   "property": "C106",
   "status": "proved",
   "theorems": [
    "Sbpl.EvProps.evaluate_exact"
   ],
   "note": "float and double as exact rationals"
  },
  {
   "property": "C107",
   "status": "proved",
   "theorems": [
    "Sbpl.EvProps.evaluate_merges_cycles"
   ],
   "note": "float and double as exact rationals"
  },
  {
   "property": "C108",
   "status": "proved",
   "theorems": [
    "Sbpl.EvProps.evaluate_goal_probability"
   ],
   "note": "float and double as exact rationals"
  },
  {
   "property": "C109",
   "status": "proved",
   "theorems": [
    "Sbpl.EvProps.evaluate_goal_probability_wrong"
   ],
   "note": "refuted expectation, witness"
  },
  {
   "property": "C110",
   "status": "proved",
   "theorems": [
    "Sbpl.ArmProps.isValid_correct",
    "Sbpl.ArmProps.clear_line",
    "Sbpl.ArmProps.rejected_reason",
    "Sbpl.ArmProps.effector_cell",
    "Sbpl.ArmProps.atGoal_iff"
   ],
   "note": "exact arithmetic (an ordered field); cos and sin as tables; reading the configuration file not modelled"
  },
  {
   "property": "C111",
   "status": "proved",
   "theorems": [
    "Sbpl.ArmProps.init_correct",
    "Sbpl.ArmProps.heuristics_iff_square",
    "Sbpl.ArmProps.wide_map_corrupts"
   ],
   "note": "includes refuted expectation for maps that are not square"
  },
  {
   "property": "C112",
   "status": "proved",
   "theorems": [
    "Sbpl.ArmProps.succs_correct",
    "Sbpl.ArmProps.ids_correct"
   ],
   "note": "exact arithmetic (an ordered field); cos and sin as tables; reading the configuration file not modelled; the goal state also stands for the configuration with all joints 0, see C114"
  },
  {
   "property": "C113",
   "status": "proved",
   "theorems": [
    "Sbpl.ArmProps.heuristic_consistent"
   ],
   "note": "exact arithmetic (an ordered field); cos and sin as tables; reading the configuration file not modelled"
  },
  {
   "property": "C114",
   "status": "proved",
   "theorems": [
    "Sbpl.ArmExProps.zero_is_goal_refuted",
    "Sbpl.ArmMoreProps.edgeCost_always_one",
    "Sbpl.ArmMoreProps.areEquivalent_iff"
   ],
   "note": "refuted expectations: witness; for all states"
  },
  {
   "property": "C115",
   "status": "proved",
   "theorems": [
    "Sbpl.ArmTrigProps.discretize_fine"
   ],
   "note": "over the real numbers; the hairline case is excluded by a hypothesis"
  },
  {
   "property": "C116",
   "status": "proved",
   "theorems": [
    "Sbpl.ArmARAProps.path_correct",
    "Sbpl.ArmARAProps.path_ends_at_goal",
    "Sbpl.ArmARAProps.armPEnv_succs",
    "Sbpl.ArmARAProps.armPEnv_heur",
    "Sbpl.ArmARAProps.numbering_exists"
   ],
   "note": "exact arithmetic (an ordered field); cos and sin as tables; reading the configuration file not modelled"
  },
  {
   "property": "C117",
   "status": "proved",
   "theorems": [
    "Sbpl.ArmARAProps.cost_bound",
    "Sbpl.ArmARAProps.failure_complete"
   ],
   "note": "exact arithmetic (an ordered field); cos and sin as tables; reading the configuration file not modelled"
  },
  {
   "property": "C118",
   "status": "proved",
   "theorems": [
    "Sbpl.ArmMoreProps.coord_near",
    "Sbpl.ArmMoreProps.coord_roundtrip",
    "Sbpl.ArmMoreProps.coord_negative",
    "Sbpl.ArmMoreProps.coord_beyond"
   ],
   "note": "includes refuted expectation"
  },
  {
   "property": "C119",
   "status": "proved",
   "theorems": [
    "Sbpl.ArmRandProps.rand_correct",
    "Sbpl.ArmRandProps.rand_few_values"
   ],
   "note": "includes refuted expectation"
  },
  {
   "property": "C120",
   "status": "proved",
   "theorems": [
    "Sbpl.VIProps.value_lower_bound",
    "Sbpl.VIProps.value_le_plan",
    "Sbpl.VIProps.value_le_policy",
    "Sbpl.VIProps.value_ge_heuristic"
   ],
   "note": "float values are exact rationals; the environment does not change"
  },
  {
   "property": "C121",
   "status": "proved",
   "theorems": [
    "Sbpl.VIProps.replan_answer",
    "Sbpl.VIProps.replan_returns"
   ],
   "note": "includes refuted expectation; float values are exact rationals; the environment does not change"
  },
  {
   "property": "C122",
   "status": "proved",
   "theorems": [
    "Sbpl.VIProps.converged_full",
    "Sbpl.VIProps.converged_cost",
    "Sbpl.VIProps.converged_optimal"
   ],
   "note": "float values are exact rationals; the environment does not change"
  },
  {
   "property": "C123",
   "status": "proved",
   "theorems": [
    "Sbpl.VIProps.unreachable_never_converges"
   ],
   "note": "refuted expectation; float values are exact rationals; the environment does not change"
  },
  {
   "property": "C124",
   "status": "proved",
   "theorems": [
    "Sbpl.VIProps.replan_converges"
   ],
   "note": "float values are exact rationals; the environment does not change"
  },
  {
   "property": "C125",
   "status": "proved",
   "theorems": [
    "Sbpl.VIProps.policy_built",
    "Sbpl.VIProps.policy_evaluated"
   ],
   "note": "float values are exact rationals; the environment does not change"
  },
  {
   "property": "C126",
   "status": "proved",
   "theorems": [
    "Sbpl.VIProps.second_planner_idle"
   ],
   "note": "refuted expectation"
  },
  {
   "property": "C127",
   "status": "proved",
   "theorems": [
    "Sbpl.VIExProps.stale_marks"
   ],
   "note": "refuted expectation"
  },
  {
   "property": "C128",
   "status": "proved",
   "theorems": [
    "Sbpl.MLevProps.succs_exact",
    "Sbpl.MLevProps.goal_absorbing"
   ],
   "note": "model Model/MLev, histories MHist; cells covered by the polygon are an input"
  },
  {
   "property": "C129",
   "status": "proved",
   "theorems": [
    "Sbpl.MLevProps.preds_exact",
    "Sbpl.MLevProps.succs_preds_dual"
   ],
   "note": "model Model/MLev, histories MHist; cells covered by the polygon are an input"
  },
  {
   "property": "C130",
   "status": "proved",
   "theorems": [
    "Sbpl.MLevProps.medge_sound",
    "Sbpl.MLevProps.medge_nil",
    "Sbpl.MLevProps.medge_mono"
   ],
   "note": "model Model/MLev, histories MHist; cells covered by the polygon are an input"
  },
  {
   "property": "C131",
   "status": "proved",
   "theorems": [
    "Sbpl.MLevProps.cell_queries",
    "Sbpl.MLevProps.config_exact"
   ],
   "note": "model Model/MLev, histories MHist; cells covered by the polygon are an input"
  },
  {
   "property": "C132",
   "status": "proved",
   "theorems": [
    "Sbpl.MLevARAProps.ara_mlev_path",
    "Sbpl.MLevARAProps.ara_mlev_bound",
    "Sbpl.MLevARAProps.mlevPEnv_succs",
    "Sbpl.MLevARAProps.mlevPEnv_preds"
   ],
   "note": "model Model/MLev, histories MHist; cells covered by the polygon are an input; the planner sees the environment through mlevPEnv, which mlevPEnv_succs/preds relate to the stateful model"
  },
  {
   "property": "C133",
   "status": "proved",
   "theorems": [
    "Sbpl.MLevProps.base_footprint_checked_everywhere",
    "Sbpl.MLevProps.medge_of_levels"
   ],
   "note": "refuted expectation, and the condition under which it holds"
  },
  {
   "property": "C134",
   "status": "proved",
   "theorems": [
    "Sbpl.MLevProps.config_vs_transitions"
   ],
   "note": "refuted expectation; footprints computed by the model of get_2d_footprint_cells"
  },
  {
   "property": "C135",
   "status": "proved",
   "theorems": [
    "Sbpl.XYTPathProps.convert_exact",
    "Sbpl.XYTPathProps.convert_total",
    "Sbpl.XYTPathProps.convert_path_ok"
   ],
   "note": "doubles are exact rationals; poses of primitives and covered cells are inputs"
  },
  {
   "property": "C136",
   "status": "proved",
   "theorems": [
    "Sbpl.XYTPathProps.follows_safe",
    "Sbpl.XYTPathProps.follows_continuous"
   ],
   "note": "about the poses described by C135 (Follows); closed cells because CONTXY2DISC rounds negative cell borders down"
  },
  {
   "property": "C137",
   "status": "proved",
   "theorems": [
    "Sbpl.XYTPathProps.goal_pose_missing",
    "Sbpl.XYTPathProps.turn_lost"
   ],
   "note": "refuted expectation, witnesses evaluated in the kernel"
  },
  {
   "property": "C138",
   "status": "proved",
   "theorems": [
    "Sbpl.XYTPrimProps.cost_least",
    "Sbpl.XYTPrimProps.angle_least",
    "Sbpl.XYTPrimProps.cost_mult",
    "Sbpl.XYTPrimProps.cost_covers_length",
    "Sbpl.XYTPrimProps.computed_not_too_fast",
    "Sbpl.XYTPrimProps.computed_positive",
    "Sbpl.XYTPrimProps.path_cost_covers"
   ],
   "note": "lengths are real numbers (no rounding of double), the multiplier is not negative"
  },
  {
   "property": "C139",
   "status": "proved",
   "theorems": [
    "Sbpl.XYTPrimProps.accepted_end",
    "Sbpl.XYTPrimProps.exact_accepted"
   ],
   "note": "the text of the file: C151"
  },
  {
   "property": "C140",
   "status": "proved",
   "theorems": [
    "Sbpl.XYTPrimProps.headings_nearest",
    "Sbpl.XYTPrimProps.headings_roundtrip",
    "Sbpl.XYTPrimProps.headings_wrap"
   ],
   "note": "exact arithmetic"
  },
  {
   "property": "C141",
   "status": "proved",
   "theorems": [
    "Sbpl.XYTPrimProps.accepted_too_fast"
   ],
   "note": "refuted expectation, witness evaluated in the kernel"
  },
  {
   "property": "C142",
   "status": "proved",
   "theorems": [
    "Sbpl.ARA16Props.counters_harmless",
    "Sbpl.ARA16Props.replan16_sound_bound"
   ],
   "note": "numofexpands (statistics) not modelled"
  },
  {
   "property": "C143",
   "status": "proved",
   "theorems": [
    "Sbpl.ARA16Props.wraparound_not_optimal"
   ],
   "note": "refuted expectation; the 65534 idle plans of the witness are handled by induction"
  },
  {
   "property": "C144",
   "status": "proved",
   "theorems": [
    "Sbpl.Nav2DProps.random_neighbours",
    "Sbpl.Nav2DProps.random_neighbours_entries",
    "Sbpl.Nav2DProps.random_calls",
    "Sbpl.Nav2DProps.neighbour_ring",
    "Sbpl.Nav2DProps.neighbour_direction",
    "Sbpl.Nav2DProps.equivalent_iff_equal"
   ],
   "note": "Directions are real numbers with exact cos and sin; conversions to float are not modelled."
  },
  {
   "property": "C145",
   "status": "proved",
   "theorems": [
    "Sbpl.Nav2DProps.rstar_nav2d_forward",
    "Sbpl.Nav2DProps.rstar_nav2d_backward",
    "Sbpl.Nav2DProps.rstar_nav2d_no_exception"
   ],
   "note": "The random neighbours are arbitrary lists (C144 describes those really drawn). Forward paths in the form of C99."
  },
  {
   "property": "C146",
   "status": "proved",
   "theorems": [
    "Sbpl.Nav2DProps.ana_nav2d_path",
    "Sbpl.Nav2DProps.mha_nav2d_path",
    "Sbpl.Nav2DProps.mha_nav2d_bound",
    "Sbpl.Nav2DProps.lazy_nav2d_path",
    "Sbpl.Nav2DProps.lazy_nav2d_bound"
   ],
   "note": "ANA* has no bound here: the heuristic of the environment is not exactly admissible (rounding), which C88 requires."
  },
  {
   "property": "C147",
   "status": "proved",
   "theorems": [
    "Sbpl.CfgFileProps.nav2d_file_read",
    "Sbpl.CfgFileProps.nav2d_file_cells_missing",
    "Sbpl.CfgFileProps.nav2d_file_start_outside",
    "Sbpl.CfgFileProps.nav2d_file_goal_outside",
    "Sbpl.CfgFileProps.nav2d_file_safe"
   ],
   "note": "fscanf, atoi, atof modelled on lists of characters, exact numbers; inf, nan and hexadecimal numbers are not modelled; allocation succeeds"
  },
  {
   "property": "C148",
   "status": "proved",
   "theorems": [
    "Sbpl.CfgFileProps.nav2d_file_wraps",
    "Sbpl.CfgFileProps.nav2d_file_labels_ignored",
    "Sbpl.CfgFileProps.nav2d_file_overflow"
   ],
   "note": "refuted expectation"
  },
  {
   "property": "C149",
   "status": "proved",
   "theorems": [
    "Sbpl.CfgFileXProps.xyt_file_read",
    "Sbpl.CfgFileXProps.xyt_file_cells_missing",
    "Sbpl.CfgFileXProps.xyt_file_safe"
   ],
   "note": "exact numbers"
  },
  {
   "property": "C150",
   "status": "proved",
   "theorems": [
    "Sbpl.CfgFileXProps.xyt_file_nonsense_accepted"
   ],
   "note": "refuted expectation"
  },
  {
   "property": "C151",
   "status": "proved",
   "theorems": [
    "Sbpl.PrimFileProps.prim_file_read",
    "Sbpl.PrimFileProps.prim_file_bad_end",
    "Sbpl.PrimFileProps.prim_file_wrong_grid",
    "Sbpl.PrimFileProps.prim_file_safe"
   ],
   "note": "uniform headings; exact numbers (the code compares the cell size as a float); negative cost factors not modelled"
  },
  {
   "property": "C152",
   "status": "proved",
   "theorems": [
    "Sbpl.PrimFileProps.prim_file_truncated",
    "Sbpl.PrimFileProps.prim_file_cut_accepted",
    "Sbpl.PrimFileProps.prim_file_heading_unchecked"
   ],
   "note": "refuted expectation"
  },
  {
   "property": "C153",
   "status": "proved",
   "theorems": [
    "Sbpl.CfgFileProps.file_to_plan"
   ],
   "note": "composition of C147 and C32"
  },
  {
   "property": "C154",
   "status": "proved",
   "theorems": [
    "Sbpl.NavUUProps.ids_distinct",
    "Sbpl.NavUUProps.set_accepts",
    "Sbpl.NavUUProps.ids_collide"
   ],
   "note": "IDs beyond 1024 rows: refuted expectation"
  },
  {
   "property": "C155",
   "status": "proved",
   "theorems": [
    "Sbpl.NavUUProps.init_square",
    "Sbpl.NavUUProps.init_wide",
    "Sbpl.NavUUProps.init_high"
   ],
   "note": "maps that are not square: refuted expectation"
  },
  {
   "property": "C156",
   "status": "proved",
   "theorems": [
    "Sbpl.NavUUProps.preds_exact",
    "Sbpl.NavUUProps.preds_blocked",
    "Sbpl.NavUUProps.preds_probabilities",
    "Sbpl.NavUUProps.ready_init"
   ],
   "note": "for numofdirs = 8, which the class never sets; exact numbers"
  },
  {
   "property": "C157",
   "status": "proved",
   "theorems": [
    "Sbpl.NavUUProps.no_deterministic_actions",
    "Sbpl.NavUUProps.report_closes_free_cells",
    "Sbpl.NavUUProps.unset_directions",
    "Sbpl.NavUUProps.preds_uninit",
    "Sbpl.NavUUProps.blocked_source_listed",
    "Sbpl.NavUUProps.updateCost_spec",
    "Sbpl.NavUUProps.cleared_obstacle_stays_closed"
   ],
   "note": "refuted expectation"
  },
  {
   "property": "C158",
   "status": "proved",
   "theorems": [
    "Sbpl.NavUUProps.file_square",
    "Sbpl.NavUUProps.file_probability_of_obstacle",
    "Sbpl.NavUUProps.file_wide_oob"
   ],
   "note": "exact numbers"
  },
  {
   "property": "C159",
   "status": "proved",
   "theorems": [
    "Sbpl.XFileProps.files_init",
    "Sbpl.XFileProps.files_accepted_iff",
    "Sbpl.XFileProps.files_to_lattice_plan"
   ],
   "note": "uniform headings, at most 128 of them; exact numbers; footprint cells are an input"
  },
  {
   "property": "C160",
   "status": "proved",
   "theorems": [
    "Sbpl.VIAnyProps.value_le_plan",
    "Sbpl.VIAnyProps.converged_cost",
    "Sbpl.VIAnyProps.converged_near_optimal",
    "Sbpl.VIAnyProps.replan_returns",
    "Sbpl.VIAnyProps.graph_value_le",
    "Sbpl.VIAnyProps.graph_converged",
    "Sbpl.VIAnyProps.graph_near_optimal"
   ],
   "note": "exact arithmetic; bounds hold when the planner stops by convergence (that it does so: C124, C165)"
  },
  {
   "property": "C161",
   "status": "proved",
   "theorems": [
    "Sbpl.VIGraphProps.nav_actions",
    "Sbpl.VIGraphProps.nav_actions_edges",
    "Sbpl.VIGraphProps.vi_nav2d"
   ],
   "note": "exact arithmetic; after convergence"
  },
  {
   "property": "C162",
   "status": "proved",
   "theorems": [
    "Sbpl.VIGraphProps.xyt_actions",
    "Sbpl.VIGraphProps.xyt_actions_edges",
    "Sbpl.VIGraphProps.vi_xyt",
    "Sbpl.VIGraphProps.adj_actions",
    "Sbpl.VIGraphProps.vi_adj"
   ],
   "note": "exact arithmetic; after convergence"
  },
  {
   "property": "C163",
   "status": "proved",
   "theorems": [
    "Sbpl.BucketProps.bucket_empty_iff",
    "Sbpl.BucketProps.bucket_min_priority",
    "Sbpl.BucketProps.bucket_min_element",
    "Sbpl.BucketProps.bucket_pop",
    "Sbpl.BucketProps.bucket_insert_total",
    "Sbpl.BucketProps.bucket_remove_total",
    "Sbpl.BucketProps.bucket_reset",
    "Sbpl.BucketProps.bucket_drain_sorted"
   ],
   "note": "under the stated restriction on the mixed bucket, necessary by C164"
  },
  {
   "property": "C164",
   "status": "proved",
   "theorems": [
    "Sbpl.BucketProps.bucket_stale_priority",
    "Sbpl.BucketProps.bucket_wrong_order",
    "Sbpl.BucketProps.bucket_makeempty_keeps",
    "Sbpl.BucketProps.bucket_range_ignored"
   ],
   "note": "refuted expectation"
  },
  {
   "property": "C165",
   "status": "proved",
   "theorems": [
    "Sbpl.VIConvProps.graph_converges",
    "Sbpl.VIConvProps.vi_nav2d_converges",
    "Sbpl.VIConvProps.vi_nav2d_stops_iff",
    "Sbpl.VIConvProps.vi_xyt_converges",
    "Sbpl.VIConvProps.vi_adj_converges"
   ],
   "note": "exact arithmetic"
  },
  {
   "property": "C166",
   "status": "proved",
   "theorems": [
    "Sbpl.XInitProps.set_succeeds_iff",
    "Sbpl.XInitProps.get_last",
    "Sbpl.XInitProps.args_init",
    "Sbpl.XInitProps.connectivity"
   ],
   "note": "a file of motion primitives is given; footprint cells are an input"
  },
  {
   "property": "C167",
   "status": "proved",
   "theorems": [
    "Sbpl.XInitProps.copy",
    "Sbpl.XInitProps.current_edges"
   ],
   "note": "exact arithmetic; uniform headings; SetStart/SetGoal avoid the angle of C34"
  },
  {
   "property": "C168",
   "status": "proved",
   "theorems": [
    "Sbpl.XInitProps.disc_pose",
    "Sbpl.XInitProps.cont_pose",
    "Sbpl.XInitProps.cont_pose_heading"
   ],
   "note": "exact arithmetic; uniform headings; states the exceptional angle"
  },
  {
   "property": "C169",
   "status": "proved",
   "theorems": [
    "Sbpl.ARASubProps.range",
    "Sbpl.ARASubProps.optimal_reports_one",
    "Sbpl.ARASubProps.sound",
    "Sbpl.ARASubProps.minus_one_iff"
   ],
   "note": "exact arithmetic; no integer overflow of g+h"
  },
  {
   "property": "C170",
   "status": "proved",
   "theorems": [
    "Sbpl.ARASubProps.reports_optimal_wrongly",
    "Sbpl.ARASubProps.reports_error_for_optimal"
   ],
   "note": "negative results"
  },
  {
   "property": "C171",
   "status": "proved",
   "theorems": [
    "Sbpl.ARAMachProps.overflow_harmless",
    "Sbpl.ARAMachProps.replanM_sound_bound"
   ],
   "note": "eps arithmetic exact"
  },
  {
   "property": "C172",
   "status": "proved",
   "theorems": [
    "Sbpl.ARAMachProps.overflow_observable",
    "Sbpl.ARAMachProps.cheap_path_missed"
   ],
   "note": "negative results"
  },
  {
   "property": "C173",
   "status": "proved",
   "theorems": [
    "Sbpl.AgreeProps.reports_least",
    "Sbpl.AgreeProps.planners_agree",
    "Sbpl.AgreeProps.failures_agree",
    "Sbpl.AgreeProps.fail_or_report",
    "Sbpl.AgreeProps.ara_least",
    "Sbpl.AgreeProps.ad_least",
    "Sbpl.AgreeProps.ana_least",
    "Sbpl.AgreeProps.mha_least",
    "Sbpl.AgreeProps.lazy_least"
   ],
   "note": "AD* solutions without a path (above 100000 cost units, C68) and MHA*'s goal-alone answers (C40) excluded; Lazy ARA*: forward, listed costs true"
  },
  {
   "property": "C174",
   "status": "proved",
   "theorems": [
    "Sbpl.AgreeProps.repair_eq_scratch"
   ],
   "note": "histories covered by C64-C70 (all changes announced, no edge opened to a state never visited)"
  },
  {
   "property": "C175",
   "status": "proved",
   "theorems": [
    "Sbpl.TabProps.shared_as_private",
    "Sbpl.TabProps.get_outcome",
    "Sbpl.TabProps.never_ub",
    "Sbpl.TabProps.same_record",
    "Sbpl.TabProps.different_record"
   ],
   "note": "allowed histories defined by TabSpec.Legal"
  },
  {
   "property": "C176",
   "status": "proved",
   "theorems": [
    "Sbpl.TabProps.second_planner_reads_outside",
    "Sbpl.TabProps.interleaved_planners_confuse",
    "Sbpl.TabProps.free_memory_affects_others"
   ],
   "note": "refuted expectations, for all combinations of planner kinds"
  },
  {
   "property": "C177",
   "status": "proved",
   "theorems": [
    "Sbpl.XYTLazyProps.lazy_xyt_path",
    "Sbpl.XYTLazyProps.lazy_xyt_bound",
    "Sbpl.XYTLazyProps.lazy_xyt_bound_whole",
    "Sbpl.XYTLazyProps.xytLEnv_succs",
    "Sbpl.XYTLazyProps.xytLEnv_preds",
    "Sbpl.XYTLazyProps.xytLEnv_true"
   ],
   "note": "forward search; backward search is refuted by C80"
  },
  {
   "property": "C178",
   "status": "proved",
   "theorems": [
    "Sbpl.XYTLazyProps.lazy_xyt_missed"
   ],
   "note": "refuted expectation with witness"
  },
  {
   "property": "C179",
   "status": "proved",
   "theorems": [
    "Sbpl.XDflProps.default_init",
    "Sbpl.XDflProps.default_hist",
    "Sbpl.XDflProps.default_init_total",
    "Sbpl.XDflProps.setup_ok",
    "Sbpl.XInitProps.args_none_init",
    "Sbpl.XInitProps.args_init",
    "Sbpl.XInitProps.copy_none"
   ],
   "note": "at most 128 headings"
  },
  {
   "property": "C180",
   "status": "proved",
   "theorems": [
    "Sbpl.XDflProps.default_edge",
    "Sbpl.XDflProps.default_succs",
    "Sbpl.XDflProps.default_preds"
   ],
   "note": "real sine, cosine and square root instead of double"
  },
  {
   "property": "C181",
   "status": "proved",
   "theorems": [
    "Sbpl.XDflProps.step_direction",
    "Sbpl.XDflProps.edge_shape"
   ],
   "note": ""
  },
  {
   "property": "C182",
   "status": "proved",
   "theorems": [
    "Sbpl.XDflProps.footprint_ignored",
    "Sbpl.XDflProps.collision_reported"
   ],
   "note": "refuted expectation with witness"
  },
  {
   "property": "C183",
   "status": "proved",
   "theorems": [
    "Sbpl.XDflProps.no_poses",
    "Sbpl.XDflProps.path_lost",
    "Sbpl.XDflProps.file_headings",
    "Sbpl.XDflProps.empty_file"
   ],
   "note": "refuted expectations"
  },
  {
   "property": "C184",
   "status": "proved",
   "theorems": [
    "Sbpl.XDflProps.ara_default_path",
    "Sbpl.XDflProps.ara_default_bound",
    "Sbpl.XDflProps.default_fast",
    "Sbpl.XDflProps.default_follow",
    "Sbpl.XDflProps.default_cost"
   ],
   "note": "real sine, cosine and square root instead of double; heuristics without int overflow"
  },
  {
   "property": "C185",
   "status": "proved",
   "theorems": [
    "Sbpl.ARAProps.infinite_heuristic",
    "Sbpl.XDflProps.box2_path",
    "Sbpl.XDflProps.box2_not_found"
   ],
   "note": "refuted expectation with witness; int overflow of eps * heuristic not modelled (none for eps <= 2)"
  },
  {
   "property": "C186",
   "status": "proved",
   "theorems": [
    "Sbpl.XAngProps.prims_set_read",
    "Sbpl.XAngProps.prims_set_bad_end",
    "Sbpl.XAngProps.prims_set_safe",
    "Sbpl.XAngProps.angles_unchecked",
    "Sbpl.XAngProps.headings_of_file"
   ],
   "note": "texts laid out as in C151; exact decimal numbers"
  },
  {
   "property": "C187",
   "status": "proved",
   "theorems": [
    "Sbpl.XAngProps.angles_hist",
    "Sbpl.XAngProps.set_goal_angles",
    "Sbpl.XAngProps.set_start_angles",
    "Sbpl.XAngProps.disc_pose_set",
    "Sbpl.XAngProps.cont_pose_set",
    "Sbpl.XAngProps.cost_least_set",
    "Sbpl.XAngProps.angle_least_set",
    "Sbpl.XAngProps.cost_mult_set",
    "Sbpl.XAngProps.cost_covers_length_set",
    "Sbpl.XAngProps.not_too_fast_set",
    "Sbpl.XAngProps.path_cost_covers_set",
    "Sbpl.XAngProps.norm_agree"
   ],
   "note": "lists that begin with 0, increase and end with 2 pi; exact numbers"
  },
  {
   "property": "C188",
   "status": "proved",
   "theorems": [
    "Sbpl.XAngProps.files_to_plan_set",
    "Sbpl.XAngProps.files_accepted_iff_set"
   ],
   "note": "as C159"
  },
  {
   "property": "C189",
   "status": "proved",
   "theorems": [
    "Sbpl.XAngProps.config_angles",
    "Sbpl.XAngProps.config_uniform_list",
    "Sbpl.XAngProps.config_angles_wrong"
   ],
   "note": "refuted expectation with witness"
  },
  {
   "property": "C190",
   "status": "proved",
   "theorems": [
    "Sbpl.XAgainProps.list_init",
    "Sbpl.XAgainProps.list_use"
   ],
   "note": "exact numbers; built-in actions with a list of headings not modelled"
  },
  {
   "property": "C191",
   "status": "proved",
   "theorems": [
    "Sbpl.XAgainProps.copy_set"
   ],
   "note": "exact numbers"
  },
  {
   "property": "C192",
   "status": "proved",
   "theorems": [
    "Sbpl.XAgainProps.accepted_iff",
    "Sbpl.XAgainProps.accepted_made",
    "Sbpl.XAgainProps.retry_same",
    "Sbpl.XAgainProps.unif_use"
   ],
   "note": "exact numbers; calls with at least one primitive read"
  },
  {
   "property": "C193",
   "status": "proved",
   "theorems": [
    "Sbpl.XAgainProps.bad_file_stays",
    "Sbpl.XAgainProps.retry_never"
   ],
   "note": "refuted expectation with witness"
  },
  {
   "property": "C194",
   "status": "proved",
   "theorems": [
    "Sbpl.XAgainProps.sticky",
    "Sbpl.XAgainProps.sticky_call"
   ],
   "note": "refuted expectation with witness"
  },
  {
   "property": "C195",
   "status": "proved",
   "theorems": [
    "Sbpl.XAgainProps.never_again"
   ],
   "note": "refuted expectation with witness"
  },
  {
   "property": "C196",
   "status": "proved",
   "theorems": [
    "Sbpl.XYTARAProps.mha_xyt_path",
    "Sbpl.XYTARAProps.mha_xyt_bound",
    "Sbpl.XYTARAProps.mha_xyt_complete"
   ],
   "note": "heuristics without int overflow; MHA* as in C36"
  },
  {
   "property": "C197",
   "status": "proved",
   "theorems": [
    "Sbpl.Nav2DProps.nav_never_again",
    "Sbpl.Nav2DProps.nav_retry_args",
    "Sbpl.Nav2DProps.nav_retry_file"
   ],
   "note": "partly refuted expectation with witness; allocations succeed"
  },
  {
   "property": "C198",
   "status": "proved",
   "theorems": [
    "Sbpl.Nav2DProps.nav_rejected",
    "Sbpl.Nav2DProps.nav_rejected_oob",
    "Sbpl.Nav2DProps.nav_rejected_oob_higher",
    "Sbpl.Nav2DProps.resize_witness",
    "Sbpl.Nav2DProps.succs_synced"
   ],
   "note": "refuted expectation with witness"
  },
  {
   "property": "C199",
   "status": "proved",
   "theorems": [
    "Sbpl.Nav2DProps.nav_copy"
   ],
   "note": ""
  },
  {
   "property": "C200",
   "status": "proved",
   "theorems": [
    "Sbpl.RobotProps.robot_moves_safe"
   ],
   "note": "ARA* branch of the program; cells numbered in advance"
  },
  {
   "property": "C201",
   "status": "proved",
   "theorems": [
    "Sbpl.RobotProps.robot_exceptions"
   ],
   "note": ""
  },
  {
   "property": "C202",
   "status": "proved",
   "theorems": [
    "Sbpl.RobotProps.robot_gives_up_rightly"
   ],
   "note": ""
  },
  {
   "property": "C203",
   "status": "proved",
   "theorems": [
    "Sbpl.RobotProps.robot_terminates"
   ],
   "note": ""
  },
  {
   "property": "C204",
   "status": "proved",
   "theorems": [
    "Sbpl.RobotProps.robot_arrives"
   ],
   "note": ""
  },
  {
   "property": "C205",
   "status": "proved",
   "theorems": [
    "Sbpl.RobotProps.ana_robot_hits_obstacle"
   ],
   "note": "refuted expectation with witness"
  },
  {
   "property": "C206",
   "status": "proved",
   "theorems": [
    "Sbpl.Nav2DProps.nav_rejected_smaller"
   ],
   "note": ""
  },
  {
   "property": "C207",
   "status": "proved",
   "theorems": [
    "Sbpl.Nav2DProps.nav_rejected_smaller_preds",
    "Sbpl.Nav2DProps.shrunk_disagree"
   ],
   "note": ""
  }
 ]
}