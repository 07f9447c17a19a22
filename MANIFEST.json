{
 "claims": [
  {
   "property": "C01",
   "status": "proved",
   "theorems": [
    "Dpgo.Props.C01_history",
    "Dpgo.Props.C01_set",
    "Dpgo.Props.C01_set_accepts",
    "Dpgo.Props.C01_set_unaltered"
   ],
   "note": "refinement of every call history to a first-write-wins edge log"
  },
  {
   "property": "C02",
   "status": "proved",
   "theorems": [
    "Dpgo.Props.C02_lookup",
    "Dpgo.Props.C02_wraparound_out_of_range",
    "Dpgo.Props.C02_set_weight"
   ],
   "note": "for ids below 2^32-1 (as quantified); C02_wraparound_out_of_range shows the range condition is needed"
  },
  {
   "property": "C03",
   "status": "proved",
   "theorems": [
    "Dpgo.Props.C03_buckets"
   ],
   "note": ""
  },
  {
   "property": "C04",
   "status": "proved",
   "theorems": [
    "Dpgo.Props.C04_num_poses"
   ],
   "note": ""
  },
  {
   "property": "C05",
   "status": "proved",
   "theorems": [
    "Dpgo.Props.C05_public_ids",
    "Dpgo.Props.C05_wraparound_own_neighbor",
    "Dpgo.Props.C05_update"
   ],
   "note": "C05_wraparound_own_neighbor shows the id range condition is needed"
  },
  {
   "property": "C06",
   "status": "proved",
   "theorems": [
    "Dpgo.Props.C06_partition",
    "Dpgo.Props.C06_statistics"
   ],
   "note": ""
  },
  {
   "property": "C07",
   "status": "proved",
   "theorems": [
    "Dpgo.Props.C07_query",
    "Dpgo.Props.C07_set",
    "Dpgo.Props.C07_new_neighbor",
    "Dpgo.Props.C07_reset"
   ],
   "note": ""
  },
  {
   "property": "C08",
   "status": "partial",
   "theorems": [
    "Dpgo.Props.C08_fresh_partial",
    "Dpgo.Props.C08_stale_weight",
    "Dpgo.Props.C08_stale_measurement",
    "Dpgo.Props.C08_stale_prior",
    "Dpgo.Props.C08_stale_inactive"
   ],
   "note": "code violates it; proved for histories that respect the caches, C08_stale_* are counterexamples for the others"
  },
  {
   "property": "C09",
   "status": "proved",
   "theorems": [
    "Dpgo.Props.C09_missing",
    "Dpgo.Props.C09_returns"
   ],
   "note": ""
  },
  {
   "property": "C10",
   "status": "partial",
   "theorems": [
    "Dpgo.Props.C10_assembly_partial",
    "Dpgo.Props.C10_linear",
    "Dpgo.Props.C10_shared_only_undefined",
    "Dpgo.Props.C10_self_loop_undefined"
   ],
   "note": "code violates it; exact condition proved, C10_shared_only_undefined and C10_self_loop_undefined are counterexamples"
  },
  {
   "property": "C11",
   "status": "proved",
   "theorems": [
    "Dpgo.Props.C11_objective",
    "Dpgo.Props.C11_difference",
    "Dpgo.Props.C11_cached"
   ],
   "note": ""
  },
  {
   "property": "C12",
   "status": "proved",
   "theorems": [
    "Dpgo.Props.C12_expansion"
   ],
   "note": ""
  },
  {
   "property": "C13",
   "status": "proved",
   "theorems": [
    "Dpgo.Props.C13_definite"
   ],
   "note": ""
  },
  {
   "property": "C14",
   "status": "proved",
   "theorems": [
    "Dpgo.Props.C14_gauge"
   ],
   "note": ""
  },
  {
   "property": "C15",
   "status": "proved",
   "theorems": [
    "Dpgo.Props.C15_local_change"
   ],
   "note": ""
  },
  {
   "property": "C16",
   "status": "proved",
   "theorems": [
    "Dpgo.Props.C16_descent"
   ],
   "note": "matrices may come from the caches; every robot starts from a graph built by setMeasurements of one edge list"
  },
  {
   "property": "C17",
   "status": "proved",
   "theorems": [
    "Dpgo.Props.C17_mul",
    "Dpgo.Props.C17_identity_value",
    "Dpgo.Props.C17_identity",
    "Dpgo.Props.C17_assoc",
    "Dpgo.Props.C17_inverse_value",
    "Dpgo.Props.C17_inverse",
    "Dpgo.Props.C17_inverse_cancels",
    "Dpgo.Props.C17_rigid",
    "Dpgo.Props.C17_matrix"
   ],
   "note": ""
  },
  {
   "property": "C18",
   "status": "proved",
   "theorems": [
    "Dpgo.Props.C18_read",
    "Dpgo.Props.C18_write_rotation",
    "Dpgo.Props.C18_write_translation",
    "Dpgo.Props.C18_write_pose",
    "Dpgo.Props.C18_out_of_range",
    "Dpgo.Props.C18_setData",
    "Dpgo.Props.C18_make"
   ],
   "note": ""
  },
  {
   "property": "C19",
   "status": "proved",
   "theorems": [
    "Dpgo.Props.C19_max_value",
    "Dpgo.Props.C19_zero_iff",
    "Dpgo.Props.C19_symmetric",
    "Dpgo.Props.C19_triangle",
    "Dpgo.Props.C19_average"
   ],
   "note": ""
  },
  {
   "property": "C20",
   "status": "proved",
   "theorems": [
    "Dpgo.Props.C20_svd_exists",
    "Dpgo.Props.C20_nearest",
    "Dpgo.Props.C20_unique",
    "Dpgo.Props.C20_fixed",
    "Dpgo.Props.C20_wide",
    "Dpgo.Props.C20_project",
    "Dpgo.Props.C20_order",
    "Dpgo.Props.C20_parallel",
    "Dpgo.Props.C20_size"
   ],
   "note": "the SVD routine is an oracle; being an SVD of the given matrix is a hypothesis, shown satisfiable for every tall matrix"
  },
  {
   "property": "C21",
   "status": "proved",
   "theorems": [
    "Dpgo.Props.C21_nearest",
    "Dpgo.Props.C21_fixed"
   ],
   "note": "same hypothesis on the SVD routine as C20"
  },
  {
   "property": "C22",
   "status": "proved",
   "theorems": [
    "Dpgo.Props.C22_threshold",
    "Dpgo.Props.C22_range",
    "Dpgo.Props.C22_L1",
    "Dpgo.Props.C22_monotone",
    "Dpgo.Props.C22_gnc_thresholds",
    "Dpgo.Props.C22_gnc_continuous",
    "Dpgo.Props.C22_tls"
   ],
   "note": ""
  },
  {
   "property": "C23",
   "status": "proved",
   "theorems": [
    "Dpgo.Props.C23_schedule",
    "Dpgo.Props.C23_cap",
    "Dpgo.Props.C23_band",
    "Dpgo.Props.C23_others"
   ],
   "note": ""
  },
  {
   "property": "C24",
   "status": "proved",
   "theorems": [
    "Dpgo.Props.C24_translation",
    "Dpgo.Props.C24_rotation",
    "Dpgo.Props.C24_pose"
   ],
   "note": "rotations: same hypothesis on the SVD routine as C20"
  },
  {
   "property": "C25",
   "status": "proved",
   "theorems": [
    "Dpgo.Props.C25_rotation",
    "Dpgo.Props.C25_pose",
    "Dpgo.Props.C25_budget",
    "Dpgo.Props.C25_rotation_total",
    "Dpgo.Props.C25_pose_total"
   ],
   "note": ""
  },
  {
   "property": "C26",
   "status": "proved",
   "theorems": [
    "Dpgo.Props.C26_rotation",
    "Dpgo.Props.C26_pose"
   ],
   "note": "same hypothesis on the SVD routine as C20"
  },
  {
   "property": "C27",
   "status": "partial",
   "theorems": [
    "Dpgo.Props.C27_agent",
    "Dpgo.Props.C27_misfit",
    "Dpgo.Props.C27_solver_partial",
    "Dpgo.Props.C27_solver_violated"
   ],
   "note": "proved for every call on an agent (C27_agent); solveRobustPGO overwrites fixed weights other than 1 (C27_solver_violated), C27_solver_partial says what it keeps"
  },
  {
   "property": "C28",
   "status": "partial",
   "theorems": [
    "Dpgo.Props.C28_chain",
    "Dpgo.Props.C28_prefix",
    "Dpgo.Props.C28_sound_partial",
    "Dpgo.Props.C28_duplicate_ignored",
    "Dpgo.Props.C28_partial_undefined"
   ],
   "note": "code violates the last clause; C28_duplicate_ignored and C28_partial_undefined are counterexamples, C28_sound_partial is what holds for every list"
  },
  {
   "property": "C29",
   "status": "proved",
   "theorems": [
    "Dpgo.Props.C29_translation",
    "Dpgo.Props.C29_rotation",
    "Dpgo.Props.C29_weights"
   ],
   "note": ""
  },
  {
   "property": "C30",
   "status": "proved",
   "theorems": [
    "Dpgo.Props.C30_recover"
   ],
   "note": "the sparse QR routine is an oracle; returning a least-squares solution is a hypothesis, shown satisfiable"
  },
  {
   "property": "C31",
   "status": "proved",
   "theorems": [
    "Dpgo.Props.C31_edge",
    "Dpgo.Props.C31_robust",
    "Dpgo.Props.C31_one_stage"
   ],
   "note": "also the average over all usable loop closures with one neighbour; hypothesis on the SVD routine as in C20"
  },
  {
   "property": "C32",
   "status": "proved",
   "theorems": [
    "Dpgo.Props.C32_supplied",
    "Dpgo.Props.C32_computed",
    "Dpgo.Props.C32_odometry"
   ],
   "note": ""
  },
  {
   "property": "C33",
   "status": "partial",
   "theorems": [
    "Dpgo.Props.C33_fallback_partial",
    "Dpgo.Props.C33_total_partial",
    "Dpgo.Props.C33_short",
    "Dpgo.Props.C33_violated"
   ],
   "note": "the trajectory of wrong length is ignored (C33_fallback_partial) and initialisation succeeds when the odometry covers all poses (C33_total_partial); otherwise the process aborts (C33_short, C33_violated)"
  },
  {
   "property": "C34",
   "status": "proved",
   "theorems": [
    "Dpgo.Props.C34_aligned",
    "Dpgo.Props.C34_consistent",
    "Dpgo.Props.C34_chain",
    "Dpgo.Props.C34_progress"
   ],
   "note": "for every schedule of the alignment phase (Spec/Alignment: any order of calls, late, repeated or lost messages, resets for the frame clause); robots share parameters with multirobot initialisation; no iteration or hand-set estimate in this phase; local trajectories are supplied, odometric or chordal (not the robust method); SVD lawful, lifting matrix orthonormal. Also progress and pairwise consistency"
  },
  {
   "property": "C35",
   "status": "proved",
   "theorems": [
    "Dpgo.Props.C35_step",
    "Dpgo.Props.C35_history",
    "Dpgo.Props.C35_leave"
   ],
   "note": ""
  },
  {
   "property": "C36",
   "status": "proved",
   "theorems": [
    "Dpgo.Props.C36_auxiliary_unused",
    "Dpgo.Props.C36_sizes",
    "Dpgo.Props.C36_queries",
    "Dpgo.Props.C36_not_initialized"
   ],
   "note": ""
  },
  {
   "property": "C37",
   "status": "proved",
   "theorems": [
    "Dpgo.Props.C37_aux_unaccelerated",
    "Dpgo.Props.C37_dict",
    "Dpgo.Props.C37_neighbor",
    "Dpgo.Props.C37_union"
   ],
   "note": ""
  },
  {
   "property": "C38",
   "status": "proved",
   "theorems": [
    "Dpgo.Props.C38_stored",
    "Dpgo.Props.C38_stored_aux",
    "Dpgo.Props.C38_required",
    "Dpgo.Props.C38_known",
    "Dpgo.Props.C38_used",
    "Dpgo.Props.C38_reported"
   ],
   "note": ""
  },
  {
   "property": "C39",
   "status": "partial",
   "theorems": [
    "Dpgo.Props.C39_plain",
    "Dpgo.Props.C39_accelerated_partial",
    "Dpgo.Props.C39_restart",
    "Dpgo.Props.C39_violated"
   ],
   "note": "proved without acceleration (C39_plain); with acceleration C39_accelerated_partial needs both stores incomplete in restarting iterations, and C39_violated shows that otherwise the claim fails"
  },
  {
   "property": "C40",
   "status": "proved",
   "theorems": [
    "Dpgo.Props.C40_counters",
    "Dpgo.Props.C40_monotone",
    "Dpgo.Props.C40_status"
   ],
   "note": "counters are 32 bit: the counts are modulo 2^32"
  },
  {
   "property": "C41",
   "status": "proved",
   "theorems": [
    "Dpgo.Props.C41_terminate"
   ],
   "note": ""
  },
  {
   "property": "C42",
   "status": "partial",
   "theorems": [
    "Dpgo.Props.C42_violated",
    "Dpgo.Props.C42_new_agent",
    "Dpgo.Props.C42_reset_partial"
   ],
   "note": "code violates it; C42_violated shows that every reset agent counts nobody as active and, with the L2 cost, announces termination; C42_reset_partial lists what is restored"
  },
  {
   "property": "C43",
   "status": "proved",
   "theorems": [
    "Dpgo.Props.C43_guard",
    "Dpgo.Props.C43_bounded",
    "Dpgo.Props.C43_L2",
    "Dpgo.Props.C43_discard",
    "Dpgo.Props.C43_spaced"
   ],
   "note": "also spacing between updates (C43_spaced)"
  },
  {
   "property": "C44",
   "status": "proved",
   "theorems": [
    "Dpgo.Props.C44_weights",
    "Dpgo.Props.C44_uninitialized",
    "Dpgo.Props.C44_rest",
    "Dpgo.Props.C44_total"
   ],
   "note": "also totality of the update"
  },
  {
   "property": "C45",
   "status": "proved",
   "theorems": [
    "Dpgo.Props.C45_agree"
   ],
   "note": ""
  },
  {
   "property": "C46",
   "status": "proved",
   "theorems": [
    "Dpgo.Props.C46_scalars",
    "Dpgo.Props.C46_step",
    "Dpgo.Props.C46_growth"
   ],
   "note": "for 2N < 2^32 (unsigned arithmetic in the code); also bounds k/(2N) <= gamma_k <= k/N"
  },
  {
   "property": "C47",
   "status": "partial",
   "theorems": [
    "Dpgo.Props.C47_restart_partial",
    "Dpgo.Props.C47_synced",
    "Dpgo.Props.C47_zero",
    "Dpgo.Props.C47_violated"
   ],
   "note": "restart and synchronisation clauses proved for every history; restart interval zero is not rejected: every accelerated iteration is undefined (C47_zero, C47_violated)"
  },
  {
   "property": "C48",
   "status": "partial",
   "theorems": [
    "Dpgo.Props.C48_first_partial",
    "Dpgo.Props.C48_relative_partial",
    "Dpgo.Props.C48_wrong",
    "Dpgo.Props.C48_violated"
   ],
   "note": "first pose and rotations hold (C48_first_partial); relative poses hold only if the first translation vanishes (C48_relative_partial, C48_wrong); C48_violated is a counterexample (aliased reference)"
  },
  {
   "property": "C49",
   "status": "proved",
   "theorems": [
    "Dpgo.Props.C49_anchor",
    "Dpgo.Props.C49_set",
    "Dpgo.Props.C49_agree",
    "Dpgo.Props.C49_neighbor",
    "Dpgo.Props.C49_invariant"
   ],
   "note": "same hypothesis on the SVD routine as C20; the single-pose query does not round rotations, the trajectory query does (C49_agree)"
  },
  {
   "property": "C50",
   "status": "partial",
   "theorems": [
    "Dpgo.Props.C50_rejects_partial",
    "Dpgo.Props.C50_lost",
    "Dpgo.Props.C50_kept_partial",
    "Dpgo.Props.C50_violated"
   ],
   "note": "rejected measurements get weight 0 (C50_rejects_partial); with the quadratic cost and for odometry this is kept (C50_kept_partial); with a robust cost all loop closures return to weight 1 (C50_lost, C50_violated)"
  },
  {
   "property": "C51",
   "status": "partial",
   "theorems": [
    "Dpgo.Props.C51_objective_partial",
    "Dpgo.Props.C51_current_partial",
    "Dpgo.Props.C51_idle_partial",
    "Dpgo.Props.C51_violated"
   ],
   "note": "for every history that changes weights and priors only while no matrix is cached (C51_idle_partial: e.g. only before the estimate is initialised), the objective is the cost with the stored weights and the step equals one with matrices built anew; setMeasurementWeight and others keep stale matrices (C51_violated)"
  },
  {
   "property": "C52",
   "status": "partial",
   "theorems": [
    "Dpgo.Props.C52_order_partial",
    "Dpgo.Props.C52_progress_partial",
    "Dpgo.Props.C52_driver_partial",
    "Dpgo.Props.C52_violated",
    "Dpgo.Props.C52_violated_users",
    "Dpgo.Props.C52_completes_partial"
   ],
   "note": "no deadlock, progress and completion for any number of threads and calls unless weight updates reset the estimate; with resets only for one driver thread without optimisation thread (C52_driver_partial); otherwise reachable deadlocks (C52_violated, C52_violated_users)"
  },
  {
   "property": "C53",
   "status": "proved",
   "theorems": [
    "Dpgo.Props.C53_start",
    "Dpgo.Props.C53_end",
    "Dpgo.Props.C53_one_more_round",
    "Dpgo.Props.C53_bounded",
    "Dpgo.Props.C53_stopped",
    "Dpgo.Props.C53_runs",
    "Dpgo.Props.C53_no_crash",
    "Dpgo.Props.C53_repeat",
    "Dpgo.Props.C53_two_starts",
    "Dpgo.Props.C53_two_stops",
    "Dpgo.Props.C53_flag_race"
   ],
   "note": "one controlling thread, any number of other threads; with two controlling threads the process can crash (C53_two_starts, C53_two_stops); the request flag is an unsynchronised bool (C53_flag_race), modelled as sequentially consistent"
  },
  {
   "property": "C54",
   "status": "partial",
   "theorems": [
    "Dpgo.Props.C54_locked_partial",
    "Dpgo.Props.C54_careless",
    "Dpgo.Props.C54_async_partial",
    "Dpgo.Props.C54_driver_partial",
    "Dpgo.Props.C54_violated",
    "Dpgo.Props.C54_violated_query",
    "Dpgo.Props.C54_violated_init"
   ],
   "note": "exact list of functions using the estimate without its lock (C54_locked_partial, C54_careless); no race in asynchronous and synchronous use with restricted calls; races in general (C54_violated*)"
  },
  {
   "property": "C55",
   "status": "proved",
   "theorems": [
    "Dpgo.Props.C55_retry",
    "Dpgo.Props.C55_rejected",
    "Dpgo.Props.C55_descent",
    "Dpgo.Props.C55_report",
    "Dpgo.Props.C55_gradient_norms",
    "Dpgo.Props.C55_gradient_step"
   ],
   "note": "the trust-region solver is an oracle; that accepted steps do not increase the objective is a hypothesis. Also: reported gradient norms, and the step of gradient descent, in terms of the gradient of the cost"
  },
  {
   "property": "C56",
   "status": "proved",
   "theorems": [
    "Dpgo.Props.C56_poseID_order",
    "Dpgo.Props.C56_edgeID_order",
    "Dpgo.Props.C56_kinds_exclusive"
   ],
   "note": ""
  },
  {
   "property": "C57",
   "status": "partial",
   "theorems": [
    "Dpgo.Props.C57_roundtrip_partial",
    "Dpgo.Props.C57_exact",
    "Dpgo.Props.C57_error",
    "Dpgo.Props.C57_violated",
    "Dpgo.Props.C57_large_index",
    "Dpgo.Props.C57_empty_list",
    "Dpgo.Props.C57_planar",
    "Dpgo.Props.C57_special",
    "Dpgo.Props.C57_word",
    "Dpgo.Props.C57_index"
   ],
   "note": "order, endpoints, flag, nearest six-digit numbers and rotations within 1e-4 for nonempty 3D lists with indices below 2^31 (C57_roundtrip_partial), exact for six-digit data (C57_exact); violated in general: more digits are lost (C57_violated), larger indices make loading throw (C57_large_index), an empty list leaves the old file (C57_empty_list); fields that begin with inf or nan are read as such (C57_special), other words make loading throw (C57_word), whole numbers are read with sign and range of int, ignoring what follows (C57_index)"
  },
  {
   "property": "C58",
   "status": "partial",
   "theorems": [
    "Dpgo.Props.C58_wellformed_partial",
    "Dpgo.Props.C58_rotation",
    "Dpgo.Props.C58_not_rotation",
    "Dpgo.Props.C58_count",
    "Dpgo.Props.C58_count_partial",
    "Dpgo.Props.C58_every_text",
    "Dpgo.Props.C58_numPoses",
    "Dpgo.Props.C58_partition",
    "Dpgo.Props.C58_unknown",
    "Dpgo.Props.C58_unknown_abort",
    "Dpgo.Props.C58_blank_line",
    "Dpgo.Props.C58_violated",
    "Dpgo.Props.C58_truncated",
    "Dpgo.Props.C58_truncated_first",
    "Dpgo.Props.C58_first_blank",
    "Dpgo.Props.C58_large_index",
    "Dpgo.Props.C58_no_file",
    "Dpgo.Props.C58_rounded_count",
    "Dpgo.Props.C58_word",
    "Dpgo.Props.C58_huge",
    "Dpgo.Props.C58_keyword_only",
    "Dpgo.Props.C58_one_end"
   ],
   "note": "for well-formed files everything holds (C58_wellformed_partial), without blank lines the count holds whatever the lines contain (C58_count_partial), and num_poses is right for every file with indices below 2^53 (C58_numPoses); violated by a blank line after an edge, which repeats it (C58_violated, C58_blank_line; exact count in C58_count), by truncated lines (C58_truncated, C58_truncated_first), and by endpoints that are not numbers (C58_word)"
  },
  {
   "property": "C59",
   "status": "proved",
   "theorems": [
    "Dpgo.Props.C59_poses",
    "Dpgo.Props.C59_edges",
    "Dpgo.Props.C59_count",
    "Dpgo.Props.C59_refused",
    "Dpgo.Props.C59_agent",
    "Dpgo.Props.C59_objective",
    "Dpgo.Props.C59_estimate",
    "Dpgo.Props.C59_single_pose_ignored"
   ],
   "note": "Pose map, lists and counts of the example partition for every number of poses and robots; also what agents do with the lists, the cost of the undivided dataset, and cutting and assembling a centralised estimate. C59_single_pose_ignored records that an agent without odometry ignores its shared edges."
  },
  {
   "property": "C60",
   "status": "proved",
   "theorems": [
    "Dpgo.Props.C60_nonneg",
    "Dpgo.Props.C60_zero_iff",
    "Dpgo.Props.C60_invariant"
   ],
   "note": ""
  },
  {
   "property": "C61",
   "status": "proved",
   "theorems": [
    "Dpgo.Props.C61_trace",
    "Dpgo.Props.C61_axis_angle",
    "Dpgo.Props.C61_monotone"
   ],
   "note": ""
  },
  {
   "property": "C62",
   "status": "partial",
   "theorems": [
    "Dpgo.Props.C62_set",
    "Dpgo.Props.C62_count",
    "Dpgo.Props.C62_not_required",
    "Dpgo.Props.C62_in_step_partial",
    "Dpgo.Props.C62_in_step_new",
    "Dpgo.Props.C62_in_step_violated"
   ],
   "note": "staying in step with the pose graph fails over histories (C62_in_step_violated); C62_in_step_partial gives the calls that preserve it; everything else is proved"
  },
  {
   "property": "C63",
   "status": "proved",
   "theorems": [
    "Dpgo.Props.C63_shared_with",
    "Dpgo.Props.C63_shared_split",
    "Dpgo.Props.C63_active_ids",
    "Dpgo.Props.C63_active_poses"
   ],
   "note": ""
  },
  {
   "property": "C64",
   "status": "proved",
   "theorems": [
    "Dpgo.Props.C64_valid",
    "Dpgo.Props.C64_exact"
   ],
   "note": "same hypotheses on the SVD and least-squares routines as C20 and C30"
  },
  {
   "property": "C65",
   "status": "proved",
   "theorems": [
    "Dpgo.Props.C65_total",
    "Dpgo.Props.C65_descent",
    "Dpgo.Props.C65_robust_total",
    "Dpgo.Props.C65_robust"
   ],
   "note": "SVD, least-squares and trust-region routines are oracles with the stated laws as hypotheses"
  },
  {
   "property": "C66",
   "status": "proved",
   "theorems": [
    "Dpgo.Props.C66_iterate",
    "Dpgo.Props.C66_waiting"
   ],
   "note": ""
  },
  {
   "property": "C67",
   "status": "proved",
   "theorems": [
    "Dpgo.Props.C67_roundtrip",
    "Dpgo.Props.C67_writes"
   ],
   "note": "file system and text formatting of the C++ library modelled in Model/Text; numbers are reals, so overflow and rounding of double are left out"
  },
  {
   "property": "C68",
   "status": "proved",
   "theorems": [
    "Dpgo.Props.C68_runs",
    "Dpgo.Props.C68_output",
    "Dpgo.Props.C68_single_pose_abort"
   ],
   "note": "program after the dataset has been read; the least-squares routine is a correct one (LawfulLsq); asserts are taken as checks; with acceleration twice the number of robots must not be a multiple of 2^32; C68_single_pose_abort gives the limit"
  },
  {
   "property": "C69",
   "status": "proved",
   "theorems": [
    "Dpgo.Props.C69_cost",
    "Dpgo.Props.C69_descent"
   ],
   "note": "descent clause under LawfulRtr and without acceleration"
  },
  {
   "property": "C70",
   "status": "proved",
   "theorems": [
    "Dpgo.Props.C70_greedy",
    "Dpgo.Props.C70_order"
   ],
   "note": "the projection on the tangent space is ROPTLIB's (oracle)"
  },
  {
   "property": "C71",
   "status": "proved",
   "theorems": [
    "Dpgo.Props.C71_iteration",
    "Dpgo.Props.C71_ready",
    "Dpgo.Props.C71_team",
    "Dpgo.Props.C71_publish"
   ],
   "note": "an agent without any live loop closure is not asked for decided ones (0/0 compares false in the code); the clause is stated that way"
  },
  {
   "property": "C72",
   "status": "proved",
   "theorems": [
    "Dpgo.Props.C72_step",
    "Dpgo.Props.C72_idle",
    "Dpgo.Props.C72_first"
   ],
   "note": "the SVD is a lawful oracle; orthonormality of the sequences at the start is a hypothesis of the idle and first-iteration clauses (it holds in every reachable state by C73)"
  },
  {
   "property": "C73",
   "status": "proved",
   "theorems": [
    "Dpgo.Props.C73_feasible",
    "Dpgo.Props.C73_published",
    "Dpgo.Props.C73_idle"
   ],
   "note": "the SVD is a lawful oracle; the solver and the retraction (ROPTLIB) are assumed to return points of the manifold when started on it; nothing is assumed of received poses"
  },
  {
   "property": "C74",
   "status": "proved",
   "theorems": [
    "Dpgo.Props.C74_chordal",
    "Dpgo.Props.C74_chordal_exact",
    "Dpgo.Props.C74_single",
    "Dpgo.Props.C74_single_exact",
    "Dpgo.Props.C74_gnc",
    "Dpgo.Props.C74_gnc_exact",
    "Dpgo.Props.C74_foreign",
    "Dpgo.Props.C74_no_odometry"
   ],
   "note": "descent under LawfulRtr; least-squares solver and SVD lawful; C74_foreign and C74_no_odometry state which files the programs cannot handle"
  },
  {
   "property": "C75",
   "status": "proved",
   "theorems": [
    "Dpgo.Props.C75_step",
    "Dpgo.Props.C75_run",
    "Dpgo.Props.C75_restart"
   ],
   "note": "descent under LawfulRtr, with the trust-region method; weights and priors changed only while nothing is cached (C51 shows what happens otherwise); with acceleration only restarting iterations are covered, the method is not monotone in between"
  },
  {
   "property": "C76",
   "status": "partial",
   "theorems": [
    "Dpgo.Props.C76_prior",
    "Dpgo.Props.C76_anchor_with",
    "Dpgo.Props.C76_anchor",
    "Dpgo.Props.C76_last",
    "Dpgo.Props.C76_hold_partial",
    "Dpgo.Props.C76_late",
    "Dpgo.Props.C76_late_unbounded",
    "Dpgo.Props.C76_again",
    "Dpgo.Props.C76_violated"
   ],
   "note": "the effect on the cost, the value at the current estimate and the replacement of anchors hold for all reachable robots; that the anchor holds under iterations is proved for robots anchored while nothing is cached (C76_hold_partial) and, per step, for robots that had an anchor before (C76_again); missing: robots first anchored after their first iteration, for which the step's objective lacks the anchor's quadratic term (C76_late) and may be unbounded below (C76_late_unbounded, C76_violated)"
  },
  {
   "property": "C77",
   "status": "proved",
   "theorems": [
    "Dpgo.Props.C77_kept",
    "Dpgo.Props.C77_restore",
    "Dpgo.Props.C77_updates",
    "Dpgo.Props.C77_unplaced",
    "Dpgo.Props.C77_value"
   ],
   "note": "a robot that got its estimate by setX without having been placed does not survive a weight update with a due trajectory reset (C77_unplaced)"
  },
  {
   "property": "C78",
   "status": "partial",
   "theorems": [
    "Dpgo.Props.C78_values_partial",
    "Dpgo.Props.C78_data_partial",
    "Dpgo.Props.C78_parts_partial",
    "Dpgo.Props.C78_memory_partial",
    "Dpgo.Props.C78_self",
    "Dpgo.Props.C78_dangling",
    "Dpgo.Props.C78_violated"
   ],
   "note": "everything holds for programs without self-assignment (C78_values_partial, C78_data_partial, C78_parts_partial, C78_memory_partial); self-assignment reads unwritten numbers (C78_self, C78_violated); references do not survive an assignment (C78_dangling). ROPTLIB elements are taken as unshared buffers"
  },
  {
   "property": "C79",
   "status": "proved",
   "theorems": [
    "Dpgo.Props.C79_start",
    "Dpgo.Props.C79_total",
    "Dpgo.Props.C79_views",
    "Dpgo.Props.C79_descent",
    "Dpgo.Props.C79_stale"
   ],
   "note": "robots with L2 cost started by init with a trajectory and setX; descent under LawfulRtr, with the trust-region method and without acceleration; C79_stale shows that timeliness cannot be dropped. Each call of an agent is one event (C58 and following treat calls that interleave)"
  },
  {
   "property": "C80",
   "status": "proved",
   "theorems": [
    "Dpgo.Props.C80_smooth",
    "Dpgo.Props.C80_budget",
    "Dpgo.Props.C80_settles",
    "Dpgo.Props.C80_dataset_smooth",
    "Dpgo.Props.C80_demo"
   ],
   "note": "for robots with L2 cost, without acceleration, with the trust-region method and more than one solver iteration; the decrease per step is a hypothesis on the solver (Decreasing, satisfiable: stepOracle_decreasing), everything about the team is derived from it. For more than 100 robots the demo's bound does not apply: every robot may be below its own tolerance while the whole gradient is not"
  },
  {
   "property": "C81",
   "status": "proved",
   "theorems": [
    "Dpgo.Props.C81_same",
    "Dpgo.Props.C81_total",
    "Dpgo.Props.C81_only",
    "Dpgo.Props.C81_initial",
    "Dpgo.Props.C81_measurements",
    "Dpgo.Props.C81_optimized",
    "Dpgo.Props.C81_matrix",
    "Dpgo.Props.C81_planar",
    "Dpgo.Props.C81_stale"
   ],
   "note": "console output and the text of X.txt (LogEnv.format) are left open; no concurrent writers of the files, no partial writes; 2^30 poses and more would stop the logger with a failed check (hypothesis of C81_total)"
  },
  {
   "property": "C82",
   "status": "proved",
   "theorems": [
    "Dpgo.Props.C82_budget",
    "Dpgo.Props.C82_settles",
    "Dpgo.Props.C82_preconditioned",
    "Dpgo.Props.C82_timely",
    "Dpgo.Props.C82_manifold"
   ],
   "note": "for robots with L2 cost, without acceleration, with the gradient method; what is asked of projection and retraction (Tame, ActsPosewise, RetractsToManifold) is proved for orthogonal projection with polar retraction (C82_manifold), for other retractions it is a hypothesis; with the preconditioner its solve is assumed exact (ExactSolve). Each call of an agent is one event; the delay bound and the step size are the caller's to choose"
  },
  {
   "property": "C83",
   "status": "proved",
   "theorems": [
    "Dpgo.Props.C83_gradient",
    "Dpgo.Props.C83_critical",
    "Dpgo.Props.C83_limit",
    "Dpgo.Props.C83_manifold"
   ],
   "note": "under the hypotheses of C82; in addition the tangent projection must depend on the point in a Lipschitz way (Steady), proved for the orthogonal projection (C83_manifold). Boundedness of the estimates is a hypothesis of the existence of an accumulation point: the cost does not change when all poses are translated together, so it does not bound the estimates."
  },
  {
   "property": "C84",
   "status": "proved",
   "theorems": [
    "Dpgo.Props.C84_start",
    "Dpgo.Props.C84_course",
    "Dpgo.Props.C84_copies",
    "Dpgo.Props.C84_descent",
    "Dpgo.Props.C84_stale"
   ],
   "note": "without acceleration and for robust costs other than L1; messages under way during a weight round are lost; counters stay below 2^31. That poses are exchanged before a weight round is a hypothesis (Informed), and needed: C84_stale"
  },
  {
   "property": "C85",
   "status": "partial",
   "theorems": [
    "Dpgo.Props.C85_elements",
    "Dpgo.Props.C85_vectors",
    "Dpgo.Props.C85_evaluate",
    "Dpgo.Props.C85_gradient",
    "Dpgo.Props.C85_precond_partial",
    "Dpgo.Props.C85_unwritten",
    "Dpgo.Props.C85_factorised",
    "Dpgo.Props.C85_riegrad",
    "Dpgo.Props.C85_riegrad_sizes",
    "Dpgo.Props.C85_descent",
    "Dpgo.Props.C85_optimize"
   ],
   "note": "PreConditioner reads an unwritten output vector if the factorisation fails (C85_unwritten, reached in the example); everything else is proved. Elements are not shared between ROPTLIB objects (no copy-on-write), and manifold functions read their arguments before they write"
  },
  {
   "property": "C86",
   "status": "proved",
   "theorems": [
    "Dpgo.Props.C86_majorises",
    "Dpgo.Props.C86_derivative",
    "Dpgo.Props.C86_duality",
    "Dpgo.Props.C86_gnc_limit",
    "Dpgo.Props.C86_step",
    "Dpgo.Props.C86_phase",
    "Dpgo.Props.C86_rounds",
    "Dpgo.Props.C86_gnc_phase"
   ],
   "note": "team part: without acceleration, any cost but L1 (the loss facts include L1 at positive residuals), trust-region steps that do not increase the cost, after the trajectory resets are used up. With graduated non-convexity the control parameter changes at every round, so the descent is per phase, and truncated least squares itself may rise by barc^2/(8 mu) per edge and phase (C86_gnc_phase)"
  },
  {
   "property": "C87",
   "status": "partial",
   "theorems": [
    "Dpgo.Props.C87_exact",
    "Dpgo.Props.C87_range",
    "Dpgo.Props.C87_antitone",
    "Dpgo.Props.C87_accurate",
    "Dpgo.Props.C87_gnc_partial",
    "Dpgo.Props.C87_violated",
    "Dpgo.Props.C87_mu",
    "Dpgo.Props.C87_decided",
    "Dpgo.Props.C87_residual"
   ],
   "note": "GNC_TLS weights leave [0, 1] and are not monotone in double precision (C87_violated); for them range and order hold up to the rounding error (C87_gnc_partial), everything else is proved. No overflow; accuracy is stated without underflow (range and order hold with it)"
  },
  {
   "property": "C88",
   "status": "proved",
   "theorems": [
    "Dpgo.Props.C88_dataset",
    "Dpgo.Props.C88_chordal",
    "Dpgo.Props.C88_single",
    "Dpgo.Props.C88_exact",
    "Dpgo.Props.C88_gnc",
    "Dpgo.Props.C88_gnc_exact",
    "Dpgo.Props.C88_multi",
    "Dpgo.Props.C88_usage",
    "Dpgo.Props.C88_sign",
    "Dpgo.Props.C88_overflow",
    "Dpgo.Props.C88_robots",
    "Dpgo.Props.C88_no_file",
    "Dpgo.Props.C88_unknown"
   ],
   "note": "composition of C58, C68, C69, C74 and C65 along main; files with blank lines are excluded by GraphFile (C58_blank_line); C88_overflow: a robot count beyond int is undefined behaviour"
  },
  {
   "property": "C89",
   "status": "proved",
   "theorems": [
    "Dpgo.Props.C89_suggestion",
    "Dpgo.Props.C89_votes",
    "Dpgo.Props.C89_refused",
    "Dpgo.Props.C89_translations_unchecked",
    "Dpgo.Props.C89_one_stage"
   ],
   "note": "C89_translations_unchecked: the two-stage alignment in use does not look at the translations, so a displaced pose moves the frame without bound; C89_one_stage: the unused one-stage variant does"
  },
  {
   "property": "C90",
   "status": "proved",
   "theorems": [
    "Dpgo.Props.C90_rest",
    "Dpgo.Props.C90_exact",
    "Dpgo.Props.C90_demo",
    "Dpgo.Props.C90_first_round",
    "Dpgo.Props.C90_demo_accelerated",
    "Dpgo.Props.C90_program"
   ],
   "note": "trust-region method, plain squared cost; schedules without acceleration, the example program with and without; the gradient step of the other method moves whenever the gradient is not exactly zero"
  },
  {
   "property": "C91",
   "status": "proved",
   "theorems": [
    "Dpgo.Props.C91_triplets",
    "Dpgo.Props.C91_unwritable",
    "Dpgo.Props.C91_size"
   ],
   "note": "numbers to six significant digits, which is what the stream writes; the size is not written (C91_size)"
  },
  {
   "property": "C92",
   "status": "proved",
   "theorems": [
    "Dpgo.Props.C92_trajectory",
    "Dpgo.Props.C92_order",
    "Dpgo.Props.C92_measurements",
    "Dpgo.Props.C92_short_row",
    "Dpgo.Props.C92_blank",
    "Dpgo.Props.C92_negative"
   ],
   "note": "exact arithmetic in the conversion of quaternions; rows that end early are read as the statement says (C92_short_row), and a negative first robot number wraps around (C92_negative); neither is likely intended"
  },
  {
   "property": "C93",
   "status": "partial",
   "theorems": [
    "Dpgo.Props.C93_refused_partial",
    "Dpgo.Props.C93_violated",
    "Dpgo.Props.C93_spatial_first"
   ],
   "note": "violated in full (C93_violated): an edge of another dimension between poses that are joined already is dropped without a look, and the chordal initialisation reads beyond it; refused whenever the edge is new"
  },
  {
   "property": "C94",
   "status": "proved",
   "theorems": [
    "Dpgo.Props.C94_drift",
    "Dpgo.Props.C94_million"
   ],
   "note": "any order of the sums, fused operations or not; exponents unbounded, so neither underflow nor overflow; without a partial trajectory"
  },
  {
   "property": "C95",
   "status": "proved",
   "theorems": [
    "Dpgo.Props.C95_stiefel",
    "Dpgo.Props.C95_rotation",
    "Dpgo.Props.C95_array"
   ],
   "note": "exact arithmetic; the second half of the rotation claim is for at most three dimensions, the only ones the code uses"
  }
 ]
}
