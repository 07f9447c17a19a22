def claim(pid, status, note=""):
    STATUS[pid] = status
    NOTE[pid] = note

claim("C01", "proved", "refinement of every call history to a first-write-wins edge log")
claim("C02", "proved", "for ids below 2^32-1 (as quantified); C02_wraparound_out_of_range shows the range condition is needed")
claim("C03", "proved")
claim("C04", "proved")
claim("C05", "proved", "C05_wraparound_own_neighbor shows the id range condition is needed")
claim("C06", "proved")
claim("C07", "proved")
claim("C56", "proved")
claim("C08", "partial", "code violates it; proved for histories that respect the caches, C08_stale_* are counterexamples for the others")
claim("C09", "proved")
claim("C10", "partial", "code violates it; exact condition proved, C10_shared_only_undefined and C10_self_loop_undefined are counterexamples")
claim("C11", "proved")
claim("C12", "proved")
claim("C13", "proved")
claim("C14", "proved")
claim("C15", "proved")
claim("C16", "proved", "matrices may come from the caches; every robot starts from a graph built by setMeasurements of one edge list")
claim("C22", "proved")
claim("C23", "proved")
claim("C17", "proved")
claim("C18", "proved")
claim("C19", "proved")
claim("C20", "proved", "the SVD routine is an oracle; being an SVD of the given matrix is a hypothesis, shown satisfiable for every tall matrix")
claim("C21", "proved", "same hypothesis on the SVD routine as C20")
claim("C60", "proved")
claim("C61", "proved")
claim("C63", "proved")
claim("C24", "proved", "rotations: same hypothesis on the SVD routine as C20")
claim("C25", "proved")
claim("C26", "proved", "same hypothesis on the SVD routine as C20")
claim("C28", "partial", "code violates the last clause; C28_duplicate_ignored and C28_partial_undefined are counterexamples, C28_sound_partial is what holds for every list")
claim("C29", "proved")
claim("C30", "proved", "the sparse QR routine is an oracle; returning a least-squares solution is a hypothesis, shown satisfiable")
claim("C64", "proved", "same hypotheses on the SVD and least-squares routines as C20 and C30")
claim("C55", "proved", "the trust-region solver is an oracle; that accepted steps do not increase the objective is a hypothesis")
claim("C65", "proved", "SVD, least-squares and trust-region routines are oracles with the stated laws as hypotheses")
claim("C35", "proved")
claim("C36", "proved")
claim("C37", "proved")
claim("C40", "proved", "counters are 32 bit: the counts are modulo 2^32")
claim("C41", "proved")
claim("C42", "partial", "code violates it; C42_violated shows that every reset agent counts nobody as active and, with the L2 cost, announces termination; C42_reset_partial lists what is restored")
claim("C62", "partial", "staying in step with the pose graph fails over histories (C62_in_step_violated); C62_in_step_partial gives the calls that preserve it; everything else is proved")
claim("C38", "proved")
claim("C39", "partial", "proved without acceleration (C39_plain); with acceleration C39_accelerated_partial needs both stores incomplete in restarting iterations, and C39_violated shows that otherwise the claim fails")
claim("C66", "proved")
claim("C27", "partial", "proved for every call on an agent (C27_agent); solveRobustPGO overwrites fixed weights other than 1 (C27_solver_violated), C27_solver_partial says what it keeps")
claim("C43", "proved", "also spacing between updates (C43_spaced)")
claim("C44", "proved", "also totality of the update")
claim("C45", "proved")
claim("C51", "partial", "for every history that changes weights and priors only while no matrix is cached (C51_idle_partial: e.g. only before the estimate is initialised), the objective is the cost with the stored weights and the step equals one with matrices built anew; setMeasurementWeight and others keep stale matrices (C51_violated)")
claim("C32", "proved")
claim("C33", "partial", "the trajectory of wrong length is ignored (C33_fallback_partial) and initialisation succeeds when the odometry covers all poses (C33_total_partial); otherwise the process aborts (C33_short, C33_violated)")
claim("C50", "partial", "rejected measurements get weight 0 (C50_rejects_partial); with the quadratic cost and for odometry this is kept (C50_kept_partial); with a robust cost all loop closures return to weight 1 (C50_lost, C50_violated)")
claim("C46", "proved", "for 2N < 2^32 (unsigned arithmetic in the code); also bounds k/(2N) <= gamma_k <= k/N")
claim("C47", "partial", "restart and synchronisation clauses proved for every history; restart interval zero is not rejected: every accelerated iteration is undefined (C47_zero, C47_violated)")
claim("C48", "partial", "first pose and rotations hold (C48_first_partial); relative poses hold only if the first translation vanishes (C48_relative_partial, C48_wrong); C48_violated is a counterexample (aliased reference)")
claim("C49", "proved", "same hypothesis on the SVD routine as C20; the single-pose query does not round rotations, the trajectory query does (C49_agree)")
claim("C31", "proved", "also the average over all usable loop closures with one neighbour; hypothesis on the SVD routine as in C20")
claim("C34", "proved", "for every schedule of the alignment phase (Spec/Alignment: any order of calls, late, repeated or lost messages, resets for the frame clause); robots share parameters with multirobot initialisation; no iteration or hand-set estimate in this phase; local trajectories are supplied, odometric or chordal (not the robust method); SVD lawful, lifting matrix orthonormal. Also progress and pairwise consistency")
claim("C52", "partial", "no deadlock, progress and completion for any number of threads and calls unless weight updates reset the estimate; with resets only for one driver thread without optimisation thread (C52_driver_partial); otherwise reachable deadlocks (C52_violated, C52_violated_users)")
claim("C53", "proved", "one controlling thread, any number of other threads; with two controlling threads the process can crash (C53_two_starts, C53_two_stops); the request flag is an unsynchronised bool (C53_flag_race), modelled as sequentially consistent")
claim("C54", "partial", "exact list of functions using the estimate without its lock (C54_locked_partial, C54_careless); no race in asynchronous and synchronous use with restricted calls; races in general (C54_violated*)")
claim("C59", "proved", "Pose map, lists and counts of the example partition for every number of poses and robots; also what agents do with the lists, the cost of the undivided dataset, and cutting and assembling a centralised estimate. C59_single_pose_ignored records that an agent without odometry ignores its shared edges.")
claim("C57", "partial", "order, endpoints, flag, nearest six-digit numbers and rotations within 1e-4 for nonempty 3D lists with indices below 2^31 (C57_roundtrip_partial), exact for six-digit data (C57_exact); violated in general: more digits are lost (C57_violated), larger indices make loading throw (C57_large_index), an empty list leaves the old file (C57_empty_list); fields that begin with inf or nan are read as such (C57_special), other words make loading throw (C57_word), whole numbers are read with sign and range of int, ignoring what follows (C57_index)")
claim("C67", "proved", "file system and text formatting of the C++ library modelled in Model/Text; numbers are reals, so overflow and rounding of double are left out")
claim("C58", "partial", "for well-formed files everything holds (C58_wellformed_partial), without blank lines the count holds whatever the lines contain (C58_count_partial), and num_poses is right for every file with indices below 2^53 (C58_numPoses); violated by a blank line after an edge, which repeats it (C58_violated, C58_blank_line; exact count in C58_count), by truncated lines (C58_truncated, C58_truncated_first), and by endpoints that are not numbers (C58_word)")
claim("C55", "proved", "the trust-region solver is an oracle; that accepted steps do not increase the objective is a hypothesis. Also: reported gradient norms, and the step of gradient descent, in terms of the gradient of the cost")
claim("C68", "proved", "program after the dataset has been read; the least-squares routine is a correct one (LawfulLsq); asserts are taken as checks; with acceleration twice the number of robots must not be a multiple of 2^32; C68_single_pose_abort gives the limit")
claim("C69", "proved", "descent clause under LawfulRtr and without acceleration")
claim("C70", "proved", "the projection on the tangent space is ROPTLIB's (oracle)")
claim("C71", "proved", "an agent without any live loop closure is not asked for decided ones (0/0 compares false in the code); the clause is stated that way")
claim("C72", "proved", "the SVD is a lawful oracle; orthonormality of the sequences at the start is a hypothesis of the idle and first-iteration clauses (it holds in every reachable state by C73)")
claim("C73", "proved", "the SVD is a lawful oracle; the solver and the retraction (ROPTLIB) are assumed to return points of the manifold when started on it; nothing is assumed of received poses")
claim("C74", "proved", "descent under LawfulRtr; least-squares solver and SVD lawful; C74_foreign and C74_no_odometry state which files the programs cannot handle")
claim("C75", "proved", "descent under LawfulRtr, with the trust-region method; weights and priors changed only while nothing is cached (C51 shows what happens otherwise); with acceleration only restarting iterations are covered, the method is not monotone in between")
claim("C76", "partial", "the effect on the cost, the value at the current estimate and the replacement of anchors hold for all reachable robots; that the anchor holds under iterations is proved for robots anchored while nothing is cached (C76_hold_partial) and, per step, for robots that had an anchor before (C76_again); missing: robots first anchored after their first iteration, for which the step's objective lacks the anchor's quadratic term (C76_late) and may be unbounded below (C76_late_unbounded, C76_violated)")
claim("C77", "proved", "a robot that got its estimate by setX without having been placed does not survive a weight update with a due trajectory reset (C77_unplaced)")
claim("C78", "partial", "everything holds for programs without self-assignment (C78_values_partial, C78_data_partial, C78_parts_partial, C78_memory_partial); self-assignment reads unwritten numbers (C78_self, C78_violated); references do not survive an assignment (C78_dangling). ROPTLIB elements are taken as unshared buffers")
claim("C79", "proved", "robots with L2 cost started by init with a trajectory and setX; descent under LawfulRtr, with the trust-region method and without acceleration; C79_stale shows that timeliness cannot be dropped. Each call of an agent is one event (C58 and following treat calls that interleave)")
claim("C80", "proved", "for robots with L2 cost, without acceleration, with the trust-region method and more than one solver iteration; the decrease per step is a hypothesis on the solver (Decreasing, satisfiable: stepOracle_decreasing), everything about the team is derived from it. For more than 100 robots the demo's bound does not apply: every robot may be below its own tolerance while the whole gradient is not")
claim("C81", "proved", "console output and the text of X.txt (LogEnv.format) are left open; no concurrent writers of the files, no partial writes; 2^30 poses and more would stop the logger with a failed check (hypothesis of C81_total)")
claim("C82", "proved", "for robots with L2 cost, without acceleration, with the gradient method; what is asked of projection and retraction (Tame, ActsPosewise, RetractsToManifold) is proved for orthogonal projection with polar retraction (C82_manifold), for other retractions it is a hypothesis; with the preconditioner its solve is assumed exact (ExactSolve). Each call of an agent is one event; the delay bound and the step size are the caller's to choose")
claim("C83", "proved", "under the hypotheses of C82; in addition the tangent projection must depend on the point in a Lipschitz way (Steady), proved for the orthogonal projection (C83_manifold). Boundedness of the estimates is a hypothesis of the existence of an accumulation point: the cost does not change when all poses are translated together, so it does not bound the estimates.")
claim("C84", "proved", "without acceleration and for robust costs other than L1; messages under way during a weight round are lost; counters stay below 2^31. That poses are exchanged before a weight round is a hypothesis (Informed), and needed: C84_stale")
claim("C85", "partial", "PreConditioner reads an unwritten output vector if the factorisation fails (C85_unwritten, reached in the example); everything else is proved. Elements are not shared between ROPTLIB objects (no copy-on-write), and manifold functions read their arguments before they write")
claim("C86", "proved", "team part: without acceleration, any cost but L1 (the loss facts include L1 at positive residuals), trust-region steps that do not increase the cost, after the trajectory resets are used up. With graduated non-convexity the control parameter changes at every round, so the descent is per phase, and truncated least squares itself may rise by barc^2/(8 mu) per edge and phase (C86_gnc_phase)")
claim("C87", "partial", "GNC_TLS weights leave [0, 1] and are not monotone in double precision (C87_violated); for them range and order hold up to the rounding error (C87_gnc_partial), everything else is proved. No overflow; accuracy is stated without underflow (range and order hold with it)")
claim("C88", "proved", "composition of C58, C68, C69, C74 and C65 along main; files with blank lines are excluded by GraphFile (C58_blank_line); C88_overflow: a robot count beyond int is undefined behaviour")
claim("C89", "proved", "C89_translations_unchecked: the two-stage alignment in use does not look at the translations, so a displaced pose moves the frame without bound; C89_one_stage: the unused one-stage variant does")
claim("C90", "proved", "trust-region method, plain squared cost; schedules without acceleration, the example program with and without; the gradient step of the other method moves whenever the gradient is not exactly zero")
claim("C91", "proved", "numbers to six significant digits, which is what the stream writes; the size is not written (C91_size)")
claim("C92", "proved", "exact arithmetic in the conversion of quaternions; rows that end early are read as the statement says (C92_short_row), and a negative first robot number wraps around (C92_negative); neither is likely intended")
claim("C93", "partial", "violated in full (C93_violated): an edge of another dimension between poses that are joined already is dropped without a look, and the chordal initialisation reads beyond it; refused whenever the edge is new")
claim("C94", "proved", "any order of the sums, fused operations or not; exponents unbounded, so neither underflow nor overflow; without a partial trajectory")
claim("C95", "proved", "exact arithmetic; the second half of the rotation claim is for at most three dimensions, the only ones the code uses")
