{"id": "C01", "title": "A pose graph stores each relevant edge exactly once, first write wins", "statement": "After any sequence of addMeasurement / setMeasurements / empty calls, the list returned by measurements() is exactly the list of those added edges that touch this robot, with every later edge that has the same ordered pair of endpoints dropped, listed as odometry, then private loop closures, then shared loop closures, each in insertion order. Edges that do not touch the robot are ignored; the data (rotation, translation, precisions, weight) of the first copy is kept.", "quantifier": "every pose graph, every finite history of public calls, every list of measurements whose ids fit in 32 bits (less the last value)", "why_tests_cant": "Tests add a handful of edges once; duplicates, irrelevant edges and resets can interleave in unboundedly many ways.", "anchors": ["src/PoseGraph.cpp:27-148 PoseGraph::empty/setMeasurements/addMeasurement/addOdometry/addPrivateLoopClosure/addSharedLoopClosure", "src/PoseGraph.cpp:159-164 PoseGraph::measurements"]}
{"id": "C02", "title": "Measurement lookup returns the right edge, never a wrong one and never out of range", "statement": "hasMeasurement(src,dst) is true exactly when some stored measurement runs from src to dst, and findMeasurement(src,dst) then returns a pointer to that very measurement (its endpoints are src,dst); otherwise it returns null. It never reads outside a vector and never aborts. setMeasurementWeight reports success exactly when the measurement is stored, and then changes that one only.", "quantifier": "every history of public calls with ids fitting in 32 bits (less the last value), every pair of pose ids", "why_tests_cant": "The lookup goes through an index recorded at insertion time; whether index and vector agree depends on the whole history.", "anchors": ["src/PoseGraph.cpp:213-239 PoseGraph::hasMeasurement/findMeasurement", "include/DPGO/DPGO_types.h:131-152 EdgeID", "src/PGOAgent.cpp:1144-1155 PGOAgent::setMeasurementWeight"]}
{"id": "C03", "title": "Every stored edge is in the right bucket and the counts add up", "statement": "odometry() holds only edges between consecutive poses of this robot, privateLoopClosures() only the other edges between two of its own poses, sharedLoopClosures() only edges with exactly one endpoint on this robot; numMeasurements() is the sum of the three counts.", "quantifier": "every history of public calls with ids fitting in 32 bits (less the last value)", "why_tests_cant": "A misfiled edge for one id pattern would silently drop or double a cost term; patterns are unbounded.", "anchors": ["src/PoseGraph.cpp:57-148"]}
{"id": "C04", "title": "n() is one more than the largest own pose index mentioned", "statement": "n() is the least number such that every own pose index appearing in a stored measurement is smaller than it (0 when nothing is stored).", "quantifier": "every history of public calls, ids fitting in 32 bits (less the last value)", "why_tests_cant": "Matrix sizes everywhere depend on it; off-by-one in just one of three edge kinds shows only for graphs whose last pose is mentioned only by that kind.", "anchors": ["src/PoseGraph.cpp:83-148"]}
{"id": "C05", "title": "Public pose ids and neighbour ids are exactly those induced by shared loop closures", "statement": "myPublicPoseIDs() is exactly the set of own poses that occur in a shared loop closure, neighborPublicPoseIDs() exactly the set of foreign poses that occur in one, and neighborIDs() exactly the set of robots owning them, in increasing order without repetition, at every moment; recomputing the sets with updatePublicPoseIDs at any moment changes nothing.", "quantifier": "every history of public calls with ids fitting in 32 bits (less the last value)", "why_tests_cant": "The sets are maintained incrementally in one function and recomputed in another; agreement must hold after every interleaving.", "anchors": ["src/PoseGraph.cpp:120-148 addSharedLoopClosure", "src/PoseGraph.cpp:615-630 updatePublicPoseIDs"]}
{"id": "C06", "title": "Active and inactive loop closures partition all loop closures; statistics add up", "statement": "Every loop closure is returned by exactly one of activeLoopClosures() and inactiveLoopClosures(); a private one is always active, a shared one is active exactly when its foreign robot is active. In statistics(), total = accepted + rejected + undecided and, when inactive neighbours are not being used, total is the number of active loop closures.", "quantifier": "every history of public calls with ids fitting in 32 bits (less the last value), every weight assignment", "why_tests_cant": "Needs to hold for every activity pattern and every weight vector.", "anchors": ["src/PoseGraph.cpp:241-343"]}
{"id": "C07", "title": "Neighbour activity flags are well defined and local", "statement": "Querying activity never throws; a non-neighbour is never active; setNeighborActive changes the flag of exactly that neighbour and is a no-op for a non-neighbour; a new neighbour starts active; reset() makes every neighbour active and keeps all measurements.", "quantifier": "every history of public calls with ids fitting in 32 bits (less the last value)", "why_tests_cant": "The flag map and the neighbour set are two containers that must keep the same keys over all histories.", "anchors": ["src/PoseGraph.cpp:43-50", "src/PoseGraph.cpp:188-207", "src/PoseGraph.cpp:252-274"]}
{"id": "C08", "title": "The matrices used for optimisation reflect the current graph", "statement": "After any history, the quadratic and linear matrices handed out are the ones that would be built from scratch from the current measurements, weights, priors, activity flags and neighbour poses.", "quantifier": "every history of public calls", "why_tests_cant": "It is a cache-coherence property over all histories: a stale cache gives plausible numbers.", "anchors": ["src/PoseGraph.cpp:172-207", "src/PoseGraph.cpp:345-379", "src/PoseGraph.cpp:632-635"]}
{"id": "C09", "title": "Building the data matrices fails exactly when a needed neighbour pose is missing", "statement": "constructDataMatrices() on a graph without cached matrices returns false exactly when some shared loop closure with an active neighbour has no stored neighbour pose (for graphs whose indices are in range); missing poses of inactive neighbours never make it fail.", "quantifier": "every graph, every subset of delivered neighbour poses, every activity pattern", "why_tests_cant": "Exponentially many subsets of delivered poses.", "anchors": ["src/PoseGraph.cpp:368-374", "src/PoseGraph.cpp:381-580"]}
{"id": "C10", "title": "Building the quadratic matrix never writes out of range", "statement": "For every pose graph accepted by the API, constructing the quadratic and linear matrices performs no out-of-range or duplicate sparse insertion.", "quantifier": "every list of measurements", "why_tests_cant": "Memory safety over all graph shapes: disconnected indices, self loops, robots with only shared edges.", "anchors": ["src/PoseGraph.cpp:381-580", "src/DPGO_utils.cpp:272-344"]}
{"id": "C11", "title": "The quadratic objective is the weighted measurement cost", "statement": "For every estimate X, QuadraticProblem::f(X) equals half the weighted sum of squared rotation and translation residuals over all private measurements, all used shared measurements (with the delivered neighbour poses held fixed) and all priors, up to a constant that does not depend on X (namely its value at X = 0).", "quantifier": "every pose graph for which construction succeeds, every dimension d and rank r, every estimate", "why_tests_cant": "A sign or index error in one block shows only for particular graph shapes and values; this is an identity over all real matrices.", "anchors": ["src/PoseGraph.cpp:381-580", "src/DPGO_utils.cpp:272-344", "src/QuadraticProblem.cpp:29-34", "src/DPGO_utils.cpp:501-507"]}
{"id": "C12", "title": "Gradient and Hessian are the exact derivatives of the objective", "statement": "For all X and directions V, f(X+V) = f(X) + <grad f(X), V> + 1/2 <Hess V, V>, with grad and Hess as computed by EucGrad and EucHessianEta.", "quantifier": "every pose graph, every pair of matrices of the right size", "why_tests_cant": "Finite-difference tests are approximate and sample-based; the identity needs symmetry of the assembled matrix for every graph.", "anchors": ["src/QuadraticProblem.cpp:29-54"]}
{"id": "C13", "title": "The quadratic matrix is symmetric positive semidefinite and the preconditioner matrix positive definite", "statement": "With non-negative weights and precisions, the assembled matrix Q is symmetric and <VQ,V> >= 0 for all V, so the matrix Q + 0.1 I factorised for the preconditioner is positive definite (the Cholesky factorisation exists and the preconditioner cannot fail for that reason).", "quantifier": "every pose graph with non-negative weights and precisions", "why_tests_cant": "Quantifies over all graphs and all vectors.", "anchors": ["src/PoseGraph.cpp:381-491", "src/PoseGraph.cpp:582-613"]}
{"id": "C14", "title": "The cost of a stand-alone robot does not depend on the choice of global frame", "statement": "Without priors and shared measurements, left-multiplying all poses by an orthogonal r-by-r matrix and shifting all translations by a common vector leaves f unchanged.", "quantifier": "every pose graph with only private measurements, every rigid transformation", "why_tests_cant": "An identity over a continuous group.", "anchors": ["src/QuadraticProblem.cpp:29-34", "src/DPGO_utils.cpp:272-344"]}
{"id": "C15", "title": "A robot's local cost change equals the team's cost change", "statement": "If every robot's pose graph was built from the same team-wide edge list and a robot holds up-to-date neighbour poses, then replacing its own trajectory by any other changes its local objective by exactly as much as the team-wide cost (half the weighted sum over all edges) changes.", "quantifier": "every team, every edge list, every joint estimate, every replacement", "why_tests_cant": "This is what makes distributed block-coordinate descent correct; it quantifies over all teams and estimates.", "anchors": ["src/PoseGraph.cpp:381-580", "src/PGOAgent.cpp:938-995"]}
{"id": "C16", "title": "Team cost never increases under any update schedule", "statement": "If robots update one at a time, in any order and any number of times, each with up-to-date neighbour poses and a local solver that does not increase its local objective, the team-wide cost never increases.", "quantifier": "every schedule of robot updates, every team", "why_tests_cant": "Schedules are unbounded sequences.", "anchors": ["src/PGOAgent.cpp:376-432", "src/PGOAgent.cpp:938-995", "examples/MultiRobotExample.cpp"]}
{"id": "C17", "title": "Poses form a group under the provided operations", "statement": "Composition of poses is associative with identity, inverse() is a two-sided inverse for every pose with orthogonal rotation and equals [R^T, -R^T t], and composing or inverting rigid poses gives rigid poses; matrix() is a homomorphism.", "quantifier": "every dimension and every pose", "why_tests_cant": "Identities over all matrices.", "anchors": ["src/manifold/Poses.cpp:96-127 Pose"]}
{"id": "C18", "title": "Pose-array accessors read and write exactly one block", "statement": "Writing pose/rotation/translation i of an array and reading index j gives the written value when j = i and the old value otherwise; out-of-range indices abort instead of touching memory.", "quantifier": "every array size, every pair of indices", "why_tests_cant": "All index pairs, all dimensions.", "anchors": ["src/manifold/Poses.cpp:14-73"]}
{"id": "C19", "title": "Trajectory distances are what they claim", "statement": "maxTranslationDistance is zero exactly when all translations agree, is symmetric, satisfies the triangle inequality and bounds every single translation difference tightly; averageTranslationDistance never exceeds it.", "quantifier": "every pair of arrays of equal size", "why_tests_cant": "Universal inequalities.", "anchors": ["src/manifold/Poses.cpp:75-94"]}
{"id": "C20", "title": "Manifold projection lands on the manifold, is nearest, idempotent and order independent", "statement": "projectToStiefelManifold returns a matrix with orthonormal columns, no other such matrix is closer to the input, and an input already on the manifold is returned unchanged when it is the unique nearest point; LiftedSEManifold::project applies this to each rotation block, leaves every translation untouched, and gives the same result for every order in which a parallel loop executes the blocks.", "quantifier": "every matrix, every SVD the library may return, every execution order of the loop", "why_tests_cant": "Optimality over a continuum and order independence over n! orders.", "anchors": ["src/DPGO_utils.cpp:480-486", "src/manifold/LiftedSEManifold.cpp:34-45"]}
{"id": "C21", "title": "Projection to the rotation group returns the nearest rotation", "statement": "projectToRotationGroup returns R with R^T R = I and det R = 1, and no rotation is closer to the input in Frobenius norm; rotations are fixed points.", "quantifier": "every square matrix and every SVD the library may return", "why_tests_cant": "Optimality over SO(d) cannot be sampled.", "anchors": ["src/DPGO_utils.cpp:464-478"]}
{"id": "C22", "title": "Robust weights are valid, monotone and behave at the thresholds", "statement": "For every cost type and every residual >= 0 the weight lies in [0,1] (L1: positive, for nonzero residual), is non-increasing in the residual, GNC weights equal 1 below the lower and 0 above the upper threshold and are continuous in between, and TLS keeps exactly residuals below its threshold.", "quantifier": "every residual, every parameter setting with positive thresholds, every GNC iteration", "why_tests_cant": "Continuous domain.", "anchors": ["src/DPGO_robust.cpp:54-98"]}
{"id": "C23", "title": "The GNC control parameter follows its schedule and stops at its cap", "statement": "After a reset and k updates the GNC parameter is init * step^min(k, max iterations); further updates do not change it; for step > 1 the undecided band [lower,upper] threshold shrinks with every update and always contains the nominal threshold.", "quantifier": "every number of updates and every parameter setting", "why_tests_cant": "Unbounded number of updates.", "anchors": ["src/DPGO_robust.cpp:100-134"]}
{"id": "C24", "title": "Translation and rotation averaging are weighted least squares minimisers", "statement": "singleTranslationAveraging returns the unique minimiser of the weighted sum of squared distances for positive total weight; singleRotationAveraging returns a rotation minimising the weighted sum of squared chordal distances.", "quantifier": "every finite sample, all positive weights", "why_tests_cant": "Optimality over a continuum.", "anchors": ["src/DPGO_solver.cpp:23-70"]}
{"id": "C25", "title": "Robust averaging returns only genuine inliers", "statement": "The inlier indices returned by robust rotation/pose averaging are strictly increasing and in range; when the graduated scheme ran, every returned inlier has a residual with respect to the final weighting pass below the threshold, and the loop always terminates within the iteration budget.", "quantifier": "every sample, every solver outcome, every threshold > 0", "why_tests_cant": "All samples and all intermediate solver outcomes.", "anchors": ["src/DPGO_solver.cpp:72-218"]}
{"id": "C26", "title": "Perfectly consistent samples are all inliers and are recovered exactly", "statement": "If all samples equal the same rotation (pose), robust averaging returns it and reports every index as inlier.", "quantifier": "every rotation / pose, every sample size >= 1, every threshold > 0", "why_tests_cant": "Quantifies over a continuum of rotations and all sample sizes.", "anchors": ["src/DPGO_solver.cpp:72-218"]}
{"id": "C27", "title": "Measurements with a fixed weight keep it through robust optimisation", "statement": "Neither the agent's weight update nor robust re-initialisation nor solveRobustPGO changes the weight of a measurement marked as having a fixed weight.", "quantifier": "every graph, every marking, every residual", "why_tests_cant": "Every code path that writes weights must respect the mark for every edge.", "anchors": ["src/PGOAgent.cpp:1048-1060", "src/PGOAgent.cpp:1104-1142", "src/DPGO_solver.cpp:335-412"]}
{"id": "C28", "title": "Odometry initialisation chains the measurements", "statement": "odometryInitialization of consecutive odometry edges 0-1, 1-2, ... starts at the identity and every measurement is satisfied exactly by consecutive poses; with a partial trajectory the given prefix is kept unchanged; anything else aborts rather than returning an inconsistent trajectory.", "quantifier": "every odometry list and every partial trajectory", "why_tests_cant": "All lengths; error branches for all malformed lists.", "anchors": ["src/DPGO_solver.cpp:271-303"]}
{"id": "C29", "title": "The chordal-initialisation matrices encode the measurement cost", "statement": "For all rotations and translations, |B1 t + B2 vec(R)|^2 and |B3 vec(R)|^2 are the weighted translation and rotation residual sums over the measurements (weights play no role).", "quantifier": "every measurement list, every estimate, d = 2, 3 and beyond", "why_tests_cant": "Identity over all matrices and graph shapes.", "anchors": ["src/DPGO_utils.cpp:346-433"]}
{"id": "C30", "title": "Translation recovery is optimal given rotations", "statement": "recoverTranslations returns translations, with the first at the origin, that minimise the translation residual sum among all translations with the first at the origin, provided the linear solver returns a least-squares solution.", "quantifier": "every measurement list, every rotation estimate", "why_tests_cant": "Optimality over a continuum.", "anchors": ["src/DPGO_utils.cpp:435-462"]}
{"id": "C31", "title": "A noise-free shared edge yields the exact transform between robot frames, in both directions", "statement": "When a shared loop closure is exact with respect to true poses and the neighbour pose is true, computeNeighborTransform returns the true transform from the own local frame to the world frame, for both edge orientations, through lifting and rounding; so do the two-stage and the one-stage robust averages over all loop closures with that neighbour.", "quantifier": "all true poses, both edge orientations, every lifting matrix with orthonormal columns", "why_tests_cant": "Quantifies over SE(d) and all lifting matrices.", "anchors": ["src/PGOAgent.cpp:515-548"]}
{"id": "C32", "title": "Local initialisation normalises the first pose and keeps relative poses", "statement": "After initialize() the local initial trajectory starts at the identity pose and every relative pose equals that of the supplied (or computed) trajectory.", "quantifier": "every supplied trajectory", "why_tests_cant": "Identity over all trajectories.", "anchors": ["src/PGOAgent.cpp:199-306"]}
{"id": "C33", "title": "A supplied trajectory of the wrong length is rejected gracefully", "statement": "initialize() given a trajectory with fewer poses than the graph does not terminate the process and falls back to the configured initialisation method.", "quantifier": "every wrong length", "why_tests_cant": "Needs to hold for every length mismatch.", "anchors": ["src/PGOAgent.cpp:199-306"]}
{"id": "C34", "title": "Frame alignment of a team is consistent", "statement": "In a noise-free team, once robot 0 is initialised, every robot that becomes initialised through an initialised neighbour holds exactly the lifted true trajectory in robot 0's frame, whatever the order of initialisations; every initialised robot has a chain of neighbours back to robot 0.", "quantifier": "every team, every order of message deliveries", "why_tests_cant": "Induction over unbounded schedules.", "anchors": ["src/PGOAgent.cpp:308-374", "src/PGOAgent.cpp:650-678"]}
{"id": "C35", "title": "Agent life cycle moves forward except on reset", "statement": "The agent state goes WAIT_FOR_DATA -> WAIT_FOR_INITIALIZATION -> INITIALIZED and only reset() goes back; measurements, number of poses and neighbours are frozen outside WAIT_FOR_DATA.", "quantifier": "every history of API calls", "why_tests_cant": "Unbounded histories.", "anchors": ["src/PGOAgent.cpp:174-473", "include/DPGO/PGOAgent.h:185-193"]}
{"id": "C36", "title": "Once initialised, all buffers have one pose per graph pose", "statement": "In state INITIALIZED the estimate returned has exactly one pose for each pose of the graph and (with acceleration) all auxiliary sequences have the same size, so shared-pose queries for own public poses always succeed; in every other state they return false.", "quantifier": "every history of API calls", "why_tests_cant": "Invariant over unbounded histories.", "anchors": ["src/PGOAgent.cpp:52-166", "src/PGOAgent.cpp:308-374", "src/PGOAgent.cpp:899-936"]}
{"id": "C37", "title": "Shared pose dictionaries contain exactly the public poses", "statement": "getSharedPoseDict returns exactly one entry for each own public pose, carrying the current estimate of that pose; the per-neighbour version returns exactly those needed by that neighbour and their union over neighbours is the full dictionary. Without acceleration the auxiliary array never grows beyond the pose of the constructor: the two checked auxiliary queries abort, and the unchecked one aborts as soon as an own pose other than the first is asked for.", "quantifier": "every history of API calls", "why_tests_cant": "Every graph and every estimate.", "anchors": ["src/PGOAgent.cpp:97-166"]}
{"id": "C38", "title": "Stored neighbour poses are required ones, from initialised senders, latest delivery wins", "statement": "After any history, the neighbour poses used in optimisation are, for each required pose id, the last one delivered by its owner while the owner was known to be INITIALIZED and since the last clear; nothing else is stored. What hasNeighborStatus and isRobotInitialized answer about another robot is what its last delivered status says.", "quantifier": "every history of message deliveries", "why_tests_cant": "Unbounded delivery histories, reorderings and duplicates.", "anchors": ["src/PGOAgent.cpp:650-716"]}
{"id": "C39", "title": "An iteration without the needed neighbour data changes nothing visible", "statement": "If a needed pose of an active neighbour is missing, iterate(true) leaves the trajectory estimate unchanged and returns false, and the agent does not report itself ready to terminate because of that iteration.", "quantifier": "every agent state and every missing subset", "why_tests_cant": "All states and subsets.", "anchors": ["src/PGOAgent.cpp:376-432", "src/PGOAgent.cpp:938-995"]}
{"id": "C40", "title": "Iteration and instance counters count", "statement": "iteration_number() is the number of iterate() calls since the last reset, instance_number() the number of resets; both never go backwards except at reset, and the status returned carries the current values.", "quantifier": "every history of API calls", "why_tests_cant": "Unbounded histories.", "anchors": ["src/PGOAgent.cpp:376-473", "include/DPGO/PGOAgent.h:342-372"]}
{"id": "C41", "title": "Termination is only announced when everybody is done", "statement": "shouldTerminate() returns true only if the iteration limit is reached, or every active robot has reported itself INITIALIZED and ready to terminate (and, with robust optimisation, enough weight updates have been performed).", "quantifier": "every history of API calls and reported statuses", "why_tests_cant": "All combinations of reports.", "anchors": ["src/PGOAgent.cpp:846-878"]}
{"id": "C42", "title": "Reset returns the agent to a usable fresh state", "statement": "After reset() the agent does not immediately announce termination and counts the whole team as active, as a newly constructed agent does.", "quantifier": "every history ending in reset", "why_tests_cant": "Depends on every field being restored for every history.", "anchors": ["src/PGOAgent.cpp:29-45", "src/PGOAgent.cpp:434-473"]}
{"id": "C43", "title": "The number of robust weight updates is bounded and spaced", "statement": "If weights are updated only when shouldUpdateMeasurementWeights() says so, then at most robustOptNumWeightUpdates updates happen between resets, none happens with the L2 cost, and after each update the team's readiness reports are discarded.", "quantifier": "every history obeying the guard", "why_tests_cant": "Unbounded histories.", "anchors": ["src/PGOAgent.cpp:997-1046", "src/PGOAgent.cpp:1104-1142"]}
{"id": "C44", "title": "A weight update touches only live, non-fixed loop closures", "statement": "updateMeasurementWeights changes only weights of active, non-fixed loop closures whose neighbour pose is available; each becomes the robust weight of its current residual; odometry, data and everything else stay the same.", "quantifier": "every agent state", "why_tests_cant": "Every graph, estimate and availability pattern.", "anchors": ["src/PGOAgent.cpp:1062-1142"]}
{"id": "C45", "title": "Both endpoints of a shared loop closure compute the same weight", "statement": "If two robots hold up-to-date copies of each other's poses and the same robust-cost state, the weight each computes for a shared loop closure is the same.", "quantifier": "every pair of robots, every edge orientation, every estimate", "why_tests_cant": "Symmetry over all values.", "anchors": ["src/PGOAgent.cpp:1062-1142"]}
{"id": "C46", "title": "Acceleration scalars satisfy the accelerated-method recurrence", "statement": "After each accelerated iteration alpha and gamma satisfy the recurrence gamma' = (1+sqrt(1+4N^2 gamma^2))/(2N), alpha' = 1/(gamma' N); alpha' is in (0,1], equals 1 on the first iteration after a restart, and gamma' >= gamma + 1/(2N).", "quantifier": "every number of robots and iterations", "why_tests_cant": "Unbounded recurrences over the reals.", "anchors": ["src/PGOAgent.cpp:899-936"]}
{"id": "C47", "title": "Nesterov restart re-synchronises all sequences", "statement": "Whenever the restart condition holds, after the iteration the auxiliary sequences equal the estimate, the scalars are zero, and the estimate is the result of a non-accelerated step from the previous estimate; restart interval zero is rejected.", "quantifier": "every history", "why_tests_cant": "Every iteration count and interval.", "anchors": ["src/PGOAgent.cpp:376-432", "src/PGOAgent.cpp:880-897"]}
{"id": "C48", "title": "getTrajectoryInLocalFrame puts the first pose at the identity", "statement": "The returned local-frame trajectory starts at the identity pose and its relative poses are those of the current estimate (after rounding).", "quantifier": "every estimate", "why_tests_cant": "Holds or fails depending on the values of the estimate.", "anchors": ["src/PGOAgent.cpp:718-736"]}
{"id": "C49", "title": "Global-frame queries are anchored and agree with each other", "statement": "With the anchor set to a pose of the team, the anchored pose is the identity; translations returned by the trajectory query and by the single-pose queries agree for every pose; applying a global orthogonal transformation to anchor and estimate does not change the result.", "quantifier": "every estimate and anchor", "why_tests_cant": "Identity over a continuum.", "anchors": ["src/PGOAgent.cpp:738-810"]}
{"id": "C50", "title": "Rejected loop closures stay rejected through initialisation", "statement": "A loop closure rejected by the robust local initialisation is still rejected when distributed robust optimisation starts.", "quantifier": "every history", "why_tests_cant": "Depends on the sequence of initialisation steps.", "anchors": ["src/PGOAgent.cpp:199-306", "src/PGOAgent.cpp:1048-1060"]}
{"id": "C51", "title": "Distributed optimisation always uses current weights", "statement": "At every optimisation step of the agent the matrices used reflect the weights currently stored in the measurements.", "quantifier": "every history of API calls", "why_tests_cant": "Cache coherence over unbounded histories of initialise / update weights / re-initialise.", "anchors": ["src/PGOAgent.cpp:308-374", "src/PGOAgent.cpp:938-995", "src/PGOAgent.cpp:1048-1155"]}
{"id": "C52", "title": "The agent's internal locks cannot deadlock", "statement": "For any number of threads concurrently calling agent API functions, no reachable state has a set of threads waiting for each other's locks.", "quantifier": "every number of threads, every sequence of API calls per thread, every interleaving", "why_tests_cant": "Interleavings are unbounded; deadlocks show only in rare schedules.", "anchors": ["src/PGOAgent.cpp (mPosesMutex, mNeighborPosesMutex, mMeasurementsMutex)"]}
{"id": "C53", "title": "The asynchronous optimisation loop can be stopped and restarted", "statement": "startOptimizationLoop while running is a no-op, endOptimizationLoop returns only after the loop has exited and at most one further iteration happens after the request; afterwards no iteration happens until the next start; the pair can be repeated forever.", "quantifier": "every interleaving of the loop with one thread that starts and ends it in any order and any number of threads making other calls", "why_tests_cant": "Unbounded interleavings.", "anchors": ["src/PGOAgent.cpp:475-513"]}
{"id": "C54", "title": "The trajectory estimate is only touched under its lock", "statement": "Every access to the trajectory estimate by an API function happens while holding the trajectory lock, so asynchronous iteration never races with queries.", "quantifier": "every API function, every execution", "why_tests_cant": "Data races are not reliably observable by running.", "anchors": ["src/PGOAgent.cpp (mPosesMutex users)"]}
{"id": "C55", "title": "The trust-region retry loop terminates and the optimiser reports honestly", "statement": "The single-iteration trust-region retry shrinks the radius by 4 each time and runs at most a bounded number of times for radius >= the floor; the returned point is either the input (no acceptable step) or a point with no larger objective value.", "quantifier": "every initial radius, every sequence of solver outcomes", "why_tests_cant": "All outcome sequences.", "anchors": ["src/QuadraticOptimizer.cpp:50-108"]}
{"id": "C56", "title": "Ids are strictly totally ordered and edge kinds are exclusive", "statement": "The orders used for pose-id and edge-id containers are strict total orders consistent with equality, and every edge id is exactly one of odometry, private loop closure and shared loop closure.", "quantifier": "all ids", "why_tests_cant": "All triples of ids.", "anchors": ["include/DPGO/DPGO_types.h:110-167"]}
{"id": "C57", "title": "Measurements survive a log/load round trip", "statement": "Loading a measurement file written by the logger gives back the same endpoints and numeric fields, in order, for 3D measurements. A field that begins with inf or nan is never read as a number, and a field without a numeral makes loading throw.", "quantifier": "every list of measurements", "why_tests_cant": "All lists.", "anchors": ["src/PGOLogger.cpp:18-53", "src/PGOLogger.cpp:148-225"]}
{"id": "C58", "title": "Reading a g2o file yields one measurement per edge line", "statement": "read_g2o_file returns exactly one measurement per edge line, in order, with the stated endpoints, and num_poses is one more than the largest index; non-edge known lines are ignored.", "quantifier": "every file", "why_tests_cant": "All files, including blank or truncated lines.", "anchors": ["src/DPGO_utils.cpp:113-257"]}
{"id": "C59", "title": "Dataset partition over robots is a bijection and loses no edge", "statement": "The example partition assigns every pose of the dataset to exactly one robot and local index, contiguous and in order, and every input edge becomes exactly one edge of the right kind between the right local poses.", "quantifier": "every number of poses and robots", "why_tests_cant": "All sizes including non-divisible ones.", "anchors": ["examples/MultiRobotExample.cpp:71-119"]}
{"id": "C60", "title": "Measurement error is zero exactly at agreement and is frame invariant", "statement": "computeMeasurementError is non-negative, zero exactly when the second pose is the first composed with the measurement (for positive precisions), and unchanged under a common rigid transformation of both poses.", "quantifier": "all measurements and poses", "why_tests_cant": "Identity over a continuum.", "anchors": ["src/DPGO_utils.cpp:501-507"]}
{"id": "C61", "title": "Angular-to-chordal conversion is exact", "statement": "For every rotation by angle rad in [0, pi] about any axis, the Frobenius distance to the identity is 2*sqrt(2)*sin(rad/2).", "quantifier": "all angles and axes", "why_tests_cant": "Continuum of axes and angles.", "anchors": ["src/DPGO_utils.cpp:514-516"]}
{"id": "C62", "title": "Robot activity bookkeeping of the team", "statement": "setRobotActive changes only the flag of that robot (out-of-range ids are ignored), keeps the pose graph's neighbour activity in step, and numActiveRobots counts the active flags; poses of deactivated neighbours are not required for optimisation.", "quantifier": "every history of API calls", "why_tests_cant": "All activation patterns.", "anchors": ["src/PGOAgent.cpp:1157-1194"]}
{"id": "C63", "title": "Queries restricted to one neighbour or to active neighbours are exact", "statement": "sharedLoopClosuresWithRobot(j) returns exactly the shared loop closures whose other endpoint is on robot j, in order; activeNeighborIDs, numActiveNeighbors and activeNeighborPublicPoseIDs return exactly the neighbours (poses of neighbours) that are active, each once.", "quantifier": "every history of public calls with ids fitting in 32 bits (less the last value)", "why_tests_cant": "Which neighbours are active, and which poses they own, vary over unboundedly many histories.", "anchors": ["src/PoseGraph.cpp:150-157", "src/PoseGraph.cpp:252-274"]}
{"id": "C64", "title": "Chordal initialisation is valid and exact on noise-free data", "statement": "On well-formed measurements chordalInitialization always succeeds; the first pose is the identity, every rotation returned is a rotation, the translations are optimal for them; and if the measurements are noise free and connect all poses, the true trajectory (in the frame of the first pose) is recovered exactly.", "quantifier": "every measurement list with d = 2 or 3, every ground truth; the SVD and least-squares routines are arbitrary correct ones", "why_tests_cant": "Quantifies over all graphs and a continuum of trajectories.", "anchors": ["src/DPGO_solver.cpp:220-269", "src/DPGO_utils.cpp:346-462"]}
{"id": "C65", "title": "The single-robot solver returns a trajectory no worse than its start", "statement": "On well-formed measurements of one robot solvePGO always returns a trajectory with all poses, whose weighted cost is no larger than that of its starting point (given or chordal). solveRobustPGO changes nothing but weights, leaves every weight between 0 and 1, and returns a trajectory whose cost under the returned weights is no larger than at the start; it fails only if the largest initial residual is exactly half the squared threshold.", "quantifier": "every measurement list with d = 2 or 3, every start, every behaviour of a descending trust-region solver", "why_tests_cant": "All graphs and all sequences of solver outcomes.", "anchors": ["src/DPGO_solver.cpp:305-333", "src/DPGO_solver.cpp:335-412", "src/QuadraticOptimizer.cpp:26-48"]}
{"id": "C66", "title": "An iteration of an initialised agent always returns", "statement": "If no measurement joins a pose to itself and the own measurements reach the last pose, iterate() on an initialised agent returns (it neither aborts nor is undefined), and iterate(true) returns true exactly when no needed pose of an active neighbour is missing from the store it uses. On an agent not yet initialised only the counters move.", "quantifier": "every reachable agent state with non-degenerate parameters, every behaviour of the external optimiser and SVD", "why_tests_cant": "All states reachable by unbounded histories.", "anchors": ["src/PGOAgent.cpp:376-432", "src/PGOAgent.cpp:880-995"]}
{"id": "C67", "title": "Trajectories survive a log/load round trip", "statement": "Loading a trajectory file written by the logger for n poses in three dimensions gives n poses in the same order; every translation is the original one rounded to six significant digits, every rotation is a rotation matrix within 1e-4 of the original; logging touches no other file.", "quantifier": "every trajectory of 3D poses fitting the 32-bit column count, every disk", "why_tests_cant": "All lengths and a continuum of poses.", "anchors": ["src/PGOLogger.cpp:55-81", "src/PGOLogger.cpp:83-146"]}
{"id": "C68", "title": "The multi-robot demo runs to its end", "statement": "On every well-formed single-robot dataset (unit weights, one edge between consecutive poses) with at least two poses per robot, the demo program finishes without a failing assertion, abort or out-of-range access, with or without acceleration; it prints one line per iteration, numbered from 0, at most the configured number, and stops early exactly after the first line whose gradient norm is below 0.1. With fewer than two poses per robot (and several robots) it always aborts.", "quantifier": "every dataset, every number of robots and poses fitting 32 bits, every behaviour of the trust-region solver, projections and uninitialised memory", "why_tests_cant": "All datasets and all runs; the loop couples all agents.", "anchors": ["examples/MultiRobotExample.cpp:46-262", "src/PGOAgent.cpp:376-432"]}
{"id": "C69", "title": "The demo prints the true cost, and without acceleration it never increases", "statement": "The cost printed on each line is the sum of the weighted squared residuals of the whole dataset at the joint estimate of the agents after that iteration. Without acceleration, and if the trust-region solver never makes its own objective worse, the printed costs are non-increasing and at most the cost of the lifted chordal initial guess.", "quantifier": "as C68; for the descent clause every descending trust-region solver", "why_tests_cant": "The distributed objective of each agent must be related to the centralised one over unboundedly many rounds.", "anchors": ["examples/MultiRobotExample.cpp:168-226", "src/QuadraticProblem.cpp:29-35"]}
{"id": "C70", "title": "The demo selects the robot with the largest gradient block", "statement": "The gradient norm printed is that of the Riemannian gradient of the centralised cost at the joint estimate; when the loop goes on, the next robot is the first one whose part of this gradient has the largest norm, so its part carries at least 1/N of the squared norm; each line names the robot selected before it, the first robot 0.", "quantifier": "as C68, at least two robots", "why_tests_cant": "Quantifies over all iterates and partitions.", "anchors": ["examples/MultiRobotExample.cpp:219-256", "src/QuadraticProblem.cpp:71-79"]}
{"id": "C71", "title": "The status of an agent tells the truth about its last iteration", "statement": "After an iteration with optimisation of an initialised agent the reported relative change is the largest distance any of its poses moved, and the agent reports itself ready exactly if the iteration succeeded, no pose moved farther than the tolerance (5 before the first robust weight update), and the demanded share of the live loop closures is decided. At any later time it reports itself ready exactly if its last such iteration settled in this sense and neither a reset nor a weight update came after. Hence, if the reports are truthful, termination before the iteration limit means that every active robot had settled when it reported. Requests to publish are raised exactly by iterations of an initialised agent since the last reset.", "quantifier": "every history of agent calls; every solver behaviour", "why_tests_cant": "Quantifies over all histories of the agent and of its team mates.", "anchors": ["src/PGOAgent.cpp:400-429", "src/PGOAgent.cpp:850-878", "include/DPGO/PGOAgent.h:336-348"]}
{"id": "C72", "title": "The accelerated iteration is the published one", "statement": "An accelerated iteration that does not restart computes the auxiliary sequence as the nearest feasible poses to (1-alpha)X + alpha V and the momentum sequence as the nearest feasible poses to V + gamma(X'-Y'), with the scalars of C46; an idle robot moves its estimate to Y', an optimising robot with all auxiliary neighbour poses starts its solver at Y' on its own problem with those poses as neighbours and takes the result, and one that lacks a pose keeps its estimate. An idle robot's momentum sequence does not move. In the first iteration after a synchronisation Y' equals the estimate, so the robot does what it would do without acceleration.", "quantifier": "every reachable state of an agent with acceleration, every SVD and solver behaviour", "why_tests_cant": "Quantifies over all states and over a continuum of poses.", "anchors": ["src/PGOAgent.cpp:376-432", "src/PGOAgent.cpp:910-995"]}
{"id": "C73", "title": "The estimate never leaves the manifold", "statement": "Over any history of calls in which the caller hands over rotations (in measurements, in a supplied trajectory, in a supplied frame, in a supplied estimate, in the lifting matrix), and whatever the other robots send, the rotation block of every pose of the estimate of an initialised robot has orthonormal columns; the same holds for the auxiliary, momentum and previous sequences under acceleration, for the initial guess, for the local trajectory, and for every pose that the robot publishes.", "quantifier": "every history of every agent, every message from a neighbour (garbage included), every solver that stays on the manifold", "why_tests_cant": "An invariant over unbounded histories and a continuum of poses.", "anchors": ["src/PGOAgent.cpp:130-230", "src/PGOAgent.cpp:376-460", "src/PGOAgent.cpp:886-1060", "src/QuadraticOptimizer.cpp:60-136"]}
{"id": "C74", "title": "The single-robot example programs report the true cost of what they compute", "statement": "On a well-formed single-robot file the chordal example prints twice the cost of the chordal initialisation, the single-robot example prints twice the cost over the edges of the file of a trajectory that is no worse than the chordal initialisation it starts from, and the robust example returns weights in [0,1] and a trajectory no worse under them than chained odometry, unless the largest residual of its first estimate is exactly at the one value where its weights are undefined. On noise-free data the first two print 0 and the third keeps every measurement with weight 1 and satisfies all of them.", "quantifier": "every well-formed dataset with unit weights and one edge between consecutive poses; every descending trust-region solver, every SVD and least-squares solver", "why_tests_cant": "All datasets and solver behaviours; the distributed agent's measurement list must be related to the central problem.", "anchors": ["examples/ChordalInitializationExample.cpp:38-48", "examples/SingleRobotExample.cpp:52-104", "examples/SingleRobotGNCExample.cpp:30-41", "src/PGOAgent.cpp:823-828", "src/DPGO_solver.cpp:271-412"]}
{"id": "C75", "title": "An optimisation step never makes the estimate worse for what the robot can see", "statement": "Without acceleration, and as long as weights and priors were changed only while no matrix was cached: every iteration of a robot, and every sequence of iterations, leaves the cost of its own estimate, evaluated with its own measurements, weights and priors and with its neighbours at the poses they sent last, no larger than before, whatever matrices are cached and whether the iteration optimises or not; it does not change that cost function. With acceleration the same holds for an iteration that restarts the acceleration.", "quantifier": "every history of calls with that care, every iteration and every sequence of iterations; every descending trust-region solver", "why_tests_cant": "The step is computed from cached matrices assembled over earlier calls; only an invariant of all histories relates them to the measurements and poses held now.", "anchors": ["src/PGOAgent.cpp:376-434", "src/PGOAgent.cpp:887-908", "src/PGOAgent.cpp:938-995", "src/QuadraticOptimizer.cpp:26-137", "src/PoseGraph.cpp:368-379"]}
{"id": "C76", "title": "Anchoring ties the first pose to the prior, and later steps respect it", "statement": "Setting a prior succeeds exactly if the pose exists and the prior has the dimensions of the graph; it adds to the cost half the weighted squared distance of that pose from the prior, in place of an earlier prior on that pose, and changes nothing else. Anchoring a robot does so for its first pose, with its own current pose or the given one as prior; anchoring at the current pose leaves the cost of the current estimate as it was without an anchor, and a second anchor replaces the first without trace. After that every step minimises the cost with the anchor: however many iterations follow, the anchor term never exceeds the cost at the time of anchoring, and if all measurements were satisfied then, the first pose never moves.", "quantifier": "every reachable pose graph and robot, every prior, every estimate, every number of iterations; every descending trust-region solver", "why_tests_cant": "The prior enters the optimisation through two separately cached matrices; whether both contain it depends on the calls made before.", "anchors": ["src/PGOAgent.cpp:1196-1212", "src/PoseGraph.cpp:176-186", "src/PoseGraph.cpp:461-468", "src/PoseGraph.cpp:565-574"]}
{"id": "C77", "title": "The initial guess is kept and restored exactly", "statement": "At any time a robot keeps exactly the estimate it had right after it was last placed in the global frame, and none if it has not been placed since the last reset, whatever else happened. Returning to it succeeds exactly if there is one and changes nothing else. The first numResets weight updates since the last reset send the robot back to it and drop all received poses; later ones leave the estimate and the received poses alone. Placing with a transform puts every pose to the lifted product of the transform and the pose of the local trajectory.", "quantifier": "every sequence of calls on an agent, every parameter set, every result of the external routines", "why_tests_cant": "The guess is written at one point of the initialisation and read much later, after any number of iterations, placements and resets.", "anchors": ["src/PGOAgent.cpp:65-70", "src/PGOAgent.cpp:310-340", "src/PGOAgent.cpp:434-473", "src/PGOAgent.cpp:1104-1142"]}
{"id": "C78", "title": "Optimisation variables hold poses by value", "statement": "A LiftedSEVariable behaves like a value that is a sequence of poses: a new one has all poses [I 0; 0 0]; setData takes over a matrix of the right size and aborts on any other; writing a pose, rotation or translation through the returned reference changes exactly those entries, for existing poses only; copies and assignments make the target equal to the source and independent of it from then on; getData, pose, rotation and translation return the current entries. Every buffer belongs to exactly one variable and is released with it.", "quantifier": "every program, i.e. every sequence of constructions, copies, assignments, writes and destructions on any number of variables of any sizes", "why_tests_cant": "Copies and assignments rebuild the underlying storage and re-seat a view on it; aliasing mistakes show only in particular orders of operations.", "anchors": ["src/manifold/LiftedSEVariable.cpp:15-101", "include/DPGO/manifold/LiftedSEVariable.h:24-129"]}
{"id": "C79", "title": "Teams work under every message schedule, and improve under timely ones", "statement": "A team of robots, each given its edges, the lifting matrix, a trajectory and an estimate, exchanges messages with public poses over a network that may delay, repeat, reorder or drop them, and each robot iterates whenever it likes. No such schedule makes a robot fail. What a robot holds about a neighbour is exactly the poses that neighbour had when it sent the message last received. Without acceleration, if every robot optimises only with poses its neighbours have not moved since sending, the cost of the whole team never increases, whoever moves and in whatever order. With poses that are one move old the cost can rise.", "quantifier": "every team, every set of edges with the needed sizes, every schedule of any length; every descending trust-region solver", "why_tests_cant": "The number of schedules is unbounded, and each robot optimises its own problem built from messages that may be arbitrarily old.", "anchors": ["examples/MultiRobotExample.cpp:160-230", "src/PGOAgent.cpp:97-128", "src/PGOAgent.cpp:376-434", "src/PGOAgent.cpp:650-680", "src/PoseGraph.cpp:183-187"]}
{"id": "C80", "title": "Teams converge at a rate fixed by their initial cost", "statement": "The cost of a team has bounded curvature in the poses of each robot. If the trust-region solver lowers smooth problems by a fixed multiple of the squared projected gradient, then without acceleration, under any timely schedule, whenever a robot optimises while the projected gradient of the team's cost in its own poses has norm at least eps, the team's cost falls by at least that multiple of eps squared. Such moves are therefore at most as many as the initial cost allows, and in an endless timely schedule from some point on every robot that optimises finds its gradient below any bound not smaller than its tolerance. The multi-robot example, for up to a hundred robots, prints at most 1 + 100 N f0 / c lines and, given enough iterations, ends with a gradient norm below 0.1.", "quantifier": "every team, every timely schedule, finite or endless; every data set of the demo; every solver with guaranteed decrease", "why_tests_cant": "Convergence concerns endless runs and all schedules; a test sees one finite run and cannot tell slow progress from none.", "anchors": ["src/QuadraticOptimizer.cpp:26-108", "src/PGOAgent.cpp:376-434", "src/PGOAgent.cpp:938-995", "examples/MultiRobotExample.cpp:166-258", "src/QuadraticProblem.cpp:22-54"]}
{"id": "C81", "title": "What an agent leaves on the disk", "statement": "Logging does not change what a robot does, and in two and three dimensions it never makes a call fail. A file is written only with logging on, and only one of four: the initial trajectory when the robot is placed in the global frame, the measurements when it is reset while it has some, the optimised trajectory when it is reset with an estimate and an anchor, the matrix of the estimate when it is reset. In three dimensions, at any later time, the files read back give, up to six digits, the trajectory whose lifting was the estimate right after the last placement; the measurements with weights held at the last such reset; and the trajectory in the frame of the anchor at the last such reset. In the plane no trajectory is written and the measurement file is left empty; a reset without estimate or anchor leaves the optimised trajectory of an earlier run in place.", "quantifier": "every sequence of calls on an agent, every parameter set, every prior content of the disk, every result of the external routines", "why_tests_cant": "The content of each file depends on the last of possibly many calls that wrote it, and on nothing that happened since.", "anchors": ["src/PGOAgent.cpp:308-374", "src/PGOAgent.cpp:434-473", "src/PGOLogger.cpp:14-90", "src/DPGO_utils.cpp:70-80"]}
{"id": "C82", "title": "Asynchronous teams converge with small gradient steps", "statement": "Robots that use the gradient method, without acceleration and with plain squared cost, may optimise at any time with old poses of their neighbours, provided that every optimisation a robot has not heard of is among the last B optimisations of the team, and that the step size is small enough for B, the curvature, and the initial cost. Then the cost of the team never exceeds its initial value, although single steps may raise it, and optimisations at which the projected gradient of the team's cost in the robot's own poses is at least eps use up a fixed multiple of eps squared each, so there are only finitely many; in an endless schedule from some point on every robot that optimises finds its gradient below eps, for every eps > 0. The same holds with the preconditioner, with a smaller step, whether or not factorisations succeed. Orthogonal projection to the tangent space with retraction by polar decomposition behaves as required, with explicit constants.", "quantifier": "every team, every schedule of any length with bounded delay, finite or endless; every projection and retraction with the stated bounds", "why_tests_cant": "The delays make the cost go up and down; that it cannot drift upwards is a property of all schedules at once, and convergence one of endless runs.", "anchors": ["src/QuadraticOptimizer.cpp:110-137", "src/QuadraticProblem.cpp:56-79", "src/PoseGraph.cpp:582-613", "src/PGOAgent.cpp:376-434", "src/PGOAgent.cpp:938-995", "include/DPGO/DPGO_types.h:50-70"]}
{"id": "C83", "title": "Asynchronous teams approach joint critical points", "statement": "Take a team of robots as in C82 (gradient method, plain squared cost, no acceleration, bounded delay, small steps) in an endless schedule in which every robot optimises at least once among any T successive events. If projections at nearby points differ by at most a fixed rate, then for every eps > 0, from some event on, the projected gradients of the team's cost in the poses of all robots are below eps at the same time, at every moment, not only when a robot is about to optimise. Every accumulation point of the estimates has orthonormal rotations and vanishing projected gradients for all robots, so it is a critical point of the joint problem; bounded estimates have one. The gradient in the poses of a robot exists at every point and is unique. Orthogonal projection to the tangent space of the manifold of poses has rate two.", "quantifier": "every team, every endless schedule with bounded delay and bounded pauses; with and without preconditioner", "why_tests_cant": "The claim is about the limit of infinite asynchronous runs; no finite run shows that all gradients stay small together from some time on.", "anchors": ["src/QuadraticOptimizer.cpp:110-137", "src/QuadraticProblem.cpp:56-79", "src/PGOAgent.cpp:376-434", "src/PGOAgent.cpp:938-995", "src/PGOAgent.cpp:475-499"]}
{"id": "C84", "title": "Robust teams agree on the weight of every shared edge", "statement": "Take a team of robots with any robust cost but L1, without acceleration. Phases of optimisation under arbitrary message schedules alternate with rounds in which every robot updates the weights of its loop closures, in any order. If before each round every robot has received the current poses of its neighbours, no call fails; the new weight of every edge that is neither fixed nor odometry is the one the robust cost gives to the edge's residual at the joint estimate, and all other weights stay; in every state of the following phase two robots that share an edge hold identical copies of it, with the same weight; the robust cost of every robot has been updated once per round; and under timely schedules the cost of the team with these weights never increases. Freshly set up agents meet the conditions. Without the exchange the copies can differ.", "quantifier": "every team, every robust cost but L1, every number of rounds, every schedule and every order of the updates", "why_tests_cant": "Two copies of a weight are kept by different agents and recomputed from different copies of poses; tests would have to try all interleavings of messages, optimisation and weight updates.", "anchors": ["src/PGOAgent.cpp:1062-1142", "src/DPGO_robust.cpp:54-134", "src/PGOAgent.cpp:475-499"]}
{"id": "C85", "title": "The optimisation problem works on memory as on matrices", "statement": "Points and vectors of the optimiser are buffers in memory. Reading an element returns the matrix stored in it; a matrix that is written is what is read back, and nothing else changes. The objective of an element equals that of its matrix, including failures. EucGrad writes X Q + G, EucHessianEta V Q, to the given vector and to nothing else, also when arguments and result are one element. RieGrad returns the projected gradient, and gradientDescent and optimize with the gradient method return what they return on matrices with the same report; their local objects are released and all other memory is as before. No function reads memory that was not written. The last fails for PreConditioner: without a factorisation it projects an output vector it has not written.", "quantifier": "every graph on which the objective can be evaluated, every memory, every element, every choice of input and output elements", "why_tests_cant": "Reading unwritten memory usually yields zeros in a test; aliasing of point, gradient and output has many combinations.", "anchors": ["src/QuadraticProblem.cpp:17-97", "src/QuadraticOptimizer.cpp:26-48", "src/QuadraticOptimizer.cpp:110-137", "src/manifold/LiftedSEVector.cpp:16-54"]}
{"id": "C86", "title": "Robust weights minimise a robust loss", "statement": "Each weight function belongs to a loss: L2 to the square, L1 to twice the absolute value, Huber to the Huber loss, TLS to the truncated square, GM to r^2/(1+r^2), GNC_TLS to the surrogate of graduated non-convexity. The weighted square, with the weight of the current residual, touches the loss there and lies above it at every other residual; the derivative of the loss is that of the weighted square (except at the kink of TLS). The GNC weight minimises weighted square plus penalty over all weights in [0,1]; the surrogate grows with mu and is within barc^2/(4 mu) of the truncated square. Consequently, in a team that alternates optimisation and weight updates, the robust cost never rises above its value at the last round (for every cost), nor above its value at any earlier round (for costs without a control parameter), as long as the trajectory is not reset, neighbours exchange poses before a round and schedules are timely; under GNC the truncated cost rises by at most barc^2/(8 mu) per edge and phase.", "quantifier": "all residuals, thresholds, control parameters; every team, every robust cost but L1 for the team part, every number of rounds, every timely schedule, every order of updates", "why_tests_cant": "A wrong exponent or a missing square root in a weight still downweights outliers; only the relation to a loss at all residuals shows it. The descent spans robots, messages and rounds.", "anchors": ["src/DPGO_robust.cpp:54-134", "src/PGOAgent.cpp:1062-1142", "src/DPGO_utils.cpp:501-507"]}
{"id": "C87", "title": "Robust weights survive rounding", "statement": "In floating point, with any rounding that is monotone and exact at 0 and 1, weight() returns a number for every residual >= 0 (L1: > 0); it lies in [0,1] for every cost but L1, and a larger residual never gets a larger weight. The computed weight differs from the exact weight by at most 7 u w (12 u (mu+1) for GNC_TLS), where u is the relative rounding error. The computed squared residual is never negative, in whatever order the squares are summed and with or without fused multiply-add, and it is zero for a measurement that is met exactly. The control parameter mu never falls under update() if GNCMuStep >= 1, and once mu exceeds 2^(p+1) every GNC weight is 0 or 1. Without rounding all this is the exact model.", "quantifier": "all rounding functions of the stated kind (for the double-precision part all roundings to nearest with 53 bits), all costs, thresholds, control parameters, residuals, all orders of summation, any number of updates", "why_tests_cant": "The inputs at which range or order break are a handful of doubles next to a branch boundary; a test with typical residuals misses them, and a test that finds none proves nothing about the rest.", "anchors": ["src/DPGO_robust.cpp:54-134", "src/DPGO_utils.cpp:501-507", "src/PoseGraph.cpp:305-340"]}
{"id": "C88", "title": "From the pose-graph file to the printed cost", "statement": "Run on the text of a pose-graph file (written in the g2o format, edges of one dimension with positive definite information between different poses, one edge from each pose to the next listed in order), the four example programs compute with exactly the edges written in the file: the chordal and the single-robot program print twice the cost, over these edges, of the trajectory they compute (0 when the edges agree with a trajectory), the robust one returns the same edges with weights in [0,1] and weight 1 on consecutive edges, and the multi-robot one runs to its end for the number of robots given by its argument, printing costs over these edges. When the edges agree with a trajectory the robust program accepts every edge and returns it. Wrong argument counts and non-positive or non-numeric robot counts are refused before any file is opened; a count beyond the range of int is undefined behaviour; a missing or empty file stops all four with a failed check, and a line of unknown type prevents any result.", "quantifier": "for all file texts, file systems, argument lists, dimensions, numbers of poses and robots, and all linear, SVD and trust-region solvers meeting their contracts", "why_tests_cant": "The chain from characters to printed number passes through the reader, the graph, the partition, the agents and the solver; tests run a few sample files and look at the final number, which has no independent reference.", "anchors": ["examples/ChordalInitializationExample.cpp:21-51", "examples/SingleRobotExample.cpp:27-107", "examples/SingleRobotGNCExample.cpp:14-43", "examples/MultiRobotExample.cpp:20-263", "src/DPGO_utils.cpp:113-257"]}
{"id": "C89", "title": "A waiting robot joins a frame only on the votes of loop closures", "statement": "Every shared loop closure with a delivered neighbour pose suggests exactly one frame: the frame in which this closure would hold exactly. A waiting robot is initialised by a message only if the sender reported itself initialised and at least max(1, robustInitMinInliers) loop closures suggest rotations within half a radian of the returned rotation; its translation is then the mean of the translations these closures suggest, and its poses are the local trajectory placed at that frame. A message that does not initialise it leaves the robot unchanged. The unused one-stage variant also bounds the translation error of every voter.", "quantifier": "every reachable waiting robot, every message, every SVD routine meeting its contract, any number of loop closures, any real poses with invertible rotation parts", "why_tests_cant": "The frame depends on an iterated re-weighting over real matrices; the claim is about each closure that took part in it, for all poses and any number of closures, including wrong ones.", "anchors": ["src/PGOAgent.cpp:515-602", "src/PGOAgent.cpp:604-648", "src/PGOAgent.cpp:303-340"]}
{"id": "C90", "title": "Converged teams stay at rest", "statement": "Take a team of robots with the trust-region solver, the plain squared cost and no acceleration. If the projected gradient of the team's cost with respect to the poses of each robot is below the tolerance of its solver, and whatever robots have stored about each other is current, then no robot ever moves again: not under any schedule of messages and iterations, however late, often or out of order messages arrive, and not before they arrive. In particular a team whose estimates agree with all its measurements keeps them. Consequently the multi-robot example, as shipped with acceleration or without it, run on noise-free measurements (or on a pose-graph file whose edges are noise-free), prints exactly one line, with cost 0 and gradient norm 0, and stops. On any dataset the first iteration of the shipped example does not make the initial guess worse: the momentum sequences start at the guess, so the robot that moves first takes a plain trust-region step.", "quantifier": "every team, every schedule of messages and iterations, every dataset without noise, every number of robots from two on, every solver meeting its contract", "why_tests_cant": "A test shows a finite run of one schedule; a robot that drifts by rounding-sized or stale-data moves after convergence would need an unbounded run to be seen.", "anchors": ["src/QuadraticOptimizer.cpp:50-62", "src/PGOAgent.cpp:376-434", "src/PGOAgent.cpp:938-995", "examples/MultiRobotExample.cpp:170-245"]}
{"id": "C91", "title": "Sparse matrices written to a file can be read back", "statement": "writeSparseMatrixToFile writes one line row,column,number for every stored entry of the matrix and nothing else. The text can be read as a list of triplets in exactly one way; positions are ordered by rows and then by columns, so that none occurs twice; exactly the stored positions occur, all inside the matrix; and what the file says about any position, stored or not, is the entry of the matrix rounded to six significant digits. No other file changes, and a path that cannot be opened changes nothing. The size of the matrix is not in the file: empty rows at the end and the number of columns leave no trace.", "quantifier": "every sparse matrix, every disk and path", "why_tests_cant": "A test compares the file of a sample matrix; it cannot show that the text of every matrix, with whatever digits, signs and exponents, has only one reading.", "anchors": ["src/DPGO_utils.cpp:82-98", "include/DPGO/DPGO_types.h:26"]}
{"id": "C92", "title": "Trajectory and measurement files of any origin", "statement": "Take a file of rows of comma-separated decimal numbers, however they are written, below a first line of any kind. loadTrajectory accepts it exactly when the rows carry the indices 0 to n-1, each once; duplicate, missing and too large indices all make it throw. The order of the rows does not matter. The pose with an index is what its row says: the translation exactly, and the rotation of its quaternion, which need not have length one; every rotation is a proper one, also for the zero quaternion, which is read as no rotation. loadMeasurements gives one measurement per row, in order, each being what its row says, and throws when a whole number does not fit in an int. A blank line makes loading throw. A row that ends early is not refused: its missing numbers are taken from its last field. A minus sign in front of a row of a measurement file is not refused: the first robot wraps around modulo 2^32.", "quantifier": "every file of rows, every order of rows, every way of writing numbers", "why_tests_cant": "Tests load files the logger has written: rows in order, complete, with unit quaternions.", "anchors": ["src/PGOLogger.cpp:83-146", "src/PGOLogger.cpp:148-225"]}
{"id": "C93", "title": "Files that mix dimensions are refused", "statement": "A well-formed pose-graph file in which some edge has another dimension than the first edge (a spatial edge in a planar file or the other way round) is read without complaint, but every one of the four example programs aborts on it in a controlled way instead of computing with matrices of different sizes.", "quantifier": "every well-formed file with edges of both dimensions, any lines before, between and after them", "why_tests_cant": "Test data are files of one dimension; a mixed one with a repeated edge would have to be made up.", "anchors": ["src/DPGO_utils.cpp:113-257", "src/PoseGraph.cpp:83-148", "src/DPGO_utils.cpp:346-433", "examples/ChordalInitializationExample.cpp:33-48"]}
{"id": "C94", "title": "Chaining odometry is stable in floating point", "statement": "Compute the odometry initialisation in floating point, each operation with relative error at most u, the sums of products in any order and with or without fused multiply-add. Then the rotation of pose k differs from that of the exact chain by at most sqrt(d) s^k ((1 + g sqrt(d))^k - 1), where g = (1+u)^(d+1) - 1 and s bounds how far the measured rotations are from orthogonal, and the translation by at most that number times the length of the path to pose k. In double precision, with a million poses and rotations orthogonal to 2^-49, both factors are below 4e-9.", "quantifier": "every odometry, every rounding with the given relative error, every order of evaluation", "why_tests_cant": "Tests compare short chains with a tolerance; worst-case rounding over a million steps and all evaluation orders is out of their reach.", "anchors": ["src/DPGO_solver.cpp:271-304"]}
{"id": "C95", "title": "A silent orthonormality check means a manifold point is near", "statement": "If checkStiefelMatrix prints no warning for a matrix with at least as many rows as columns, some matrix with orthonormal columns is within 1e-5 of it in the Frobenius norm; and it prints none whenever one is within 4.9e-6. If checkRotationMatrix prints no warning for a square matrix, some rotation is within 1e-5; and in at most three dimensions it prints none whenever one is within 3e-6. checkData of a lifted pose array warns accordingly, once per pose and in order.", "quantifier": "every matrix of any size, every lifted pose array", "why_tests_cant": "The code tests the Gram matrix and the determinant, not the distance to the manifold; that the one bounds the other, for reflections as well, is a statement about all matrices.", "anchors": ["src/DPGO_utils.cpp:518-538", "src/manifold/Poses.cpp:35-39"]}
