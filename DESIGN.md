# Formal model of mit-acl/dpgo — design

## 1. Trusted base

* The Lean 4.33.0 kernel and Mathlib (individual modules only).
* Axioms: every property theorem depends on a subset of
  `propext`, `Classical.choice`, `Quot.sound` (checked with `#print axioms`; see `lean/Verif/Audit.lean`).
  No axiom of our own, no `sorry`, no `native_decide`, no `bv_decide`.
* The hand translation of the C++ text into the Lean definitions under `lean/Verif/Model/`.
  Every definition cites the file and lines it translates and says where it simplifies.

### Global modelling decisions

| Topic | Decision |
|---|---|
| `double` | exact real numbers (or an arbitrary linearly ordered field where division/sqrt/SVD is not needed). Rounding, overflow and NaN are **not** modelled, except that operations whose IEEE result would be inf/NaN are given explicit outcome `nonfinite` where the code can reach them. Exception: the robust weights are also modelled with rounding after every operation (`Model/RobustRound`, C87), and so is the chaining of odometry (`Model/OdometryRound`, C94). |
| process abort | glog `CHECK`/`LOG(FATAL)` is the outcome `Res.abort`; escaping C++ exceptions are `Res.throws`; undefined behaviour (out-of-range writes, null dereference, modulo by zero; the default build is Release, so Eigen assertions are off) is `Res.ub`. Nothing is totalised silently. |
| `size_t`, `unsigned` | natural numbers with explicit reduction `% 2^64`, `% 2^32` at the conversions the code performs on ids. Loop counters and sizes derived from container lengths are plain naturals. |
| `std::map`, `std::set` | key-sorted lists with the container's comparator (iteration order is therefore the C++ order). `std::unordered_map` is an association list (its order is never observed by the code). |
| dynamic Eigen matrices | `DMat`: a row count, a column count and an entry function; every size check of the code is performed on the counts. Sparse matrices are triplet lists, out-of-range or duplicate `insert` is `ub`. |
| external solvers (ROPTLIB, Cholmod, SPQR, JacobiSVD, Rand) | *oracles*: the result is an argument of the model function, so theorems hold for every result; laws that a theorem needs (e.g. "U, S, V is an SVD of M") are explicit hypotheses of that theorem. |
| time, printing to the console | not modelled. |
| files | a map from paths to contents and a set of writable paths (`Model/Logger.Disk`); no concurrent writers, no partial writes. |
| text formatting and parsing | characters of the "C" locale, decimal numerals, `%g` with six digits (`Model/Text`); no hexadecimal numerals; values are exact reals. |
| concurrency | lock/unlock/access programs per API function, interleaving semantics, any number of threads. The remaining model is sequential. |

Not modelled at all: ROPTLIB manifolds and solvers, timing, the text `writeMatrixToFile` writes, `chi2inv` (boost),
verbose output, memory exhaustion.

## 2. Layout

* `Verif/Basic/*` — outcomes, ordered containers, dynamic matrices.
* `Verif/Model/*` — the model, function by function, with citations.
* `Verif/Spec/*` — small independent specifications.
* `Verif/Lemmas/*` — helper lemmas.
* `Verif/Props/*` — the property theorems, each with a concrete non-trivial instance (`example`) beside it.

## 3. Properties: what is modelled and how it is proved

| id | model | proof |
|---|---|---|
| C01 | `Model/PoseGraph` op histories | refinement: invariant "three vectors = buckets of the first-wins list" by induction over operations |
| C02 | same, incl. edge index map | same invariant extended with the index map; witness for the wrap-around id where it fails; the weight setter of the robot by the same lookup (`C02_set_weight`) |
| C03, C04, C05, C07 | same | same invariant |
| C06 | same | list partition argument + counting by induction |
| C08 | cached Q/G as options | freshness invariant; **code violates it** (several mutators do not invalidate) — negation with witnesses, `_partial` theorem for the coherent operations |
| C09 | `constructQ/G` | case analysis + induction over shared loop closures |
| C10 | `constructQ/G` with `ub` | **code violates it**: witnesses (shared-only robot, self loop); `_partial` with the exact sufficient condition |
| C11–C14 | `Model/DataMatrices` (flattened block indices as in the code) | sum manipulation over triplet lists, for every ordered field |
| C15, C16 | team of graphs | C11 + telescoping; induction over schedules |
| C17–C19 | `Model/Poses` | algebra |
| C20, C21 | SVD as hypothesis | trace inequality for orthogonal matrices |
| C22, C23 | `Model/Robust` | real analysis, induction |
| C24–C26 | `Model/Averaging` | convexity / trace inequality; loop induction |
| C27 | agent + `Model/Solver` | invariant for agent; **`solveRobustPGO` violates it** (witness `C27_solver_violated`, `C27_solver_partial`); residuals exist only for measurements that fit (`C27_misfit`) |
| C28 | `Model/Init` | induction; **last clause violated**: a malformed list with a repeated edge, or a too long prefix, is not rejected (witnesses, `_partial`) |
| C29, C30, C64 | `Model/Init`; SVD and least squares as hypotheses | sums over triplets; normal equations; exact recovery by induction along connecting edges |
| C31, C32 | init functions | algebra |
| C34 | `Spec/Alignment`: schedules of a team (calls, lifting matrix handed on, messages sent, delivered late, repeatedly or never) | per-robot invariant `InFrame` and team invariant `SetupInv` by induction over schedules; chains back to robot 0 for schedules without `reset` (a reset sender leaves its old messages in flight). Iterations and hand-set estimates are outside this phase; the robust local method is covered only through a supplied trajectory |
| C33 | `initialize` | **code violates it** (aborts): `C33_short`; `_partial` for graphs whose odometry covers all poses |
| C35–C45, C50, C51, C62 | `Model/Agent` op histories | invariants by induction over API histories; C39, C42, C50, C51 and "in step" of C62 are violated: witnesses + `_partial`.  A call that throws ends a history |
| C46, C47 | scalars, `iterate` | recurrence with square roots; invariant over histories (iterations since the last synchronisation); interval zero **violates** C47 (remainder by zero) |
| C48 | aliasing `Eigen::Ref` modelled as in-place update | **violated**: witness + `_partial` |
| C49 | trajectory, own-pose and neighbour-pose queries | closed forms of the loops, then algebra; invariance under every orthogonal transformation and translation |
| C52 | `Model/Concurrency`: bodies of all `PGOAgent` functions reduced to locks, accesses and control of the optimisation thread; interleaving semantics for any number of threads; branches on data are free choices | a static discipline on bodies (`Cmd.ok`) is preserved by every step (`disciplined`); lock order ⇒ no cyclic wait; completion by a well-founded measure; **violated** when weight updates reset the estimate: reachable deadlocks + `_partial` |
| C53 | same model, one controlling thread | flow analysis of the controlling thread (`Cmd.flow`, `Phase`), invariant `Controlled`; step bound by a weight; two controlling threads crash (witnesses) |
| C54 | same model | static disciplines; exact list of functions that use the estimate without its lock; race freedom for asynchronous and for synchronous use; **violated** otherwise: reachable races |
| C55 | `Model/Optimizer`; ROPTLIB run is an oracle per run number | well-founded bound, induction; descent under `LawfulRtr` |
| C56 | ids | decision logic |
| C57, C67 | `Model/Text` (getline, stod, stoi, `<<`), `Model/Quaternion`, `Model/Logger` over a map from paths to contents | written text is a numeral for the nearest six-digit number (`Lemmas/TextShow`, `TextRound`); rank-one identities for quaternions; induction over rows; violations recorded |
| C58 | `Model/G2o` on characters, with uninitialised and stale variables; `Spec/G2oRound` (`NearestDouble`) | induction over lines; violations recorded; the conversion of indices to `double` is to a nearest one, for all indices (`toDouble_nearest`) |
| C59 | `Model/Partition.lean`: pose map, lists, cutting and assembling estimates (32-bit arithmetic) | the map is a tiling (`Spec/Partition.lean`), lists are filters of the relabelled dataset, robot objective = change of the centralised cost |
| C60, C61, C63 | `Model/DataMatrices`, `Model/Utils`, `Model/PoseGraph` | algebra / trigonometry / the C01 invariant |
| C65 | `Model/Solver` (`solvePGO`, `solveRobustPGO`) | one-robot graph is reachable and covered ⇒ total; C55 descent transported to the cost; loop induction for weights |
| C66 | `Model/Agent.iterate` | totality lemma per step (`Lemmas/AgentIterate`): matrix assembly by case analysis, optimiser on cached matrices, projections |
| C68–C70 | `Model/Demo` (the whole of `MultiRobotExample.cpp` after reading the file: agents, exchange of poses, central problem, greedy choice, reset) | invariant of the optimisation loop (`Lemmas/Demo*`): every agent is reachable, has its own edges and fresh neighbour poses, so C66 makes each step total and C15 relates its objective to the centralised cost; `Spec/Demo` for datasets, gradient and block norms |
| C71 | `Model/Agent` (`iterateStatus`, `iterateBody`, `getStatus`), `Spec/Status` (movement, live loop closures, settling iterations) | one iteration from the frame lemmas and C19; histories by induction with "the last event that still counts"; the team clause joins C41 with the histories of the other robots |
| C72 | `Model/Agent` (`updateX`, `updateY`, `updateV`), `Spec/Sequences` (nearest feasible poses, one accelerated step) | the accelerated part of `iterate` taken apart by `Lemmas/AgentForms`, the projections by C20; idle and first iterations by uniqueness of the nearest point |
| C73 | all of `Model/Agent*`, `Spec/Feasible` (what the caller hands over, solver hypotheses) | invariant `FeasInv` by induction over histories (`Lemmas/AgentFeasible`); the local initialisations, the two-stage alignment and the solver step are each shown to return orthonormal blocks (`Lemmas/Feasible`) |
| C74 | `Model/Examples` (the three single-robot programs after reading the file), `Spec/Examples` | the central problem is the one of the demo (`Lemmas/DemoCentral`); the agent of the single-robot example is the demo's agent with one robot (`single_agent`), its local measurements are the edges of the file, consecutive ones first, so C65 applies and the costs agree by permutation; noise-free data through C64, C28 and zero residuals |
| C75 | `Spec/Descent` (`seenCost`: the cost of the graph with the poses received last; `iterations`) | the caches of a careful history are fresh (C51), so the objective of the step is `seenCost` up to a constant; C55 for the step; the handing-over of poses and the status bookkeeping do not touch the measurements; induction over the iterations; a restart takes a plain step from the old estimate (C47) |
| C76 | `Spec/Anchor` (`withoutPrior`, `freeCost`, `anchorCost`, `anchorPull`) | the sum over priors with one inserted; C75 for the iterations, nonnegativity of the other terms; for late anchors the matrix of the graph before (fresh, C51) is combined with the linear matrix of the graph after; moving all poses along the prior's translation costs nothing but lowers the linear term; the quadratic matrix depends only on which poses have a prior. Partial, see §5 |
| C77 | `Spec/Guess` (`Places`, `LastPlaced`), `reweightsSinceReset` | induction over histories, one case per call (`step_guess`); the counter of trajectory resets is the number of weight updates since the last reset, capped (`resetCount_spec`); value from `initGlobal_ok` |
| C78 | `Model/LiftedVar` (memory of buffers, views, objects), `Spec/LiftedVar` (named values) | refinement by induction over programs: every variable owns one live buffer, distinct variables distinct ones (`Rep`). **Self-assignment violates it**, see §5. ROPTLIB's copy-on-write sharing of elements is not modelled, nor is `LiftedSEVector` |
| C79 | `Model/Agent`, `Spec/Schedule` (agents and mail; the schedule is judged by a `Clock` that counts moves and knows no poses) | invariant over schedules (`NetInv`): every robot is a `Member`, every message and every stored pose is a copy of the sender's estimate at the clock's time; descent of one event from the split of the team cost (`TeamInv.change`), then induction. Messages are those of `getSharedPoseDict` / `getSharedPoseDictWithNeighbor`; auxiliary poses are not sent, so accelerated robots run but need not progress |
| C80 | `Spec/Convergence`: block gradients by the exact second-order expansion of `teamCost`, `Steep` events, `Decreasing` solvers | the agent's data matrices give the block gradient and the curvature of the team cost (`Member.progress`, from C12 and the split of the team cost); bound of the gradient by the cost; induction over schedules; contradiction for endless ones. Demo: greedy choice (C70) gives the chosen robot at least 1/N of the squared gradient. Non-vacuity with a solver that makes one gradient step of the translations (`stepOracle`) |
| C81 | `Spec/AgentLog`: histories with a disk (`LogHist`), `LastOf` a kind of event, `LiftOf` | the logging functions of the agent are those of the model without files plus writes (`Model/AgentLog`); forgetting the disk gives the histories of the other properties (`LogHist.hist`); every call either keeps a file or is its writer (`stepLog_kept`), so a file shows its last writer (`LogHist.last`); contents by the logger theorems behind C57 and C67, the trajectory from the lifted estimate by orthonormal columns of the lifting matrix (`lift_unique`) |
| C82 | `Spec/Async`: `Recent` (what a robot misses is among the last `B` optimisations; from the schedule alone), `Tame` steps, `onManifold` | the gradient a robot uses is the block gradient of the team cost at a mixture of old and new estimates, namely those it holds (`Member.solve`, `Member.gradient`, `Member.preconditioned`); the team cost is a quadratic form, so a change of the neighbours' poses changes a block gradient by at most `L` times the change (`teamForm`, Cauchy-Schwarz); invariant over schedules (`AsyncInv`): cost plus a potential that counts recent squared steps plus a multiple of all squared steps stays below the initial cost; contradiction for endless schedules. Polar retraction from scratch (`StiefelSteps`): singular values of `R + V` are at least 1 for tangent `V`, hence the second-order bound. Preconditioner: `Q + 0.1 I` of the current `Q` (from C08's freshness), bounded by 0.1 and `L + 0.1` |
| C83 | `Spec/AsyncLimit`: `Active` (bounded pauses; from the schedule alone), `Steady` projection, `Accumulates` | the squared step lengths of C82 are summable (one coherent list of steps for the whole endless run, `AsyncHyp.short`), so all robots move little within any window of `T` events; the block gradient is Lipschitz in the joint estimate (`blockGradient_close`, from the quadratic form), and so is its projection (`slope_close`); each robot's gradient was small when it last optimised (C82), so all are small together; accumulation points by continuity, existence by compactness of boxes; the gradient is built entry by entry from the form (`blockGradient_exists`); the rate on the Stiefel manifold by Cauchy-Schwarz for Frobenius norms |
| C84 | `Spec/RobustTeam`: `Round` (a schedule, then one weight update of every robot), `Informed` (everybody has the current poses of its neighbours), `Course` of rounds with the edges of the *team* and their weights | each robot's new weights are those of the residual at the joint estimate, because what it holds of its neighbours is current (`NetInv.upToDate`, `updated_newEdge`); hence the lists of all robots are again the sorted lists of one team (`Member.reweigh`), which is the invariant of C79 for the next phase; induction over rounds |
| C85 | `Model/ProblemMem` (`LiftedSEVector`, `readElement`/`setElement`, `f`, `EucGrad`, `EucHessianEta`, `PreConditioner`, `RieGrad`, `gradientDescent` and `optimize` on buffers), `Spec/ProblemMem` (`Stores`: a buffer holds a matrix; `Only`: one buffer changed; `Tidy`: all older buffers unchanged and no new ones left) | refinement of the matrix-level functions of `Model/Optimizer`, step by step through the local objects; C13 for the factorisation. **Violated by `PreConditioner` with a separate output vector when the factorisation fails**, see §5 (`C85_precond_partial`, `C85_unwritten`) |
| C86 | `Spec/Loss` (the losses of Huber, Geman-McClure, truncated least squares and its surrogate; `gncPenalty`; `robustCost` of a team: fixed and odometry edges with their weights, other edges with the loss of their residual) | the weighted square majorises the loss, cost by cost (for GNC from the duality `gncLoss_le`/`gncLoss_eq`, an AM-GM argument); the derivative by squeezing the difference quotient between two majorisations (`hasDerivAt_of_majorised`); a phase lowers the weighted cost (C84), hence the robust cost (`robust_step`); a round changes no estimate once the resets are used up (`round_estimate`, C77's counter); induction over rounds |
| C87 | `Model/RobustRound` (`weight`, `update` and the sum in `computeMeasurementError` with `rnd` after every operation, with and without fused multiply-add), `Spec/Floating` (`Rounding`: monotone, idempotent, exact at 0 and 1, any direction, gradual underflow allowed; `Nearest p`: nearest number with `p` bits, ties either way, exponent unbounded; `SumSq`: squares summed in any order) | order and range from monotonicity alone; accuracy by counting relative errors (`Close u n`, stable under product, quotient and square root); the GNC weight as the clamped root; concrete double-precision inputs for the violation, each operation settled by `nearest_frac`. **Violated: GNC weights leave [0, 1]**, see §5 (`C87_gnc_partial`, `C87_violated`) |
| C88 | `Model/Main` (the four `main`s: argument count, `atoi`, reading, then the programs of `Model/Examples` and `Model/Demo`), `Spec/Main` (`GraphFile`: what a file must look like, on characters) | a `GraphFile` is read as a `Dataset` whose measurements are what its lines say (C58, positive definite information gives non-negative precisions, the chain of consecutive lines gives the odometry), so C74, C65, C27, C68 and C69 apply; `atoi` by induction over the digits; empty datasets evaluated; C74 no longer assumes unflagged edges (`unflag`), which files never satisfy; the robust example on agreeing edges by C68 (`C88_gnc_exact`); the file hypotheses are met in two dimensions (`Props/Main`) and in three (`Props/MainSpace`) |
| C89 | `Model/AgentInit` (two-stage alignment), `Model/OneStage` (`computeRobustNeighborTransform`, which has no caller), `Spec/Suggest` (`Suggests`: the loop closure holds exactly if the own frame is there; `Vote`) | algebra for one closure (the suggested frame exists and is unique when the rotations are invertible); C25/C26 say which inliers the averages return; induction over the candidate list keeps the closure each candidate came from. `C05_update`, `C22_threshold`, `C38_reported` are in `Props/Recompute` |
| C90 | `Model/Optimizer` (early exit of `trustRegion`), `Model/Agent` (`iterate`, `updateX`), `Model/Demo`, `Spec/Rest` (`Settled`, `TrueStore`) | the gradient the solver sees is the block gradient of the team's cost when all neighbour poses are there (`Member.solve`), and without them `updateX` does nothing; induction over schedules (`NetInv.rest`). A joint estimate with cost 0 minimises the cost, so its gradient vanishes (`Lemmas/RestExact`). With acceleration: `V = X` after `setX`, so in the first round idle robots keep their poses, send them as auxiliary poses, and the selected robot optimises from `Y`, which has the poses of `X` (`Lemmas/RestAccel`) |
| C91 | `Model/SparseFile` (storage by rows, `<<` of `Model/Text`), `Spec/SparseFile` (`Compressed`, `TripletText`, `EntryAt`) | induction over rows; a line splits at its commas in one way, numerals have one value (`tripletText_unique`), numbers by the rounding lemmas of C57 |
| C92 | `Model/Logger` (`loadTrajectory`, `loadMeasurements`), `Spec/LogFile` (`Joined`, `fieldOf`, `PoseRow`, `MeasRow`, `RotationOf`) | a cursor before field `j` of a row (`Logger.Before`) is moved by each extraction; the table lookup loop succeeds exactly when all indices occur (`place_table`, `place_missing`), which for `n` rows means a permutation |
| C93 | `Model/Main`, `Model/PoseGraph`, `Spec/Mixed` (`Mixed`, `MixedNew`) | induction over the edges before the odd one: each is added or refused and leaves the key of the odd one free (`add_free`), so the odd one meets the size test (`add_wrong`); the full claim fails on a two-line file (`C93_violated`) |
| C94 | `Model/OdometryRound` (`ChainR`: the loop of `odometryInitialization` with rounding; `DotR`: a sum of products in any order and grouping), `Spec/OdometryRound` (`fro`, `len`), `Spec/Floating` (`Accurate`, `Nearest`) | error of a computed sum by induction over its evaluation (`dotR_near`); Frobenius norms; induction over the poses with four invariants, the sizes and the errors of rotation and translation (`chain_bound`); the exact chain is that of C28; the number by Bernoulli's inequality; every odometry has a `ChainR` (`evalChain_chainR`) |
| C95 | `Model/Checks` (the two checks and `checkData`, returning whether they warn), `Spec/OdometryRound` (`fro`), `Spec/Projection` (`OrthoCols`, `IsRot`) | a singular value decomposition exists (`exists_svd`, proved, no oracle); Gram error and distance to the polar factor are sums over the singular values (`svd_gram`, `svd_polar`); no orthonormal matrix is nearer (`svd_near`); orthogonal matrices of opposite determinant are at distance two (`opposite_far`), so the determinant decides which component is near |

## 4. Hypotheses on external code

| name | meaning | used by |
|---|---|---|
| `LawfulSvd` | `U S Vᵀ = M`, `U`, `V` orthogonal, `S` non-negative and decreasing | C20, C21, C24–C26, C31, C34, C64 (satisfiable: `exists_lawfulSvd`) |
| `LawfulLsq` | the returned vector minimises the residual | C30, C64, C65 (satisfiable: `exists_lawfulLsq`) |
| `StaysOnManifold` | the optimiser returns points with orthonormal rotation blocks when started on one | C33 (robust method), C50 witness, C73 (satisfiable: `exOracle_manifold`) |
| `RetractsToManifold` | `Retraction` of the product manifold returns points with orthonormal rotation blocks when started on one | C73, only for the gradient-descent method |
| deterministic Cholesky verdict | whether the preconditioner factorises depends only on the matrix | C51 |
| orthonormal lifting matrix | `fixedStiefelVariable` returns a matrix with orthonormal columns | C31, C34 (satisfiable: `exStiefel`) |
| `LawfulRtr` | an accepted step does not increase the objective; a multi-iteration run is not worse than its start | C55, C65 (satisfiable: `exOpt_lawful`) |
| `Decreasing p L M c`, `ActsPosewise` | a run of the solver from a point of the manifold whose projected gradient is not below the tolerance lowers a problem with curvature at most `L` by `c` times the squared projected gradient (that is, at least one of its steps is accepted); the projection treats poses separately.  `M` bounds the gradient, so that a trust-region radius is large compared to it | C80 (satisfiable: `stepOracle_decreasing`, `stepOracle_posewise`) |
| `Tame α β` | the tangent projection is orthogonal; a retraction along a projected direction moves by at most `α` times its length and differs from the straight step by at most `β` times its square | C82 (proved for orthogonal projection and polar retraction, `onManifold_tame`; which retraction ROPTLIB uses for the parameter set chosen in `src/manifold/LiftedSEManifold.cpp` is not visible in this repository; the law is stated so that any retraction of second order with bounded constants meets it) |
| `ExactSolve` | the Cholmod solve with a symmetric positive definite matrix returns the exact solution | C82_preconditioned (satisfiable: `inverting_exact`) |
| `Steady C` | the norm of the projected gradient changes by at most the change of the gradient plus `C` times the change of the point times the norm of the gradient | C83 (proved with `C = 2` for the orthogonal projection, `onManifold_steady`) |
| unshared elements | ROPTLIB elements each own one buffer (its copy-on-write sharing is not modelled); `Projection`, `Retraction` and `ScaleTimesVector` read their arguments before they write the result | C78, C85 |
| positive quantile | `chi2inv` returns a positive number | C31_one_stage, C89_one_stage |
| truthful factorisation | Cholmod factorises every symmetric positive definite matrix | C85_factorised only |
| `KeepsZero` | the tangent projection of the zero direction is zero | C90_exact, C90_demo, C90_demo_accelerated, C90_program (holds for every linear projection) |

## 5. Where the code violates its property

Each entry has a theorem with a concrete witness and a `_partial` theorem stating what does hold.

* **C08** several mutators do not invalidate cached data matrices.
* **C10** `constructQ` writes outside its matrix for a robot with shared edges only; self loops.
* **C27** `solveRobustPGO` sets the weight of fixed-weight edges to 1.
* **C28** malformed odometry accepted.
* **C39** with acceleration, in an iteration that restarts the acceleration: the auxiliary poses have arrived, a needed public pose has not; `iterate(true)` returns true without moving and reports ready to terminate (`C39_violated`).  (The converse case, auxiliary pose missing but public poses present, returns false although the repeated step moved the estimate.)
* **C42** `reset` marks every robot inactive (the constructor: active), so with the L2 cost the reset agent announces termination at once and counts nobody as active (`C42_violated`).
* **C62** after `reset`, or after a measurement with a deactivated robot is added, the pose graph treats a neighbour as active that the team flags call inactive (`C62_in_step_violated`).
* **C33** a supplied trajectory of the wrong length is ignored, but if the odometry does not reach the last pose of the graph (some pose is known only from a shared loop closure), the fallback trajectory is shorter than the graph and the first access past its end aborts (`C33_short`, `C33_violated`).
* **C47** `restartInterval = 0` is accepted and every accelerated iteration is then undefined behaviour (`C47_zero`, `C47_violated`); the other clauses hold (`C47_restart_partial`).
* **C48** `getTrajectoryInLocalFrame` keeps a reference to the first translation of the array it rewrites; the first pass sets it to zero, so no later translation is shifted (`C48_wrong`: right if and only if the first translation vanishes; `C48_violated`: two equal poses are returned one unit apart).  First pose and rotations are right (`C48_first_partial`).
* **C50** the robust local initialisation sets rejected loop closures to weight 0 without fixing the weight; `initializeInGlobalFrame` with a robust cost then calls `initializeRobustOptimization`, which sets all non-fixed loop closures to 1 (`C50_lost`, `C50_violated`).
* **C51** `setMeasurementWeight`, `initializeRobustOptimization` (run whenever the agent is initialised in the global frame with a robust cost) and `anchorFirstPose` change weights or priors but keep the cached matrices, so the next step optimises with the old ones (`C51_violated`).  Histories that make these calls only while nothing is cached are proved current (`C51_*_partial`), for a deterministic Cholesky verdict.
* **C52** `updateMeasurementWeights` holds the measurement lock while `setXToInitialGuess` takes the pose lock; `updateX` takes them in the other order.  With `robustOptNumResets > 0` this deadlocks, e.g. with the agent's own optimisation thread (`C52_violated`) or with a second user thread (`C52_violated_users`).
* **C53** holds for one controlling thread.  Two threads that both start or both stop the optimisation thread crash the process (`C53_two_starts`, `C53_two_stops`), and the stop request is an unsynchronised `bool` (`C53_flag_race`; the model assumes that it is read and written sequentially consistently).
* **C54** `iterate`, `initialize`, `computeMeasurementResidual`, `updateMeasurementWeights`, `anchorFirstPose`, `initializeAcceleration`, `restartNesterovAcceleration` and `reset` (with logging) use the estimate without its lock (`C54_careless`), giving data races (`C54_violated`, `C54_violated_query`, `C54_violated_init`).
* **C59** holds for the lists, but with fewer than two poses per robot the lists of odometry of all robots but the last are empty and `PGOAgent::setMeasurements` then ignores the robot's shared edges (`C59_single_pose_ignored`).
* **C57** the logger writes six significant digits, so longer numbers change (`C57_violated`); indices of `2^31` and more are written but make `std::stoi` throw on loading (`C57_large_index`); an empty list leaves an older file in place (`C57_empty_list`); planar measurements empty the file and write nothing (`C57_planar`); a field `inf` or `nan` in any capitals is accepted by `std::stod` (`C57_special`), any other word makes it throw (`C57_word`); an index may carry a minus sign and anything after its digits, such as a fraction, is ignored (`C57_index`).
* **C58** `read_g2o_file` does not check that extraction succeeds.  A blank line after an edge line adds a copy of that edge (`C58_blank_line`, `C58_violated`), a truncated line takes the numbers of an earlier edge (`C58_truncated`; `C58_one_end` and `C58_keyword_only` for lines that end earlier still) or, as the first edge, uninitialised variables (`C58_truncated_first`); a blank first line aborts (`C58_first_blank`), as does any unknown line, e.g. a comment (`C58_unknown_abort`).  A missing file is read as one pose without edges (`C58_no_file`).  Indices go through `double`: from `2^53` on the number of poses can be too small (`C58_large_index`); it is always one more than the largest index rounded to a nearest double (`C58_rounded_count`).  An endpoint that is not a number is not refused either: the edge before is added once more, from pose 0 (`C58_word`).  An index beyond 64 bits never gets through (`C58_huge`), but only because the stored maximum does not survive the conversion to `double`.  Quaternions are not normalised, so a non-unit quaternion yields a non-rotation (`C58_not_rotation`).
* **C68** (limit) with several robots and fewer than two poses per robot the demo always aborts in `setX` of the first robot, which has ignored its data for want of odometry (`C68_single_pose_abort`); the program only tests that every robot has a pose.
* **C74** (limit) the example programs construct the central pose graph for robot 0: a file whose poses belong to another robot makes all three stop with a failed check (`C74_foreign`).  Without an edge between consecutive poses the agent ignores all data and the single-robot example stops with a failed check (`C74_no_odometry`).
* **C76** `setPrior` does not drop the cached quadratic matrix.  A robot that is first anchored after its first iteration works, from then on, with an objective that contains the anchor's linear term but not its quadratic one (`C76_late`): for a robot on its own with an anchor away from the origin it is unbounded below (`C76_late_unbounded`, `C76_violated`).  Replacing an anchor that was there when the matrix was built is harmless (`C76_again`).
* **C77** (limit) `setX` makes a robot `INITIALIZED` without an initial guess.  With `robustOptNumResets > 0` its first weight update then stops with a failed check (`C77_unplaced`).
* **C78** `LiftedSEVariable::operator=` does not test for self-assignment: it gives the object a new, unwritten buffer, releases the old one and then copies the new buffer to itself (`C78_self`, `C78_violated`).  References returned by `pose`, `rotation` and `translation` dangle after an assignment to the variable (`C78_dangling`).
* **C79** (limit) block descent needs current neighbour poses: two robots that optimise at the same time, each with poses that are one move old, can raise the cost of the team although each lowers the cost it sees (`C79_stale`).  Nothing in `PGOAgent` prevents it; it is up to whoever calls `iterate`.
* **C80** (limit) `MultiRobotExample` stops when the norm of the whole gradient is below 0.1, but an agent does nothing when the norm of its own gradient is below 0.01.  With more than 100 robots the whole gradient can be above 0.1 while every agent is below its tolerance, so the bound of `C80_demo` is limited to 100 robots; beyond that the program may spend all its iterations without moving.
* **C81** (limit) `reset` without an estimate or an anchor replaces `measurements.csv` and `X.txt` but leaves an older `trajectory_optimized.csv` beside them (`C81_stale`); in the plane no trajectory is written and `measurements.csv` is emptied (`C81_planar`).
* **C82** (limit) the step size is a parameter of the solver (`RGD_stepsize`, 1e-3 by default) that the code does not adapt to curvature, cost or delay; the theorem says how small it has to be.  With a step that is too large for the delay nothing bounds the cost (compare `C79_stale`).
* **C83** (limit) the estimates of a team without priors may drift: the cost is unchanged when all poses are translated together, so nothing bounds the estimates, and the existence of an accumulation point is conditional.
* **C84** (limit) if a robot updates its weights with poses that are one move old, the two copies of an edge get different weights (`C84_stale`: 1 and 1/25), so the robots no longer minimise one cost.  The code does not check this; whoever calls `updateMeasurementWeights` has to exchange poses first.  In the model messages that are under way during a weight round are lost; acceleration is off, and the `L1` weight (infinite at residual zero, C27) is excluded.
* **C85** if the Cholesky factorisation of `Q + 0.1 I` fails, `QuadraticProblem::PreConditioner` (56-69) does not write its output vector but projects it: an output vector that nothing was written to is read (`C85_unwritten`; reached with a measurement of negative precision, see the example).  ROPTLIB's truncated conjugate gradients call it with a separate output.  `gradientDescent` passes one vector as input and output and is not affected.  With non-negative weights and precisions the factorisation exists (`C85_factorised`).  Also: `LiftedSEVector::getData`/`setData` ask element 0 for its sizes, which does not exist for zero poses (`C85_vectors`); `setElement` copies numbers without looking at the shape of the matrix.
* **C86** (limit) two things in the code break the descent of the robust cost and are excluded: a trajectory reset (`robustOptNumResets`) moves the estimate back to the initial guess, and under `GNC_TLS` each round also changes the control parameter, which raises the surrogate (`C86_gnc_limit`); for GNC only the descent inside a phase and the bound of `C86_gnc_phase` remain.  `solveRobustPGO` (DPGO_solver.cpp:372-410) starts every pass from the given guess and not from the last estimate, so it is not covered by this argument.
* **C87** in double precision, `GNC_TLS` weights leave [0, 1]: with `GNCBarc` 5 (the default) and suitable doubles `mu` and `r` next to one of the two bounds, `weight` returns 1 + 2^-47 or -2^-45 (`C87_violated`), because bounds and formula are rounded separately.  The excess is at most 12 (mu + 1) 2^-53 (`C87_gnc_partial`), so it grows with `mu`.  A weight just above one is neither "accepted" nor "rejected" for `PoseGraph::statistics` (PoseGraph.cpp:313-330 compares with 0 and 1 exactly), and a negative weight makes the objective concave in one edge.  Clamping the result would repair it.  All other costs keep range and order under every rounding.  Overflow to infinity is outside the model: `Rounding` has no infinity, `Nearest` no largest exponent.
* **C88** (limit) the number of robots is read with `atoi`: a decimal beyond the range of `int` is undefined behaviour (`C88_overflow`), and `+3` or leading blanks are accepted (`C88_sign`).
* **C89** (limit) the two-stage alignment in use checks only rotations: closures that agree on the rotation are all accepted whatever their translations (`C89_translations_unchecked`), and the frame takes the mean of the translations.  One displaced pose of two moves the frame by half of the displacement, without bound (see the example).  `computeRobustNeighborTransform`, which nothing calls, weighs translations too and rejects such closures (`C89_one_stage`).
* **C90** (limit) stated for the trust-region method, which leaves a point whose gradient is below its tolerance alone; `gradientDescent` always takes its step.  With acceleration the momentum sequences may still be moving when the estimates have converged, so the claim on schedules is not made for it; the example program with acceleration is covered for its first round, which is the only one on noise-free data.
* **C37** (limit) the query for the auxiliary poses of one neighbour, unlike the other two auxiliary queries, does not check that acceleration is on.  Without acceleration the auxiliary array keeps the one pose of the constructor (`C36_auxiliary_unused`), so the query aborts as soon as a measurement shared with the neighbour is at an own pose other than the first, and otherwise returns the identity wherever the robot is (`C37_aux_unaccelerated`).
* **C91** (limit) the function is called nowhere in the repository; the file does not contain the size of the matrix (`C91_size`), and entries keep six significant digits, where `writeMatrixToFile` asks for full precision.
* **C92** (limit) `std::getline` on an exhausted row leaves the token as it was and nobody checks, so a truncated row is completed with copies of its last field instead of being refused (`C92_short_row`): `0,0,0,0,1,7` is read as the translation `(7, 7, 7)`. A minus sign in front of a row is accepted too: robot `-1` becomes robot `2^32 - 1` (`C92_negative`).
* **C93** `addOdometry` and its two siblings return at once for an edge between poses that are joined already, before they test the sizes.  A file with a spatial edge from 0 to 1 and then a planar one between the same poses therefore passes the pose graph, and the chordal example, which hands the whole dataset to the initialisation, reads a third row and column of the planar edge (`C93_violated`).  Refused whenever the odd edge is new (`C93_refused_partial`); with a spatial edge first, no number is ever printed (`C93_spatial_first`).
* **C95** (limit) the checks only print: no caller sees whether they warned, so nothing is refused. `checkData` is called nowhere in the repository. A NaN entry makes both comparisons false, so such a matrix passes silently; NaN is outside the model.
