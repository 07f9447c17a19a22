import Verif.Props.Agent
import Verif.Props.AgentAccel
import Verif.Props.AgentAlign
import Verif.Props.AgentAnchor
import Verif.Props.AgentCaches
import Verif.Props.AgentDescent
import Verif.Props.AgentFeasible
import Verif.Props.AgentFrames
import Verif.Props.AgentGuess
import Verif.Props.AgentInit
import Verif.Props.AgentLog
import Verif.Props.AgentMessages
import Verif.Props.AgentPlain
import Verif.Props.AgentSequences
import Verif.Props.AgentShared
import Verif.Props.AgentStatus
import Verif.Props.AgentVotes
import Verif.Props.AgentWeights
import Verif.Props.Assembly
import Verif.Props.Async
import Verif.Props.AsyncLimit
import Verif.Props.Averaging
import Verif.Props.Checks
import Verif.Props.Chordal
import Verif.Props.Concurrency
import Verif.Props.ConcurrencyLoop
import Verif.Props.ConcurrencyRace
import Verif.Props.Convergence
import Verif.Props.Demo
import Verif.Props.Errors
import Verif.Props.Examples
import Verif.Props.G2o
import Verif.Props.G2oRound
import Verif.Props.G2oShort
import Verif.Props.LiftedVar
import Verif.Props.LogFile
import Verif.Props.Logger
import Verif.Props.Loss
import Verif.Props.Main
import Verif.Props.MainSpace
import Verif.Props.Mixed
import Verif.Props.NegativeIndex
import Verif.Props.Objective
import Verif.Props.Odometry
import Verif.Props.OdometryRound
import Verif.Props.Partition
import Verif.Props.PoseGraph
import Verif.Props.Poses
import Verif.Props.ProblemMem
import Verif.Props.Projection
import Verif.Props.Queries
import Verif.Props.Recompute
import Verif.Props.ResidualShape
import Verif.Props.Rest
import Verif.Props.Robust
import Verif.Props.RobustRound
import Verif.Props.RobustTeam
import Verif.Props.Schedule
import Verif.Props.SetWeight
import Verif.Props.Solver
import Verif.Props.SparseFile
import Verif.Props.Team
import Verif.Props.Words

/-! Axioms of every property theorem (generated by tools/audit.py). The build log must show
only `propext`, `Classical.choice`, `Quot.sound`. -/

#print axioms Dpgo.Props.C01_history
#print axioms Dpgo.Props.C01_set
#print axioms Dpgo.Props.C01_set_accepts
#print axioms Dpgo.Props.C01_set_unaltered
#print axioms Dpgo.Props.C02_lookup
#print axioms Dpgo.Props.C02_wraparound_out_of_range
#print axioms Dpgo.Props.C02_set_weight
#print axioms Dpgo.Props.C03_buckets
#print axioms Dpgo.Props.C04_num_poses
#print axioms Dpgo.Props.C05_public_ids
#print axioms Dpgo.Props.C05_wraparound_own_neighbor
#print axioms Dpgo.Props.C05_update
#print axioms Dpgo.Props.C06_partition
#print axioms Dpgo.Props.C06_statistics
#print axioms Dpgo.Props.C07_query
#print axioms Dpgo.Props.C07_set
#print axioms Dpgo.Props.C07_new_neighbor
#print axioms Dpgo.Props.C07_reset
#print axioms Dpgo.Props.C08_fresh_partial
#print axioms Dpgo.Props.C08_stale_weight
#print axioms Dpgo.Props.C08_stale_measurement
#print axioms Dpgo.Props.C08_stale_prior
#print axioms Dpgo.Props.C08_stale_inactive
#print axioms Dpgo.Props.C09_missing
#print axioms Dpgo.Props.C09_returns
#print axioms Dpgo.Props.C10_assembly_partial
#print axioms Dpgo.Props.C10_linear
#print axioms Dpgo.Props.C10_shared_only_undefined
#print axioms Dpgo.Props.C10_self_loop_undefined
#print axioms Dpgo.Props.C11_objective
#print axioms Dpgo.Props.C11_difference
#print axioms Dpgo.Props.C11_cached
#print axioms Dpgo.Props.C12_expansion
#print axioms Dpgo.Props.C13_definite
#print axioms Dpgo.Props.C14_gauge
#print axioms Dpgo.Props.C15_local_change
#print axioms Dpgo.Props.C16_descent
#print axioms Dpgo.Props.C17_mul
#print axioms Dpgo.Props.C17_identity_value
#print axioms Dpgo.Props.C17_identity
#print axioms Dpgo.Props.C17_assoc
#print axioms Dpgo.Props.C17_inverse_value
#print axioms Dpgo.Props.C17_inverse
#print axioms Dpgo.Props.C17_inverse_cancels
#print axioms Dpgo.Props.C17_rigid
#print axioms Dpgo.Props.C17_matrix
#print axioms Dpgo.Props.C18_read
#print axioms Dpgo.Props.C18_write_rotation
#print axioms Dpgo.Props.C18_write_translation
#print axioms Dpgo.Props.C18_write_pose
#print axioms Dpgo.Props.C18_out_of_range
#print axioms Dpgo.Props.C18_setData
#print axioms Dpgo.Props.C18_make
#print axioms Dpgo.Props.C19_max_value
#print axioms Dpgo.Props.C19_zero_iff
#print axioms Dpgo.Props.C19_symmetric
#print axioms Dpgo.Props.C19_triangle
#print axioms Dpgo.Props.C19_average
#print axioms Dpgo.Props.C20_svd_exists
#print axioms Dpgo.Props.C20_nearest
#print axioms Dpgo.Props.C20_unique
#print axioms Dpgo.Props.C20_fixed
#print axioms Dpgo.Props.C20_wide
#print axioms Dpgo.Props.C20_project
#print axioms Dpgo.Props.C20_order
#print axioms Dpgo.Props.C20_parallel
#print axioms Dpgo.Props.C20_size
#print axioms Dpgo.Props.C21_nearest
#print axioms Dpgo.Props.C21_fixed
#print axioms Dpgo.Props.C22_threshold
#print axioms Dpgo.Props.C22_range
#print axioms Dpgo.Props.C22_L1
#print axioms Dpgo.Props.C22_monotone
#print axioms Dpgo.Props.C22_gnc_thresholds
#print axioms Dpgo.Props.C22_gnc_continuous
#print axioms Dpgo.Props.C22_tls
#print axioms Dpgo.Props.C23_schedule
#print axioms Dpgo.Props.C23_cap
#print axioms Dpgo.Props.C23_band
#print axioms Dpgo.Props.C23_others
#print axioms Dpgo.Props.C24_translation
#print axioms Dpgo.Props.C24_rotation
#print axioms Dpgo.Props.C24_pose
#print axioms Dpgo.Props.C25_rotation
#print axioms Dpgo.Props.C25_pose
#print axioms Dpgo.Props.C25_budget
#print axioms Dpgo.Props.C25_rotation_total
#print axioms Dpgo.Props.C25_pose_total
#print axioms Dpgo.Props.C26_rotation
#print axioms Dpgo.Props.C26_pose
#print axioms Dpgo.Props.C27_agent
#print axioms Dpgo.Props.C27_misfit
#print axioms Dpgo.Props.C27_solver_partial
#print axioms Dpgo.Props.C27_solver_violated
#print axioms Dpgo.Props.C28_chain
#print axioms Dpgo.Props.C28_prefix
#print axioms Dpgo.Props.C28_sound_partial
#print axioms Dpgo.Props.C28_duplicate_ignored
#print axioms Dpgo.Props.C28_partial_undefined
#print axioms Dpgo.Props.C29_translation
#print axioms Dpgo.Props.C29_rotation
#print axioms Dpgo.Props.C29_weights
#print axioms Dpgo.Props.C30_recover
#print axioms Dpgo.Props.C31_edge
#print axioms Dpgo.Props.C31_robust
#print axioms Dpgo.Props.C31_one_stage
#print axioms Dpgo.Props.C32_supplied
#print axioms Dpgo.Props.C32_computed
#print axioms Dpgo.Props.C32_odometry
#print axioms Dpgo.Props.C33_fallback_partial
#print axioms Dpgo.Props.C33_total_partial
#print axioms Dpgo.Props.C33_short
#print axioms Dpgo.Props.C33_violated
#print axioms Dpgo.Props.C34_aligned
#print axioms Dpgo.Props.C34_consistent
#print axioms Dpgo.Props.C34_chain
#print axioms Dpgo.Props.C34_progress
#print axioms Dpgo.Props.C35_step
#print axioms Dpgo.Props.C35_history
#print axioms Dpgo.Props.C35_leave
#print axioms Dpgo.Props.C36_auxiliary_unused
#print axioms Dpgo.Props.C36_sizes
#print axioms Dpgo.Props.C36_queries
#print axioms Dpgo.Props.C36_not_initialized
#print axioms Dpgo.Props.C37_aux_unaccelerated
#print axioms Dpgo.Props.C37_dict
#print axioms Dpgo.Props.C37_neighbor
#print axioms Dpgo.Props.C37_union
#print axioms Dpgo.Props.C38_stored
#print axioms Dpgo.Props.C38_stored_aux
#print axioms Dpgo.Props.C38_required
#print axioms Dpgo.Props.C38_known
#print axioms Dpgo.Props.C38_used
#print axioms Dpgo.Props.C38_reported
#print axioms Dpgo.Props.C39_plain
#print axioms Dpgo.Props.C39_accelerated_partial
#print axioms Dpgo.Props.C39_restart
#print axioms Dpgo.Props.C39_violated
#print axioms Dpgo.Props.C40_counters
#print axioms Dpgo.Props.C40_monotone
#print axioms Dpgo.Props.C40_status
#print axioms Dpgo.Props.C41_terminate
#print axioms Dpgo.Props.C42_violated
#print axioms Dpgo.Props.C42_new_agent
#print axioms Dpgo.Props.C42_reset_partial
#print axioms Dpgo.Props.C43_guard
#print axioms Dpgo.Props.C43_bounded
#print axioms Dpgo.Props.C43_L2
#print axioms Dpgo.Props.C43_discard
#print axioms Dpgo.Props.C43_spaced
#print axioms Dpgo.Props.C44_weights
#print axioms Dpgo.Props.C44_uninitialized
#print axioms Dpgo.Props.C44_rest
#print axioms Dpgo.Props.C44_total
#print axioms Dpgo.Props.C45_agree
#print axioms Dpgo.Props.C46_scalars
#print axioms Dpgo.Props.C46_step
#print axioms Dpgo.Props.C46_growth
#print axioms Dpgo.Props.C47_restart_partial
#print axioms Dpgo.Props.C47_synced
#print axioms Dpgo.Props.C47_zero
#print axioms Dpgo.Props.C47_violated
#print axioms Dpgo.Props.C48_first_partial
#print axioms Dpgo.Props.C48_relative_partial
#print axioms Dpgo.Props.C48_wrong
#print axioms Dpgo.Props.C48_violated
#print axioms Dpgo.Props.C49_anchor
#print axioms Dpgo.Props.C49_set
#print axioms Dpgo.Props.C49_agree
#print axioms Dpgo.Props.C49_neighbor
#print axioms Dpgo.Props.C49_invariant
#print axioms Dpgo.Props.C50_rejects_partial
#print axioms Dpgo.Props.C50_lost
#print axioms Dpgo.Props.C50_kept_partial
#print axioms Dpgo.Props.C50_violated
#print axioms Dpgo.Props.C51_objective_partial
#print axioms Dpgo.Props.C51_current_partial
#print axioms Dpgo.Props.C51_idle_partial
#print axioms Dpgo.Props.C51_violated
#print axioms Dpgo.Props.C52_order_partial
#print axioms Dpgo.Props.C52_progress_partial
#print axioms Dpgo.Props.C52_driver_partial
#print axioms Dpgo.Props.C52_violated
#print axioms Dpgo.Props.C52_violated_users
#print axioms Dpgo.Props.C52_completes_partial
#print axioms Dpgo.Props.C53_start
#print axioms Dpgo.Props.C53_end
#print axioms Dpgo.Props.C53_one_more_round
#print axioms Dpgo.Props.C53_bounded
#print axioms Dpgo.Props.C53_stopped
#print axioms Dpgo.Props.C53_runs
#print axioms Dpgo.Props.C53_no_crash
#print axioms Dpgo.Props.C53_repeat
#print axioms Dpgo.Props.C53_two_starts
#print axioms Dpgo.Props.C53_two_stops
#print axioms Dpgo.Props.C53_flag_race
#print axioms Dpgo.Props.C54_locked_partial
#print axioms Dpgo.Props.C54_careless
#print axioms Dpgo.Props.C54_async_partial
#print axioms Dpgo.Props.C54_driver_partial
#print axioms Dpgo.Props.C54_violated
#print axioms Dpgo.Props.C54_violated_query
#print axioms Dpgo.Props.C54_violated_init
#print axioms Dpgo.Props.C55_retry
#print axioms Dpgo.Props.C55_rejected
#print axioms Dpgo.Props.C55_descent
#print axioms Dpgo.Props.C55_report
#print axioms Dpgo.Props.C55_gradient_norms
#print axioms Dpgo.Props.C55_gradient_step
#print axioms Dpgo.Props.C56_poseID_order
#print axioms Dpgo.Props.C56_edgeID_order
#print axioms Dpgo.Props.C56_kinds_exclusive
#print axioms Dpgo.Props.C57_roundtrip_partial
#print axioms Dpgo.Props.C57_exact
#print axioms Dpgo.Props.C57_error
#print axioms Dpgo.Props.C57_violated
#print axioms Dpgo.Props.C57_large_index
#print axioms Dpgo.Props.C57_empty_list
#print axioms Dpgo.Props.C57_planar
#print axioms Dpgo.Props.C57_special
#print axioms Dpgo.Props.C57_word
#print axioms Dpgo.Props.C57_index
#print axioms Dpgo.Props.C58_wellformed_partial
#print axioms Dpgo.Props.C58_rotation
#print axioms Dpgo.Props.C58_not_rotation
#print axioms Dpgo.Props.C58_count
#print axioms Dpgo.Props.C58_count_partial
#print axioms Dpgo.Props.C58_every_text
#print axioms Dpgo.Props.C58_numPoses
#print axioms Dpgo.Props.C58_partition
#print axioms Dpgo.Props.C58_unknown
#print axioms Dpgo.Props.C58_unknown_abort
#print axioms Dpgo.Props.C58_blank_line
#print axioms Dpgo.Props.C58_violated
#print axioms Dpgo.Props.C58_truncated
#print axioms Dpgo.Props.C58_truncated_first
#print axioms Dpgo.Props.C58_first_blank
#print axioms Dpgo.Props.C58_large_index
#print axioms Dpgo.Props.C58_no_file
#print axioms Dpgo.Props.C58_rounded_count
#print axioms Dpgo.Props.C58_word
#print axioms Dpgo.Props.C58_huge
#print axioms Dpgo.Props.C58_keyword_only
#print axioms Dpgo.Props.C58_one_end
#print axioms Dpgo.Props.C59_poses
#print axioms Dpgo.Props.C59_edges
#print axioms Dpgo.Props.C59_count
#print axioms Dpgo.Props.C59_refused
#print axioms Dpgo.Props.C59_agent
#print axioms Dpgo.Props.C59_objective
#print axioms Dpgo.Props.C59_estimate
#print axioms Dpgo.Props.C59_single_pose_ignored
#print axioms Dpgo.Props.C60_nonneg
#print axioms Dpgo.Props.C60_zero_iff
#print axioms Dpgo.Props.C60_invariant
#print axioms Dpgo.Props.C61_trace
#print axioms Dpgo.Props.C61_axis_angle
#print axioms Dpgo.Props.C61_monotone
#print axioms Dpgo.Props.C62_set
#print axioms Dpgo.Props.C62_count
#print axioms Dpgo.Props.C62_not_required
#print axioms Dpgo.Props.C62_in_step_partial
#print axioms Dpgo.Props.C62_in_step_new
#print axioms Dpgo.Props.C62_in_step_violated
#print axioms Dpgo.Props.C63_shared_with
#print axioms Dpgo.Props.C63_shared_split
#print axioms Dpgo.Props.C63_active_ids
#print axioms Dpgo.Props.C63_active_poses
#print axioms Dpgo.Props.C64_valid
#print axioms Dpgo.Props.C64_exact
#print axioms Dpgo.Props.C65_total
#print axioms Dpgo.Props.C65_descent
#print axioms Dpgo.Props.C65_robust_total
#print axioms Dpgo.Props.C65_robust
#print axioms Dpgo.Props.C66_iterate
#print axioms Dpgo.Props.C66_waiting
#print axioms Dpgo.Props.C67_roundtrip
#print axioms Dpgo.Props.C67_writes
#print axioms Dpgo.Props.C68_runs
#print axioms Dpgo.Props.C68_output
#print axioms Dpgo.Props.C68_single_pose_abort
#print axioms Dpgo.Props.C69_cost
#print axioms Dpgo.Props.C69_descent
#print axioms Dpgo.Props.C70_greedy
#print axioms Dpgo.Props.C70_order
#print axioms Dpgo.Props.C71_iteration
#print axioms Dpgo.Props.C71_ready
#print axioms Dpgo.Props.C71_team
#print axioms Dpgo.Props.C71_publish
#print axioms Dpgo.Props.C72_step
#print axioms Dpgo.Props.C72_idle
#print axioms Dpgo.Props.C72_first
#print axioms Dpgo.Props.C73_feasible
#print axioms Dpgo.Props.C73_published
#print axioms Dpgo.Props.C73_idle
#print axioms Dpgo.Props.C74_chordal
#print axioms Dpgo.Props.C74_chordal_exact
#print axioms Dpgo.Props.C74_single
#print axioms Dpgo.Props.C74_single_exact
#print axioms Dpgo.Props.C74_gnc
#print axioms Dpgo.Props.C74_gnc_exact
#print axioms Dpgo.Props.C74_foreign
#print axioms Dpgo.Props.C74_no_odometry
#print axioms Dpgo.Props.C75_step
#print axioms Dpgo.Props.C75_run
#print axioms Dpgo.Props.C75_restart
#print axioms Dpgo.Props.C76_prior
#print axioms Dpgo.Props.C76_anchor_with
#print axioms Dpgo.Props.C76_anchor
#print axioms Dpgo.Props.C76_last
#print axioms Dpgo.Props.C76_hold_partial
#print axioms Dpgo.Props.C76_late
#print axioms Dpgo.Props.C76_late_unbounded
#print axioms Dpgo.Props.C76_again
#print axioms Dpgo.Props.C76_violated
#print axioms Dpgo.Props.C77_kept
#print axioms Dpgo.Props.C77_restore
#print axioms Dpgo.Props.C77_updates
#print axioms Dpgo.Props.C77_unplaced
#print axioms Dpgo.Props.C77_value
#print axioms Dpgo.Props.C78_values_partial
#print axioms Dpgo.Props.C78_data_partial
#print axioms Dpgo.Props.C78_parts_partial
#print axioms Dpgo.Props.C78_memory_partial
#print axioms Dpgo.Props.C78_self
#print axioms Dpgo.Props.C78_dangling
#print axioms Dpgo.Props.C78_violated
#print axioms Dpgo.Props.C79_start
#print axioms Dpgo.Props.C79_total
#print axioms Dpgo.Props.C79_views
#print axioms Dpgo.Props.C79_descent
#print axioms Dpgo.Props.C79_stale
#print axioms Dpgo.Props.C80_smooth
#print axioms Dpgo.Props.C80_budget
#print axioms Dpgo.Props.C80_settles
#print axioms Dpgo.Props.C80_dataset_smooth
#print axioms Dpgo.Props.C80_demo
#print axioms Dpgo.Props.C81_same
#print axioms Dpgo.Props.C81_total
#print axioms Dpgo.Props.C81_only
#print axioms Dpgo.Props.C81_initial
#print axioms Dpgo.Props.C81_measurements
#print axioms Dpgo.Props.C81_optimized
#print axioms Dpgo.Props.C81_matrix
#print axioms Dpgo.Props.C81_planar
#print axioms Dpgo.Props.C81_stale
#print axioms Dpgo.Props.C82_budget
#print axioms Dpgo.Props.C82_settles
#print axioms Dpgo.Props.C82_preconditioned
#print axioms Dpgo.Props.C82_timely
#print axioms Dpgo.Props.C82_manifold
#print axioms Dpgo.Props.C83_gradient
#print axioms Dpgo.Props.C83_critical
#print axioms Dpgo.Props.C83_limit
#print axioms Dpgo.Props.C83_manifold
#print axioms Dpgo.Props.C84_start
#print axioms Dpgo.Props.C84_course
#print axioms Dpgo.Props.C84_copies
#print axioms Dpgo.Props.C84_descent
#print axioms Dpgo.Props.C84_stale
#print axioms Dpgo.Props.C85_elements
#print axioms Dpgo.Props.C85_vectors
#print axioms Dpgo.Props.C85_evaluate
#print axioms Dpgo.Props.C85_gradient
#print axioms Dpgo.Props.C85_precond_partial
#print axioms Dpgo.Props.C85_unwritten
#print axioms Dpgo.Props.C85_factorised
#print axioms Dpgo.Props.C85_riegrad
#print axioms Dpgo.Props.C85_riegrad_sizes
#print axioms Dpgo.Props.C85_descent
#print axioms Dpgo.Props.C85_optimize
#print axioms Dpgo.Props.C86_majorises
#print axioms Dpgo.Props.C86_derivative
#print axioms Dpgo.Props.C86_duality
#print axioms Dpgo.Props.C86_gnc_limit
#print axioms Dpgo.Props.C86_step
#print axioms Dpgo.Props.C86_phase
#print axioms Dpgo.Props.C86_rounds
#print axioms Dpgo.Props.C86_gnc_phase
#print axioms Dpgo.Props.C87_exact
#print axioms Dpgo.Props.C87_range
#print axioms Dpgo.Props.C87_antitone
#print axioms Dpgo.Props.C87_accurate
#print axioms Dpgo.Props.C87_gnc_partial
#print axioms Dpgo.Props.C87_violated
#print axioms Dpgo.Props.C87_mu
#print axioms Dpgo.Props.C87_decided
#print axioms Dpgo.Props.C87_residual
#print axioms Dpgo.Props.C88_dataset
#print axioms Dpgo.Props.C88_chordal
#print axioms Dpgo.Props.C88_single
#print axioms Dpgo.Props.C88_exact
#print axioms Dpgo.Props.C88_gnc
#print axioms Dpgo.Props.C88_gnc_exact
#print axioms Dpgo.Props.C88_multi
#print axioms Dpgo.Props.C88_usage
#print axioms Dpgo.Props.C88_sign
#print axioms Dpgo.Props.C88_overflow
#print axioms Dpgo.Props.C88_robots
#print axioms Dpgo.Props.C88_no_file
#print axioms Dpgo.Props.C88_unknown
#print axioms Dpgo.Props.C89_suggestion
#print axioms Dpgo.Props.C89_votes
#print axioms Dpgo.Props.C89_refused
#print axioms Dpgo.Props.C89_translations_unchecked
#print axioms Dpgo.Props.C89_one_stage
#print axioms Dpgo.Props.C90_rest
#print axioms Dpgo.Props.C90_exact
#print axioms Dpgo.Props.C90_demo
#print axioms Dpgo.Props.C90_first_round
#print axioms Dpgo.Props.C90_demo_accelerated
#print axioms Dpgo.Props.C90_program
#print axioms Dpgo.Props.C91_triplets
#print axioms Dpgo.Props.C91_unwritable
#print axioms Dpgo.Props.C91_size
#print axioms Dpgo.Props.C92_trajectory
#print axioms Dpgo.Props.C92_order
#print axioms Dpgo.Props.C92_measurements
#print axioms Dpgo.Props.C92_short_row
#print axioms Dpgo.Props.C92_blank
#print axioms Dpgo.Props.C92_negative
#print axioms Dpgo.Props.C93_refused_partial
#print axioms Dpgo.Props.C93_violated
#print axioms Dpgo.Props.C93_spatial_first
#print axioms Dpgo.Props.C94_drift
#print axioms Dpgo.Props.C94_million
#print axioms Dpgo.Props.C95_stiefel
#print axioms Dpgo.Props.C95_rotation
#print axioms Dpgo.Props.C95_array
