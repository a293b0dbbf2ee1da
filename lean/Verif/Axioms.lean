import Verif.Props.Amplitude
import Verif.Props.BatchQueue
import Verif.Props.BoundingEllipse
import Verif.Props.BunchCopy
import Verif.Props.BunchCov
import Verif.Props.BunchCut
import Verif.Props.BunchDerived
import Verif.Props.BunchHistogram
import Verif.Props.BunchInternal
import Verif.Props.BunchList
import Verif.Props.BunchMoments
import Verif.Props.BunchPeriod
import Verif.Props.BunchRead
import Verif.Props.BunchRelative
import Verif.Props.BunchShell
import Verif.Props.BunchSigma
import Verif.Props.BunchSplit
import Verif.Props.BunchTransform
import Verif.Props.BunchTransmission
import Verif.Props.BunchWrite
import Verif.Props.ClosedOrbit
import Verif.Props.ClosedOrbitConverges
import Verif.Props.ClosedOrbitScan
import Verif.Props.Common
import Verif.Props.CutSequences
import Verif.Props.CutTransport
import Verif.Props.Decoupled
import Verif.Props.DecoupledEmittance
import Verif.Props.EllipseFunction
import Verif.Props.FFTTune
import Verif.Props.FFTTuneSignal
import Verif.Props.Figures
import Verif.Props.FileConvert
import Verif.Props.FitEllipse
import Verif.Props.GaussianDensity
import Verif.Props.Generator
import Verif.Props.Grid
import Verif.Props.Hist
import Verif.Props.HitCheck
import Verif.Props.HitCopy
import Verif.Props.HitShell
import Verif.Props.HitStorage
import Verif.Props.HitTransform
import Verif.Props.HullContent
import Verif.Props.IndexByPower
import Verif.Props.Invariants
import Verif.Props.JoinedEmittance
import Verif.Props.MassShell
import Verif.Props.Matching
import Verif.Props.MausRead
import Verif.Props.MausRoot
import Verif.Props.MausTracking
import Verif.Props.MausTree
import Verif.Props.MinMax
import Verif.Props.MultiMaus
import Verif.Props.Multipole
import Verif.Props.Newton
import Verif.Props.NodeProcess
import Verif.Props.Optics
import Verif.Props.PeakErrors
import Verif.Props.PeakFinder
import Verif.Props.PidCharge
import Verif.Props.PlaneEmittance
import Verif.Props.Plots
import Verif.Props.Process
import Verif.Props.RefCount
import Verif.Props.RefinePeak
import Verif.Props.Refused
import Verif.Props.Refused2
import Verif.Props.Reload
import Verif.Props.RunTracking
import Verif.Props.Scan
import Verif.Props.SmartPointer
import Verif.Props.Smoothing
import Verif.Props.Spec
import Verif.Props.Subprocess
import Verif.Props.Substitute
import Verif.Props.TextFile
import Verif.Props.TextIO
import Verif.Props.TextUser
import Verif.Props.Tracking
import Verif.Props.Tune
import Verif.Props.TuneBound
import Verif.Props.TuneExact
import Verif.Props.Voronoi
import Verif.Props.WeightContext
/-! Axioms of every property theorem. Expected: propext, Classical.choice, Quot.sound only. -/
#print axioms Xboa.C01_last_write_wins
#print axioms Xboa.C01_write_frame
#print axioms Xboa.C02_pointwise_context
#print axioms Xboa.C02_pointwise_number_right
#print axioms Xboa.C02_pointwise_number_left
#print axioms Xboa.C03_operator_fresh
#print axioms Xboa.C03_frame_history
#print axioms Xboa.C03_alias
#print axioms Xboa.C04_invert_pointwise
#print axioms Xboa.C04_invert_selects_complement
#print axioms Xboa.C04_double_invert_is_zero
#print axioms Xboa.C04_double_invert_false
#print axioms Xboa.C05_false
#print axioms Xboa.C05_swapped
#print axioms Xboa.C05_partial
#print axioms Xboa.C06_shared
#print axioms Xboa.C06_exact
#print axioms Xboa.C07_clear_resets_to_default
#print axioms Xboa.C07_false
#print axioms Xboa.C07_partial
#print axioms Xboa.C08_set_get_double
#print axioms Xboa.C08_set_get_int
#print axioms Xboa.C08_other_hits
#print axioms Xboa.C08_total_weight
#print axioms Xboa.C08_int_wraps_false
#print axioms Xboa.C09_false
#print axioms Xboa.C09_partial
#print axioms Xboa.C10_copy_equal
#print axioms Xboa.C11_false
#print axioms Xboa.C11_partial
#print axioms Xboa.C12_true
#print axioms Xboa.C12_false_result
#print axioms Xboa.C12_noop
#print axioms Xboa.C13_false
#print axioms Xboa.C13_partial
#print axioms Xboa.C13_false_only_near
#print axioms Xboa.C14_p_false
#print axioms Xboa.C14_p_partial
#print axioms Xboa.C14_slopes
#print axioms Xboa.C14_slopes_total
#print axioms Xboa.C14_ct_ek
#print axioms Xboa.C14_tP
#print axioms Xboa.C15_eq_iff
#print axioms Xboa.C15_refl_symm
#print axioms Xboa.C15_separates
#print axioms Xboa.C16_translate
#print axioms Xboa.C16_translate_back_partial
#print axioms Xboa.C16_translate_back_false
#print axioms Xboa.C16_abelian
#print axioms Xboa.C16_abelian_inverse
#print axioms Xboa.C17_count
#print axioms Xboa.C17_count_all_handles
#print axioms Xboa.C17_safe
#print axioms Xboa.C17_freed_exactly
#print axioms Xboa.C18_exactly_once
#print axioms Xboa.C18_first_and_length
#print axioms Xboa.C18_python
#print axioms Xboa.C19_moment
#print axioms Xboa.C19_moment_default
#print axioms Xboa.C19_zero_weight
#print axioms Xboa.C19_order
#print axioms Xboa.C19_weightless_hits
#print axioms Xboa.C20_false
#print axioms Xboa.C20_partial
#print axioms Xboa.C20_missing_is_zero
#print axioms Xboa.C21_core_entries
#print axioms Xboa.C21_core_symmetric
#print axioms Xboa.C21_core_psd
#print axioms Xboa.C21_bunch_entries
#print axioms Xboa.C21_bunch_symmetric_psd
#print axioms Xboa.C22_moment_tensor
#print axioms Xboa.C22_first_is_one
#print axioms Xboa.C23_local
#print axioms Xboa.C23_global
#print axioms Xboa.C23_local_observed
#print axioms Xboa.C23_global_observed
#print axioms Xboa.C23_local_idempotent
#print axioms Xboa.C23_global_idempotent
#print axioms Xboa.C23_local_dict
#print axioms Xboa.C23_global_dict
#print axioms Xboa.C24_partial
#print axioms Xboa.C24_new_partial
#print axioms Xboa.C24_false
#print axioms Xboa.C25_false
#print axioms Xboa.C25_exact
#print axioms Xboa.C25_partial
#print axioms Xboa.C26_local
#print axioms Xboa.C26_global
#print axioms Xboa.C26_local_partial
#print axioms Xboa.C26_global_partial
#print axioms Xboa.C26_default
#print axioms Xboa.C26_false
#print axioms Xboa.C27_conditional_remove
#print axioms Xboa.C27_error_keeps
#print axioms Xboa.C28_groups_by_int
#print axioms Xboa.C28_nothing_lost
#print axioms Xboa.C28_partial
#print axioms Xboa.C28_false
#print axioms Xboa.C29_period
#print axioms Xboa.C29_time
#print axioms Xboa.C29_unique
#print axioms Xboa.C30_ellipse_2d
#print axioms Xboa.C30_penn
#print axioms Xboa.C30_rejects
#print axioms Xboa.C30_false
#print axioms Xboa.C31_multisort
#print axioms Xboa.C31_errors
#print axioms Xboa.C32_histogram_2d
#print axioms Xboa.C32_histogram_1d
#print axioms Xboa.C33_false
#print axioms Xboa.C33_partial
#print axioms Xboa.C34_partial
#print axioms Xboa.C34_false
#print axioms Xboa.C34_short_weights
#print axioms Xboa.C35_grid
#print axioms Xboa.C35_cube
#print axioms Xboa.C35_single
#print axioms Xboa.C35_partial
#print axioms Xboa.C35_false
#print axioms Xboa.C35_indefinite
#print axioms Xboa.C36_result
#print axioms Xboa.C36_workers
#print axioms Xboa.C36_terminates
#print axioms Xboa.C36_returns
#print axioms Xboa.C37_icool
#print axioms Xboa.C37_mars
#print axioms Xboa.C37_charge
#print axioms Xboa.C38_file
#print axioms Xboa.C38_partial
#print axioms Xboa.C38_on_shell
#print axioms Xboa.C38_false
#print axioms Xboa.C38_mars_energy_false
#print axioms Xboa.C39_success
#print axioms Xboa.C39_unknown_pid
#print axioms Xboa.C39_g4beamline
#print axioms Xboa.C39_partial
#print axioms Xboa.C39_false
#print axioms Xboa.C40_list
#print axioms Xboa.C41_line
#print axioms Xboa.C41_partial
#print axioms Xboa.C41_false
#print axioms Xboa.C41_user
#print axioms Xboa.C42_virtual_hits
#print axioms Xboa.C42_primaries
#print axioms Xboa.C42_primaries_repeated
#print axioms Xboa.C42_file
#print axioms Xboa.C43_uphill
#print axioms Xboa.C44_sound
#print axioms Xboa.C44_exact
#print axioms Xboa.C44_partial
#print axioms Xboa.C44_false
#print axioms Xboa.C45_weighted_mean
#print axioms Xboa.C45_bounds
#print axioms Xboa.C45_constant
#print axioms Xboa.C45_linear
#print axioms Xboa.C45_interior
#print axioms Xboa.C46_partial
#print axioms Xboa.C46_counts
#print axioms Xboa.C46_false
#print axioms Xboa.C47_cut
#print axioms Xboa.C47_indices
#print axioms Xboa.C47_new
#print axioms Xboa.C48_track_one
#print axioms Xboa.C48_track_many
#print axioms Xboa.C48_determined
#print axioms Xboa.C48_new
#print axioms Xboa.C49_false
#print axioms Xboa.C49_split_partial
#print axioms Xboa.C49_order
#print axioms Xboa.C49_partial
#print axioms Xboa.C50_fit_ellipse
#print axioms Xboa.C50_unweighted
#print axioms Xboa.C51_range
#print axioms Xboa.C51_repeat
#print axioms Xboa.C52_seeds
#print axioms Xboa.C52_track_many
#print axioms Xboa.C52_spills
#print axioms Xboa.C53_partial
#print axioms Xboa.C53_rejected_partial
#print axioms Xboa.C53_false
#print axioms Xboa.C54_exact
#print axioms Xboa.C54_partial
#print axioms Xboa.C54_false
#print axioms Xboa.C55_cut_decreases
#print axioms Xboa.C55_bunch_weight
#print axioms Xboa.C56_false
#print axioms Xboa.C56_covs_ignore_hits
#print axioms Xboa.C56_partial
#print axioms Xboa.C57_false
#print axioms Xboa.C57_partial
#print axioms Xboa.C57_no_key_left
#print axioms Xboa.C57_unchanged
#print axioms Xboa.C58_mean_amplitude
#print axioms Xboa.C63_false
#print axioms Xboa.C63_partial
#print axioms Xboa.C64_false
#print axioms Xboa.C64_partial
#print axioms Xboa.C65_false
#print axioms Xboa.C65_partial
#print axioms Xboa.C65_python2_partial
#print axioms Xboa.C65_signal_partial
#print axioms Xboa.C65_constant
#print axioms Xboa.C65_short_false
#print axioms Xboa.C66_partial
#print axioms Xboa.C66_false
#print axioms Xboa.C67_partial
#print axioms Xboa.C67_false
#print axioms Xboa.C68_types_false
#print axioms Xboa.C68_partial
#print axioms Xboa.C68_primaries_partial
#print axioms Xboa.C68_false
#print axioms Xboa.C68_special_partial
#print axioms Xboa.C69_partial
#print axioms Xboa.C69_false
#print axioms Xboa.C69_truncated_false
#print axioms Xboa.C70_virtual_hits
#print axioms Xboa.C70_steps_partial
#print axioms Xboa.C70_steps_false
#print axioms Xboa.C70_types
#print axioms Xboa.C71_false
#print axioms Xboa.C71_partial
#print axioms Xboa.C59_hits
#print axioms Xboa.C59_mean
#print axioms Xboa.C59_covariance
#print axioms Xboa.C59_covariance_about
#print axioms Xboa.C59_false
#print axioms Xboa.C60_var_bins
#print axioms Xboa.C60_var_bins_2d
#print axioms Xboa.C60_partial
#print axioms Xboa.C60_maximum_left_out
#print axioms Xboa.C60_2d_default_false
#print axioms Xboa.C60_false
#print axioms Xboa.C61_default_false
#print axioms Xboa.C61_matrix_false
#print axioms Xboa.C61_partial
#print axioms Xboa.C61_condition
#print axioms Xboa.C62_default
#print axioms Xboa.C62_origin
#print axioms Xboa.C72_standard_deviation
#print axioms Xboa.C72_standard_deviation_default
#print axioms Xboa.C72_cut_local
#print axioms Xboa.C72_cut_global
#print axioms Xboa.C72_remove_partial
#print axioms Xboa.C72_remove_false
#print axioms Xboa.C73_kinetic
#print axioms Xboa.C73_kinetic_default
#print axioms Xboa.C73_kinetic_geometric
#print axioms Xboa.C73_canonical_partial
#print axioms Xboa.C73_canonical_geometric_false
#print axioms Xboa.C74_dispersion
#print axioms Xboa.C74_dispersion_prime
#print axioms Xboa.C74_rsquared_partial
#print axioms Xboa.C74_rsquared_false
#print axioms Xboa.C74_prime_default_false
#print axioms Xboa.C75_local
#print axioms Xboa.C75_clear_partial
#print axioms Xboa.C75_clear_false
#print axioms Xboa.C76_get_hits
#print axioms Xboa.C76_equality
#print axioms Xboa.C76_tolerance_false
#print axioms Xboa.C76_comparator
#print axioms Xboa.C77_list_get
#print axioms Xboa.C77_get
#print axioms Xboa.C77_errors
#print axioms Xboa.C77_no_variables
#print axioms Xboa.C78_moments_partial
#print axioms Xboa.C78_one_target
#print axioms Xboa.C78_normalised
#print axioms Xboa.C78_ellipse_false
#print axioms Xboa.C78_centred_false
#print axioms Xboa.FFTTune.C79_partial
#print axioms Xboa.FFTTune.C79_coarse
#print axioms Xboa.FFTTune.C79_no_peaks
#print axioms Xboa.FFTTune.C79_stale_false
#print axioms Xboa.FFTTune.C79_ends
#print axioms Xboa.FFTTune.C79_tolerance
#print axioms Xboa.FFTTune.C79_again
#print axioms Xboa.FFTTune.C79_biased_false
#print axioms Xboa.FFTTune.C79_zero_false
#print axioms Xboa.FFTTune.C79_hanning
#print axioms Xboa.FFTTune.C79_hanning_spectrum
#print axioms Xboa.FFTTune.C79_sft_grid
#print axioms Xboa.ClosedOrbit.C80_points
#print axioms Xboa.ClosedOrbit.C80_points_end
#print axioms Xboa.ClosedOrbit.C80_sigma
#print axioms Xboa.ClosedOrbit.C80_no_noise
#print axioms Xboa.ClosedOrbit.C80_partial
#print axioms Xboa.ClosedOrbit.C80_ends_false
#print axioms Xboa.ClosedOrbit.C80_none_false
#print axioms Xboa.ClosedOrbit.C80_fixed_false
#print axioms Xboa.ClosedOrbit.C80_singular_false
#print axioms Xboa.ClosedOrbit.C80_check
#print axioms Xboa.ClosedOrbit.C80_noise
#print axioms Xboa.ClosedOrbit.C80_linear
#print axioms Xboa.ClosedOrbit.C80_stop
#print axioms Xboa.ClosedOrbit.C81_partial
#print axioms Xboa.ClosedOrbit.C81_exact_false
#print axioms Xboa.ClosedOrbit.C81_no_variables
#print axioms Xboa.Newton.C82_partial
#print axioms Xboa.Newton.C82_affine
#print axioms Xboa.Newton.C82_root_kept
#print axioms Xboa.Newton.C82_silent_false
#print axioms Xboa.Newton.C82_tolerance_false
#print axioms Xboa.Newton.C82_wrap_partial
#print axioms Xboa.Newton.C82_wrap_false
#print axioms Xboa.Newton.C82_limits_false
#print axioms Xboa.Newton.C82_wrapper
#print axioms Xboa.Newton.C82_nested_false
#print axioms Xboa.Decoupled.C83_py3_false
#print axioms Xboa.Decoupled.C83_constructs
#print axioms Xboa.Decoupled.C83_partial
#print axioms Xboa.Decoupled.C83_decoupled_partial
#print axioms Xboa.Decoupled.C83_twiss_partial
#print axioms Xboa.Decoupled.C83_rejects
#print axioms Xboa.Decoupled.C83_emittance_false
#print axioms Xboa.Decoupled.C83_uncoupled_false
#print axioms Xboa.Decoupled.C83_transpose_false
#print axioms Xboa.HullContent.C84_simplex
#print axioms Xboa.HullContent.C84_content
#print axioms Xboa.HullContent.C84_py3_false
#print axioms Xboa.HullContent.C84_partial
#print axioms Xboa.Voronoi.C85_partial
#print axioms Xboa.Voronoi.C85_track_false
#print axioms Xboa.Voronoi.C85_py3_false
#print axioms Xboa.Voronoi.C85_new
#print axioms Xboa.Voronoi.C85_density
#print axioms Xboa.RefinePeak.C86_partial
#print axioms Xboa.RefinePeak.C86_parabola
#print axioms Xboa.RefinePeak.C86_find_peaks
#print axioms Xboa.RefinePeak.C86_py3_false
#print axioms Xboa.RefinePeak.C86_index_false
#print axioms Xboa.RefinePeak.C86_carry_false
#print axioms Xboa.RefinePeak.C86_gradient
#print axioms Xboa.HitShell.C87_partial
#print axioms Xboa.HitShell.C87_count_false
#print axioms Xboa.HitShell.C87_weight_false
#print axioms Xboa.HitShell.C87_shell_false
#print axioms Xboa.HitShell.C87_variables
#print axioms Xboa.BunchCopy.C88_new_from_hits
#print axioms Xboa.BunchCopy.C88_partial
#print axioms Xboa.BunchCopy.C88_equal
#print axioms Xboa.BunchCopy.C88_covs_false
#print axioms Xboa.BunchCopy.C88_weight_false
#print axioms Xboa.BunchRead.C89_dict
#print axioms Xboa.BunchRead.C89_partial
#print axioms Xboa.BunchRead.C89_false
#print axioms Xboa.C90_partial
#print axioms Xboa.C90_three
#print axioms Xboa.C90_false
#print axioms Xboa.C91_dphi
#print axioms Xboa.C91_fft_partial
#print axioms Xboa.C91_fft_false
#print axioms Xboa.C91_fft_t_false
#print axioms Xboa.C91_shell_false
#print axioms Xboa.C91_tune
#print axioms Xboa.C92_partial
#print axioms Xboa.C92_accepts_false
#print axioms Xboa.C92_rejects_false
#print axioms Xboa.C93
#print axioms Xboa.C93_shape
#print axioms Xboa.C94_partial
#print axioms Xboa.C94_false
#print axioms Xboa.C94_raises_false
#print axioms Xboa.C95_partial
#print axioms Xboa.C95_false
#print axioms Xboa.C95_raises
#print axioms Xboa.BunchWrite.C96_for009
#print axioms Xboa.BunchWrite.C96_partial
#print axioms Xboa.BunchWrite.C96_one_bunch
#print axioms Xboa.BunchWrite.C96_bunch
#print axioms Xboa.BunchWrite.C96_comment_false
#print axioms Xboa.BunchWrite.C96_newline_false
#print axioms Xboa.BunchWrite.C97_partial
#print axioms Xboa.BunchWrite.C97_false
#print axioms Xboa.BunchWrite.C97_unchanged
#print axioms Xboa.Plots.C98_partial
#print axioms Xboa.Plots.C98_two_dimensions
#print axioms Xboa.Plots.C98_largest_false
#print axioms Xboa.Plots.C98_negative_false
#print axioms Xboa.Plots.C98_draw_option_false
#print axioms Xboa.Plots.C98_empty_false
#print axioms Xboa.Plots.C98_few_false
#print axioms Xboa.Plots.C98_matplot_few_false
#print axioms Xboa.Plots.C99_partial
#print axioms Xboa.Plots.C99_no_points
#print axioms Xboa.Plots.C99_comparator_false
#print axioms Xboa.Plots.C99_matplot
#print axioms Xboa.Plots.C100_partial
#print axioms Xboa.Plots.C100_no_points
#print axioms Xboa.Plots.C100_negative_false
#print axioms Xboa.Plots.C100_matplot_false
#print axioms Xboa.Plots.C101_partial
#print axioms Xboa.Plots.C101_raises
#print axioms Xboa.Plots.C101_matplot
#print axioms Xboa.Plots.C101_false
#print axioms Xboa.Amp.C102_partial
#print axioms Xboa.Amp.C102_cut
#print axioms Xboa.Amp.C102_global
#print axioms Xboa.Amp.C102_remove
#print axioms Xboa.Amp.C102_mean
#print axioms Xboa.Amp.C102_nsigma
#print axioms Xboa.Amp.C102_unknown
#print axioms Xboa.Amp.C102_twice_false
#print axioms Xboa.C102_size
#print axioms Xboa.Node.C103_false
#print axioms Xboa.Node.C103_partial
#print axioms Xboa.Node.C103_before
#print axioms Xboa.Node.C103_one_child
#print axioms Xboa.Node.C103_join
#print axioms Xboa.Node.C103_result
#print axioms Xboa.Node.C103_stale_false
#print axioms Xboa.FileConvert.C104_partial
#print axioms Xboa.FileConvert.C104_rotate
#print axioms Xboa.FileConvert.C104_origin_false
#print axioms Xboa.FileConvert.C104_plots_false
#print axioms Xboa.FileConvert.C104_comments
#print axioms Xboa.FileConvert.C104_cm_false
#print axioms Xboa.BunchShell.C105_translate
#print axioms Xboa.BunchShell.C105_linear
#print axioms Xboa.BunchShell.C105_partial
#print axioms Xboa.BunchShell.C105_translation_false
#print axioms Xboa.BunchShell.C105_p_false
#print axioms Xboa.PeakErrors.C106_partial
#print axioms Xboa.PeakErrors.C106_found
#print axioms Xboa.PeakErrors.C106_scale
#print axioms Xboa.PeakErrors.C106_parabola_partial
#print axioms Xboa.PeakErrors.C106_false
#print axioms Xboa.PeakErrors.C106_draw_false
#print axioms Xboa.Generator.C107_one_false
#print axioms Xboa.Generator.C107_hit
#print axioms Xboa.Generator.C107_partial
#print axioms Xboa.Generator.C107_bad_lines
#print axioms Xboa.Generator.C107_lists_false
#print axioms Xboa.EllipseFunction.C108_section
#print axioms Xboa.EllipseFunction.C108_partial
#print axioms Xboa.EllipseFunction.C108_projection_false
#print axioms Xboa.EllipseFunction.C108_limits_false
#print axioms Xboa.EllipseFunction.C108_one_variable
#print axioms Xboa.RefCount.C109_safe
#print axioms Xboa.RefCount.C109_countdown
#print axioms Xboa.RefCount.C109_lost
#print axioms Xboa.RefCount.C109_calls
#print axioms Xboa.RefCount.C109_false
#print axioms Xboa.RefCount.C109_partial
#print axioms Xboa.C110_statistics
#print axioms Xboa.C110_partial
#print axioms Xboa.C110_same_shape
#print axioms Xboa.C110_merged
#print axioms Xboa.C110_false
#print axioms Xboa.Subprocess.C111_partial
#print axioms Xboa.Subprocess.C111_stuck
#print axioms Xboa.Subprocess.C111_root
#print axioms Xboa.Subprocess.C111_switch
#print axioms Xboa.Subprocess.C111_false
#print axioms Xboa.Figures.C112_call
#print axioms Xboa.Figures.C112_scatter
#print axioms Xboa.Figures.C112_partial
#print axioms Xboa.Figures.C112_new
#print axioms Xboa.Figures.C112_unique
#print axioms Xboa.Figures.C112_multigraph_false
#print axioms Xboa.Figures.C112_false
#print axioms Xboa.Figures.C112_size_false
#print axioms Xboa.Invariants.C113_scaling
#print axioms Xboa.Invariants.C113_invariant
#print axioms Xboa.Invariants.C113_lattice
#print axioms Xboa.Invariants.C113_optics
#print axioms Xboa.CutSequences.C114_sequence
#print axioms Xboa.CutSequences.C114_order
#print axioms Xboa.CutSequences.C114_transmission
#print axioms Xboa.CutSequences.C114_weights_differ
#print axioms Xboa.ClosedOrbit.C115_converges
#print axioms Xboa.ClosedOrbit.C115_precision
#print axioms Xboa.ClosedOrbit.C115_plane
#print axioms Xboa.Matching.C116_plane
#print axioms Xboa.Matching.C116_geometric
#print axioms Xboa.Matching.C116_penn_partial
#print axioms Xboa.Matching.C116_any_charge
#print axioms Xboa.Matching.C116_angular_momentum_partial
#print axioms Xboa.Matching.C116_transform_to
#print axioms Xboa.Matching.C116_transform_to_penn_partial
#print axioms Xboa.Matching.C116_canonical_false
#print axioms Xboa.Matching.C116_charge_false
#print axioms Xboa.CutTransport.C117_local
#print axioms Xboa.CutTransport.C117_global
#print axioms Xboa.CutTransport.C117_other
#print axioms Xboa.CutTransport.C117_moved
#print axioms Xboa.C118_bound
#print axioms Xboa.C118_order
#print axioms Xboa.C119_sent_partial
#print axioms Xboa.C119_partial
#print axioms Xboa.C119_false
#print axioms Xboa.C119_same_false
#print axioms Xboa.Reload.C120_round_partial
#print axioms Xboa.Reload.C120_partial
#print axioms Xboa.Reload.C120_false
#print axioms Xboa.Decoupling.C121_partial
#print axioms Xboa.Decoupling.C121_matrix_false
#print axioms Xboa.Decoupling.C121_order_false
#print axioms Xboa.Decoupling.C121_false
#print axioms Xboa.Batch.C122_substr
#print axioms Xboa.Batch.C122_partial
#print axioms Xboa.Batch.C122_alive
#print axioms Xboa.Batch.C122_false
#print axioms Xboa.Batch.C122_lost_false
#print axioms Xboa.Batch.C122_suspended_false
#print axioms Xboa.Planes.C123_planes
#print axioms Xboa.Planes.C123_each
#print axioms Xboa.Joined.C124_join
