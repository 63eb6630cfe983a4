{
 "claims": [
  {
   "property": "C01",
   "status": "proved",
   "theorems": [
    "Verif.Props.near_lines_exact",
    "Verif.Props.near_particles_exact",
    "Verif.Props.near_line_found",
    "Verif.Props.near_lines_misses_half_box"
   ],
   "note": "Exact for radii below half the box (hypothesis of the property); near_lines_misses_half_box shows the bound is needed."
  },
  {
   "property": "C02",
   "status": "proved",
   "theorems": [
    "Verif.Props.pair_distance",
    "Verif.Props.transDist2_along",
    "Verif.Props.transDist2_shift",
    "Verif.Props.pair_distance_shift",
    "Verif.Spec.perDist_isLeast"
   ],
   "note": "Floats are exact reals."
  },
  {
   "property": "C03",
   "status": "proved",
   "theorems": [
    "Verif.Props.near_particles_schedule",
    "Verif.Props.near_lines_schedule"
   ],
   "note": "All interleavings of atomic critical sections over all assignments of particles to threads."
  },
  {
   "property": "C04",
   "status": "proved",
   "theorems": [
    "Verif.Props.colden_conserved_tophat",
    "Verif.Props.colden_conserved_voronoi",
    "Verif.Props.colden_outside_particle",
    "Verif.Props.goodAbs_mk'",
    "Verif.Props.chordLength_eq"
   ],
   "note": "Exact arithmetic; the chord is the Lebesgue measure of the part of the line inside the sphere."
  },
  {
   "property": "C05",
   "status": "proved",
   "theorems": [
    "Verif.Props.colden_deposit_safe",
    "Verif.Props.tau_deposit",
    "Verif.Props.tau_deposit_voronoi",
    "Verif.Props.tau_deposit_mono",
    "Verif.Props.tail_cut_error",
    "Verif.Props.odd_pixel_skipped",
    "Verif.Props.TailCut.tau_deposit_voigt"
   ],
   "note": "With an odd pixel count one pixel is never visited (odd_pixel_skipped), as the statement allows. tau_deposit_voigt: for the Voigt function itself, defined by its integral."
  },
  {
   "property": "C06",
   "status": "proved",
   "theorems": [
    "Verif.Props.colden_additive",
    "Verif.Props.tau_additive",
    "Verif.Props.interpolation_order_batches",
    "Verif.Props.snapshot_additive",
    "Verif.Props.segments_irrelevant",
    "Verif.Props.ranks_irrelevant",
    "Verif.Props.far_particles_irrelevant",
    "Verif.Props.preselection_harmless",
    "Verif.Props.mesh_segments_irrelevant"
   ],
   "note": "Exact arithmetic. Each rank must own at least one segment (see C10)."
  },
  {
   "property": "C07",
   "status": "proved",
   "theorems": [
    "Verif.Props.cubic_isKernel",
    "Verif.Props.quintic_isKernel",
    "Verif.Props.tophat_unit_mass"
   ],
   "note": "Unit mass is the Lebesgue integral over three-dimensional space."
  },
  {
   "property": "C08",
   "status": "proved",
   "theorems": [
    "Verif.Props.pixel_fraction",
    "Verif.Props.pixel_fraction_clip",
    "Verif.Props.colden_conserved_sph"
   ],
   "note": "The error bound is first order in the pixel size; exact arithmetic."
  },
  {
   "property": "C09",
   "status": "partial",
   "theorems": [
    "Verif.Props.segments_tile",
    "Verif.Props.segments_nearest_partial",
    "Verif.Props.mesh_column",
    "Verif.Props.mesh_column_segments",
    "Verif.Props.mesh_column_nearest_partial",
    "Verif.Props.assignment_stops",
    "Verif.Props.assignment_swallows",
    "Verif.Props.no_cells_out_of_bounds",
    "Verif.Props.edge_cell_no_tau",
    "Verif.Props.edge_cell_reached"
   ],
   "note": "Tiling and conservation proved whenever the assignment ends normally. Nearest-cell ownership only if the cell at the edge of the box is nearest to at most half of the sample points: otherwise the program stops or gives points to another cell (negations proved). Optical depth of a segment starting at 0 is dropped (negation proved)."
  },
  {
   "property": "C10",
   "status": "partial",
   "theorems": [
    "Verif.Props.rank_files_partition",
    "Verif.Props.rank_files_balanced",
    "Verif.Props.every_rank_opens_partial",
    "Verif.Props.fewer_files_than_ranks_fails",
    "Verif.Props.mpi_ignores_snapdir"
   ],
   "note": "Every file goes to exactly one rank for every number of files and ranks. Opening works only with at least as many files as ranks; with fewer, rank 0 raises IndexError (fewer_files_than_ranks_fails). With MPI a snapdir directory is not searched (mpi_ignores_snapdir)."
  },
  {
   "property": "C11",
   "status": "partial",
   "theorems": [
    "Verif.Props.bigfile_reads_all_partial",
    "Verif.Props.bigfile_reads_once",
    "Verif.Props.bigfile_small_reads_all",
    "Verif.Props.bigfile_drops_particles",
    "Verif.Props.bigfile_blocklen",
    "Verif.Props.bigfile_n_segments_needs_type"
   ],
   "note": "No particle is read twice. All are read when the number of segments divides the rank's particles, in particular when there is one segment; otherwise the remainder is dropped (bigfile_drops_particles)."
  },
  {
   "property": "C12",
   "status": "partial",
   "theorems": [
    "Verif.Props.queries_independent",
    "Verif.Props.temp_pixels",
    "Verif.Props.single_pixel_fails",
    "Verif.Props.Session.session_independent_partial",
    "Verif.Props.Session.harmless_keeps_arrays",
    "Verif.Props.Session.recompute_restores",
    "Verif.Props.Session.filter_changes_tau",
    "Verif.Props.Session.power_3d_changes_tau"
   ],
   "note": "Array queries: proved for every history. Statistics: proved for every history, for lines not touched by a statistic with a threshold below an optical depth or a 3D power with a target; for those it is false (filter_changes_tau, power_3d_changes_tau), and single_pixel_fails shows it fails for one pixel in all."
  },
  {
   "property": "C13",
   "status": "partial",
   "theorems": [
    "Verif.Props.save_load",
    "Verif.Props.resave_partial",
    "Verif.Props.resave_loses_temperature"
   ],
   "note": "Round trip proved; repeated saving keeps all but temperatures and density weighted densities not asked for, and resave_loses_temperature shows those are lost."
  },
  {
   "property": "C14",
   "status": "partial",
   "theorems": [
    "Verif.Props.crash_safe_partial",
    "Verif.Props.save_completes",
    "Verif.Props.retry_loses_backup"
   ],
   "note": "Every crash point, when the savefile is complete or absent. retry_loses_backup: after one crash the next save destroys the only good copy."
  },
  {
   "property": "C15",
   "status": "partial",
   "theorems": [
    "Verif.Props.halo_save_partial",
    "Verif.Props.halo_save_not_loadable",
    "Verif.Props.halo_reload_fails",
    "Verif.Props.halo_init_iff",
    "Verif.Props.halo_crash_loses"
   ],
   "note": "The claim is false of the code: halo_save_not_loadable and halo_reload_fails are its negation. halo_save_partial says where the data ends up."
  },
  {
   "property": "C16",
   "status": "partial",
   "theorems": [
    "Verif.Props.Emission.emflux_never_returns",
    "Verif.Props.Emission.emflux_drifts",
    "Verif.Props.Emission.emflux_shared",
    "Verif.Props.Details.emflux_keeps_others"
   ],
   "note": "The property is false of the code. emflux_never_returns: for every sequence of calls by any objects every call raises TypeError (the segment count is iterated over). emflux_drifts and emflux_shared: were that repaired, n queries scale the cached array n times and objects share it."
  },
  {
   "property": "C17",
   "status": "partial",
   "theorems": [
    "Verif.Props.ReplaceDLA.replace_not_DLA_spec",
    "Verif.Props.ReplaceDLA.replaced_over_threshold",
    "Verif.Props.ReplaceDLA.replaced_consistent",
    "Verif.Props.ReplaceDLA.randSpectra_spec",
    "Verif.Props.ReplaceDLA.replace_too_many",
    "Verif.Props.ReplaceDLA.replace_silently_short",
    "Verif.Props.ReplaceDLA.replace_mixed_axes",
    "Verif.Props.ReplaceDLA.replace_other_element",
    "Verif.Props.ReplaceDLA.replace_none_wanted",
    "Verif.Props.ReplaceDLA.replace_twice"
   ],
   "note": "Proved for a new object asked for at most as many sightlines as it has, for every sequence of batches. The property is false of the code when more are asked for (replace_too_many, replace_silently_short), for sightlines along different axes (replace_mixed_axes), for elements other than hydrogen (replace_other_element) and for a second call (replace_twice)."
  },
  {
   "property": "C18",
   "status": "partial",
   "theorems": [
    "Verif.Props.Construct.construct_iff",
    "Verif.Props.Construct.construct_good",
    "Verif.Props.Construct.nbins_and_res_fail",
    "Verif.Props.Construct.unknown_kernel",
    "Verif.Props.Construct.missing_sightlines",
    "Verif.Props.Construct.wide_pixel",
    "Verif.Props.Construct.one_axis_many_positions",
    "Verif.Props.Construct.units_ignored",
    "Verif.Props.Details.kernel_named"
   ],
   "note": "construct_iff and construct_good: exactly which arguments give an object from a snapshot, and that it then has positive pixels which fill the box and a known kernel, if the pixel fits in the box. The rest of the statement is false of the code: see the theorems on nbins with res, unknown kernel names, missing sightlines, wide pixels, one axis for many positions and the units argument."
  },
  {
   "property": "C19",
   "status": "partial",
   "theorems": [
    "Verif.Props.PyModule.interp_types",
    "Verif.Props.PyModule.interp_lengths",
    "Verif.Props.PyModule.interp_safe_partial",
    "Verif.Props.PyModule.interp_never_crashes_partial",
    "Verif.Props.PyModule.interp_from_python",
    "Verif.Props.PyModule.interp_from_python_safe",
    "Verif.Props.PyModule.near_raises",
    "Verif.Props.PyModule.near_safe_partial",
    "Verif.Props.PyModule.near_from_python",
    "Verif.Props.PyModule.mean_flux_safe",
    "Verif.Props.PyModule.mean_flux_from_python",
    "Verif.Props.PyModule.interpolate_2d_safe_partial",
    "Verif.Props.PyModule.interp_0d_crashes",
    "Verif.Props.PyModule.interp_1d_cofm_crashes",
    "Verif.Props.PyModule.interp_negative_crashes",
    "Verif.Props.PyModule.interp_velocities_crashes",
    "Verif.Props.PyModule.interp_temperatures_crashes",
    "Verif.Props.PyModule.interp_axis_crashes",
    "Verif.Props.PyModule.interp_positions_crashes",
    "Verif.Props.PyModule.near_lengths_crashes",
    "Verif.Props.PyModule.interpolate_2d_grid_crashes",
    "Verif.Props.PyModule.interpolate_2d_lengths_crashes",
    "Verif.Props.VoronoiSafe.interp_voronoi_partial",
    "Verif.Props.VoronoiSafe.interp_voronoi_no_cell",
    "Verif.Props.ParseArgs.interp_call",
    "Verif.Props.ParseArgs.interp_call_raises",
    "Verif.Props.ParseArgs.interp_call_safe_partial",
    "Verif.Props.ParseArgs.interp_call_from_python",
    "Verif.Props.ParseArgs.float_nbins",
    "Verif.Props.ParseArgs.near_call",
    "Verif.Props.ParseArgs.near_call_raises",
    "Verif.Props.ParseArgs.near_call_from_python",
    "Verif.Props.ParseArgs.mean_flux_call_cases",
    "Verif.Props.ParseArgs.mean_flux_call_from_python",
    "Verif.Props.ParseArgs.interpolate_2d_call_cases",
    "Verif.Props.ParseArgs.interpolate_2d_call_from_python"
   ],
   "note": "False as stated: several shapes pass the checks and are read out of bounds (the *_crashes theorems). Proved: exceptions for wrong types and lengths, no access outside the arrays for arrays of the documented dimensions (SPH and top hat kernels, axes 1-3, at least one bin), and that all calls made by Spectra are of this kind. For the Voronoi kernel the same if every sightline has a cell within its radius (interp_voronoi_partial), and no result otherwise (interp_voronoi_no_cell). For every list of Python objects whatever: objects of the wrong kind or number are an exception and nothing is read; others reach the parameter they are named for (the *_call theorems), also in the calls made by the package. A number of bins that is not an integer is refused only at the first query, with an AttributeError (float_nbins). The sizes are those of unbounded integers; for the C types see C119."
  },
  {
   "property": "C20",
   "status": "proved",
   "theorems": [
    "Verif.Props.newton_converges",
    "Verif.Props.mean_flux_converges",
    "Verif.Props.mean_flux_underestimates",
    "Verif.Props.mean_flux_increases",
    "Verif.Props.c_mean_flux_converges",
    "Verif.Props.returns_unique",
    "Verif.Props.mean_flux_above_one",
    "Verif.Props.mean_flux_never_ends",
    "Verif.Props.mean_flux_no_absorption",
    "Verif.Props.mean_flux_perm",
    "Verif.Props.mean_flux_empty"
   ],
   "note": "Convergence for every reachable target; an unreachable target (below the clear fraction) loops for ever, no absorption gives a non-finite factor (findings)."
  },
  {
   "property": "C21",
   "status": "proved",
   "theorems": [
    "Verif.Props.one_bin",
    "Verif.Props.histogram_eq",
    "Verif.Props.binCount_total",
    "Verif.Props.flux_pdf_normalised",
    "Verif.Props.c_bin_in_range",
    "Verif.Props.c_pdf_agrees"
   ],
   "note": ""
  },
  {
   "property": "C22",
   "status": "proved",
   "theorems": [
    "Verif.Props.flux_power_mean",
    "Verif.Props.batches_sum",
    "Verif.Props.flux_power_nonneg",
    "Verif.Props.flux_power_perm",
    "Verif.Props.flux_power_shift",
    "Verif.Props.flux_power_variance",
    "Verif.Props.modePower_mirror",
    "Verif.Props.kbin_eq",
    "Verif.Props.window_pos",
    "Verif.Props.flux_power_window",
    "Verif.Props.Session.power_call"
   ],
   "note": ""
  },
  {
   "property": "C23",
   "status": "partial",
   "theorems": [
    "Verif.Props.cddf_spec",
    "Verif.Props.cddf_counts_once",
    "Verif.Props.cddf_one_bin",
    "Verif.Props.cddf_misses_top",
    "Verif.Props.cddf_default_range",
    "Verif.Props.grouping_conserves_partial",
    "Verif.Props.grouping_drops",
    "Verif.Props.grouping_loses",
    "Verif.Props.Details.cbins_spec"
   ],
   "note": "Every absorber inside the edges counted once; edges stop below the requested maximum and grouping drops left-over pixels (findings)."
  },
  {
   "property": "C24",
   "status": "proved",
   "theorems": [
    "Verif.Props.eq_width_spec",
    "Verif.Props.eq_width_bounds",
    "Verif.Props.eq_width_mono"
   ],
   "note": "For all optical depths of at least zero."
  },
  {
   "property": "C25",
   "status": "partial",
   "theorems": [
    "Verif.Props.line_density_spec",
    "Verif.Props.line_density_bounds",
    "Verif.Props.line_density_no_lines",
    "Verif.Props.line_density_eq_w_spec",
    "Verif.Props.omega_abs_spec",
    "Verif.Props.omega_abs_splits",
    "Verif.Props.rho_DLA_fails",
    "Verif.Props.rho_DLA_all_partial"
   ],
   "note": "rho_DLA fails for every positive threshold (finding)."
  },
  {
   "property": "C26",
   "status": "proved",
   "theorems": [
    "Verif.Props.roll_one_spec",
    "Verif.Props.rolled_spectra",
    "Verif.Props.roll_roll_neg",
    "Verif.Props.roll_get",
    "Verif.Props.rolled_spectra_empty"
   ],
   "note": "All spectra of any length."
  },
  {
   "property": "C27",
   "status": "partial",
   "theorems": [
    "Verif.Props.filter_single_partial",
    "Verif.Props.filter_tau_partial",
    "Verif.Props.filtered_le",
    "Verif.Props.filter_hangs",
    "Verif.Props.filter_tau_hangs"
   ],
   "note": "Proved when some pixel of each spectrum above threshold is at or below taueff+0.25; the full statement is false: a spectrum above threshold everywhere never returns."
  },
  {
   "property": "C28",
   "status": "proved",
   "theorems": [
    "Verif.Props.contiguous_regions_spec",
    "Verif.Props.contiguous_regions_empty",
    "Verif.Props.maximalRuns_mem",
    "Verif.Props.combine_regions_spec"
   ],
   "note": "All conditions on at least one pixel; combining with a minimum distance included."
  },
  {
   "property": "C29",
   "status": "partial",
   "theorems": [
    "Verif.Props.contiguous_positions",
    "Verif.Props.absorption_found",
    "Verif.Props.assign_spec_partial",
    "Verif.Props.assign_nearest_partial",
    "Verif.Props.assign_not_nearest",
    "Verif.Props.assign_not_periodic",
    "Verif.Props.assign_unaligned",
    "Verif.Props.host_spec",
    "Verif.Props.virial_vel_spec",
    "Verif.Props.first_halo_left_out",
    "Verif.Props.min_halo_mass_spec"
   ],
   "note": "First halo of the catalogue, not the nearest; not periodic (findings)."
  },
  {
   "property": "C30",
   "status": "partial",
   "theorems": [
    "Verif.Props.proj_pos_spec",
    "Verif.Props.proj_pos_refuses_partial",
    "Verif.Props.proj_pos_accepts_mixed",
    "Verif.Props.proj_pos_bad_axis"
   ],
   "note": "Mixed axes are refused when sorted or at most three; some mixed lists are accepted (finding)."
  },
  {
   "property": "C31",
   "status": "partial",
   "theorems": [
    "Verif.Props.noise_batch",
    "Verif.Props.noise_single",
    "Verif.Props.noiseVector_unique",
    "Verif.Props.noise_repeatable",
    "Verif.Props.noise_succeeds",
    "Verif.Props.noise_default_fails",
    "Verif.Props.cont_error_batch",
    "Verif.Props.cont_error_single",
    "Verif.Props.cont_error_batch_of_one",
    "Verif.Props.contError_spec",
    "Verif.Props.deltaLoop_range",
    "Verif.Props.cont_error_ends",
    "Verif.Props.cont_error_hangs"
   ],
   "note": "Any generator; the default sightline number fails on a single spectrum (finding)."
  },
  {
   "property": "C32",
   "status": "partial",
   "theorems": [
    "Verif.Props.renormalise_spec_partial",
    "Verif.Props.section_range",
    "Verif.Props.renormalise_whole",
    "Verif.Props.renormalise_refuses",
    "Verif.Props.renormalise_drops"
   ],
   "note": "Positive flux; pixels after the last section are dropped (finding)."
  },
  {
   "property": "C33",
   "status": "partial",
   "theorems": [
    "Verif.Props.fractions_physical_partial",
    "Verif.Props.fractions_balanced",
    "Verif.Props.nH0_bounds",
    "Verif.Props.nH0_monotone",
    "Verif.Props.no_electrons_nan",
    "Verif.Props.queries"
   ],
   "note": "Proved whenever something can ionise helium; with collisions off and no electrons the code divides 0 by 0."
  },
  {
   "property": "C34",
   "status": "proved",
   "theorems": [
    "Verif.Props.equilibrium",
    "Verif.Props.equilibrium_errors",
    "Verif.Props.fixed_point_converges",
    "Verif.Props.fixedLoop_sound",
    "Verif.Props.isothermal_unique",
    "Verif.Props.accel_exact",
    "Verif.Props.queries"
   ],
   "note": "Exact arithmetic; starting values that are not finite are not modelled."
  },
  {
   "property": "C35",
   "status": "partial",
   "theorems": [
    "Verif.Props.rates_positive_partial",
    "Verif.Props.verner_hep_pos_iff",
    "Verif.Props.hep_positive",
    "Verif.Props.alphaHp_antitone"
   ],
   "note": "False for one coefficient at exactly 6e5 K and 8e5 K, where the comparisons leave a gap."
  },
  {
   "property": "C36",
   "status": "proved",
   "theorems": [
    "Verif.Props.neutralFraction_root",
    "Verif.Props.neutralFraction_anti",
    "Verif.Props.neutralFraction_density",
    "Verif.Props.neutralFraction_temp",
    "Verif.Props.uvbAt_spec",
    "Verif.Props.get_reproc_HI_spec",
    "Verif.Props.shieldDens_scaling",
    "Verif.Props.Details.graySS_spec",
    "Verif.Props.Details.shieldDens_agree",
    "Verif.Props.uvb_shape"
   ],
   "note": " The rate network uses the same threshold and, between redshifts 0 and 5, the same gray opacity."
  },
  {
   "property": "C37",
   "status": "partial",
   "theorems": [
    "Verif.Props.interp1d_spec",
    "Verif.Props.onSegment_between",
    "Verif.Props.onSegment_node",
    "Verif.Props.clampE_in_range",
    "Verif.Props.getInterp_partial",
    "Verif.Props.low_density_fails",
    "Verif.Props.all_dense_fails",
    "Verif.Props.clamp_not_monotone"
   ],
   "note": "Energies are clamped, low densities are not, and a segment with only dense particles raises. The bicubic interpolation of GSL is a parameter, so its values are not bounded by those of the table."
  },
  {
   "property": "C38",
   "status": "partial",
   "theorems": [
    "Verif.Props.race_loses_error",
    "Verif.Props.no_false_error",
    "Verif.Props.all_inside",
    "Verif.Props.error_reported_partial"
   ],
   "note": "False for two threads: the error flag is overwritten. Proved for one thread; never a false error."
  },
  {
   "property": "C39",
   "status": "partial",
   "theorems": [
    "Verif.Props.get_systems_partial",
    "Verif.Props.get_systems_conserve",
    "Verif.Props.get_systems_apart",
    "Verif.Props.get_systems_again_partial",
    "Verif.Props.get_systems_not_repeatable",
    "Verif.Props.get_systems_loses",
    "Verif.Props.get_systems_equal_positions",
    "Verif.Props.get_systems_none",
    "Verif.Props.systems_sum"
   ],
   "note": "Proved for components at different positions in the spectrum (and, for a single component, a linking length up to the length of the spectrum): the systems are the cyclic runs of components linked by gaps below the linking length. False of repeated calls when the fit's components are not in order of position (get_systems_not_repeatable), for one component with a linking length above the spectrum (get_systems_loses), for equal positions and for no components."
  },
  {
   "property": "C40",
   "status": "partial",
   "theorems": [
    "Verif.Props.refit_spec",
    "Verif.Props.findPeaks_spec",
    "Verif.Props.findPeaks_ends",
    "Verif.Props.do_fit_partial",
    "Verif.Props.do_fit_ends_partial",
    "Verif.Props.voigt_draws_peaks",
    "Verif.Props.voigt_profile_spec",
    "Verif.Props.position_same",
    "Verif.Props.position_last_pixel",
    "Verif.Props.flat_spectrum_fails",
    "Verif.Props.symmetric_peak_fails",
    "Verif.Props.do_fit_again_adds",
    "Verif.Props.voigt_profile_zero",
    "Verif.Props.VoigtFunction.do_fit_voigt_partial",
    "Verif.Props.Details.pyround_spec"
   ],
   "note": "Proved for every optimiser that returns as many parameters as it is given and a non-negative goodness of fit, and every Voigt function that is positive and largest at its centre: do_fit ends after at most one turn per pixel, with consistent results or a failed assertion that what is left of the spectrum has a minimum. False for spectra without absorption above the tolerance (flat_spectrum_fails) and for symmetric peaks falling off to both ends (symmetric_peak_fails); a second do_fit on the same object adds the peaks again (do_fit_again_adds); a component in the last pixel is reported at 0 (position_last_pixel). do_fit_voigt_partial: what is asked of the Voigt function is proved for the real part of the Faddeeva function, defined by its integral."
  },
  {
   "property": "C41",
   "status": "proved",
   "theorems": [
    "Verif.Props.wanted_spec",
    "Verif.Props.wanted_order",
    "Verif.Props.most_massive_kept",
    "Verif.Props.satellite_kept",
    "Verif.Props.edge_halo_kept"
   ],
   "note": "The statement as given; the documentation and periodicity are findings."
  },
  {
   "property": "C42",
   "status": "partial",
   "theorems": [
    "Verif.Props.catalogue_complete",
    "Verif.Props.catalogue_succeeds",
    "Verif.Props.catalogue_first_file_empty",
    "Verif.Props.names_listed",
    "Verif.Props.file_order_partial",
    "Verif.Props.file_order_wrong"
   ],
   "note": "File order is the sorted order of names: numeric only up to ten files (finding). The names listed are exactly those which can be asked for."
  },
  {
   "property": "C43",
   "status": "proved",
   "theorems": [
    "Verif.Props.grid_spec",
    "Verif.Props.grid_inside",
    "Verif.Props.grid_refuses"
   ],
   "note": "All grid sizes of at least one."
  },
  {
   "property": "C44",
   "status": "partial",
   "theorems": [
    "Verif.Props.LineData.roman_value",
    "Verif.Props.LineData.roman_rejects",
    "Verif.Props.LineData.roman_positive",
    "Verif.Props.LineData.find_species_regex",
    "Verif.Props.LineData.row_species",
    "Verif.Props.LineData.parse_spec",
    "Verif.Props.LineData.table_spec",
    "Verif.Props.LineData.read_fails_iff",
    "Verif.Props.LineData.long_numeral_truncated",
    "Verif.Props.LineData.not_numerals_accepted",
    "Verif.Props.LineData.lyman_lost"
   ],
   "note": "Numerals of all numbers, rejection, the row pattern and the table (last row per species, ion and integer wavelength) are proved for all inputs. False, with witnesses: numerals over four symbols are truncated; strings the documentation calls invalid are accepted; the first of two lines with one integer wavelength is lost."
  },
  {
   "property": "C45",
   "status": "partial",
   "theorems": [
    "Verif.Props.CTools.smooth_spec",
    "Verif.Props.CTools.smooth_safe_iff",
    "Verif.Props.CTools.smooth_constant",
    "Verif.Props.CTools.smooth_end",
    "Verif.Props.CTools.smooth_even",
    "Verif.Props.CTools.gaussian_spec",
    "Verif.Props.CTools.gaussian_constant",
    "Verif.Props.CTools.c_mode",
    "Verif.Props.CTools.c_zero_odd",
    "Verif.Props.CTools.c_zero_even",
    "Verif.Props.CTools.c_zero_constant",
    "Verif.Props.CTools.c_variance",
    "Verif.Props.CTools.calc_power_spec",
    "Verif.Props.CTools.few_pixels",
    "Verif.Props.CTools.calc_power_twice"
   ],
   "note": "False near the far end, which is padded with zeros, for even smoothing widths, and for the first element of the power of an even number of pixels, which holds the highest frequency. Proved: what smoothing and the average power are for every size, and exactly when memory outside the array is read."
  },
  {
   "property": "C46",
   "status": "partial",
   "theorems": [
    "Verif.Props.CExtract.reads_once_partial",
    "Verif.Props.CExtract.first_never_read",
    "Verif.Props.CExtract.reads_ten",
    "Verif.Props.CExtract.rest_never_read",
    "Verif.Props.CExtract.single_hdf5"
   ],
   "note": "False for every number of files: the first is never read, nor are files 11 to 109. Proved: reading ends, no file is read twice, and which files are read."
  },
  {
   "property": "C47",
   "status": "partial",
   "theorems": [
    "Verif.Props.CExtract.accepted_partial",
    "Verif.Props.CExtract.table_read",
    "Verif.Props.CExtract.bad_row_stops",
    "Verif.Props.CExtract.truncated_stops",
    "Verif.Props.CExtract.axis_zero_accepted",
    "Verif.Props.CExtract.nan_accepted",
    "Verif.Props.CExtract.words_repeat",
    "Verif.Props.CExtract.words_first",
    "Verif.Props.CExtract.random_valid"
   ],
   "note": "False of axis 0, of NaN coordinates and of rows which are not numbers. Proved for every table of numbers, and for random sightlines."
  },
  {
   "property": "C48",
   "status": "proved",
   "theorems": [
    "Verif.Props.hubble_friedmann",
    "Verif.Props.hubble_mono",
    "Verif.Props.rho_crit_friedmann",
    "Verif.Props.distances"
   ],
   "note": ""
  },
  {
   "property": "C49",
   "status": "partial",
   "theorems": [
    "Verif.Props.choose_line_spec",
    "Verif.Props.observer_tau_spec",
    "Verif.Props.observer_tau_no_lines",
    "Verif.Props.observer_not_closest",
    "Verif.Props.observer_tau_broadened_partial",
    "Verif.Props.observer_tau_no_resolution"
   ],
   "note": "With any instrumental smoothing that gives numbers, and with res_corr for a spectral resolution above zero. With the default spec_res=0 get_observer_tau raises (observer_tau_no_resolution)."
  },
  {
   "property": "C50",
   "status": "proved",
   "theorems": [
    "Verif.Props.Metallicity.mass_frac_table",
    "Verif.Props.Metallicity.mass_frac_primordial",
    "Verif.Props.Metallicity.mass_frac_metals",
    "Verif.Props.Metallicity.mass_frac_nonneg",
    "Verif.Props.Metallicity.mass_frac_heavy_fails",
    "Verif.Props.Metallicity.mass_frac_metals_fails",
    "Verif.Props.Metallicity.mass_frac_unknown"
   ],
   "note": "All elements and snapshots; exact values rather than float32."
  },
  {
   "property": "C51",
   "status": "partial",
   "theorems": [
    "Verif.Props.WeightMean.temp_is_average_partial",
    "Verif.Props.WeightMean.temp_between",
    "Verif.Props.WeightMean.density_is_average_partial",
    "Verif.Props.WeightMean.velocity_is_average_partial",
    "Verif.Props.WeightMean.temp_ranks",
    "Verif.Props.WeightMean.temp_two_ranks",
    "Verif.Props.WeightMean.velocity_wrong",
    "Verif.Props.WeightMean.velocity_three_pixels",
    "Verif.Props.WeightMean.bigfile_fails",
    "Verif.Props.WeightMean.density_fails",
    "Verif.Props.WeightMean.average_between"
   ],
   "note": "Average, bounds and zero without gas proved for one process, HDF5 snapshots and the SPH kernels. False with several processes, of velocities (scaled twice by sqrt(a)), of BigFile snapshots, and of densities of ions when gas without the element is near."
  },
  {
   "property": "C52",
   "status": "proved",
   "theorems": [
    "Verif.Props.snapTemp_ideal_gas",
    "Verif.Props.temperatures_agree",
    "Verif.Props.snapTemp_mono",
    "Verif.Props.temp_ideal_gas",
    "Verif.Props.tempOf_pos",
    "Verif.Props.tempOf_mono"
   ],
   "note": ""
  },
  {
   "property": "C53",
   "status": "partial",
   "theorems": [
    "Verif.Props.clip_spec",
    "Verif.Props.retained_spec",
    "Verif.Props.retained_empty_bin",
    "Verif.Props.retained_below_40",
    "Verif.Props.clip_loses_equal",
    "Verif.Props.finalFit_terminates",
    "Verif.Props.finalFit_cut_partial",
    "Verif.Props.finalFit_skips",
    "Verif.Props.usedPoints_spec",
    "Verif.Props.b_param_dist_ends"
   ],
   "note": "Termination of both loops and the clipping are proved for all data. False for data sets in which one of the eight bins is empty (retained_empty_bin: IndexError), and bins whose values are all equal lose all points (clip_loses_equal). Points above the mean or with b over 40 are never switched back on, against the comment (retained_below_40); without components out of range the cut above the fit is skipped (finalFit_skips)."
  },
  {
   "property": "C54",
   "status": "proved",
   "theorems": [
    "Verif.Props.parallel_lines",
    "Verif.Props.shared_element_loses_update"
   ],
   "note": "Smoothing kernels; load and store of each update are separate steps."
  },
  {
   "property": "C55",
   "status": "proved",
   "theorems": [
    "Verif.Props.redshift_space",
    "Verif.Props.tau_pixel_shift",
    "Verif.Props.tau_periodic",
    "Verif.Props.colden_pixel_shift",
    "Verif.Props.colden_linear"
   ],
   "note": "Smoothing kernels."
  },
  {
   "property": "C56",
   "status": "partial",
   "theorems": [
    "Verif.Props.species_query_partial",
    "Verif.Props.ionised_hydrogen_fails"
   ],
   "note": "False for ions of hydrogen other than neutral when asking for column density: IndexError."
  },
  {
   "property": "C57",
   "status": "proved",
   "theorems": [
    "Verif.Props.tau_end_to_end",
    "Verif.Props.colden_end_to_end",
    "Verif.Props.total_column_tophat"
   ],
   "note": "Smoothing kernels."
  },
  {
   "property": "C58",
   "status": "partial",
   "theorems": [
    "Verif.Props.segment_data_correct",
    "Verif.Props.segment_data_available_partial",
    "Verif.Props.failed_open_poisons"
   ],
   "note": "Data returned is always the right segment's. Availability fails after an open error: the closed handle stays cached (failed_open_poisons)."
  },
  {
   "property": "C59",
   "status": "proved",
   "theorems": [
    "Verif.Props.block_names"
   ],
   "note": "All strings."
  },
  {
   "property": "C60",
   "status": "partial",
   "theorems": [
    "Verif.Props.mpi_spectrum_eq_serial_partial",
    "Verif.Props.mpi_bigfile_eq_serial_partial"
   ],
   "note": "Proved with at least as many files as ranks and no snapdir (HDF5), or segments dividing particles (BigFile). The negations are in C10 and C11."
  },
  {
   "property": "C61",
   "status": "proved",
   "theorems": [
    "Verif.Props.photoRate_spec"
   ],
   "note": ""
  },
  {
   "property": "C62",
   "status": "partial",
   "theorems": [
    "Verif.Props.rhoThresh_eq",
    "Verif.Props.threshold_depends_on_units",
    "Verif.Props.threshold_default"
   ],
   "note": "Positive, but proportional to the unit of density."
  },
  {
   "property": "C63",
   "status": "partial",
   "theorems": [
    "Verif.Props.cooling_positive",
    "Verif.Props.compton_sign",
    "Verif.Props.cooling_rate_partial",
    "Verif.Props.compton_wrong",
    "Verif.Props.cooling_nonneg",
    "Verif.Props.nyx_freefree_negative",
    "Verif.Props.he_model_array",
    "Verif.Props.Details.gff_range"
   ],
   "note": "The Compton term is multiplied by the square of the electron density."
  },
  {
   "property": "C64",
   "status": "partial",
   "theorems": [
    "Verif.Props.cddf_moment",
    "Verif.Props.omega_cddf_partial",
    "Verif.Props.omega_estimates_differ"
   ],
   "note": "Thresholds on bin edges and absorbers inside the edges."
  },
  {
   "property": "C65",
   "status": "partial",
   "theorems": [
    "Verif.Props.eq_width_shift_partial",
    "Verif.Props.eq_width_depends_on_cut"
   ],
   "note": "False in general: the end pixels have half weight (finding)."
  },
  {
   "property": "C66",
   "status": "partial",
   "theorems": [
    "Verif.Props.eq_width_hist_spec_partial",
    "Verif.Props.eq_width_hist_none",
    "Verif.Props.eq_width_hist_misses_strongest"
   ],
   "note": "The strongest absorber is never counted (finding)."
  },
  {
   "property": "C67",
   "status": "partial",
   "theorems": [
    "Verif.Props.fit_params_partial",
    "Verif.Props.fit_params_misaligned",
    "Verif.Props.fit_params_empty",
    "Verif.Props.systems_fewer"
   ],
   "note": "Proved for linking lengths up to 0 (the default). False when components are merged (fit_params_misaligned) and for no spectra (fit_params_empty)."
  },
  {
   "property": "C68",
   "status": "partial",
   "theorems": [
    "Verif.Props.Construct.reload_same_partial",
    "Verif.Props.Construct.reload_wrong_units",
    "Verif.Props.Construct.reload_default_res"
   ],
   "note": "Proved when the unit of length is the default or is given again. The unit is not saved (reload_wrong_units), and the default arguments only accept pixels of 1 km/s (reload_default_res)."
  },
  {
   "property": "C69",
   "status": "proved",
   "theorems": [
    "Verif.Props.Emission.maginJy_spec",
    "Verif.Props.Emission.maginJy_bands",
    "Verif.Props.Emission.apparentflux_spec",
    "Verif.Props.Emission.distances_related",
    "Verif.Props.Emission.hubble_law",
    "Verif.Props.Emission.comoving_integral",
    "Verif.Props.Emission.distance_spec"
   ],
   "note": "Over exact reals. comoving_integral bounds the quadrature error against the integral for every flat cosmology and redshift."
  },
  {
   "property": "C70",
   "status": "proved",
   "theorems": [
    "Verif.Props.Emission.readStellar_spec"
   ],
   "note": "The geometric test is a parameter; it is modelled in C01-C02."
  },
  {
   "property": "C71",
   "status": "partial",
   "theorems": [
    "Verif.Props.HaloSpectra.wanted_halos_spec",
    "Verif.Props.HaloSpectra.cofm_near_halo",
    "Verif.Props.HaloSpectra.init_fresh",
    "Verif.Props.HaloSpectra.associated_halo_fails",
    "Verif.Props.HaloSpectra.line_offsets_fails",
    "Verif.Props.HaloSpectra.res_fails"
   ],
   "note": "Selection and placement are proved for all inputs. The look-up of the halo and the distances from it always raise IndexError and a pixel width is always rejected: proved as negations."
  },
  {
   "property": "C72",
   "status": "partial",
   "theorems": [
    "Verif.Props.HaloSpectra.halos_lost",
    "Verif.Props.HaloSpectra.saves_never_load",
    "Verif.Props.HaloSpectra.loaded_fails"
   ],
   "note": "The property is false of the code: proved that no save leaves a loadable file, and that a loaded file makes the constructor fail."
  },
  {
   "property": "C73",
   "status": "partial",
   "theorems": [
    "Verif.Props.Metallicity.metallicity_whole",
    "Verif.Props.Metallicity.metallicity_window",
    "Verif.Props.Metallicity.metallicity_wide",
    "Verif.Props.Metallicity.metallicity_narrow",
    "Verif.Props.Metallicity.metallicity_odd",
    "Verif.Props.Metallicity.ion_metallicity",
    "Verif.Props.Metallicity.ion_metallicity_total",
    "Verif.Props.Metallicity.solar_pos"
   ],
   "note": "Exact window (w pixels before the peak to w-1 after) proved for every input. The property is false for widths below a pixel (0/0) and for an odd number of pixels with a wide window."
  },
  {
   "property": "C74",
   "status": "partial",
   "theorems": [
    "Verif.Props.Readers.radii_suit_kernel_partial",
    "Verif.Props.Readers.kernel_no_gas",
    "Verif.Props.Readers.big_kernel",
    "Verif.Props.Readers.big_smooth"
   ],
   "note": "Proved when every file holds gas of one kind. False when the file opened first (the last by name) holds no gas: KeyError (kernel_no_gas)."
  },
  {
   "property": "C75",
   "status": "proved",
   "theorems": [
    "Verif.Props.Readers.velocities",
    "Verif.Props.Readers.velocities_unknown"
   ],
   "note": "The conventions are those of Gadget and MP-Gadget as the comments in the code say. A BigFile header without UsePeculiarVelocity is a KeyError."
  },
  {
   "property": "C76",
   "status": "partial",
   "theorems": [
    "Verif.Props.Readers.find_all_partial",
    "Verif.Props.Readers.find_all_bigfile_fails"
   ],
   "note": "Proved for HDF5 snapshots. A BigFile snapshot raises TypeError."
  },
  {
   "property": "C77",
   "status": "partial",
   "theorems": [
    "Verif.Props.Readers.factory_partial",
    "Verif.Props.Readers.factory_index_error",
    "Verif.Props.Readers.init_errors"
   ],
   "note": "False when files with the names of a snapshot are not HDF5: IndexError, BigFile is not tried. Proved otherwise."
  },
  {
   "property": "C78",
   "status": "partial",
   "theorems": [
    "Verif.Props.Readers.omega_baryon_partial",
    "Verif.Props.Readers.omega_baryon_history"
   ],
   "note": "Only the open file is looked at: proved when all files have the same composition, false otherwise (omega_baryon_history)."
  },
  {
   "property": "C79",
   "status": "partial",
   "theorems": [
    "Verif.Props.FluxPower3D.power_3d_partial",
    "Verif.Props.FluxPower3D.mesh_holds",
    "Verif.Props.FluxPower3D.grid_order",
    "Verif.Props.FluxPower3D.wrong_number",
    "Verif.Props.FluxPower3D.line_of_sight_wrong"
   ],
   "note": "Proved: every sightline and pixel on the mesh once, mean over axes, ValueError for other numbers of sightlines. False: for axes 1 and 2 the line of sight passed is at right angles to the sightlines in the mesh (line_of_sight_wrong). nbodykit is a parameter."
  },
  {
   "property": "C80",
   "status": "partial",
   "theorems": [
    "Verif.Props.curvature_exact_partial",
    "Verif.Props.curvature_append",
    "Verif.Props.curvature_total",
    "Verif.Props.curvature_local",
    "Verif.Props.curvature_shift",
    "Verif.Props.curvature_continuum",
    "Verif.Props.curvature_mean_flux",
    "Verif.Props.curvature_drops",
    "Verif.Props.curvature_straight",
    "Verif.Props.curvature_too_low",
    "Verif.Props.curvature_never_ends",
    "Verif.Props.curvature_never_ends_case"
   ],
   "note": "Exact for quadratic flux with any gaps; the rest of the property is shown false: spectra without enough absorption have no value, the velocity grid is stretched by nbins/(nbins-1), and for short sections the rescaling does not end."
  },
  {
   "property": "C81",
   "status": "partial",
   "theorems": [
    "Verif.Props.spline_row_partial",
    "Verif.Props.spline_fit_rows",
    "Verif.Props.spline_refuses",
    "Verif.Props.spline_spacing_zero",
    "Verif.Props.spline_spacing_long",
    "Verif.Props.last_segment_short"
   ],
   "note": "Proved for every spline routine that returns and initial spacings of at least vel_seg_min and less than the spectrum; shown false: the last segment can be one pixel shorter than vel_seg_min, and other spacings raise ZeroDivisionError or IndexError."
  },
  {
   "property": "C82",
   "status": "partial",
   "theorems": [
    "Verif.Props.rate_gas_sf_partial",
    "Verif.Props.rate_gas_network_partial",
    "Verif.Props.rate_gas_node",
    "Verif.Props.rate_gas_agrees",
    "Verif.Props.table_entries",
    "Verif.Props.table_errors",
    "Verif.Props.equation_of_state",
    "Verif.Props.overden_spec",
    "Verif.Props.rescaled_accepts",
    "Verif.Props.rate_spectra_density",
    "Verif.Props.table_inverted"
   ],
   "note": "Exact at the nodes of the table and above it, for any interpolation that has the values of the table at its nodes; between nodes the value is that of the interpolation. Segments with gas below the table, or with dense gas only, fail (C37). Shown false: RateNetworkSpectra uses 0.71 for the Hubble parameter of any snapshot, and units of Mpc turn the table round."
  },
  {
   "property": "C83",
   "status": "partial",
   "theorems": [
    "Verif.Props.fun_min_value",
    "Verif.Props.fun_min_local_partial",
    "Verif.Props.fun_min_total",
    "Verif.Props.has_minimum",
    "Verif.Props.fun_min_beyond",
    "Verif.Props.symmetric_peak_fails"
   ],
   "note": "The window is exactly characterised, and what is beyond it does not matter. It is one pixel to the left of the minima, so that one pixel beyond the minimum on the left counts (fun_min_beyond shows the full claim false). There is a value unless first and last pixel of the rolled spectrum are equal and it has no minimum (symmetric_peak_fails)."
  },
  {
   "property": "C84",
   "status": "partial",
   "theorems": [
    "Verif.Props.fitted_profile_spec",
    "Verif.Props.fun_min_multiple_spec",
    "Verif.Props.column_density_integral_partial",
    "Verif.Props.column_density_light",
    "Verif.Props.column_density_negative",
    "Verif.Props.VoigtFunction.fitted_profile_voigt",
    "Verif.Props.VoigtFunction.column_density_integral"
   ],
   "note": "column_density_integral: for the Faddeeva function defined by its integral, whose normalisation is proved. With the speed of light the fitter uses; that of the code that makes spectra differs, so column densities are 0.27% too high (column_density_light). Shown false for negative amplitudes, which the optimiser may return (column_density_negative). What the optimiser minimises is zero just if the components add up to the spectrum (fun_min_multiple_spec)."
  },
  {
   "property": "C85",
   "status": "partial",
   "theorems": [
    "Verif.Props.gaussian_profile_partial",
    "Verif.Props.gaussian_profile_one_sided",
    "Verif.Props.gaussian_profile_off_edge"
   ],
   "note": "True for pixels of 1 km/s (and where the middle of the spectrum in pixels is, taken as a velocity, at a pixel). Shown false for narrow pixels, and for positions beyond the ends."
  },
  {
   "property": "C86",
   "status": "partial",
   "theorems": [
    "Verif.Props.cddf_voigt_partial",
    "Verif.Props.cddf_voigt_too_many",
    "Verif.Props.opt_power_fit_zero"
   ],
   "note": "For a number of spectra up to those there are; for more the path length is too long (cddf_voigt_too_many)."
  },
  {
   "property": "C87",
   "status": "partial",
   "theorems": [
    "Verif.Props.td_rel_raw",
    "Verif.Props.td_rel_raw_returns",
    "Verif.Props.td_fit_spec",
    "Verif.Props.best_power_law_exact",
    "Verif.Props.td_fit_few",
    "Verif.Props.median_spec",
    "Verif.Props.td_rel_rates_partial",
    "Verif.Props.td_rel_rates_units"
   ],
   "note": "For gas='raw' in any units. For the rate network only with the default units, since the snapshot's units are not passed on (td_rel_rates_units). scipy's leastsq is assumed to find a least squares solution; reading of the snapshot's blocks is a parameter."
  },
  {
   "property": "C88",
   "status": "partial",
   "theorems": [
    "Verif.Props.res_corr_between",
    "Verif.Props.res_corr_mean",
    "Verif.Props.res_corr_roll",
    "Verif.Props.res_corr_fwhm",
    "Verif.Props.res_corr_zero"
   ],
   "note": "For a resolution above zero; for zero the filter of scipy divides zero by zero (res_corr_zero). The full width is that of the untruncated kernel."
  },
  {
   "property": "C89",
   "status": "partial",
   "theorems": [
    "Verif.Props.plot_spectrum_spec",
    "Verif.Props.plot_spectrum_offset_partial",
    "Verif.Props.plot_spectrum_offset_wrong",
    "Verif.Props.plot_density_partial",
    "Verif.Props.plot_density_odd",
    "Verif.Props.den_to_tau_partial",
    "Verif.Props.den_to_tau_fails",
    "Verif.Props.den_to_tau_changes_velocity",
    "Verif.Props.plot_changes_data"
   ],
   "note": "Proved without an offset, for even numbers of pixels and for single pixels above the threshold; offsets are in the wrong units, odd numbers of pixels are off by half a pixel, two pixels above the threshold raise, and plot_den_to_tau changes the cached velocities."
  },
  {
   "property": "C90",
   "status": "partial",
   "theorems": [
    "Verif.Props.find_nearby_partial",
    "Verif.Props.mass_hist_partial",
    "Verif.Props.mass_hist_misses",
    "Verif.Props.mass_hist_alike",
    "Verif.Props.mass_hist_none",
    "Verif.Props.gsmf_partial",
    "Verif.Props.gsmf_wrong_volume"
   ],
   "note": "The first of overlapping halos only; the bins leave out the hosts of smallest and largest virial velocity; the volume is that of a 25 Mpc/h box with h = 0.7 whatever the box."
  },
  {
   "property": "C91",
   "status": "partial",
   "theorems": [
    "Verif.Props.gridded_spec",
    "Verif.Props.gridded_never_loads",
    "Verif.Props.gridded_from_savefile",
    "Verif.Props.gridded_no_axes"
   ],
   "note": "Sightlines proved to be exactly the grid. Negative: with reload_file=True, the default and documented as loading the savefile, the savefile never matters."
  },
  {
   "property": "C92",
   "status": "partial",
   "theorems": [
    "Verif.Props.line_table_partial",
    "Verif.Props.own_lines_fail",
    "Verif.Props.mass_of_species"
   ],
   "note": "Proved for objects without a file of their own. Negative: LineData(file) raises UnboundLocalError for every file. mass_of_species: the masses are those of the elements."
  },
  {
   "property": "C93",
   "status": "partial",
   "theorems": [
    "Verif.Props.MeshSpecies.mesh_species_partial",
    "Verif.Props.MeshSpecies.mesh_ion_fills",
    "Verif.Props.MeshSpecies.mesh_ion_fails",
    "Verif.Props.MeshSpecies.mesh_ranks_multiply",
    "Verif.Props.MeshSpecies.mesh_bigfile_fails"
   ],
   "note": "Proved for elements and neutral hydrogen on one process. False otherwise, with the negations proved: cells without the element are left out before the sightline is shared out, so cells with it fill the whole box (or there is no result if a sightline has none), every process shares out the whole sightline, which multiplies the column by the number of processes, and with a BigFile snapshot there is no result at all."
  },
  {
   "property": "C94",
   "status": "partial",
   "theorems": [
    "Verif.Props.TailCut.tail_cut_partial",
    "Verif.Props.CodeProfile.tail_cut_code_partial",
    "Verif.Props.TailCut.tail_cut_loses"
   ],
   "note": "For the Voigt function defined by its integral, and for the line profile computed by the code with two parts in 1e9 of the tolerance more. Proved if the wing is not left before the edge of the particle. False in general: the density of a particle is taken at seven velocities, and for particles much wider than the line the optical depth falls below the tolerance between them; pixels beyond get nothing, although their optical depth is above 100 times the tolerance (tail_cut_loses)."
  },
  {
   "property": "C95",
   "status": "partial",
   "theorems": [
    "Verif.Props.TauIntegral.tau_integral_sph",
    "Verif.Props.TauIntegral.tau_column_partial",
    "Verif.Props.TauIntegral.tau_column_tophat",
    "Verif.Props.TauIntegral.tau_column_mesh",
    "Verif.Props.TauIntegral.tau_column_fails"
   ],
   "note": "For the Voigt function defined by its integral. SPH kernels: the integral is that of the trapezium rule with eight intervals on the chord (tau_integral_sph), which is the column density added if the particle lies in one pixel (tau_column_partial). False for the top-hat and moving mesh kernels: the optical depth is 7/8 of what the column density implies."
  },
  {
   "property": "C96",
   "status": "partial",
   "theorems": [
    "Verif.Props.CReader.file_read_partial",
    "Verif.Props.CReader.files_read_partial",
    "Verif.Props.CReader.no_gas_skipped",
    "Verif.Props.CReader.reads_in_bounds",
    "Verif.Props.CReader.no_velocities",
    "Verif.Props.CReader.no_cooling",
    "Verif.Props.CReader.mass_table",
    "Verif.Props.CReader.no_size",
    "Verif.Props.CReader.double_precision",
    "Verif.Props.CReader.broken_header",
    "Verif.Props.CReader.broken_header_later"
   ],
   "note": "Holds for files with all data sets in single precision, Flag_Cooling set and no mass table, and reads stay in bounds for every file. False otherwise: missing data sets leave uninitialised values in use, a mass table is taken for the density, files in double precision are dropped, an unreadable header leads to a double free."
  },
  {
   "property": "C97",
   "status": "partial",
   "theorems": [
    "Verif.Props.CReader.same_particles_partial",
    "Verif.Props.CReader.velocity_differs",
    "Verif.Props.CReader.same_velfac",
    "Verif.Props.CReader.headerHz_friedmann",
    "Verif.Props.CReader.velfac_curved",
    "Verif.Props.CReader.dense_gas_neutral"
   ],
   "note": "Position, kernel length, hydrogen density agree for snapshots with smoothing lengths, and the conversion of length to velocity for flat cosmologies. False for velocities (no factor sqrt(a)) and for curved cosmologies; the temperature agrees up to the Boltzmann constant."
  },
  {
   "property": "C98",
   "status": "partial",
   "theorems": [
    "Verif.Props.CStatistic.spectra_read",
    "Verif.Props.CStatistic.first_sightlines_partial",
    "Verif.Props.CStatistic.column_densities_used",
    "Verif.Props.CStatistic.pdf_written_partial",
    "Verif.Props.CStatistic.power_written",
    "Verif.Props.CStatistic.both_written",
    "Verif.Props.CStatistic.pdf_depends_on_power",
    "Verif.Props.CStatistic.truncated_fails",
    "Verif.Props.CStatistic.name_replaced",
    "Verif.Props.CStatistic.name_appended",
    "Verif.Props.CStatistic.input_kept",
    "Verif.Props.CStatistic.names_collide"
   ],
   "note": "Reading, truncated files, power spectrum and the distribution alone hold. False: asked for together with the power spectrum the distribution is that of optical depths scaled twice (pdf_depends_on_power); -u beyond the number of sightlines reads column densities; a directory name with _spectra.dat makes names collide."
  },
  {
   "property": "C99",
   "status": "proved",
   "theorems": [
    "Verif.Props.profile_total",
    "Verif.Props.profile_even",
    "Verif.Props.profile_wing",
    "Verif.Props.profile_far",
    "Verif.Props.profile_wing_all",
    "Verif.Props.profile_wing_pos",
    "Verif.Props.profile_centre",
    "Verif.Props.w_real_axis"
   ],
   "note": "Exact real arithmetic. The table of Chebyshev polynomials for w_im is a parameter. Better bounds are in C102. The Voigt function is defined in Verif.Spec.Voigt by its integral; the error of the continued fraction comes from the orthogonality of the Hermite polynomials (Verif.Lemmas.Hermite)."
  },
  {
   "property": "C100",
   "status": "partial",
   "theorems": [
    "Verif.Props.constants_near_partial",
    "Verif.Props.light_wrong",
    "Verif.Props.thermal_width",
    "Verif.Props.line_cross_section",
    "Verif.Props.compton_cooling",
    "Verif.Props.ionisation_thresholds",
    "Verif.Props.excitation_thresholds",
    "Verif.Props.helium_excitation_threshold_wrong",
    "Verif.Props.ionisation_losses"
   ],
   "note": "Proved for all constants but three: the speed of light in Python is 0.26 per cent too small (light_wrong), masses of atoms in atomic units are multiplied by the mass of the proton (thermal_width), and neutral helium is excited only by electrons with the energy for ionised helium (helium_excitation_threshold_wrong). Coefficients of published fits have no independent value to compare with."
  },
  {
   "property": "C101",
   "status": "partial",
   "theorems": [
    "Verif.Props.lyman_series",
    "Verif.Props.lyman_lines_lost"
   ],
   "note": "The rows are those of the hydrogen atom. Not all lines can be asked for: fourteen of thirty-one are lost (lyman_lines_lost says exactly which)."
  },
  {
   "property": "C102",
   "status": "proved",
   "theorems": [
    "Verif.Props.profile_accurate",
    "Verif.Props.profile_accurate_near",
    "Verif.Props.profile_core_accurate",
    "Verif.Props.profile_line_centre",
    "Verif.Props.profile_wing_accurate",
    "Verif.Props.profile_large",
    "Verif.Props.erfcx_accurate",
    "Verif.Props.erfcx_table",
    "Verif.Props.profile_pos",
    "Verif.Props.profile_gauss"
   ],
   "note": "Exact real arithmetic. The table of w_im, which only matters for the imaginary part, is a parameter."
  },
  {
   "property": "C103",
   "status": "proved",
   "theorems": [
    "Verif.Props.CodeProfile.tauPixel_accurate",
    "Verif.Props.CodeProfile.tau_integral_code",
    "Verif.Props.CodeProfile.tau_deposit_code"
   ],
   "note": "Exact real arithmetic. The integral is a lower Lebesgue integral: it is not shown that the computed profile is measurable."
  },
  {
   "property": "C104",
   "status": "proved",
   "theorems": [
    "Verif.Props.spectra_roundoff",
    "Verif.Props.spectra_roundoff_serial",
    "Verif.Props.layouts_agree",
    "Verif.Props.roundTo_faithful",
    "Verif.Props.roundoff_le",
    "Verif.Props.empty_first_file_single",
    "Verif.Props.roundTo_single_loses"
   ],
   "note": "Only the sums are rounded: the deposits themselves are those of the exact model (their accuracy is C95, C102, C103). The exponent range is unlimited (no overflow or underflow). Voronoi mesh not included. empty_first_file_single is a finding: without MPI the result is double precision only if the first file has a particle near a sightline; otherwise it is rounded to float32."
  },
  {
   "property": "C105",
   "status": "partial",
   "theorems": [
    "Verif.Props.Extract.extract_writes_partial",
    "Verif.Props.Extract.extract_writes_some_partial",
    "Verif.Props.Extract.one_file_empty",
    "Verif.Props.Extract.plain_name_undefined",
    "Verif.Props.Extract.missing_input_undefined",
    "Verif.Props.Extract.no_gas_undefined",
    "Verif.Props.Extract.many_sightlines_undefined",
    "Verif.Props.Extract.unsigned_char_stops",
    "Verif.Props.Extract.bad_options_stop",
    "Verif.Props.Extract.exit_nonzero",
    "Verif.Props.Extract.only_output",
    "Verif.Props.Extract.statistic_takes",
    "Verif.Props.Extract.options_from",
    "Verif.Props.Extract.atoi_dec",
    "Verif.Props.Extract.atoi_minus"
   ],
   "note": "The file written, exit codes and output name hold, with the gas of the second to the eleventh file. False: the first file is never read, so a snapshot in one file gives empty spectra and exit code 0 (one_file_empty); a name without .0.hdf5 empties the output file and frees memory never allocated (plain_name_undefined); a snapshot without gas ends the same way (no_gas_undefined); a missing input goes on with an unread header (missing_input_undefined); more than 2^21 sightlines overflow (many_sightlines_undefined); where char is unsigned the program always stops (unsigned_char_stops). Build of the Makefile (HDF5, no GadgetReader)."
  },
  {
   "property": "C106",
   "status": "partial",
   "theorems": [
    "Verif.Props.DistPlots.plotDist_shows",
    "Verif.Props.DistPlots.Shows.total",
    "Verif.Props.DistPlots.plot_metallicity_of",
    "Verif.Props.DistPlots.plot_species_of",
    "Verif.Props.DistPlots.plot_ion_corr_shows",
    "Verif.Props.DistPlots.plot_cddf_shows",
    "Verif.Props.DistPlots.histogram2d_cells",
    "Verif.Props.DistPlots.countPts_total",
    "Verif.Props.DistPlots.contour_shows",
    "Verif.Props.DistPlots.contour_zero_raises",
    "Verif.Props.DistPlots.plot_temp_shows",
    "Verif.Props.DistPlots.sightline_between",
    "Verif.Props.DistPlots.eq_width_points",
    "Verif.Props.DistPlots.breakdown_partial",
    "Verif.Props.DistPlots.breakdown_share",
    "Verif.Props.DistPlots.breakdown_drops_first",
    "Verif.Props.DistPlots.breakdown_misses_top",
    "Verif.Props.DistPlots.breakdown_four_classes",
    "Verif.Props.DistPlots.xx_vs_mass_partial"
   ],
   "note": "Histograms, contour plots, temperatures and shares of classes hold. False: sightlines hosted by the first halo of the catalogue are treated as without host, so its share is 0 (breakdown_drops_first); the largest value is in no bin of the breakdown (breakdown_misses_top); a fourth class raises IndexError (breakdown_four_classes); one value of 0 on a logarithmic axis raises and nothing is drawn (contour_zero_raises). Plots are the data handed to the plotting library."
  },
  {
   "property": "C107",
   "status": "partial",
   "theorems": [
    "Verif.Props.EmissionSave.emission_save_load",
    "Verif.Props.EmissionSave.emission_resave_partial",
    "Verif.Props.EmissionSave.emission_resave_loses_velocity",
    "Verif.Props.EmissionSave.stellar_dropped",
    "Verif.Props.EmissionSave.stellar_single"
   ],
   "note": "One save and load proved. Saving again loses arrays: save_file loads the column densities under the name of the velocities instead of the velocities, so a velocity not asked for in a session becomes the number 0; the stellar fluxes are never read back; with one sightline save_file raises."
  },
  {
   "property": "C108",
   "status": "partial",
   "theorems": [
    "Verif.Props.RatePlots.axes",
    "Verif.Props.RatePlots.grid_points",
    "Verif.Props.RatePlots.ne_ratio",
    "Verif.Props.RatePlots.collis_ratio",
    "Verif.Props.RatePlots.simple_ratio",
    "Verif.Props.RatePlots.hfrac_title",
    "Verif.Props.RatePlots.he_ratio_wrong",
    "Verif.Props.RatePlots.hefracplot_wrong",
    "Verif.Props.RatePlots.plots_drawn"
   ],
   "note": "Electrons, collisions and the simple formula are proved; the ratio with collisions is shown to be below one for equal electron abundances. Not as named: the axis of temperatures and the simple formula use the temperature at the median density (right within a factor 2.1), hfracplot shows nH0/nH under the title nH0/nH+, and hefracplot hands the electron density to functions of the electrons per atom, so that its ratio is too small everywhere."
  },
  {
   "property": "C109",
   "status": "partial",
   "theorems": [
    "Verif.Props.HaloLoad.load_partial",
    "Verif.Props.HaloLoad.load_prefix_partial",
    "Verif.Props.HaloLoad.unreadable_partial",
    "Verif.Props.HaloLoad.group_velocities_partial",
    "Verif.Props.HaloLoad.no_catalogue_raises",
    "Verif.Props.HaloLoad.half_loaded",
    "Verif.Props.HaloLoad.missing_raises",
    "Verif.Props.HaloLoad.masses_disagree",
    "Verif.Props.HaloLoad.subhalo_velocities_wrong",
    "Verif.Props.HaloLoad.subhalo_factor",
    "Verif.Props.HaloLoad.velocities_without_halos"
   ],
   "note": "A whole catalogue is loaded whole, for any number of files. Proved false of the code: without a catalogue, or with an array missing from the first file, no object can be made; a damaged array leaves the catalogue half loaded without an error; masses disagree with those of halocat; masses of subhalos are not converted, so their velocities are about 1e5 times too small."
  },
  {
   "property": "C110",
   "status": "partial",
   "theorems": [
    "Verif.Props.SnapNames.finds_own_files_partial",
    "Verif.Props.SnapNames.finds_second_stem_partial",
    "Verif.Props.SnapNames.no_files",
    "Verif.Props.SnapNames.bigfile_path",
    "Verif.Props.SnapNames.finds_other_files"
   ],
   "note": "Proved for numbers below 1000, for all directories, and for BigFile snapshots of all numbers. From 1000 on it is false of HDF5 snapshots in one directory: the pattern of number 100 also matches the files of 1000 to 1009 (finds_other_files)."
  },
  {
   "property": "C111",
   "status": "partial",
   "theorems": [
    "Verif.Props.SnapNames.header_attr",
    "Verif.Props.SnapNames.npart_partial",
    "Verif.Props.SnapNames.npart_numpy2_fails"
   ],
   "note": "Proved for NumPy 1 and all numbers below 2^64. With NumPy 2 the product with 2**32 raises OverflowError for the 32 bit words of an HDF5 snapshot, proved as a negation."
  },
  {
   "property": "C112",
   "status": "partial",
   "theorems": [
    "Verif.Props.RateOrder.alphaHepp_antitone",
    "Verif.Props.RateOrder.alphaHep_antitone_partial",
    "Verif.Props.RateOrder.alphaHep_not_antitone",
    "Verif.Props.RateOrder.radiative_limits",
    "Verif.Props.RateOrder.collisions_rise",
    "Verif.Props.RateOrder.collisions_order",
    "Verif.Props.RateOrder.helium_order_partial",
    "Verif.Props.RateOrder.badnell_exchanged",
    "Verif.Props.RateOrder.badnell_not_similar"
   ],
   "note": "False of the tables of Badnell, where the constants of the two helium ions are exchanged: below 6e5 K He+ recombines faster than He++, and neither rate is similar to that of Verner. The He+ rate of Verner is not monotone across its gap at 6e5 K. Everything else is proved for all three tables."
  },
  {
   "property": "C113",
   "status": "partial",
   "theorems": [
    "Verif.Props.SpeciesQuery.query_spectrum",
    "Verif.Props.SpeciesQuery.query_mesh",
    "Verif.Props.SpeciesQuery.query_ranks",
    "Verif.Props.SpeciesQuery.unknown_element",
    "Verif.Props.SpeciesQuery.unknown_abundance",
    "Verif.Props.SpeciesQuery.heavy_element_refused",
    "Verif.Props.SpeciesQuery.unknown_line",
    "Verif.Props.SpeciesQuery.high_ion_line_fails",
    "Verif.Props.SpeciesQuery.neon_query_fails",
    "Verif.Props.SpeciesQuery.selfshield_switch",
    "Verif.Props.SpeciesQuery.selfshield_colden",
    "Verif.Props.SpeciesQuery.standard_weights"
   ],
   "note": "query_spectrum: with a known mass, abundance and line the query is the spectrum of C06 for the species, for every snapshot; query_mesh and query_ranks for the Voronoi mesh and for any number of processes. Partial because the rest is false of the code: what is not known is refused only if some gas is near a sightline and answered with zeros otherwise (unknown_element, unknown_abundance, unknown_line say exactly when); a line of the eighth or a higher ion asked for the whole element ends in UnboundLocalError (high_ion_line_fails, neon_query_fails for the shipped table); and turning off self-shielding only removes the damping of the lines (selfshield_switch, selfshield_colden). The refusals are for one process and a kernel other than the Voronoi mesh."
  },
  {
   "property": "C114",
   "status": "partial",
   "theorems": [
    "Verif.Props.HandOff.gas_options",
    "Verif.Props.HandOff.unknown_option",
    "Verif.Props.HandOff.units_hidden",
    "Verif.Props.HandOff.no_snapshot",
    "Verif.Props.HandOff.any_class",
    "Verif.Props.HandOff.fresh_density",
    "Verif.Props.HandOff.saved_density",
    "Verif.Props.HandOff.rate_object",
    "Verif.Props.HandOff.rate_options",
    "Verif.Props.HandOff.rate_unknown_option",
    "Verif.Props.HandOff.rate_spectra_object",
    "Verif.Props.HandOff.rate_spectra_args_dropped",
    "Verif.Props.HandOff.rate_unknown_cooling"
   ],
   "note": "Every option reaches the object, for both classes and every dictionary. Partial because the last sentence is false of the code: an AttributeError of the gas class is hidden, RateNetworkSpectra drops gasprop_args, and a savefile's header is used for the gas of any snapshot."
  },
  {
   "property": "C115",
   "status": "partial",
   "theorems": [
    "Verif.Props.SavePath.found_again",
    "Verif.Props.SavePath.backup_kept",
    "Verif.Props.SavePath.others_kept",
    "Verif.Props.SavePath.snapshots_apart",
    "Verif.Props.SavePath.names_apart",
    "Verif.Props.SavePath.default_names",
    "Verif.Props.SavePath.default_saves",
    "Verif.Props.SavePath.absolute_base",
    "Verif.Props.SavePath.halo_absolute",
    "Verif.Props.SavePath.halo_relative",
    "Verif.Props.SavePath.halo_relative_fails",
    "Verif.Props.SavePath.parents_not_made",
    "Verif.Props.SavePath.empty_savedir"
   ],
   "note": "Proved for Spectra and its savefile, with .. and links not modelled. False of HaloSpectra with relative directories: it saves to another file than it looks for (halo_relative), usually in a directory that does not exist (halo_relative_fails). Saving fails when the directory above savedir is missing (parents_not_made) or savedir is empty (empty_savedir)."
  },
  {
   "property": "C116",
   "status": "partial",
   "theorems": [
    "Verif.Props.Lockstep.never_in_vain",
    "Verif.Props.Lockstep.all_finish",
    "Verif.Props.Lockstep.answer_is_sum",
    "Verif.Props.Lockstep.answers_known",
    "Verif.Props.Lockstep.refusal_in_vain",
    "Verif.Props.Lockstep.cached_in_vain",
    "Verif.Props.Lockstep.failed_start_in_vain",
    "Verif.Props.Lockstep.failed_save_in_vain",
    "Verif.Props.Lockstep.unknown_element_in_vain"
   ],
   "note": "Proved for every program and order of work if for each query either all processes can compute their parts or none can. The last sentence of the property is false of the code: errors are not shared, so that a mistyped element with gas on some processes only, a savefile found by some only, a constructor or a save that fails on one process leave the others waiting for ever (proved for every order)."
  },
  {
   "property": "C117",
   "status": "partial",
   "theorems": [
    "Verif.Props.Shared.shared_right",
    "Verif.Props.Shared.shared_velocity_partial",
    "Verif.Props.Shared.shared_long",
    "Verif.Props.Shared.opened_answers",
    "Verif.Props.Shared.answered_stays",
    "Verif.Props.Shared.other_sightlines",
    "Verif.Props.Shared.lost_update",
    "Verif.Props.Shared.velocity_lost"
   ],
   "note": "Proved for all histories: with objects of one simulation and the same sightlines every column density and optical depth returned is the right one; velocities too if no save fails half-way; any array returned for any query, temperatures and weighted densities too, is the right one if it has more than one element, in every history with failed saves; an array once returned stays, whatever others do; arrays in the file stay available while objects are only made from it. False of the code, with proofs: an object whose arrays were not read yet returns those of another object with other sightlines that saved to the file; a save drops arrays which another object added, and then that file's readers can neither answer nor save; after a save that failed, velocities are replaced by a zero. Calls that interrupt one another are C118."
  },
  {
   "property": "C118",
   "status": "partial",
   "theorems": [
    "Verif.Props.Overlap.overlap_right",
    "Verif.Props.Overlap.overlap_long",
    "Verif.Props.Overlap.overlap_stays",
    "Verif.Props.Overlap.overlap_kept_partial",
    "Verif.Props.Overlap.overlap_loses",
    "Verif.Props.Overlap.overlap_overwrites",
    "Verif.Props.Overlap.overlap_stops"
   ],
   "note": "Proved for all histories in which each step of a save (the loads with the test whether the savefile exists, the move, the creation, the end) may be followed by anything, or never come: column densities and optical depths returned are right, as is any array of more than one element; an array once returned stays. If no save begins before the previous one has ended, the arrays of the last save that ended are in the savefile or in its backup at every later moment. False of the code when saves overlap, with proofs: the second save moves the half-written file over the backup, so that no file that can be read is left; a save that found no savefile overwrites one which has been completed meanwhile; a save fails if another has moved the savefile meanwhile."
  },
  {
   "property": "C119",
   "status": "partial",
   "theorems": [
    "Verif.Props.MachineInts.interpolate_wrapped",
    "Verif.Props.MachineInts.sizes_partial",
    "Verif.Props.MachineInts.late_rows_empty",
    "Verif.Props.MachineInts.late_rows_wrong",
    "Verif.Props.MachineInts.too_many_raise",
    "Verif.Props.MachineInts.late_particles_undefined",
    "Verif.Props.MachineInts.near_sizes_partial",
    "Verif.Props.MachineInts.late_particles_lost",
    "Verif.Props.MachineInts.late_particle_lost",
    "Verif.Props.MachineInts.near_narrowed",
    "Verif.Props.MachineInts.near_first",
    "Verif.Props.MachineInts.far_pixels_undefined",
    "Verif.Props.MachineInts.fast_particles_undefined",
    "Verif.Props.MeshInts.mesh_eq",
    "Verif.Props.MeshInts.mesh_sizes_partial",
    "Verif.Props.MeshInts.mesh_late_rows_empty",
    "Verif.Props.MeshInts.mesh_late_rows_wrong",
    "Verif.Props.MeshInts.fine_grid_undefined"
   ],
   "note": "False as stated: with more than 2^32 pixels in all the rows of later sightlines are added to the first ones and stay zero themselves (late_rows_empty, late_rows_wrong, mesh_late_rows_empty, mesh_late_rows_wrong), from a third of 2^31 on the numbers of particles overflow (late_particles_undefined), and near_lines loses those from 2^31 on (late_particle_lost). Proved: where every pixel goes for any number of sightlines (interpolate_wrapped, mesh_eq), that the result is right up to 2^32 pixels (sizes_partial, mesh_sizes_partial, near_sizes_partial), and the exceptions (too_many_raise). What the search returns for any number of particles (near_narrowed, near_first), and what is undefined (far_pixels_undefined, fast_particles_undefined, fine_grid_undefined)."
  },
  {
   "property": "C120",
   "status": "partial",
   "theorems": [
    "Verif.Props.GadgetRead.gadget_read_partial",
    "Verif.Props.GadgetRead.gadget_writes_partial",
    "Verif.Props.GadgetRead.densities_differ_stop",
    "Verif.Props.GadgetRead.densities_differ_exit",
    "Verif.Props.GadgetRead.read_needs",
    "Verif.Props.GadgetRead.gadget_wrote_needs",
    "Verif.Props.GadgetRead.leftover_lengths",
    "Verif.Props.GadgetRead.leftover_ions",
    "Verif.Props.GadgetRead.no_cooling_fails",
    "Verif.Props.GadgetRead.gadget_no_gas",
    "Verif.Props.GadgetRead.gadget_missing",
    "Verif.Props.GadgetRead.gadget_unwritable",
    "Verif.Props.GadgetRead.hdf_unchanged"
   ],
   "note": "False of the code: with two different densities the program ends with code 0 and an empty output file (densities_differ_exit); without cooling unset memory is used (no_cooling_fails); with ions and without smoothing lengths, or without one of the ions, other numbers are taken for them (leftover_lengths, leftover_ions). Proved of snapshots with the same density everywhere: the spectra of all the gas are written. Spectra are written of no others (gadget_wrote_needs). As it is the file does not compile; modelled with the missing declaration added."
  },
  {
   "property": "C121",
   "status": "partial",
   "theorems": [
    "Verif.Props.CellRounding.cells_single_partial",
    "Verif.Props.CellRounding.cells_single_total",
    "Verif.Props.CellRounding.column_single_partial",
    "Verif.Props.CellRounding.large_box_stops",
    "Verif.Props.CellRounding.exact_limits",
    "Verif.Props.CellRounding.far_point",
    "Verif.Props.CellRounding.roundTo_single"
   ],
   "note": "False of large boxes: in one of 6.7 Gpc with a single cell the program stops with 'Advanced pointer more than expected', because the stored limit is 0.1 too small (large_box_stops). Proved: up to 2^23 sample points (0.8 Gpc) it stops if and only if exact arithmetic would, and the limits agree (cells_single_partial) and add up to the box (cells_single_total); up to 2^21 points (0.2 Gpc) the column densities agree as well (column_single_partial). Only the limits are rounded; sums are C104."
  },
  {
   "property": "C122",
   "status": "proved",
   "theorems": [
    "Verif.Props.NearRounding.near_single_found",
    "Verif.Props.NearRounding.near_single_distance",
    "Verif.Props.NearRounding.near_lines_single",
    "Verif.Props.NearRounding.near_particles_single",
    "Verif.Props.NearRounding.exact_search",
    "Verif.Props.NearRounding.inside_lost"
   ],
   "note": "Full agreement with exact arithmetic, which is not claimed, is false (inside_lost): a sightline inside the radius by less than a four millionth of the box may be missed. Overflow and subnormal numbers are not modelled."
  },
  {
   "property": "C123",
   "status": "proved",
   "theorems": [
    "Verif.Props.NearRounding.colden_single",
    "Verif.Props.NearRounding.tau_single",
    "Verif.Props.NearRounding.column_lost",
    "Verif.Props.NearRounding.chord_lost",
    "Verif.Props.NearRounding.edge_gas_column"
   ],
   "note": "Equality with exact arithmetic, which is not claimed, is false (chord_lost). The loss in optical depth is bounded in C125. Kernels, and single precision elsewhere, are exact here; meshes are in C121."
  },
  {
   "property": "C124",
   "status": "proved",
   "theorems": [
    "Verif.Props.EdgeRounding.tau_deposit",
    "Verif.Props.EdgeRounding.tau_spectrum",
    "Verif.Props.EdgeRounding.colden_deposit",
    "Verif.Props.EdgeRounding.column_spectrum",
    "Verif.Props.EdgeRounding.colden_deposit_sph",
    "Verif.Props.EdgeRounding.column_spectrum_sph",
    "Verif.Props.EdgeRounding.spline_edge",
    "Verif.Props.EdgeRounding.edge_column"
   ],
   "note": "Only the squared radius and the search are rounded; the limits of mesh cells are in C121. edge_column shows that equality with exact arithmetic is false for uniform particles."
  },
  {
   "property": "C125",
   "status": "proved",
   "theorems": [
    "Verif.Props.EdgeRounding.tau_lost",
    "Verif.Props.EdgeRounding.voigt_bounded",
    "Verif.Props.EdgeRounding.code_bounded"
   ],
   "note": "Only the search and the squared radius are rounded. The Voronoi mesh is in C121."
  },
  {
   "property": "C126",
   "status": "proved",
   "theorems": [
    "Verif.Props.DensityRounding.density_single",
    "Verif.Props.DensityRounding.column_single",
    "Verif.Props.DensityRounding.mesh_column_single",
    "Verif.Props.DensityRounding.no_table",
    "Verif.Props.DensityRounding.density_changes"
   ],
   "note": "Sums over segments and particles are exact here; their rounding is in C104, that of the limits of cells in C121. Positions and radii are taken to be in single precision already. Optical depths are not part of the claim."
  },
  {
   "property": "C127",
   "status": "proved",
   "theorems": [
    "Verif.Props.TempRounding.temp_single"
   ],
   "note": "Arithmetic on particles before interpolation is rounded; sums over particles and files and the quotient are exact (the rounding of sums is in Model/Rounding). The ionisation table is asked for rounded densities and temperatures on both sides."
  },
  {
   "property": "C128",
   "status": "proved",
   "theorems": [
    "Verif.Props.DensWeightRounding.density_weighted_single",
    "Verif.Props.DensWeightRounding.density_weighted_HI"
   ],
   "note": "Arithmetic on particles before interpolation is rounded; sums over particles and files and the quotient are exact (the rounding of sums is in Model/Rounding). The ionisation table is asked for rounded densities and temperatures on both sides."
  },
  {
   "property": "C129",
   "status": "partial",
   "theorems": [
    "Verif.Props.NumTypes.spectra_accepted",
    "Verif.Props.NumTypes.temp_accepted",
    "Verif.Props.NumTypes.densweight_accepted",
    "Verif.Props.NumTypes.velocity_type",
    "Verif.Props.NumTypes.velocity_accepted_partial",
    "Verif.Props.NumTypes.velocity_refused",
    "Verif.Props.NumTypes.stars_accepted_partial",
    "Verif.Props.NumTypes.stars_refused"
   ],
   "note": "Column densities, optical depths, temperatures and density-weighted densities are always accepted. Velocities, and stars within an angle on the sky, are before NumPy 2; with NumPy 2 the property is false of them: velocities with an expansion factor that is not a single precision number are a TypeError as soon as gas is near a sightline (velocity_refused), the search for stars always (stars_refused). The types of NumPy results are part of the model, not derived."
  },
  {
   "property": "C130",
   "status": "proved",
   "theorems": [
    "Verif.Props.VelRounding.velocity_single",
    "Verif.Props.VelRounding.velocity_pixels"
   ],
   "note": "Compared with the average of exact arithmetic, each pixel divided by its own density; velocity_pixels says that this is what get_velocity returns unless broadcasting divides by another pixel (WeightMean.broadcasts). C129 says when NumPy keeps the products in single precision. Rounding of the ion table's arguments is in both."
  }
 ]
}