# Design

Formal model of sbird/fake_spectra (pinned commit in /repo) in Lean 4.33 with Mathlib.

## Layout

* `lean/Verif/Model/*.lean`: the model, function by function; every definition cites file and lines of /repo.
* `lean/Verif/Spec/*.lean`: small independent specifications (geometry, maximal runs, sums, ...), no model imports.
* `lean/Verif/Lemmas/*.lean`: helper lemmas.
* `lean/Verif/Props/*.lean`: property theorems, named after the property, with witnesses that the hypotheses are met.

## Trusted base

* Lean's kernel, and the axioms `propext`, `Classical.choice`, `Quot.sound` (every theorem depends on at most these).
* The reading of the code: the model was written from the source text, the code was never run.
* Floating point is modelled by exact real arithmetic. Rounding, overflow, NaN, float32/float64 conversion are not modelled, except for rounding in `Model/Rounding` (sums, C104), `Model/CellRounding` (limits of cells, C121), `Model/NearRounding` (the search for near sightlines, C122), `Model/EdgeRounding` (the squared radius, C124) and `Model/DensityRounding` (densities of particles and averages weighted with them, C126-C128, C130), and for the types of numbers and arrays in `Model/NumTypes` (C129).
* Integers are unbounded unless a definition says otherwise.
* Python exceptions are values (`Except PyErr`). numpy, h5py, GSL, scipy, FFTW and MPI are modelled by the behaviour stated in the comment
  of the definition that stands for them.

## What is modelled and what is not

Every definition of the model cites the lines it stands for. The table is made from these citations: a function is listed as modelled when
a definition cites lines of it; the comment of that definition says what is left out of it (branches, floats, external calls).

| file | model modules | functions modelled | functions not modelled |
| --- | --- | --- | --- |
| abstractsnapshot.py | Construct, Emission, HandOff, Readers, SnapNames, Snapshot, Units, WeightMean | AbstractSnapshotFactory, AbstractSnapshot.__init__, get_header_attr, get_kernel, get_n_segments, get_blocklen, get_data, get_npart, get_smooth_length, get_units, get_peculiar_velocity, get_temp, HDF5Snapshot.__init__, _get_all_files, get_omega_baryon, BigFileSnapshot.__init__, _segment_to_partlist | AbstractSnapshot.__del__, get_omega_baryon |
| emission.py | Emission, EmissionSave, NumTypes, SaveSteps | maginJy, apparentflux, distance, _read_stellar_data, get_emflux, save_file, calculator | - |
| fluxstatistics.py | Curvature, FluxPower3D, FluxStats, MeanFlux, ParseArgs, Session | obs_mean_tau, mean_flux, flux_pdf, _powerspectrum, _window_function, flux_power, _3d_powerspectrum, flux_power_3d, _flux_power_bins | - |
| gas_properties.py | ComputeSpectra, GasProps, HandOff, Interp | GasProperties.__init__, _photo_rate, _self_shield_dens, _recomb_rate, _neutral_fraction, get_temp, get_code_rhoH, _code_neutral_fraction, get_reproc_HI, _get_rho_thresh | - |
| griddedspectra.py | Catalogue, Gridded | GriddedSpectra.__init__, get_axes_and_cofm | - |
| haloassigned_spectra.py | DistPlots, HaloAssigned, HaloLoad, HaloStats | HaloAssignedSpectra.__init__, mass_hist, virial_vel, min_halo_mass, load_halo, assign_to_halo, get_contiguous_regions, find_nearest_halo, find_nearby_halos, get_stellar_mass_function, _plot_breakdown, plot_Z_vs_mass, _plot_xx_vs_mass, combine_regions, contiguous_regions | - |
| halocat.py | Catalogue | is_masked, find_all_halos, find_wanted_halos | - |
| halospectra.py | HaloSpectra, SavePath, SaveSteps | HaloSpectra.__init__, get_cofm, save_file, load_savefile, find_associated_halo, line_offsets, load_halo, replace_not_DLA | - |
| line_data.py | AtomDat, Gridded, LineData, SpeciesQuery | LineData.__init__, LineData.__getitem__, LineData.__len__, get_mass, Line.__init__, read_vpfit, find_species, parse_line_contents, roman_to_int | - |
| plot_spectra.py | DistPlots, Plots | plot_eq_width, plot_spectrum, plot_spectrum_raw, plot_density, plot_den_to_tau, plot_temp, plot_cddf, _plot_metallicity, plot_metallicity, plot_species_metallicity, plot_ion_corr, plot_eq_width_vs_col_den, _plot_2d_contour | PlottingSpectra.__init__ |
| randspectra.py | ReplaceDLA | RandSpectra.__init__, get_cofm | - |
| rate_network.py | Cooling, HandOff, Interp, RateNetwork, RatePlots | RateNetwork.__init__, get_temp, get_cooling_rate, get_equilib_ne, get_ne_by_nh, get_neutral_fraction, _photofac, _nH0, _nHp, _nHep, _nHe0, _nHepp, _nebynh, _self_shield_corr, _self_shield_dens, _he_reion_factor, _get_temp, alphaHp, alphaHep, alphad, alphaHepp, GammaeH0, GammaeHe0, GammaeHep, _Verner96Fit, _Voronov96Fit, _RecombRateFit_lowcharge_ion, PhotoRates.__init__, gHe0, gHep, gH0, epsHe0, epsHep, epsH0, CoolingRatesKWH92.__init__, _t5, CollisionalExciteH0, CollisionalExciteHeP, CollisionalExciteHe0, CollisionalIonizeH0, CollisionalIonizeHe0, CollisionalIonizeHeP, CollisionalH0, CollisionalHe0, CollisionalHeP, RecombHp, RecombHeP, RecombHePP, _RecombDielect, FreeFree, _gff, InverseCompton, CoolingRatesSherwood.__init__, CoolingRatesNyx.__init__, _del2, _fixed_point_helper, fixed_point | - |
| rate_network_plot.py | RatePlots | make_cont_plot, collisplot, simplenh0frac, simpleplot, neplot, hfracplot, hefracplot | - |
| ratenetworkspectra.py | HandOff, Interp, ParseArgs, RateGas | RateNetworkGas.__init__, build_interp, get_temp, _get_interp, get_reproc_HI, _get_ienergy_rescaled, RateNetworkSpectra.__init__ | - |
| spec_utils.py | Broadening, SpecTools | res_corr, get_rolled_spectra, _roll_one_spectra | - |
| spectra.py | Absorbers, Broadening, ComputeSpectra, Construct, Curvature, DensityRounding, Emission, EmissionSave, FilterTau, HaloSpectra, HandOff, IndexTable, Lockstep, NumTypes, Overlap, ParseArgs, PyModule, RateGas, Readers, ReplaceDLA, Rounding, SavePath, SaveSteps, Session, Shared, SpecTools, SpeciesQuery, Spline, Store, VoigtMin, WeightMean | _get_cloudy_table, Spectra.__init__, save_file, _save_file, _load_all_multihash, _save_multihash, _really_load_array, add_noise, add_cont_error, load_savefile, _interpolate_single_file, _read_particle_data, find_all_particles, _filter_particles, _get_elem_den, _do_interpolation_work, particles_near_lines, get_mass_frac, replace_not_DLA, get_cofm, filter_DLA, get_metallicity, get_ion_metallicity, compute_spectra, equivalent_width, eq_width_hist, get_col_density, get_density, get_tau, get_observer_tau, _vel_single_file, _get_mass_weight_quantity, get_velocity, _temp_single_file, get_temp, _densweightdens, get_dens_weighted_density, get_b_param_dist, column_density_from_voigt, column_density_function, _rho_abs, rho_DLA, omega_abs, omega_abs_cddf, line_density, line_density_eq_w, get_spectra_proj_pos, _filter_single_tau_complex, _filter_tau, get_mean_flux, get_flux_pdf, get_flux_power_1D, get_flux_power_3D, spline_fit, renormalize_flux, compute_curvature, get_curvature | - |
| subfindhdf.py | Catalogue, HaloLoad | SubFindHDF5.__init__, get_grp_names, get_sub_names, _get_single_file_array, _get_array, get_sub, get_grp | - |
| tempdens.py | TempDens | mean_density, fit_temp_dens_relation, get_temp_meandensity, fit_td_rel_plot | - |
| unitsystem.py | Construct, Units | UnitSystem.__init__, absorption_distance, redshift_distance, hubble, rho_crit | - |
| voigtfit.py | BParam, Voigt, VoigtMin | Profiles.__init__, do_fit, iterate_new_spectrum, fun_min, profile_multiple, fun_min_multiple, voigt_profile, gaussian_profile, get_fitted_profile, get_b_params, get_positions, get_column_density, get_column_densities, get_systems, _SingleProfileHelper.__init__, _SingleProfileHelper.__call__, get_voigt_fit_params, get_voigt_systems, _power_fit, _opt_power_fit, get_b_param_dist | - |
| fake_spectra/Faddeeva.cpp | ErfcxTable, Faddeeva | see the modules |  |
| fake_spectra/Faddeeva.h | - | - | all |
| fake_spectra/absorption.cpp | Absorption, CodeProfile, EdgeRounding, Kernels, MachineInts, Race, Rounding, Units | see the modules |  |
| fake_spectra/absorption.h | CReader, Units | see the modules |  |
| cextract/calc_power.c | CTools | see the modules |  |
| cextract/global_vars.h | CReader | see the modules |  |
| fake_spectra/index_table.cpp | CellRounding, IndexTable, MachineInts, NearRounding, PartInt, PyModule, StdMap | see the modules |  |
| fake_spectra/index_table.h | IndexTable, PartInt | see the modules |  |
| cextract/init.c | CReader, CTools, Extract | see the modules |  |
| cextract/main.cpp | CReader, CTools, Extract, GadgetRead | see the modules |  |
| cextract/mean_flux.c | MeanFlux | see the modules |  |
| fake_spectra/part_int.cpp | CellRounding, EdgeRounding, MachineInts, NearRounding, PartInt, PyModule, Race, Rounding | see the modules |  |
| fake_spectra/part_int.h | ParseArgs | see the modules |  |
| cextract/powerspectrum.c | CTools | see the modules |  |
| fake_spectra/py_module.cpp | ComputeSpectra, IndexTable, Interp, MachineInts, MeanFlux, NearRounding, NumTypes, ParseArgs, PyModule, RateGas, Rounding, StdMap | see the modules |  |
| cextract/read_hdf_snapshot.c | CReader, Extract | see the modules |  |
| cextract/read_snapshot.cpp | GadgetRead | see the modules |  |
| fake_spectra/singleabs.h | Absorption, CodeProfile, EdgeRounding, Faddeeva, Kernels | see the modules |  |
| cextract/smooth.c | CTools | see the modules |  |
| cextract/statistic.c | CReader, FluxStats | see the modules |  |
| cextract/statistic.h | - | - | all |
| fake_spectra/test.cpp | - | - | all |

Also not modelled: file formats below the level of named blocks and attributes (HDF5, BigFile), thread scheduling other than in
`Model/OpenMP` and `Model/Race`, MPI other than as a sum over ranks, plotting, the build, and the tests.

## Plan per property

* **C01 Near-line search finds exactly the particles that can contribute.** IndexTable (both multimaps, lower_bound ranges, wrap) over reals; equivalence with a geometric spec; negation witness for radius >= half the box.
* **C02 The distance attached to a particle-sightline pair is the periodic transverse distance.** calc_dr2/second_close; equality with a minimum-image spec over integer box shifts.
* **C03 Parallel near-particle search does not depend on the thread schedule.** Threads as arbitrary interleavings of per-particle critical sections; final map/set equal for all permutations.
* **C04 Column density is conserved by pixelisation.** add_colden_particle with a pixel loop over Z and floor-mod; telescoping sum, induction over the pixel range.
* **C05 Interpolation touches only pixels of its own sightline, each at most once per particle, and never lowers a value.** Same loops plus the two tau loops with early break; invariants on visited indices.
* **C06 Spectra are additive over particles: order, batching, snapshot segments and MPI ranks are irrelevant.** compute_* as folds over particles; additivity, permutation, segment concatenation and rank split by induction.
* **C07 SPH kernels are non-negative, compactly supported, non-increasing, continuous and of unit mass.** Kernels over R; polynomial inequalities; integrals with Mathlib interval integrals.
* **C08 SPH pixel fractions are a quadrature that is non-negative, bounded and zero off the kernel.** Trapezium rule over NGRID points as a finite sum over reals.
* **C09 Voronoi sightline assignment tiles each sightline.** assign_cells as fold over sample points; tiling invariant; negation for zero lower edge. Done in Props/Voronoi and Props/VoronoiCases; see the findings below.
* **C10 HDF5 snapshot files are divided over MPI ranks without loss or duplication.** File split as list functions over Nat; exactly-once by counting.
* **C11 BigFile particles are divided over ranks and segments without loss or duplication.** Segment bounds over Nat; exactly-once iff divisibility; negation witness.
* **C12 Analysis calls do not change each other's results.** Spectra object as a state machine with a store of mutable arrays and queries; transparency for the pure queries, negations for flux_power_3d and tau_thresh.
* **C13 Saving and re-loading spectra preserves every computed array.** HDF5 file as finite map, lazy arrays as placeholder entries; round trip; negation for temp/dens_weight arrays.
* **C14 A crash while saving never destroys the previous spectra.** save_file as a list of file-system steps; invariant over all prefixes.
* **C15 Halo spectra saved to disk can be loaded again.** Two-level save as file-system steps; negation: halo group absent afterwards.
* **C16 Emission queries are repeatable and per object.** Objects with a shared store; negation by call sequence; partial for a single first call.
* **C17 Replacing non-DLA sightlines keeps exactly the requested number of sightlines, all above threshold.** Loop over an arbitrary stream of batches with fuel = stream length; postcondition; errors modelled.
* **C18 Constructor argument handling.** Constructor decision logic with exceptions as values.
* **C19 The compiled interpolator validates its arguments before reading memory.** Arrays as type, shape and elements; every read of an input array can fail; refinement of the models without memory; negations by arrays that pass the checks. `ParseArgs.lean` adds the taking apart of any list of Python objects.
* **C20 Mean-flux rescaling converges to the scale factor that matches the observed mean flux.** Newton iteration over R with exp; convexity argument; C and C++ variants.
* **C21 The flux probability distribution is a normalised histogram.** Histogram with numpy bin rule and C floor rule; counting.
* **C22 Flux power is the average over all the sightlines, each counted once, and non-negative.** Batch index ranges over Nat; sum over batches equals sum over all rows.
* **C23 The column density distribution counts every absorber once.** Rebinning and histogram over lists.
* **C24 Equivalent width is non-negative, monotone in optical depth and bounded by the spectrum length.** Trapezium sum of 1-exp(-tau).
* **C25 Incidence rates account for discarded sightlines.** Counting and ratio definitions.
* **C26 Rolling spectra centres the peak and loses nothing.** np.roll on lists with integer shift.
* **C27 Threshold filtering of optical depths terminates and caps the spectrum.** while loop with explicit fuel/termination measure; negation: infinite loop witness.
* **C28 Contiguous regions are the maximal runs.** diff/nonzero pipeline on Bool lists; equality with maximal-run specification.
* **C29 Absorbers are assigned to a halo that contains them.** argmin and radius tests.
* **C30 Projected sightline positions drop exactly the sightline axis.** axis check by mean; negation witness.
* **C31 Added noise is reproducible per sightline.** Generator seeded per sightline as an abstract pure function of the seed.
* **C32 Renormalised flux and curvature.** Sections by integer division; max normalisation.
* **C33 Ionisation fractions of the rate network are physical.** Algebra over R with rates as non-negative parameters.
* **C34 The equilibrium electron density solver returns a fixed point or an error.** Steffensen iteration with fuel maxiter.
* **C35 Recombination rates are positive at every temperature.** Rate formulas over R (rpow/exp); negation at the interpolation knots.
* **C36 The self-shielded neutral fraction is the equilibrium root in [0,1].** Quadratic root over R.
* **C37 Table look-ups stay inside the table and interpolate between its values.** clip and bilinear interpolation over R.
* **C38 An out-of-range table look-up is always reported.** Small-step interleaving of the parallel loop on the shared flag; negation by schedule, sequential theorem.
* **C39 Merging absorption components into systems conserves column density.** Merge loop on lists of gaps.
* **C40 The Voigt fitter's bookkeeping is consistent.** Loop with oracle minimiser results.
* **C41 Halo selection keeps isolated halos.** Filter lists, argmax.
* **C42 Group catalogue arrays are complete.** Concatenation with optional arrays, cache.
* **C43 Gridded sightlines form a regular grid inside the box.** Index arithmetic for the grid.
* **C44 Ion names are parsed to the right ionisation number.** roman_to_int over char lists; int_to_roman spec over thousands/hundreds/tens/ones.
* **C45 The stand-alone power spectrum averages and smooths correctly.** smooth/gaussian_smooth loops over Int indices; negation at the end padding and power[0].
* **C46 The stand-alone extractor reads every file of a snapshot exactly once.** File loop with string replacement; negation: file 0 skipped, names after ten.
* **C47 The stand-alone extractor accepts only valid sightline tables.** Row validation; negation for axis 0.
* **C48 Unit conversions are consistent and positive.** Formulas over R.
* **C49 The observed line of an ion is a measurable one whenever one exists.** Selection over lists.
* **C50 Mass fractions are never negative and default to primordial.** Fallback logic with exceptions as values.
* **C51 Mass-weighted quantities are averages.** Weighted means over R, rank split.
* **C52 Temperature from internal energy.** Algebra over R.
* **C53 Sigma clipping of the b-parameter distribution terminates.** Loop on subsets with cardinality measure.
* **C54 The parallel sightline loop is race free.** Read/write footprints of iterations; disjointness.
* **C55 Spectra are translation covariant.** Shift along the line by whole pixels.
* **C56 Every species can be queried.** Decision logic of `_get_elem_den`.
* **C57 End-to-end description of a sightline's spectrum.** Composition of C01, C04, C06.
* **C58 Reading a segment returns that segment's data whatever was read before.** File handle cache as a state machine; invariant over all histories.
* **C59 Blocks can be asked for under either format's name.** Name maps as association lists; all strings.
* **C60 The spectrum does not depend on the number of MPI processes.** C10/C11 composed with C06.
* **C61 Photoionisation and heating rates of the UV background.** Interpolation of logarithms over R.
* **C62 Density threshold of star formation.** Algebra over R with the constants of the code.
* **C63 The cooling rate is the sum of its processes.** Rate formulas over R; specification per volume.
* **C64 The two estimates of Omega agree up to binning.** Sums over histogram bins against sums over absorbers; bounds from bin widths.
* **C65 Equivalent width does not depend on where the periodic spectrum is cut.** Trapezium rule under rotation.
* **C66 The equivalent width histogram counts each sightline once.** Histogram over the edges of the code.
* **C67 Column densities and b parameters of the Voigt fits belong together.** Permutations of sorted triples.
* **C68 A reloaded object has the velocity scale and pixels it was saved with.** Constructor as a function of arguments, snapshot header and savefile header; round trip theorem; the unit of length is not saved (negation).
* **C69 Magnitudes and cosmological distances are consistent.** Real powers; the 1000 point trapezium rule in the scale factor bounded by induction over the points.
* **C70 The stellar flux of a sightline is the sum over the stars near it.** Filtered lists with the geometric test as a parameter; equality with a direct sum.
* **C71 Sightlines around halos belong to their halos.** Halo selection from Model/Catalogue, repetition and spherical offsets over exact reals, indices as integers or floats; negations for the look-up and the pixel width.
* **C72 Halos are saved with halo spectra and re-loaded.** Directory with file and backup; negation for any number of saves.
* **C73 The metallicity of a sightline is metals over hydrogen.** Rows of reals, periodic window sums around an argmax.
* **C74 Smoothing lengths suit the kernel.** The reader as a state (open file) and files as maps of blocks; invariant over histories; cube roots.
* **C75 Both snapshot formats give the peculiar velocity.** Round trip with the conventions of both codes.
* **C76 All particles near sightlines are found.** Loop over segments; the particle selection of C01/C02.
* **C77 Opening a snapshot gives a reader or an IOError.** Decision logic over the constructors' outcomes.
* **C78 The baryon density is the baryon fraction times the matter density.** The open file as state; negation by a history.
* **C79 The 3D flux power is that of all sightlines, by angle to the sightline.** Index arithmetic of the mesh, proved for all sizes;
  nbodykit's painting and FFT are parameters; negation for the line of sight.
* **C80 The curvature of a section is that of its flux.** `np.gradient` with its formulas for unequal steps; exactness for parabolas, invariance
  under shifts and continua, the rescaling through C20 and C32; negations with witnesses.
* **C81 The adaptive spline fit ends, with breakpoints that are far enough apart.** The loop over breakpoints for an arbitrary spline routine;
  an invariant (pairwise distances) and a bound on the number of passes; negation by a case.
* **C82 Gas from the rate network is in equilibrium at its own density and energy.** The table as the code fills it, gsl's interpolation as a
  parameter with its values at nodes, the filling in of dense gas; negations for the Hubble parameter and the order of the limits.
* **C83 The width of a peak is fitted to that peak alone.** The function that is minimised, with numpy's indices as they are; the window it uses is
  characterised by the minima, and a spectrum that differs beyond it gives the same value. False by one pixel: counterexample.
* **C84 The column density of a component is that of the absorption fitted.** `wofz` is a parameter, the Faddeeva function defined by its integral (Spec/Voigt); the integral of
  the fitted profile is compared with the column density, and the constants with those of the model of the C++ code.
* **C85 The Gaussian profile is a Gaussian around the position asked for.** As for the Voigt profile; the mixed units limit it to some pixel widths.
* **C86 The column density function from Voigt fits counts every fitted system once.** Reuses the histogram lemmas of C23; `get_voigt_systems` is a parameter.
* **C87 The temperature-density relation is that of the snapshot's gas.** `tempdens.py` over exact reals, with the particle blocks and scipy's `leastsq` (assumed to return a least squares solution) as parameters; uniqueness of the solution by linear algebra, units by the Friedmann equation of C31.
* **C88 Smoothing to a spectrograph's resolution keeps the mean and the range of the flux.** scipy's truncated, wrapped, normalised Gaussian filter written out; convexity and rearrangement of finite sums.
* **C89 Plots of a spectrum show it, centred on its peak, and leave the data as it was.** The points handed to the plotting library as lists; the cache as the heap of C12; negations for offsets, odd sizes, two pixels and the cached velocities.
* **C90 Statistics of host halos count every host once.** Composition of the models of C29 with histograms of C23; negations for the ends of the table and the volume.
* **C91 Gridded spectra have the grid asked for, or the saved one.** Composition of the constructor (C18, C68) with the grid (C43), Model/Gridded; the documented loading of the savefile is refuted.
* **C92 Line tables do not depend on the objects made before.** Module variable as state, induction over the history of objects; negation for a user's file.
* **C93 Column densities through a moving mesh hold for every species and number of processes.** Bounds from the tiling of the sightline, for the particles handed to the interpolator; negations for ions and for several processes.
* **C94 Stopping in the wings of a line loses less than the tolerance.** The Voigt function as the convolution of a Gaussian and a Lorentzian (Spec/Voigt, where it is shown to be the real part of the Faddeeva function given by its integral): positive, even, strictly decreasing, with bounds in the wings. Monotonicity beyond the edge of the particle; negation by a wide particle and a narrow line.
* **C95 The optical depth of a particle is its column density times the cross-section.** Lebesgue integral over the velocity of the particle; Fubini for the Voigt function, translation invariance for the means over a pixel.
* **C96 The stand-alone extractor works on the particles of its files.** HDF5 data sets are lists of rows with a flag for their shape and precision; arrays hold `none` where nothing was written. `Holds f ps` says which particles a file holds; theorem: the particles handed on are `ps` converted. Reads in bounds for every file, by the lengths of the arrays.
* **C97 The stand-alone extractor and the Python interface see the same gas.** Equality of the converted particle of C96 with the one of the Python model (`Gas.Obj`, `ComputeSpectra`, `Construct`), field by field.
* **C98 Statistics of the stand-alone program are those of the spectra in the file.** Bytes of the file as numbers below 256; round trip of writer and reader; `fread` with unknown contents for what it could not read; file names as lists of characters. The statistics are those of C21, C45 and C20.
* **C99 The line profile has a value everywhere and is the Voigt function in the damping wings.** `Faddeeva::w` for the default tolerance, with its three branches; the table of `erfcx` is modelled (Model/ErfcxTable), that of `w_im` is a parameter. The continued fraction is a ratio of a Hermite polynomial and its associated polynomial; its error is a Gaussian integral, by orthogonality (Lemmas/Hermite). Invariants of the loops for termination and for the end of the table.
* **C100 Physical constants have their measured values everywhere.** Values of CODATA and NIST in Spec/Codata; closeness of each copy; thresholds of rates as a limit for cold gas.
* **C101 The shipped table has the Lyman series of hydrogen, and every line of it can be asked for.** The rows of hydrogen in atom.dat as strings, `float` for decimal numbers; Rydberg's formula, exact oscillator strengths and decay rates.
* **C102 The line profile is the Voigt function.** Table of `erfcx`: each of the hundred polynomials is compared with the solution of the differential equation of erfcx by a bound on the residual, computed with integers by the kernel, and Grönwall's inequality from one piece to the next (Props/ErfcxTable). Core: the series is a trapezium rule; its error is the theta function identity, from Mathlib (Lemmas/VoigtTheta). Wings: the error of the continued fraction relative to the Voigt function (Lemmas/HermiteWing). Between 10 and 28 widths: the terms left out against the stopping test of the loop (Props/ProfileLarge).
* **C103 The optical depth of a particle in a pixel is that of the Voigt profile.** The sums over particle and pixel have weights that are not negative and do not depend on the profile (Props/CodeProfile).
* **C104 Floating-point sums do not make spectra depend on files or processes.** The sums of compute_spectra with a rounding `fl` after every addition, in the width numpy and C use at that place (Model/Rounding); every addition multiplies the part of an exact sum of non-negative deposits by a factor between 1-u and 1/(1-u), so the result is within a product of such factors of the exact model; the number of factors per pixel is counted by induction over particles, files and the tree of the reduction (Props/Rounding).
* **C105 The stand-alone extractor writes the spectra of the snapshot it is given.** `main` from the list of options to the bytes of the output file, or the way it fails (Model/Extract), built from the models of C46, C47, C96 and of the interpolator; the batches of particles of the files are joined with C06, the spectra are those of C57, the file is read back with C98 (Props/Extract).
* **C106 Plots of distributions and correlations show each spectrum once.** A plot is the lists handed to the plotting library (Model/DistPlots). Bins of `np.histogram` and `np.histogram2d` are compared with equally spaced edges; every value is in exactly one bin by monotony of the edges; counts by double counting (Props/DistPlots).
* **C107 Saving emission spectra keeps what was computed.** The store of C13 with the dictionary of stellar fluxes and the `save_file` of the subclass, including its load of column densities under the name of velocities (Model/EmissionSave); the invariant of C13 with a longer list of dictionaries that are not loaded before saving (Lemmas/EmissionSave, Props/EmissionSave).
* **C108 The plots of the rate network show the ratios they name.** A plot is the two axes and the height at each point (Model/RatePlots), on top of the network of C33 and C34. Each ratio is compared with fractions in ionisation balance; bounds from the monotony of the rates in temperature (C35) and of temperature in electrons (C52) (Props/RatePlots).
* **C109 The halo catalogue is loaded whole or not at all.** Files with headers and arrays that are there, missing or damaged; the nine assignments in their order as state changes, with only IOError caught. Theorems: a whole catalogue is loaded whole; in general a prefix is loaded; velocities of chosen groups. Negations: no catalogue, missing array, damaged array, masses against halocat, subhalo velocities.
* **C110 A snapshot is made of its own files.** File names as character codes, numbers padded to three digits, patterns with one star; the lists of files go into the model of C11. Theorems for all directories and numbers below 1000; negation from 1000 on.
* **C111 The header says what was written.** Attributes as numbers or arrays; numbers of particles as two words of 32 bits, with the rules of NumPy 1 and 2 for integers too large for the type.
* **C112 The tables of rates are consistent.** The fits of `RateNetwork.lean` are compared with one another as real functions: monotonicity in
  temperature (the fit of Badnell by logarithms and a bound on the growth of exp(-a/T), that of Voronov by Bernoulli's inequality), and order
  between species by bounding each factor. All are for intervals of temperatures, not samples.
* **C113 A query is answered with the data of the species and line it names.** `SpeciesQuery.lean` models the layer between `(elem, ion, line)` and
  `ComputeSpectra`: masses, abundances (`WeightMean.get_mass_frac`), limits of the ionisation table, choice of the line, and the order in which they
  can fail. Proved by refinement: the query equals `ComputeSpectra.compute_spectra` for the species of the specification; the refusals are
  equalities with an `if` on the gas near the sightlines.
* **C114 Options for the gas reach the object that answers for it.** `HandOff.lean` models the end of the constructor: the dictionary
  of the spectra's own values, its update by the user's, Python's binding of keywords to parameters, the constructors of
  `GasProperties`, `RateNetworkGas` and `RateNetwork`, the `except AttributeError`, and `RateNetworkSpectra`. The specification
  `Chosen` says which value an option has from the user's dictionary alone. Theorems describe the object made by each class for
  every dictionary, and for a class of the user's the call it receives.
* **C115 Spectra are found again where they were saved.** `SavePath.lean` models paths as character strings, with `os.path.join`,
  `os.path.dirname` and the meaning of a path for a process in a directory, a disk of directories and files, the choice of the savefile in the
  constructor, and `save_file`. Proved by following the parts of the path through join and dirname, by induction on the characters.
* **C116 Processes which share a computation never wait for one another in vain.** `Lockstep.lean` models processes as trees of own work and
  `Allreduce`, steps of any one process or of all together, and programs as trees of API calls whose next call may depend on the arrays
  returned. `Always` (in the specification) says that every order of steps leads to a state. Proved by induction on the program with the
  invariant that all processes have the same sightlines, arrays and random numbers; own work is shown not to matter for the order.
* **C117 Objects which share a savefile return the arrays of their own sightlines.** `Shared.lean` puts any number of the objects of
  `Store.lean` on one savefile and plays any list of constructors, queries, saves and saves that fail after the move. Proved by an invariant over
  histories: what is in memory is right or a placeholder, what is in the file is right. That a returned array stays is a second invariant, which
  needs nothing of the other objects. A third says that every array of more than one element is right, for all queries. Calls do not interrupt
  one another.
* **C118 A savefile may be read and written while others are saving it.** `Overlap.lean` splits a save of `Shared.lean` into its steps (the loads and the test
  whether the savefile exists, the move to the backup, the creation of the new file, its closing), with anything between, and keeps the savefile,
  the backup and who is writing which. A process that dies is one whose save does not go on. Each event acts on the objects as an event of `Shared.lean` does on what can be read, so the invariants of C117 carry over. That the last
  finished arrays are kept is a further invariant. That HDF5 refuses a file that is being written is assumed.
* **C119 The result does not depend on the widths of the integers.** The interpolator and the search once more with `int`, `unsigned int` and `long long`: overflow of an `int` undefined, `unsigned int` modulo `2 ^ 32`, a `long long` cut to an `int`. Which element every pixel of every sightline is added to, for any number of sightlines; equality with the unbounded model where it all fits; negations with witnesses. For the Voronoi mesh the limits of the part of a sightline that belongs to a cell are shown not to be negative, which keeps the pixels within an `int`.
* **C120 The stand-alone extractor computes the spectra of snapshots in Gadget's own format.** `load_header`, `load_snapshot` and the branches of `main` which call them, over blocks that may be missing; memory not yet written is kept apart from memory that was. The particles handed over equal those of the snapshot if all densities are the same; the whole program by the theorems of C105 and the interpolator; what is needed for any spectra, by inversion; negations with witnesses.
* **C121 Limits of mesh cells in single precision do not change the spectra.** `assign_cells` with a rounding wherever a limit is stored. The array in single precision is the rounding of the exact one at every sample point, all comparisons agree below `2 ^ 23` points, so the loops go together; errors of the last steps by hand. Negation by a box in which the stored limit lags by a whole step.
* **C122 The search in single precision finds every sightline clearly inside the radius.** The search of C01 with a rounding of the window limits and of the squared radius, periodic wrap included. Closed form of the result for any rounding, then the geometry with an error of `box / 2 ^ 22` on each limit. Negation by a particle of 1 kpc in a box of 100 Mpc whose window is rounded down.
* **C123 Spectra from the search in single precision.** `compute_colden` and `compute_tau` on the lists of C122, with exact kernels. The pixels are the deposit of a choice of particles between those clearly near and those near. For column densities the loss is bounded: each grazed particle has at most its chord times the kernel at the edge, by comparison with a uniform kernel whose total is known (C04). Negation with a top hat kernel and the particle of C122.
* **C124 The squared radius in single precision.** `smooth*smooth` is a `float` product: the check whether a sightline is inside the radius and the half chord of a column use it. New model of the two deposits and of `compute_colden` and `compute_tau` with both this and the search of C122 rounded. Optical depth: the absorber has its radius in double precision and no width outside it, so a deposit is the exact one or none. Column density with a uniform kernel: the deposit is that of a particle of radius `sqrt(fl(h*h))`, and half chords of squared radii that differ by `e^2` differ by at most `e`. Splines: the quadrature bound of C08 for any range, and the integral of the kernel over ranges that end within one rounding of its edge. A sightline at the radius shows that the bound for uniform particles cannot be zero.
* **C125 Optical depth lost by single precision.** The model of C124. By C124 a spectrum is the exact deposit of a choice of particles. A particle that is left out has its sightline within a four millionth of the box of its radius, so all nodes of the quadrature are on a chord of length at most `2 sqrt(2 h e)`, where the kernel is at most its value a distance `e` from the edge, and the profile is at most one. Averages over a pixel and the walk over pixels, which meets each pixel at most once, keep the bound. `voigt_bounded` and `code_bounded` give the bound on the profile, for the Voigt function and for the program's own.
* **C126 Densities in single precision.** All arrays are converted to `np.float32` when read, and products of them are `np.float32`. New model of `_read_particle_data`, the loop over segments and `compute_spectra` with each conversion and product rounded; positions and radii are the same. Relative errors of products, quotients and sums of numbers that are not negative; the filter on the density is unchanged since rounding keeps the sign; column densities are linear in the density of each particle. For the Voronoi mesh, where the program may stop, the two programs are run side by side: limits of cells depend on positions alone, so that both stop in the same place or add columns that agree. Optical depths are not covered: where the walk over pixels stops depends on the last bits.
* **C127 Mass-weighted temperatures in single precision.** Model/DensityRounding adds `_temp_single_file` and `get_temp` with every product of particle arrays rounded. Props/TempRounding: the numerator is within 14.1 and the denominator within 10 roundings of exact arithmetic, since both are sums of numbers that are not negative, hence so is the quotient, within 25; where no gas is, both are 0. Sums and the quotient of pixel arrays are exact.
* **C128 Density-weighted densities in single precision.** Model/DensityRounding adds `_densweightdens` and `get_dens_weighted_density`. Props/DensWeightRounding: rounding keeps the particles with the element, so lengths agree or disagree in both arithmetics and the exceptions are the same; the numerator is within 25.5 roundings, the quotient within 36. For elements and neutral hydrogen no exception is possible.
* **C129 Spectra and averages over the gas are handed to the extension in a precision it takes.** Model/NumTypes gives the types of all numbers and arrays in `_read_particle_data`, `_vel_single_file`, `_temp_single_file` and `_densweightdens` under the rules of NumPy 1 and of NumPy 2 (NEP 50, trusted as written there), and passes arrays of that type to the model of the extension (Model/PyModule). Props/NumTypes: column densities, optical depths, temperatures and density-weighted densities are always accepted; velocities exactly under NumPy 1 or if no factor is in double precision; the search for stars within an angle only under NumPy 1.
* **C130 Mass-weighted velocities in single precision.** Model/DensityRounding adds one component of `_vel_single_file` and of `get_velocity`. Props/VelRounding: every particle's weight is within 16.1 roundings of its own size, so the numerator is within 16.1 roundings of the numerator for speeds, which bounds it; the quotient by a density within ten roundings is within 27 of the mass-weighted speed. Additions in the extension are not rounded.

## Findings: where the code disagrees with the English property

* C05: an odd number of pixels leaves one pixel of the spectrum unvisited by the tail loops (`odd_pixel_skipped`).
* C01: a particle with radius of half a box or more can be missed (`near_lines_misses_half_box`).
* C56: fully ionised hydrogen cannot be asked for (`ionised_hydrogen_fails`).
* C09: a cell across the edge of the box nearest to more than half a sightline ends the process with `exit(1)`
  (`assignment_stops`); a cell starting at the edge and nearest to more than half takes the rest (`assignment_swallows`);
  a sightline without near cells writes outside the array (`no_cells_out_of_bounds`); a segment starting at exactly 0
  adds no optical depth (`edge_cell_no_tau`, reached by `edge_cell_reached`). The last holds in exact arithmetic; with
  float rounding the lower limit may come out slightly positive or negative, so the real effect depends on rounding.
* C10: with fewer files than ranks, rank 0 raises IndexError (`fewer_files_than_ranks_fails`); with MPI the `snapdir_NNN`
  directory is not searched (`mpi_ignores_snapdir`).
* C11: the last `parts % n_segments` particles of each rank are never read (`bigfile_drops_particles`); `get_n_segments()`
  without a particle type, as called in four places, is a TypeError on BigFile (`bigfile_n_segments_needs_type`).
* C58: after one failed open every later read of the cached segment fails (`failed_open_poisons`).
* C12: an object with a single pixel in all cannot answer a query twice (`single_pixel_fails`).
* C13: temperatures and density weighted densities not asked for between loading and saving are replaced by `[0]`
  (`resave_loses_temperature`). Not in the model: a line given as a float is saved under a name such as `1215.0`.
* C14: after a crash, the next save moves the broken file over the good backup (`retry_loses_backup`).
* C15: halo spectra are never loaded again: the catalogue ends up in the backup (`halo_save_not_loadable`), loading makes
  the constructor fail (`halo_reload_fails`), and a crash while appending breaks the only copy (`halo_crash_loses`).
* C20: a target below the fraction of clear pixels is never reached and the loop never ends (`mean_flux_never_ends`); with
  no absorption at all the factor is not finite (`mean_flux_no_absorption`). The convergence theorems ask for a reachable target.
* C27: a spectrum that is above the threshold everywhere makes the filter loop for ever (`filter_hangs`, `filter_tau_hangs`);
  the partial theorems ask for one pixel at or below `taueff + 0.25`.
* C33: without collisions and at no more than 1e-40 electrons per atom the neutral helium fraction is 0/0 (`no_electrons_nan`).
* C35: the Verner rate of He+ is zero at exactly 6e5 K and 8e5 K: strict comparisons leave out the ends of the join
  (`verner_hep_pos_iff`).
* C37: gas less dense than the table makes the look-up fail (`low_density_fails`), as does a segment without gas below the
  upper limit (`all_dense_fails`); energies above the table are looked up below energies just inside (`clamp_not_monotone`).
* C38: the error flag is shared and overwritten: an error can be lost and an uninitialised number returned
  (`race_loses_error`).
* C62: the threshold is proportional to the unit of density chosen (`threshold_depends_on_units`).
* C63: the Compton term is multiplied by the square of the electron density (`compton_wrong`); the Gaunt factor of the Nyx
  table is negative above 1e18 K (`nyx_freefree_negative`); the helium model fails on arrays (`he_model_array`).
* C23: the last edge of the distribution is below `10**maxN` unless the range is a multiple of the bin width, so absorbers near the
  top are not counted (`cddf_misses_top`; the default range ends at 22.8, `cddf_default_range`); grouping pixels drops the
  pixels left over at the end of each sightline (`grouping_drops`, `grouping_loses`).
* C25: `rho_DLA` raises TypeError for every positive threshold (`rho_DLA_fails`).
* C30: sightlines along different axes are accepted when the mean, first and last axis agree (`proj_pos_accepts_mixed`).
* C31: `add_noise` with its default sightline number fails on one spectrum (`noise_default_fails`); limits in the wrong order make
  `add_cont_error` loop for ever (`cont_error_hangs`).
* C32: pixels after the last whole section are dropped (`renormalise_drops`); neighbouring sections share a pixel.
* C49: the documentation says the line closest to unity; the code takes the strongest below 3 (`observer_not_closest`). With the default `spec_res=0` the smoothed optical depths are NaN (C88) and `get_observer_tau` raises `ValueError` (`observer_tau_no_resolution`).
* C64: `omega_abs_cddf` and `omega_abs` differ for one and the same absorbers (`omega_estimates_differ`).
* C65: the equivalent width depends on where the spectrum is cut (`eq_width_depends_on_cut`).
* C66: the strongest absorber is never in the histogram (`eq_width_hist_misses_strongest`).
* C29: the first halo of the catalogue that contains an absorber is taken, not the nearest (`assign_not_nearest`); distances are
  not periodic (`assign_not_periodic`); absorbers without a halo leave no entry, so entries cannot be matched
  (`assign_unaligned`); plots compare `halo > 0` and so leave out the first halo (`first_halo_left_out`); virial velocities
  squared are too small by a factor `h` for masses in solar masses over h (`virial_vel_spec`).
* C41: the radius of the smaller halo is used, not that of the larger as documented (`satellite_kept`); distances are not
  periodic (`edge_halo_kept`).
* C42: with more than ten files, file 10 is read before file 2 (`file_order_wrong`); a first file without the array gives
  TypeError (`catalogue_first_file_empty`).
* C39: calling `get_systems` twice changes the column densities when the fit did not find the components in order of position,
  because only the widths are sorted in the object (`get_systems_not_repeatable`); one component and a linking length above the
  length of the spectrum gives no system (`get_systems_loses`); equal positions fail an assertion
  (`get_systems_equal_positions`). Distances around the edge use `(npix-1)*dvbin` as the length of the spectrum.
* C40: a spectrum without absorption above the tolerance makes the whole fit fail (`flat_spectrum_fails`); `do_fit` on the same
  object adds the peaks again (`do_fit_again_adds`); a component in the last pixel is reported in the first
  (`position_last_pixel`); a profile of amplitude 0 fails its assertion (`voigt_profile_zero`).
* C53: an empty bin of column density raises IndexError (`retained_empty_bin`); a bin of equal values loses them all
  (`clip_loses_equal`); `bin_range is False` never restores a point (`retained_below_40`); if every component is in range the
  cut above the fit is skipped and the cut below uses the initial guess (`finalFit_skips`).
* C67: with a positive linking length the arrays can have different lengths (`fit_params_misaligned`).
* C17: asked for more sightlines than the object has, `replace_not_DLA` can return fewer than it says
  (`replace_too_many`, `replace_silently_short`); the axis of a replaced sightline is not kept (`replace_mixed_axes`); columns of any
  element are filed under ("H", 1) (`replace_other_element`); nothing found and nothing wanted divides by zero
  (`replace_none_wanted`); a second call on the same object uses the particles near the old sightlines (`replace_twice`).
* C18: `nbins` with the default `res` raises AttributeError (`nbins_and_res_fail`); an unknown kernel name raises TypeError from
  the error message (`unknown_kernel`); the RuntimeError for missing sightlines is unreachable (`missing_sightlines`); a pixel
  wider than the box gives an object without pixels (`wide_pixel`); many positions with one axis are accepted as one sightline
  (`one_axis_many_positions`); the `units` argument has no effect on an object made from a snapshot (`units_ignored`).
* C68: the unit of length is not saved, so an object from a snapshot in Mpc/h comes back with pixels 1000 times too narrow
  (`reload_wrong_units`); with the default `res=1.` a file with other pixels cannot be opened (`reload_default_res`).
* C16: `get_emflux` iterates over the segment count, so every call raises TypeError (`emflux_never_returns`). The array is kept
  in a dictionary of the class and scaled in place, so repaired queries would drift by a power of the dimming factor
  (`emflux_drifts`) and be shared by all objects (`emflux_shared`).
* C71: `find_associated_halo` divides with `/`, so every look-up raises IndexError (`associated_halo_fails`) and so does `line_offsets` (`line_offsets_fails`), and
  `line_offsets` with it. The constructor passes `res` in the place of the MPI module: any pixel width raises AttributeError
  (`res_fails`).
* C72: `save_file` writes the halos into the old savefile and then calls the base class, which moves that file away
  (`halos_lost`, `saves_never_load`). Were a file with halos found, the constructor would be given no sightlines and fail
  (`loaded_fails`).
* C44: the ion of a row is read from a column of four characters, so numerals such as XVIII lose their end
  (`long_numeral_truncated`). `VVVIV` and `IL`, for which the documentation promises an error, are accepted
  (`not_numerals_accepted`). Of the lines with one integer wavelength the last is kept, against the comment in the code; in the
  supplied file this loses most of the high Lyman series (`lyman_lost`).
* C45: smoothing treats what lies beyond the end of the array as 0 (`smooth_end`) and divides by one more than the number of
  elements for even widths (`smooth_even`). The first element of the power spectrum of an even number of pixels, such as the 1024
  the extractor writes, holds the highest frequency instead of the mean (`c_zero_even`, `c_zero_constant`).
  `calc_power_spectra` scales the optical depths it is given (`calc_power_twice`).
* C46: the extractor never reads the first file (`first_never_read`), and after file 10 looks for 110 because only one character of
  the name is replaced (`reads_ten`, `rest_never_read`). One HDF5 file is read as a Gadget file (`single_hdf5`).
* C47: axis 0 and NaN positions are accepted (`axis_zero_accepted`, `nan_accepted`); a row of words repeats the sightline before it
  (`words_repeat`).
* C51: with MPI only the gas density is summed over ranks, so each rank reports its own part over the gas of all (`temp_ranks`,
  `temp_two_ranks`). `get_velocity` multiplies by sqrt(a) velocities the reader has already multiplied by it
  (`velocity_wrong`). Three pixels and one or three sightlines divide by the gas of other pixels (`velocity_three_pixels`). The
  segments of BigFile snapshots cannot be counted without a particle type (`bigfile_fails`). `get_dens_weighted_density` of an ion
  raises ValueError if gas without the element is near a sightline (`density_fails`).
* C73: a width below a pixel gives 0/0 (`metallicity_narrow`); the window is one pixel shorter after the peak than before it, so
  with an odd number of pixels no width covers the sightline (`metallicity_odd`).
* C19: the interpolator checks neither the second dimension of the positions (`interp_positions_crashes`), nor the lengths of the
  velocities and temperatures (`interp_velocities_crashes`, `interp_temperatures_crashes`), nor the values of the axes
  (`interp_axis_crashes`), nor that arrays have the dimensions it asks for (`interp_0d_crashes`, `interp_1d_cofm_crashes`), and uses a
  failed allocation before looking at it (`interp_negative_crashes`). `_near_lines` does not compare the smoothing lengths with the
  positions (`near_lengths_crashes`), `_rescale_mean_flux` trusts its pixel count (`mean_flux_safe`), `_interpolate_2d` checks
  neither lengths nor the type of the grid (`interpolate_2d_lengths_crashes`, `interpolate_2d_grid_crashes`). The calls made by
  `Spectra` are safe (`interp_from_python_safe`, `near_from_python`).
* C74, C78: kernel and baryon density come from the file that is open, at first the last by name; without gas in it the constructor
  raises KeyError (`kernel_no_gas`), and the baryon density is that of one file (`omega_baryon_history`).
* C75: a BigFile header without `UsePeculiarVelocity` is a KeyError (`velocities_unknown`).
* C76: BigFile snapshots raise TypeError (`find_all_bigfile_fails`).
* C77: files with the right names that are not HDF5 raise IndexError and BigFile is not tried (`factory_index_error`).
* C12: a statistic with `tau_thresh` filters the cached optical depths in place: later calls see the filtered array
  (`filter_changes_tau`); `get_flux_power_3D` with a target mean flux multiplies them in place (`power_3d_changes_tau`).
  Histories without these two are transparent (`session_independent_partial`).
* C79: in `flux_power_3d` the pixels of a sightline always run along the third coordinate of the mesh, but the line of sight passed is the
  axis of the sightlines in the box; two thirds of the power is binned by the angle to a transverse direction (`line_of_sight_wrong`).
* C80: `compute_curvature` says it returns a value for each spectrum, but spectra with fewer than three pixels between 0.1 and 0.9, or with flux
  on a straight line there, have none (`curvature_drops`, `curvature_straight`). Its velocities are `vmax/(nbins-1)` apart, those of the pixels
  `vmax/nbins`, so that it underestimates curvature (`curvature_too_low`). Every section has a pixel at the continuum, so that a low observed mean
  flux is out of reach for short sections and `get_curvature` does not end (`curvature_never_ends`).
* C81: the distance to the end is checked for the middle of the last segment rounded down, while the breakpoint goes to the middle rounded to even:
  the last segment can be a pixel too short (`last_segment_short`). A spacing below half a pixel is a ZeroDivisionError, one of a spectrum or
  more an IndexError (`spline_spacing_zero`, `spline_spacing_long`).
* C82: `RateNetworkSpectra` passes its own `hubble=0.71` on, which replaces the snapshot's: all densities are wrong by the square of the ratio
  (`rate_spectra_density`). For a snapshot in Mpc the density of star formation comes out below the lowest density of the table
  (`table_inverted`), and gsl ends the process. A segment whose gas is all dense is a ValueError (`all_dense_fails`), gas below the table an
  AttributeError (`low_density_fails`).
* C83: `np.where(...)[0]` in `fun_min` gives positions in `ind`, which starts at pixel 1, but they are used as pixels: the window is shifted by one pixel to
  the left, one pixel beyond the left minimum counts, the depth of a minimum is read off its neighbour, and a minimum next to the peak on the right is ignored.
  A rolled spectrum with equal ends that only rises to the peak and falls after it fails `assert np.size(mins) > 0`.
* C84: `Profiles.light` is 2.99e5 km/s, absorption.cpp has 2.99792458e10 cm/s: column densities come out 0.27% high. `do_fit` takes the absolute value of the
  widths but not of the amplitudes, whose absolute value is drawn: a negative amplitude is reported as a negative column density.
* C85: `gaussian_profile` subtracts `midpt` in pixels from velocities: for pixels below about 0.5 km/s one side of the profile is missing and the peak too low.
  Positions beyond the ends fail the assertion, while the Voigt profile wraps them.
* C86: `column_density_from_voigt(nspectra=n)` with more than `NumLos` spectra asked for divides by the path length of `n`.
* C87: `fit_td_rel_plot` with `gas` other than `raw` does not pass the snapshot's units to `RateNetworkGas`; with units of Mpc there is never a result (`td_rel_rates_units`).
* C88: `res_corr` with `fwhm=0` gives NaN: scipy's `gaussian_filter1d` divides by `sigma^2` (`res_corr_zero`). Read from scipy's source from memory, not checked here.
* C89: the offset of `plot_spectrum` is multiplied by the pixel width where it should be divided (`plot_spectrum_offset_wrong`); `plot_density`
  is half a pixel off for odd numbers of pixels (`plot_density_odd`); `plot_den_to_tau` raises `ValueError` with two or more pixels above
  the threshold (`den_to_tau_fails`) and subtracts a constant from the cached velocities (`den_to_tau_changes_velocity`).
* C90: `mass_hist` leaves out the hosts with the smallest and largest virial velocity (`mass_hist_misses`) and has no bins if all are
  alike (`mass_hist_alike`); it is a histogram of virial velocities, not of masses as documented. `get_stellar_mass_function` uses the
  volume of a 25 Mpc/h box and h = 0.7 for every simulation (`gsmf_wrong_volume`).
* C91: `GriddedSpectra` is documented to "try to load the spectra file if it exists" with `reload_file=True`, the default; the savefile is
  never used then (`gridded_never_loads`), and without the snapshot the constructor fails. `reload_file=False` loads it, and drops the
  grid asked for without a message (`gridded_from_savefile`). `grid_cofm` without `grid_axes` raises `TypeError` (`gridded_no_axes`).
* C92: `LineData(file)` raises `UnboundLocalError` for every file (`own_lines_fail`): line 31 of line_data.py reads `vpdata`, which is
  only set when no file is given.
* C93: `_filter_particles` removes the cells without the element before the segments of the sightline are assigned, so that the cells that
  are left take the place of the others (`mesh_ion_fills`): the column of an ion is that of a box full of enriched gas. If one of several
  sightlines has no enriched cell near it the compiled code writes outside its arrays and none of them has a result (`mesh_ion_fails`).
  With MPI every process assigns the whole sightline to its own cells and the results are added, so the column is multiplied by the number
  of processes (`mesh_ranks_multiply`). `_interpolate_single_file` asks `get_n_segments()` without its argument, a TypeError for bigfile
  snapshots with this kernel (`mesh_bigfile_fails`).
* C94: the density of a particle is taken at seven velocities (`NGRID` 8). If these are further apart than the width of the line the
  optical depth of the particle is a comb; the loop over the pixels stops in the first gap where it is below `tautail` and the pixels beyond
  get nothing (`tail_cut_loses`: 1e-5 is lost with a tolerance of 1e-7).
* C95: the sum over the velocities leaves out the ends of the chord. For the SPH kernels the density is zero there; for the top-hat and the
  moving mesh it is not, and the optical depth is 12.5% too low (`tau_column_tophat`, `tau_column_mesh`).
* C96: a file without velocities, smoothing lengths, or with `Flag_Cooling` 0, leaves uninitialised memory in use (`no_velocities`, `no_size`,
  `no_cooling`); with a mass table the mass is taken for the density (`mass_table`); a file in double precision is dropped without an error
  (`double_precision`); a file with an unreadable header is not skipped: the arrays of the file before are freed a second time, or those of no
  file at all (`broken_header`, `broken_header_later`). For `read_snapshot.cpp` see C120.
* C97: the extractor does not multiply velocities by the square root of the expansion factor (`velocity_differs`); the Python interface takes
  every universe to be flat (`velfac_curved`). With `Volume` instead of smoothing lengths the extractor has the exponent 0.33333333 and the
  SPH kernel where the Python interface has the cube root and a top-hat.
* C98: asked for with the power spectrum, the flux distribution is that of optical depths scaled twice (`both_written`,
  `pdf_depends_on_power`); with `-u` beyond the number of sightlines column densities are used as optical depths (`column_densities_used`);
  the output name is cut at the first `_spectra.dat` of the path, so results of different files overwrite each other (`names_collide`); the
  numbers given with several `-s` are added.
* C100: the speed of light of the unit system and of the Voigt fits is 2.99e10 cm/s, so absorption and redshift distances are 0.26 per
  cent too large (`light_wrong`). Masses of atoms in atomic mass units are multiplied by the mass of the proton, which absorption.h calls
  "1 a.m.u": thermal widths are 0.36 per cent too small (`thermal_width`). The excitation of neutral helium has the threshold of ionised
  helium, 40.8 eV, above the ionisation energy (`helium_excitation_threshold_wrong`).
* C101: lines are filed under the whole part of their wavelength, so fourteen of the thirty-one Lyman lines of atom.dat are overwritten by the
  next one (`lyman_lines_lost`); the Lyman limit is filed as a line as well.
* C104: with MPI the arrays are float32. Without MPI the first file decides: if it has no particle near a sightline the array of zeros it
  returns is float32 and all the other files are rounded to single precision when they are added (`empty_first_file_single`).
* C105: a snapshot in one file gives empty spectra and exit code 0 (`one_file_empty`), because the first file is never read. An HDF5 file whose
  name does not contain `.0.hdf5` empties the output file and then frees pointers never set (`plain_name_undefined`). If there is no input
  file, the program goes on with a header it never read (`missing_input_undefined`). `NumLos * NBINS` overflows for 2097152 sightlines
  (`many_sightlines_undefined`). The result of `getopt` is kept in a `char`; where that is unsigned the program always exits
  (`unsigned_char_stops`).
* C106: the host of a sightline is tested with `halo > 0`, so sightlines of halo 0, the most massive one, are dropped from the plots by halo
  (`breakdown_drops_first`). The edges of the breakdown end before the largest value, which is in no bin (`breakdown_misses_top`), and there
  are three colours, so a fourth class raises IndexError (`breakdown_four_classes`). On a logarithmic axis one value of 0 makes
  `np.histogram2d` raise ValueError and nothing is drawn (`contour_zero_raises`). `nbins` is the number of edges of the histograms of
  metallicities, which have one bin less. plot_eq_width_vs_col_den draws the logarithm of the equivalent width on an axis labelled W.
* C107: EmissionSpectra.save_file loads `self.colden` under the name `velocity`, so the velocities of a savefile that were not asked for are
  replaced by the number 0 (`emission_resave_loses_velocity`). `load_savefile` does not read the stellar fluxes, so they are gone after the
  next save (`stellar_dropped`). With one sightline the stellar flux has size 1, is taken for one to be loaded, and saving raises IOError
  (`stellar_single`). Under MPI every process writes the file, unlike `Spectra.save_file` (not modelled).
* C108: hefracplot passes the electron density to `_nHep` and `_nHepp`, whose argument is the number of electrons per hydrogen atom; the
  ratio drawn is smaller than the one in balance at every point, at least fifty times where radiation ionises more than collisions
  (`hefracplot_wrong`). hfracplot draws nH0/nH under the title nH0/nH+ (`hfrac_title`). The axis of temperatures is at the median density of
  the grid, and so is the temperature in simplenh0frac (`axes`, `simple_ratio`). The module imports `rate_network` as a top level module,
  which works only in its own directory (not modelled).
* C109: only IOError is caught, so without a catalogue (`no_catalogue_raises`, IndexError) or with an array missing from the first
  file (`missing_raises`, TypeError) the object cannot be made, and after a damaged array it is half loaded without an error
  (`half_loaded`). Group masses are 4e-5 smaller than those of `halocat` for the same halo (`masses_disagree`). `SubhaloMass` is not
  converted, so `virial_vel(subhalo=True)` is about 1e5 times too small (`subhalo_velocities_wrong`, `subhalo_factor`).
* C110: the pattern `snap_NNN*hdf5` has a star right after the number, so in one directory snapshot 100 is read together with
  snapshots 1000 to 1009 (`finds_other_files`).
* C111: with NumPy 2, `2**32*NumPart_Total_HighWord` raises OverflowError for 32 bit words (`npart_numpy2_fails`), and it is called by
  the constructor of `Spectra`.
* C112: `RecombRatesBadnell.alphaHep` holds the constants of He++ (1.818e-10, 0.7492, 10.17, 2.786e6) and `alphaHepp` those of He+ (5.235e-11,
  0.6988, 0.0829, …), so `recomb="B06"` exchanges the two. `badnell_exchanged`: below 6e5 K He+ recombines faster than He++.
  `badnell_not_similar`: the rates differ from those of V96, which the documentation calls very similar, by more than 25% and 50%. The rate of
  V96 for He+ is not monotone, because it is zero at 6e5 K (`alphaHep_not_antitone`, see C35).

* C113: `turn_off_selfshield` is never handed to the object which computes neutral fractions. All it does is to set the damping constant of
  every line to 0 (spectra.py:669-672), so column densities do not change at all and optical depths lose their damping wings
  (`selfshield_switch`, `selfshield_colden`).
* C113: for the optical depth of a whole element (`ion=-1`) only the ions 0 to 7 are tried (spectra.py:533). The lines of Ne VIII and Mg X of the
  shipped table cannot be had in this way: the name `line` stays unbound and `UnboundLocalError` is raised (`neon_query_fails`).
* C113: an element, an abundance or a line that is not known is noticed only when there is gas to interpolate. A mistyped line or element
  gives an array of zeros if no particle is near a sightline (`unknown_element`, `unknown_line`).
* C114: the constructor takes every `AttributeError` of the gas class for a missing snapshot (spectra.py:260-262). A value for
  `units` which is not a unit system therefore gives an object without gas properties, and the first query fails with an error
  about `gasprop` (`units_hidden`). Without a snapshot no option is checked at all (`no_snapshot`).
* C114: `RateNetworkSpectra` overwrites the keywords `gasprop` and `gasprop_args` (ratenetworkspectra.py:134-139). The recombination
  table, the tolerance or the collisional switch a user passes there are dropped without a word (`rate_spectra_args_dropped`).
* C114: an object made from a savefile next to a snapshot reads the gas of the snapshot, but converts it with the redshift and
  Hubble parameter of the savefile and with default units (`saved_density`). Nothing compares the two headers.
* C115: `HaloSpectra` passes the joined path as `savefile` together with `savedir` (halospectra.py:48), and they are joined again. With a
  relative base directory or `savedir` the spectra are saved under `dir/dir/name` but looked for under `dir/name` (`halo_relative`); as `dir/dir`
  seldom exists, saving raises an error (`halo_relative_fails`). With absolute directories the second join has no effect (`halo_absolute`).
* C115: `save_file` makes the directory with `os.mkdir`, one level only (`parents_not_made`), and an empty `savedir` is never saved to
  although the current directory exists (`empty_savedir`).
* C116: an exception on one process is not shared with the others (spectra.py:801-831). As unknown elements and lines are only noticed where
  there is gas (C113), a mistyped name ends the processes with gas near the sightlines and leaves the others in `Allreduce` for ever
  (`unknown_element_in_vain`). The same follows when some processes find the savefile and others do not (`cached_in_vain`), when the
  constructor fails on one process, as with fewer files than processes (`failed_start_in_vain`, C10), and when process 0 cannot save
  (`failed_save_in_vain`, C115).
* C117: arrays which an object has not read yet are read from the savefile when they are asked for (spectra.py:359-372), and nothing compares
  the sightlines of the file with those of the object. If another object with other sightlines has saved to the file, its arrays are returned
  (`other_sightlines`). A save writes only what the object has, so an array which another object added to the file is lost; an object made from
  the file in between can then neither return it nor save (`lost_update`). `save_file` ignores an `IOError` for velocities only
  (spectra.py:277-280): if the file is missing, because a save failed after moving it, unread velocities are saved as a zero, which is returned
  later (`velocity_lost`).
* C118: `save_file` moves whatever is at the path of the savefile over the backup (spectra.py:285-286). If another process is saving, that is a
  half-written file, and the only complete one is lost; if both processes die, nothing is left (`overlap_loses`). If a savefile appears between the
  test whether there is one and the creation of the new one, it is overwritten without a backup (`overlap_overwrites`). If the savefile disappears
  between the test and the move, the save fails with an error (`overlap_stops`).
* C19: `nbins` given as a floating-point number is accepted by the constructor (spectra.py:224-225) and refused by the extension at every query,
  with an `AttributeError` (`float_nbins`), where a `TypeError` or a conversion would be expected.
* C119: `i*nbins` in `compute_tau` and `compute_colden` (part_int.cpp:31, 64) is an `unsigned int`. With more than `2 ^ 32` pixels in all (say a
  million sightlines of 5000 pixels) the rows of the later sightlines are added to those of the first ones, and there is no error
  (`interpolate_wrapped`); the later rows stay zero whatever the gas (`late_rows_empty`, `late_rows_wrong`). `3*ipart+axis-1` overflows from particle
  715827882 on (`late_particles_undefined`), and `near_lines` loses the particles from number `2 ^ 31` on (`late_particle_lost`). Sightlines that
  an `int` cannot count are a `ValueError` (`too_many_raise`), but from 715827883 of them on the table of sightlines overflows. Near
  particles from `2 ^ 31` on appear under other numbers, negative ones first (`near_narrowed`, `near_first`). Pixels beyond the range of an `int` are
  undefined (`far_pixels_undefined`, `fast_particles_undefined`).
* C120: the reader of Gadget's own format (cextract/read_snapshot.cpp) cannot be compiled: `i` in line 117 is not declared. With the
  declaration added it stops on every real snapshot: the densities are read into the array `Mass` (line 76), and the next loop ends the
  program if they are not all the same. The message is "Mass change", the code is 0, and the output file was already opened: it is left empty
  (`densities_differ_exit`). Without cooling, electrons and neutral fraction are used without having been set (`no_cooling_fails`). With
  `SPLIT_NE` and without the block of smoothing lengths, half the number of doubly ionised helium atoms, left in the array that served for
  scratch, is taken for the length (`leftover_lengths`); without the block of those atoms it is the singly ionised ones that are counted three
  times (`leftover_ions`). The numbers returned by `GetBlock` are never looked at.
* C119, Voronoi mesh: the same rows are lost beyond `2 ^ 32` pixels (`mesh_late_rows_wrong`). The number of points 0.1 apart on a sightline is an
  `int` (index_table.cpp:162) and undefined for boxes of more than 2.1e8 kpc (`fine_grid_undefined`), which no simulation has.
* C121: the limits of cells are `float` (index_table.cpp:156). Beyond 2 Gpc their spacing is larger than the distance between sample points and
  the check of line 204 stops the program for no reason in the mesh (`large_box_stops`). Boxes of less than 0.8 Gpc are safe.
* C122: positions and radii are `float`, and the limits of the search window are computed in `float` (index_table.cpp:55-60, 93-99) although the
  sightlines are `double`. In a box of 100 Mpc a sightline 1 pc inside the radius of a particle of 1 kpc can be missed (`inside_lost`); computing the
  limits in `double` would cost nothing. Sightlines inside by more than a four millionth of the box are always found.
* C123: with a top hat kernel the sightline of C122 loses a chord of 90 pc through a particle of 1 kpc (`chord_lost`); a spline, which vanishes at the
  edge, loses less than `10 ^ -4` there (`edge_gas_column`).
* C124: the square of the radius is rounded to single precision and compared with a distance in double precision. A sightline outside a uniform particle can so get a
  column (`edge_column`), up to a two thousandth of the radius in the length of the chord, which is far more than the relative rounding of `2 ^ -24`: the square root amplifies it. Optical depths are
  not concerned, because `SingleAbsorber` checks again in double precision.
* C126: densities are used in single precision whatever the precision of the snapshot (`density_changes`); the column densities returned are in double precision but have no more than about 20 significant bits.
* C129: `_vel_single_file` multiplies single precision arrays by `np.sqrt(self.atime)`, which is `np.float64`, and by `phys`, which unlike in `_temp_single_file` and `_densweightdens` is not converted to `np.float32`. Since NumPy 2 the product is in double precision and the extension refuses it: `get_velocity` raises `TypeError` as soon as gas is near a sightline (`velocity_refused`). Nothing in the package asks for NumPy 1.
* C129: the radius of stars in `_read_stellar_data` is an array in single precision times the size found by `distance`, a `np.float64`. Since NumPy 2 it is in double precision and `_near_lines` raises `TypeError` (`stars_refused`); `get_emflux` passes over `ValueError` only.
