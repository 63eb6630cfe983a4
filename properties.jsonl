{"id": "C01", "title": "Near-line search finds exactly the particles that can contribute", "statement": "Given a periodic box, sightlines and particles inside it, and smoothing radii smaller than half the box, particles_near_lines returns the strictly increasing list of the indices of the particles for which some sightline passes at a periodic transverse distance below the smoothing radius; no particle farther than its radius from every sightline is returned.", "quantifier": "every box size, every number and placement of sightlines (any of the three axes) and particles inside the box, every positive radius below half the box", "why_tests_cant": "The search goes through two ordered multimaps, lower_bound ranges and a hand-written periodic wrap; the wrong answers live at range ends and wrap-around positions that have measure zero in any sampled test.", "anchors": ["fake_spectra/index_table.cpp:IndexTable::get_nearby", "fake_spectra/index_table.cpp:IndexTable::get_nearby_from_range", "fake_spectra/index_table.cpp:IndexTable::get_near_lines", "fake_spectra/py_module.cpp:Py_near_lines", "fake_spectra/spectra.py:particles_near_lines"]}
{"id": "C02", "title": "The distance attached to a particle-sightline pair is the periodic transverse distance", "statement": "Whenever the interpolator pairs a particle with a sightline, the squared distance it uses is the sum over the two transverse axes of the squared minimum-image separation; it never depends on the coordinate along the sightline, and shifting particle and sightline together by any amount modulo the box leaves it unchanged.", "quantifier": "every particle and sightline in the box, every axis", "why_tests_cant": "Which of three coordinates is skipped depends on the axis, and the minimum image on which side of the half box the difference falls: a grid of test points misses the interplay of the two.", "anchors": ["fake_spectra/index_table.cpp:IndexTable::calc_dr2", "fake_spectra/index_table.cpp:IndexTable::get_nearby_from_range"]}
{"id": "C03", "title": "Parallel near-particle search does not depend on the thread schedule", "statement": "The particle lists per sightline and the near-line index list are the same for every number of OpenMP threads and every interleaving of the critical sections.", "quantifier": "every assignment of particles to threads and every order in which the critical sections run", "why_tests_cant": "The schedule is chosen by the OpenMP runtime; a test sees one schedule per run.", "anchors": ["fake_spectra/index_table.cpp:IndexTable::get_near_particles", "fake_spectra/py_module.cpp:Py_near_lines"]}
{"id": "C04", "title": "Column density is conserved by pixelisation", "statement": "For the top-hat and Voronoi kernels the column density a particle deposits, summed over the pixels of the sightline, is the particle density times the chord of the sightline through the particle (for Voronoi, times the length of its segment), whatever the number of pixels, the position of the particle relative to pixel edges and the periodic wrap.", "quantifier": "every pixel count, box size, particle position, radius, impact parameter and density", "why_tests_cant": "The sum telescopes over a data-dependent number of pixels with a wrap-around index; a test covers finitely many alignments of particle and pixel edges.", "anchors": ["fake_spectra/absorption.cpp:LineAbsorption::add_colden_particle", "fake_spectra/absorption.cpp:tophat_kern_frac", "fake_spectra/absorption.cpp:arepo_kern_frac"]}
{"id": "C05", "title": "Interpolation touches only pixels of its own sightline, each at most once per particle, and never lowers a value", "statement": "Depositing a particle writes only to valid pixel indices of the sightline; in the optical depth loop every pixel is visited at most once; no entry ever decreases when densities are non-negative.", "quantifier": "every pixel count (even and odd), every particle position and velocity, every stopping point of the tail cut", "why_tests_cant": "Index arithmetic is done with modulo, negative remainders and early breaks; out-of-range writes show only at particular combinations.", "anchors": ["fake_spectra/absorption.cpp:LineAbsorption::add_tau_particle", "fake_spectra/absorption.cpp:LineAbsorption::add_colden_particle"]}
{"id": "C06", "title": "Spectra are additive over particles: order, batching, snapshot segments and MPI ranks are irrelevant", "statement": "With a smoothing kernel, in exact arithmetic the computed spectrum is the sum of single-particle spectra; permuting the particles, splitting them into snapshot segments, dropping particles far from every sightline first, or distributing segments over MPI ranks and summing gives the same array. With the moving-mesh kernel on one process the result does not depend on how the snapshot is cut into segments.", "quantifier": "every particle list, every permutation, every split into segments and ranks", "why_tests_cant": "The number of permutations and splits is unbounded; bugs here (a lost segment, double counting) depend on the layout of the snapshot.", "anchors": ["fake_spectra/part_int.cpp:ParticleInterp::compute_colden", "fake_spectra/part_int.cpp:ParticleInterp::compute_tau", "fake_spectra/spectra.py:compute_spectra", "fake_spectra/spectra.py:_interpolate_single_file"]}
{"id": "C07", "title": "SPH kernels are non-negative, compactly supported, non-increasing, continuous and of unit mass", "statement": "Each smoothing kernel offered (top hat, cubic, quintic) is non-negative, vanishes outside the smoothing radius, and its integral over the sphere of that radius is one; the cubic and quintic kernels are continuous and non-increasing.", "quantifier": "every real radius", "why_tests_cant": "Piecewise polynomials with hand-expanded coefficients: a wrong coefficient breaks an identity over a continuum.", "anchors": ["fake_spectra/singleabs.h:sph_cubic_kernel", "fake_spectra/singleabs.h:sph_quintic_kernel", "fake_spectra/absorption.cpp:tophat_kern_frac"]}
{"id": "C08", "title": "SPH pixel fractions are a quadrature that is non-negative, bounded and zero off the kernel", "statement": "For the cubic and quintic kernels the fraction of a particle's column assigned to the interval between two points along the sightline is non-negative, at most the interval length times the largest kernel value on the line, zero when the interval misses the kernel support, unaffected by extending the interval beyond the support, and within an eighth of that bound of the exact integral of the kernel. Summed over the pixels of a sightline, the deposited column is the exact column of the kernel to within an eighth of a pixel times the largest kernel value.", "quantifier": "every interval, impact parameter, smoothing length, pixel count and particle position", "why_tests_cant": "Clamping and the conditional end-point term of the trapezium rule interact at the support boundary only.", "anchors": ["fake_spectra/absorption.cpp:sph_cubic_kern_frac", "fake_spectra/absorption.cpp:sph_quintic_kern_frac", "fake_spectra/absorption.cpp:LineAbsorption::add_colden_particle"]}
{"id": "C09", "title": "Voronoi sightline assignment tiles each sightline", "statement": "For moving-mesh snapshots every sample point of a sightline is assigned to a cell at minimal transverse-plus-longitudinal periodic distance among all the cells, and the segments given to the cells tile the sightline: their lengths add up to the box size, and every segment contributes absorption in proportion to its length.", "quantifier": "every set of cells, sightlines and resolution", "why_tests_cant": "The segments are built by a merging loop with a special case for a cell that wraps around the box edge; which branch runs depends on the geometry.", "anchors": ["fake_spectra/index_table.cpp:IndexTable::assign_cells", "fake_spectra/singleabs.h:SingleAbsorber", "fake_spectra/part_int.cpp:ParticleInterp::compute_tau"]}
{"id": "C10", "title": "HDF5 snapshot files are divided over MPI ranks without loss or duplication", "statement": "For every number of files and ranks, each file of the snapshot is read by exactly one rank, ranks differ by at most one file, and every rank can open its snapshot.", "quantifier": "every file count, every communicator size", "why_tests_cant": "Requires all pairs (files, ranks); a CI job runs with one or two ranks.", "anchors": ["fake_spectra/abstractsnapshot.py:HDF5Snapshot._get_all_files"]}
{"id": "C11", "title": "BigFile particles are divided over ranks and segments without loss or duplication", "statement": "For every particle count, rank count and chunk size, reading all segments of all ranks reads every particle exactly once.", "quantifier": "every particle count, communicator size and chunk size", "why_tests_cant": "The rounding that drops particles needs more than 2*256^3 particles per rank: far beyond any unit-test snapshot.", "anchors": ["fake_spectra/abstractsnapshot.py:BigFileSnapshot._segment_to_partlist", "fake_spectra/abstractsnapshot.py:BigFileSnapshot.get_n_segments", "fake_spectra/abstractsnapshot.py:BigFileSnapshot.get_blocklen"]}
{"id": "C12", "title": "Analysis calls do not change each other's results", "statement": "Any sequence of spectrum queries and statistics returns for each query the same value as asking it first on a fresh object: caches are transparent and no statistic modifies the spectra it is computed from.", "quantifier": "every finite sequence of API calls", "why_tests_cant": "Aliasing of cached numpy arrays shows only in particular call orders; tests exercise a few.", "anchors": ["fake_spectra/spectra.py:get_tau", "fake_spectra/spectra.py:get_col_density", "fake_spectra/spectra.py:get_flux_power_1D", "fake_spectra/fluxstatistics.py:flux_power_3d", "fake_spectra/spectra.py:_filter_tau"]}
{"id": "C13", "title": "Saving and re-loading spectra preserves every computed array", "statement": "After save_file, an object loaded from the file answers every query with the array that was computed, and saving a loaded object again loses nothing.", "quantifier": "every set of computed arrays, every interleaving of lazy loads before the second save", "why_tests_cant": "Lazy loading makes the outcome depend on which arrays were touched between load and save.", "anchors": ["fake_spectra/spectra.py:save_file", "fake_spectra/spectra.py:_save_file", "fake_spectra/spectra.py:_save_multihash", "fake_spectra/spectra.py:load_savefile", "fake_spectra/spectra.py:_really_load_array", "fake_spectra/spectra.py:_load_all_multihash"]}
{"id": "C14", "title": "A crash while saving never destroys the previous spectra", "statement": "If the process stops at any point of save_file, a complete copy of the previously saved data exists on disk under the savefile name or its .backup name.", "quantifier": "every crash point, every prior disk state", "why_tests_cant": "Crash points between file-system operations cannot be enumerated by a unit test.", "anchors": ["fake_spectra/spectra.py:save_file"]}
{"id": "C15", "title": "Halo spectra saved to disk can be loaded again", "statement": "After HaloSpectra.save_file the file holds the halo catalogue next to the spectra, so that constructing the object again loads it instead of failing over to regeneration.", "quantifier": "every halo catalogue and prior disk state", "why_tests_cant": "The defect is an ordering of two file operations across a class hierarchy, invisible unless the file content after both is examined.", "anchors": ["fake_spectra/halospectra.py:HaloSpectra.save_file", "fake_spectra/halospectra.py:HaloSpectra.load_savefile", "fake_spectra/spectra.py:save_file"]}
{"id": "C16", "title": "Emission queries are repeatable and per object", "statement": "EmissionSpectra.get_emflux returns the same flux each time it is called with the same arguments, and the result never depends on what other objects computed.", "quantifier": "every sequence of calls over any number of objects", "why_tests_cant": "History property over shared class state and in-place array updates.", "anchors": ["fake_spectra/emission.py:EmissionSpectra.get_emflux", "fake_spectra/emission.py:EmissionSpectra"]}
{"id": "C17", "title": "Replacing non-DLA sightlines keeps exactly the requested number of sightlines, all above threshold", "statement": "When replace_not_DLA returns, it holds exactly the requested number of sightlines, each with total column density above the threshold, with the matching positions; the number discarded is scaled to the sightlines kept.", "quantifier": "every sequence of random sightline batches and every threshold", "why_tests_cant": "The loop runs an unbounded, data-dependent number of batches with partial acceptance in the last one.", "anchors": ["fake_spectra/spectra.py:replace_not_DLA", "fake_spectra/spectra.py:filter_DLA"]}
{"id": "C18", "title": "Constructor argument handling", "statement": "Constructing Spectra with any combination of nbins/res, kernel name and sightline arguments either yields an object with a positive pixel count and a known kernel or raises the documented error type.", "quantifier": "every combination of optional arguments", "why_tests_cant": "Combinations of optional arguments reach code paths (error formatting, attribute setup) no single test exercises.", "anchors": ["fake_spectra/spectra.py:Spectra.__init__"]}
{"id": "C19", "title": "The compiled interpolator validates its arguments before reading memory", "statement": "For every combination of array shapes and dtypes the extension either raises an exception or accesses only elements inside the arrays.", "quantifier": "every combination of shapes and dtypes", "why_tests_cant": "Out-of-bounds reads are silent; the space of shape combinations is unbounded.", "anchors": ["fake_spectra/py_module.cpp:Py_Particle_Interpolation", "fake_spectra/py_module.cpp:Py_near_lines"]}
{"id": "C20", "title": "Mean-flux rescaling converges to the scale factor that matches the observed mean flux", "statement": "For non-negative optical depths, not all zero, and a reachable mean flux, the returned factor is positive, every iterate after the first underestimates the true factor, the iterates increase and on return the last relative change is within tolerance; the iteration terminates.", "quantifier": "every optical depth array, threshold, target mean flux and starting factor, tolerances up to one half", "why_tests_cant": "Convergence is a statement about an unbounded iteration over arbitrary data.", "anchors": ["fake_spectra/py_module.cpp:get_mean_flux_scale", "fake_spectra/fluxstatistics.py:mean_flux", "cextract/mean_flux.c:mean_flux"]}
{"id": "C21", "title": "The flux probability distribution is a normalised histogram", "statement": "For non-negative optical depths with positive scale every pixel falls in exactly one bin, and the density integrates to one.", "quantifier": "every optical depth array and number of bins", "why_tests_cant": "Bin-edge handling (flux exactly 1) and normalisation must hold for every data set.", "anchors": ["fake_spectra/fluxstatistics.py:flux_pdf", "cextract/statistic.c:calc_pdf"]}
{"id": "C22", "title": "Flux power is the average over all the sightlines, each counted once, and non-negative", "statement": "The one-dimensional flux power equals vmax times the mean over sightlines of the single-sightline power, with every sightline entering exactly once whatever the number of sightlines; it is non-negative, does not depend on the order of the sightlines or on cyclic shifts of them, adds up over wave numbers to the variance, and dividing out the window never divides by zero.", "quantifier": "every number of sightlines and pixels", "why_tests_cant": "The batches are computed by integer division; whether they tile the sightlines must hold for all counts, including fewer than ten.", "anchors": ["fake_spectra/fluxstatistics.py:flux_power", "fake_spectra/fluxstatistics.py:_powerspectrum"]}
{"id": "C23", "title": "The column density distribution counts every absorber once", "statement": "Rebinning pixels into absorbers conserves total column density, and every absorber with column density inside the table range is counted in exactly one bin.", "quantifier": "every spectrum, pixel grouping and bin layout", "why_tests_cant": "Remainders of integer division and half-open bin edges.", "anchors": ["fake_spectra/spectra.py:column_density_function", "fake_spectra/spectra.py:_rho_abs"]}
{"id": "C24", "title": "Equivalent width is non-negative, monotone in optical depth and bounded by the spectrum length", "statement": "Equivalent width is zero without absorption, grows with the optical depth and never exceeds the wavelength length of the spectrum.", "quantifier": "every optical depth array", "why_tests_cant": "Order statements over all arrays.", "anchors": ["fake_spectra/spectra.py:equivalent_width"]}
{"id": "C25", "title": "Incidence rates account for discarded sightlines", "statement": "Line density, omega and rho statistics divide by the path length of kept and discarded sightlines, each absorber above threshold counts once, and rates lie between 0 and the value for every pixel or sightline absorbing.", "quantifier": "every selection of sightlines, thresholds and discarded counts", "why_tests_cant": "Ratios of counts depending on the history of sightline replacement.", "anchors": ["fake_spectra/spectra.py:line_density", "fake_spectra/spectra.py:line_density_eq_w", "fake_spectra/spectra.py:_rho_abs", "fake_spectra/spectra.py:omega_abs", "fake_spectra/spectra.py:rho_DLA"]}
{"id": "C26", "title": "Rolling spectra centres the peak and loses nothing", "statement": "get_rolled_spectra returns each spectrum cyclically shifted so that its maximum sits in the middle pixel; shifting by the negative of the returned offsets gives the input back.", "quantifier": "every array with at least one pixel", "why_tests_cant": "Statement about all array lengths, parities and peak positions.", "anchors": ["fake_spectra/spec_utils.py:get_rolled_spectra", "fake_spectra/spec_utils.py:_roll_one_spectra"]}
{"id": "C27", "title": "Threshold filtering of optical depths terminates and caps the spectrum", "statement": "Filtering with a threshold returns for every spectrum, changes only pixels around peaks above the threshold, never raises a pixel, and leaves no pixel above the threshold.", "quantifier": "every spectrum and threshold", "why_tests_cant": "Termination of a data-dependent while loop.", "anchors": ["fake_spectra/spectra.py:_filter_single_tau_complex", "fake_spectra/spectra.py:_filter_tau"]}
{"id": "C28", "title": "Contiguous regions are the maximal runs", "statement": "The regions reported for a condition are disjoint, increasing, cover exactly the pixels where it holds, and are maximal.", "quantifier": "every boolean array", "why_tests_cant": "Edge cases at both array ends and alternating patterns; needs all lengths.", "anchors": ["fake_spectra/haloassigned_spectra.py:contiguous_regions", "fake_spectra/haloassigned_spectra.py:combine_regions"]}
{"id": "C29", "title": "Absorbers are assigned to a halo that contains them", "statement": "An absorber is assigned to a halo only when it lies within that halo's radius, and no strictly nearer halo of those considered contains it.", "quantifier": "every halo catalogue and sightline set", "why_tests_cant": "Selection through masked arrays and argmin over periodic distances.", "anchors": ["fake_spectra/haloassigned_spectra.py:find_nearest_halo", "fake_spectra/haloassigned_spectra.py:assign_to_halo"]}
{"id": "C30", "title": "Projected sightline positions drop exactly the sightline axis", "statement": "get_spectra_proj_pos returns the two transverse coordinates and refuses sightlines that do not all run along one axis.", "quantifier": "every list of axes", "why_tests_cant": "The homogeneity check uses a mean: counterexamples are specific mixtures.", "anchors": ["fake_spectra/spectra.py:get_spectra_proj_pos"]}
{"id": "C31", "title": "Added noise is reproducible per sightline", "statement": "The noise and continuum error of sightline i depend only on its number, its flux and the parameters: computing one sightline alone, or within any batch, or again later, gives the same values, and continuum errors stay within the allowed range.", "quantifier": "every batch, order of calls and prior random state", "why_tests_cant": "History property over global random state.", "anchors": ["fake_spectra/spectra.py:add_noise", "fake_spectra/spectra.py:add_cont_error"]}
{"id": "C32", "title": "Renormalised flux and curvature", "statement": "Renormalisation divides each section by its maximum, so that afterwards the largest flux of every section is one, sections tile the spectrum, and pixels never leave [0,1].", "quantifier": "every flux array and section count", "why_tests_cant": "Section boundaries from integer division.", "anchors": ["fake_spectra/spectra.py:renormalize_flux"]}
{"id": "C33", "title": "Ionisation fractions of the rate network are physical", "statement": "For non-negative rates the neutral hydrogen fraction lies in [0,1], the three helium states are non-negative and add up to the helium abundance, and the electron abundance lies between 0 and the fully ionised value.", "quantifier": "every density, temperature, helium fraction and electron abundance", "why_tests_cant": "Order and sum identities over a continuum of states.", "anchors": ["fake_spectra/rate_network.py:_nH0", "fake_spectra/rate_network.py:_nHe0", "fake_spectra/rate_network.py:_nHep", "fake_spectra/rate_network.py:_nHepp", "fake_spectra/rate_network.py:_nebynh"]}
{"id": "C34", "title": "The equilibrium electron density solver returns a fixed point or an error", "statement": "When the solver returns, the returned electron abundance maps to itself within the tolerance and lies between zero and full ionisation; otherwise it raises (RuntimeError after the iteration limit, AssertionError if the value found fails the final check): it never returns an unconverged value.", "quantifier": "every rate function and starting value", "why_tests_cant": "Unbounded iteration with extrapolation steps.", "anchors": ["fake_spectra/rate_network.py:_fixed_point_helper", "fake_spectra/rate_network.py:fixed_point", "fake_spectra/rate_network.py:get_equilib_ne"]}
{"id": "C35", "title": "Recombination rates are positive at every temperature", "statement": "Every recombination coefficient is strictly positive for every positive temperature.", "quantifier": "every positive temperature", "why_tests_cant": "The interpolation window excludes isolated temperatures, which sampling does not hit.", "anchors": ["fake_spectra/rate_network.py:RecombRatesVerner96", "fake_spectra/rate_network.py:RecombRatesCen92", "fake_spectra/rate_network.py:RecombRatesBadnell"]}
{"id": "C36", "title": "The self-shielded neutral fraction is the equilibrium root in [0,1]", "statement": "For star-forming gas the neutral fraction assigned is the root in [0,1] of the ionisation balance, decreases with the photo-ionisation rate, and gas below the threshold keeps the snapshot value.", "quantifier": "every density, temperature and snapshot", "why_tests_cant": "Branch of a quadratic and in-place masked update, over a continuum.", "anchors": ["fake_spectra/gas_properties.py:_neutral_fraction", "fake_spectra/gas_properties.py:get_reproc_HI", "fake_spectra/gas_properties.py:_photo_rate"]}
{"id": "C37", "title": "Table look-ups stay inside the table and interpolate between its values", "statement": "Every look-up of the pre-computed neutral fraction or ionisation tables is clamped into the tabulated range, and the interpolated value lies between the smallest and largest table values around it.", "quantifier": "every density, temperature and table", "why_tests_cant": "Clamping must hold for all inputs, including exactly at table edges.", "anchors": ["fake_spectra/ratenetworkspectra.py:RateNetworkGas", "fake_spectra/py_module.cpp:Py_interpolate_2d", "fake_spectra/spectra.py:_get_elem_den"]}
{"id": "C38", "title": "An out-of-range table look-up is always reported", "statement": "If any element of a look-up is outside the table, the call raises, whatever the thread interleaving.", "quantifier": "every schedule of the parallel loop", "why_tests_cant": "A data race on the error flag shows only under rare interleavings.", "anchors": ["fake_spectra/py_module.cpp:Py_interpolate_2d"]}
{"id": "C39", "title": "Merging absorption components into systems conserves column density", "statement": "get_systems returns systems whose column densities add up to those of the components, merges exactly components closer than the linking length (periodically), always returns at least one system, and gives the same answer when called again.", "quantifier": "every list of components, linking length and number of calls", "why_tests_cant": "Unbounded merge loop with a periodic special case, and repeated calls on mutable state.", "anchors": ["fake_spectra/voigtfit.py:Profiles.get_systems"]}
{"id": "C40", "title": "The Voigt fitter's bookkeeping is consistent", "statement": "However the optimiser behaves, do_fit ends, and the fit reports one width, one position and one amplitude per component, between one and the number of peaks found, and positions lie in the spectrum.", "quantifier": "every behaviour of the numerical optimiser and every number of peaks", "why_tests_cant": "The loops have several exits; which is taken, and whether one is, depends on the spectrum and the optimiser.", "anchors": ["fake_spectra/voigtfit.py:Profiles.do_fit", "fake_spectra/voigtfit.py:Profiles.voigt_profile"]}
{"id": "C41", "title": "Halo selection keeps isolated halos", "statement": "find_wanted_halos keeps a halo exactly when its mass exceeds the minimum and no more massive selected halo lies within its radius in every coordinate; the most massive halo is always kept, and all returned arrays stay aligned.", "quantifier": "every catalogue", "why_tests_cant": "Double filtering with index composition over arbitrary catalogues.", "anchors": ["fake_spectra/halocat.py:find_wanted_halos", "fake_spectra/halocat.py:is_masked", "fake_spectra/halocat.py:find_all_halos"]}
{"id": "C42", "title": "Group catalogue arrays are complete", "statement": "The catalogue reader returns the concatenation of all files' arrays in file order with exactly the advertised number of rows, or raises; repeated reads return the same.", "quantifier": "every number of files, some without the array", "why_tests_cant": "Files without any group appear only in large catalogues.", "anchors": ["fake_spectra/subfindhdf.py:SubFindHDF5._get_array", "fake_spectra/subfindhdf.py:SubFindHDF5._get_single_file_array"]}
{"id": "C43", "title": "Gridded sightlines form a regular grid inside the box", "statement": "GriddedSpectra places the advertised number of pairwise distinct sightlines, all inside the box, along the requested axis (or all three).", "quantifier": "every grid size, box size and axis argument", "why_tests_cant": "All grid sizes.", "anchors": ["fake_spectra/griddedspectra.py:GriddedSpectra.get_axes_and_cofm"]}
{"id": "C44", "title": "Ion names are parsed to the right ionisation number", "statement": "Every roman numeral from I to MMMCMXCIX is converted to its value, every string with another character is rejected, and the line table keeps one entry per integer wavelength.", "quantifier": "every roman numeral and every string", "why_tests_cant": "Infinite set of strings.", "anchors": ["fake_spectra/line_data.py:roman_to_int", "fake_spectra/line_data.py:read_vpfit", "fake_spectra/line_data.py:parse_line_contents"]}
{"id": "C45", "title": "The stand-alone power spectrum averages and smooths correctly", "statement": "The smoothing used by the C power-spectrum tool preserves constants and never reads outside its array; the zero-frequency entry of the power spectrum is the squared mean.", "quantifier": "every array length and smoothing width", "why_tests_cant": "Padding loops at both ends for all lengths.", "anchors": ["cextract/smooth.c:smooth", "cextract/smooth.c:gaussian_smooth", "cextract/powerspectrum.c:powerspectrum", "cextract/calc_power.c:calc_power_spectra"]}
{"id": "C46", "title": "The stand-alone extractor reads every file of a snapshot exactly once", "statement": "Given the first file of a multi-file snapshot, the extractor reads files 0..n-1, each exactly once, and then stops.", "quantifier": "every number of files", "why_tests_cant": "Needs snapshots with more than ten files.", "anchors": ["cextract/main.cpp:main", "cextract/main.cpp:find_first_hdf_file"]}
{"id": "C47", "title": "The stand-alone extractor accepts only valid sightline tables", "statement": "Every accepted table row has an axis in 1..3 and a position in the box, and any other row stops the program.", "quantifier": "every table", "why_tests_cant": "All rows.", "anchors": ["cextract/init.c:populate_los_table"]}
{"id": "C48", "title": "Unit conversions are consistent and positive", "statement": "Derived units, critical density, Hubble rate and absorption distance are positive for a physical cosmology, and absorption distance scales linearly with box length.", "quantifier": "every cosmology", "why_tests_cant": "Identities over a continuum.", "anchors": ["fake_spectra/unitsystem.py:UnitSystem"]}
{"id": "C49", "title": "The observed line of an ion is a measurable one whenever one exists", "statement": "For every sightline get_observer_tau returns the optical depth of one of the ion's lines; if some line's peak is within the measurable range the chosen line's peak is, otherwise the strongest unsaturated or weakest choice documented is made.", "quantifier": "every set of lines and spectra", "why_tests_cant": "Selection logic over arbitrary sets.", "anchors": ["fake_spectra/spectra.py:get_observer_tau"]}
{"id": "C50", "title": "Mass fractions are never negative and default to primordial", "statement": "get_mass_frac returns one non-negative fraction per selected particle, from the metal array when the snapshot has one; otherwise the primordial value for hydrogen and helium, and for any other element it raises rather than returning a number.", "quantifier": "every snapshot and element", "why_tests_cant": "Fallback through exceptions for each element.", "anchors": ["fake_spectra/spectra.py:get_mass_frac"]}
{"id": "C51", "title": "Mass-weighted quantities are averages", "statement": "The mass-weighted velocity, temperature and density in a pixel is a weighted mean of particle values, lies between their minimum and maximum, is zero where there is no mass, and does not depend on the number of MPI ranks.", "quantifier": "every particle set and number of ranks", "why_tests_cant": "Division of two separately accumulated sums, one of which is reduced over ranks.", "anchors": ["fake_spectra/spectra.py:_get_mass_weight_quantity", "fake_spectra/spectra.py:get_velocity", "fake_spectra/spectra.py:get_temp"]}
{"id": "C52", "title": "Temperature from internal energy", "statement": "Temperatures computed from internal energy and electron abundance are positive, increase with internal energy and decrease with electron abundance, and the three implementations agree up to their constants.", "quantifier": "every energy, electron abundance and helium fraction", "why_tests_cant": "Algebraic identity across three languages/modules.", "anchors": ["fake_spectra/abstractsnapshot.py:get_temp", "fake_spectra/absorption.cpp:compute_temp", "fake_spectra/rate_network.py:_get_temp"]}
{"id": "C53", "title": "Sigma clipping of the b-parameter distribution terminates", "statement": "The clipping loop of get_b_param_dist terminates for every data set, never removes a point within the clipping range, and the points it keeps are all within the range.", "quantifier": "every data set", "why_tests_cant": "Termination and the restoring step over arbitrary data.", "anchors": ["fake_spectra/voigtfit.py:get_b_param_dist"]}
{"id": "C54", "title": "Parallel interpolation over sightlines has no data races", "statement": "When the loop over sightlines runs on several threads, every interleaving of the individual memory accesses produces the array the sequential loop produces, no access is out of bounds and no execution gets stuck.", "quantifier": "every number of threads, every assignment of sightlines to threads, every interleaving of single loads and stores", "why_tests_cant": "The number of interleavings is unbounded and a race shows up in almost none of them.", "anchors": ["fake_spectra/part_int.cpp:ParticleInterp::compute_tau", "fake_spectra/part_int.cpp:ParticleInterp::compute_colden"]}
{"id": "C55", "title": "Spectra follow the particles", "statement": "Absorption depends on position and velocity only through the redshift-space position; moving a particle by a whole number of pixels rotates its spectrum by that number of pixels; moving it by the box leaves the spectrum unchanged; column density is proportional to density.", "quantifier": "every particle, kernel, pixel count and shift", "why_tests_cant": "Tests sample finitely many inputs; the claim is over all of them.", "anchors": ["fake_spectra/absorption.cpp:LineAbsorption::add_tau_particle", "fake_spectra/absorption.cpp:LineAbsorption::add_colden_particle"]}
{"id": "C56", "title": "Every species can be queried", "statement": "A column density or optical depth query for any species returns an array with one entry for each pixel of each sightline.", "quantifier": "every species, snapshot and division into segments", "why_tests_cant": "The failure depends on how many particles lie near the sightlines.", "anchors": ["fake_spectra/spectra.py:compute_spectra", "fake_spectra/spectra.py:_read_particle_data"]}
{"id": "C57", "title": "A sightline's spectrum is built from exactly the particles it crosses", "statement": "The pixels of a sightline are what depositing, one after the other on an empty spectrum, exactly the particles whose periodic transverse distance is below their radius gives, each with that distance and its own position and velocity along the sightline; for the top-hat kernel the total column of a sightline is the sum of density times chord length.", "quantifier": "every box, set of sightlines on any axis and set of particles inside the box with radius below half of it", "why_tests_cant": "Tests check a handful of particles and sightlines.", "anchors": ["fake_spectra/part_int.cpp:ParticleInterp::compute_tau", "fake_spectra/part_int.cpp:ParticleInterp::compute_colden", "fake_spectra/index_table.cpp:IndexTable::get_near_particles"]}
{"id": "C58", "title": "Reading a segment returns that segment's data whatever was read before", "statement": "After any sequence of earlier get_data calls on an HDF5 snapshot, including ones that failed, a call to get_data for a segment that succeeds returns the block of that segment's own file; and it succeeds whenever the file opens and no earlier open failed.", "quantifier": "every list of files, every history of calls, every pattern of open failures", "why_tests_cant": "The reader caches an open file handle; a wrong cache only shows after particular histories.", "anchors": ["fake_spectra/abstractsnapshot.py:HDF5Snapshot.get_data", "fake_spectra/abstractsnapshot.py:HDF5Snapshot.__init__"]}
{"id": "C59", "title": "Blocks can be asked for under either snapshot format's name", "statement": "Every block name is translated to the name used by the snapshot's own format: HDF5 names become their BigFile counterparts on BigFile, BigFile names become their HDF5 counterparts on HDF5, and a name the target format already uses is left unchanged.", "quantifier": "every block name string", "why_tests_cant": "The translation is applied to arbitrary strings and its two directions must agree for every name.", "anchors": ["fake_spectra/abstractsnapshot.py:hdf_to_bigfile_map", "fake_spectra/abstractsnapshot.py:HDF5Snapshot.get_data", "fake_spectra/abstractsnapshot.py:BigFileSnapshot.get_data"]}
{"id": "C60", "title": "The spectrum does not depend on the number of MPI processes reading the snapshot", "statement": "Opening a snapshot with n processes, each reading its own share of files or particles, and reducing, gives the spectrum one process computes from the same snapshot.", "quantifier": "every snapshot, every process count not above the number of files, every listing order of the file system", "why_tests_cant": "The number of processes and the file listing order are unbounded and set by the environment.", "anchors": ["fake_spectra/abstractsnapshot.py:HDF5Snapshot._get_all_files", "fake_spectra/abstractsnapshot.py:BigFileSnapshot._segment_to_partlist", "fake_spectra/spectra.py:Spectra.compute_spectra"]}
{"id": "C61", "title": "Photoionisation and heating rates of the UV background", "statement": "Inside the redshift range of the table every rate is positive and lies between the rates of the two neighbouring rows; outside it the look-up raises ValueError.", "quantifier": "every table with increasing redshifts and positive rates, every redshift", "why_tests_cant": "A continuum of redshifts, including the rows themselves and the ends.", "anchors": ["fake_spectra/rate_network.py:PhotoRates"]}
{"id": "C62", "title": "Density threshold of star formation", "statement": "The physical density above which gas is taken to be star forming is positive and does not depend on the units in which the snapshot is stored.", "quantifier": "every unit system and Hubble parameter", "why_tests_cant": "Identity over a continuum of unit systems.", "anchors": ["fake_spectra/gas_properties.py:_get_rho_thresh"]}
{"id": "C63", "title": "The cooling rate is the sum of its processes", "statement": "The net cooling rate per gram times the mass density is the sum over processes of a positive coefficient times the densities of the particles taking part, minus photoheating; without photoheating gas hotter than the microwave background never gains energy.", "quantifier": "every density, internal energy, helium fraction and choice of tables", "why_tests_cant": "Positivity of fits over a continuum of temperatures, and consistency of units.", "anchors": ["fake_spectra/rate_network.py:get_cooling_rate", "fake_spectra/rate_network.py:CoolingRatesKWH92", "fake_spectra/rate_network.py:CoolingRatesNyx"]}
{"id": "C64", "title": "The two estimates of Omega agree up to binning", "statement": "omega_abs_cddf, the integral over the column density distribution, agrees with omega_abs, the sum over absorbers, within the factor set by the width of the bins.", "quantifier": "all sightlines, column densities and thresholds on bin edges", "why_tests_cant": "a test compares the two for one snapshot; the bound must hold for every distribution of absorbers inside the bins", "anchors": ["fake_spectra/spectra.py:omega_abs_cddf", "fake_spectra/spectra.py:omega_abs"]}
{"id": "C65", "title": "Equivalent width does not depend on where the periodic spectrum is cut", "statement": "Rotating the optical depth of a sightline around the periodic box leaves its equivalent width unchanged.", "quantifier": "all spectra and all shifts", "why_tests_cant": "needs every spectrum and every shift", "anchors": ["fake_spectra/spectra.py:equivalent_width"]}
{"id": "C66", "title": "The equivalent width histogram counts each sightline once", "statement": "eq_width_hist counts every sightline with an equivalent width above the smallest edge exactly once, normalised by path length and bin width.", "quantifier": "all sets of spectra and bin widths", "why_tests_cant": "needs every set of equivalent widths, including those on edges", "anchors": ["fake_spectra/spectra.py:eq_width_hist"]}
{"id": "C67", "title": "Column densities and b parameters of the Voigt fits belong together", "statement": "get_voigt_fit_params returns one column density and one b parameter for each component of all spectra, and entry k of both arrays belongs to the same component.", "quantifier": "every number of spectra and components, every linking length", "why_tests_cant": "Sorting inside get_systems has to keep three arrays in step; lengths differ only when components are merged.", "anchors": ["fake_spectra/voigtfit.py:get_voigt_fit_params", "fake_spectra/voigtfit.py:get_voigt_systems", "fake_spectra/voigtfit.py:_SingleProfileHelper"]}
{"id": "C68", "title": "A reloaded object has the velocity scale and pixels it was saved with", "statement": "Reading back a saved Spectra object gives the sightlines, redshift, Hubble rate, size of the box in km/s, number of pixels and pixel width of the object which was saved.", "quantifier": "every snapshot header, every set of constructor arguments", "why_tests_cant": "Depends on the units of the snapshot, which the tests never change, and on the combination of default arguments.", "anchors": ["fake_spectra/spectra.py:Spectra.__init__", "fake_spectra/spectra.py:_save_file", "fake_spectra/spectra.py:load_savefile"]}
{"id": "C69", "title": "Magnitudes and cosmological distances are consistent", "statement": "A magnitude five larger is a flux exactly 100 times smaller in every band; the flux correction follows the inverse square law and is 1 at ten parsec; the comoving, angular-diameter and luminosity distances of one redshift differ by factors 1+z; the comoving distance lies between z/(1+z) and z(1+z) Hubble distances; and the comoving size of an angle is the angle times the comoving distance.", "quantifier": "every magnitude, known band, redshift >= 0 and flat cosmology with non-negative densities", "why_tests_cant": "The distances come from a quadrature over 1000 points; sampled values cannot bound it for every cosmology and redshift.", "anchors": ["fake_spectra/emission.py:maginJy", "fake_spectra/emission.py:apparentflux", "fake_spectra/emission.py:calculator", "fake_spectra/emission.py:distance"]}
{"id": "C70", "title": "The stellar flux of a sightline is the sum over the stars near it", "statement": "For one snapshot segment, the flux reported for a sightline is the sum of the band fluxes of exactly the stars within the pixel radius of that sightline, whichever other sightlines and stars there are; a segment is skipped only when no star is near any sightline.", "quantifier": "every set of stars and sightlines, band and radius", "why_tests_cant": "Stars are selected twice with index arrays into filtered arrays; errors show only for particular combinations.", "anchors": ["fake_spectra/emission.py:EmissionSpectra._read_stellar_data"]}
{"id": "C71", "title": "Sightlines around halos belong to their halos", "statement": "Sightlines are put through exactly the catalogue halos in the mass range that are not inside a larger one; halo k owns sightlines k*repeat to (k+1)*repeat-1, each within offset virial radii of its centre; the requested pixel width is used; and the halo of a sightline can be looked up.", "quantifier": "every catalogue, mass range, repeat count, offset and random numbers", "why_tests_cant": "Needs all catalogues and all random draws, and exact index arithmetic.", "anchors": ["fake_spectra/halospectra.py:HaloSpectra.__init__", "fake_spectra/halospectra.py:HaloSpectra.get_cofm", "fake_spectra/halospectra.py:HaloSpectra.find_associated_halo"]}
{"id": "C72", "title": "Halos are saved with halo spectra and re-loaded", "statement": "After save_file, constructing the object again finds the same halos and sightlines in the savefile.", "quantifier": "every state of the directory and any number of saves", "why_tests_cant": "A history property over files and their backups.", "anchors": ["fake_spectra/halospectra.py:HaloSpectra.save_file", "fake_spectra/halospectra.py:HaloSpectra.load_savefile", "fake_spectra/halospectra.py:HaloSpectra.__init__"]}
{"id": "C73", "title": "The metallicity of a sightline is metals over hydrogen", "statement": "get_metallicity gives, per sightline, the ratio of summed metals to summed hydrogen in solar units; with a width, that of the pixels within the width of the strongest hydrogen pixel of the periodic sightline, and of the whole sightline when the width exceeds half the box. get_ion_metallicity does the same with one ion and neutral hydrogen.", "quantifier": "every pair of density arrays, pixel size and width", "why_tests_cant": "The window wraps around the box and depends on the position of a maximum; rounding to whole pixels and parity of the number of pixels matter.", "anchors": ["fake_spectra/spectra.py:get_metallicity", "fake_spectra/spectra.py:get_ion_metallicity", "fake_spectra/spec_utils.py:get_rolled_spectra"]}
{"id": "C74", "title": "Smoothing lengths suit the kernel", "statement": "For every snapshot the smoothing lengths handed to the interpolator are positive and suit the kernel the reader reports: for mesh cells the density times the cube of the length is the mass of the cell, for SPH particles the length is half that of the file.", "quantifier": "every content of the snapshot files, every segment and every history of earlier reads", "why_tests_cant": "The kernel is decided from whichever file is open, the lengths from the file of the segment; agreement over all files and histories is not a test on one snapshot.", "anchors": ["fake_spectra/abstractsnapshot.py:HDF5Snapshot.get_smooth_length", "fake_spectra/abstractsnapshot.py:HDF5Snapshot.get_kernel", "fake_spectra/abstractsnapshot.py:BigFileSnapshot.get_kernel"]}
{"id": "C75", "title": "Both snapshot formats give the peculiar velocity", "statement": "Velocities written by either simulation code in its own convention are read back as peculiar velocities, for every expansion factor.", "quantifier": "every array of velocities and every positive expansion factor", "why_tests_cant": "An identity between conventions for all expansion factors.", "anchors": ["fake_spectra/abstractsnapshot.py:AbstractSnapshot.get_peculiar_velocity", "fake_spectra/abstractsnapshot.py:BigFileSnapshot.get_peculiar_velocity"]}
{"id": "C76", "title": "All particles near sightlines are found", "statement": "find_all_particles returns the positions and smoothing lengths of all particles within their smoothing length of some sightline in the periodic box, once each, and of no others, in the same order.", "quantifier": "every division of the particles into segments, every set of sightlines", "why_tests_cant": "Completeness over all geometries and segmentations.", "anchors": ["fake_spectra/spectra.py:Spectra.find_all_particles", "fake_spectra/spectra.py:Spectra._read_particle_data"]}
{"id": "C77", "title": "Opening a snapshot gives a reader or an IOError", "statement": "AbstractSnapshotFactory returns an HDF5 reader if the snapshot is HDF5, otherwise a BigFile reader if it is a BigFile, and otherwise raises IOError.", "quantifier": "every state of the directory", "why_tests_cant": "Ranges over all directory contents and the failures of two libraries.", "anchors": ["fake_spectra/abstractsnapshot.py:AbstractSnapshotFactory", "fake_spectra/abstractsnapshot.py:HDF5Snapshot.__init__"]}
{"id": "C78", "title": "The baryon density is the baryon fraction times the matter density", "statement": "get_omega_baryon gives the fraction of baryons in the simulation times Omega0, between 0 and Omega0, whatever has been read before.", "quantifier": "every content of the files and every history of reads", "why_tests_cant": "A statement over all histories of reads and divisions into files.", "anchors": ["fake_spectra/abstractsnapshot.py:HDF5Snapshot.get_omega_baryon"]}
{"id": "C79", "title": "The 3D flux power is that of all sightlines, by angle to the sightline", "statement": "For a grid of sightlines along all three axes, the 3D flux power is the mean over the axes of the power of the flux contrast placed at the pixels' positions in the box, with mu the cosine of the angle to the sightlines.", "quantifier": "every grid size, number of pixels and set of optical depths", "why_tests_cant": "Which sightline and pixel lands in which mesh cell, and along which axis, must hold for all grid sizes.", "anchors": ["fake_spectra/fluxstatistics.py:flux_power_3d", "fake_spectra/fluxstatistics.py:_3d_powerspectrum", "fake_spectra/griddedspectra.py:get_axes_and_cofm"]}
{"id": "C80", "title": "The curvature of a section is that of its flux", "statement": "compute_curvature gives for each spectrum the mean absolute curvature of its flux against velocity, over the pixels with flux between 0.1 and 0.9; get_curvature gives it for sections renormalised to maximum one and rescaled to the observed mean flux, and does not depend on the continuum.", "quantifier": "every set of spectra, every box, pixel number, section size and redshift", "why_tests_cant": "Numerical derivatives across gaps, the number of values returned and the end of an iteration must hold for every flux; a test looks at one.", "anchors": ["fake_spectra/spectra.py:compute_curvature", "fake_spectra/spectra.py:get_curvature", "fake_spectra/spectra.py:renormalize_flux", "fake_spectra/fluxstatistics.py:obs_mean_tau", "fake_spectra/fluxstatistics.py:mean_flux"]}
{"id": "C81", "title": "The adaptive spline fit ends, with breakpoints that are far enough apart", "statement": "spline_fit ends for every flux; the flux it returns for a sightline is a least squares spline whose breakpoints are at least vel_seg_min apart, and no segment would gain more than chi_min from a breakpoint at its middle unless that made a segment shorter than vel_seg_min.", "quantifier": "every flux, spline routine, threshold and spacing", "why_tests_cant": "The end of an adaptive loop and an invariant of all its passes cannot be tested for every flux.", "anchors": ["fake_spectra/spectra.py:spline_fit"]}
{"id": "C82", "title": "Gas from the rate network is in equilibrium at its own density and energy", "statement": "RateNetworkGas gives for each gas particle of a segment the temperature and neutral fraction of ionisation equilibrium at its density and internal energy (rescaled as asked for), whatever the other particles; with sf_neutral, gas above the density of star formation has 10^4 K and the neutral fraction of cold shielded gas, as with GasProperties. RateNetworkSpectra does this for the cosmology of the snapshot.", "quantifier": "every segment, unit system, redshift and setting", "why_tests_cant": "An interpolation in a table of solved equations has to be right for every particle, and its failures depend on the extremes of a segment; a test sees few.", "anchors": ["fake_spectra/ratenetworkspectra.py:RateNetworkGas.build_interp", "fake_spectra/ratenetworkspectra.py:RateNetworkGas.get_temp", "fake_spectra/ratenetworkspectra.py:RateNetworkGas.get_reproc_HI", "fake_spectra/ratenetworkspectra.py:RateNetworkGas._get_interp", "fake_spectra/ratenetworkspectra.py:RateNetworkGas._get_ienergy_rescaled", "fake_spectra/ratenetworkspectra.py:RateNetworkSpectra.__init__"]}
{"id": "C83", "title": "The width of a peak is fitted to that peak alone", "statement": "The width of a peak found by the Voigt fitter is chosen by comparing the profile with the flux between the nearest deep minima on the two sides of the peak; absorption beyond those minima does not matter, and the comparison has a value for every spectrum.", "quantifier": "every spectrum, peak, profile and width", "why_tests_cant": "Which pixels are compared depends on the positions of all minima of the spectrum; an error by one pixel does not show in the fit of one test spectrum.", "anchors": ["fake_spectra/voigtfit.py:Profiles.fun_min", "fake_spectra/voigtfit.py:Profiles.iterate_new_spectrum"]}
{"id": "C84", "title": "The column density of a component is that of the absorption fitted", "statement": "get_fitted_profile is the sum of the Voigt profiles of the reported components, and the column density reported for a component is the one whose absorption, as the code that makes spectra computes it, is that component's profile; it is positive.", "quantifier": "every line, width, amplitude and position the optimiser may return", "why_tests_cant": "Constants and signs must agree between two programs for all parameters.", "anchors": ["fake_spectra/voigtfit.py:Profiles.get_column_density", "fake_spectra/voigtfit.py:Profiles.get_fitted_profile", "fake_spectra/voigtfit.py:Profiles.__init__", "fake_spectra/absorption.cpp:LineAbsorption"]}
{"id": "C85", "title": "The Gaussian profile is a Gaussian around the position asked for", "statement": "With profile='Gaussian' a component of a given width, position and amplitude is drawn as a Gaussian of that width with a peak of that amplitude in the pixel of the position, periodically, for every pixel width and position.", "quantifier": "every spectrum length, pixel width, width, position and amplitude", "why_tests_cant": "The centre is computed in mixed units, which agree for one pixel width only.", "anchors": ["fake_spectra/voigtfit.py:Profiles.gaussian_profile"]}
{"id": "C86", "title": "The column density function from Voigt fits counts every fitted system once", "statement": "column_density_from_voigt gives in each bin the number of systems fitted in the spectra used, divided by the width of the bin and the path length of those spectra, including their share of discarded ones.", "quantifier": "every table, number of spectra and number of systems", "why_tests_cant": "Bins, boundaries and path lengths have to agree for all tables and numbers of spectra.", "anchors": ["fake_spectra/spectra.py:column_density_from_voigt"]}
{"id": "C87", "title": "The temperature-density relation is that of the snapshot's gas", "statement": "fit_td_rel_plot returns the power law T = T0 Delta^(gamma-1) closest in log T to the gas with overdensity between 1 and 10 and temperature in the forest range; the overdensity does not depend on the snapshot's units, h or redshift; and the printed temperature at mean density is the median of the gas within 5% of the mean.", "quantifier": "every snapshot, unit system, cosmology and redshift", "why_tests_cant": "The result is an optimum over all power laws and has to be invariant under every choice of units.", "anchors": ["fake_spectra/tempdens.py:fit_td_rel_plot", "fake_spectra/tempdens.py:fit_temp_dens_relation", "fake_spectra/tempdens.py:get_temp_meandensity", "fake_spectra/tempdens.py:mean_density"]}
{"id": "C88", "title": "Smoothing to a spectrograph's resolution keeps the mean and the range of the flux", "statement": "res_corr leaves the mean flux unchanged, gives values between the smallest and the largest flux, commutes with shifting the periodic spectrum, has the full width at half maximum asked for, and is the identity at perfect resolution.", "quantifier": "every spectrum, pixel width and resolution", "why_tests_cant": "The filter's radius may exceed the spectrum any number of times, and the properties hold for all real widths.", "anchors": ["fake_spectra/spec_utils.py:res_corr"]}
{"id": "C89", "title": "Plots of a spectrum show it, centred on its peak, and leave the data as it was", "statement": "plot_spectrum and plot_density draw every pixel once, the largest at the origin or the offset asked for and the others at their periodic distance, with every pixel above the threshold inside the limits; plot_den_to_tau draws a line for every pixel above the threshold; and after a plot all queries give the values they gave before.", "quantifier": "every spectrum, pixel width, offset, threshold and cache state", "why_tests_cant": "The plots read views of cached arrays; that none is changed has to hold for all call orders.", "anchors": ["fake_spectra/plot_spectra.py:plot_spectrum", "fake_spectra/plot_spectra.py:plot_density", "fake_spectra/plot_spectra.py:plot_den_to_tau"]}
{"id": "C90", "title": "Statistics of host halos count every host once", "statement": "find_nearby_halos gives for each sightline exactly the halos and subhalos that contain absorption; mass_hist is the normalised distribution of all hosts; get_stellar_mass_function is the number of groups per dex and per volume of the box.", "quantifier": "every catalogue, set of sightlines and bin width", "why_tests_cant": "Bins, hosts and volumes have to agree for all catalogues.", "anchors": ["fake_spectra/haloassigned_spectra.py:find_nearby_halos", "fake_spectra/haloassigned_spectra.py:mass_hist", "fake_spectra/haloassigned_spectra.py:get_stellar_mass_function"]}
{"id": "C91", "title": "Gridded spectra have the grid asked for, or the saved one", "statement": "A GriddedSpectra made from a snapshot has exactly the sightlines of the nspec by nspec grid on the face of the box across the axis (or on the three faces for a negative axis), each once; with reload_file=False it has the sightlines of the savefile; positions given by the user are used with their axes; with reload_file=True, the default, the savefile is loaded if it exists.", "quantifier": "every snapshot, grid size, axis, savefile and choice of pixels", "why_tests_cant": "The grid and the object built from it have to agree for all sizes and headers.", "anchors": ["fake_spectra/griddedspectra.py:GriddedSpectra.__init__", "fake_spectra/griddedspectra.py:get_axes_and_cofm"]}
{"id": "C92", "title": "Line tables do not depend on the objects made before", "statement": "LineData() has the lines of the bundled atom.dat whatever LineData objects were made before in the process; LineData(file) has those of the file; every species read has a mass and no other has one.", "quantifier": "every history of objects, file contents and species", "why_tests_cant": "The table is kept in a module variable, so the result could depend on any earlier call.", "anchors": ["fake_spectra/line_data.py:LineData.__init__", "fake_spectra/line_data.py:get_mass"]}
{"id": "C93", "title": "Column densities through a moving mesh hold for every species and number of processes", "statement": "With the moving-mesh kernel, every cell absorbs along its own part of the sightline only. So the column density of any ion along a sightline lies between the smallest and the largest density of that ion among the cells near the sightlines, times the box, and it does not depend on how many processes share the snapshot.", "quantifier": "All snapshots, sightlines in the box, species and divisions of the cells among processes", "why_tests_cant": "Tests use one process and no moving-mesh snapshot; which cells are left out depends on the metallicity of every cell.", "anchors": ["fake_spectra/spectra.py:Spectra.compute_spectra", "fake_spectra/spectra.py:Spectra._interpolate_single_file", "fake_spectra/spectra.py:Spectra._read_particle_data", "fake_spectra/part_int.cpp:ParticleInterp::assign_cells"]}
{"id": "C94", "title": "Stopping in the wings of a line loses less than the tolerance", "statement": "When the optical depth of a particle falls below the tolerance tautail the interpolator stops following the wing of the line. No pixel within half a box of the particle loses as much as tautail by this.", "quantifier": "every line, temperature, density, smoothing length, position and velocity of a particle, every number of pixels and every tolerance", "why_tests_cant": "A test sees a few particles at the resolution it was written for; the loss depends on the ratio of the width of the particle to that of the line.", "anchors": ["fake_spectra/absorption.cpp:LineAbsorption::add_tau_particle", "fake_spectra/singleabs.h:SingleAbsorber"]}
{"id": "C95", "title": "The optical depth of a particle is its column density times the cross-section", "statement": "Integrated over velocity, the optical depth a particle has in a pixel is the cross-section of the line times the speed of light times the column density that the same particle adds to the column density spectrum.", "quantifier": "every line, kernel, particle and number of pixels", "why_tests_cant": "The integral over all velocities of a line with damping wings cannot be computed by a test, and the agreement has to hold for each kernel and distance of the particle.", "anchors": ["fake_spectra/absorption.cpp:LineAbsorption::add_tau_particle", "fake_spectra/absorption.cpp:LineAbsorption::add_colden_particle", "fake_spectra/singleabs.h:SingleAbsorber"]}
{"id": "C96", "title": "The stand-alone extractor works on the particles of its files", "statement": "The stand-alone extractor computes spectra from exactly the gas particles stored in the snapshot files it is given, in order, with positions, velocities, density, temperature and kernel length converted to its units; a file without gas is skipped, and no memory outside the arrays is read.", "quantifier": "every list of snapshot files and every content of the data sets in them", "why_tests_cant": "Whether uninitialised or stale memory is used depends on which data sets a file lacks and on the files read before it; a test sees one file.", "anchors": ["cextract/read_hdf_snapshot.c:load_hdf5_snapshot", "cextract/read_hdf_snapshot.c:get_single_dataset", "cextract/read_hdf_snapshot.c:get_triple_dataset", "cextract/main.cpp:main", "cextract/init.c:alloc_parts"]}
{"id": "C97", "title": "The stand-alone extractor and the Python interface see the same gas", "statement": "For the same snapshot the stand-alone extractor and the Python interface work with the same position, velocity, kernel length, hydrogen density and temperature of each particle, and with the same conversion from length to velocity.", "quantifier": "every snapshot, cosmology and particle", "why_tests_cant": "Units are converted in different places with different constants; agreement on one snapshot says nothing about other redshifts or cosmologies.", "anchors": ["cextract/main.cpp:main", "cextract/read_hdf_snapshot.c:load_hdf5_header", "fake_spectra/spectra.py:Spectra._read_particle_data", "fake_spectra/unitsystem.py:UnitSystem"]}
{"id": "C98", "title": "Statistics of the stand-alone program are those of the spectra in the file", "statement": "Run on a file of the stand-alone extractor, the program statistic reads exactly the optical depths written, writes the flux distribution and the flux power spectrum of these scaled to the observed mean flux, each independent of the other being asked for, under a name of its own next to the input; if the file is cut short it writes nothing and reports failure.", "quantifier": "every file of spectra, every point at which it is cut short, all options and file names", "why_tests_cant": "The file can be cut at any byte and the result then depends on what the memory held; names and options combine in unboundedly many ways.", "anchors": ["cextract/statistic.c:main", "cextract/statistic.c:output", "cextract/statistic.c:calc_pdf", "cextract/calc_power.c:calc_power_spectra", "cextract/main.cpp:main"]}
{"id": "C99", "title": "The line profile has a value everywhere and is the Voigt function in the damping wings", "statement": "The line profile with which optical depths are computed has a value for every argument: no loop runs on for ever and no table is read past its end. It is symmetric about the centre of the line. In the damping wings (more than 8 thermal widths from the centre, or a damping parameter above 7) it is positive and agrees with the Voigt function, the convolution of a Gaussian and a Lorentzian: up to 4000 widths to a relative error of 5e-12 max(1, 1/a^2) for a damping parameter a, further out to 2e-6, and beyond 1e7 widths to 1e-12. At the centre it agrees to 1e-12 when a > 50.", "quantifier": "every offset from the centre and every damping parameter", "why_tests_cant": "The continued fraction has a number of terms that depends on the argument; a test evaluates it at sample points, and the bound has to hold over an unbounded region. The end of the loops rests on the last element of a table and on the decay of the terms.", "anchors": ["fake_spectra/Faddeeva.cpp:w", "fake_spectra/Faddeeva.cpp:erfcx", "fake_spectra/singleabs.h:profile"]}
{"id": "C100", "title": "Physical constants have their measured values everywhere", "statement": "Every copy of a physical constant, in C++ and in Python, has its measured value; widths and cross sections of lines, distances, Compton cooling and losses by ionisation come out as physics has them; collisions ionise or excite an atom only if the electrons have the energy for it.", "quantifier": "every temperature, redshift, unit system, line and table of rates; cold gas in the limit of temperature zero", "why_tests_cant": "A test compares with numbers made by the same code; an error of a fraction of a per cent, or a threshold of the wrong ion, shows only against independent values, and thresholds only in a limit.", "anchors": ["fake_spectra/unitsystem.py:UnitSystem", "fake_spectra/absorption.cpp:LineAbsorption", "fake_spectra/voigtfit.py:Profiles.__init__", "fake_spectra/rate_network.py:CoolingRatesKWH92", "fake_spectra/rate_network.py:RecombRatesCen92", "fake_spectra/rate_network.py:RecombRatesVerner96"]}
{"id": "C101", "title": "The shipped table has the Lyman series of hydrogen, and every line of it can be asked for", "statement": "For each level of hydrogen from the second to the thirty-second the table of lines shipped with the code has the wavelength, oscillator strength and damping constant of the transition to the ground state, and the line can be asked for.", "quantifier": "all levels in the table, and any file with the same rows for neutral hydrogen among rows for other ions", "why_tests_cant": "A test looks up a line or two; that lines with nearby wavelengths overwrite each other depends on the whole table and the rule for its keys.", "anchors": ["fake_spectra/atom.dat", "fake_spectra/line_data.py:read_vpfit", "fake_spectra/line_data.py:parse_line_contents"]}
{"id": "C102", "title": "The line profile is the Voigt function", "statement": "The line profile with which optical depths are computed agrees with the Voigt function, the convolution of a Gaussian and a Lorentzian, to a relative error of 6e-10, whichever branch of the Faddeeva function gives it, and is positive. Within ten thermal widths of the centre it agrees to 2e-12. The scaled complementary error function it rests on agrees to 1e-12. Without damping it is exp(-u^2).", "quantifier": "every offset from the centre and every damping parameter of at least 1e-100", "why_tests_cant": "A test compares values at sample points with a reference of unknown accuracy; a hundred polynomials, a series with a data-dependent number of terms and a continued fraction have to agree with an integral on an unbounded region.", "anchors": ["fake_spectra/Faddeeva.cpp:w", "fake_spectra/Faddeeva.cpp:erfcx", "fake_spectra/Faddeeva.cpp:erfcx_y100", "fake_spectra/singleabs.h:profile"]}
{"id": "C103", "title": "The optical depth of a particle in a pixel is that of the Voigt profile", "statement": "The optical depth a particle adds to a pixel agrees, to a relative error of 6e-10, with what the same sum gives with the Voigt function in place of the computed line profile; so does its integral over velocity. No optical depth decreases.", "quantifier": "every line, temperature, density, position, velocity and smoothing length of a particle with a damping parameter of at least 1e-100, every kernel, pixel and number of pixels", "why_tests_cant": "The error of the profile has to be bounded at every argument a particle can have before it can be carried through the sums over the particle and the pixel.", "anchors": ["fake_spectra/absorption.cpp:LineAbsorption::add_tau_particle", "fake_spectra/singleabs.h:SingleAbsorber", "fake_spectra/Faddeeva.cpp:w"]}
{"id": "C104", "title": "Floating-point sums do not make spectra depend on files or processes", "statement": "The optical depths and column densities computed for the same particles agree up to a small relative error, known beforehand, however the particles are divided into files and MPI processes and in whatever order the arrays of the processes are added up: the error is at most that of three roundings in double precision per particle, one per file, and one in single precision per file and per process.", "quantifier": "all gas particles with non-negative densities and sizes up to half the box, all smoothing kernels, lines and pixel numbers, all divisions into files and processes, all orders of the reduction, every rounding that is exact to half a unit in the last place", "why_tests_cant": "the error depends on the number and the order of all the additions; a test compares a few runs, and reductions on many processes are not reproducible", "anchors": ["fake_spectra/spectra.py:Spectra.compute_spectra", "fake_spectra/spectra.py:Spectra._interpolate_single_file", "fake_spectra/absorption.cpp:LineAbsorption::add_tau_particle", "fake_spectra/absorption.cpp:LineAbsorption::add_colden_particle", "fake_spectra/part_int.cpp:ParticleInterp::compute_tau", "fake_spectra/part_int.cpp:ParticleInterp::compute_colden"]}
{"id": "C105", "title": "The stand-alone extractor writes the spectra of the snapshot it is given", "statement": "Run with a number of sightlines, the name of a snapshot and an output name, the program extract writes one file, the output name followed by _spectra.dat, which holds redshift, box size and numbers of pixels and sightlines and the optical depths and column densities of all the neutral hydrogen of the snapshot along all the sightlines, in a form the program statistic reads back unchanged; if options are wrong or a file cannot be read it stops with a non-zero exit code and does not touch the output file.", "quantifier": "all lists of options, snapshots of any number of files and particles, tables of sightlines and sequences of random numbers", "why_tests_cant": "the whole program is a loop over files found by editing names, fed by options and tables; there are no tests of it at all", "anchors": ["cextract/main.cpp:main", "cextract/read_hdf_snapshot.c:load_hdf5_header", "cextract/read_hdf_snapshot.c:load_hdf5_snapshot", "cextract/init.c:populate_los_table", "fake_spectra/part_int.cpp:ParticleInterp"]}
{"id": "C106", "title": "Plots of distributions and correlations show each spectrum once", "statement": "The plots of the distribution of metallicities, of the ratio of two metallicities and of equivalent widths are histograms normalised to area one, in which every sightline whose value lies in the plotted range is counted in exactly one bin; the contour plots of correlations count each sightline in exactly one cell of a grid that covers all values, at the coordinates of its own values; the mean temperature plotted for a sightline lies between its lowest and highest temperature; in the plot by halo mass each sightline with a host halo in a class counts towards exactly the bin of its value, as a fraction of all sightlines in that bin, so that fractions of disjoint classes add up to at most one.", "quantifier": "all lists of values of sightlines, numbers and widths of bins, halo catalogues, lists of classes, linear and logarithmic axes", "why_tests_cant": "whether a value on an edge, the extreme values, the first halo or a value of zero is counted depends on exact comparisons; tests of plots compare pictures of one sample", "anchors": ["fake_spectra/plot_spectra.py:PlottingSpectra._plot_metallicity", "fake_spectra/plot_spectra.py:PlottingSpectra.plot_ion_corr", "fake_spectra/plot_spectra.py:PlottingSpectra.plot_temp", "fake_spectra/plot_spectra.py:PlottingSpectra._plot_2d_contour", "fake_spectra/plot_spectra.py:PlottingSpectra.plot_eq_width_vs_col_den", "fake_spectra/haloassigned_spectra.py:HaloAssignedSpectra._plot_breakdown", "fake_spectra/haloassigned_spectra.py:HaloAssignedSpectra._plot_xx_vs_mass"]}
{"id": "C107", "title": "Saving emission spectra keeps what was computed", "statement": "EmissionSpectra.save_file writes the stellar fluxes and everything computed so far; an object made from the file gives for every query answered before the same array, with or without the snapshot, and this stays so through any number of further sessions of opening, asking and saving.", "quantifier": "all simulations whose arrays have more than one element, all query sequences before the first save and in each later session, any number of sessions, sessions with or without the snapshot", "why_tests_cant": "Tests save once and compare a few arrays; the loss shows only after a second save of a lazily loaded object, and depends on which queries each session made.", "anchors": ["fake_spectra/emission.py:EmissionSpectra.save_file", "fake_spectra/spectra.py:Spectra._load_all_multihash", "fake_spectra/spectra.py:Spectra._save_multihash", "fake_spectra/spectra.py:Spectra._really_load_array", "fake_spectra/spectra.py:Spectra.load_savefile"]}
{"id": "C108", "title": "The plots of the rate network show the ratios they name", "statement": "collisplot, simpleplot, neplot, hfracplot and hefracplot draw, at each density and temperature of the plot, the quantity of their title: the neutral fraction with over without collisions, the neutral fraction over the simple formula, the electrons over those of ionised gas, the ratio of neutral to ionised hydrogen and of singly to doubly ionised helium, in ionisation balance.", "quantifier": "every UV background (so every redshift), every tolerance of the solver, every point of the grid; the ratios on any grid of positive densities and energies", "why_tests_cant": "The plots are made for one redshift and looked at by eye; the errors are factors that vary smoothly over the plot.", "anchors": ["fake_spectra/rate_network_plot.py:make_cont_plot", "fake_spectra/rate_network_plot.py:collisplot", "fake_spectra/rate_network_plot.py:simplenh0frac", "fake_spectra/rate_network_plot.py:simpleplot", "fake_spectra/rate_network_plot.py:neplot", "fake_spectra/rate_network_plot.py:hfracplot", "fake_spectra/rate_network_plot.py:hefracplot"]}
{"id": "C109", "title": "The halo catalogue is loaded whole or not at all", "statement": "Making spectra with halos loads the nine arrays of the catalogue, each with the rows of all files, masses in solar masses over h as elsewhere; without a readable catalogue nothing is loaded and the spectra can still be used; velocities of halos and subhalos follow from the loaded masses and radii.", "quantifier": "every catalogue: any number of files, any array missing or damaged, every choice of halos", "why_tests_cant": "Needs every combination of missing, damaged and unreadable files, and a comparison of two loaders over all masses.", "anchors": ["fake_spectra/haloassigned_spectra.py:HaloAssignedSpectra.load_halo", "fake_spectra/haloassigned_spectra.py:HaloAssignedSpectra.virial_vel", "fake_spectra/subfindhdf.py:SubFindHDF5"]}
{"id": "C110", "title": "A snapshot is made of its own files", "statement": "Opening snapshot number NNN reads exactly the files written for that number, from its own directory if there is one and else from the simulation directory, whatever other snapshots lie beside them; with no file of that number there is an IOError.", "quantifier": "every directory and every two snapshot numbers", "why_tests_cant": "Needs all pairs of numbers and all contents of the directory.", "anchors": ["fake_spectra/abstractsnapshot.py:HDF5Snapshot._get_all_files", "fake_spectra/abstractsnapshot.py:BigFileSnapshot.__init__"]}
{"id": "C111", "title": "The header says what was written", "statement": "Numbers of the header come back as they were written, and the number of particles of each type is the number written, however large.", "quantifier": "every number of particles below 2^64 and every way in which the number is stored", "why_tests_cant": "Numbers above 2^32 need huge snapshots, and the answer depends on the version of NumPy.", "anchors": ["fake_spectra/abstractsnapshot.py:AbstractSnapshot.get_header_attr", "fake_spectra/abstractsnapshot.py:HDF5Snapshot.get_npart"]}
{"id": "C112", "title": "The tables of rates are consistent", "statement": "Whichever table of atomic rates the rate network is given, recombination slows and collisional ionisation quickens as the gas gets hotter, the more tightly bound an electron is the more slowly it is removed by collisions, the doubly charged ion of helium recombines faster than the singly charged one, and the tables of Badnell are, as documented, very similar to those of Verner.", "quantifier": "every table name, every positive temperature up to 6e5 K (recombination order) or 1.5e6 K (collisions)", "why_tests_cant": "Each rate is a formula with four to six fitted constants; constants typed under the wrong ion give plausible numbers at every sampled temperature.", "anchors": ["fake_spectra/rate_network.py:RecombRatesCen92", "fake_spectra/rate_network.py:RecombRatesVerner96", "fake_spectra/rate_network.py:RecombRatesBadnell", "fake_spectra/rate_network.py:RateNetwork.__init__"]}
{"id": "C113", "title": "A query is answered with the data of the species and line it names", "statement": "Asking for the column density or the optical depth of an element, an ion and a line gives the spectrum made with the abundance of this element in the gas, its atomic mass, the fraction of it in this ion (with temperatures and densities outside the range of the ionisation table moved to its edge) and the wavelength, oscillator strength and damping constant of this line. For the optical depth of a whole element it is the line of the lowest ion with a line at this wavelength. An element, abundance or line that is not known is refused with an exception and never answered with another one. The switch which turns off self-shielding turns off self-shielding.", "quantifier": "all tables of lines, ionisation tables, objects, elements, ions, lines and snapshots cut into any number of segments", "why_tests_cant": "A test asks for a few species of one snapshot; it cannot try every combination of element, ion and line with every content of the table, the snapshot and the position of the gas relative to the sightlines.", "anchors": ["fake_spectra/spectra.py:Spectra.compute_spectra", "fake_spectra/spectra.py:Spectra._interpolate_single_file", "fake_spectra/spectra.py:Spectra._read_particle_data", "fake_spectra/spectra.py:Spectra._get_elem_den", "fake_spectra/spectra.py:Spectra._do_interpolation_work", "fake_spectra/spectra.py:Spectra.get_tau", "fake_spectra/spectra.py:Spectra.get_col_density", "fake_spectra/line_data.py:LineData.get_mass", "fake_spectra/line_data.py:LineData.__getitem__"]}
{"id": "C114", "title": "Options for the gas reach the object that answers for it", "statement": "An object made with a snapshot computes densities, temperatures and neutral fractions with the options given in gasprop_args or to RateNetworkSpectra. Where the user gives none it uses the redshift, Hubble parameter, units, snapshot and star-formation switch of the spectra, and then the documented defaults. An option that does not exist, or a value that cannot be used, is reported when the object is made.", "quantifier": "every class for gas properties, every dictionary of options, every snapshot and savefile", "why_tests_cant": "A test builds a few objects; the merge of three layers of options, and the errors hidden on the way, must hold for every dictionary and every class a user supplies.", "anchors": ["fake_spectra/spectra.py:Spectra.__init__", "fake_spectra/gas_properties.py:GasProperties.__init__", "fake_spectra/ratenetworkspectra.py:RateNetworkGas.__init__", "fake_spectra/ratenetworkspectra.py:RateNetworkSpectra.__init__", "fake_spectra/rate_network.py:RateNetwork.__init__"]}
{"id": "C115", "title": "Spectra are found again where they were saved", "statement": "After save_file, an object made with the same snapshot number, base directory, savedir and savefile name reads what was saved, the file that was there before is kept with .backup after its name, no other file is touched, and objects for different snapshots or with different savefile names use different files. The default place can be saved to whenever the base directory exists. With absolute directories neither the working directory nor the class of the object changes the place.", "quantifier": "every base directory, savedir and savefile name as character strings, every snapshot number, every working directory and every state of the directories and files", "why_tests_cant": "The default place depends on which directories exist when the object is made, and saving makes one. Paths are joined and cut as strings, so that relative, absolute, empty and slash-terminated ones take different branches.", "anchors": ["fake_spectra/spectra.py:Spectra.__init__", "fake_spectra/spectra.py:Spectra.save_file", "fake_spectra/spectra.py:Spectra.load_savefile", "fake_spectra/halospectra.py:HaloSpectra.__init__"]}
{"id": "C116", "title": "Processes which share a computation never wait for one another in vain", "statement": "When several MPI processes run the same program on spectra objects made with the same arguments, the program ends on all of them whatever the order in which they work: all have been given the same arrays, each the sum of the parts of all processes, or all fail at the same call. A query which cannot be answered ends the program with an error instead of leaving processes waiting.", "quantifier": "every program of queries, recomputations, random draws, new sightlines and saves, whose next call may depend on the arrays returned; every number of processes; every division of the gas between them; every order of their steps", "why_tests_cant": "Whether a process waits for ever depends on the interleaving and on how the gas is divided; a test that hangs gives no answer, and tests run on one process.", "anchors": ["fake_spectra/spectra.py:Spectra.compute_spectra", "fake_spectra/spectra.py:Spectra.get_tau", "fake_spectra/spectra.py:Spectra.get_col_density", "fake_spectra/spectra.py:Spectra.save_file", "fake_spectra/spectra.py:Spectra._really_load_array"]}
{"id": "C117", "title": "Objects which share a savefile return the arrays of their own sightlines", "statement": "Several spectra objects may use one savefile, in one program or in several. In whatever order they are made, asked and saved, an object returns for each query the array of its own simulation and sightlines, as a new object would compute it, or an error. An array which it has returned once it returns again. An array which was in the savefile can still be had from it after any of the objects has saved.", "quantifier": "every history of constructors, queries, saves and failed saves of any number of objects on one savefile, with or without the snapshot", "why_tests_cant": "What an object returns depends on who saved since it was made; the histories are unbounded, and a test runs one of them.", "anchors": ["fake_spectra/spectra.py:Spectra.__init__", "fake_spectra/spectra.py:Spectra.save_file", "fake_spectra/spectra.py:Spectra.load_savefile", "fake_spectra/spectra.py:Spectra._really_load_array", "fake_spectra/spectra.py:Spectra._load_all_multihash", "fake_spectra/spectra.py:Spectra.get_velocity"]}
{"id": "C118", "title": "A savefile may be read and written while others are saving it", "statement": "Several programs may use one savefile at the same time. While one of them is saving, another may make an object from the savefile, ask an object for arrays, or save too, and any of them may die in the middle of its save. Whatever the order, an array that is returned is the right one; an array which an object has returned once it returns again. The arrays of the last save that ended can be read from the savefile or from its backup.", "quantifier": "every history of constructors, queries, and beginnings, failures and ends of saves of any number of objects on one savefile, with deaths at any point", "why_tests_cant": "The outcome depends on how the steps of several processes interleave and on where one of them dies; a test runs one schedule.", "anchors": ["fake_spectra/spectra.py:Spectra.save_file", "fake_spectra/spectra.py:Spectra._save_file", "fake_spectra/spectra.py:Spectra.load_savefile", "fake_spectra/spectra.py:Spectra._really_load_array"]}
{"id": "C119", "title": "The result does not depend on the widths of the integers", "statement": "For every number of sightlines, pixels and particles, the spectra returned by the compiled interpolator are those computed with unbounded integers: every pixel of every sightline is in its own place, and every particle near a sightline is found and read; a size that cannot be handled is an exception.", "quantifier": "All numbers of sightlines, pixels and particles, all positions, radii, velocities and kernels, optical depths and column densities.", "why_tests_cant": "Arrays large enough to overflow a 32 bit integer take tens of gigabytes, so no test makes them, and below the limit nothing is wrong.", "anchors": ["fake_spectra/part_int.cpp:compute_tau", "fake_spectra/part_int.cpp:compute_colden", "fake_spectra/absorption.cpp:add_colden_particle", "fake_spectra/absorption.cpp:add_tau_particle", "fake_spectra/index_table.cpp:get_near_particles", "fake_spectra/py_module.cpp:Py_Particle_Interpolation", "fake_spectra/py_module.cpp:Py_near_lines"]}
{"id": "C120", "title": "The stand-alone extractor computes the spectra of snapshots in Gadget's own format", "statement": "Built with the reader for Gadget's binary format and given a snapshot in it, the program extract writes the spectra of all its gas particles, each counted once with its position, velocity, density, temperature, neutral fraction and half its smoothing length, along all the sightlines; a snapshot that lacks what is needed, or is not there, is reported by a code other than 0 without writing spectra; what is given in HDF5 is treated as before.", "quantifier": "All snapshots, numbers of gas particles and values of the blocks, both ways of storing the electrons, all options, tables of sightlines and random numbers.", "why_tests_cant": "There are no tests of the stand-alone tools, and the statement is about every snapshot and every combination of blocks present.", "anchors": ["cextract/read_snapshot.cpp:load_header", "cextract/read_snapshot.cpp:load_snapshot", "cextract/main.cpp:main"]}
{"id": "C121", "title": "Limits of mesh cells in single precision do not change the spectra", "statement": "The part of a sightline that belongs to a cell of a Voronoi mesh is stored in single precision. Whatever the mesh, the column densities are computed if and only if they would be in exact arithmetic, every cell has the same part of the sightline up to a two millionth of the box, and the total column density of a sightline is right up to a millionth of the box times the densities of the cells near it.", "quantifier": "all meshes, sightlines, boxes and roundings that are exact to half a unit in the last place", "why_tests_cant": "a rounding error only matters at the few sample points where a comparison is close, and for boxes larger than those a test has", "anchors": ["fake_spectra/index_table.cpp:IndexTable::assign_cells", "fake_spectra/part_int.cpp:ParticleInterp::compute_colden"]}
{"id": "C122", "title": "The search in single precision finds every sightline clearly inside the radius", "statement": "Positions and radii of particles are single precision numbers, and so are the limits between which sightlines are searched. Whatever the rounding, every sightline that passes inside the radius of a particle by more than a four millionth of the box is found, across the periodic boundary too, with its exact squared distance. Nothing is found whose squared distance exceeds the squared radius by more than one rounding. The particles returned for a list of sightlines, and the lists of particles used for interpolation, have these properties for every order in which threads finish.", "quantifier": "all boxes, sightlines, particles with radii below half the box by a two millionth of it or more, thread schedules and roundings that are exact to half a unit in the last place", "why_tests_cant": "whether a limit is rounded towards or away from a sightline depends on the last bits of the position and radius", "anchors": ["fake_spectra/index_table.cpp:IndexTable::get_near_lines", "fake_spectra/index_table.cpp:IndexTable::get_nearby", "fake_spectra/index_table.cpp:IndexTable::second_close", "fake_spectra/py_module.cpp:Py_near_lines"]}
{"id": "C123", "title": "Spectra from the search in single precision miss only what is at the edge of particles", "statement": "With near sightlines searched in single precision, the spectrum of a sightline is the deposit, each with its exact distance, of particles it passes through, and of all those it passes through by more than a four millionth of the box. Column densities are in no pixel larger than in exact arithmetic, and what a sightline loses in all is at most the sum, over the particles it grazes by less than that, of density times chord times the kernel at the edge: a tiny fraction for splines.", "quantifier": "all boxes, sightlines, particles with radii of at least a millionth of the box and below half of it by a two millionth or more, numbers of pixels, thread schedules and roundings that are exact to half a unit in the last place", "why_tests_cant": "the particles that are lost depend on the last bits of positions, and the loss must be bounded for all of them", "anchors": ["fake_spectra/part_int.cpp:ParticleInterp::compute_colden", "fake_spectra/part_int.cpp:ParticleInterp::compute_tau", "fake_spectra/index_table.cpp:IndexTable::get_near_particles", "fake_spectra/absorption.cpp:LineAbsorption::add_colden_particle"]}
{"id": "C124", "title": "Rounding the square of the radius hardly changes what a particle adds", "statement": "The square of the radius of a particle is computed in single precision. What a particle adds to the optical depth is nevertheless what it adds in exact arithmetic, or nothing if the sightline is inside its radius by less than one rounding; the optical depth of a sightline is the exact deposit of particles it passes through, and of all those it passes through by more than a four millionth of the box. What a uniform particle adds to the column density of a sightline changes by at most density times a two thousandth of the radius, and the column of a sightline by at most the sum of these and of what is lost in the search. A spline particle adds the column of its kernel, up to an eighth of a pixel times the largest value of the kernel on the sightline and a two thousandth of the radius times the kernel within one rounding of its edge, and the column of a sightline is the sum of these up to what is lost in the search.", "quantifier": "all roundings exact to half a unit in the last place, particles, sightlines, distances inside and outside the radius, numbers of pixels, arrays with any content and thread schedules", "why_tests_cant": "the sightlines concerned differ in the last bits of the distance, and the bound must hold for all of them", "anchors": ["fake_spectra/absorption.cpp:LineAbsorption::add_colden_particle", "fake_spectra/absorption.cpp:LineAbsorption::add_tau_particle", "fake_spectra/singleabs.h:SingleAbsorber", "fake_spectra/part_int.cpp:ParticleInterp::compute_tau", "fake_spectra/part_int.cpp:ParticleInterp::compute_colden"]}
{"id": "C125", "title": "Single precision loses little optical depth in any pixel", "statement": "With near sightlines searched and radii squared in single precision, the optical depth of a pixel is never larger than in exact arithmetic. What is lost is at most the sum, over the particles the sightline passes through by less than a four millionth of the box, of the optical depth at the centre of the line of the density times the chord times the kernel so near to the edge.", "quantifier": "all roundings exact to half a unit in the last place, boxes, sightlines, particles with radii of at least a millionth of the box and below half of it by a two millionth or more, the uniform kernel and both splines, temperatures, velocities, numbers of pixels and thread schedules", "why_tests_cant": "the particles that are lost depend on the last bits of positions, and the loss must be bounded in each pixel for all of them", "anchors": ["fake_spectra/part_int.cpp:ParticleInterp::compute_tau", "fake_spectra/absorption.cpp:LineAbsorption::add_tau_particle", "fake_spectra/singleabs.h:SingleAbsorber", "fake_spectra/index_table.cpp:IndexTable::get_near_particles"]}
{"id": "C126", "title": "Column densities have the accuracy of the single precision of the gas", "statement": "Densities, abundances, ionised fractions and units are converted to single precision before the density of a species is computed. Every pixel of the column density of an element, of neutral hydrogen or of an ion is nevertheless that of exact arithmetic up to ten roundings to single precision, a fraction of less than one in a million, where for an ion the table of fractions is asked for the gas in single precision. The same particles are used. On a Voronoi mesh the computation fails in single precision if and only if it fails in exact arithmetic.", "quantifier": "all roundings exact to half a unit in the last place which keep one, all sightlines, all kernels, segments with gas whose densities, fractions and radii are not negative, numbers of pixels and ionisation tables without negative fractions", "why_tests_cant": "errors accumulate over factors and particles, and the bound must hold for all values in each pixel", "anchors": ["fake_spectra/spectra.py:Spectra._read_particle_data", "fake_spectra/spectra.py:Spectra._interpolate_single_file", "fake_spectra/spectra.py:Spectra.compute_spectra", "fake_spectra/spectra.py:Spectra.get_mass_frac"]}
{"id": "C127", "title": "Mass-weighted temperatures in single precision", "statement": "With the densities, temperatures and their products kept in single precision, the mass-weighted temperature of a pixel differs from that of exact arithmetic by at most twenty-five roundings of its value (25 * 2^-24), so that it is 0 in the same pixels, however many particles and files there are.", "quantifier": "All rounding functions with the relative error of single precision that keep 1, kernels other than the Voronoi mesh, sightlines along coordinate axes, elements, neutral hydrogen and ions with tables that are not negative, positive masses and pixel lengths, numbers of files and gas with densities, fractions and radii that are not negative, on one process.", "why_tests_cant": "Tests compare a few averages with a tolerance; that errors in numerator and denominator do not build up with the number of particles, and that no pixel changes between empty and filled, holds for every snapshot only by proof.", "anchors": ["fake_spectra/spectra.py:_temp_single_file", "fake_spectra/spectra.py:_get_mass_weight_quantity", "fake_spectra/spectra.py:get_temp", "fake_spectra/spectra.py:get_density"]}
{"id": "C128", "title": "Density-weighted densities in single precision", "statement": "With all densities and their products kept in single precision, the density-weighted density of a pixel differs from that of exact arithmetic by at most thirty-six roundings of its value (36 * 2^-24), however many particles and files there are; the query raises an exception in one arithmetic exactly if it raises the same in the other, and never for an element or neutral hydrogen.", "quantifier": "All rounding functions with the relative error of single precision that keep 1, kernels other than the Voronoi mesh, sightlines along coordinate axes, elements, neutral hydrogen and ions with tables that are not negative, positive units, masses and pixel lengths, numbers of files and gas with densities, fractions and radii that are not negative, on one process.", "why_tests_cant": "Tests look at a few averages with a tolerance; whether rounding can change which particles are kept for an ion, and so whether the query fails, depends on every particle of the snapshot.", "anchors": ["fake_spectra/spectra.py:_densweightdens", "fake_spectra/spectra.py:_get_mass_weight_quantity", "fake_spectra/spectra.py:get_dens_weighted_density"]}
{"id": "C129", "title": "Spectra and averages over the gas are handed to the extension in a precision it takes", "statement": "Querying a column density, an optical depth, the mass-weighted temperature, the velocity, the density-weighted density or the light of stars hands the extension, which refuses arrays that are not in single precision, arrays in single precision, whatever numeric types the numbers of the snapshot header have and whichever version of NumPy is installed, so that the query is never a TypeError.", "quantifier": "All types (Python, single and double precision) of the expansion factor, box size and Hubble rate, both NumPy rules for operations on an array and a number, all configurations with sightlines along coordinate axes, all gas and numbers of files.", "why_tests_cant": "Tests run with one version of NumPy and headers of one type; the type of a product follows from every factor in it and from rules that changed with NumPy 2, and no version is asked for by the package.", "anchors": ["fake_spectra/spectra.py:_vel_single_file", "fake_spectra/spectra.py:_temp_single_file", "fake_spectra/spectra.py:_densweightdens", "fake_spectra/py_module.cpp:Py_Particle_Interpolation", "fake_spectra/py_module.cpp:check_float", "fake_spectra/spectra.py:_read_particle_data", "fake_spectra/emission.py:_read_stellar_data"]}
{"id": "C130", "title": "Mass-weighted velocities in single precision", "statement": "With all densities, velocities and their products kept in single precision, each component of the mass-weighted velocity of a pixel differs from that of exact arithmetic by at most twenty-seven roundings (27 * 2^-24) of the mass-weighted speed along that axis in the pixel, however many particles and files there are and however much the velocities cancel.", "quantifier": "All rounding functions with the relative error of single precision that keep 1, kernels other than the Voronoi mesh, sightlines along coordinate axes, elements, neutral hydrogen and ions with tables that are not negative, positive units, masses and pixel lengths, expansion factors, axes, numbers of files and gas with any velocities and with densities, fractions and radii that are not negative, on one process.", "why_tests_cant": "Velocities of opposite sign cancel, so the relative error of the average has no bound and a test with a relative tolerance says nothing; the bound must hold for every distribution of velocities.", "anchors": ["fake_spectra/spectra.py:_vel_single_file", "fake_spectra/spectra.py:_get_mass_weight_quantity", "fake_spectra/spectra.py:get_velocity"]}
