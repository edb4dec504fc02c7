{
 "C01": {
  "note": "Proved for histories without a shrinking resize; the shrinking resize (size not updated) and expansion into a re-used vector are refuted."
 },
 "C02": {
  "note": "Exact characterisation proved; the half-open reading is refuted when a non-null element sits at `last`, and for ranged key/value extraction with first > 0."
 },
 "C07": {
  "note": "Equality proved whenever the model is a multiple of the reference model on the empty pixels of each plane (so also at the reference model); refuted in general."
 },
 "C09": {
  "note": "Bins with 0 < content <= 1e-9 are excluded by the quantifier: there value and gradient disagree (C09_tiny_counts_boundary)."
 },
 "C10": {
  "note": "For every likelihood, derivative and linear-solver answer."
 },
 "C11": {
  "note": "Proved whenever the selected bins hold counts (damped: any return code; undamped: success). Without counts and with damping the reported value is that of the starting point: refuted (C11_violates)."
 },
 "C40": {
  "note": "Refuted: a step that would go negative is replaced and the distance estimate drops the offending component, so the fit reports success at a non-stationary point (C40_violates). The partial theorem says what success does guarantee."
 },
 "C12": {
  "note": "Grids with fewer than two edges are returned unchanged (C12_short_grid)."
 },
 "C13": {
  "note": "Proved for maps computed by the code or read from images with the response matrix of the same setting; refuted for HEALPix tables (offset and check missing) and for changing the setting after construction."
 },
 "C14": {
  "note": "Plain counts: proved for every method, for the npreds, the model map and NpredValue. Weighted counts: proved except for bins borrowing a reference bin in the rescaling method, where it is refuted (C14_weighted_violates)."
 },
 "C34": {
  "note": "Plain npreds agree always; weighted npreds agree under a support condition and are refuted without it."
 },
 "C38": {
  "note": "Log-log quadrature proved; the linear-quadrature setting is ignored by the binned likelihood (C38_linear_quadrature_violates)."
 },
 "C42": {
  "note": "Refuted when the construction-time setting is requested again."
 },
 "C27": {
  "note": "Proved for responses with two or more measured bins; a single measured bin reads out of range (C27_single_bin_violates) and the linear extension can produce negative counts (C27_negative_violates)."
 },
 "C28": {
  "note": "Proved when the first bin has true counts; otherwise the bookkeeping reads element -1 (C28_first_bin_violates)."
 },
 "C43": {
  "note": "Proved without the full dispersion method; refuted with it (C43_violates)."
 },
 "C15": {
  "note": "For every covered history (edisp_val >= 0, a name keeps its template, no deletion of a source between a change of its parameters and the next evaluation)."
 },
 "C16": {
  "note": "Proved when the model was evaluated, or changed by a call that resets the current-model flag, since the last source addition/deletion; refuted after an addition (C16_stale_model_violates)."
 },
 "C17": {
  "note": "Proved for covered histories (see C15). Refuted for deletion of a changed fixed source (residue theorem for every object) and for re-use of a name with another template."
 },
 "C44": {
  "note": "Refuted for every likelihood without fixed sources."
 },
 "C24": {
  "note": "Refuted: the start of the range is ignored, any axis other than the last mixes cells, and a one-dimensional histogram writes outside a vector (three _violates theorems). Proved part: the last of two or more axes, exact characterisation of what is summed; right when the range starts at bin 0."
 },
 "C23": {
  "note": "Constructor, bijection between tuples and cells, lookup, fills (any sequence), slices."
 },
 "C18": {
  "note": "Mirror proved after every successful operation through the model, in any history with exceptions; refuted after a rejected setting of values (C18_violates). optimizers::Function/Parameter contracts are assumptions."
 },
 "C19": {
  "note": "Values by position (all or free), parameters by name, true values, vectors of parameters; values out of bounds are outside the quantifier (see C18_violates)."
 },
 "C45": {
  "note": "Proved on the accepted paths (move, merge then split); refuted for the refusal paths: three general _violates theorems."
 },
 "C25": {
  "note": "accept is complete and is exact without time range cuts (or with one and no GTIs); refuted in general (C25_violates: the loop over time ranges overwrites the GTI test) and for re-reading cuts."
 },
 "C35": {
  "note": "Grid, rejection and start of the time range proved; end of the time range refuted when several GTI cuts end at different times."
 },
 "C20": {
  "note": "Value, number of free parameters and index lookup proved. The gradient is right without ties (C20_gradient_partial) and for untied parameters always (C20_untied_partial). Missing because false of the code: for a group of several members the derivative of the last member alone is returned (C20_tied_violates), the output vector is added to instead of overwritten (C20_output_violates), a fixed group gets a derivative and an index (C20_fixed_group_violates, C20_find_index_violates)."
 },
 "C22": {
  "note": "Accepted ties proved (C22_tie_ok); a rejection at the first index leaves the state unchanged (C22_first_partial); a rejection at a later index loses a free parameter (C22_violates)."
 },
 "C46": {
  "note": "Proved for ties of parameters of equal name and bounds whose free flags agree with those of the sources; without equal names the setting fails (C46_names_violates)."
 },
 "C21": {
  "note": "Number, values, derivatives and setting proved for tidy, disjoint ties; violations proved for findIndex after a fixed group, overlapping ties, fixed groups and re-added components."
 },
 "C32": {
  "note": "C32_best and C32_restored_value hold for histories which do not change the sources and use one choice about priors; C32_source_change_violates (restore right after replacing a source sets the old source's values) and C32_mixed_violates (evaluations with and without priors are compared) show what fails."
 },
 "C37": {
  "note": "C37_value, C37_stale_tracked, C37_fitting. Violated if a parameter of a fully fixed source is changed and only syncParams is called (C37_fixed_source_violates), after an exception with LOGLIKE_CATCH_NEG_PROB (C37_catch_violates), and when a source of the model is moved (C37_move_violates)."
 },
 "C47": {
  "note": "set_ebounds: C47_range, C47_last_wins. unset_ebounds does not restore the exposures (C47_unset_violates); a source added while a range is set has its full exposure (C47_add_violates)."
 },
 "C48": {
  "note": "C48_sum always; C48_shares_partial if all events were read before the sources were added and the history is a fit; C48_read_violates otherwise."
 },
 "C52": {
  "note": "Normalisation proved for both functions. The method integral() is proved to return the integral divided by the break energy, and to use the wrong index when the lower end is exactly at the break (bpl2_break_violates)."
 },
 "C31": {
  "note": "PowerLaw2: cached values along any history of calls are those of the current parameters; value is the normalised power law; derivatives are right; integral() is right for index other than -1 (partial); at -1 it computes 0/0 (violates)."
 },
 "C50": {
  "note": "Proved function by function. Violations: SmoothDoubleBrokenPowerLaw, PLSuperExpCutoff2, Band, BPLExpCutoff, BrokenPowerLaw2 (indices: derivative of the wrong branch at some energies). The partial theorems give the exact domain on which the derivatives are right. A zero prefactor gives 0/0 in the functions that divide by it; the theorems exclude it."
 },
 "C29": {
  "note": "Accepted break energies are strictly increasing (and a spectrum without any break reads past the empty list: C29_no_break_violates). With breaks the value is a power law on every piece, continuous everywhere, with the given indices. Derivatives are proved right when the scale of the parameter is one; for other scales C29_scale_violates shows the index derivatives are off by that factor."
 },
 "C30": {
  "note": "Accepted nodes are strictly increasing; an empty list is undefined behaviour (C30_no_node_violates). With nodes the spectrum passes through every node's flux and is a power law in between and beyond. Node derivatives are right for two nodes or more; with a single node C30_single_node_violates. Index derivatives are right for unit scale only (C30_index_scale_violates)."
 },
 "C53": {
  "note": "The slope used in a fit is right for every setting. Density: right as long as Sigma keeps the value given at construction; wrong afterwards at every argument (m_log_term is never updated). Parameter derivatives: Norm (both), Mean and Offset (GaussianError) are right for unit scales; Mean and Sigma of LogGaussian and Sigma of GaussianError are wrong, scales are never applied."
 },
 "C33": {
  "note": "Dense storage adds and subtracts exactly the planes asked for. Sparse storage agrees when the spectrum is included and the first pixel of the plane after the range is zero (or the range ends with the last plane). Violations: that pixel not zero makes sparse adding write past the vector (C33_boundary_violates); sparse adding without the spectrum throws (C33_nospec_violates); dense adding uses the spectrum as last computed while subtracting uses the one of now, so they cancel only when these agree (C33_restore, C33_restore_violates)."
 },
 "C36": {
  "note": "The map is added to what the vector held: independent of it exactly when that was zero (C36_independent_iff_partial), a second call with the same vector doubles the map (C36_twice_violates). extractModelFromSource clears the vector first and is independent."
 },
 "C54": {
  "note": "Scale factor, band and nests of them: proved for every wrapped spectrum. Attenuation: proved for unit scale of tau_norm and the current model held; the missing scale factor, the unspecified order of evaluation after a change of model, the incomplete assignment and the end points of tabulated spectra are proved as violations. The optical depths and the interpolation are external and arbitrary in the model."
 },
 "C55": {
  "note": "The guard tests with 'and' instead of 'or' and sets the flag before testing: proved as violations; what the guard does ensure is proved."
 },
 "C41": {
  "note": "Proved with compressed data (the default). Without compression the stop indices have a leading zero that the lookup does not expect: the last bin is left out and single bins are shifted, proved as violations. Energy bins without pixels are excluded."
 },
 "C56": {
  "note": "The comparison is exact for normalisation, spectrum kind, all parameters and keys (C56_unchanged_partial, C56_latched). Violations: the kind of the spatial functions is ignored; the free/fixed bits of removed sources are swapped; the accessors for added sources read the bits of removed ones; comparing the whole model misses removed sources."
 },
 "C57": {
  "note": "The choice of the update is exact as long as the types of sources with templates stay the same (C57_action_partial). After any history of updates, additions and removals of the test source the cache holds the fixed part, templates and parameters of the last model, for changes that do not force a rebuild, keep types and scales, keep the normalisations of changed templates positive and exceed the tolerance (C57_history_partial, C57_total). Violations: a rebuild is undefined behaviour, or counts the fixed sources twice; the template of the test source is never updated; the test source is dropped by updates; changes below the tolerance add up without bound; a change of scale, of type, a removed template or a negative normalisation give a wrong cache."
 },
 "C58": {
  "note": "C58_integral gives the integral for every grid as the area of the broken line through the table values times the sine of the angle, over the whole area, with the code's interpolation in energy; C58_normalised, C58_monotone, C58_exposure and C58_angles are the remaining good parts. It fails without exposure at an energy (C58_empty_violates: the integral jumps from 0 to 1 at the last angle), outside the energies (C58_range_violates: value 0 and integral 1 above, an exception below) and for the slope between energies (C58_slope_violates). The bilinear interpolation of value and the averaging over the sky in init (the raw table) are parameters of the model; the root search of containmentRadius is not modelled."
 },
 "C59": {
  "note": "C59_read, C59_set and C59_add hold for every composite whose common sources have the normalisation and the shape parameters; C59_gradient_partial needs the same free shape parameters in the same order in all common sources. Otherwise derivatives are added to the wrong parameter or the behaviour is undefined (C59_gradient_violates), the number of free parameters depends on the addresses of the objects (C59_order_violates), a fixed parameter is changed (C59_fixed_violates), a short vector is read beyond its end (C59_short_violates) and the stored list of all parameters loses normalisations (C59_params_violates). The state left behind by an exception is not modelled."
 },
 "C60": {
  "note": "Fractions are Lebesgue measures of the set of good times (Spec). C60_fraction and C60_load need the good time intervals in order and disjoint; overlapping ones are counted twice (C60_overlap_violates), but the fraction stays within [0,1] (C60_bounds). C60_exposure_partial: the exposure at a point is complete only if the spacecraft data last until the end of the time cuts; otherwise the last spacecraft interval is dropped (C60_last_violates, C60_lost_violates). Not modelled: the effective area, the sky map itself, the skipping of rows by zenith angle inside the fill."
 },
 "C61": {
  "note": "Directions are vectors of a normed space. C61_read_all_partial: only if no interval is longer than 60 s; longer ones are dropped even if they cover the whole selection (C61_long_violates). The check of the order leaves out the first two rows (C61_order_violates). A time within the tolerance before the first interval has no index: the livetime fraction throws and the axis is extrapolated backwards from the last two rows (C61_early_violates). With a single interval there is no axis at any time (C61_single_violates). Equal start times of the last two rows divide by zero (ub in the model). Not modelled: the rounding of the filter expression to ten digits."
 },
 "C62": {
  "note": "In the plane: the specification is the integral of response times shape in polar coordinates around the observer. The quadrature routine is taken as the exact integral and gsl's scaled Bessel function by its integral representation. C62_gauss_partial: the response is cut at six standard deviations beyond the centre (exact if it vanishes there, C62_gauss). On the sphere the flux is below one (C62_sphere_violates)."
 },
 "C63": {
  "note": "C63_nonneg_partial holds within the table only: beyond the last point the profile is extrapolated and becomes negative (C63_beyond_violates). A single point cannot be evaluated (C63_single_violates), two equal angles are accepted and give no number (C63_equal_violates). After the first evaluation the position parameters of a profile have no effect (C63_center_violates), before it the centre is a null pointer (C63_null_violates), an assignment keeps the old centre (C63_assign_violates), the derivative to the normalisation is not that of the value (C63_norm_violates); a moved disk or Gaussian jumps back when any parameter is set (C63_move_violates)."
 },
 "C64": {
  "note": "C64_monotone_partial and C64_fit_partial are for rounds in which no share of an event is cut off: a source with at most one per cent of the density at every event is fitted as if there were no events (C64_faint_violates), which makes the likelihood worse (C64_cut_violates), and a vanishing density is left out of the objective instead of being excluded, so that switching a source off can look better than any fit (C64_zero_violates). With two thousand free parameters the tolerance is negative and the loop does not end; with none it ends with an exception (C64_endless_violates)."
 },
 "C65": {
  "note": "C65_nearest_partial, C65_centre_partial and C65_bounds_partial are for maps that do not close in themselves. On the far edges, which count as inside, the value is zero whatever the pixels (C65_edge_violates), and the plane after the last is read beyond the end (C65_index_violates). C65_around_partial is for coordinates from zero and C65_cylinder_partial for the rows between the first and the last centre: the last pixel of the edge rows (without interpolation: of every row) has the value of the first one (C65_seam_violates), at negative coordinates evaluation throws (C65_negative_violates) or extrapolates to negative values (C65_extrapolates_violates). The projection itself (SkyProj) is not modelled: the position is given in pixel coordinates."
 },
 "C66": {
  "note": "C66_nonneg_partial is for cubes of at least two planes: a map with a single plane has a value at the energy of the plane only, elsewhere a second energy is read beyond the end (C66_single_violates)."
 },
 "C67": {
  "note": "C67_integrals_partial is for maps whose solid angles have not been computed yet, as those read from a file. A map made from a counts map stores them with the indices the other way round: unless it is square the integration reads beyond the end (C67_counts_violates), and if it is, every pixel gets the solid angle of the transposed one (C67_transposed_violates). C67_between_partial is for positive integrals: next to an empty plane there is no number or zero (C67_empty_violates); a map with one plane has no integral at other energies (C67_single_violates)."
 },
 "C68": {
  "note": "C68_average_partial and C68_integral_partial are for blocks with some solid angle: a block outside of the projection has no mean and spoils the map (C68_outside_violates). A map around the whole sky is still taken to close in itself when it covers more than that after rebinning (C68_periodic_violates). C68_integral_partial assumes that the projection assigns to a coarser pixel the sum of the solid angles of its block; the projection is a library."
 },
 "C69": {
  "note": "C69_roundtrip_partial is for square counts maps: for others the construction of the map reads beyond the end (C69_nonsquare_violates). A pixel outside of the projection makes a division of zero by zero (C69_outside_violates). From a map read from a file the counts come out incomplete or rows beyond the last are read (C69_file_violates). For Healpix the counts cannot be recovered at all (C69_healpix_violates)."
 },
 "C70": {
  "note": "The model starts after the convolution with the point-spread function (Gaussian-like, not modelled); its result enters as an arbitrary cube. C70_below_one_violates: for a multiple below one everything is zero without a message. Sums are in real numbers; the program adds floats."
 },
 "C71": {
  "note": "The theorems ending in _partial need at least 20 values in a map: with fewer the progress display divides by zero (C71_small_violates). They are for backgrounds that are not negative. Components of different sizes are read beyond their ends (C71_sizes_violates); a map of alphas that is too short is used without a message (C71_short_violates)."
 },
 "C72": {
  "note": "C72_projected_partial needs that each pixel can be projected onto the map of weights: otherwise the exception is passed on instead of the weight one (C72_projection_violates). C72_range is for maps in a plane projection with the range of energies enforced, as the applications set it; a map as constructed by default is extrapolated beyond its energies to weights above one (C72_extrapolated_violates)."
 },
 "C73": {
  "note": "The theorems ending in _partial are for numbers that survive as text (see C77) and known functions. Uncertainties and switches are not written (C73_errors_violates, C73_flags_violates). The factory knows MultipleBrokenPowerLaw under a name under which it is neither written nor read, so that such a source cannot be read back (C73_multiple_violates, C73_registered_violates). Files of maps and tables are represented by their names; rapidxml and the parameter classes of optimizers are assumed as described in the model."
 },
 "C74": {
  "note": "C74_all_partial is for the three known types of sources; elements of other types are skipped in silence (C74_unknown_violates), a missing position is read as (0,0) (C74_position_violates), a negative number in the name of a parameter is undefined behaviour (C74_negative_violates), and a name clash leaves half of the file in the model (C74_clash_violates). C74_switches and C74_added hold as stated."
 },
 "C75": {
  "note": "C75_updated_partial is for files written from point and diffuse sources of the same kinds and parameters; C75_others holds for every file. Violations: positions within 1e-4 radians are not taken, composite sources throw after half of the file was taken and with a stale parameter list, a different kind dereferences a null pointer, energies of piecewise functions are kept, a missing position moves the source to (0,0)."
 },
 "C76": {
  "note": "The printer is code of the repository; the reader belongs to another package and is modelled as the usual reading of the subset the printer uses. C76_quote_violates needs no reader: two different trees have the same text. C76_roundtrip_partial joins this with C73."
 },
 "C77": {
  "note": "The text is represented by the decimal number it shows and reading by a nearest double, both as relations without assumptions on ties. Subnormal numbers and overflow are excluded. C77_exact_violates: 1 and 1+2^-52 have the same text."
 },
 "C78": {
  "note": "C78_flux_partial bounds the flux for convex falling spectra from both sides; C78_shape_violates: every source is written as if its spectrum fell with the second power of the energy; C78_thrown_violates: an exception gives the flux 1."
 },
 "C79": {
  "note": "C79_use_partial and C79_shared_partial hold for every history of programs that copy only objects without a map, do not rebin and do not delete by address; each of these leads to a released map being used or a wrong map being shown (C79_*_violates)."
 },
 "C80": {
  "note": "Holds for every position except two points 90 degrees from the event, where zero is divided by zero (C80_direction_violates, C80_angle_violates); the angle is right to within the tolerance of 1e-8 radians in the code."
 },
 "C81": {
  "note": "C81_border: the distance limits are those of the border pixels. C81_interior_violates: pixels in the middle of a map around the opposite point are beyond the limit. C81_corners_partial/violates: the limits in angle contain the corners of a map to the east but not of one to the west."
 },
 "C82": {
  "note": "Quadrature exact, bounded measurable products. C82_negative_violates: for a map farther away than the largest separation the limits are in the wrong order and the response is negative."
 },
 "C83": {
  "note": "Image, pieces and reading hold for all sizes. C83_energies_partial needs two energies (one: C83_single_violates, infinite step); C83_centre_partial needs an even number of pixels: with an odd number the map is displaced by half a pixel (C83_centre_violates)."
 },
 "C84": {
  "note": "Linear and exact at the energies of the map for all of them; not negative only within the energies of the map (C84_negative_violates). The integration over the pixels of the source ignores the normalisation of the source (C84_norm_violates), fails for a zero next to a positive sum (C84_zero_violates), and both read outside their arrays for a map with one energy."
 },
 "C85": {
  "note": "proved: energies (exact, within tolerance, error exactly if none), zero or error well outside, agreement of the two functions inside. Violated: in the lower half of a pixel the neighbour's value is found (truncation of pixel-1), half a pixel outside is accepted, the first energy within tolerance is taken, and without enforced boundaries a position outside gives values of the next row or energy."
 },
 "C86": {
  "note": "proved: values of the map, energies without additional bins, means; file round trip for centred, unrotated maps with as many planes as energies. Violated: reference pixel off the middle, rotation, additional energy bins (the size is set before the energies are expanded)."
 },
 "C87": {
  "note": "proved for a lower limit up to 180 and an upper limit from 0 degrees; violated for a negative upper limit, which the cosine turns into its absolute value."
 },
 "C88": {
  "note": "{'note': 'violated: with corrections a range of energies reads and writes out of bounds (all layers are corrected); with progress output a map with less than 20 values divides by zero; a filled output vector is added to; without exposure map the exposures are those of the extended energies, shifted by the number of extra bins; a source up to twice the radius from the nearest pixel counts as inside; a healpix map without convolution holds the solid angle times the exposure. The estimates in the pixels are C89.'}"
 },
 "C89": {
  "note": "violated: maps with one row or column are read out of bounds; for a source at the centre of a pixel the scale is interpolated from one, so distances in neighbouring pixels are wrong; a function that vanishes at the centres of 2x2 parts gives zero; the pixel opposite to the source divides by zero. The separations are inputs."
 },
 "C90": {
  "note": "violated: an odd number of pixels with an odd factor shifts the parts by 1/(2r) of a pixel; a reference pixel up to half a pixel off the centre is treated as centred; for other maps the parts are shifted by (r-1)/(2r) and the last one is left out, so that a column can be empty; a range of energies writes out of bounds; small maps with progress output divide by zero. The convolution is an input."
 },
 "C91": {
  "note": "violated: over the whole sky the brightnesses of the input pixels are added without the ratio of solid angles; the map through a projection has an additional factor (pi/180)^2."
 },
 "C92": {
  "note": "violated: diffuse sources and sources farther than 90 degrees never contribute; the derivatives use a linear rule in energy where the counts use a logarithmic one; a negative derivative is refused as a negative exposure; a second call with the same vector writes no further derivatives but appends; a source with parameters of its position free shifts the entries. Effective areas and flux densities are inputs."
 },
 "C93": {
  "note": "violated: without the weighted table the efficiency is taken at a livetime fraction of one without a message; one response with an effective area below 0.1 makes the whole area zero; two responses with the same number use the contained fraction of the first."
 },
 "C94": {
  "note": "violated for the parameter Prefactor: the separation is passed where a direction is expected and becomes a place on the equator; true for all other parameters, and for Prefactor only at the origin (partial)."
 },
 "C95": {
  "note": "violated: a range outside of the energies gives negative counts within one step and an exception or undefined behaviour farther away; adjacent ranges do not add up; energies in unequal steps (as FitScanner passes them) give wrong exposures even at the energies themselves; the derivative for Prefactor is the quotient also for spectra not proportional to it."
 },
 "C96": {
  "note": "violated: fewer than two points read outside of the vector; the flux of an isotropic source does not depend on its value."
 },
 "C97": {
  "note": "violated: without sources the total has no bins; the sum over the bins is not the number of predicted counts (see C95)."
 },
 "C98": {
  "note": "partial: proved for full maps without a phased exposure map, ordinary use (nothing forced, same source, files can be written, no image given while the map is dropped).  Violated: with a phased exposure map each write-drop-read cycle multiplies the map once more; an image given to a dropped map is lost at the next setSaveModel(true); a failed write lets the map be dropped; a forced drop loses a set image; a map given to another source keeps the old image; a dropped map accepts images of any size; an image given to a sparse map is not used."
 },
 "C99": {
  "note": "proved for full maps and every history; violated for sparse maps: new weights on a dropped map set its counts to zero.  The weighted sums are modelled without extra energy planes (see C07, C09)."
 },
 "C100": {
  "note": "violated: without force the old values are returned after a change of parameters, and no derivatives at all as long as the values are there; proved: forced calls, constant parameters, and the report of changes."
 },
 "C101": {
  "note": "Proved for every history of full maps and every history of sparse maps of one geometry: what is read is the last map followed by the rest of longer maps before (so it is the last map if none before was longer). Violated when a shorter map follows (left-over planes / entries), when a full map replaces a sparse one or vice versa, for sparse maps with extra planes (throws) or a range of planes, for images when all planes replace a part (image not enlarged) and for maps made for a range of planes (undefined behaviour). The file library is modelled by its interface."
 },
 "C102": {
  "note": "Proved that the table is complete and correct up to names beyond 32 characters. Reading is violated for every model: the names of source and parameter are exchanged in the call, and rows of functions other than the spectrum are refused, so every table with a row throws unless sources are named like parameters. Bounds of parameters are not modelled."
 },
 "C103": {
  "note": "Proved that the table is correct. Reading is violated for every number of extra bins: with none two bins are lost, with one the matrix is shifted by one true energy, with two or more the matrix is read out of range (undefined behaviour)."
 },
 "C104": {
  "note": "Reading, one file, several files with the same components, and histories of runs are proved for files whose used keywords come before the unused ones. The clobber option does not compute anything anew, an unused keyword before a used one makes the tool write to the wrong column or the analysis read a wrong one, names are carried from one file of a run to the next, columns with the old separator are accepted and then not found, names that differ in case share a column, and event class 32 shifts out of range. The value of the response integral, the conversion of files without NDIFRSP and energy dispersion are not modelled."
 },
 "C105": {
  "note": "Proved for files all of whose events are in the region of interest; otherwise events are dropped on reading but keep their rows, and the tool fails. An event no source explains gets values that are not numbers, a name that is not in the model gets zeros without an error, names that differ in case only make the tool fail, and a source named like a column of the events replaces the data. The densities themselves are those of C37 and C104."
 },
 "C106": {
  "note": "Proved for an output that is not one of the files; otherwise the file is overwritten before it is read and the result is wrong. If files are refused for size or cut in zenith angle the output has been made already. Overlapping times count twice. The merging of good time intervals and DSS keywords is done by a library and not modelled."
 },
 "C107": {
  "note": "The meaning, the bounds and the restoring of the model are proved for every optimizer; with tsmin=no (the default) other spectral parameters are not fitted, so the value can exceed the likelihood ratio by any amount, and a normalisation set beyond its bound ends gtlike before the fitted model is written."
 },
 "C108": {
  "note": "Proved: after any history of the fit loop, when the last fit and its errors succeed, every free parameter is shown and stored with its own error; a wrong number of errors is refused; the flux error is the square root of g^T C g over all free parameters; the ranges reported are the maximal runs of poor bins if the significances can be computed. Violated: after a failed refit the errors of the fit before are shown, possibly with other parameters; a bin with very many counts (proved from 10^9 on) makes the significance throw, and then no range is reported. Not modelled: the continued fraction gcf, which may return an uninitialised value."
 },
 "C109": {
  "note": "Proved: with a converging optimizer every pixel has the likelihood ratio for the direction the keywords of the image give to it, the reference direction is the middle of the map, and for every optimizer the model is restored up to fitted parameters. Violated: with an optimizer that stops early the values depend on the order of the pixels; if the fit of the background fails its log-likelihood is taken to be zero; pixels where the fit fails have zero, as those without a source. Not modelled: rounding to single precision, source maps."
 },
 "C110": {
  "note": "Proved: the position and value reported are those of the lowest point tried (the last one if several are equal), the output file is the sorted list of all points, the radius is 1.51 sigma for points on a parabola, and with celestial coordinates and reopt=no the model left is that of the position reported. Violated: galactic coordinates are stored as right ascension and declination; a best right ascension beyond 360 degrees ends the run with an exception; the spectrum left is that of the last point, not of the best; a radius that cannot be estimated is reported as zero; toltype is ignored. Not modelled: the simplex method (its points are arbitrary)."
 },
 "C111": {
  "note": "Proved: an exposure map is accepted only if it fits (and always, if both files select in energy and the range of the events is not empty); event types are the bits set in the last mask; with the same number of lists of good time intervals the time check is silent iff they agree, and its sums are the distances of corresponding intervals; the coverage check looks at exactly the border pixels at the first energy and settles the whole map if there are no gaps in its rows. Violated: files without any selection in energy are refused; other numbers of lists of intervals print variables never set; the sums may be zero although the times differ; events and livetime cube of disjoint times only cause a warning; a hole inside the counts map is not noticed. Not modelled: the comparison of selections itself (dataSubselector), comparison through streams (no tool uses it), one-sided ranges."
 },
 "C112": {
  "note": "Continues C97 (energies and counts of the sources) with the events and the file. Proved: the bounds are equal logarithmic steps from emin to emax exactly; every row of the three tables has the values of its bin, for unbinned (with the event counts of C49) and binned analyses; counts that do not depend on how a range is divided add up to those of the whole range (C97_sum_violates shows that those of Source::Npred depend on it); the total is the sum over the sources. Violated: without sources the total is an empty vector; if the energies were not set writeTable removes the old file before it throws. Not modelled: tip (columns are addressed by position), plots."
 },
 "C113": {
  "note": "Proved for sources whose counts can be computed for every range. Violated: a bin just above the energies of the region has a negative rate, one far above ends the run with an exception (with the model of Source::Npred of C95), and then the output is a copy of the input with its counts; correlations of the parameters are ignored; a spectrum with more rows than bins ends with an exception and an output of rates mixed with counts. Not modelled: setup (cuts are those of C111), checksums, the binary form of the column."
 },
 "C114": {
  "note": "Proved for the histories of C17 that end with the likelihood told of the changes, for a model that is positive where there are counts and for the selected bins (all bins if all are selected). Violated: over all bins after a restriction of the energies, and for a zero model in a pixel with counts, the result is not a number; with weights the counts of pixels without weight are attributed to no source; after parameters were changed through the source itself the new counts of the source are divided by the old model."
 },
 "C115": {
  "note": "Exact conditions for a file to be read, and the events that result, are proved (C115_read, C115_files), and that they hold if the response functions are chosen by the selections in a file and all files have the same selection of types (C115_own_partial). Violated: a selection of types that differs from the one of the response functions leads to a null pointer being used, an event of none of the selected types to an undefined conversion, and a failed file leaves part of its events behind."
 },
 "C116": {
  "note": "Merging and splitting do what is expected, are inverse to each other and never lose or double an elementary source, if no name is in use elsewhere and no source map is left over under the name (C116_merge_partial, C116_split_partial, C116_roundtrip_partial, C116_leaves). The full property fails: a call that throws has already removed sources (name in use: C116_taken_violates, C116_split_taken_violates; missing or repeated source: C116_missing_violates; not a composite: C116_split_leaf_violates); the map of a composite that was split stays in the cache and is used for the next source of that name (C116_stale_violates, C116_same_name_violates); with the response cache all point sources in a composite get the response of the first (C116_response_violates, without it C116_flux_partial holds); the derivative in a parameter of the composite's own spectrum is never returned (C116_deriv_violates, C116_deriv_throws_violates)."
 },
 "C117": {
  "note": "Energies and geometry are those asked for, or of the counts map, for both projections. Violations: with own energies the geometry of an irregular counts map (rectangular pixels, reference pixel not in the middle) is changed (C117_geometry_violates); a HEALPix counts map whose number of divisions is not a power of two is refused with own energies (C117_order_violates); a negative number of extra bins is undefined behaviour if everything is from the counts map and none otherwise (C117_negative_violates); gaps between bins are bridged (C117_gap_violates); empty tables and zero bins are undefined behaviour (C117_empty_violates)."
 },
 "C118": {
  "note": "Counts after any sequence of event tables are proved exact for all projections and sensible bins, and no event is counted twice. Roundtrip through a file is proved for bins without gaps; with gaps the bins read back are wider and count events in the gap (C118_gap_violates), files with too few planes are accepted and lead to undefined behaviour (C118_mismatch_violates), CDELT3 is wrong for logarithmic bins (C118_step_violates). The border of withinBounds also cuts energy bins (C118_border_violates). HEALPix maps bin the bin numbers again, so that no event with energies in MeV is counted (C118_hpx_violates). Pixels with a corner off the sky are listed with the default direction (C118_pixel_violates)."
 },
 "C119": {
  "note": "Bins, geometry and counts of the output file are proved for any number of files, and that the tool stops if energies are not selected, files disagree or the output exists. Violations: one energy or an empty file of bins is undefined behaviour (C119_one_violates, C119_empty_violates), the same file of bins means other energies than for gtexpcube2 (C119_units_violates), the extension named by evtable is not the one that is read (C119_table_violates)."
 },
 "C120": {
  "note": "Proved for the first sum and for cubes before it (conventional projection) and for all cubes of HEALPix maps. Violations: the sum is made in place, so that later sums count all bins but the first again (C120_again_violates) and later cubes have sums in their first bin (C120_cube_violates); for HEALPix the sum is the first bin only (C120_hpx_violates); a map given that is too small is undefined behaviour (C120_short_violates)."
 },
 "C121": {
  "note": "Proved for all maps the program makes and for complete files. Violations: the constructor without parameters uses a pointer that was never set (C121_default_violates); two responses with the same number are deleted twice (C121_twice_violates); files with fewer rows than pixels (C121_short_violates), with more (C121_long_violates) or with fewer columns than energies (C121_columns_violates) are undefined behaviour. Single precision and the livetime integrals are not modelled here (see C60)."
 },
 "C122": {
  "note": "Violations: limits of energy ranges (both ends are taken from kmin, so every component gets an empty range), bins of different widths, an energy of zero. Energies of components have to be positive, below 1e32 and equal or more than 1e-5 apart."
 },
 "C123": {
  "note": "Directions that are off the map by more than its width (or above it by more than its height) are undefined behaviour: C123_above_violates, C123_beside_violates; the other theorems are therefore partial."
 },
 "C124": {
  "note": "Proved over all sequences of operations for the priors of parameters (reference values at least 1e-15), and for priors with a covariance when all sources are constrained and free. Violated: only some parameters constrained (every later likelihood fails), fixed sources with the test source in the fit (exception, or the test source taken for a source of the model), a prior for all sources asked for while only one for the current selection exists (null pointer), the prior for all sources after another selection (fails), reference values below 1e-15 (prior dropped). The gradient of priors and rounding are not modelled."
 },
 "C125": {
  "note": "Violated. Proved: the grid; with compressed data and a range of bins the log likelihood of every point without other free sources, and with others that it is the likelihood at some of their normalizations, at least that of the present ones (damped) or 1 below (undamped). Wrong: bins given with end 0 (all bins) leave out the fixed model and the test source, so a scan is flat; full data without other free sources reads a vector that is empty; without upper error the scan ends at 2.5e-4, below the best value; the errors solve x^2/v + b x = delta instead of x^2/(2v) + b x = delta, so that a one sigma error is too small by the square root of two; variances below 1e-10 give no errors. Not proved: that the fit of the others reaches the maximum (see C40). Real numbers instead of floating point."
 },
 "C126": {
  "note": "Proved for two dimensions and kernels with at most as many rows as the image and at most as many columns as its larger side, for maps always; real numbers instead of floating point. Violated: only the rows of a kernel are checked, a wider one is read with the wrong stride; the one dimensional convolution runs around a ring, moves odd numbers of elements by one, and one element is undefined behaviour; a point spread function that is zero in all pixels is divided by zero."
 },
 "C127": {
  "note": "Violations: the test for columns of energies is always true (unsigned comparison), so a column of pixel numbers becomes the image of the first energy; files with fewer rows leave undefined pixels, with more rows are written beyond the end; a map of one energy asked at another reads a second image; rebin passes the side as the order, so the images have two to the power of that side and the map keeps its old number of pixels."
 },
 "C128": {
  "note": "Violations: small values are removed after the scaling, so the total changes by their sum (a bound is proved); a radius beyond the last ring reads rings that do not exist; the result for one energy says that it has all energies but has one image; for maps in nested order the result is in the order of rings but still called nested; the size of pixels in degrees is compared with a radius in radians, so that nearly all maps are computed at twice the side. Missing for the full statement: totals for transforms with negative values are bounded only."
 },
 "C129": {
  "note": "Violations: a pixel at a pole gets a solid angle that is too large by at least one over its size in radians, because one side is written to the wrong variable (C129_pole_violates); pixels in which the sky ends have none (C129_edge_violates); the size of a source is kept once it was asked for, whatever is changed later (C129_size_violates, with C129_size_partial for histories that keep it); the exposure of a moved source is that of the old position even if the update is asked for (C129_exposure_violates, with C129_exposure_partial)."
 },
 "C130": {
  "note": "Violations: the limit meant for normalizations is applied to their logarithms, so that small ones hardly get smaller (C130_slow_violates), and the fit of one bin whose normalization is too large says at once that it has converged (C130_stuck_violates); the diagonal of the covariance is that of the logarithms and the rest is divided instead of multiplied by the normalizations (C130_covar_violates); a start with a zero fails, one with a negative number gives results that are not numbers (C130_zero_violates); convergence in the last step allowed is not noticed (C130_last_violates); the matrix lacks a term, so that steps are Newton steps only near the best normalization (C130_step_partial)."
 },
 "C131": {
  "note": "Proved for exact arithmetic; the decomposition itself (GSL) and the inversion (CLHEP) are taken as correct. Deviations: sizes that are not squares are read beyond the end, the upper half of an asymmetric matrix is ignored, templates that are too short are read beyond the end, and the damping enters the covariance when the Hessian is singular."
 },
 "C132": {
  "note": "C132_layout_partial gives every element of every histogram after a scan. Violations: with a map only, one failed fit makes the scan undefined, since its status is also written into a cube that does not exist (C132_map_only_violates); energies without normalizations are undefined (C132_nnorm_violates); with one likelihood, making the test source again at each position is undefined (C132_remake_violates), with a sum the test source stays in the model if the last fit fails (in C132_layout_partial); a scan of energies alone has maps for all positions (C132_sed_only_violates); the test statistic of an energy bin refers to the first normalization of the scan and for a quadratic log likelihood never exceeds half the square of the number of standard deviations (C132_ts_violates); for small variances it compares the best value with itself (C132_small_violates); the reference energies are in other units than the edges (C132_energies_violates). Read off the code without a theorem: units of the energy table are written as TDIM keywords, and with a standard fitter its map overwrites the primary image. Not modelled: the fits (C11, C40, C125), directions of positions, healpix axes beyond their number."
 },
 "C133": {
  "note": "C133_scan_partial gives every normalization and log likelihood of a scan of one likelihood, C133_bins those of a scan over energies. Violations: the normalization is left at the end of the scan, at least 2.5 (C133_left_violates); the range is given by the uncertainty of the first free parameter whichever it is (C133_error_violates); a parameter whose upper bound is below 2.5 cannot be scanned, and the exception leaves it fixed and the energy bins restricted (C133_bounds_violates); after a scan over energies the range has one bin more than the likelihood (C133_range_violates), so the next evaluation is undefined after any history (C133_reset_violates); in a sum all ranges are empty whatever is asked for (C133_summed_violates), so that the log likelihood is that of the priors alone (C133_flat_violates); an unknown source is a null pointer (C133_unknown). Not modelled: the optimizer, and the errors stored in copies of parameters."
 },
 "C134": {
  "note": "C134_counts_partial and C134_weights_partial: the next value and every later one after histories that start with an evaluation or a choice of the energy range are those of the new data; missing: derivatives asked for first, for which C134_derivs_violates proves a read past the end of the model when the new data fill more pixels, because neither call resets m_modelIsCurrent. C134_recreate: no effect. C134_image_partial: sources with a free parameter at the last evaluation; C134_image_size: other sizes throw. C134_image_fixed_violates: for a source without free parameters the image has no effect on the next value (C134_image_differs_violates shows a case where it should). Phased exposure corrections and maps that are dropped from memory are not modelled."
 },
 "C135": {
  "note": "Partial: named files, fewer than 500 sources, no forced drop of unsaved images, no saving of single planes, computePointSources on. The five _violates theorems show that the program breaks the property outside. Images are abstract values; one file library failure mode (writing fails) is covered in C98."
 },
 "C136": {
  "note": "Proved for rows of at most 60 s and one set of good time intervals (C136_complete_partial, C136_division, C136_kept). Violated otherwise: longer rows are dropped by the filter, runs without event file read unset bounds and never make a cube, further sets of intervals are ignored, rows in two files count twice, ZENMIN is not recorded with zmax = 180, an old cube is deleted before a run that fails."
 },
 "C137": {
  "note": "Proved for histories of setters and changes of members (C137_step, C137_always), for synchronization with unchanged names and freedom (C137_given) and for changes of the model behind the members (C137_behind_partial). Violated: C137_deleted_violates, C137_fixing_violates, C137_freeing_violates, C137_fixed_violates, C137_member_violates."
 },
 "C138": {
  "note": "The projection of the map in the plane is the stereographic one, which is used for sources without a map; with a map it is that of the map."
 },
 "C139": {
  "note": "HEALPix maps rebinned in place are treated in C79; here only WCS maps are rebinned."
 },
 "C140": {
  "note": "Proved for histories that keep the names of test sources and model sources apart; the code violates the property otherwise: choosing another test source deletes the model's source of the old name, a failing choice destroys the current test source, a source can be destroyed twice, a removed source stays the test source, point sources leak. run_tsmap exchanges tolerance type and number of iterations, so with the default type it never makes a map."
 },
 "C141": {
  "note": "Proved for components with the same free sources in the same order, with or without weights. Otherwise violated: with a different number of free sources the code indexes past its vectors, with other names the j-th template of each component is scaled with the normalisation of the j-th source of the first one. What the caches of the components hold is given (C34, C74)."
 },
 "C142": {
  "note": "Partial: C142_value_partial (masses from 2 GeV up to but without 10 TeV, known channels, complete files), C142_gradient_partial (norm, sigmav, and bratio with equal scales). C142_search is the search in general; C142_short, C142_nonneg and C142_flux_unique go with them. Violated: C142_mass_violates (out-of-bounds read below 2 GeV and at 10 TeV), C142_channel_violates (unknown numbers give tau leptons instead of the documented bottom quarks), C142_shared_violates (the last file read serves all functions), C142_share_violates and C142_mass_gradient_violates (derivatives by bratio and mass take the scales of mass and sigmav), C142_low_gradient_violates and C142_high_gradient_violates (derivative by the mass near the ends of the table). The derivative by the mass is a difference quotient in the code; its agreement with the derivative is shown for flat tables only."
 },
 "C143": {
  "note": "False in general: a second object made with a variable whose map was dropped through no_cached_weightmaps dereferences a freed map; setWeightsMap(0) on such an object is ignored; parts of a composite source do not hear of new weights, then use old or freed ones; a map read to a freed address is taken for the old one; AppHelpers deletes a map the library still hands out. Proved for the histories without these."
 },
 "C144": {
  "note": "False in general: a phase map is applied to each part and again to the composite (squared); parts with additional energies for energy dispersion make merging throw; a composite with additional energies has a map that is read past its end; the correction of the old energy-dispersion scheme is lost; parts in full storage are added with the spectrum as last computed. Proved without these, at any depth of nesting."
 },
 "C145": {
  "note": "False in general: negative flux densities make the value not a number; events with flux density below the limit are left out, so a dark source gets a higher value than any that predicts densities below one; after an exception the object reports the old values of a changed source; a stale number of free parameters is accepted and values are read past their end. Proved without these."
 },
 "C146": {
  "note": "False in general: an answer such as 'yes' leaves the stream failed and every later question is answered with yes, so the fit is repeated without end; the same at the end of the input; a capital Y ends the loop. Proved without these."
 },
 "C147": {
  "note": "False in general: energies at or below the lowest use the second band (and fail with a single band); a distribution with more than one level below the smallest angle makes the sampling throw; the sample never reaches the direction of the event, so the response to an isotropic source is below that of the whole sky; with fewer than two sampled points the quadrature reads out of range. Proved: the sample is the sorted list of the quantiles, the band inside the range, the response as a double trapezoid sum that is not negative."
 },
 "C148": {
  "note": "False in general: with save=no an existing results file is emptied and deleted (left empty if an exception comes in between); with clobber=no only the output model is protected, results and spectra are replaced; equal names make one output overwrite the other. Proved: no other file is touched, the refusal, the contents after a regular run, the untouched spectra file with save=no."
 },
 "C149": {
  "note": "False in general: a source called GTI, EBOUNDS, ENERGIES or EVENTS is taken for a table; of two parts with the same name only the first is changed; keywords that the counts map lacks stay as they are in the map; a string that looks like a number is copied as a number. Proved for all other images, with the frame and that a second copy changes nothing."
 },
 "C150": {
  "note": "C150_one_run_partial: after one run all tables are right, for every mask. C150_second_run_violates: histograms of earlier runs are never removed, so that after two successful runs no file with the table of fits can be written (a column exists already). C150_primary_last: the image is nevertheless always that of the last successful run. C150_primary_mask_violates: the primary part is written although the mask excludes it. C150_units_violates: the units of the reference columns are written as TDIM, so none has a unit. The order of the dimensions in TDIM is the subject of the scan property (TsScan)."
 },
 "C151": {
  "note": "C151_run_partial: right for good times in order. C151_start_iff and C151_stop_iff: exactly when each time is right. C151_reversed_violates: two intervals in the other order give a stop before the start. C151_empty_violates: undefined behaviour without good times."
 },
 "C152": {
  "note": "Violated: m_wmap is set to 0 and never assigned, so the weights map is read but the linear scan is done without it (C152_weights_violates); and the status of a failed scan is dropped, so an empty file is written and the program ends normally (C152_failed_violates). Proved: without weights and with a first fit that succeeds the file is complete (C152_file_partial); refusals (C152_refusals)."
 },
 "C153": {
  "note": "Violated: the mask is on by default, so with a weights map the unweighted sums leave out pixels of weight zero and differ from the likelihood by the counts in them (C153_mask_violates), and nll_explict fails if there are data in such a pixel (C153_nll_masked_violates); nll_explict is the logarithm of the likelihood and not its negative (C153_nll_violates). Proved: additivity over sources, the spectrum, agreement where no pixel is excluded (C153_npred_partial) and with weights that are not negative."
 },
 "C154": {
  "note": "Proved as a refinement for all histories; the three ways in which the code falls short are theorems with the suffix _violates."
 },
 "C155": {
  "note": "The rule by which the library healpix puts a cosine in a bin is taken from its documentation and stated in the specification."
 },
 "C156": {
  "note": "The property fails: deleting a source leaves its map in the cache, and the next source of that name gets this image although it is elsewhere (C156_readd_violates); moving a source does not redraw it (C156_move_violates); a scan does not erase the map of a fixed source (C156_remove_violates); for a fixed source the sum of counts and the sum of predicted numbers then differ, and the remade image has the PSF of the old place (C156_sums_violates). Proved for histories without such reuse (C156_images_partial) and, from every state, for the removal and re-adding of a free source as in a scan (C156_replace). Point sources, maps not read from a file."
 },
 "C157": {
  "note": "Proved for two or more energies and up to 46340 angles (C157_energies, C157_angles, C157_table, C157_kept). Fails: the greatest angle is never reached, the last angle being ((n-1)/n)^2 of it (C157_limit_violates); a single energy divides by zero (C157_single_violates); more than 46340 angles overflow an int (C157_many_violates)."
 },
 "C158": {
  "note": "Refuted for names in which .gz is also before the end and for names of one or two characters (C158_compressed_violates, C158_short_violates), and for an empty PASS_VER (C158_version_violates); otherwise proved. What is done with a file that passed is a parameter here (C104)."
 },
 "C159": {
  "note": "Refuted in the cases named (C159_test_name_violates, C159_name_taken_violates, C159_report_kept_violates, C159_none_violates); proved otherwise. The search itself is C110."
 },
 "C160": {
  "note": "Refuted for tables with fewer, more or reordered columns and for the third axis (C160_fewer_violates, C160_more_violates, C160_order_violates, C160_axes_violates); the round trip, the reading of tables that fit and the check of the rows are proved."
 },
 "C161": {
  "note": "Refuted for maps of moved sources, for 500 sources or more and for the input as output (C161_stale_violates, C161_many_violates, C161_input_violates); the other cases are proved."
 },
 "C162": {
  "note": "Refuted for the circle in the map and for maps with projection boundaries (C162_outside_violates, C162_whole_sky_violates); the boundary, the least and largest angles and the bound of half a pixel are proved. Flat maps are used for the geometry only."
 },
 "C163": {
  "note": "Refuted for sources whose exposure fails, for no source and for the unit of the reference energy (C163_stale_violates, C163_zero_violates, C163_never_violates, C163_energy_violates); proved for a last source whose exposure can be computed."
 },
 "C164": {
  "note": "Response and shape proved for every map; the exposure is refuted (C164_exposure_violates). Interpolation is st_facilities code and assumed linear between neighbours."
 },
 "C165": {
  "note": "Images of counts and exposures proved as stated; refuted for keywords that begin with the word, named extensions and exposure images (C165_prefix_violates, C165_behind_violates, C165_sky_violates)."
 },
 "C166": {
  "note": "Proved if counts are expected in every bin; refuted otherwise and for the resolution of the lines (C166_empty_violates, C166_short_violates, C166_fine_violates)."
 },
 "C167": {
  "note": "Point sources and response matrices proved for every history; cubes proved if nothing switched the azimuth off before, and refuted otherwise (C167_forgot_violates, C167_mixed_violates)."
 },
 "C168": {
  "note": "The code breaks the last three claims. deep_copy of a snapshot that only views a source copies all parameters but the normalisation and then claims to own it, so the destructor frees the source's own normalisation (C168_deep_copy_violates, for every source); for snapshots that own their parameters it is right (C168_deep_copy_partial). The class has no copy constructor, so two copies of an owning snapshot free the same parameters (C168_copied_violates). Taking a snapshot again appends the spatial name to the old one, so an unchanged source is reported as changed (C168_relatched_violates)."
 },
 "C169": {
  "note": "The code breaks the claim for composite sources: the one cell of the composite source is passed to all parts, so the response of the first point source is used for all others (C169_first_decides gives the value for every tree, C169_composite_violates the difference); right if all point sources have the same response (C169_same_response_partial). A point source that is moved while it is in the model, as reReadXml does, keeps the response of its old direction (C169_moved_violates)."
 },
 "C170": {
  "note": "C170_weights_partial and C170_chain_partial need at least twenty values per map (the progress loop divides by a twentieth of the size, C71). C170_healpix_violates and C170_healpix_undefined_violates: writing a HEALPix map of weights deletes the table a second time at the end (CountsMapHealpix.cxx:233), so the tool never ends well for such a map. C170_no_inputs_violates: an empty list of inputs makes gtalphabkg use a null pointer. Keywords of cuts and of the projection and the image left open by gtalphabkg (NDSKEYS) are not modelled."
 },
 "C171": {
  "note": "C171_readd_violates: addSource with the map the cache already has for that name deletes it and keeps it, so that the destructor deletes it again. C171_two_names_violates: insertSourceMap does not notice a map that it has under another name. C171_fixed_violates: a map given with a fixed source is taken over by nobody when fixed sources share one map. C171_add_partial excludes that last case. C171_recreate_violates: recreating a map deletes the old one first, so that when the new one cannot be made the cache keeps a dangling pointer, which its destructor deletes again; C171_recreate_partial excludes that. C171_model_counts_partial, C171_model_counts_kept_partial: computing model counts leaves the maps as they were, or adds one per source when all are kept; C171_no_point_maps_violates: a point source without a map is a null pointer there when maps of point sources are not computed. The copy constructor is not modelled."
 },
 "C172": {
  "note": "C172_params_partial is about the function itself: the constructors of the present code give an event one true energy or none, so that several energies are not reached. C172_one_energy_violates: with one energy the parameters do not depend on the response (integral zero). C172_no_energies_violates: for an event made without arguments the bound of the loop wraps around. C172_narrow_violates: a response at a single one of several energies has width zero, and making it again divides by zero. C172_gauss_partial needs a positive width."
 }
}