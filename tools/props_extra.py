p("C39", "Likelihood weights in effect are the ones last requested",
  "After any history of calls on the counts cache, requesting a weight map (or no weights) makes the likelihood use exactly that map (or no weights).",
  "every history of setting counts, setting weights and deleting the original weight map",
  "the failing order (delete the original map, then drop the weights) is rarely exercised",
  ["src/BinnedCountsCache.cxx: setWeightsMap, deleteOriginalWeightMap"])
p("C40", "A Newton fit that reports success is at a stationary point to the requested tolerance",
  "When the normalisation fit returns success, the estimated distance to the maximum it reports is the one of the full Newton step, and the returned point was reached by that step.",
  "every data, templates, start point, tolerance and iteration limit, without damping",
  "depends on steps that would leave the non-negative region, at any iteration",
  ["src/FitUtils.cxx: fitNorms_newton, getDeltaAndCovarAndEDM"])
p("C42", "The energy-dispersion setting in effect is the last one requested",
  "After any sequence of requests to change the energy-dispersion setting of a binned likelihood, source maps made from then on use the last requested setting.",
  "every sequence of settings, every setting given at construction",
  "only sequences that return to the setting given at construction fail",
  ["Likelihood/BinnedLikelihood.h: set_edisp_val, set_edisp_flag", "Likelihood/SourceMapCache.h: set_edisp_val"])
p("C43", "Weighted true counts are the weighted sum of the undispersed map",
  "The weighted true (undispersed) counts spectrum kept for a source is, bin by bin, the sum over pixels of weight times undispersed model counts; with unit weights it equals the unweighted spectrum.",
  "every source map, spectrum, weights map and dispersion setting",
  "only the full dispersion method with several extra bins disagrees",
  ["src/Drm.cxx: Drm_Cache::update", "src/FitUtils.cxx: npred_contribution"])
p("C44", "Changing the energy-dispersion setting leaves the likelihood evaluable",
  "After changing the energy-dispersion setting of a binned likelihood its value can be computed, whatever sources it holds.",
  "every source list, data, response and setting",
  "the failure needs a model with no fixed source, and reads outside a vector rather than failing visibly",
  ["src/BinnedLikelihood.cxx: value, computeModelMap_internal", "Likelihood/BinnedLikelihood.h: set_edisp_val"])
p("C45", "Moving, merging and splitting sources never loses one",
  "Moving a source between models, merging sources into a composite and splitting a composite either succeed with every source accounted for (and splitting undoes merging), or are refused and leave the models as they were.",
  "every pair of models, source names and lists of names",
  "the refusal paths (duplicate or misspelt name, not a composite) are not exercised, and lose sources",
  ["src/SourceModel.cxx: steal_source, give_source, mergeSources, splitCompositeSource", "src/CompositeSource.cxx: steal_source, give_source"])
p("C46", "Free parameters of a summed likelihood read back as set, in every component",
  "Setting the free parameters of a summed likelihood to values within their bounds succeeds; the values then read are the ones set, every tied parameter has its group's value, nothing else changes, and every component holds the same parameters.",
  "every number of components, sources, parameters, tie groups and values",
  "depends on the pattern of free, fixed and tied parameters and on which parameters were tied",
  ["src/SummedLikelihood.cxx: setFreeParamValues, syncParams, getFreeParams, tieParameters"])
p("C47", "A restricted energy range takes effect on events and predicted counts alike",
  "After set_ebounds(emin, emax) on an unbinned likelihood the value is the sum over the events in that range minus the counts predicted for that range, whatever was called before; a later call replaces it, and unset_ebounds returns to the full range.",
  "every history, source list, event list and range",
  "failing orders (unset after set, source added while set) give plausible numbers",
  ["src/LogLike.cxx: set_ebounds, unset_ebounds, update_npreds, value"])
p("C48", "The shares of the sources in an event add up to one",
  "After an evaluation of an unbinned likelihood the model sum kept with an event is the density of the current model there, so that the fractions attributed to the sources (as in EventContainer::nobs) add up to one.",
  "every history of source, parameter and event operations",
  "the kept sums are updated incrementally along the history",
  ["src/LogLike.cxx: logSourceModel, addSource, deleteSource, getEvents", "src/Event.cxx: updateModelSum, deleteSource", "src/EventContainer.cxx: nobs"])
p("C49", "Events are counted once, in the energy bin that contains them",
  "EventContainer::nobs with increasing energy bounds returns one number per bin; each event within the bounds is counted in exactly one bin (closed below, open above, the last one closed above too), events outside in none; after an evaluation the numbers attributed to the sources add up to the number of events, bin by bin.",
  "every event list, increasing list of bounds and history of the likelihood",
  "boundary energies and the running model sums must agree for all inputs",
  ["src/EventContainer.cxx: nobs", "src/LogLike.cxx: logSourceModel"])
p("C50", "Reported derivatives of the spectral functions are the true ones",
  "For every spectral function with a closed form, the derivative reported for a free parameter is the partial derivative of the value with respect to the parameter as a fit sees it (value before the scale factor is applied), at every energy and for every parameter setting in the function's domain.",
  "every spectral function, parameter, setting, scale factor and energy",
  "errors show only in corners: scale factors other than one, values beyond an internal bound, a degenerate order of indices, a zero prefactor",
  ["src/LogParabola.cxx", "src/BandFunction.cxx", "src/ExpCutoff.cxx", "src/BrokenPowerLawExpCutoff.cxx", "src/ExpCutoffSEDPeak.cxx", "src/LogNormal.cxx", "src/SmoothBrokenPowerLaw.cxx", "src/SmoothDoubleBrokenPowerLaw.cxx", "src/PowerLawSuperExpCutoff.cxx", "src/PowerLawSuperExpCutoff2.cxx", "src/PowerLawSuperExpCutoff3.cxx", "src/PowerLawSuperExpCutoff4.cxx", "src/BrokenPowerLaw2.cxx", "src/BrokenPowerLaw3.cxx: value, derivByParamImp"])
p("C51", "Spectra defined by pieces have no jumps",
  "A spectral function defined by different formulas in different energy ranges is continuous in energy, in particular at the energies where the formula changes.",
  "every parameter setting, every energy",
  "a jump at a single energy, or a tiny jump, is invisible to tests at sample points",
  ["src/BrokenPowerLawExpCutoff.cxx: value", "src/ExpCutoff.cxx: value", "src/BandFunction.cxx: value", "src/PowerLawSuperExpCutoff4.cxx: value", "src/BrokenPowerLaw2.cxx: value", "src/BrokenPowerLaw3.cxx: value"])
p("C52", "Integrated-flux parameters and the integral method equal the integral of the spectrum",
  "The integral of BrokenPowerLaw2 over its energy limits is its Integral parameter (BrokenPowerLaw3: each of its two fluxes over its own limits, when the break lies beyond them), and the method integral(emin, emax) returns the integral of value over that range.",
  "every parameter setting and energy range",
  "tests compare single numbers; a wrong factor or a wrong branch at one limit depends on the break energy",
  ["src/BrokenPowerLaw2.cxx: N0_value, value, integral", "src/BrokenPowerLaw3.cxx: N0_value, x0_value, value, integral"])
p("C53", "Gaussian priors are normalised and their slopes are right",
  "The log-Gaussian prior is (Norm times) the logarithm of the normal density with its current Mean and Sigma; the slope used in a fit is the derivative of the prior with respect to the constrained parameter; derivatives with respect to the prior's own parameters are the true ones.",
  "every mean, width, norm, scale and argument",
  "each wrong formula agrees with the right one at special arguments (x = 0, x = mean, unit scale)",
  ["src/LogGaussian.cxx", "src/GaussianError.cxx: value, derivByParamImp, derivative"])

p("C54","Wrapping a spectrum keeps values and derivatives right",
  "A spectrum multiplied by a scale factor, restricted to an energy band or attenuated by the extragalactic background light reports, for every parameter, the partial derivative of its own value; nests of wrappers do too; the value does not depend on earlier settings of the object; an assigned object has the values of the original; a tabulated spectrum reports value and derivative at the same energies.",
  "every wrapped spectrum whose own derivatives are right, every parameter setting, energy, nesting depth and evaluation order",
  "the wrapped spectrum is arbitrary; the errors need a scale factor other than one, a change of model between two calls or an assignment",
  ["src/ScaleFactor.cxx: value, derivByParamImp, operator=","src/EnergyBand.cxx: value, derivByParamImp","src/EblAtten.cxx: value, derivByParamImp, attenuation","src/FileFunction.cxx: value, derivByParamImp"])
p("C55","The complement form of the scale factor is only used with factors between zero and one",
  "Asking a scale factor to multiply by one minus its parameter is accepted only if the parameter is bounded by zero and one with unit scale, and a refused request changes nothing.",
  "every value, pair of bounds and scale of the parameter",
  "the guard must hold for all bounds; a test tries one refused and one accepted pair",
  ["src/ScaleFactor.cxx: check_complement_usage, prefactor","Likelihood/ScaleFactor.h: set_complement_flag"])

p("C41","A scan in an energy bin uses exactly the pixels of that bin",
  "When the scan tool is set to a range of energy bins, every fit and likelihood uses exactly the data and model pixels of these bins, with or without the compression of empty pixels; set to all bins it uses all pixels; the model counts reported by energy bin are the sums of the model over the pixels of the bin.",
  "every number of energy bins, any number of pixels in each, all data and models, every range of bins",
  "the boundaries are computed by partial sums over layers of different sizes, twice, with different conventions; a test on one cube with compression does not see the other",
  ["src/FitScanner.cxx: setEnergyBins, setEnergyBin, setEnergyBinStopIdxs, reduceModels, setCache, fillModelCounts","src/FitUtils.cxx: extractNonZeroBins, sparsifyModel"])
p("C56","A snapshot of the model reports exactly what has changed",
  "Comparing a model with an earlier snapshot reports a source as changed exactly if its normalisation, its spectrum, its position or its spatial distribution differ beyond the tolerance; removed and added sources are reported as such, with their free or fixed status.",
  "every pair of models, all parameter names, values, priors and functions, every list of latched sources",
  "the comparison walks maps of arbitrary sources and parameters; each kind of change has its own bit",
  ["src/Snapshot.cxx: Snapshot_Source::compare, compare_norm, compare_pars, Snapshot::compare_source, compare_model, compare_latched","Likelihood/Snapshot.h: Snapshot_Status"])
p("C57","Updating a scan brings it in line with the model",
  "After the update of a scan cache, the model it scans is that of the likelihood: whatever changed since the snapshot, the templates, the fixed part and the scale factors are those of the present sources.",
  "every earlier and present model, every set of templates, every history of updates",
  "the update acts on the difference of two models; which parts are recomputed depends on the combination of all changes",
  ["src/FitScanner.cxx: update_with_action, find_action_needed, setCache, refactorModel, build_from_model, update_fixed_from_model, update_free_from_model, refactor_from_model","src/FitUtils.cxx: extractModels, extractFixedModel"])
p("C58","The mean point-spread function integrates to the fraction of the light inside a cone",
  "The integral of the exposure-averaged point-spread function up to an angle is the area under its profile (times the sine of the angle) up to there divided by the whole area, interpolated in energy between the tabulated energies; it is continuous, grows with the angle from zero to one, and so every containment has a radius; the result does not depend on the size of a positive exposure; value, integral and slope describe the same function.",
  "every grid of angles and energies, every table of non-negative values, every exposure",
  "the partial sums, the normalisation and the interpolation meet at every grid point; a wrong index shows only in some cells of the grid",
  ["src/MeanPsf.cxx: init, createLogArray, computePartialIntegrals, integral, operator(), derivative, containmentRadius"])
p("C59","A composite that ties the shape of a source fits the tied parameters",
  "In a composite of likelihoods in which one source of each shares its spectral shape, the vector of free parameters has one entry for each free parameter of the other sources, for each shared shape parameter and for each free normalisation; setting it changes exactly the parameters it stands for, the shared ones in all components, and reading gives the values back; the gradient has the same order and each entry is the sum over all parameters driven; all common sources are of the same type.",
  "every number of components, sources and parameters, every pattern of free parameters, every order of additions",
  "the loops of reading, counting, setting and differentiating must agree for every pattern of free parameters; tests tie two identical components",
  ["src/CompositeLikelihood.cxx: addComponent, getFreeParams, setFreeParamValues, getNumFreeParams, getFreeDerivs, syncParams, fetchParamValues"])
p("C60","Livetime and exposure are accumulated for exactly the good time",
  "The livetime of every spacecraft interval is counted with the fraction of the interval that passes all time cuts and lies in a good time interval; the livetime cube gets the sum over all spacecraft intervals, in whatever way it weighs directions, although intervals outside are skipped; the exposure at a point is the sum over all spacecraft intervals.",
  "every list of time cuts, of good time intervals and of spacecraft intervals",
  "the good time intervals are found by two binary searches and adjusted iterators, the rows by a third and an early end of the loop; a boundary error loses one interval in a year of data",
  ["src/LikeExposure.cxx: acceptInterval, overlaps, overlap, load","src/PointSource.cxx: computeExposure","src/ScData.cxx: time_index"])
p("C61","The pointing history gives the attitude at every time",
  "Every spacecraft interval that overlaps the selected times is read, in order; at every time of the history the axes of the spacecraft are the interpolation of the tabulated ones, equal to these at the starts of the intervals and moving continuously in between; the livetime fraction is that of the interval containing the time, and zero in gaps; times outside are refused.",
  "every list of files and rows, every selection, every time",
  "indices of a binary search are shifted by one and cut at the end; the errors are at the first and last interval and within a tolerance of microseconds",
  ["src/ScData.cxx: readData, time_index, livetimefrac, xAxis, zAxis"])
p("C62","An extended source is its shape seen with the response",
  "What is computed for a disk or a Gaussian at a distance from its centre is the response averaged over the shape, whatever the response and the distance; the shape has unit flux.",
  "every response function, every distance, every size of the source",
  "the angular part is an arc in the disk for which the cases inside, across and outside differ; tests compare a few distances with a tolerance",
  ["src/RadialDisk.cxx: disk, RadialIntegrand::operator(), convolve, value","src/RadialGaussian.cxx: gauss, RadialIntegrand::operator(), convolve, value"])
p("C63","A radial source has the profile of its table at the position of its parameters",
  "A radial profile has the tabulated values, is linear in between and never negative; its flux is the integral of the table; a radial source is centred where its parameters, or the last move, say.",
  "every table, every angle, every history of settings, moves and evaluations",
  "the centre is cached at the first evaluation, so that the position depends on the history",
  ["src/RadialProfile.cxx: readTemplateFile, valueAtOffset, value, derivByParamImp, setCenter, getCenter, operator=, angularIntegral","src/SpatialFunction.cxx: setCenter, update","Likelihood/SpatialFunction.h: setParam","src/DiffuseSource.cxx: moveSource, mapRefDir"])
p("C64","A fit by expectation maximisation does not make the likelihood worse and ends",
  "Each round shares every event among the sources in proportion to their densities and fits each source to its share; if these fits do not make their objectives worse, neither the round nor the whole fit makes the likelihood worse; sources without free parameters are left alone; the fit ends.",
  "every list of events, sources and parameters, every optimizer, every number of rounds",
  "the likelihood is never computed in the loop, only a sum of objectives for single sources with cuts; whether it improves is a consequence of Jensen's inequality for all densities",
  ["src/OptEM.cxx: findMin, chifunc","src/OneSourceFunc.cxx: value"])
p("C65","The value of a map at a position is that of its pixel, or interpolated between neighbours",
  "At the centre of a pixel the value is that of the pixel; in between it is the bilinear interpolation and depends continuously on the position; it lies between zero and the largest pixel; outside it is zero; a map that closes in itself is interpolated across the seam like anywhere else and going around once changes nothing.",
  "every map, every size, every position, with and without interpolation",
  "a test evaluates a few positions, mostly at the centre of a map; the edges, the seam and the corners are sets of measure zero or narrow strips with their own branches",
  ["src/WcsMap2.cxx: operator(), pixelValue, insideMap"])
p("C66","The value of a map cube follows its planes in energy",
  "At a tabulated energy the value is that of the plane; between two of them it is between the two and follows a power law; it is never negative; energies outside of the range are refused if and only if that was asked for; a map with one plane has its value at all energies.",
  "every map cube, every list of increasing energies, every energy and position",
  "the branches for vanishing values, the first and the last energy and a single plane each need their own table, and monotony of the interpolation is a statement on a continuum",
  ["src/WcsMap2.cxx: operator()","src/ProjMap.cxx: interpolatePowerLaw, check_energy"])
p("C67","The integrals of a map are sums over pixels weighted with their solid angles",
  "The integral of a plane is the sum of the pixels times their own solid angles, whichever way the map was made; the integral over energy is the trapezoidal rule in the logarithm of the energy; at any energy the integral is interpolated between those of the planes.",
  "every map, every size, every list of energies, every energy",
  "whether two indices are swapped shows on maps that are not square only, and the tests use square ones",
  ["src/WcsMap2.cxx: computeMapIntegrals, solidAngles, fillSolidAngles","src/ProjMap.cxx: mapIntegral"])
p("C68","A coarser map keeps what the map contains",
  "Rebinning by a factor sums or averages blocks of pixels, also if the factor does not divide the size: sums keep the total, averages lie between the pixels and keep the integral; the pixels of the coarser map lie where their blocks lie.",
  "every map, every factor, both ways of combining pixels",
  "sizes that the factor does not divide, pixels outside of the projection and maps around the whole sky each take branches of their own",
  ["src/WcsMap2.cxx: rebin"])
p("C69","Counts become intensities and come back as the same counts",
  "The intensity in a pixel is its count divided by the width of the energy bin and the solid angle of the pixel; making a counts map from the intensities gives back the counts.",
  "every counts map, every projection and binning",
  "the layout of the solid angles differs between the two directions, which shows only for certain shapes and histories of a map",
  ["src/WcsMap2.cxx: WcsMap2(const CountsMap &), foldVector, convertToDifferential, convertToIntegral","src/CountsMap.cxx: CountsMap(const WcsMap2 &, const CountsMap &)","src/HealpixProjMap.cxx: convertToDifferential, convertToIntegral","src/CountsMapHealpix.cxx: CountsMapHealpix(const HealpixProjMap &, const CountsMapHealpix &)"])
p("C70","The effective background sums the layers above",
  "The effective background of a pixel and energy is the sum, over this and all higher energies up to the given multiple of it, of the counts under the peak of the point-spread function; it is not negative, includes the counts of the layer itself and grows with the multiple.",
  "every counts map, binning in energy, point-spread function and multiple",
  "the sum is built up in place in one pass over a flattened cube; that each layer gets exactly the intended ones has to be shown for every number of layers and pixels",
  ["src/CountsMap.cxx: makeBkgEffMap","src/CountsMapHealpix.cxx: makeBkgEffMap","src/CountsMapBase.cxx: fillEnergyBinWidths, fillEnergyBinGeomCenters"])
p("C71","Weights lie between zero and one and share the systematic error between components",
  "The weight of a pixel is alpha/(1 + epsilon^2 B) for the effective background B; it is above zero, at most one and falls with B. Alpha lies between one over the number of components and one, is one for a single component, and n equal components weigh like one with n times the background.",
  "every set of maps of effective backgrounds and every epsilon",
  "concerns all sizes of maps, numbers of components and values, also sizes that do not agree",
  ["src/CountsMapBase.cxx: getBMinAndSumMinOverK2, getAlphaWts, getAlphaVector, getWts, makeAlphaMap, makeWtsMap"])
p("C72","Pixels outside a map of weights have the weight one",
  "Each pixel and energy of a counts map gets the value of the map of weights there, and one if the position or the energy is outside of it; if the map of weights has values from zero to one, so have the weights. A warning appears exactly if some pixel was outside.",
  "every counts map, every map of weights, all energies",
  "depends on flags of a shared map and on exceptions of the projection, for positions anywhere on the sky",
  ["src/WeightMap.cxx: makeProjectedMap","Likelihood/ProjMap.h: setExtrapolation","src/WcsMap2.cxx: insideMap, operator()"])
p("C73","A model written to a file and read back is the same model",
  "Writing a source model to a file and reading the file into an empty model gives sources with the same names, kinds, spectra, parameters (value, scale, bounds, free or fixed, uncertainty), spatial parts, files, positions and switches; every type of function a user can choose can be written and read.",
  "every model with any number of point, diffuse and composite sources nested to any depth, every function type",
  "the writer and the reader are separate programs with special cases by type and by the names of parameters; agreement has to hold for every combination",
  ["src/SourceModelBuilder.cxx: likelihoodSource, spectralPart, addSpatialPart, addComposite, appendParameterNodes","src/SourceFactory.cxx: readXml, makePointSource, makeDiffuseSource, makeCompositeSource, setSpectrum","src/SourceModel.cxx: writeXml, readXml","src/AppHelpers.cxx: addFunctionPrototypes"])
p("C74","Reading a model file takes every source in it or fails",
  "Either reading a file fails and the model is as before, or every source element of the file has become a source of the model with its switches as in the file; a point source without a position and an unknown type are errors.",
  "every file, also files not written by the program, and every model it is read into",
  "ranges over all files; errors in files show as sources that are silently missing or elsewhere",
  ["src/SourceFactory.cxx: readXml, makePointSource, setSpectrum, addParamsToMultipleBPL, addParamsToPiecewisePL","src/SourceModel.cxx: readXml, addSource"])
p("C75","Reading a file again updates the sources it names and no others",
  "After reading a file again into a model, each source that the file names has the parameters and the position of the file, every other source is as before, no source is added or removed, and the parameter list of the model is that of its sources; if reading fails nothing has changed.",
  "every model, every file, every number of sources",
  "depends on the kinds and names of sources in the model and in the file together, and on the state left behind by an exception",
  ["src/SourceModel.cxx: reReadXml, parseParameterNode, syncParams"])
p("C76","The text of a model file says what was written",
  "Reading the text of a file gives the elements and attributes that were written, whatever characters names and values contain, and different models have different texts.",
  "every tree of elements of any depth and number with any names and values",
  "ranges over all texts; special characters in the name of a source are rarely tried",
  ["src/SourceModelBuilder.cxx: prettyPrint, write","src/FluxBuilder.cxx: prettyPrint, write"])
p("C77","Numbers in a model file keep their value",
  "A number written to a file and read back is the same number; reading and writing a model any number of times does not change it.",
  "every floating point number",
  "there are 2^64 of them; the error is in the last digits and adds up only if the digits drift",
  ["src/SourceModelBuilder.cxx: addAttribute","src/SourceFactory.cxx: getAttributeValueAsDouble","src/SourceModel.cxx: parseParameterNode"])
p("C78","The flux file describes the sources of the model",
  "The file for the flux simulator has for each source its name, its position, its spectrum and the integral of its spectrum over the energy range as flux.",
  "every source, spectrum and energy range",
  "a continuum of spectra; the error of the quadrature depends on how steeply the spectrum falls",
  ["src/FluxBuilder.cxx: addSource, addSourceModel","src/SourceModel.cxx: write_fluxXml"])
p("C79","Objects that show the same file share its map, and never show another",
  "Whatever is loaded, released, copied or destroyed in whatever order, an object that uses a map gets the map of the file it was last given, at the resolution it was set to; no released map is used, a file is in memory once, and every map in memory can be released.",
  "every sequence of operations on any number of objects and files",
  "depends on the interleaving of loading and releasing by different owners of the same file; a use after release shows only for some histories",
  ["src/WcsMapLibrary.cxx: wcsmap, delete_map, notify","src/MapBase.cxx: readFitsFile, projmap, deleteMap, update, rebin"])
p("C80","A diffuse source is evaluated at the directions around the event that the integral asks for",
  "For an event at any position, the direction belonging to a distance and an angle is at that distance and angle from the event; together the integration variables reach every direction of the sky once, and the angle computed for a direction leads back to it.",
  "every position of the event, every distance and angle, every direction",
  "a continuum; the formula goes through inverse functions with several branches",
  ["src/EquinoxRotation.cxx: EquinoxRotation, do_rotation","src/DiffRespIntegrand2.cxx: getSrcDir","src/DiffRespIntegrand.cxx: getSrcDir, phiValue"])
p("C81","The limits of the integral over the sky contain the map of the source",
  "The limits in distance and angle used for a source given as a map contain every pixel of the map, wherever the event is.",
  "every map, every projection, every position of the event",
  "depends on the position of the map relative to the event; most events are inside the map of a source",
  ["src/MapBase.cxx: getDiffRespLimits_wcs","src/WcsMap2.cxx: minMaxDistPixels, getCorners"])
p("C82","The response of an event to a diffuse source is the integral over the sky and not negative",
  "The response of an event to a diffuse source is the integral of source times instrument response over the directions up to the largest separation, independent of where the integral is divided, and is never negative.",
  "every source, every response, every limits",
  "a continuum of functions and limits; the order of the limits depends on the event",
  ["src/Event.cxx: computeResponseGQ","src/DiffRespIntegrand2.cxx: do2DIntegration"])
p("C83","An exposure map covers the region and every pixel holds its own exposure",
  "The file of an exposure map covers the square around the centre of the region with the radius that was given and the energies from the lower to the upper limit in equal logarithmic steps; each pixel and plane holds the exposure of its own direction and energy, also after reading; parts computed separately add up to the whole map.",
  "every size of the map, every number of energies, every division into parts",
  "an index error shows only for maps that are not square; odd sizes and divisions into parts are combinations nobody lists",
  ["src/ExposureMap.cxx: computeMap, writeFitsFile, readExposureFile"])
p("C84","The exposure of a diffuse source is the integral of exposure times source",
  "At every energy the exposure of a diffuse source is the sum over the sky of exposure, source and solid angle; it is linear in the source, not negative, exact at the energies of the exposure map, and the same whichever of the two ways of integration is chosen.",
  "every exposure map, every source, every energy",
  "depends on the position of the energies relative to those of the map and on parameters that are one in the tests",
  ["src/ExposureMap.cxx: integrateSpatialDist","src/SpatialMap.cxx: integrateSpatialDist_wcs, integrateSpatialDist_healpix, value","src/MapCubeFunction2.cxx: integrateSpatialDist_wcs, integrateSpatialDist_healpix, value","src/MapBase.cxx: interpolatePowerLaw","src/DiffuseSource.cxx: computeExposure"])
p("C85","The exposure at a direction is that of the pixel that contains it",
  "A request to a binned exposure map for a direction and an energy gives the value of the pixel that contains the direction and of the closest energy of the map; a direction outside of the map gives zero, or an error if the boundaries are enforced; the request for one energy and the one for many energies agree.",
  "every map, every direction, every energy",
  "tests ask for the centres of pixels inside of the map",
  ["src/BinnedExposure.cxx: operator(), get_exposures_for_dir","src/BinnedExposureBase.cxx: findNearest"])
p("C86","A binned exposure map holds the exposure of each pixel and is the same after writing and reading",
  "Each value of a binned exposure map is the sum over the responses of the livetime integral at the pixel's centre and the energy; the energies are those of the counts map or the means of neighbours; a map written to a file and read back answers every request as before.",
  "every counts map, every number of energies and additional bins, every request",
  "centred and unrotated maps hide what the file does not keep; the sizes differ only with additional energy bins",
  ["src/BinnedExposure.cxx: BinnedExposure, setMapGeometry, computeMap, writeOutput","src/BinnedExposureBase.cxx: BinnedExposureBase"])
p("C87","Only inclinations within the limits contribute to the exposure",
  "With limits on the inclination, the effective area counts exactly for the inclinations between them; adjacent ranges add up to the whole and a wider range never gives less.",
  "every pair of limits, every inclination",
  "a continuum; the limits are compared through the cosine, which reverses the order",
  ["src/BinnedExposureBase.cxx: setCosThetaBounds, Aeff::value"])
p("C88","The map of a point source holds the point-spread function times the exposure",
  "Each value of the map of a point source is the point-spread function in the pixel times its solid angle times the exposure at the layer's energy; with corrections the pixels up to the radius of the inscribed circle hold together the integral of the function times the exposure; without convolution the counts are in the pixel that contains the source; the map for a range of energies is the part of the map for all of them.",
  "every number of pixels and energies, every range of energies, every estimate of the point-spread function",
  "ranges of energies, corrections and additional energy bins are combined freely; small maps are not tested",
  ["src/PSFUtils.cxx: makePointSourceMap_wcs, makePointSourceMap_healpix","Likelihood/Pixel.h: find","src/ConvolveHealpix.cxx: fillMapWithPSF_refDir","src/SourceMapCache.cxx: fillSingleSourceMap"])
p("C89","The estimate of the point-spread function in a pixel is its mean over the pixel",
  "The estimate for a pixel is the mean of the point-spread function over the parts of the pixel at their true distances from the source; it stays between bounds of the function; the adaptive estimate ends with the first number of parts that changes it by less than the tolerance; the estimate from a ring is the integral over the ring divided by its solid angle.",
  "every point-spread function, every position of source and pixel, every tolerance",
  "positions are a continuum; sources at the centre of a pixel and pixels opposite to the source are special",
  ["src/PSFUtils.cxx: bilinear_on_grid, createOffsetMap, integrate_psf_fast, integrate_psf_adaptive, psfValue_annular"])
p("C90","The map of a diffuse source is the mean of the convolved map over each pixel",
  "The finer map used for the convolution divides every pixel of the counts map into equal parts; each value of the source's map is the mean of the convolved map over the parts of its own pixel times the solid angle, so that a constant brightness gives brightness times solid angle everywhere; the map for a range of energies is the part of the map for all of them.",
  "every number of pixels, every resampling factor, every reference pixel, every range of energies",
  "odd sizes, odd factors and reference pixels off the centre are combined freely",
  ["src/PSFUtils.cxx: makeDiffuseMap_wcs","src/CountsMap.cxx: checkMapConforms"])
p("C91","Diffuse sources in healpix pixels have the same counts as in a projection",
  "In a healpix map each value is the brightness at its own pixel and energy times the solid angle, for any range of energies; a map in a projection turned into healpix pixels keeps its brightness; the number of parts is the smallest power of two that is enough; combining the pixels of a fine map stays within the limit for the size and does it once.",
  "every order of the healpix map, every input map, every range of energies",
  "brightness and number are confused only when the sizes of the pixels differ; factors of the solid angle do not show in relative tests",
  ["src/PSFUtils.cxx: makeDiffuseMap_healpix, makeDiffuseMap_native, fillHealpixFromWcsMap, rebinDiffuseMap, computeResampFactor"])
p("C92","The model counts in a pixel are the sum over the sources of flux, exposure and solid angle",
  "The model counts of a pixel in a range of energies are the sum over all sources and event types of the logarithmic trapezoid of exposure times flux density, times the solid angle; they add up over the sources; the model map holds at each plane and pixel the counts of that pixel and range; the derivatives are those of these counts, appended after each call in the order of the parameters.",
  "every list of sources, pixels, energies and event types; every number of calls",
  "the derivative and the counts are computed by different rules that agree only for narrow ranges; diffuse sources and negative derivatives are not in the tests",
  ["src/Pixel.cxx: modelCounts, getFreeDerivs, Aeff, AeffDeriv","src/SourceModel.cxx: computeModelMap"])
p("C93","The exposure of a livetime cube is livetime times efficiency times effective area",
  "The value of a livetime cube for an effective area is the sum over all intervals of observation of livetime, efficiency at their livetime fraction and effective area; it adds up over event types; requests remembered earlier do not change it; the effective area for a point source is the sum over the responses of the area times the contained fraction.",
  "every history of observation, every effective area and efficiency, every sequence of requests",
  "the files in tests all have the weighted table or no efficiency; the memory of requests is a matter of sequences",
  ["Likelihood/ExposureCube.h: value","src/ExposureCube.cxx: value, AeffBase::operator()","src/PointSource.cxx: Aeff::value"])
p("C94","The derivative of the flux density of a point source is the true derivative",
  "For every parameter of the spectrum, event and direction the function reports the derivative of the flux density it reports itself.",
  "every spectrum, parameter, event, direction and value",
  "the case of the prefactor takes its own way; tests compare at few positions",
  ["src/PointSource.cxx: fluxDensity, fluxDensityDeriv"])
p("C95","The predicted counts in a range of energies are the integral of spectrum times exposure",
  "The predicted counts of a source are the logarithmic trapezoid of spectrum times exposure over the energies; in a range of energies they are that on energies in equal logarithmic steps over the range with the exposure interpolated; limits beyond the energies are cut; adjacent ranges add up; the reported derivatives are those of the reported counts; no counts are negative.",
  "every spectrum, every vector of energies and exposures, every range, every parameter",
  "ranges outside of the region's energies, unequal steps and sums over adjacent ranges are not in the tests",
  ["src/Source.cxx: Npred, NpredDeriv, getExposureArrays"])
p("C96","Fluxes and energy fluxes are the integrals of the spectrum",
  "The flux of a source between two energies is the logarithmic trapezoid of its spectrum, times the integral of its brightness over the sky for a diffuse source; it is exact for 1/E, for any power law off by at most a twelfth of the square of the logarithmic step; it is linear in the spectrum and its derivatives are the true ones.",
  "every spectrum, every pair of energies, every number of points",
  "the error of the rule depends on index, range and number of points, a three-dimensional continuum",
  ["src/PointSource.cxx: flux, fluxDeriv, energyFlux, energyFluxDeriv","Likelihood/Source.h: computeEnergyIntegral","src/DiffuseSource.cxx: angularIntegral"])
p("C97","A counts spectrum has the predicted counts of every source in every bin",
  "The bounds of a counts spectrum are increasing from the lower to the upper limit exactly, in equal logarithmic steps; the counts of a source in a bin are its predicted counts between the bounds; the total is the sum over all sources, bin by bin, and over the bins it is the number of predicted counts.",
  "every number of bins, every list of sources",
  "lists of any length; the sum over the bins is compared with the total for no source",
  ["src/CountsSpectra.cxx: setEbounds, getSrcCounts, getTotalSrcCounts"])
p("C98","The map of a source survives being dropped from memory, written and read back",
  "A source map gives, at any time, the image the user set last, or else the one that was computed from the source or read from the file: dropping it from memory, reading it back, writing it to files, new weights and asking for its counts do not change it, and an image that is not in a file is never dropped.",
  "every sequence of calls; every image; every point at which writing fails",
  "histories of any length; three flags and two places decide where the map comes from; the tests write and read once",
  ["src/SourceMap.cxx: model, readModel, make_model, setImage, setSource, reloadIfCleared, applyPhasedExposureMap","Likelihood/SourceMap.h: clear_model, setSaveModel","src/SourceMapCache.cxx: saveSourceMaps, replaceSourceMap, appendSourceMap"])
p("C99","The counts of a source map are the sums over its image",
  "After any sequence of calls, the counts a source map reports are the sums over the planes of the image it gives, and the weighted ones those with the weights it has, also when the image was dropped from memory in between.",
  "every sequence of calls; every image and weights",
  "the counts are remembered apart from the image, and each call has to keep them together",
  ["src/SourceMap.cxx: computeNpredArray, computeNpredArray_sparse, npreds, weighted_npreds, setWeights"])
p("C100","What a source map returns about the spectrum is up to date",
  "The functions of a source map that are not named cached return up-to-date values: the spectrum, its weights and its derivatives at the parameters the source has; and a change of the spectrum is reported exactly when a parameter differs from its value when the parameters were latched.",
  "every sequence of changes of parameters and calls",
  "histories of any length",
  ["Likelihood/SourceMap.h: cached data","src/SourceMap.cxx: specVals, specWts, specDerivs, spectrum_changed, setSpectralValues"])
p("C101","A map read from a file is the map that was written last",
  "Reading a map from an extension of a file gives the values, the number of planes and the type of the map that was written there last, whatever was stored there before, for full and sparse healpix maps and for images, for all planes or a range of them; the rows of a map of a part of the sky carry the positions of its pixels.",
  "every history of maps written to the same extension; every size, range of planes and kind of map",
  "histories of maps of different sizes and kinds; the tests write each extension once",
  ["src/FileUtils.cxx: replace_image_from_float_vector_healpix, replace_image_from_sparse_vector_healpix, replace_image_from_float_vector_wcs, append_image_from_float_vector_wcs, read_healpix_table_to_float_vector, read_healpix_table_to_sparse_vector, read_fits_image_to_float_vector, get_src_map_type"])
p("C102","The table of parameters restores the parameters of the model",
  "The table of parameters has one row for each parameter of each function of each source with all that is known of it, and reading it sets the parameters of the model to the values in the table.",
  "every model; every table",
  "no test reads such a table; names of any length",
  ["src/FileUtils.cxx: write_model_parameters_to_table, read_parameters_from_table","src/SourceModel.cxx: getParam, setParam"])
p("C103","A response matrix read from a file is the one that was written",
  "The table of a response matrix has one row for each true energy with its limits and responses, and the matrix read from it has the same energies, numbers of true and measured bins and responses, and so gives the same measured counts.",
  "every vector of energies, number of extra bins and matrix",
  "no test reads such a table; the result depends on the number of extra bins",
  ["src/FileUtils.cxx: write_drm_to_table, read_drm_from_table","src/Drm.cxx: Drm, compute_transpose, convolve"])
p("C104","Responses to diffuse components in event files are those of the events",
  "After any sequence of runs of the tool that adds responses to diffuse components to event files, an analysis that reads the file gets for each event and each diffuse source the response of that event to that source, or zero for events of a class that was not asked for; columns that were there before keep their values, unless the user asks for them to be replaced, in which case they are computed anew.",
  "every event file, every model, every number of files in a run and every history of runs",
  "names of columns and keywords are kept in step through state that outlives a file; the tests run the tool once on one file",
  ["src/diffuseResponses/diffuseResponses.cxx: run, haveDiffuseColumns, computeEventResponses, writeEventResponses, readExistingDiffRespKeys","src/DiffRespNames.cxx: addColumn, key","src/EventContainer.cxx: getEvents, get_diffuse_names","src/Event.cxx: diffuseResponse, computeResponseGQ, getNewDiffuseSrcs, diffuseSrcName"])
p("C105","The probabilities written for an event are the shares of the sources in its density",
  "The tool that writes the probability that an event comes from a source writes, in the row of each event and the column of each source asked for, the density of that source at that event divided by that of all sources of the model; the values are between 0 and 1, those of all sources add up to 1, and the data of the events are not changed; names that are not in the model are refused. This holds after any sequence of runs for the last run that wrote a column.",
  "every event file, model, list of sources and history of runs",
  "rows and events are matched by position, columns by name; the tool has no test",
  ["src/gtsrcprob/gtsrcprob.cxx: writeDensities, getSourceList, readEventData","src/EventContainer.cxx: getEvents"])
p("C106","The sum of livetime cubes is the cube for all the time",
  "Adding livetime cubes gives in each cell the sum of the livetimes, with the earliest start and the latest stop, whatever the order and grouping of the files; cubes for disjoint times, or for parts of the spacecraft data, add up to the cube for all; files with different bins, sizes or cuts in zenith angle are refused, in which case nothing is written; no input file is changed.",
  "every list of files, every content, every order and grouping, every place for the output",
  "orders and groupings of any number of files; no test adds more than two",
  ["src/gtaddlivetime/gtaddlivetime.cxx: run, check_costheta_bounds, zenmax, addTables","src/LikeExposure.cxx: load, acceptInterval"])
p("C107","The test statistics of gtlike are likelihood ratios and leave the fit as it was",
  "For each point source with a free parameter gtlike reports twice the difference between the log-likelihood of the fitted model and the best one without the source; the value is never below that of the best null hypothesis nor above that of the null hypothesis with the fitted parameters; with tsmin=yes and an optimizer that converges it is the likelihood ratio; with tsmin=no the null hypothesis is rescaled to the observed counts. Afterwards the model and all parameters are those of the fit.",
  "every source model, log-likelihood and behaviour of the optimizer, including failures",
  "the fit of each null hypothesis changes the parameters of all other sources; the application has no test",
  ["src/likelihood/likelihood.cxx: computeTsValues, renormModel, npredValues, isDiffuseOrNearby","src/SourceModel.cxx: addSource, deleteSource, setFreeParamValues_"])
p("C108","The errors and warnings gtlike reports are those of its fit",
  "gtlike shows with each free parameter the error of that parameter in the last fit, and writes it to the model; the error of a flux is the one from propagation of errors with the full covariance matrix; if asked to check the fit, it reports the ranges of energy in which the counts are improbable, all of these and no others.",
  "every source model, every sequence of fits and changes of the model by the user between them, every behaviour of the optimizer, every spectrum",
  "errors are matched to parameters by position and survive the turns of the loop; the application has no test",
  ["src/likelihood/likelihood.cxx: run, setErrors, sourceFlux, printFitResults, printFitQuality","src/likelihood/MathUtil.cxx: gser, gammq, poissonSig","src/SourceModel.cxx: setParams_"])
p("C109","Each pixel of a TS map is the likelihood ratio for a source at that pixel",
  "gttsmap writes for each pixel twice the difference between the highest log-likelihood with an additional point source at the direction of that pixel, according to the keywords of the image, and the highest one without it; the source model is left as it was, up to fitted parameters; a model that has a source with the name of the test source is refused.",
  "every source model, log-likelihood, grid, projection and behaviour of the optimizer, including failures at any pixel",
  "the fits of all the pixels share one model, so the result depends on all fits before; the application has no test",
  ["src/TsMap/TsMap.cxx: setGrid, computeMap, writeFitsFile","src/SourceModel.cxx: addSource, deleteSource"])
p("C110","gtfindsrc reports the best position it tried, with its error, and leaves the model there",
  "The output file of gtfindsrc has all positions that were tried with their values; the position reported is the one with the highest log-likelihood, the value reported is that at this position; for a parabolic profile the radius is 1.51 times its width; the source model is left with the target at the best position, with the fit found there.",
  "every log-likelihood, optimizer, coordinate system and sequence of positions asked for by the simplex method",
  "any sequence of positions; the application has no test",
  ["src/gtfindsrc/gtfindsrc.cxx: LikeFunc, fitPosition, errEst","src/SkyDirFunction.cxx: init"])
p("C111","Input files that do not belong together are refused",
  "gtlike accepts several event files only if their selections agree with those of the first; it accepts an exposure map only if the other selections agree and every energy selected for the events lies in the range of the map, and it accepts every map of which this holds; it warns if, and only if, the good time intervals of the events are not those of the livetime cube; a binned analysis is refused unless the exposure map covers the counts map; the event types used are those selected in the files.",
  "all sets of files and selections, all counts maps and exposure maps",
  "any combination of selections and of maps; the checks end the application, so tests see only the accepted ones",
  ["src/AppHelpers.cxx: checkCuts, checkTimeCuts, checkExpMapCuts, checkExposureMap_wcs, getSelectedEvtTypes","src/likelihood/likelihood.cxx: run"])
p("C112","The counts spectra gtlike writes are those of the bins the file states",
  "The file of counts spectra has one row for each energy bin, with the bounds of the bin, the number of events in it, the counts expected of each source between these bounds and the fluxes of the point sources; for an unbinned analysis the bins are twenty logarithmically equal steps over the energies of the region of interest, for a binned analysis those of the counts map; the total counts are the sum over the sources.",
  "all sets of sources and events, all energies, all numbers of bins",
  "any number of sources, events and bins; a test compares a file with itself",
  ["src/CountsSpectra.cxx: setEbounds, getSrcCounts, getSrcFluxes, getTotalSrcCounts, writeTable","src/likelihood/likelihood.cxx: writeCountsSpectra","src/EventContainer.cxx: nobs"])

p("C113","The background spectrum of gtbkg is that of all sources but the target",
  "For every bin of a spectrum gtbkg writes the rate and its error expected of all sources of the model except the target, restricted to the energies of the region of interest: rate times exposure time is the number of counts expected and the error follows from the errors of the free parameters; bins outside these energies have no counts; the input file changes only in the keyword that names the background file; if gtbkg fails there is no output that looks like a background spectrum.",
  "all spectra, all models and targets, all regions of interest",
  "any number of bins, sources and parameters; the relation of the bins of the spectrum to the energies of the region is arbitrary",
  ["src/backfile/backfile.cxx: run, NpredError, getEbounds, updateKeywords, writeBackFile","src/Source.cxx: Npred, NpredDeriv"])

p("C114","The counts attributed to the sources add up to the observed counts",
  "For a binned analysis the counts spectrum of a source is, in every selected energy bin, the sum over the pixels of the observed counts times the share of the source in the model there; the spectra of all sources together are the observed counts of the bins, whatever was done with the likelihood object before.",
  "all histories of calls, all models and counts maps, all selections of energy bins",
  "depends on the state the history of calls leaves in the caches, and on any number of pixels, bins and sources",
  ["src/BinnedLikelihood.cxx: countsSpectrum, computeModelMap_internal, addSourceCounts","src/BinnedCountsCache.cxx: identifyFilledPixels"])

p("C115","Events are read with the response functions of their types",
  "Response functions are loaded for exactly the selected event types. Every row of an event file that passes the cuts becomes an event, in order, with the response functions of the selected type it is of; a file that cannot be read this way is refused and leaves the events read before as they were.",
  "all event files and sequences of files, all selections of event types, all libraries of response functions and cuts",
  "quantifies over every row content, every bit mask and every set of response functions loaded",
  ["src/EventContainer.cxx: getEvents","src/ResponseFunctions.cxx: load, respPtr","src/AppHelpers.cxx: createResponseFuncs, getSelectedEvtTypes"])
p("C116","Sources can be merged into composite sources and split again",
 "Merging sources makes a composite source that has exactly the named sources in it, leaves the others as they are, and splitting it gives the same model as before; no sequence of such calls loses or doubles an elementary source; in a binned analysis every source has the map of what is in it; if a call throws, the model is as before; the flux density of a composite source and its derivatives are those of its spectrum times the sum of its parts.",
 "all models, names, lists of sources, nested composite sources, sequences of merging and splitting calls; all parts, responses, states of the response cache",
 "Tests merge and split one pair of sources under a new name; name clashes, repeated names, composites of composites, left-over maps and cached responses occur in other histories.",
 ["src/SourceModel.cxx: mergeSources, splitCompositeSource, give_source, addSource, deleteSource","src/CompositeSource.cxx: steal_source, give_source, addSource, fluxDensity, fluxDensityDeriv, fillSummedSourceMap","src/BinnedLikelihood.cxx: addSource, deleteSource","src/SourceMapCache.cxx: getSourceMap, insertSourceMap, removeSourceMap, eraseSourceMap"])
p("C117","gtexpcube2 computes the exposure for the geometry and the energies asked for",
 "The exposure map has the geometry and the energies given by the parameters, and those of the counts map for what is not given; extra bins continue the energies at both ends with the width of the first and the last bin; if means are asked for the energies are the geometric means of the bounds. If something is missing and there is no counts map, the tool stops with an error.",
 "all parameters, counts maps in either projection, files of bins, numbers of bins and of extra bins",
 "Tests run the tool with all parameters or with none given; the combinations, irregular counts maps, unusual numbers of divisions and tables of bins are beyond any list of cases.",
 ["src/gtexpcube2/gtexpcube2.cxx: run, run_wcs, run_hpx, generateEnergies, have_user_energies","src/BinnedExposure.cxx: BinnedExposure, setMapGeometry","src/BinnedHealpixExposure.cxx: setMapGeometry","src/FileUtils.cxx: read_ebounds_to_vector","src/FitUtils.cxx: expand_energies"])
p("C118","A counts map holds the number of events of each pixel and energy bin",
 "A counts map has the energy bins asked for, and after any number of event tables every cell holds the number of events in this pixel and energy bin; no event is counted twice, whatever the projection. A map that is written and read again has the same coordinates, bins and counts. A direction and an energy are inside the map if, and only if, they are in one of its pixels and bins; pixels are listed in the order of the counts with the direction of their middle and their solid angle. The same holds of HEALPix maps.",
 "all projections, sizes, energy bins, tables of events, files, borders",
 "Tests bin one list of events with one set of logarithmic bins; gaps between bins, borders, files with other sizes and the second projection are not exercised.",
 ["src/CountsMap.cxx: CountsMap, init, binInput, withinBounds, writeOutput, readKeywords, readImageData, setKeywords, getPixels","src/CountsMapBase.cxx: readEbounds, getAxisVector","src/CountsMapHealpix.cxx: binInput, withinBounds","src/HistND.cxx: fillBin, binIndex"])
p("C119","gtcntsmap makes the counts map asked for, of the events of all files",
 "The output file has the energy bins and the geometry given by the parameters, with the direction asked for in the middle, and in every cell the number of events of all event files there; reading it gives the same map. If energies are asked for that are not selected in the event files, if the event files do not agree or the output file may not be overwritten, the tool stops with an error.",
 "all parameters, event files, selections, files of energy bins",
 "Any number of files, any selection and any set of bins; a test run has one file and one set of logarithmic bins.",
 ["src/gtcntsmap/gtcntsmap.cxx: run, logArray, checkEnergies, readEbounds","src/CountsMap.cxx: CountsMap, init, binInput, writeOutput","src/AppHelpers.cxx: checkOutputFile, checkCuts"])
p("C120","A file of model counts has the counts of the model",
 "A file of model counts written as a cube has the model counts of every pixel and energy bin; written as a map it has their sums over the energy bins. This holds for both projections, whatever was written before with the same object; other types of output are refused.",
 "all counts maps in either projection, all models, all sequences of calls",
 "The result depends on the history of calls and the projection; the application makes one call, and tests look at the first file only.",
 ["src/ModelMap.cxx: ModelMap, writeOutputMap, writeOutputMap_wcs, writeOutputMap_healpix","src/CountsMapHealpix.cxx: CountsMapHealpix, writeOutput","src/CountsMapBase.cxx: setImage","src/FileUtils.cxx: replace_image_from_hist_hpx"])
p("C121","A HEALPix exposure map gives the exposure of the pixel a direction is in",
 "A HEALPix exposure map made for a counts map (with any number of additional energy bins) or for given energies gives, for each of its energies and every direction, the sum over the response functions of the livetime integral at the centre of the pixel the direction is in. Asking for one energy or for many gives the same, an energy the map does not have is an error, and a map written to a file and read again answers every request as before.",
 "all projections, response functions, energies, numbers of additional bins, directions and files",
 "The sky, the energies and the livetime integrals are unbounded inputs; a test compares a few pixels and files made by the program itself.",
 ["src/BinnedHealpixExposure.cxx: BinnedHealpixExposure, operator(), get_exposures_for_dir, setMapGeometry, computeHealpixMap, writeOutput","src/BinnedExposureBase.cxx: findNearest"])
p("C122","Components put together for a scan keep every count once, at its energy",
 "A scan of several counts maps uses all their energies, each once and in increasing order. The counts put together are, energy after energy and map after map, the counts of the bins that begin there: every count of every map once and no other; templates of sources are put together in the same order, so that each number stays with its count. A range of energy bins that is set for the scan is the same range for every map.",
 "all numbers of counts maps, energy bounds, numbers of pixels, counts and templates, all ranges of bins",
 "The interleaving of any number of lists of energies has no bound; tests use one map, or maps with the same energies.",
 ["src/FitScanner.cxx: FitScanModelWrapper_Summed, findMinAndMatches, mergeVectors, set_klims","Likelihood/BinnedLikelihood.h: set_klims"])
p("C123","A test source is moved by whole pixels without changing its image",
 "The model of a test source for another direction is its reference image moved, in every energy bin, by the whole numbers of columns and rows next to the distance of the two positions (halves towards zero); pixels that get nothing have 1e-9. For the reference direction it is the reference image itself, and as long as nothing leaves the map the sum of an energy bin stays the same, but for these 1e-9. This holds for every direction.",
 "all image sizes, numbers of energy bins, images, projections and directions, inside or outside the map",
 "Index arithmetic with signed and unsigned numbers for every offset; a test moves a source by a few pixels within a map.",
 ["src/FitScanner.cxx: TestSourceModelCache, translateMap, translateMap_Wcs"])
p("C124","Priors of a scan are the Gaussian priors that were asked for",
 "After the priors of the sources of a region were read for a scan, whatever is done afterwards (other selections of free sources, adding and removing the test source, fits, other priors), the prior of the parameters adds to a log likelihood the sum of the Gaussian priors of the free sources, and the test source is not constrained. A prior made from given values and a covariance, or from the current fit, is the Gaussian with this mean and this covariance (times the factor). Another selection of free sources ends the priors of the old one. This holds for every choice of constrained sources.",
 "all numbers of sources, priors, reference values, selections of free and constrained sources, covariances, all sequences of operations on the cache",
 "Sequences of operations and subsets of sources have no bound; tests constrain all sources, once.",
 ["src/FitScanner.cxx: FitScanMVPrior, FitScanCache::refactorPrior, refactorModel, buildPriorsFromExternal, buildPriorsFromCurrent, getPrior, extract_init_priors_from_model","src/FitUtils.cxx: extractPriors"])
p("C125","A scan of a normalization gives the profile likelihood, and errors are where the likelihood falls as asked for",
 "A scan of the normalization of a test source has the number of points asked for, equally spaced from some errors below the best value to some above, with the best value inside; each point has the log likelihood of the model with the test source at this normalization, the other free sources fitted. The upper and lower errors for a fall of the log likelihood are the distances from the best value at which, in the quadratic approximation, it has fallen by this much. This holds with and without other free sources, with full or compressed data, for one energy bin or all.",
 "all models, counts, weights, priors, selections of bins, numbers of points, errors, falls of the likelihood",
 "A profile likelihood is a statement about every point and every model; tests look at the shape of one curve.",
 ["src/FitScanner.cxx: FitScanCache::scanNormalization, signalUncertainty_quad","src/FitUtils.cxx: fitNorms_newton, getLogLikelihood, sumModel"])
p("C126","Convolution of a map spreads the counts of every pixel like the point spread function",
 "The convolution of an image with a smaller one is the sum over the pixels of the image, each spread like the kernel with its middle on the pixel; what falls outside is lost and nothing comes back at the other side. So a kernel that is one in its middle changes nothing, the sum of an image with empty borders is multiplied by the sum of the kernel, pixels inside a flat image stay the same, and nothing becomes negative. A map is convolved to intensity times exposure spread like the point spread function, normalized to one, whatever the sizes of the map.",
 "all images, rows and columns, kernels, exposures, projections and point spread functions, in one and two dimensions",
 "Fourier transforms of padded and rolled arrays must be right for every size, odd or even, square or not; a test has one size and compares a few numbers.",
 ["src/Convolve.cxx: Convolve::convolve2d, Convolve::convolve, complexArray, subArray", "src/WcsMap2.cxx: WcsMap2::convolve, Image::normalize, check_negative_pixels"])
p("C127","Maps of the whole sky in equal-area pixels have the values of their files and sources",
 "A map read from a HEALPix file has one image for each energy with the values of the columns of energies, pixel by pixel, and its integrals over sky and energy; the map of a source has the value of the source at the centre of each pixel. The value at a direction and an energy is that of the pixel of the direction at the energies of the map, and follows the power law between them; it is never negative and never outside the range of the pixels; energies outside the range are refused if so required. A rebinned map has the side divided by the factor.",
 "every file (columns, rows, energies), every source, every map, direction, energy and factor, every library of pixels, interpolation on or off",
 "Which columns are taken, rows that are missing or too many, energies at and beyond the ends, maps of one energy, and factors of rebinning form an unbounded set; tests read one complete file at one energy.",
 ["src/HealpixProjMap.cxx: HealpixProjMap(filename, ...), HealpixProjMap(DiffuseSource, ...), operator(), pixelValue, computeMapIntegrals, rebin, latchCacheData, check_negative_pixels", "src/ProjMap.cxx: check_energy, check_energy_index, interpolatePowerLaw"])
p("C128","Convolved maps of the whole sky keep their counts and are not negative",
 "The image of the point spread function at the pole has, ring by ring, the mean of the function over finer pixels up to the radius that contains 99.5 per cent, zero beyond, and the integral of the function within that radius. The convolution of a map with it has no negative pixel and the total of the map; pixels that are large compared with the function are halved first. The convolution of a map with exposure is, energy by energy, that of the product of intensity and exposure, and is a map like the one it was made from.",
 "every map, point spread function, exposure, energy and side; every library of pixels and harmonic transforms",
 "Totals depend on negative values of harmonic transforms that occur for some maps and functions only, on the size of pixels against the width, and on the order of the pixels; a test sees one map.",
 ["src/ConvolveHealpix.cxx: fillMapWithPSF_pole, convolve", "src/HealpixProjMap.cxx: convolve, convolveAll, pixelSize"])
p("C129","Diffuse responses from the pixels of maps",
 "The response of an event to a diffuse source given as a map is the sum, over the pixels of the map that are on the sky and closer to the event than five degrees (more below 10 GeV, everything below 100 MeV), of the total response, the intensity and the solid angle of the pixel; it is linear in the map and not negative. The solid angle of a pixel of a plate carree map away from the poles is at least the exact one and at most the exact one times (s/2)/sin(s/2). Sources that say they can be moved are moved, others refuse. The size of a source and its exposure are those of its present spatial model. Derivatives of the density of a source are the derivatives of its density.",
 "all projections, maps, events, energies, responses, spectra, and all histories of moving, resizing, asking for the size and computing the exposure",
 "The sums range over all pixels of all maps, the bounds on solid angles over all latitudes and steps, and a size that has been asked for before a change is kept, which only histories show.",
 ["src/DiffuseSource.cxx:diffuseResponse_healpix", "src/DiffuseSource.cxx:diffuseResponse_wcs", "src/DiffuseSource.cxx:psfRange", "src/DiffuseSource.cxx:computeMapRadius", "src/DiffuseSource.cxx:isMoveable", "src/DiffuseSource.cxx:moveSource", "src/DiffuseSource.cxx:fluxDensityDeriv", "src/WcsMap2.cxx:solidAngle", "src/WcsMap2.cxx:solidAngles", "Likelihood/DiffuseSource.h:mapRadius"])
p("C130","Fits in the logarithms of normalizations",
 "The fit of templates in the logarithms of their normalizations hands back positive normalizations; if it says that it has converged, the estimated distance to the best ones is within the tolerance and the log-likelihood is that of the normalizations; started at the best normalizations it stays there. Its gradient is the derivative in the logarithms. It works from any normalizations, a fit that says it has converged is near the best ones, and the covariance is that of the normalizations.",
 "all data, templates, priors, weights, matrix inversions, tolerances, numbers of steps and initial normalizations",
 "Convergence, limits on steps and covariances are statements about all likelihoods and all starting points; a fit that stops at once and reports success looks like any other result.",
 ["src/FitUtils.cxx:fitLogNorms_newton", "src/FitUtils.cxx:getDeltaAndCovarAndEDM"])
p("C131","Matrices of fits: conversion, solution by singular values, covariance",
 "A symmetric matrix written into a vector and read back is the same; a vector whose size is not a square is read beyond its end instead of being refused, and of a matrix that is not symmetric only the lower half is used. The step of a fit found from singular values solves the system if none is dropped, in general it minimizes the residual and is the shortest vector that does; what is dropped is a fixed fraction of the largest singular value whatever the units. The pseudo-inverse satisfies the conditions of Moore and Penrose and does not depend on the decomposition found; used as covariance when the Hessian cannot be inverted it contains the damping of the fit. Vectors made into rows, products and differences refuse wrong sizes; the starting model is the fixed part plus all templates; counts of a source follow the trapezoidal rule in the logarithm of the energy.",
 "All vectors and matrices of all sizes, all decompositions into singular values, all thresholds, all source maps and spectra.",
 "The results must hold for every matrix; the tests do not contain singular or asymmetric ones, nor vectors of odd sizes.",
 ["src/FitUtils.cxx: svd_solve", "src/FitUtils.cxx: svd_inverse", "src/FitUtils.cxx: getDeltaAndCovarAndEDM", "src/FitUtils.cxx: Matrix_Hep_to_Stl", "src/FitUtils.cxx: Matrix_Stl_to_Hep", "src/FitUtils.cxx: reshapeVector", "src/FitUtils.cxx: vectorMultiply", "src/FitUtils.cxx: vectorSubtract", "src/FitUtils.cxx: symmetricError", "src/FitUtils.cxx: sumModel_Init", "src/FitUtils.cxx: extractModelCounts"])
p("C132","Scans over positions, energies and normalizations store every result in its place",
 "A scan of test statistics over a grid of positions, and at each position over energy bins and normalizations of the test source, stores the result of every fit at the element of its map, cube or scan that belongs to this position, energy and normalization; at positions whose fit fails only the status is set and the scan goes on. The table written has one row per position and the element (normalization, energy) of a cell is the value there. The test statistic of an energy bin compares the fit with that of no source, and the energy table gives edges and reference energies in the same units.",
 "every grid with one or two axes, every number of energies and normalizations, all results of fits including failures at any positions and bins, scans of one likelihood and of sums, with or without maps and energies",
 "The index arithmetic and the handling of failures involve every combination of positions, energies, normalizations and options; tests use a small grid where all fits succeed.",
 ["src/FitScanner.cxx: FitScanner::run_tscube, FitScanner::sed_binned_newton, FitScanner::addTestSourceToModel, FitScanner::buildHist, FitScanner::writeFitsTable_byPixel, FitScanner::convertDimString, TestSourceModelCache::writeFits_EnergyBins", "Likelihood/FitScanner.h: FitScanner"])
p("C133","Scans of a normalization with an optimizer give the profile of the likelihood and leave it usable",
 "Scanning the normalization of a source in a range of energy bins with an optimizer gives equally spaced normalizations around the best one, at a multiple of its uncertainty, and for each the log likelihood of these energy bins with the normalization at that value and other free parameters fitted again; a scan over energies does this for every energy bin. Afterwards the likelihood covers all its energy bins again, the parameters have their best values and it can be evaluated. This holds for one likelihood and for sums. Freezing all parameters and freeing the normalizations of listed sources leaves exactly these normalizations free.",
 "every optimizer that respects bounds and fixed parameters, every list of parameters, number of normalizations and of energy bins, every binned likelihood after any history, every mapping of energy bins of a sum",
 "Which uncertainty is used, what is left behind and which bins contribute depends on the order of free parameters, on bounds and on the state of the likelihood; a test with one source and one likelihood sees none of it.",
 ["src/ScanUtils.cxx: scan_norm_binned, sed_binned, freezeSourceParams, freezeAllParams, freeNormalizations", "src/FitScanner.cxx: FitScanModelWrapper_Binned::set_klims, FitScanModelWrapper_Summed::set_klims"])
p("C134","Replacing counts, weights or the map of a source takes effect",
 "After the counts or the weights of a binned likelihood were replaced, values and derivatives are those of the new data. Making the map of a source again has no effect on them. After the map of a source was replaced by an image, values are those of the model with that image; an image of another size is refused.",
 "every binned likelihood with non-negative energy dispersion setting, every history of adding, deleting and changing sources, evaluations and choices of energy ranges before and after the replacement, every new counts, weights and image",
 "What is computed again depends on which sources are in the cached sum over fixed sources and whether the model is flagged as current, that is, on the whole history before the call.",
 ["src/BinnedLikelihood.cxx: setCountsMap, setWeightsMap, loadSourceMap, setSourceMapImage, getFreeDerivs, buildFixedModelWts", "src/SourceMapCache.cxx: setWeightsMap, loadSourceMap, setSourceMapImage", "src/SourceMap.cxx: setImage, setWeights"])
p("C135","Source maps that are saved are found again",
 "The source maps of a binned analysis may be used, replaced by images of the user, computed again, dropped from memory, forgotten, loaded and saved in files in any order. With named files and fewer than 500 sources, the image used for each source is always the one the user expects; saving puts the images in use in the file, keeps older ones if asked, leaves its other extensions and all other files alone; a new analysis on the file finds the same images. Not so: with 500 sources or more the maps go to other files that are never read; saving without a file name first erases the file of the analysis, with the maps that were not loaded yet; the table of fixed parameters that is found after replacing is the oldest one; using a point source with computePointSources off dereferences a null pointer; saving a range of planes ignores the image in use.",
 "all source lists, images, settings, file contents and histories of calls",
 "Which image is used depends on a pointer map, flags in each map, file names remembered per map and the contents of several files, which every call changes; tests save one small model once in a new file.",
 ["src/SourceMapCache.cxx: getSourceMap, loadSourceMap, loadSourceMaps, saveSourceMaps, saveSourceMap_partial, replaceSourceMap, appendSourceMap", "src/BinnedLikelihood.cxx: saveSourceMaps, saveSourceMap_partial, saveTotalFixedSourceMap, loadSourceMaps", "src/BinnedCountsCache.cxx: saveWeightsMap", "src/SourceMap.cxx: model, setSource"])
p("C136","A livetime cube holds the good livetime of every row of the spacecraft files",
 "The livetime cube written by gtltcube contains, in every direction, exactly the livetime of all rows of all given spacecraft files times the fraction of the row lying in the good time intervals of the event data; the pre-filter and the division of the data into files lose and repeat nothing; the header records the times and the zenith limits used; with no event file the times given as parameters are used; a failing run leaves existing files alone.",
 "all spacecraft files (number, order and lengths of rows), all sets of good time intervals, all directions and ways to weigh them, all settings of clobber and zenith limits, all contents of the disk",
 "Tests use one short file with regular 30 s rows inside one interval; the claims range over all tables, divisions into files and failures.",
 ["src/makeExposureCube/makeExposureCube.cxx: ExposureCube::run, createDataCube, readRoiCuts, writeTableKeywords, getTBounds", "src/LikeExposure.cxx: LikeExposure::load", "src/RoiCuts.cxx: setRoiData, setCuts, getGtis"])
p("C137","Tied parameters stay together, and stay with the parameters they were made for",
 "After any history of setting, adding and removing members, all members of a tied parameter are equal to it, a setter that fails changes nothing, and no other parameter changes; when the parameters are given to the sources these get the values of the tied parameter; fixing or freeing a tied parameter, and deleting or adding sources, leaves the ties with the parameters they were made for.",
 "all numbers of components, sources, parameters and ties, all setters and histories of operations, all positions of the sources deleted or added",
 "Depends on histories of operations and on the positions of sources in the order of their names; a test sees one model in one state.",
 ["src/TiedParameter.cxx: addParam, removeParam, has_member, setName, setValue, setScale, setTrueValue, setBounds, setFree, setAlwaysFixed, setError", "src/SourceModel.cxx: addSource, deleteSource, syncParams, setParams_", "src/Composite2.cxx: syncParams"])
p("C138","The size of a map encloses it, and the map computed for a diffuse source covers the counts map",
 "The radius of a map encloses all its pixels; for a counts map in healpix pixels the method is chosen by the sizes of source and map, and the map in the plane from which the counts are taken has a place for every direction of the counts map to which the source contributes; the result depends on nothing but the source, the maps and the options, and is the same for a copy of the counts map.",
 "all projections that depend on the distance only, all positions of the reference point and numbers of pixels, all sizes of sources, maps and pixels, all directions and all contents of the memory",
 "The failures are at the border of maps, for maps beyond a right angle, for corners that are not on the sky, in copies and in uninitialised memory; tests use small maps in the middle of the sky.",
 ["src/WcsMap2.cxx: constructors, getCorners", "src/ProjMap.cxx: skyDir, withinMapRadius", "src/DiffuseSource.cxx: computeMapRadius", "src/PSFUtils.cxx: neededMapSize, makeDiffuseMap, makeDiffuseMap_native, fillHealpixFromWcsMap", "src/CountsMapHealpix.cxx: constructors, latchCacheData, globalToLocalIndex, localToGlobalIndex"])
p("C139","Maps are values: each has a projection of its own, and none is lost",
 "A counts map or sky map can be copied, assigned, rebinned, converted, used and destroyed like a value: no call on one map changes or destroys what another one uses, the calls the client may make never touch a freed projection, and when all maps are destroyed nothing stays allocated.",
 "all histories of calls, all maps and geometries, all numbers of energy bands",
 "The failures are uses of freed memory, which depend on the order in which maps are made and destroyed and usually leave no trace in a test.",
 ["src/ProjMap.cxx: copy constructors, operator=, destructor, setProjInfo", "src/WcsMap2.cxx: constructor from a counts map, convolveAll, rebin", "src/HealpixProjMap.cxx: constructor from a counts map", "src/CountsMapBase.cxx: copy constructors, destructor", "src/CountsMap.cxx: makeProjMap, makeBkgEffMap", "src/CountsMapHealpix.cxx: makeProjMap, makeBkgEffMap"])
p("C140","Choosing a test source for a scan leaves the source model alone",
 "Between any calls that add, remove and look at sources of the model, the scanner's test source can be chosen again and again (made from a power law or a spectrum, taken from the model by name, or handed in): the scan uses the source chosen last, the model keeps exactly the sources the client put into it, a choice that fails changes nothing, no source is destroyed twice or used after destruction, and none is left behind. A scan for a map takes the tolerance type and the number of iterations as they are given.",
 "all histories of calls on a model and its scanner, with any names and sources; for the map: all data, models, tolerances and numbers of iterations",
 "which object is destroyed depends on the whole history of names and ownership; unit tests choose one test source and scan once",
 ["src/FitScanner.cxx: FitScanner::setPowerlawPointTestSource, setPointTestSource, setTestSourceByName, setTestSource, removeTestSourceFromModel, buildTestModelCache, run_tsmap, run_SED", "src/SourceModel.cxx: addSource, deleteSource", "Likelihood/FitScanner.h"])
p("C141","A scan of a sum of likelihoods uses the sum of the likelihoods of the components",
 "FitScanner on a SummedLikelihood merges counts, templates, fixed models, test source and weights of the components into one set of vectors. For all normalisations the log-likelihood computed from the merged vectors is the sum over the components of their own log-likelihoods, each source being scaled with the normalisation that has its name.",
 "all sums of binned likelihoods, with any energy bins, pixels, counts, predictions and weights, all names of free sources in each component, all normalisations of the sources and of the test source",
 "The result depends on how energy bins of all components interleave, and whether each template ends up beside the counts of its own component and pixel; tests use two identical components. That names are taken from the first component only shows when the sets of free sources differ.",
 ["src/FitScanner.cxx:FitScanModelWrapper_Summed::extractModels", "src/FitScanner.cxx:FitScanModelWrapper_Summed::FitScanModelWrapper_Summed", "src/FitUtils.cxx:getLogLikelihood"])
p("C142","Dark-matter spectra are those of their files, and so are their gradients",
 "A DMFitFunction spectrum returns norm*sigmav/(8 pi mass^2) times the photon numbers of the table it was told to read, for both channels weighted with the branching ratio, interpolated between the tabulated energies and (in the square of the mass) the tabulated masses, zero above the mass; its derivatives by norm, sigmav, mass and bratio are those of that flux. This holds for every mass of the table and for every spectrum of a model, whatever other spectra read.",
 "all tables, all sequences of reads, all parameter values and scales, all channels and energies; all increasing lists for the search",
 "Tests look at one mass with all scales equal to one and one file; neither the ends of the table, nor scales, nor two functions in one model are tried.",
 ["src/dmfit/DMFitFunction.cxx:DMFitFunction::value", "src/dmfit/DMFitFunction.cxx:DMFitFunction::derivByParamImp", "src/dmfit/DMFitFunction.cxx:DMFitFunction::readFunction", "src/dmfit/dmfit_func.c:dmfit_de__", "src/dmfit/dmfit_func.c:dmfit_dm__", "src/dmfit/dmfit_comm.c:ifind_", "src/dmfit/dmfit_load.c:dmfit_load__"])
p("C143","Every source is weighted by the weights map given last",
 "Weights maps come from the library of maps and are shared by likelihood objects. Whatever the order in which objects are made, told to use other weights or none, told not to keep the map, and in which sources are added, merged into composite sources, split off and re-made, the weighted sums of each source are made with the weights given last to its likelihood object, and no map is used after it was freed; likewise for the maps for ranges of phases that AppHelpers objects have.",
 "all histories of calls on any number of likelihood objects, sources (nested composites included), files and helper objects; all contents of files; all allocators",
 "Tests set the weights once, before sources are added, on one likelihood object; whether a map is dangling or an address was used again depends on the whole history and on the allocator.",
 ["src/WcsMapLibrary.cxx:WcsMapLibrary::wcsmap", "src/WcsMapLibrary.cxx:WcsMapLibrary::delete_map", "src/BinnedCountsCache.cxx:BinnedCountsCache::setWeightsMap", "src/BinnedCountsCache.cxx:BinnedCountsCache::fillWeightedCounts", "src/SourceMapCache.cxx:SourceMapCache::setWeightsMap", "src/SourceMap.cxx:SourceMap::setWeights", "src/BinnedLikelihood.cxx:BinnedLikelihood::setWeightsMap", "src/CompositeSource.cxx:CompositeSource::buildSourceMapCache", "src/AppHelpers.cxx:AppHelpers::~AppHelpers"])
p("C144","A composite source has the counts of its parts",
 "Merging sources of a binned likelihood into a composite source with spectrum f gives, in every energy bin and pixel and in total, the counts of the sum of the parts times f; with f = 1 the predicted counts do not change by merging. This holds for parts stored in full or sparsely, for nested composite sources, with energy dispersion and with a map for a range of phases.",
 "all numbers of parts and depths of nesting, all images, spectra, energies, pixels, phase maps and corrections",
 "Tests merge two point sources with one set of parameters, no energy dispersion and no phase map; equality of the counts needs the linearity of the whole chain for all images and spectra.",
 ["src/CompositeSource.cxx:CompositeSource::fillSummedSourceMap", "src/PSFUtils.cxx:makeCompositeMap", "src/SourceMap.cxx:SourceMap::make_model", "src/SourceMap.cxx:SourceMap::applyPhasedExposureMap", "src/SourceMap.cxx:SourceMap::computeNpredArray", "src/SourceMapCache.cxx:SourceMapCache::fillSummedSourceMap", "src/FitUtils.cxx:model_counts_contribution"])
p("C145","The likelihood of one source: value, derivative and parameters",
 "The likelihood of a single source over weighted events (the function maximised in the EM fit) is the weighted sum of the logarithms of the flux densities minus the predicted number; the derivative it reports is the derivative of that value; parameter values set through it are those of the source and are read back, also after an exception.",
 "all events, weights, flux densities, limits, parameters of the source, bounds and values",
 "Tests evaluate one source at one set of parameters; that the derivative belongs to the value, and that object and source agree, must hold for all events, values and failing calls.",
 ["src/OneSourceFunc.cxx:OneSourceFunc::value", "src/OneSourceFunc.cxx:OneSourceFunc::derivByParamImp", "src/OneSourceFunc.cxx:OneSourceFunc::syncParams", "src/OneSourceFunc.cxx:OneSourceFunc::setFreeParamValues_", "src/OneSourceFunc.cxx:OneSourceFunc::setParamValues_", "src/OneSourceFunc.cxx:OneSourceFunc::setParams"])
p("C146","The question for a further fit",
 "gtlike with refit=yes repeats the fit as long as the user answers return or y and ends at any other answer; without refit it fits once and reads nothing.",
 "all sequences of answers and further input, all effects of a fit, any number of turns",
 "An automatic test answers once; that the dialogue can always be ended concerns all sequences of lines, among them answers longer than one character and the end of the input.",
 ["src/likelihood/likelihood.cxx:likelihood::run", "src/likelihood/likelihood.cxx:likelihood::prompt"])
p("C147","Sampled angles for the diffuse response of an event",
 "The diffuse response of an event is the integral of response times source over the sky, made at angles from the event drawn at equal steps of a log-normal distribution which belongs to the band of energy of the event; every event energy has a sample, and the sample covers the sky.",
 "all error functions that do not decrease, all widths, means, numbers of angles and energies, all energies, responses and sources",
 "A test uses the built-in width and a few energies; that every energy finds its band, that every level is bracketed by the grid and that the whole sky is covered concerns all of them.",
 ["src/LogNormalMuDist.cxx:LogNormalMuDist::createSample", "src/LogNormalMuDist.cxx:LogNormalMuDist::energyIndex", "src/LogNormalMuDist.cxx:LogNormalMuDist::muPoints", "src/Event.cxx:Event::computeResponse"])
p("C148","Files that gtlike leaves",
 "gtlike writes only the files named as its outputs; with clobber=no it overwrites nothing that exists, with save=no it writes neither results nor spectra, and with save=yes results, spectra and model are those of the last fit.",
 "all parameter values and file names, all contents of the file system, any number of repeated fits with any edits by the user between them, all ways a step can fail",
 "A test runs in an empty directory with the usual names; existing files, equal names, exceptions on the way and repeated fits are combinations that have to be treated for every file system.",
 ["src/likelihood/likelihood.cxx:likelihood::run", "src/likelihood/likelihood.cxx:likelihood::printFitResults", "src/likelihood/likelihood.cxx:likelihood::writeSourceXml", "src/likelihood/likelihood.cxx:likelihood::writeCountsSpectra", "src/AppHelpers.cxx:AppHelpers::checkOutputFile"])
p("C149","The projection of the source maps in the file",
 "gtsrcmaps gives every source map in its output file the projection keywords of the counts map in the primary header and changes nothing else; doing so again changes nothing.",
 "all files: any number of parts, names, kinds, headers and data",
 "A test file holds a few sources with ordinary names; that every image agrees with the counts map must hold for all names and headers, among them names shared with tables or with other parts.",
 ["src/SourceMapCache.cxx:SourceMapCache::copyWcsToExtensions", "src/gtsrcmaps/gtsrcmaps.cxx:run"])
p("C150","The file of a scan holds what the scan asked for",
 "After a scan the file holds, in the parts named by the mask, a column for each quantity that was asked for, with one row for each position and the values that were found, and nothing else; the primary part has the map of the test statistic; parts outside the mask are left alone; columns have their units. The same scanner can be run several times, and the file is that of the last run.",
 "all grids (two axes or HEALPix), options, fit results, masks, templates and histories of runs",
 "The file mixes many histograms whose existence depends on options, and its content depends on all earlier runs of the same scanner object.",
 ["src/FitScanner.cxx: FitScanner::run_tscube, writeFitsFile, writeFitsImage, writeFitsTable_byPixel, buildHist, FitScanModelWrapper::writeFits_FluxTable, setUnitKeyword", "Likelihood/FitScanner.h: Out_Location"])
p("C151","Source region, good times and header times of the exposure map program",
 "The program that makes exposure maps for unbinned analyses refuses a source region smaller than the region of the events, warns if it is not larger by ten degrees, takes the good times from the livetime cube if one is given and from the events otherwise, and writes as start and stop times the earliest start and the latest stop of these good times.",
 "all radii, all lists of good times of events and livetime cube",
 "The loop over good times leaves out the ends of the list, which only shows for lists in an unusual order; hand-made livetime cubes may have any.",
 ["src/expMap/expMap.cxx: ExpMap::setSourceRegion, ExpMap::createExposureMap"])
p("C152","The scan programs write what was scanned, with the weights asked for",
 "gttscube and gthealcube leave a file that holds the test statistic map, both tables, the energies and the first fit of the scan the user asked for, with the map of weights the user named; a program that could not do the scan does not end as if it had. An existing file that may not be overwritten is left alone, and a target source or weights map that does not exist is an error.",
 "every grid, every number of normalisations and level of the standard fitter, every set of files, maps and sources, every choice of names, and every outcome of the scan as a function of the weights",
 "It ranges over all results of the scan and all states of the file system; a test runs one scan on one data set, and cannot see that the weights made no difference.",
 ["src/TsCube/TsCube.cxx: TsCube::run, computeMap, writeFitsFile", "src/TsCube/HealCube.cxx: HealCube::run, computeMap, writeFitsFile", "src/AppHelpers.cxx: AppHelpers::makeBinnedLikelihood, checkOutputFile", "Likelihood/FitScanner.h: run_tscube, writeFitsFile"])
p("C153","Counts predicted pixel by pixel are the counts the likelihood predicts",
 "The functions that add up the model map pixel by pixel (npred_explicit, npred_explicit_src, spectrum_explict, nll_explict) agree with the rest of the likelihood: the total is the sum over sources, the spectrum of a source adds up to its total, the total is the number of counts the likelihood keeps for the source, and the negative log-likelihood is minus the logarithm of the Poisson likelihood of the summed map; asking for weights that are not there is an error.",
 "every binning, every list of source maps with any spectra and any energy dispersion setting, every map of weights, and every counts map",
 "The unit test compares the numbers for one source and one weights map to within 0.01; whether they agree for every map, weight and dispersion setting it cannot say.",
 ["src/BinnedLikelihood.cxx: BinnedLikelihood::npred_explicit, npred_explicit_src, nll_explict, spectrum_explict", "src/SourceMapCache.cxx: SourceMapCache::computeModelMap", "src/FitUtils.cxx: FitUtils::sumVector, innerProduct, logLikePoisson"])
p("C154","A source factory is a table of sources by name",
 "For every history of calls on a source factory (create, release, add with or without cloning, replace, listing the names, reading a model file, reading a composite source, destruction) by a client that uses only the sources it owns: no call uses or deletes a source that is gone; create gives a copy of what was registered under the name, however the client changed its own source since; release hands over that very source; add and the others refuse exactly when they should and then change nothing; the names are those registered, in order. Every source in memory is a prototype, owned by the client, or one of those lost when files are read; without files nothing is lost. Violated: replacing a prototype by itself reads a deleted name; a file with a name given twice is refused, but the sources before the second one stay, so that the corrected file is refused as well, and the rest is lost; of every part of a composite source a copy is lost.",
 "all histories of calls, all names and contents of sources, all lists of sources in files",
 "Which source is alive and who owns it depends on the whole history of calls; deleting twice, reading after deletion and losing a source have no visible outcome in a unit test.",
 ["src/SourceFactory.cxx:SourceFactory::create", "src/SourceFactory.cxx:SourceFactory::releaseSource", "src/SourceFactory.cxx:SourceFactory::addSource", "src/SourceFactory.cxx:SourceFactory::replaceSource", "src/SourceFactory.cxx:SourceFactory::~SourceFactory", "src/SourceFactory.cxx:SourceFactory::readXml", "src/SourceFactory.cxx:SourceFactory::makeCompositeSource", "Likelihood/SourceFactory.h"])
p("C155","The inclination limits in a livetime cube are those of its bins",
 "For both ways of binning the cosine of the inclination (in equal steps of the cosine or of the square root of one minus it), any number of bins and any smallest cosine below one: the table of limits has one row per bin, from one down to the smallest cosine, each row beginning where the one before ends; the limits of row k are those of bin k; every cosine above the smallest one is in exactly one row. gtltsum, which compares these limits, lets two cubes pass exactly if they have the same bins.",
 "all numbers of bins, all smallest cosines below one, both binnings, all cosines, all pairs of cubes",
 "A test compares the limits for one binning; whether each row is the bin that the livetime of the same index was put in, and whether equal limits imply equal bins, is a statement about all of them.",
 ["src/LikeExposure.cxx:LikeExposure::computeCosbins", "src/LikeExposure.cxx:LikeExposure::writeCosbins", "src/gtaddlivetime/gtaddlivetime.cxx:AddLivetime::get_costheta_bounds", "src/gtaddlivetime/gtaddlivetime.cxx:AddLivetime::check_costheta_bounds"])
p("C156","A source has the counts of the place where it is, whatever was added, deleted and moved before",
 "In a binned likelihood, after any history of adding, deleting, removing (by a scan), moving and using sources and of erasing their maps, the counts of every source are those of a source at its present place, and the sums over the fixed sources (counts and predicted numbers) contain every fixed source exactly once, at its place.",
 "all histories of operations on a binned likelihood, all names, places, addresses of the source objects (also reused ones), all settings of save_all_srcmaps, use_single_fixed_map and delete_local_fixed",
 "A test adds a source once; what is shown after a source was replaced under its name or moved depends on the whole history of the cache of maps and on whether the map was cleared in between.",
 ["src/BinnedLikelihood.cxx: BinnedLikelihood::addSource, deleteSource, addFixedSource, addSourceCounts", "src/SourceMapCache.cxx: SourceMapCache::getSourceMap, computeModelMap, eraseSourceMap", "src/SourceMap.cxx: SourceMap::setSource, make_model, reloadIfCleared, resetSourceData", "src/FitScanner.cxx: FitScanModelWrapper_Binned::removeSource"])
p("C157","gtpsf writes the PSF at the energies and angles asked for",
 "gtpsf writes one row per energy, the energies running from emin to emax at equal logarithmic distances, with the exposure at that energy and the PSF at every angle, the angles running from zero to thetamax with equidistant roots; an existing file is left alone unless clobber is set.",
 "all energy ranges, numbers of energies and angles, greatest angles, PSFs, exposures, and contents of the output file",
 "A test runs one grid; the ends of the grids, the single energy and the range of int matter for other numbers.",
 ["src/meanPsf/meanPsf.cxx: meanPsf::run, computeEnergies, computeThetas, writeFitsFile"])
p("C158","gtdiffrsp works on the event files it should, and converts files of the old form without losing responses",
 "A compressed event file is refused, others are not; all files of a run have the same PASS_VER; a run stops at the first file that cannot be worked on, with those before it done and those after it not touched; an event file without NDIFRSP is converted, if that is asked for, such that every component has exactly the responses it had, and no other column changes. The code keeps the first only for names of at least three characters in which .gz and .Z are nowhere but at the end (a.gz.gz is accepted, every name of one or two characters is refused), and the second only if no version is empty.",
 "all lists of event files with any names, versions, keywords and columns, whatever the work on each file does",
 "The checks depend on the names, the order and the headers of all files of a run; tests use one file with an ordinary name.",
 ["src/diffuseResponses/diffuseResponses.cxx: diffuseResponses::run, testPassVersion, checkColumnVersion, convert_header"])
p("C159","A run of gtfindsrc changes only its output file and, if asked, the position of its target in the source model",
 "Without clobber no file that exists is changed; no file but outfile and srcmdl is ever changed; with clobber the source model is written if and only if the target is in it, with the target at the position found and the other sources as the search left them; a run that fails changes nothing. The code does not keep this for a target called testSource (its position is not written), makes every run fail for a model with a source of that name and a target that is not in it, leaves a report behind when the position cannot be stored, and refuses outfile=none if a file of this name exists.",
 "all source models, names, files, options and all outcomes of the search",
 "What is written depends on the combination of names, clobber and where in the run a failure occurs.",
 ["src/gtfindsrc/gtfindsrc.cxx: findSrc::run, promptForInputData, readSrcModel, identifyTarget, fitPosition, setTestSource"])
p("C160","A HEALPix counts map that is written and read again has the same counts",
 "Writing a HEALPix counts map and reading the file gives the same counts for each pixel and energy, whether or not the map covers the sky; a table whose number of rows is not the number of pixels is refused; a table with another number of columns of counts than there are energy bins should be refused, and the dimensions of a map should be those of its axes. The code reads a table with fewer columns without an error, writes outside of the counts for one with more, goes by the order of the columns and not by their numbers, and reads outside of the list of axes when a scan asks for the third axis of a HEALPix map.",
 "all numbers of pixels and energy bins, all counts, all tables with any columns",
 "The reader goes by the position of columns with a certain prefix, whatever their number; the tests read one file that fits.",
 ["src/CountsMapHealpix.cxx: CountsMapHealpix, readImageData, writeOutput", "src/FileUtils.cxx: replace_image_from_hist_hpx", "src/HistND.cxx: setSlice, getSlice, binIndex", "src/CountsMapBase.cxx: imageDimension", "src/FitScanner.cxx: TestSourceModelCache::TestSourceModelCache"])
p("C161","A run of gtsrcmaps leaves the counts and a map of every source in its output",
 "After a run of gtsrcmaps the output file has the counts and, for each source of the model (without the point sources if these are not asked for), its map; other extensions are there exactly if they were to be copied; no other file is changed, and without clobber, or if a check fails, no file at all. Every map should be that of the source as it is in the model, for any number of sources, and the input should be kept. The code takes over maps found with the counts map even if the source was moved since, puts no map into the output if there are 500 sources or more, and replaces the file of the counts map, with the maps of other sources in it, if that is the output.",
 "all models, all contents of the files, all names of input and output, all settings of clobber, copyall and ptsrc",
 "The outcome depends on what is in the file of the counts map, on the number of sources and on file names; the tests run the program once with a few sources.",
 ["src/gtsrcmaps/gtsrcmaps.cxx: run", "src/AppHelpers.cxx: checkOutputFile, makeBinnedLikelihood", "src/SourceFactory.cxx: makeSources", "src/BinnedLikelihood.cxx: buildFixedModelWts, saveSourceMaps", "src/SourceMapCache.cxx: getSourceMap, saveSourceMaps"])
p("C162","The radius of the correction of a point-source map is the distance to the edge of the map",
 "The boundary directions of a counts map are those of the corners of the pixels at its edge, all of them and no others; the radius within which the map of a point source is normalised is the least angle from the source to one of them; the radius of the map about its middle is the largest angle to a pixel. The circle of that radius should be in the map, and a map should be made for every counts map whose pixels can be used. In the code the circle can leave the map, by at most half a pixel, and a counts map with a single corner at the edge that is not on the sky, as an Aitoff map of the whole sky, is refused for every point source even if no correction is asked for.",
 "all numbers of pixels, all projections, all positions of the source, all angles",
 "The relation between corners and sides is geometry for all positions; projections that do not cover their rectangle are not in the tests.",
 ["src/CountsMap.cxx: getBoundaryPixelDirs", "src/CountsMapBase.cxx: getAxisVector", "src/PSFUtils.cxx: maxPsfRadius, maxRadius, makePointSourceMap_wcs"])
p("C163","The table of energy bins of a scan has the reference values of its test source",
 "In the file of a scan, the table of the energy bins has the bounds of each bin in keV, a reference energy in the bin in the same unit, and the flux, energy flux, number of events and spectrum of the test source of that scan, whatever test sources were used before. The code writes the reference energy in MeV, so that it is outside of its bin; if the exposure of a test source cannot be computed, the values are those of the source before or, for the first, zeros, without an error; and without a test source the values are read outside of their lists.",
 "all sequences of test sources, all energies and numbers of bins",
 "The failure of the exposure is swallowed and only shows after another source; tests use one source.",
 ["src/FitScanner.cxx: FitScanModelWrapper::cacheFluxValues, writeFits_EnergyBins, writeFits_FluxTable, FitScanner::buildTestModelCache", "src/FitUtils.cxx: extractSpectralVals"])
p("C164","The map of a disk or a Gaussian has the response of each pixel times its exposure",
 "Each pixel of the map of a source with a spatial function holds the response of the source at the distance of the pixel times the exposure at the pixel, up to the error of the interpolation over less than a pixel; pixels that are not on the sky hold zero. The code interpolates a table of responses that starts at the middle of the source, has steps of at most two thirds of a pixel and reaches beyond the farthest pixel, so that the response is right up to its change over such a step; but it takes the exposure at the middle of the source for every pixel, so that the counts are wrong wherever the exposure differs.",
 "all pixel sizes and extents of the map, all responses, exposures and images, with and without an exposure",
 "The error depends on the response and the position of every pixel relative to a grid of distances; tests compare one source on one map.",
 ["src/WcsMap2.cxx: WcsMap2::convolve (SpatialFunction)", "src/PSFUtils.cxx: PSFUtils::makeDiffuseMap_wcs"])
p("C165","The kind of a map file is recognised, and the exposure checked against it",
 "A counts map or exposure map whose primary image has at least two axes is read as an image; one with an empty primary image and a table of HEALPix pixels in the extension for such maps is read as HEALPix; everything else is refused; the same holds for a map in a named extension; and the check of an exposure map only passes if the exposure covers the counts. In the code a table whose keyword only begins with HEALPIX is accepted; for a named extension the primary image decides, so that images in an extension behind an empty primary image and HEALPix tables behind an image are refused; and for HEALPix counts an exposure image counts as covering the sky by its size alone, although a pole may not be on it.",
 "all files with any primary image and any extensions, all extension names, all geometries of exposure maps",
 "Depends on the combination of primary image, extensions and keywords; tests have files of two kinds.",
 ["src/AppHelpers.cxx: AppHelpers::checkProjectionMethod, readCountsMap, readBinnedExposure, checkExposureMap, checkExposureMap_healpix", "src/WcsMapLibrary.cxx: WcsMapLibrary::wcsmap", "src/BinnedExposure.cxx: BinnedExposure(filename)", "src/WcsMap2.cxx: WcsMap2(filename, extension)"])
p("C166","The plot of counts spectra shows the counts and the model of every energy bin",
 "The plot at the end of a fit has for each energy bin a point inside the bin whose height and error times the width of the bin are the observed counts and their uncertainty, for each source a line with its expected counts, a line with their sum, and the residual of each bin in units of the expected counts; without bins the lines are drawn more finely than the points. The code does this if in every bin counts are expected; where none are, the residual is a division by zero; without a source the plot ends in an exception; a source with fewer counts than bins is read outside of its list; and the lines are drawn at the same energies as the points.",
 "all increasing energies, all observed counts, all lists of sources and their counts",
 "The plot is drawn on a screen and needs a display; tests never make it.",
 ["src/likelihood/likelihood.cxx: likelihood::plotCountsSpectra", "src/CountsSpectra.cxx: CountsSpectra::setEbounds"])
p("C167","Effective areas depend on the azimuth as the livetime cube does, whatever was computed before",
 "The effective area used for a livetime cube with azimuth depends on the azimuth unless the user asked to ignore it, and for a cube without it is averaged; exposures of point sources and response matrices choose by themselves and leave the response functions as they were; no result depends on what was computed before. In the code making the area for a cube without azimuth switches the azimuth off in the shared response functions for good: later cubes with azimuth and events get averaged areas, and an area object in use answers with the azimuth where it was asked before and without it elsewhere.",
 "all response functions and event types, all sequences of operations, all directions",
 "The defect needs two livetime cubes in one program, in a certain order; each test makes one.",
 ["src/ExposureCube.cxx: ExposureCube::Aeff::Aeff, Aeff::value, AeffBase::operator()", "src/PointSource.cxx: PointSource::Aeff::value", "src/Drm.cxx: Drm::matrix_element", "src/gtexpcube2/gtexpcube2.cxx: ExpCube::set_phi_status", "src/ResponseFunctions.cxx: ResponseFunctions::totalResponse"])
p("C168","A snapshot of a source keeps its parameters to itself",
 "A snapshot of a source that clones the parameters holds the values the source had when it was taken, whatever happens to the source later, leaves the source alone, sees no change of type right after it was taken, and gives back exactly the memory it took when it is destroyed; a snapshot that does not clone takes and frees nothing; a deep copy makes a snapshot independent of its source; copies of a snapshot can be destroyed independently; a snapshot that is taken again of an unchanged source sees no change.",
 "every memory, every source with any number of spectral and spatial parameters, every later change of the memory the source lives in",
 "Use of freed memory depends on the order of the calls and mostly goes unnoticed in a test; that the values survive any change of the source is a statement about all later histories.",
 ["src/Snapshot.cxx:Snapshot_Source::latch_source", "src/Snapshot.cxx:Snapshot_Source::deep_copy", "src/Snapshot.cxx:Snapshot_Source::~Snapshot_Source", "src/Snapshot.cxx:Snapshot_Source::extract_spatial", "src/Snapshot.cxx:Snapshot_Source::delete_map", "Likelihood/Snapshot.h:Snapshot_Source"])
p("C169","The cached response does not change the flux density of a source",
 "The flux density of a source at an event, and its derivatives, are the same whether or not the response of the instrument is taken from a cache: for point, diffuse and composite sources, however deeply composite sources are nested, for every order of calls and whatever happens to the spectra, and to the position of the source, between the calls.",
 "every tree of sources with any spectra and responses, every history of calls with the same cell",
 "The cache is filled by the first call of a fit with thousands of events and used by all later ones; a test that evaluates a source once, or a composite source with one point source, never sees the difference.",
 ["src/PointSource.cxx:PointSource::fluxDensity", "src/PointSource.cxx:PointSource::fluxDensityDeriv", "src/CompositeSource.cxx:CompositeSource::fluxDensity", "src/CompositeSource.cxx:CompositeSource::fluxDensityDeriv", "Likelihood/EventSourceCache.h:CachedResponse", "src/LogLike.cxx:LogLike::logSourceModel", "src/SourceModel.cxx:SourceModel::reReadXml"])
p("C170","gtalphabkg and gtwtsmap write the weights of the background maps they are given, at the centres of the energy bins, with keywords that say how they were made",
 "gtwtsmap run on a map of the effective background writes, for every pixel and energy bin, factor/(1 + epsilon^2 b), where the factor is one when no map of factors is given (\"none\" or an empty name) and otherwise that of the map; the energies in the file are the geometric centres of the bins of the background map, and EPSILON, BKGMAP and ALPHAMAP record the inputs. gtalphabkg writes, in the form of the first map, the factors for the smallest background of all inputs; running it and then gtwtsmap for one of its inputs gives weights above zero and at most one. A map that is missing ends the tools with an exception.",
 "all contents of the disk, names, epsilons, numbers of components, map sizes of at least twenty values and non-negative backgrounds",
 "the result depends on two tools run one after the other through a file, on every pixel of every map; the tests run no tool, and never write a HEALPix map of weights",
 ["src/gtwtsmap/gtwtsmap.cxx: computeWtsMap, updateDssKeywords", "src/gtalphabkg/gtalphabkg.cxx: computeAlphaBkg", "src/CountsMap.cxx: writeAsWeightsMap", "src/CountsMapHealpix.cxx: writeAsWeightsMap", "src/CountsMapBase.cxx: makeAlphaMap, makeWtsMap, addAlphaMapKeywords, addWtsMapKeywords", "src/FileUtils.cxx: replace_energies"])
p("C171","Every source map of a binned analysis has exactly one owner, and is deleted once",
 "Whatever sequence of asking for, erasing, removing and handing over source maps a client goes through, as long as it hands over only maps it holds, no map is deleted twice or lost: each living map is in the cache under one name or held by the client, and when the cache goes away exactly the maps the client holds are left. Asking twice gives the same map; erasing frees the name and deletes its map, and leaves the others; a removed map belongs to the client; handing over a map for a name in use is an exception that changes nothing. Adding a source to a binned likelihood with a map hands that map over.",
 "all caches, names, addresses and histories of operations of any length",
 "a double deletion or a leak depends on the whole history of the cache; the unit tests add and delete a few sources and never pass a map on",
 ["src/SourceMapCache.cxx: ~SourceMapCache, getSourceMap, eraseSourceMap, insertSourceMap, removeSourceMap", "src/BinnedLikelihood.cxx: addSource, addFixedSource"])
p("C172","The three numbers that stand for a diffuse response are its integral, mean energy and width",
 "For a response that is nowhere negative, given at ascending true energies, with a positive integral by the trapezoid rule, the stored parameters are that integral, the mean energy, which lies within the energies, and a real non-negative width whose square is the mean square less the square of the mean. The response made again from parameters with a width has one positive value per energy, is largest at the mean, the same on both sides of it, and falls off as a Gaussian of that width.",
 "all lists of energies and responses of any length, all parameters",
 "that the variance is never negative, so that the root is real, is the inequality of Cauchy and Schwarz for every list; tests can only sample",
 ["src/Event.cxx: computeGaussianParams, setDiffuseResponse, Event"])
