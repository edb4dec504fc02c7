#!/usr/bin/env python3
"""Generates properties.jsonl (one JSON object per line) from the table below."""
import json, os
P = []
def p(id, title, statement, quantifier, why, anchors):
    P.append(dict(id=id, title=title, statement=statement, quantifier=quantifier,
                  why_tests_cant=why, anchors=anchors))

p("C01", "Sparse storage reads like dense storage",
  "After any history of push_back, fill_from_vect, clear and swap, reading element i of a SparseVector gives what a plain vector with the same history holds at i, its size is that vector's size, its stored entries are exactly the non-null elements in index order, and expanding it into a fresh vector gives the plain vector back.",
  "every history of operations, every element value, every index",
  "the history and the pattern of null elements are unbounded; tests pick a handful of patterns",
  ["Likelihood/SparseVector.h: SparseVector::push_back, operator[], fill_from_vect, fill_vect, swap, clear_data"])
p("C02", "Sub-range extraction from sparse storage",
  "Extracting the half-open range [first,last) of a SparseVector into a vector writes only inside that vector and yields exactly the elements first..last-1.",
  "every sparse vector, every pair first <= last <= size",
  "the failing boundary (an element stored exactly at index last) is easy to miss with sample data",
  ["Likelihood/SparseVector.h: fill_vect(first,last,..), fill_map, fill_key_and_value"])
p("C03", "The accumulators return the sum of what was added",
  "Whatever sequence of add() and total() calls is made, each total() of an Accumulator or Kahan_Accumulator equals (in exact arithmetic) the plain sum of the values added since the previous total(), so accumulated likelihood terms are never dropped, duplicated or carried over.",
  "every interleaving of add and total calls, every value",
  "the internal re-binning depends on the whole history, including earlier totals that set the bin bounds",
  ["Likelihood/Accumulator.h: Accumulator, Kahan_Accumulator, SumByNumber", "src/Accumulator.cxx"])
p("C04", "The list of filled pixels is exactly the pixels with counts",
  "After loading or replacing the counts map, the filled-pixel list, split at the first-pixel offsets, contains for each energy plane exactly the pixels whose (weighted) counts are positive, in increasing order, each once; the offsets are monotone and the last one is the length of the list.",
  "every number of energy planes and pixels, every counts cube and weights cube",
  "all later likelihood sums run over this list, any missing or duplicated pixel silently changes the result; shapes are unbounded",
  ["src/BinnedCountsCache.cxx: identifyFilledPixels, fillWeightedCounts, setCountsMap"])
p("C05", "Observed counts spectrum and weighted counts",
  "Each element of the observed counts spectrum is the sum of the counts map over that energy plane, the weighted counts are data*weight with non-positive weights or data counted as 0, and the total of the spectrum is the total of the map.",
  "every cube shape, every data and weight values",
  "index arithmetic over all shapes",
  ["src/BinnedCountsCache.cxx: computeCountsSpectrum_wcs, computeCountsSpectrum_healpix, fillWeightedCounts"])
p("C06", "Compressing empty pixels does not change the scan likelihood",
  "For non-negative data and model cubes made of whole energy planes, the Poisson log-likelihood computed on the compressed data and compressed model (empty pixels of each plane merged into one placeholder bin) equals the one computed on the full cubes, and compression commutes with summing normalised templates.",
  "every number of planes, pixels, data pattern, model and normalisations",
  "depends on the position of every empty pixel, including empty planes and leading/trailing ones",
  ["src/FitUtils.cxx: extractNonZeroBins, sparsifyModel, logLikePoisson, sumModel"])
p("C07", "Compressing empty pixels with likelihood weights",
  "With per-pixel weights the compressed weighted log-likelihood equals the full weighted log-likelihood.",
  "every data, weights, reference model and evaluated model",
  "the compressed weights are averages taken at one reference model; agreement at that model does not show agreement elsewhere",
  ["src/FitUtils.cxx: sparsifyWeights, logLikePoisson (weighted)"])
p("C08", "Fixing templates into the background keeps the total model",
  "Moving any subset of the templates, at their current scale factors, into the fixed component leaves the summed model unchanged in every bin, and adding the test source at normalisation zero does not change it either.",
  "every subset of templates, every scale factors, template contents, bin count",
  "2^n subsets of templates",
  ["src/FitUtils.cxx: refactorModels, sumModel, vectorAdd"])
p("C09", "Scan gradient and Hessian are the derivatives of the scan likelihood",
  "The gradient and Hessian used by the Newton normalisation fit are exactly the first and second partial derivatives of minus the (weighted) log-likelihood value that the same fit reports, with respect to the template normalisations.",
  "every data (bins empty or with weighted content above the code's threshold 1e-9), weights, templates, prior, bin range, normalisations with positive model",
  "a continuum of points; finite differences only approximate",
  ["src/FitUtils.cxx: getGradientAndHessian, getLogLikelihood, fracDiff, data_over_model2, innerProduct"])
p("C10", "Newton fit never returns negative normalisations",
  "Starting from non-negative normalisations, every iterate and every returned normalisation vector of fitNorms_newton is non-negative, whatever the data, templates and matrix-inversion results are.",
  "every data, templates, prior, tolerance, iteration limit, damping, and any result of the linear solver",
  "the retry logic has to hold for every solver output and any number of iterations",
  ["src/FitUtils.cxx: fitNorms_newton, getDeltaAndCovarAndEDM (both overloads)"])
p("C11", "Newton fit reports the log-likelihood of the parameters it returns and never makes the fit worse",
  "On successful return the reported log-likelihood is the log-likelihood at the returned normalisations, and with damping it is at least the log-likelihood of the starting point.",
  "every data, templates, tolerance, iteration limit, damping",
  "unbounded number of accepted and rejected steps",
  ["src/FitUtils.cxx: fitNorms_newton"])
p("C12", "Energy grid expansion for energy dispersion",
  "Expanding an energy grid by n bins on each side keeps the original edges in the middle, has 2n more edges, continues both ends with constant logarithmic steps, and keeps the grid strictly increasing.",
  "every strictly increasing positive grid with at least two edges, every n",
  "unbounded grid sizes and n",
  ["src/FitUtils.cxx: expand_energies, log_energy_ratios"])
p("C13", "Energy-dispersion index ranges stay inside the response matrix and the source map",
  "For every measured energy bin and every allowed dispersion setting, the range of true-energy bins looped over stays inside the detector response matrix column, the spectral weights and the source map planes, and without dispersion it is the bin itself.",
  "every number of bins, every dispersion setting, every bin index",
  "off-by-one errors only show at the edges for particular settings",
  ["src/FitUtils.cxx: get_edisp_range, get_edisp_constants", "Likelihood/BinnedConfig.h: edisp_bins"])
p("C14", "Predicted counts equal the sum of the model map",
  "For every source and energy bin, the predicted counts used in the likelihood equal the sum over pixels of that source's model map, and the weighted predicted counts equal the weight-weighted sum, with or without energy dispersion.",
  "every source map, spectrum, weights, binning, dispersion setting",
  "two independent code paths over arbitrary shapes must agree",
  ["src/SourceMap.cxx: computeNpredArray", "src/FitUtils.cxx: npred_contribution, npred_edisp, updateModelMap, model_counts_edisp, model_counts_contribution, addFixedNpreds"])
p("C15", "Binned likelihood value is the Poisson log-likelihood",
  "The value returned by the binned likelihood equals sum over pixels of weight*(data*log(model) - model) for the model summed over all sources in the selected energy range, up to the model-independent factorial term, plus the priors, for any mix of fixed and free sources.",
  "every cube, weights, source list, spectra, energy selection",
  "the code splits the sum in fixed/free, filled/empty parts; equality has to hold for every split",
  ["src/BinnedLikelihood.cxx: value, computeModelMap_internal, addSourceCounts, addFixedNpreds", "src/FitUtils.cxx: addSourceCounts"])
p("C16", "Free-parameter derivatives are the gradient of the value",
  "The vector returned by getFreeDerivs is, component by component and in the order of the free parameters, the partial derivative of the binned log-likelihood value.",
  "every cube, source list, spectra differentiable in their parameters, point with positive model in filled pixels",
  "a continuum of points; optimizers silently fail when the gradient is off in a rare branch",
  ["src/BinnedLikelihood.cxx: getFreeDerivs", "src/FitUtils.cxx: addFreeDerivs"])
p("C17", "Caching of the fixed-source model is invisible",
  "After any history of adding and deleting sources, changing, freeing and fixing parameters, and evaluating, the likelihood value is the value a freshly built likelihood object with the same sources and parameters returns.",
  "every history of operations",
  "cache staleness appears only for particular orders of operations",
  ["src/BinnedLikelihood.cxx: buildFixedModelWts, fixedModelUpdated, addFixedSource, deleteFixedSource, computeModelMap_internal, addSource, deleteSource"])
p("C18", "The source model's parameter list mirrors its sources",
  "After any history of add/delete/set operations the parameter list is the concatenation, in source-name order, of the parameters of the sources; names are unique, adding an existing or deleting a missing source fails without changing the model, and deleting a just-added source restores the previous model.",
  "every history of operations",
  "unbounded histories",
  ["src/SourceModel.cxx: addSource, deleteSource, syncParams, getSrcNames"])
p("C19", "Setting and reading parameters round-trips",
  "Setting all (free) parameter values and reading them back gives the values set, fixed parameters are unchanged by setting free ones, and the number of values consumed is exactly the number of (free) parameters.",
  "every source model, every value vector of the right length",
  "arbitrary numbers of sources and patterns of free parameters",
  ["src/SourceModel.cxx: setParamValues_, setFreeParamValues_, setParam, getParam, setParams_"])
p("C20", "Summed likelihood with tied parameters has the right gradient",
  "The value of a summed likelihood is the sum over components with the prior counted once, and the derivative with respect to a tied parameter is the sum of the derivatives with respect to all its members.",
  "every number of components, parameters, tie groups",
  "group structure is unbounded; the defect needs two members with different derivatives",
  ["src/SummedLikelihood.cxx: value, getFreeDerivs, getFreeParams, findIndex"])
p("C21", "Composite likelihood free-parameter vector, derivatives and index lookup agree",
  "In Composite2 the order and number of free parameters returned, accepted when setting, counted, and differentiated are the same, tied derivatives are summed, tied members share one value after setting, and findIndex points at the parameter's slot in that order.",
  "every number of components, parameters, fixed/free patterns and tie groups",
  "combinatorial number of patterns",
  ["src/Composite2.cxx: getFreeParams, setFreeParamValues, getNumFreeParams, getFreeDerivs, findIndex, tieParameters", "src/TiedParameter.cxx"])
p("C22", "A rejected parameter tie leaves the summed likelihood unchanged",
  "If tieParameters of a summed likelihood reports an error, the list of free parameters is the same as before the call.",
  "every model state and index list",
  "exception paths depend on the position of the offending index in the list",
  ["src/SummedLikelihood.cxx: tieParameters, getFreeParams"])
p("C23", "N-dimensional histogram bins are independent and slices round-trip",
  "Distinct in-range bin index tuples address distinct cells inside the data array, every cell is addressed by one tuple, filling adds the weight to exactly one cell, and getSlice after setSlice returns the data set and leaves all other cells alone.",
  "every number of dimensions and axis sizes, every tuple",
  "arbitrary dimension count",
  ["src/HistND.cxx: HistND, binIndex, fillBin, setSlice, getSlice"])
p("C24", "Summing a histogram over an axis range",
  "sumRange over an axis and a bin range gives, for each remaining tuple, the sum of the cells of that tuple over exactly that bin range.",
  "every dimension count, axis, bin range",
  "the code is right for the last axis starting at 0, the case a test would try first",
  ["src/HistND.cxx: sumRange"])
p("C25", "Event selection accepts exactly the events passing all cuts",
  "An event is accepted if and only if it lies in a good time interval (when any are set), in every time range cut, in the energy range, in the region of interest and below the zenith limit.",
  "every set of cuts, every event",
  "combinations of several cuts",
  ["src/RoiCuts.cxx: accept"])
p("C26", "Trapezoidal quadrature is the trapezoid sum",
  "TrapQuad returns the sum over consecutive abscissa pairs of the trapezoid area (linear, or in log-abscissa with the log option) for any grid with at least two points, it is additive in the integrand, and splitting the grid at a node splits the integral.",
  "every grid and ordinate values",
  "arbitrary number of points",
  ["src/TrapQuad.cxx: compute_integral, compute_log_integral"])
p("C27", "Energy-dispersion convolution of counts",
  "Convolving a counts spectrum applies the response matrix to the spectrum extended at both ends; on a logarithmic grid the extension continues a power-law spectrum exactly; non-negative responses and counts give well-defined results for every grid the constructor accepts.",
  "every grid size, response matrix, spectrum",
  "grid sizes incl. the one-bin grid",
  ["src/Drm.cxx: Drm, convolve, extrapolate_lo, extrapolate_hi"])
p("C28", "Rescaled energy dispersion reproduces the measured counts",
  "In the rescaling mode, the correction factor and reference bin stored for each bin reproduce the convolved (measured) counts of that bin from the true counts, and computing them never reads outside the stored spectra.",
  "every true counts and response",
  "depends on which bins have no counts, in particular the first ones",
  ["src/Drm.cxx: Drm_Cache::update", "Likelihood/Drm.h: get_correction"])
p("C29", "Multiply broken power law is continuous and its derivatives are correct",
  "The spectrum is continuous at every break, and each reported parameter derivative is the true partial derivative of the value with respect to that (scaled) parameter.",
  "every number of breaks, indices, energies, scales",
  "arbitrary number of breaks; scale factors other than one",
  ["src/MultipleBrokenPowerLaw.cxx: value, norm, derivByParamImp"])
p("C30", "Piecewise power law interpolates its nodes and its derivatives are correct",
  "The spectrum takes the node values at the node energies, is continuous, is a power law between nodes, and each reported parameter derivative is the true partial derivative.",
  "every number of nodes, energies, values",
  "arbitrary number of nodes and parameter scales",
  ["src/PiecewisePowerLaw.cxx: value, plIndex, norm, derivByParamImp"])
p("C31", "Integral power law is normalised and its cache is invisible",
  "PowerLaw2 integrates to its Integral parameter over its energy limits, the derivative with respect to Integral and Index is the true one, and the value does not depend on the calls made before, on this or any other instance.",
  "every parameters with 0 < lower < upper, every energy, every history of evaluations on several instances",
  "the cache is shared between instances, so interleavings matter",
  ["src/PowerLaw2.cxx: value, derivByParamImp, integral", "Likelihood/PowerLaw2.h: updateCache"])
p("C32", "Best fit so far is remembered and restored",
  "restoreBestFit sets the parameters to a point whose evaluated log-likelihood was the largest among all evaluations since the last source change or saveCurrentFit, and no later evaluation is better.",
  "every sequence of parameter settings and evaluations",
  "unbounded history",
  ["src/LogLike.cxx: value, saveBestFit, restoreBestFit, saveCurrentFit"])
p("C33", "Adding a source map to a summed map does not depend on its storage",
  "Adding (or subtracting) a source's map, with or without spectral factors, to a vector over an energy range gives the same result for dense and sparse storage, writes only planes in the range, and subtracting after adding restores the vector.",
  "every map, energy range, option",
  "two code paths; the failing one needs the option combination and a nonzero pixel at the boundary",
  ["src/SourceMap.cxx: addToVector_full, addToVector_sparse, subtractFromVector_full, subtractFromVector_sparse"])
p("C34", "Predicted counts do not depend on source map storage",
  "The (weighted) predicted counts per energy of a source computed from sparse storage equal those computed from dense storage.",
  "every map, weights, dispersion setting",
  "needs pixels empty in one plane and filled in the neighbouring one",
  ["src/SourceMap.cxx: computeNpredArray, computeNpredArray_sparse"])
p("C35", "Region-of-interest energy grid and time range",
  "The energy grid made from the cuts starts at the lower and ends at the upper energy and is strictly increasing, a non-positive lower energy is rejected, and the time range covers all good time intervals.",
  "every energy bounds, number of points, list of intervals",
  "arbitrary lists of intervals",
  ["src/RoiCuts.cxx: makeEnergyVector, setRoiData, addTimeInterval"])
p("C36", "Model map of a source does not depend on what the output vector held",
  "Computing the model map into a vector gives the same map whatever the vector contained before the call.",
  "every previous contents and size of the output vector",
  "tests pass fresh vectors",
  ["src/SourceMapCache.cxx: computeModelMap", "src/BinnedLikelihood.cxx: computeModelMap"])
p("C37", "Unbinned likelihood predicted-counts cache is invisible",
  "After any history of adding and deleting sources and changing parameters through the model followed by synchronisation, the predicted-counts term of the unbinned likelihood is the sum over the current sources of their current predicted counts.",
  "every history",
  "staleness needs particular orders",
  ["src/LogLike.cxx: addSource, deleteSource, syncParams, syncSrcParams, value"])
p("C38", "Spectral quadrature weights",
  "The counts predicted for a pixel from the cached spectral weights equal the direct log-log quadrature of spectrum times exposure over the bin, are linear in the spectrum and non-negative for non-negative inputs.",
  "every energies, spectra, map values",
  "continuum of values",
  ["src/FitUtils.cxx: get_spectral_weights, pixelCounts_loglogQuad, model_counts_contribution", "src/Source.cxx: pixelCounts"])
EXTRA = os.path.join(os.path.dirname(__file__), "props_extra.py")
if os.path.exists(EXTRA):
    exec(open(EXTRA).read())
with open(os.path.join(os.path.dirname(__file__), "..", "properties.jsonl"), "w") as f:
    for x in P:
        f.write(json.dumps(x) + "\n")
print(len(P), "properties")
