# Formal model of fermi-lat/Likelihood in Lean 4

## Layout

* `properties.jsonl` – the properties (generated by `tools/mkprops.py`).
* `lean/Verif/Basic.lean` – shared vocabulary: the outcome type `Res`
  (`ok` / `throws` / `ub`), checked vector access.
* `lean/Verif/<Area>/Model.lean` – the model of the code, one definition per
  C++ function, each citing file and lines.
* `lean/Verif/<Area>/Spec.lean` – small specification used by the theorem
  statements, independent of the model.
* `lean/Verif/<Area>/Lemmas.lean` – helper lemmas.
* `lean/Verif/<Area>/Props.lean` – the property theorems only, each followed by
  a non-vacuity `example`.
* `MANIFEST.json` – property → theorem names.  `seeded/LOG.jsonl` – mutation log.

## Trusted base

* Lean 4.33.0 kernel; axioms at most `propext`, `Classical.choice`, `Quot.sound`.
  No `sorry`, `native_decide`, `bv_decide`, no own axioms.
* The reading of the C++ code.  The code was not built or run.
* Numbers: `double`/`float` are modelled by exact arithmetic (`ℝ`, or a generic
  ordered field `K` so that examples can be evaluated over `ℚ`).  Rounding,
  overflow, NaN and infinities are not modelled.  Where the code divides by zero
  or takes the log of a non-positive number the model either returns a distinct
  outcome or the theorem carries the hypothesis that excludes it.
* `size_t` is modelled by `ℕ`; where the code subtracts so that it may
  underflow, the model uses `ℤ` or a distinct `ub`/`throws` outcome.
* Undefined behaviour (out-of-range vector access, reading uninitialised
  memory, dereferencing `end()`) is the outcome `Res.ub`, exceptions are
  `Res.throws`.
* External code (matrix inversion, instrument response functions, FITS I/O,
  priors, optimizers, the functions of the `optimizers` package) is a parameter
  of the model; theorems hold for every choice of the parameter, with the
  assumptions on it stated as hypotheses.

## Plan per property

C01, C02 (`Sparse`): model `SparseVector` as size, null element and sorted
association list; dense specification is a plain list; refinement by induction
over the operation list.  The shrinking `resize` and the ranged extraction are
modelled as written, with negations where they break the property.

C03 (`Accum`): state machines for both accumulators, specification is the list
of values since the last total; induction over the call sequence.

C04, C05 (`Counts`): loops of `identifyFilledPixels`, `fillWeightedCounts`,
`computeCountsSpectrum_*` as recursions over planes and pixels; membership,
ordering, counting by induction.

C06, C07, C08 (`FitUtils`): list functions; induction over bins; the weighted
case is proved at the reference model and refuted elsewhere with a witness.

C09 (`FitUtils`): `HasDerivAt` of the value along each normalisation, sums over
bins by induction.

C10, C11 (`Newton`): the iteration as a fuel-bounded recursion (the code has an
explicit iteration limit) with the linear algebra as an arbitrary function;
invariant by induction.

C12 (`FitUtils`): list indexing and real `exp`/`log` algebra.

C13, C14, C38 (`Edisp`): index arithmetic by `omega`; sums over pixels commute
with sums over energy planes by induction.

C15, C16, C17 (`Binned`): binned likelihood as state with sources, cached fixed
model, cached predicted counts; value refined to the Poisson specification;
derivative by `HasDerivAt`; cache invariants by induction over operations;
operations that break the cache are refuted with witnesses.

C18, C19 (`SourceModel`): sorted association list of sources; invariant by
induction over operations.

C20, C21, C22 (`Composite`): lists of component parameter vectors with tie
groups; derivative statements as sums over members.

C23, C24 (`HistND`): mixed-radix indexing; bijectivity by induction on the axes.

C25, C35 (`Roi`): boolean decision logic; list minima and maxima.

C26 (`TrapQuad`): induction on the grid.

C27, C28 (`Drm`): matrix as list of rows, outcome type for out-of-range reads.

C29, C30 (`Pieces`): broken power laws and tables with any number of pieces, as functions of
lists of energies; continuity, agreement with the table and `HasDerivAt` by induction on the
pieces.

C31, C52 (`PowerLaws`): integrals of power laws and broken power laws by the fundamental theorem of
calculus; `PowerLaw2` additionally as a state machine over instances sharing statics.

C50, C51 (`Spectra`, `PowerLaws`): one definition for the value and one for the derivative of each
function; `HasDerivAt` by the calculus rules of Mathlib; continuity at the changes of formula.

C53 (`Priors`): log-Gaussian priors; slope and derivatives by `HasDerivAt`.

C54, C55 (`Wrap`): wrappers around an arbitrary spectrum; derivatives by the product rule, nests by
induction on the depth; the check of the complement form as decision logic.  The sharing of
parameters between wrapper and spectrum (`setParRef`) is assumed.

C56, C57 (`Snap`): a model is a map from names to sources; a snapshot and its comparison bit by
bit, characterised by what differs; the choice of the update as decision logic over all pairs of
models; the templates of the scan cache and an invariant kept by updates.

C58 (`MeanPsf`): the table of the mean point-spread function and its partial integrals over a grid
of angles; the sums of trapezoids are related to the integral (Mathlib's interval integral) of the
broken line; limits, monotony and the intermediate value theorem give the containment radii.

C59 (`Comp1`): a composite of likelihoods that share the shape of a source; the free parameters as
a list of slots, each the list of the parameters it drives; reading, setting and the gradient are
compared with the slots by induction over components and sources.

C60 (`Livetime`): the fraction of an interval that is good, the loop over the spacecraft table and the
exposure at a point.  The specification is the measure of the set of good times; the two binary searches
are shown to pick a sublist that loses only intervals of zero overlap, and skipped rows to have none.

C61 (`ScData`): reading of the spacecraft files, the index of a time, livetime fraction and axes.
Interpolation against a closed formula between two directions, continuity by the two one-sided limits.

C62 (`Radial`): disk and Gaussian, value and convolution.  The arc of a circle inside the disk is computed
as the measure of a set of angles; the rest is a change of the domain of integration.

C63 (`Profile`): tables of radial profiles and the position of radial sources as a state machine.

C64 (`EM`): one round of expectation maximisation as a function of the sources and their parameters, for an
arbitrary optimizer; Jensen's inequality for each event, an inductive relation for the loop.

C65, C66 (`Wcs`): a map as a list of planes of rows, evaluated at pixel coordinates as the projection gives them
(or at none, where there is no projection), with the truncations and remainders of the program as functions on the
reals. The specification is the sum over all pixels weighted with tents, from which continuity and bounds follow;
on a cylinder the tents are periodic. The dependence on energy is proved by cases on vanishing values and by
writing the power law as an exponential of a linear function.

C67, C68, C69 (`MapInt`): images as lists of rows with reads and writes out of range as undefined, the solid angle
of a pixel as an arbitrary function of the projection. Loop invariants give the content of every pixel as a sum over
its block or a quotient; sums over all pixels follow by exchanging sums. The layout of the stored solid angles is part
of the state, so that the two conventions of the program meet.

C70, C71, C72 (`Weights`): the in-place sum of the effective background is a loop over layers and pixels on a flat
list; the proof keeps, for the part of the current layer already visited and for the rest, the partial sums as
invariants. Factors and weights are loops that set one place after the other, the progress display included because its
remainder can have the divisor zero. The projection of the weights is proved for any map and then joined with the model
of plane maps (`Wcs`).

C73, C74, C75 (`Xml`): files are trees of elements with attributes. The writer and the reader are modelled separately,
function by function, and joined by a mutual induction over the nested sources. The text of a number is an arbitrary
function; what has to survive is a hypothesis, discharged by C77 for numbers of 15 digits. The list of registered types
is copied from the program. Exceptions keep the state they leave behind, so that half-done updates are visible.

C76 (`Xml.Text`): the printer as a function from trees to lists of characters and a recursive descent reader with a
step bound; a mutual induction over trees shows that the reader inverts the printer with the length of the text as
bound. C77 (`Xml.Digits`): printing and parsing as nearest points on a decimal and a binary grid; the two grids are
compared through the integer logarithms.

C78 (`FluxFile`): the trapezoidal sum on the logarithmic grid, compared with the integral step by step through the
chord of a convex function.

C79 (`MapLib`): memory as a partial function from addresses to maps, the library as a sorted list, objects with their
members, and the operations of a program as a type. An invariant by induction over histories; the names of the objects are
followed by a separate machine in the specification. Violations are short histories, for every file.

C80, C81, C82 (`SkyInt`): vectors in three dimensions over the reals; the specification is the orthonormal frame centre,
east, north of an event. The chain of inverse functions is shown to be the combination of these three with the cosine and
sine of the angle; limits by an invariant over the loops along the border; the response as an iterated interval integral.

C83, C84 (`ExpMap`): the loops of `computeMap` fill a flat image, proved by an invariant over the set of pixels already stored; reading
back uses the running index. The exposure of a source is a Finset sum over pixels; interpolation by logarithms (first way) and by a power
law (second way), both shown exact at the energies of the map. The projection and the point source exposure are inputs.

C85, C86, C87 (`BinExp`): `operator()` and `get_exposures_for_dir` as functions of the projection's pixel coordinates, with truncation towards
zero, the conversion of the index to unsigned and the unchecked access as in the code; `computeMap` by an invariant that gives the content
of the vector after each addition; writing and reading as functions on the header, with the projection as an arbitrary function of its
parameters; the limits through the monotonicity of the cosine.  Healpix maps are not modelled.

C88 (`PsfMap`): the loops of `makePointSourceMap_wcs` over a vector with bounds, with the estimates, separations and exposures as inputs; invariant: the
vector holds the sum up to the current pixel and layer; `Pixel::find` by induction over the pixels; the normalisation of `fillMapWithPSF_refDir` as sums.

C89 (`PsfInt`): bilinear interpolation in the table of scales with bounds, the means as sums over the parts, the adaptive estimate as the loop it is
with the number of parts bounded by the code; the integral of the point-spread function and the separations are inputs.

C90, C91 (`DiffMap`): the axis of the finer map as a function of size, reference pixel and factor; the accumulating loops over a vector with bounds,
by a lemma that gives every entry after the loop as a sum of the contributions that point to it; the convolved map is an input.

C92, C93, C94 (`Pix`): the livetime cube as a list of cells with an optional weighted table, a request as a sum over the cells, and the
  memory of the effective-area object as a partial map, with its invariant by induction over the requests; the loops over sources, types and
  parameters of a pixel by induction over the lists; the flux density of a point source with the direction passed as the code passes it.

C95, C96, C97 (`Npred`): the vectors with bounds, truncation to an index as floor; for energies in equal logarithmic steps every new energy is shown
to lie on the polygon of the given exposures; the rule for power laws as a geometric sum, its error by three integrations of a positive derivative;
the counts spectra by induction over bounds and sources.

C98, C99, C100 (`SrcMap`): a state machine with the fields of the map and the files of the world, one operation per public call; C98 by an invariant
  that says where a dropped map comes back from, C99 by an invariant for all calls, C100 by induction over histories of the spectral fields; the phased exposure
  map by induction over the number of write-drop-read cycles.

C101, C102, C103 (`Files`): tables as columns with cells, images as vectors with a number of planes; C101 by an invariant over histories of writes
that gives what is read exactly (the last map over what is left of longer ones), so that both the histories that work and those that fail follow;
C102 the rows as a list, the reader with the arguments in the order of the code; C103 on top of the models of `Energy` and `Drm`, one theorem for
each number of extra bins, with a perfect response as the example that shows the shift.

C104 (`DiffRsp`): an event file as its keywords, columns by number and rows; names as lists of characters; the tool with the members that
outlive a file, and the reader of events. One run by an invariant over the names and columns, several files by induction on the files, histories by
induction on the runs; the violations on small concrete files.

C105 (`SrcProb`): the event file as rows and columns by name, the tool row by row; an invariant over the rows, histories by induction on the runs.

C106 (`LtSum`): files by name, the tool as steps that each may fail and leave the files as they are; sums by induction on the list; order and grouping
from the uniqueness of the sum; times and pointings on top of the theorem on `LikeExposure::load` (C60) and the additivity of the measure.

C107 (`TsVal`): the loop of gtlike over the point sources with log-likelihood, predicted counts and optimizer as arbitrary functions; an invariant says that the model is the fitted one at the start of each round, the entries of the map are read off a single round.

C108 (`FitOut`): the fit loop of gtlike as a fold over turns whose fits may fail, with the
vector of errors that outlives a turn; errors attached by position to the free parameters;
the covariance matrix of a source picked by a map from names; the loop that prints ranges of
poor bins as a scan of the bins.  Proved by induction over the turns, the parameters and the
bins; the two ways in which it fails have witnesses.

C109 (`TsMap`): gttsmap with an arbitrary optimizer that may end well, throw or die at any
fit; the sources are a map from names, the test source is added and deleted at each pixel.
Proved by induction over the pixels with the relation "alike up to fitted parameters" as
invariant; the projection is read back from the keywords of the image.

C110 (`FindSrc`): the function minimised by gtfindsrc with its list of points, for an
arbitrary list of positions; stable sort, least-squares slope of the value against the squared
separation, and the source that is left in the model.  Proved by induction over the positions
and over the sums of the least-squares fit; five deviations have witnesses.

C111 (`Cuts`): the checks of the input files, with the reading and the comparison of selections
as parameters.  The energy check is an intersection of ranges by induction; the coverage check
visits the border, which settles the whole map if the exposure map has no gaps in any row; the
deviations (only a warning for other times, sums over a common prefix, holes) have witnesses.

C112 (`CountSpec`): the object that writes counts spectra and the three tables it writes, on top
of the event counts of C49.  Rows by induction over the bins, energies through real powers; a
lost file and the total without sources have witnesses.

C113 (`BackFile`): gtbkg as a function from spectrum, energies, sources and target to both files and the way it ends; the sums over sources and parameters by induction; bins outside the energies with the model of `Source::Npred` (`Npred`).

C114 (`Attrib`): `countsSpectrum(srcName, use_klims)` on the state machine of `Binned`; the relation between object and ideal object is kept by the call, so spectra can be asked for one after the other; sum over the sources by exchanging the sums.

C115 (`EvRead`): `ResponseFunctions::load`, `AppHelpers::createResponseFuncs` and `EventContainer::getEvents`; the type is the floor of a quotient of real logarithms, proved to be the highest common bit; induction over rows and files gives an equivalence with a relation between rows and events.

C116 (`Merge`): `SourceModel::mergeSources` and `splitCompositeSource` with the moves of sources and maps between the model, the composite and the caches; sources are a nested inductive type, conservation of the elementary sources is proved by induction over the calls up to permutation, the round trip by extensionality of sorted maps.

C117 (`ExpCube`): gtexpcube2 as a function from parameters and files to the geometry and energies of the
exposure map; decision logic over all combinations of given and missing parameters, refinement to a
specification of the energies (bounds, extra bins, means).

C118 (`CntMap`): counts maps as histograms (`HistND`) over pixel coordinates and energies, with the
three ways to state energy bins, binning of any number of event tables, the bounds check with a border,
writing to and reading from a file, the list of pixels, and the HEALPix variant.  The projection is an
arbitrary function.  Proved by an invariant of the histogram (axes and sizes) that binning keeps, with the
counts as sums over the events.

C119 (`GtCnts`): gtcntsmap as a function from parameters and files to the output file, on top of `CntMap`.
Proved: bins, geometry and counts of the output, that the check of two energies is a check of all bins, and
what is read back; negations for one energy, empty tables, units and the name of the extension.

C120 (`ModMap`): maps of model counts as objects with a state (the map, summed in place), both projections,
on top of `HistND`.  Proved by an invariant over sequences of calls that says exactly what is in the state;
negations for repeated sums, cubes after sums and HEALPix sums.

C121 (`HpxExp`): HEALPix exposure maps over an arbitrary projection, with uninitialised values as such; the
constructors, the two functions that look up values, and the file (columns found by their names).  Proved by an
invariant (every plane is that of its energy) that the constructors and the file establish.

C122 (`FitMerge`): the loop that finds the next energy over any number of lists of bounds, by an invariant (what was
taken is below what is left) and a measure (what is left); the merged vector as a concatenation over energies and
components; the limits of energy ranges, bins of different widths and an energy of zero as violations.

C123 (`Shift`): the image of a test source moved by whole pixels, with the rounding of offsets over real numbers and
the copies of rows as copies of ranges of vectors.  Proved by invariants of the two loops that say what every pixel
of the output is; directions that are off the map by more than its size are violations.

C124 (`ScanPrior`): priors of scans as state of the cache, with matrices over real numbers and the inverse of a matrix as an
arbitrary function that inverts.  An invariant over all sequences of operations gives the prior of the parameters; priors
with a covariance are Gaussians; several choices of constrained or fixed sources are shown to fail.

C125 (`ScanNorm`): scan of a normalization and its errors, over real numbers, on top of the models of the log likelihood
(`FitUtils`) and the fit (`Newton`).  The grid and the likelihood of each point are proved for compressed data and a
given range of bins; selections of bins that give flat scans or undefined reads, and errors too small, are shown.

C126 (`Convol`): images as lists of rows, arrays of complex numbers as in the code, FFTW as discrete Fourier
transform. The convolution theorem is proved from sums of roots of unity; index arithmetic shows that padding
prevents wrapping around. The one dimensional version is a ring, shown to move signals; kernels wider than the image
are shown to fail.

C127 (`HpxMap`): Model the constructors, the integrals, the two reading operators and rebin over an arbitrary
library of pixels (pixel of a direction, centre, interpolation weights, finer pixels). Prove the values for complete
files and sources, grid and power-law values; prove that every column becomes an image, that missing rows leave
undefined pixels, that rows beyond the end are written, that maps of one energy read a second image, and that rebin
interprets the side as an order for every map.

C128 (`HpxConv`): Model the image of the function, the scaling and removal of small values and the two operators on
maps over arbitrary transforms and pixel geometry. Prove values and integral of the image, non-negativity for all
transforms, totals for transforms that keep the sign and the exact change of the total otherwise, products and
integrals at all energies; prove that the ring loop leaves the sky for wide functions, that the result of one energy
keeps all energies, that its pixels are in the order of rings, and that degrees are compared with radians.

C129 (`PixResp`): Projections as partial functions from pixel coordinates to directions, solid angles as in the
code, the loops as folds. Sums by induction over the rows and columns; bounds on solid angles by the half-angle
formula and concavity of the sine; state of a source by invariants over histories of operations.

C130 (`LogFit`): The loop as a recursion over the iterations left, with logarithms as the machine has them (numbers,
minus infinity, not a number), over an arbitrary objective and matrix inversion. Results by induction over the
iterations; steps of one bin computed exactly.

C131 (`MatVec`): Conversions are loops over vectors with bounds-checked reads; loop invariants on the part of the
lower triangle written. Singular value decompositions are matrices U, V with orthogonal columns (Mathlib matrices)
given by the library; least squares by comparing coordinates in the bases of U and V, uniqueness of the pseudo-
inverse from the four conditions.

C132 (`TsScan`): Model the histograms as optional lists filled through the code's index arithmetic in nested loops
over positions, the results of fits being given; prove by induction over positions an invariant giving the value of
every element, and derive the value at every position, energy and normalization. Model the loop over energy bins
with the errors and scans of C125 and determine the normalization to which the test statistic of a bin refers.

C133 (`StScan`): The optimizer is a parameter of the model, assumed only to keep bounds, flags and fixed values;
model the scan as a function from parameters and energy ranges to results or an exception and prove by induction
over the normalizations what each log likelihood is. The effect of the ranges that are left is proved with the model
of the binned likelihood (C15, C17) for every history.

C134 (`Redata`): The calls are modelled on the state of the model of the binned likelihood (C15 to C17). Its
invariant is shown to hold again after the fixed model is rebuilt with other constants; for a new image two runs are
related by simulation: one with the old template and the new map, one with the source's template replaced (source
with a free parameter), or one with old and one with new map whose fixed sum stays (all parameters fixed).

C135 (`MapFile`): Model the pointer map, the fields of each map that decide where its image comes from, and the
files. Refinement: a specification without memory management; induction over histories with a relation that says a
map whose image is not in memory has a file that holds it. Violations as general theorems with concrete instances.

C136 (`LtCube`): `run` of gtltcube as a function of parameters and files to an outcome and files: reading of the
cuts, removal of an old file, extreme times, filter of the rows, loading file after file (with `Livetime.load` of
C60), keywords. Proved: for rows of at most a minute the cube has exactly the good livetime of all rows, independent
of the division into files; frame properties. Negations with general witnesses: rows that begin more than a minute
before the good time are dropped; no cube is ever made without event files; only the first set of intervals is used
and TSTOP is the least of the ends; repeated rows count twice; ZENMIN is not recorded when zmax is 180; an old cube
is lost when the run fails.

C137 (`Ties`): Components as sources in order of their names plus the vector of parameters kept besides; ties as
lists of (component, number); setters as arbitrary functions of the library. Proved by induction over histories:
members equal the tied parameter, ties disjoint, failing setters change nothing, frame; giving free parameters to
the sources by name (refinement of the loops of setParams_) merges exactly the free values; deletions and additions
behind the members keep them. Negations: deletion of a source in front of a member makes the tie govern another
parameter; fixing a tied parameter makes the next synchronization read beyond a vector; freeing one overwrites a
parameter of the next source; a tied value of a fixed parameter is lost; a member with too high a number stays in
the list.

C138 (`MapSize`): Charts as partial functions from positions to directions; the loop over the corners gives the
largest of the four separations (zenithal projections: convexity puts the farthest pixel into a corner). The
geometry of the map in the plane with the stereographic projection; bounds of its radial function from those of the
tangent. Violations: the border of half a pixel, maps beyond a right angle in longitude and latitude, corners off
the sky, large counts maps, spatial functions (border and wings), pixels of the source larger than those of the
counts map, the flag decided with an unset number, copies without radius.

C139 (`Owner`): A store of projections with the freed ones marked, and the maps that hold pointers into it; the
client's view is a list of values. Refinement by induction over the history, with the invariant that different maps
hold different, allocated projections, and a count of what is lost. Violations for every state: the sky map of a WCS
counts map shares the projection, and both delete it; so does the map of the effective background; rebinning loses
one projection.

C140 (`TestSrc`): Heap state machine for sources, model and scanner, refinement to the values a client expects for
histories in which names are kept apart; violations for arbitrary such histories followed by the offending calls.
The swapped arguments of run_tsmap are combined with the models of the Newton fit and of the scan.

C141 (`SumScan`): Model extractModels on top of the constructor (C122): the lists of vectors per template, their
merging, the names and reference values of the first component. All merged vectors are the same permutation of
(component, pixel, bin) (Lemmas), so that the log-likelihood (C09) of the merged vectors is a sum over the
components. Disproof for components with different numbers of free sources (undefined behaviour in either order) and
with different names (scaled with the normalisation of another source).

C142 (`DmFit`): the global table as an array of 72576 numbers with its index arithmetic, the reading of the file,
the bisection `ifind_` round by round (proved to end with the right bin for every increasing list), both
interpolations, value and derivatives over the reals. Refinement to the formula; violations: masses below 2 GeV and
the mass of 10 TeV read out of bounds, unknown channels, the table shared by all functions, the scales of other
parameters in the derivatives, and the derivative by the mass at both ends of the table.

C143 (`WtOwn`): heap of maps with addresses given by an arbitrary allocator, library from files to addresses,
likelihood objects with weights, original map pointer, tree of (composite) sources and one source map per source.
Refinement: relation R between heap and a specification that knows only files, kept by every careful call; hence all
careful histories. Five ways not to be careful are each shown to fail, three of them after every careful history.

C144 (`CompMap`): source maps as in C33, composite sources as trees; recursion through getSourceMap,
fillSummedSourceMap and make_model. Induction over the tree shows what the image is for every phase map; counts and
predicted numbers by linearity of the quadrature.

C145 (`OneSrc`): the two loops over the events with the limits, and the object as functions plus list of parameters
on top of the model of C16; HasDerivAt by induction over the events, parameter laws by induction over the functions.

C146 (`Refit`): standard input as characters with the flags of the stream, getline with a buffer of two characters
after the C++ standard, the loop with an arbitrary turn; induction over the answers and over the number of turns.

C147 (`MuDist`): the sampling with an arbitrary monotone error function, the index of the band, the double trapezoid
sum; induction over the levels, floor and logarithm inequalities.

C148 (`OutFiles`): a file system as a partial function, the steps of the run with an arbitrary analysis; induction
over the repeated fits.

C149 (`WcsCopy`): a file as a list of parts with headers as partial functions, opening by name; induction over the
list of keywords and over the list of names.

C150 (`ScanFile`): Model the list of histograms that the scanner keeps, the runs that append to it, and the function
that writes the file; show by induction over runs which histograms there are, and what the loops over them give.

C151 (`ExpApp`): Model region test, choice of good times and the loop; show by induction over the loop that the
start is the earliest of all but the last interval and the stop the latest of all but the first; derive when this is
right.

C152 (`ScanApp`): Compose the file model of C150 with the choices of the programs; the scan is a function of the
weights of the standard fitter and of the linear fitter.

C153 (`Explicit`): Compose the model map of C36 with the sums; sums over bins and pixels, and the predicted counts
of C14.

C154 (`Factory`): Memory as a list of cells, the map of prototypes as a sorted association list, the
client's pointers as variables; the specification is a table with ownership as a step relation. Simulation relation
kept by every call, by induction over histories; counts of live cells give the absence of leaks.

C155 (`CosBins`): The loop over the limits and the rows written, over the reals; the bins by the depth of a cosine
in the specification; `edge_le` turns a limit into a bound of the depth. The check is the one of the model `LtSum`.

C156 (`Readd`): State machine of the sources and of the maps kept, an image being represented by the place where it
was drawn and the place of its mean PSF; simulation by a specification that knows only places, for histories in
which no map of another place is kept under a name; the other histories as counterexamples for all states.

C157 (`PsfApp`): Functional model of the application with the averaged PSF as a parameter; specification by powers
and squares.

C158 (`DiffHdr`): Model the string search with size_t arithmetic, the loop over the files with the member m_passVer,
and the conversion of the header; prove the decision for names, the invariant of the loop, and that conversion
preserves what a reader finds for each component.

C159 (`FindRun`): Model the run as a function of the files and the result of an arbitrary search; prove the files
afterwards in each case.

C160 (`HpxIo`): Model the slices of the histogram index by index with out-of-range access as undefined behaviour,
the choice of the columns, and the writer; prove by induction over the columns what the data is afterwards, and the
round trip.

C161 (`SrcApp`): Compose the model of source maps in files with the program: refusal, checks, the output without
maps, getting all maps, saving them; induct over the sources.

C162 (`MapEdge`): Model the four loops over the boundary with a projection that may throw; characterise membership
in the list, the minimum and the maximum; bound the radius by geometry in a flat map.

C163 (`ScanRef`): Model the resizing and filling of the values bin by bin with out-of-range access as undefined
behaviour, and the table; a loop invariant gives the values, induction over the sources the history.

C164 (`SpatConv`): Model the grid, the table and the loop over pixels over the reals; bound the steps by the
rounding of their number and the error by that of linear interpolation of a Lipschitz function.

C165 (`FileKind`): Model files as a primary image and named extensions and the functions as decisions over them;
characterise by cases when each kind is returned.

C166 (`PlotSpec`): Model the vectors with checked and unchecked access and the divisions; show by induction over
bins and sources what each plotted list holds.

C167 (`PhiDep`): Model the switches of the response functions as state, each operation as a transformation of it;
induction over histories gives the switches, and the loops that save and restore are shown to be the identity on
them.

C168 (`SnapOwn`): A memory of addresses with explicit allocation and freeing, where the use of a parameter that does
not exist is undefined. Copying and freeing lists of parameters are characterised by induction; the owned addresses
are an invariant of the snapshot.

C169 (`RespCell`): Sources as trees, evaluation with a cell passed along, proofs by mutual induction over trees and
lists of parts; induction over the calls for the history.

C170 (`WtTool`): The tools are functions from the disk (maps by name) and the parameters to the file or disk
written, with open tables as handles that must not be deleted twice. Composed with the theorems of C71 on the
weights themselves.

C171 (`MapOwn`): The cache is a list of names with addresses, the set of living addresses and the next new one;
delete of a dead address is undefined behaviour. Invariant: the addresses in the cache followed by those the client
holds are a permutation of the living ones, without repetition.

C172 (`GaussPar`): The loop as a recursion over neighbouring points, equal to sums over a range; the inequality by
induction over the points.

C32, C37, C47, C48 (`Unbinned`): the unbinned likelihood as a state machine over all its
operations, exceptions included; invariants of the remembered predicted counts, of the
sums kept in the events and of the cached responses, by induction over the history.

C49 (`Nobs`): `EventContainer::nobs` as a fold over the events; induction over the event list, and
the theorem on shares (C48) for the attribution to sources.

C33 (`AddMap`), C36 (`MapOut`): dense and sparse map operations on lists; entry-wise sums by
induction over planes and pixels; out-of-range writes as undefined behaviour.

C34, C42 (`Edisp`): dispersion settings of source maps.  C39 (`Counts`): replacing the weights
map.  C40 (`Newton`): what a reported convergence says.  C43 (`Drm`): weighted bookkeeping of
the response matrix.  C44 (`Binned`): changes of the dispersion setting.  C45 (`SrcModel`):
operations that move sources between models, refused ones included.  C46 (`Summed`): ties of
parameters of different names.

C41 (`FitScan`): layers as a list of lists; the compressed vectors are the concatenation of the
compressed layers, by induction; a range of energy bins is a slice between partial sums.

## Disagreements between code and property

Where the code does not satisfy a property, the model says what the code does, the property is
refuted by a theorem with suffix `_violates`, and what remains true is proved under a name with
suffix `_partial` (or without suffix if it is the property for a part of the domain that the
statement names).  The list is below.

<!-- generated -->

## Findings

Code that disagrees with a property, each proved as the named theorem.  Generated from the comments of the theorems by `tools/mkdesign.py`.

* `C01_expand_reused_violates`: C01, negation for a re-used output vector: `fill_vect` into a non-empty vector does not give the represented vector.
* `C01_shrink_violates`: C01, negation for a shrinking `resize`: it never gives the requested size (SparseVector.h:288-296 forgets to update `m_size`).
* `C02_range_extract_violates`: C02, negation: extracting `[0,1)` of the vector `[0,7]` writes out of range.
* `C02_range_key_value_violates`: C02, negation for the ranged `fill_key_and_value`: whenever `first > 0` and any element is selected, the index `idx-first` underflows.
* `C03_accumulator_first_zero_violates`: C03, negation: if the first value added to an `Accumulator` is zero the call reads uninitialised bounds (Accumulator.cxx:30-35), so no total is guaranteed.
* `C03_chunks_not_reset_violates`: C03, the chunked helper `SumByNumber` on its own does not reset: its `total` keeps the first chunk (Accumulator.h:101), so a second `total` without any `add` returns the first chunk again. `Accumulator` hides this by rebuilding its helpers.
* `C07_violates`: C07 is false in general: with empty pixels of different weight, a model whose distribution over the empty pixels differs from the reference one gets another likelihood after compression (here 0 instead of −1).
* `C100_derivatives_violates`: On a map that was read or made, asking for derivatives without force gives none, however often, for whatever parameters, in every history without `setSpectralDerivs`, force, or a change of the source.
* `C100_values_violates`: After a change of the parameters the values are those of the old ones.
* `C101_full_sparse_violates`: C101 is violated when a sparse map replaces a full one: the rest of the rows are read as further entries.
* `C101_full_violates`: C101 is violated whenever a full map replaces one with more planes: the planes at the end of the old map are read as planes of the new one.
* `C101_image_made_violates`: C101 is violated for a map that was made for a range of planes only, as it is when a part of a source map is saved: the values are taken from behind the end of the map.
* `C101_image_violates`: C101 is violated whenever a complete map replaces a part: the image is not enlarged, so only the first planes are read.
* `C101_sparse_full_violates`: C101 is violated when a full map replaces a sparse one: the column of planes of the sparse map is read as the first plane.
* `C101_sparse_planes_violates`: C101 is violated for sparse maps that have planes beyond those of the data, as they are needed for the energy dispersion: they cannot be written.
* `C101_sparse_range_violates`: C101 is violated for a range of planes of a sparse map: all entries are written with their old keys, so that entries are read that lie outside the planes of the map.
* `C101_sparse_violates`: C101 is violated whenever a sparse map replaces one with more entries: the entries at the end of the old map are read as entries of the new one.
* `C102_function_violates`: C102 is violated: a table that holds a row for any function not named "Spectrum", such as the position of a point source, cannot be read.
* `C102_names_violates`: C102 is violated: two models that differ only in names behind the 32nd character give the same table.
* `C102_read_violates`: C102 is violated whatever the functions are named: the names of source and parameter are exchanged, so a model in which no source is named like a parameter of the table cannot be restored from any table with a row, not even from its own.
* `C103_more_violates`: C103 is violated for a response with two or more extra bins: reading its table runs out of the matrix.
* `C103_none_violates`: C103 is violated for a response without extra bins: the response that is read has two measured energies less than the one that was written.
* `C103_one_violates`: C103 is violated for a response with one extra bin: the energies are those of the analysis, but the response has lost its extra bins, and its rows are one true energy off. A perfect response, which gives back the true counts, becomes one that moves the counts down by one bin.
* `C104_carried_violates`: **C104 is violated: a later file gets the components of an earlier one.** The second file has unused columns only; after the run for one source it gives 0 for a component that was never computed for it.
* `C104_case_violates`: **C104 is violated: names that differ in case only.** The second source gets the response of the first.
* `C104_class_violates`: **C104 is violated: event class 32.** The tool lets it pass and shifts by 32.
* `C104_clobber_violates`: **C104 is violated: `clobber` does not recompute.** Whatever the response is now, a run with `clobber` leaves the value that the file held.
* `C104_files_violates`: **C104 is violated: files with different components.** Each of two files can be read before the run; after it the second one cannot be read at all.
* `C104_separator_violates`: **C104 is violated: components with the old separator.** The tool takes them as computed, an analysis does not find them.
* `C104_unused_reading_violates`: **C104 is violated: two unused columns before a used one.** Already reading gives the value of another column.
* `C104_unused_violates`: **C104 is violated: an unused column before a used one.** The file holds 9 for one component; after a run for another one an analysis gets 0 for the first.
* `C105_case_violates`: C105 is violated for sources whose names differ in case only: the second column cannot be made.
* `C105_column_violates`: C105 is violated for a source that has the name of a column of the events: it is the data of the events that are replaced.
* `C105_rejected_violates`: C105 is violated for a file with an event that is not in the region of interest: such events are dropped when events are read, but have a row, and the tool fails.
* `C105_unknown_violates`: C105 is violated for a name that is not in the model, a misspelt one: there is no error, the probabilities are zero.
* `C105_zero_violates`: C105 is violated for an event that no source of the model explains: the values are not numbers.
* `C106_empty_violates`: C106 is violated for an empty list of files: the first of them is asked for.
* `C106_output_violates`: C106 is violated if the output is the second of two files and may be replaced: the second file is overwritten with the first before it is read, and the result is twice the first file.
* `C106_overlap_violates`: C106 is violated for cubes whose times overlap: the livetime counts twice, and nothing is said. The sum of a file and a copy of it, at another place, has twice the livetime.
* `C106_refused_violates`: C106 is violated when files are refused for their cut in zenith angle or their size: the output has been made before the test, and is a copy of the first file.
* `C107_bound_violates`: C107, negation for `tsmin=no`: the fitted model is the best there is, and predicts the observed counts; yet to make up for the counts of the source left out the normalisation of the other one is set beyond its bound. The exception is not caught, so no test statistic is reported; gtlike ends before the fitted model is written (likelihood.cxx:307-308).
* `C107_default_violates`: C107, negation for `tsmin=no`: the test statistic reported can exceed the likelihood ratio by any amount, here it is `2b` while the source improves the best log-likelihood by nothing: spectral parameters of the other sources are not fitted again.
* `C108_quality_violates`: **C108 is violated** in a bin with very many counts: no range is reported at all, although in another bin a hundred counts were expected and none was observed.
* `C108_stale_violates`: **C108 is violated** when a fit is repeated: after a fit that fails the errors of the fit before are shown, and the user may have changed which parameters are free between the fits. Here the error of `x` is shown as that of `y`, which has never been fitted.
* `C109_failed_violates`: **C109 is violated** at pixels where the fit fails: the map has zero there, as where there is no source. Here every model with the test source has a log-likelihood that is higher by 50 than every model without it.
* `C109_null_violates`: **C109 is violated** when the fit of the background fails: the log-likelihood of the null hypothesis is then taken to be zero. Here the log-likelihood is 100 for all models, so that all the test statistics are zero, but those in the map are 200.
* `C109_order_violates`: **C109 is violated** with an optimizer that stops early: the fit at a pixel starts from the background left by the fits at the pixels before, and the null hypothesis is not fitted again, so that the map depends on the order of the pixels. Here the test source has no effect, the optimizer changes parameters only and never goes down, and the two pixels are at the same direction, but their values differ.
* `C110_bounds_violates`: **C110 is violated** at the ends of the range of right ascension: the search may go beyond 360 degrees, and then the result cannot be stored and an exception ends the run.
* `C110_galactic_violates`: **C110 is violated** with galactic coordinates: the galactic coordinates of the position reported are written to the source model as right ascension and declination. Here the best position is `l = 10`, which is the right ascension 110, but the target is left at 10.
* `C110_radius_violates`: **C110 is violated** when no radius can be estimated: zero is reported, as if the position were exact. Here one position was tried.
* `C110_spectrum_violates`: **C110 is violated** when the model is fitted anew at each point: the spectrum that is left in the model is that of the point tried last, not of the best one. Here the value reported is 0, but minus the log-likelihood of the model that is written is 16.
* `C110_tolerance_violates`: **C110.** The kind of tolerance has no effect: that of `toltype` is not passed on, so that the option `REL` is ignored.
* `C111_cover_violates`: A counts map around a hole of the exposure map is accepted, although a pixel of it has no exposure.
* `C111_inputs_violates`: Events and a livetime cube of times without overlap: gtlike only warns and goes on.
* `C111_map_violates`: Events and an exposure map without any selection in energy are refused, although the selections are the same and all energies pass both.
* `C111_time_number_violates`: If the numbers of lists differ, variables that were never set are printed.
* `C111_time_sums_violates`: Events from two intervals against a livetime cube of the first only: the user is told that the times do not agree, with sums of differences zero.
* `C112_lost_violates`: If the energies were not set, the file that was there before is lost.
* `C112_total_violates`: Without sources the total has no bins at all, instead of zero counts in each.
* `C113_error_violates`: Correlations are ignored: for a background of one source with two parameters whose effects cancel exactly, the variance of the counts is zero, but the error written is not.
* `C113_failed_violates`: A bin far above the energies of the region of interest ends the run with an exception, and leaves as output a copy of the input with its counts.
* `C113_outside_violates`: A bin above the energies of the region of interest has a negative rate: the counts of the source are those of `Source::Npred` for a region of two decades, constant exposure and spectrum.
* `C113_rows_violates`: If the spectrum has more rows than there are bins, the run ends with an exception and leaves an output whose last rows are the counts of the input under the name of a rate.
* `C114_range_violates`: After the energy range has been restricted, the spectrum over all bins is not a number if there are counts in a bin left out.
* `C114_stale_violates`: If the parameters of a source were changed without telling the likelihood object, its new counts are compared with the old model.
* `C114_weights_violates`: With weights the spectra of all sources need not add up to the observed counts: two counts, one of them in a pixel with weight zero; the spectra add up to one.
* `C114_zero_violates`: A pixel with counts but no predicted counts: the spectrum of every source is not a number.
* `C115_failed_violates`: A negative efficiency in the second row: reading fails, but the first event stays; reading a corrected file afterwards gives it twice.
* `C115_mask_violates`: Response functions chosen by name and with the default types 0 and 1, and a file with a selection of the types 4 and 5: the response functions are created without complaint, and the first event of the file leads to the use of a null pointer, whether or not it passes the cuts.
* `C115_none_violates`: An event of none of the selected types: the conversion of an infinite number to an integer.
* `C116_deriv_throws_violates`: C116 (violation). If a part has no parameter with the name, the call throws.
* `C116_deriv_violates`: C116 (violation). The derivative of the flux density of a composite source with respect to a parameter of its own spectrum, which is the derivative of the spectrum times the sum of the flux densities of the parts, is not returned: what is returned is the value of the spectrum times the sum of the derivatives of the parts with respect to parameters of theirs with that name, whatever the spectrum's own derivative is.
* `C116_missing_violates`: C116 (violation). Merging sources one of which is not in the model, or is named twice: the call throws, and those named before it are gone from the model.
* `C116_response_violates`: C116 (violation). With the cache for responses, as the unbinned likelihood gives it: for a composite source of point sources all parts are given the response of the first one.
* `C116_same_name_violates`: C116 (violation). A composite source under the name of one of its parts, which is fixed, split again: the part gets the source map of the composite source.
* `C116_split_leaf_violates`: C116 (violation). Splitting a source that is not composite: the call throws, and the source is gone from the model.
* `C116_split_taken_violates`: C116 (violation). Splitting a composite source the first part of which has the name of another source of the model: the call throws, and the composite source with all its parts is gone.
* `C116_stale_violates`: C116 (violation). A composite source that was split leaves its source map behind: another composite source under the same name gets the map of the first one.
* `C116_taken_violates`: C116 (violation). Merging under the name of another source of the model: the call throws, and all the sources to be merged are gone from the model.
* `C117_empty_violates`: C117 (violation). A table without bins is undefined behaviour, not an error; and so are zero logarithmic bins.
* `C117_gap_violates`: C117 (violation). Bins with a gap between them: the energies of the map are not the bounds of the bins, one of its bins bridges the gap.
* `C117_geometry_violates`: C117 (violation). If only the energies are given, the geometry is to be that of the counts map, and is exactly if the counts map is regular: for rectangular pixels, or if the reference pixel is not in the middle, the exposure map is another one.
* `C117_negative_violates`: C117 (violation). A negative number of extra bins, which means none if energies or geometry are given, is undefined behaviour if both are those of the counts map.
* `C117_order_violates`: C117 (violation). If only the energies are given and the number of divisions of the HEALPix counts map is not a power of two, the tool fails, although such a map is accepted together with its own energies.
* `C118_border_violates`: C118 (violation). With a border no direction at all is in a map that has not more than twice as many energy bins.
* `C118_gap_violates`: C118 (violation). If there is a gap between the bins, a map that is written and read again counts an event in the gap, though the original map does not; the energies the map states are the same for both.
* `C118_hpx_violates`: C118 (violation). If all energies are larger than the number of energy bins, as is the case for energies in MeV, no event is ever counted in a HEALPix map, and nothing is found to be in it.
* `C118_mismatch_violates`: C118 (violation). A file with fewer planes than energy bins is accepted, and counting an event in one of the bins without a plane is undefined behaviour.
* `C118_pixel_violates`: C118 (violation). A pixel whose middle is on the sky but one of whose corners is not is listed with another direction.
* `C118_step_violates`: C118 (violation). For logarithmic bins the file states a step of the energy axis that is not that of the bins.
* `C119_empty_violates`: C119 (violation). So it is with a file that has no energy bins.
* `C119_one_violates`: C119 (violation). With one energy, that is no bin at all, the behaviour is undefined.
* `C119_table_violates`: C119 (violation). The extension named by the parameter `evtable` is not the one that is read: what is there has no effect on the output, and without an extension `EVENTS` the tool stops.
* `C119_units_violates`: C119 (violation). The same file of energy bins means other energies for gtcntsmap than for gtexpcube2, which takes them to be in keV.
* `C11_violates`: C11 is violated when the selected bins hold no counts: with damping the last normalisation is set to 0 after the log-likelihood was taken, success is reported, and the reported value is the one at the starting point.
* `C120_again_violates`: C120 (violation). After sums over the energies were written, further sums count the energy bins from the second on again, each time once more.
* `C120_cube_violates`: C120 (violation). The counts of all energy bins, written after sums, have those sums in the first bin.
* `C120_hpx_violates`: C120 (violation). The sum over the energies of a HEALPix map has the counts of the first energy bin only.
* `C120_short_violates`: C120 (violation). A map given that is too small leads to undefined behaviour.
* `C121_columns_violates`: C121 (violated): more energies than columns: reading an energy without column is beyond the end.
* `C121_default_violates`: C121 (violated): without parameters, as the constructor allows, the projection is a pointer that was never set.
* `C121_long_violates`: C121 (violated): more rows than pixels are written beyond the end of the map.
* `C121_outside_violates`: C121 (violated): for a direction the projection gives no pixel for, asking for one energy reads outside the map, where asking for many gives zero.
* `C121_short_violates`: C121 (violated): if the file has fewer rows than the sky has pixels, as files for a part of the sky do, the pixels without a row have values that were never set.
* `C121_twice_violates`: C121 (violated): two response functions with the same number make the program delete the same object twice.
* `C122_limits_violates`: C122 does not hold for limits of the energy range: whatever range of bins is asked for, each component gets a range that ends where it begins and has no bin at all.
* `C122_overlap_violates`: C122 does not hold for bins of different widths: the only bin of the first component, which covers both bins of the second, is put with the first of them, and nothing of it with the other.
* `C122_zero_violates`: C122 does not hold for an energy of zero: it is left out, with the bin that begins there, and the counts end with a number that is nobody's.
* `C123_above_violates`: C123 (violated): a position above the map by more than its height makes the loop over the rows run beyond the end of the image.
* `C123_beside_violates`: C123 (violated): a position beside the map by more than its width makes the program copy a range that ends before it begins.
* `C124_constrain_violates`: C124 violated: if only some of the parameters are constrained, every likelihood with the prior fails, for whatever parameters, because the inverse of the covariance is reduced but the central values are not.
* `C124_fixed_violates`: C124 violated: with at least two sources fixed and the test source in the fit, no prior can be made from the current fit.
* `C124_global_violates`: A prior for all sources, asked for while there is only one for the current selection, is written through a null pointer.
* `C124_onefixed_violates`: C124 violated: with exactly one source fixed, the normalization of the test source is taken for the one of a source of the model: the prior then has one parameter too many, and every likelihood with it fails.
* `C124_reference_violates`: C124 violated: the prior of a source whose reference value is below 1e-15 (or negative) is silently dropped.
* `C124_selection_violates`: C124 violated: the prior for all sources is not fitted to another selection of free sources: every likelihood with it fails.
* `C125_errors_violates`: C125 violated: at the best value (gradient zero) the log likelihood falls, in the quadratic approximation, by only half of what was asked for: the "one sigma" error (1/2) is smaller than the standard deviation by the square root of two.
* `C125_flat_violates`: C125 violated: when the bins of the scan are given by the end 0, which stands for all bins in fits, the fixed model and the test source are left out: all log likelihoods of a scan are the same.
* `C125_full_violates`: C125 violated: without compressed data and without other free sources the scan reads the compressed model of the test source, which does not exist.
* `C125_outside_violates`: C125 violated: without an upper error the scan ends at 2.5e-4, also below the best value.
* `C125_small_violates`: C125 violated: for a variance below 1e-10 (standard deviations below 1e-5, in units in which a scan ends at 2.5e-4) no errors are computed: those of before the call are left, and the return code is a quotient; with the gradient zero even that is undefined.
* `C125_zero_violates`: Such a scan succeeds, with zeros, when there are no other free sources.
* `C126_empty_violates`: C126 violated: a point spread function that vanishes in all pixels is divided by zero.
* `C126_shift_violates`: C126 violated: for an odd number of elements a kernel that is one in its middle moves the signal by one element, around the ring.
* `C126_single_violates`: C126 violated: one number cannot be convolved, the result is read beyond its end.
* `C126_wide_violates`: C126 violated: only the number of rows of the kernel is checked. A row of three pixels, one in its middle, on an image of one pixel gives zero.
* `C127_column_violates`: Only columns of energies should be images. Every column is: whatever is in front of the columns of energies (the numbers of the pixels, for example) becomes the image of the first energy, and each column of energies the image of the energy after its own.
* `C127_partial_sky_violates`: A file with fewer rows than pixels is taken for one of the first pixels of the sky, whatever pixels its rows are for, and the other pixels are what memory contains: two runs give different maps.
* `C127_rebin_pixel_violates`: Afterwards pixels of the map cannot be read: the last pixel of the map is beyond the end of each image.
* `C127_rebin_violates`: A map should be made coarser by the factor. It never is: if the call succeeds, the images have two to the power of the side that is asked for as their side, and the map still has its old side and number of pixels.
* `C127_rows_violates`: More rows than pixels are written beyond the end of the image.
* `C127_single_violates`: A map of one energy should have a value at other energies, or refuse them. If it is not kept to the range, the second image is read, which does not exist.
* `C128_layer_violates`: The result is a map of all energies with one image: at any energy after the first it has no image, and the image of the first energy is that of the energy asked for.
* `C128_order_violates`: The pixels of a map should be those at their centres. The convolved image of a map in nested order is in the order of rings, while the map is still in nested order: the value of pixel `i` and the value at the centre of pixel `i` are those of different pixels.
* `C128_psf_wide_violates`: If the radius is beyond the last ring (180 degrees, for example), rings that do not exist are read.
* `C128_size_violates`: So the pixels are halved unless the radius is larger than about a thousand degrees divided by the side of the map, that is twenty times the size of the pixels.
* `C128_total_violates`: The total should always be that of the image. It is not: what is in pixels smaller than the largest negative value after the scaling is removed after the scaling.
* `C128_units_violates`: Smaller pixels should not be halved. They are, if only they are larger than that radius in radians taken for degrees.
* `C129_edge_violates`: A pixel on the sky should have its solid angle. If the sky ends within it, it has none.
* `C129_exposure_violates`: A moved source should have the exposure of its new position if asked to. It has that of the old one, until the exposure is computed again.
* `C129_pole_violates`: The solid angle of a pixel at the pole should be near the exact one. It is larger by a factor of one over the size of the pixel in radians, at least: one of the sides is written to the wrong variable.
* `C129_size_violates`: The size should be that of the present spatial model. Once it has been asked for it is kept whatever happens.
* `C130_covar_violates`: The covariance of normalizations should be that of their logarithms times the normalizations. On the diagonal it is that of the logarithms, elsewhere it is divided by the normalizations.
* `C130_last_violates`: A fit that may take one step should say whether it has converged. It never says that it has, even if it starts at the best normalizations: the step that finds that out is one too many.
* `C130_slow_violates`: A step in the logarithm of a normalization should be free to go where the data want it. The limit meant for normalizations themselves is applied to their logarithms: a normalization `x` does not become smaller than `x exp (-x)` in a step, so that small ones cannot become smaller still.
* `C130_stuck_violates`: A fit that says it has converged should be near the best normalization. The fit of one bin whose normalization is too large by more than a factor of `1 + x` says so at the start, with a distance of zero.
* `C130_zero_violates`: Fits should work from any normalizations. If one that is not the last one is zero the fit fails at its first step, whatever the data are, and if it is negative the results are not numbers, or the fit fails.
* `C131_covariance_violates`: Otherwise the damping goes into the covariance matrix: a parameter that does not act on the model, beside one with the variance `1 / c`, makes this variance `1 / ((1 + λ) c)`.
* `C131_init_violates`: Templates shorter than the sum, or a sum shorter than the fixed part, are not refused: elements beyond the end are read or written.
* `C131_lower_violates`: A vector of squared size made into a symmetric matrix: the elements below the diagonal count.
* `C131_square_violates`: A vector whose size is not a square is not refused: elements beyond its end are read.
* `C132_energies_violates`: C132 violated: the edges in the table of energies are in keV, as their units say, but the reference energy is in MeV: for bins of less than six decades it lies below the lower edge.
* `C132_map_only_violates`: C132 violated: when only a map is asked for, one position at which the fit fails makes the whole scan undefined: the status is also written into the cube of statuses, which does not exist.
* `C132_nnorm_violates`: C132 violated: energies without normalizations make the scan undefined at the first position with a successful fit.
* `C132_remake_violates`: C132 violated: with one likelihood, making the test source again at each position is undefined at the first position.
* `C132_sed_only_violates`: C132 violated: a scan of energies without a map has one position only, but its map of test statistics, like that of statuses, has elements for all positions: all but the first are zero, and they are all written to the only row of the table.
* `C132_small_violates`: C132 violated: for a variance below 1e-10 the errors and the limit of a bin are zero, and its test statistic compares the best normalization with itself.
* `C132_ts_violates`: C132 violated: for a log likelihood that is quadratic in the normalization, the test statistic of a bin with a significant source is half of the square of the number of standard deviations asked for in the scan, however significant the source is; the test statistic with respect to no source is at least that.
* `C133_bounds_violates`: C133 violated: a source whose normalization may not reach 2.5 cannot be scanned: whatever the fit gives there is an exception, after which the normalization is fixed and the likelihood is restricted to the energy bins of the scan.
* `C133_error_violates`: C133 violated: the range of a scan is given by the uncertainty of the first free parameter, whichever source it belongs to: if that of the scanned normalization is another one, the scan starts elsewhere.
* `C133_flat_violates`: C133 violated: for such a component no bin contributes to the log likelihood, after any history: a scan of a sum is flat.
* `C133_left_violates`: C133 violated: a scan leaves the normalization at its highest value, at least 2.5, and the energy bins restricted.
* `C133_range_violates`: C133 violated: after a scan of all `nE` energy bins one likelihood is left with one bin more than it has.
* `C133_reset_violates`: C133 violated: with this range the next evaluation of the likelihood, after any history, is undefined.
* `C133_summed_violates`: C133 violated: in a sum of likelihoods the range of every component is empty, for every range asked for.
* `C134_derivs_violates`: C134 fails: if the derivatives are asked for before the likelihood is evaluated again, and the new counts fill more pixels than the old ones, memory past the end of the computed model is read: neither call tells the object that its model is out of date.
* `C134_image_differs_violates`: C134 fails on the example: the map of the fixed source, 1 everywhere, is replaced by 3; the value does not change although the log likelihood does.
* `C134_image_fixed_violates`: C134 fails: if all parameters of the source are fixed, the image has no effect on the next value, which is that of the old map: the sum over the fixed sources is not made again.
* `C135_many_violates`: With 500 or more sources the maps are put in other, numbered files: an analysis that is started on the file that was asked for computes every map anew, and a source whose image the user gave has another one.
* `C135_parameters_violates`: Saving the sum of the fixed sources twice, with replacement: the image is the second one, the table of parameters that is found under its name is the first one.
* `C135_planes_violates`: Saving a range of planes of the map of a source writes computed planes, not those of the image the user gave.
* `C135_point_source_violates`: With `computePointSources` off, the use of a point source that is not in the file dereferences a null pointer.
* `C135_unnamed_violates`: Saving without a file name creates the file of the analysis anew: a map in the file that was not loaded yet is lost, and the same analysis then uses another image for its source.
* `C136_long_row_violates`: A row that began more than a minute before the good time is dropped by the filter, with all its livetime: for every interval, and every row that begins more than a minute before and ends in it, the cube is empty, although part of the row is good.
* `C136_lost_violates`: With `clobber` an old cube is removed before the new one is computed: when a spacecraft file does not exist, the run fails and the old cube is gone.
* `C136_repeated_violates`: Rows that are in two of the files count twice: with a file named twice the cube has twice the livetime, though time went by but once.
* `C136_several_sets_violates`: Of several sets of good time intervals only the first is used, for the livetime and for the end of the observation in the header: here the second set begins when the first is over, an event of either is accepted, and a row of 30 s in the second gives no livetime; the header says that the observation ended with the first.
* `C136_without_events_violates`: Without an event file the program should make the cube for the times `tmin` to `tmax` given as parameters. It never makes any: the times do not become good time intervals, and the bounds of the filter are read without having been set.
* `C136_zenith_violates`: With the upper limit of the zenith angle at its default of 180 degrees the lower limit is not recorded: cubes made with any two lower limits have the same header.
* `C137_deleted_violates`: The members are numbers in a vector that changes with the model. When a source in front of a member is deleted, the tied parameter governs another parameter than it was made for: if the first source, with at least one parameter, is deleted and the tied parameter is set to `q`, the parameters of all sources are as before except that with the old number, which is not the member any more; a parameter of the next source that was tied does not change.
* `C137_fixed_violates`: The value of a tied parameter that is fixed does not reach the sources: after setting it and giving the parameters to the sources the member has its old value again, and the tied parameter the new one.
* `C137_fixing_violates`: When a tied parameter is fixed, giving the parameters to the sources reads beyond the end of the vector of free parameters, as the sources still count it among the free ones.
* `C137_freeing_violates`: When a tied parameter is made free, giving the parameters to the sources changes a parameter that was neither tied nor set: the first source gets as many as it had free before, and those left over go to the next source by their names. Here the second source's parameter, 5 before, is 6 afterwards, the value of the first one's parameter of the same name.
* `C137_member_violates`: A new member with a number that is too high is refused with an exception, but it stays in the list: every setter throws from then on, after having changed the tied parameter and the other members.
* `C138_border_violates`: C138 is violated by the half of a pixel at the border: with the reference point in the middle, the outer corner of the last pixel is on the map and not within its radius.
* `C138_copy_violates`: C138 is violated by copies: the radius is not copied. Whether a copy is a map of the sky, the numbers of its pixels and the method for its sources then depend on what the memory held.
* `C138_corners_violates`: C138 is violated by maps whose corners are not on the sky (an all-sky map in an elliptical frame): their directions are taken to be the origin of the coordinates. With the reference direction there the radius is zero, and a source with such a map is taken for one without extent: over the whole sky its counts are computed from a map of ten degrees around the reference direction.
* `C138_equator_violates`: C138 is violated by maps in longitude and latitude that reach beyond a right angle from their reference direction: the last pixel on the equator is farther away than the corners, and is not within the radius of the map.
* `C138_flag_violates`: C138 is violated by the flag of a map in the plane: it is decided with a number of columns that is not set. The same map has one or another value at a position beside it, as the memory happened to be.
* `C138_function_violates`: C138 is violated by sources with a spatial function: their map in the plane is wider than the counts map by a pixel only, the projection by more. In a counts map of 45 degrees, with pixels of up to a degree, a direction at the border gets nothing, whatever is there.
* `C138_holes_violates`: C138 is violated without resampling: the pixels of the map in the plane are then those of the source's map if these are the larger ones, and of the healpix pixels of the sky, which get the values of the pixels that fall into them, some get none: all those in excess of the number of pixels of the map.
* `C138_large_violates`: C138 is violated by larger counts maps: for a source with a map of at most 45 degrees in a counts map of 85, a direction at the border of the counts map is not on the map in the plane, and its pixel gets nothing, whatever is there.
* `C138_wings_violates`: C138 is violated by a spatial function in a counts map of the sky: the map in the plane is as wide as the source without the point-spread function. A healpix pixel farther away than that gets nothing, whatever the wings of the convolved source are.
* `C139_background_violates`: **The map of the effective background.** Making it from a WCS counts map, whatever was done before, leaves that counts map unusable: the next use, copy or destruction of it is undefined, although `makeBkgEffMap` is a `const` member.
* `C139_rebin_violates`: **Rebinning loses a projection.** A client that destroys every map it made would expect nothing to stay allocated; with `n` rebinned maps, `n` projections stay.
* `C139_shared_violates`: **The sky map of a WCS counts map.** After any such history, take a WCS counts map, make a sky map of it, and destroy one of the two: whatever is done next with the other one - using it, copying it, destroying it - is undefined, although all of it is what a client may do.
* `C13_healpix_unchecked_violates`: C13, refuted: a HEALPix table with too few planes for the requested method is not rejected (an image with the same planes is), and the first plane index is negative.
* `C13_healpix_violates`: C13, refuted: a source map read from a HEALPix table with more planes than the response needs keeps offset 0, and the copy of the response column leaves the column (three entries, asked for 1..4).
* `C13_set_edisp_val_violates`: C13, refuted: switching the full method on after construction does not rebuild the response matrix; the copy of the response column starts before its first entry.
* `C140_deleted_violates`: C140 violated: when the model has a source with the name of the test source, for instance because the test source was chosen by its name, then choosing another test source deletes that source from the model, for each of the ways to choose, where the client expects to find it unchanged.
* `C140_leaks_violates`: C140 violated: each further point source leaves the one before allocated, in every history.
* `C140_missing_violates`: C140 violated: choosing a test source by a name that is not in the model fails, but only after the test source there was has been destroyed: it cannot be used any more, although the failing call should have changed nothing.
* `C140_removed_violates`: C140 violated: a test source that was chosen by name is the model's own object: once it is taken out of the model it cannot be used any more, where the client expects it to be kept.
* `C140_tsmap_violates`: C140 violated: the scan for a map with an absolute tolerance (type 0, the default) never makes a map, whatever the data, the model and the number of iterations asked for: the type of the tolerance is taken for the number of iterations, and the fit without test source gives up at once.
* `C140_twice_violates`: C140 violated: when the client has added a source with the name of the test source the scanner made, and chooses it by name, the scanner still takes it for its own; the next test source that is made destroys it twice.
* `C141_count_violates`: C141 is violated: the numbers of free sources of all components have to agree. Otherwise the code uses elements of its lists of templates that do not exist, whichever component has more of them.
* `C141_names_violates`: C141 is violated: a source that is free in one component only. Components with one free source each, `a` and `b`, give a likelihood that does not depend on the normalisation of `b`: the prediction for `b` is scaled with the normalisation of `a`.
* `C142_channel_violates`: C142 violated: a number that is not that of a channel gives the spectrum of channel 3 (tau leptons), whereas the documented default is channel 4 (bottom quarks).
* `C142_high_gradient_violates`: C142 violated: for masses less than 0.01 percent below 10 TeV, the derivative by the mass takes the flux above 10 TeV, which is set to zero: with a file in which nothing depends on the energy and the mass, and with equal scales, it is 2501 times the derivative of the flux.
* `C142_low_gradient_violates`: C142 violated: for masses less than 0.01 percent above 2 GeV, for which there is a flux, the derivative by the mass reads outside the list of masses.
* `C142_mass_gradient_violates`: C142, in part: with a file in which nothing depends on the energy and the mass, and masses away from the limits of the table, the derivative by the mass is the one of the flux, provided that the scale of the mass is that of the cross section. Violated: the scale used is that of the cross section.
* `C142_mass_violates`: C142 violated: for every mass below 2 GeV and for 10 TeV, which is in the table, at every energy below the mass (by less than ten decades), the code reads outside its list of masses, whatever is in the table.
* `C142_share_violates`: C142 violated: when the scales of the share of the first channel and of the mass differ, the derivative returned by that share is not the one of the flux, unless it is zero.
* `C142_shared_violates`: C142 violated: two spectra with files of their own do not keep them: after the second has read its file the first one returns the flux of that file too. With a file of ones and a file of twos these fluxes differ.
* `C143_composite_violates`: **Parts of a composite source.** The weights of a likelihood object are changed while two of its sources are merged. Once they are split off again, the first one is still summed with the old weights; and when its sums are made again, they are read from a map that was freed. So it is for every allocator and every content of the two weights maps.
* `C143_forgotten_violates`: **A map that was forgotten.** After any careful history, a client that makes two likelihood objects with the weights map in one of its variables, the first with `no_cached_weightmaps`, uses a map that was freed.
* `C143_phase_violates`: **The map for a range of phases is freed, but stays in the library.** After any careful history: an object with such a map is made and destroyed, and another one is made with the same file. The map of the second one is the freed one.
* `C143_reused_violates`: **An address used again.** Two objects have the same weights map, the second one forgets it, and another map is read to the address that became free: the first object takes it for the map it has and keeps the old weights.
* `C143_taken_violates`: **Weights that cannot be taken away.** After any careful history, an object that has forgotten its map keeps its weights when it is told to have none.
* `C144_composite_edisp_violates`: **A composite source with energy dispersion.** If it is the composite source that has additional energies, its map is read past its end.
* `C144_correction_violates`: **Energy dispersion is lost.** With the old scheme of energy dispersion (a correction for every source and energy bin), a composite source has none: the counts of a source before and after it is merged.
* `C144_edisp_violates`: **Sources with energy dispersion cannot be merged.** A source map with additional energies, as all sources with energy dispersion have in the present scheme, makes the merging fail, whatever the other sources are.
* `C144_phase_violates`: **The map for a range of phases is applied twice.** With such a map, the counts of a composite source of any sources are those with its square. So if the range of phases takes a fraction `c` of the exposure everywhere, merging the sources changes their counts by another factor of `c`.
* `C144_stale_violates`: **Parameters changed.** A source stored in full, the parameters of which were changed after its spectrum was last computed, is merged with the old spectrum.
* `C145_dark_violates`: **C145 (violation).** A flux density at or below the limit is not counted as zero but not counted at all. A source that is dark, or darker than the limit, at the place of all events gets a higher value than any source that predicts events with densities between the limit and one, however well it describes them: increasing the flux lowers the value.
* `C145_negative_violates`: **C145 (violation).** One event used with a negative flux density makes the value not a number, whatever the other events; the derivative remains a number.
* `C145_params_exception_violates`: **C145 (violation).** The same for whole parameters: the first function is changed before the second complains of an unknown name.
* `C145_stale_violates`: **C145 (violation).** A parameter of the source freed after the object was made: the object accepts as many values as were free then, and reads past their end.
* `C145_value_exception_violates`: **C145 (violation).** An exception on the second value: the source has the first new value, the object still reports the old one.
* `C146_capital_violates`: **C146 (violation).** A capital `Y` is a no.
* `C146_end_violates`: **C146 (violation).** The end of the input, as in a batch job without terminal, is taken as yes: the fit is repeated without end, after any number of answers.
* `C146_yes_violates`: **C146 (violation).** An answer of more than one character beginning with `y`, such as `yes`, is taken as yes, but it leaves the input in the failed state, in which every further question is answered with yes: whatever the user types afterwards, the fit is repeated without end.
* `C147_cover_violates`: **C147 (violation).** The sample never reaches the direction of the event itself: with a response of one everywhere the response to a source of brightness one is below the solid angle `4π` of the sky, for every sample the program makes with at least two points. What lies nearer to the event than the smallest sampled angle, or farther than the largest, is left out.
* `C147_few_violates`: **C147 (violation).** A sample with fewer than two points, as any made with two points of the grid, makes the quadrature read before the beginning.
* `C147_low_energy_violates`: **C147 (violation).** At and below the lowest energy the second band is used instead of the first.
* `C147_narrow_violates`: **C147 (violation).** If more than the first level lies below the smallest angle (a narrow distribution), the element before the first is asked for and the sampling throws.
* `C147_single_band_violates`: **C147 (violation).** With a single band that asks for a band which does not exist.
* `C148_clobber_violates`: **C148 (violation).** With `clobber=no` and no output model, existing results and spectra are replaced without a question.
* `C148_exception_violates`: **C148 (violation).** With `save=no`, if the report ends with an exception, the results file is left empty, whatever was in it.
* `C148_same_name_violates`: **C148 (violation).** If the results and the output model have the same name, the results are lost.
* `C148_save_no_violates`: **C148 (violation).** With `save=no` a regular run deletes the results file, whatever was in it, for example the results of an earlier run.
* `C149_duplicate_violates`: **C149 (violation).** Of two parts with the same name the later keeps its projection.
* `C149_number_violates`: **C149 (violation).** A string that looks like a number is written as a number.
* `C149_reserved_violates`: **C149 (violation).** The map of a source called `EVENTS`, `GTI`, … is taken for a table and keeps whatever projection it has.
* `C149_stale_violates`: **C149 (violation).** A keyword of the projection which the primary header lacks stays in the image, which then differs from the primary header.
* `C150_primary_mask_violates`: The primary part is written although the mask excludes it.
* `C150_second_run_violates`: Two runs with one scanner: the histograms of the first are still there, so that a column is asked for twice, and no file with the table of fits can be written.
* `C150_units_violates`: The reference columns of the table of energies do not get their units: in a table where the columns that are to come have no keyword yet and their names are new, none has one afterwards, and the keyword for the dimensions of their cells is a unit.
* `C151_empty_violates`: Without good times the behaviour is undefined.
* `C151_reversed_violates`: Two disjoint intervals, the later one first: the header says that the data stop before they start.
* `C152_failed_violates`: If the first fit fails, the program ends as if all were well, and leaves a file with no image and empty tables.
* `C152_weights_violates`: A map of weights is read, but it is not used in the scan: without the standard fitter the program does the same as without the map; and if the weights make a difference in the test statistic anywhere, the file is not that of the scan with weights.
* `C153_mask_violates`: Without weights asked for, but with a map of weights, the counts in pixels of weight zero are left out, so that the counts predicted pixel by pixel are not those that the likelihood has for the source: they differ by what is in these pixels.
* `C153_nll_masked_violates`: With a map of weights, `nll_explict` without weights fails if there are data in any pixel of weight zero, whatever the model.
* `C153_nll_violates`: `nll_explict` is the logarithm of the likelihood of the summed map, for every model that gives counts wherever there are data, without a map of weights. It is not the negative logarithm that its name says, unless that is zero.
* `C154_composite_violates`: Of every part of a composite source that is read a copy stays in memory, which nobody owns.
* `C154_load_violates`: A file in which a name comes twice is refused, but the sources before the second of them stay in the factory, so that a corrected file which has one of them is refused as well; the other sources stay in memory when the factory is gone.
* `C154_replace_self_violates`: Replacing a prototype by itself (the client kept the pointer it handed over) reads the name of a source that was deleted.
* `C156_move_violates`: **C156 (violation).** A source in the likelihood that is moved keeps its counts.
* `C156_readd_violates`: **C156 (violation).** A source is added, deleted, and another one is added under its name: its counts are those of the place of the first. (The map of the first stays in the cache, and giving it another source does not draw it again.)
* `C156_remove_violates`: **C156 (violation).** A scan does not erase the map of a source with fixed spectrum: with `save_all_srcmaps`, a source that is added after a fixed one was removed has the counts of that one.
* `C156_sums_violates`: **C156 (violation).** If the source added after the deletion is a fixed one and maps are not kept, the sum of the counts gets the place of the deleted source and the sum of the predicted numbers the new place with the PSF of the old one.
* `C157_limit_violates`: **C157 (violation).** The greatest angle asked for is never in the table: all angles are at most `((n-1)/n)²` of it.
* `C157_many_violates`: **C157 (violation).** For more than 46340 angles the square of their number is not an `int`.
* `C157_single_violates`: **C157 (violation).** A single energy cannot be asked for: the step is a quotient by zero.
* `C158_compressed_violates`: **C158 (violation).** A compressed file in whose name `.gz` is also before the end is not refused.
* `C158_short_violates`: **C158 (violation).** A file whose name has two characters is refused whatever they are, and so is one whose name has one character.
* `C158_version_violates`: **C158 (violation).** If the first file has an empty version, the second may have any.
* `C159_name_taken_violates`: **C159 (violation).** A source with the name `testSource` in the model and a target that is not in the model: the run fails whatever the search would give.
* `C159_none_violates`: **C159 (violation).** With `outfile` set to `none` nothing is written, but the run fails if there is a file called `none` and `clobber` is not set.
* `C159_report_kept_violates`: **C159 (violation).** The position found cannot be stored: the run fails, but `outfile` was written, over a file that was there if `clobber` is set.
* `C159_test_name_violates`: **C159 (violation).** A target of the model with the name `testSource`: a position is found and reported, but the source model is not written although `clobber` is set.
* `C160_axes_violates`: **C160 (violation).** A HEALPix map has two axes, and asking for the third is not refused: a test source of a scan reads outside of the list of axes.
* `C160_fewer_violates`: **C160 (violation).** A table with fewer columns of counts than there are energy bins is read without an error: there are no counts in the other energy bins.
* `C160_more_violates`: **C160 (violation).** A table with more columns of counts than there are energy bins makes the reading write outside of the counts.
* `C160_order_violates`: **C160 (violation).** The numbers in the names of the columns have no effect: if the columns of a map are in another order, the counts are of other energies. Tables with the same columns of counts in the same order are read in the same way, whatever their numbers are.
* `C161_input_violates`: If the output is the file of the counts map itself, the maps are computed anew and those of other sources, which were in the file, are lost.
* `C161_many_violates`: With 500 sources or more the output has none of the maps, and the run ends without an error.
* `C161_stale_violates`: A map in the file of the counts map is taken even if it is not that of the source as it is now in the model, for instance because the source was moved: the run ends without an error.
* `C162_outside_violates`: The circle of the correction leaves the map: a source `m` pixels from the left side, at the middle of a row of pixels and not closer to the other sides, has a radius of more than `m` pixels, so that there are positions within the radius that are not in the map.
* `C162_whole_sky_violates`: A single corner of an edge pixel that is not on the sky, as in all maps of the whole sky in an Aitoff projection, makes the maps of all point sources fail, even if no correction is to be made and the radius is not needed.
* `C163_energy_violates`: The reference energy is written in MeV beside bounds in keV: unless the bin is a thousand times wide, it is not in its bin.
* `C163_never_violates`: Without any test source the table cannot be written: the values are read outside of their lists.
* `C163_stale_violates`: If the exposure of a test source cannot be computed, this is no error, and the table has the values of the source before.
* `C163_zero_violates`: If the exposure of the first test source cannot be computed, all reference values are zero.
* `C164_exposure_violates`: The counts of a pixel are not the response times the exposure there: where the exposure differs from that at the middle of the source the counts are wrong.
* `C165_behind_violates`: Behind a primary image that is a map it is the other way round: a HEALPix table in an extension is refused, an image is opened.
* `C165_prefix_violates`: A table that is not in HEALPix pixels is read as if it were when its keyword begins with the word.
* `C165_sky_violates`: An exposure map of that size need not cover the sky: shifted in latitude, it passes although a pole is not on it.
* `C166_empty_violates`: If in one bin no counts are expected, the residual there has no value.
* `C166_fine_violates`: Without bins the lines are to be finer than the points; they are drawn at the same energies.
* `C166_short_violates`: A source with fewer counts than there are bins is read outside of its list.
* `C167_forgot_violates`: After the area of a cube without azimuth was made, a cube with azimuth gets the averaged area, and so do events.
* `C167_mixed_violates`: An area that is in use meanwhile answers with the azimuth where it was asked before and without it elsewhere.
* `C168_copied_violates`: Two snapshots with the same parameters, as the copy the compiler writes leaves them: the second destruction is undefined.
* `C168_deep_copy_violates`: A deep copy of a snapshot that is only a view, then its destruction: the source's normalisation is gone, and reading it is undefined.
* `C168_relatched_violates`: A snapshot taken twice of a source that did not change says that its spatial type changed.
* `C169_composite_violates`: Two point sources with different responses in one composite source: the cached flux density is wrong.
* `C169_moved_violates`: A point source that was moved: the cell keeps the response of the old direction.
* `C16_stale_model_violates`: C16 fails: after an evaluation, a free source is added; `getFreeDerivs` then returns the derivatives computed with the model that lacks the new source (-1 for both parameters; the gradient is -5/4).
* `C170_healpix_undefined_violates`: The same, when the weights themselves can be computed: the behaviour is undefined.
* `C170_healpix_violates`: For a HEALPix map gtwtsmap never ends well: the table is deleted twice.
* `C170_no_inputs_violates`: gtalphabkg without input maps uses a null pointer.
* `C171_fixed_violates`: A fixed source given with a map, when fixed sources share one map: nobody takes the map over, and it is still alive when the cache is gone.
* `C171_no_point_maps_violates`: A point source without a map, when maps of point sources are not computed: a null pointer is used, at whatever place in the list the source is.
* `C171_readd_violates`: Adding a source with the map the cache already has for it: the map is deleted and kept, and the destructor deletes it again.
* `C171_recreate_violates`: When the new map cannot be made, the cache keeps the pointer to the deleted one, and its destructor deletes it again.
* `C171_two_names_violates`: A map the cache has, handed over again under a second name: the destructor deletes it twice.
* `C172_narrow_violates`: A response at one energy only has no width, and cannot be made from its parameters.
* `C172_no_energies_violates`: Without true energies, as in an event made without arguments (Event.cxx:65-70), the loop runs out of the arrays.
* `C172_one_energy_violates`: With one true energy, which is what every event made with arguments has (Event.cxx:82-101), the parameters do not depend on the response at all: the integral is zero, the mean is the energy of the event and the width a tenth of it.
* `C17_delete_changed_residue_violates`: What deleting a fixed source after changing its parameters does, for every object and source: the difference between its old and its new counts stays in the fixed model of the now empty likelihood.
* `C17_delete_changed_violates`: C17 fails: add a fixed source with parameter 1, set the parameter to 3, delete the source; the empty model now has log-likelihood 3 instead of 0.
* `C17_name_reuse_violates`: C17 fails: a source re-added under the name of a deleted one, with another template, is evaluated with the template of the deleted source. For every object and pair of sources.
* `C18_violates`: C18 fails after a rejected setting: the second value is out of bounds, the first has been set in its source and the parameter list has not been updated.
* `C20_find_index_violates`: `findIndex` is wrong for a free group that comes after a fixed one: it is not the slot that drives the parameter.
* `C20_fixed_group_violates`: **C20** is false: as soon as one group of tied parameters is fixed, the number of derivatives returned is not the number of free parameters.
* `C20_output_violates`: **C20** is false: the derivatives are added to what the output vector already holds.
* `C20_tied_violates`: **C20** is false: for a group of two tied parameters the derivative returned is that with respect to the one with the larger index alone, so it is wrong whenever the other derivative is not zero.
* `C21_find_index_violates`: **C21** is false: `findIndex` is wrong for a free group that comes after a fixed one: it is not the slot that drives the parameter.
* `C21_fixed_group_violates`: **C21** is false for a group of fixed parameters: after the tie both members have the value of the first, and after the next setting of the free parameters the second has its old value again.
* `C21_overlap_violates`: **C21** is false when a parameter is tied twice, which is accepted: setting the free parameters succeeds and the values read back are the ones given, but the members of the first group do not share one value.
* `C21_readd_violates`: **C21** is false after adding a component again: it forgets which of its parameters are tied, so a tied parameter also appears as a free parameter of its own.
* `C22_violates`: **C22** is false: when the second index is rejected (it is tied already, or does not exist), the first one has silently become tied to nothing and is missing from the free parameters.
* `C24_axis_violates`: C24 fails for an axis that is not the last: summing over all bins of the first axis mixes cells of different tuples.
* `C24_first_bin_violates`: C24 fails: the start of the range is ignored. In a 2 × 3 histogram with cells `1 .. 6`, summing bins 1 and 2 of the last axis gives the sums of bins 0 and 1.
* `C24_one_axis_violates`: C24 fails for every one-dimensional histogram: the result has no axes and its construction writes outside a vector.
* `C25_reread_violates`: **C25** is false for an object used twice: reading the cuts of a second file keeps the good time intervals of the first, so events outside every good time interval of the file last read are accepted.
* `C25_violates`: **C25** is false: as soon as there is a time range cut, the good time intervals and all the other time range cuts are without effect. Any object whose last time range accepts a time outside its good time intervals accepts an event that does not pass the cuts.
* `C27_negative_violates`: C27, refuted: the linear extension of a rising spectrum is negative, so non-negative counts and responses can give negative measured counts (grid 1, 2, 4; counts 0, 1; lowest true bin spilling into the first measured bin).
* `C27_single_bin_violates`: C27, refuted for a single measured bin: with extra true-energy bins the extension reads a second element that does not exist, for every response and spectrum.
* `C28_first_bin_violates`: C28, refuted: in the rescaling method a first energy bin without true counts makes the weighted bookkeeping read element -1 of a vector, whatever the rest of the source, response and weights (and however the response is sized).
* `C29_no_break_violates`: A single index and no break is accepted, and then the value reads outside a vector.
* `C29_scale_violates`: With another scale than one the derivatives are wrong by that factor: by the first index below the first break, and by any other index above its range.
* `C30_index_scale_violates`: With another scale they are wrong by that factor, wherever the index matters.
* `C30_no_node_violates`: No energy at all is accepted, and then the value reads outside a vector.
* `C30_single_node_violates`: A single decoupled node: the derivative at its energy reads outside the vector.
* `C31_integral_violates`: At index -1 it divides zero by zero; it is not the integral.
* `C32_mixed_violates`: Evaluations with and without priors are compared with each other: an evaluation with priors, then, at a point which is better with and without priors, one without, and the restored best fit is the worse point.
* `C32_source_change_violates`: One source is replaced by another with as many parameters, and the best fit is restored before any evaluation: the new source gets the values of the old one.
* `C33_boundary_violates`: Sparse storage, range ending before the last plane: if the first pixel of the next plane is not zero, adding writes past the end of the vector.
* `C33_nospec_violates`: Sparse storage, without the spectrum: adding throws as soon as there is anything to add.
* `C33_restore_violates`: … and after a change of the spectrum in a plane in the range with a non-zero pixel it is not.
* `C35_time_violates`: **C35** is false: whenever two GTI cuts of the file end at different times, the time range ends before one of them does.
* `C36_twice_violates`: Calling it twice with the same vector gives twice the map: wrong unless the map is zero.
* `C37_catch_violates`: With LOGLIKE_CATCH_NEG_PROB set, an evaluation that throws leaves what it has summed so far, and the next evaluation is wrong by it.
* `C37_fixed_source_violates`: A parameter of a source without free parameters is changed with `setParam`, and the model is synchronised: the evaluation is that of the old value.
* `C37_move_violates`: A source of the model is moved, its exposure recomputed and the model synchronised: the density at the event is still that of the old place (the place is 1 before, 2 after).
* `C38_linear_quadrature_violates`: C38, refuted for linear quadrature: with the linear-quadrature setting, the binned likelihood still uses the log-log weights, so its pixel counts are not those of the source's own `pixelCounts` (constant spectrum and map on the bin [1, 2]: log-log gives 3/2·log 2, linear gives 1).
* `C39_drop_weights_violates`: C39, negation: after the original map was deleted, a request to drop the weights (null map) is silently ignored (BinnedCountsCache.cxx:61 compares with the pointer that was reset to null at line 84).
* `C40_violates`: C40 is violated: one bin, one count, template 1, start at 3. The Newton step overshoots, the step is replaced by 0 and the reported distance by 0: the fit reports success (code 0, distance 0) at the starting point 3, where the gradient is 2/3 and the log-likelihood is smaller than at 1 by more than half a unit.
* `C41_full_first_violates`: Without compression a fit in the first energy bin takes the pixels of all energy bins.
* `C41_full_violates`: Without compression a fit over all energy bins leaves out the last one, and a fit in energy bin `i > 0` uses the pixels of the bin below it.
* `C42_violates`: C42, refuted: turning dispersion on and off again leaves it on.
* `C43_violates`: C43, refuted for the full method: with all weights 1 the weighted true counts of the bin differ from its true counts (1 instead of 0): they are taken from the lowest plane of the dispersion range instead of the bin's own.
* `C44_edisp_change_violates`: C44 fails: in a likelihood without fixed sources, changing the energy-dispersion setting makes the next evaluation read past the end of an empty vector, whatever the free sources, data and response.
* `C45_merge_violates`: C45 fails: merging with a misspelt second name is refused and the first source is gone.
* `C45_move_violates`: C45 fails: if the other model has a source of that name, the move is refused and the source is gone from both.
* `C45_split_violates`: C45 fails: splitting a source that is not composite is refused and the source is gone.
* `C46_names_violates`: **C46** is false for a group of parameters with different names: the tie is accepted, and the next setting of the free parameter to a value within the bounds fails.
* `C47_add_violates`: A source added while the energy range is restricted counts with its full exposure.
* `C47_unset_violates`: `unset_ebounds` does not undo `set_ebounds`: the exposures stay those of the range, and so do the predicted counts, while all events count again.
* `C48_read_violates`: Events read after sources were added: the fixed source is missing in the sum of the event, and the shares add up to more than one.
* `C50_band_violates`: With the first index at most the second the value does not depend on the first; the reported derivative with respect to it is not zero.
* `C50_bpl2_index1_violates`: With the break below the limits the derivative with respect to the first index is reported as zero at every energy; below the break it is not.
* `C50_bpl2_index2_violates`: With the break above the limits the derivative with respect to the second index is reported as zero at every energy; above the break it is not.
* `C50_bplExp_violates`: With the prefactor zero the derivative with respect to it, above the onset of absorption, is not the reported one unless the scales happen to agree: they are applied twice.
* `C50_smoothDouble_violates`: In general the number reported for the middle index times its scale is the derivative.
* `C50_superExpCutoff2_violates`: Above the bound the value does not depend on the parameters of the exponential, but the derivative reported by the exponential factor is not zero.
* `C51_bplExp_jump_violates`: The broken power law with absorption jumps at its break, and at the onset of absorption, unless its prefactor is zero.
* `C51_bplExp_violates`: The value drops to zero exactly at the break, and exactly at the onset of absorption, whatever the other parameters.
* `C51_sec4_violates`: The energy at which it switches from the truncated series to the closed form: a jump, as the series stops after the fourth power.
* `C52_bpl2_break_violates`: With its lower end exactly at the break the integral is computed with the index that applies below the break.
* `C52_bpl2_integral_violates`: What `integral` returns is the integral divided by the break energy, for a lower end other than the break.
* `C52_bpl3_integral_violates`: What `integral` returns is the integral divided by the break energy.
* `C53_density_violates`: After Sigma has been given another value it is not, at any argument.
* `C53_derivatives_violates`: The derivative of `LogGaussian` by Mean is wrong except at `x = 0`; that by Sigma is wrong except where `5 (x - mean)² = -6 sigma²`, that is, everywhere; the one of `GaussianError` by Sigma is wrong except at the mean. Unit scales.
* `C53_scale_violates`: With another scale than one, no derivative by a parameter takes it into account; for instance the one by Norm.
* `C54_assign_violates`: An assigned object keeps its old factor: its values differ from those of the original wherever the spectrum is not zero and the factors differ.
* `C54_ebl_order_violates`: After a change of the model the derivative depends on the order in which the compiler evaluates a product: the depth of the old model, or a use of a deleted object.
* `C54_ebl_violates`: With another scale the derivative by tau_norm is wrong wherever there is any attenuated flux: the factor scale is missing.
* `C54_file_violates`: At the last energy of the table the value is reported, but not the derivative if the interpolation covers only energies below (the value has a case of its own for that).
* `C55_complement_violates`: Bounds with only one end right are accepted: the factor may be negative or above one.
* `C55_refused_violates`: A refused request has taken effect all the same: the object uses the complement.
* `C56_accessor_violates`: C56 is violated: for a free source that was added, `free_source_added()` is false and `free_source_removed()` is true, and likewise for a fixed one.
* `C56_model_violates`: C56 is violated: comparing the whole model with the snapshot reports no change when sources were removed and nothing else changed, whatever the number of removed sources.
* `C56_removed_violates`: C56 is violated: the status of a removed source says that a fixed source was removed if it was free, and that a free source was removed if it was fixed.
* `C56_spatial_violates`: C56 is violated: a source whose spatial distribution is replaced by one of another kind, with the same parameters, is reported as unchanged: only the key of the function and its parameters are compared.
* `C57_drift_violates`: C57 is violated: changes below the tolerance add up. A fixed source that changes by less than the tolerance between updates is never updated as long as another source gives reason to take a new snapshot each time; the error of the scanned counts grows without bound.
* `C57_negative_violates`: C57 is violated: a template made anew for a source whose normalisation is negative is not brought to the reference value; its counts then enter with the square of the normalisation: here a source of counts -1 is scanned as +1.
* `C57_rebuild_fixed_violates`: C57 is violated: a cache without templates does survive a rebuild, but the counts of the fixed sources of the model before stay in the fixed part: here a source of one count is freed and is scanned as two counts.
* `C57_rebuild_violates`: C57 is violated: if the cache has a template at all, then an update after a free source was added, or a source without template freed, is undefined behaviour: the new templates are appended to the old ones, the reference values are not, and those of the last templates are read beyond the end.
* `C57_removed_violates`: C57 is violated: the cache decides that nothing has to be done when a source with a template was removed from the model and nothing else changed: the scan goes on with its template.
* `C57_scale_violates`: C57 is violated: the scale of a normalisation is not looked at by the update (only the product of value and scale is compared, and only the value is used): after it has been doubled, the scanned counts are half of those of the model.
* `C57_target_violates`: C57 is violated: the template of the test source is that of the first model, whatever has become of the test source since.
* `C57_test_violates`: C57 is violated: an update drops the test source from the scan if the fixed part or a template was computed again, and keeps it otherwise.
* `C57_type_violates`: C57 is violated: the cache decides that nothing has to be done when sources with templates got a spectrum of another kind, as long as their normalisations and spatial parameters stay and nothing else changed: the templates then belong to the old spectra.
* `C58_empty_violates`: C58 is violated: at an energy with no exposure nothing is normalised; no part of the function lies in any cone short of the whole grid, and all of it in that one.
* `C58_range_violates`: C58 is violated: above the last energy the function itself is zero everywhere, but its integral is the one at the last energy, and one over the whole grid; below the first energy the function is zero and the integral an exception.
* `C58_slope_violates`: C58 is violated: `derivative` is the slope of the table at the energy of the table below; between two energies it is the slope of the interpolated function only if both energies have the same slope.
* `C59_fixed_violates`: A shape parameter that is free in the first component and fixed in the second is changed in the second all the same.
* `C59_gradient_violates`: If the common sources do not have the same free parameters the gradient is wrong: the derivative with respect to a parameter that is free in the second component only is added to that of another parameter (here parameter 2 to parameter 1). If the first component has no free shape parameter and the second has one, the behaviour is undefined (remainder by zero), although the parameters can be read and counted.
* `C59_order_violates`: Which component comes first is decided by the addresses of the objects: the same two components at exchanged addresses have different numbers of free parameters.
* `C59_params_violates`: `parameters()` of a composite of two or more components is not the list of its parameters: all normalisations but one are lost whenever the parameters are set.
* `C59_short_violates`: A vector of values that is too short is not noticed: the values are read beyond its end, for the other sources as for the common ones.
* `C60_last_violates`: If the spacecraft data end before the last time of the cuts, their last row is left out: its exposure is lost.
* `C60_lost_violates`: One interval of two minutes, wholly good, seen with unit area: its exposure is not zero, but zero is computed, as the cuts end later.
* `C60_overlap_violates`: Overlapping good time intervals are counted twice.
* `C61_early_violates`: A time before the history but within the tolerance passes the check of the range, but has no index: the livetime fraction throws, and the axis is computed from the *last* two rows, by following their motion backwards over the whole history.
* `C61_long_violates`: A row longer than that is left out although all of the selected time lies within it.
* `C61_order_violates`: The first two rows may be in the wrong order.
* `C61_single_violates`: With a single row there is no axis at any time.
* `C62_sphere_violates`: On the sphere its flux is less: the normalisation is that of the plane.
* `C63_assign_violates`: After an assignment of a profile without a centre the old centre is kept.
* `C63_beyond_violates`: A profile that has fallen to zero at its last point is negative everywhere beyond it.
* `C63_center_violates`: A change of the parameters of a profile that has been evaluated, or moved, before has no effect on where it is.
* `C63_equal_violates`: The reader accepts two points at the same angle, for which there is then no value.
* `C63_move_violates`: A source that has been moved goes back to the position of its parameters when its size is set, even to the value it has.
* `C63_norm_violates`: The normalisation does not enter the value, but the derivative with respect to it is not zero.
* `C63_null_violates`: The centre of a profile that has neither been evaluated nor moved is a null pointer.
* `C63_single_violates`: A table with a single point cannot be evaluated anywhere.
* `C64_cut_violates`: One event, two sources with one per cent and ninety-nine per cent of the density, at the maximum of the likelihood; a round makes the likelihood worse, though neither objective gets worse.
* `C64_endless_violates`: With two thousand free parameters or more the tolerance is negative, and the loop never ends; without free parameters it ends with an exception.
* `C64_faint_violates`: A source that has at most one per cent of the density at every event is fitted as if there were no events: its objective is its predicted counts alone, with the wrong sign.
* `C64_zero_violates`: A vanishing density is left out of the objective instead of excluding the parameters: one source, one event at a density below one; switching the source off looks better, and afterwards no source accounts for the event.
* `C65_edge_violates`: On the far edges, which the program takes as inside, the value is zero whatever the pixels.
* `C65_extrapolates_violates`: Just left of the seam, at coordinates between minus one and zero, the interpolation extrapolates: a map without negative pixels has a negative value.
* `C65_index_violates`: The number of a plane is not checked properly: the one after the last is looked up beyond the end.
* `C65_negative_violates`: At negative coordinates, from one pixel left of the seam, evaluation throws.
* `C65_seam_violates`: At the centre of the last pixel of the last row the value is that of the first pixel of the row; without interpolation it is so in every row.
* `C66_single_violates`: A map with a single plane has a value at the energy of the plane only (and at the default): elsewhere a second plane is looked up beyond the end, or at least a second energy.
* `C67_counts_violates`: A map made from a counts map has the solid angles with their indices the other way round than the integration takes them: unless it is square, the construction reads beyond the end (here without the conversion to intensities).
* `C67_empty_violates`: Above a plane that is empty, or has an empty one above it, there is no number or zero.
* `C67_single_violates`: A map with one plane has an integral at the energy of the plane only.
* `C67_transposed_violates`: A square one gets the integral with the solid angles of the transposed pixels.
* `C68_outside_violates`: A block without solid angle, as there are in the corners of a map of the whole sky, has no mean: there is no coarser map then.
* `C68_periodic_violates`: A map that closes in itself is still taken to do so if the factor does not divide its size, though it covers more than the full circle then.
* `C69_file_violates`: Counts made from a map whose solid angles are computed when they are asked for, as those of a map read from a file: with more columns than rows rows beyond the last are read; with fewer, the counts of the last rows are left as they were (here two rows of one pixel).
* `C69_healpix_violates`: The way back does not exist: the loop over the widths goes beyond the last edge, whatever the map; and the conversion itself works on a copy, so that the counts would be left as they were.
* `C69_nonsquare_violates`: Any other counts map: the construction reads beyond the end. This is what happens to the maps of the tool that computes the effective background.
* `C69_outside_violates`: A pixel outside of the projection has no solid angle: the division gives no number, and there is no map of intensities.
* `C70_below_one_violates`: For a factor below one no layer has any background, not even its own counts, and nothing is said about it.
* `C71_short_violates`: A map of factors with fewer values than the background is accepted: the places beyond its end get the weight without a factor.
* `C71_sizes_violates`: A component with fewer values than the first one is read beyond its end.
* `C71_small_violates`: A map with fewer than twenty values, and at least one, always ends in a division by zero.
* `C72_extrapolated_violates`: A map of weights whose range of energies is not enforced, which is the default of its constructor, is extrapolated: the weight at twice its last energy is 2, and there is no warning.
* `C72_projection_violates`: A pixel whose direction cannot be projected onto the map of weights does not get the weight one: the exception of the projection is passed on.
* `C73_errors_violates`: **C73**, violated. The uncertainties of a fit are not written: a parameter of a spectrum with an uncertainty has none after the model was written and read.
* `C73_flags_violates`: **C73**, violated. The switches of a source are not written: a source for which the point spread function, the exposure or the energy dispersion is switched off has all three on after the model was written and read.
* `C73_multiple_violates`: **C73**, violated. A power law with many breaks is written with the type `MultipleBPL`, but the applications register the function under another name: whatever else is registered (`others`), the file written from a model with such a source is refused as a whole, and nothing is read.
* `C73_registered_violates`: **C73**, violated. Nor can the function be given under the name it is registered with: it is created without parameters, they are only added for the other name, and every spectrum element with a parameter is refused.
* `C74_clash_violates`: **C74**, violated. Reading a file into a model that already has a source of one of the names in the file fails, but not without effect: the sources of the file whose names come before that name are in the model afterwards.
* `C74_negative_violates`: **C74**, violated. A piecewise power law in whose file entry the first flux value has the number -1 is no error but undefined behaviour: a vector is emptied and written out of range.
* `C74_position_violates`: **C74**, violated. A point source whose file entry has no position is not refused: it is read as a source at right ascension and declination 0.
* `C74_unknown_violates`: **C74**, violated. A source element with a type that is not one of the three known ones, for example a misspelt one, is passed over: the file is read as if the element were not there, and no error is reported.
* `C75_composite_violates`: **C75**, violated. A model with a composite source cannot be read again: the call throws at the composite source, after the sources before it and the spectrum of the composite source itself have taken the values of the file, and the parameter list of the model is still the old one.
* `C75_energies_violates`: **C75**, violated. The energies of a piecewise power law are kept besides its parameters, and are not made anew: after the file was read again its parameters are those of the file, but the energies at which the function changes its slope are the old ones.
* `C75_kind_violates`: **C75**, violated. If the file has a diffuse source with the name of a point source of the model, reading it again is undefined behaviour: the spatial function of the point source, a null pointer, is given the parameters.
* `C75_position_violates`: **C75**, violated. A point source whose file entry has a spatial part without a position is moved to right ascension and declination 0.
* `C75_small_violates`: **C75**, violated. A point source that the file puts at another position, not more than the tolerance (1e-4 radians, 20 arc seconds) away, stays where it is, although no error is reported and its other parameters are taken.
* `C76_quote_violates`: **C76**, violated. A quotation mark in a value is not protected, so that different elements have the same text: one attribute whose value contains `" m="` and two attributes. No reader can tell them apart.
* `C76_reference_violates`: **C76**, violated. A value with the characters of a reference, here `&lt;`, comes back with the character it stands for.
* `C77_exact_violates`: **C77**, violated. A number of the model need not survive in a file: the floating point numbers 1 and 1 + 2⁻⁵² are different, but the file says 1 for both, and reading it gives 1.
* `C78_shape_violates`: **C78**, violated. The file does not have the spectrum of the source: for every source, with whatever spectrum, there is a source with a spectrum that falls with the second power of the energy which is written in exactly the same way.
* `C78_thrown_violates`: **C78**, violated. If the spectrum throws at one of the energies, whatever it is elsewhere, no error is reported and the flux in the file is 1.
* `C79_colon_violates`: C79 fails for extensions with colons: two files that can both be read are taken for the same.
* `C79_copy_violates`: C79 fails for copies: the copy of an object that holds a map keeps the address when the original is told to delete its map, and using the copy is undefined.
* `C79_healpix_violates`: C79 fails for Healpix maps that are rebinned: the map is changed in place, then freed, and the object keeps its address.
* `C79_missing_violates`: C79 fails when that file cannot be read: the exception leaves the object with the old map under the new name.
* `C79_pointer_violates`: C79 fails for maps deleted by their address: the objects are not told.
* `C79_rebin_violates`: C79 fails for maps that are rebinned: right after it the object has the rebinned map, but as soon as any map is deleted, even one that was never in memory, it silently has the original resolution again, and the rebinned map stays in memory out of reach of the library.
* `C79_reload_violates`: C79 fails for an object that is given another file while it holds a map: without reading the file, it goes on showing the old one.
* `C80_angle_violates`: C80 fails for the direction 90 degrees north of the event: its angle is given as if it were south.
* `C80_direction_violates`: C80 fails at these two points: there is no direction.
* `C81_corners_violates`: C81 fails for a map west of the event: the limits are those of the two corners nearest to the line to the west, and the other two corners are outside.
* `C81_interior_violates`: C81 fails for a map that covers the point opposite to the event: only the border is searched, so pixels in the middle are farther than the limit and do not contribute.
* `C82_negative_violates`: C82: for instance, a source that extends over all of the gap, as its last half pixel does, gives a negative response.
* `C82_sign_violates`: C82 fails for a map farther from the event than the largest separation: the lower limit is then above the upper one and whatever is between them counts with the wrong sign.
* `C83_centre_violates`: With an odd number of pixels the map is displaced by half a pixel: it ends `r + r / (n - 1)` after the centre and starts only `r - r / (n - 1)` before it.
* `C83_single_violates`: With a single energy the step is infinite and there is no energy.
* `C84_map_single_violates`: A map with a single energy is read outside its arrays, here too.
* `C84_negative_violates`: Below the first energy the straight line is continued, and the exposure of a source can be negative although exposure and source are positive.
* `C84_norm_violates`: A source with a normalisation other than one gets another exposure when it is integrated over its own pixels: here a quarter.
* `C84_single_violates`: A map with a single energy is read outside its arrays, at every energy, as soon as it has a pixel.
* `C84_zero_violates`: One sum that is zero next to one that is positive makes the whole computation fail.
* `C85_closest_violates`: C85 (violated): the energy is not always the closest one: the first one within the tolerance is taken.
* `C85_disagree_violates`: C85 (violated): outside of the map the two functions do not agree.
* `C85_edge_violates`: C85 (violated): half a pixel outside of the map is not refused but gives the values at the edge.
* `C85_lower_violates`: C85 (violated): in the lower part of a pixel the value of the pixel before it is found, and so for rows.
* `C85_plane_violates`: C85 (violated): a position above the last row gives the value at the next energy.
* `C85_row_violates`: C85 (violated): a position beyond the end of a row gives the value of a pixel of the next row, at the other side of the map.
* `C85_shift_violates`: C85 (violated): a position in the second of two pixels, but in its lower part, gets the value of the first.
* `C86_crpix_violates`: C86 (violated): a map whose reference pixel is not its middle is another one after writing and reading.
* `C86_planes_violates`: C86 (violated): with additional bins for the energy dispersion the map has more energies and values than its size says, two planes for each additional bin.
* `C86_rotation_violates`: C86 (violated): a rotated map is read back without the rotation.
* `C86_short_violates`: C86 (violated): when the map has more energies than planes, the energies above the last plane have an exposure of zero after writing and reading by the one function, and the other reads beyond the end of the vector.
* `C87_negative_violates`: C87 (violated): a negative upper limit is taken as its absolute value, although no inclination is below it.
* `C88_again_violates`: C88 is violated when the output already holds a map: the new values are added to the old ones, so that the second call gives twice the map.
* `C88_healpix_single_violates`: C88 is violated for healpix maps without the point-spread function: the pixel of the source holds the solid angle of the pixel times the exposure, so the counts differ from those of the map in a projection (the exposure) by the factor of the solid angle.
* `C88_outside_violates`: C88 is violated outside the map: a source is accepted up to *twice* the radius of the circle with the area of the closest pixel, so a source beyond the border is put into the border pixel with its full exposure.
* `C88_range_violates`: C88 is violated for a part of the energies: with corrections the layers of all energies are corrected, and those outside the range are not in the map: it is read and written out of bounds.
* `C88_shifted_violates`: C88 is violated without an exposure map: the exposures are those of the point-spread function, for the energies that were extended by the bins for the energy dispersion, and they are used with the position in the energies of the map. So layer `k` gets the exposure at the energy `b` bins below.
* `C88_small_violates`: C88 is violated for small maps: with the progress dots switched on (the default), a map with less than twenty values divides by zero.
* `C89_opposite_violates`: C89 is violated for the pixel opposite to the source: the ring reaches beyond 180 degrees, its solid angle comes out as zero and the estimate divides by it.
* `C89_single_row_violates`: C89 is violated for maps with a single row or a single column: the next one is read out of bounds.
* `C89_source_at_centre_violates`: C89 is violated for a source at the centre of a pixel: in the same situation the factor in the pixels around the source is interpolated from one at the centre, so that the distances differ from the true ones by a factor that depends on the position.
* `C89_zero_violates`: C89 is violated for narrow functions: when the function vanishes at the centres of the 2×2 parts, the estimate is zero, whatever it is for finer parts.
* `C90_axis_odd_violates`: C90 is violated for an odd number of pixels and an odd resampling factor: the finer map is shifted against the counts map by half a part, `1/(2r)` of a pixel.
* `C90_axis_other_violates`: C90 is violated for other maps: the parts are shifted by `(r-1)/(2r)` of a pixel, and when the number of parts is even the last one is left out.
* `C90_conforms_violates`: C90 is violated for a reference pixel that is not quite in the centre: the test of the geometry compares truncated numbers, so that a map whose reference pixel is up to half a pixel beyond the centre passes, and is treated as centred: its parts are shifted by that amount.
* `C90_last_column_violates`: C90 is violated for maps not made by gtbin with an even number of columns and the factor one: the last column is empty.
* `C90_range_violates`: C90 is violated for a part of the energies: the loop runs over all of them and writes outside of the map.
* `C90_small_violates`: C90 is violated for small maps with progress output: less than twenty values divide by zero.
* `C91_brightness_violates`: C91 is violated over the whole sky: the values are brightnesses, and they are added without the ratio of the solid angles. A constant brightness `c` gives `N c` in a healpix pixel that contains `N` pixels of the finer input.
* `C91_units_violates`: C91 is violated: the map made through a projection has an additional factor `(π/180)²`: for the same brightness `c` in the whole map the counts differ from those of the other ways to make the map, by a factor of more than a thousand.
* `C92_again_violates`: C92 is violated when the vector is used again: the derivatives are added to what it holds.
* `C92_derivative_violates`: C92 is violated for the derivatives: they use another rule of integration than the counts. For a flux density `θ c` that does not depend on the energy the counts are proportional to `θ` with the factor `D`, which is their derivative; the reported one is smaller for every energy range.
* `C92_diffuse_violates`: C92 is violated for diffuse sources, and for point sources from 90 degrees on: they contribute nothing, whatever their flux.
* `C92_negative_violates`: C92 is violated for parameters that lower the flux: a negative derivative is taken for a negative exposure and refused.
* `C92_position_violates`: C92 is violated when a parameter of another function than the spectrum is free (the position or the spatial model): its place is before those of the spectrum, but the derivatives are written from the first place on.
* `C93_same_number_violates`: C93 is violated for two responses with the same number: the fraction of the first is used for both.
* `C93_small_area_violates`: C93 is violated where one response has an effective area below 0.1: the area is zero, whatever the other responses have.
* `C93_unweighted_violates`: C93 is violated for a file without the weighted cube: the efficiency is that of a fraction of one, and nothing is reported.
* `C94_prefactor_violates`: C94 is violated for "Prefactor": the flux density is taken at another place of the sky, the point on the equator whose right ascension is the separation. For a source and an event on the equator, at `a` and `b` degrees, it is that of the separation `|‖a - b| - a|`.
* `C95_above_violates`: C95 is violated for a range above the energies: less than one step above, the counts of a positive spectrum with positive exposure are negative; farther above there is an exception.
* `C95_additive_violates`: C95 is violated for adjacent ranges: the counts of the parts are not those of the whole, as each has its own energies.
* `C95_below_violates`: C95 is violated for a range below the energies: less than one step below, the counts of a positive spectrum with positive exposure are negative.
* `C95_prefactor_violates`: C95 is violated for "Prefactor" in a spectrum that is not proportional to it: the quotient is reported, whatever the derivative is.
* `C95_steps_violates`: C95 is violated for energies that are not in equal steps of the logarithm, as those of a counts map may be: even at one of the energies themselves the exposure is not the one given there.
* `C96_isotropic_violates`: C96 is violated for an isotropic source with a value that is not one: the flux does not depend on the value, while the brightness is proportional to it.
* `C96_points_violates`: C96 is violated for fewer than two points: memory outside of the vector is read.
* `C97_no_sources_violates`: C97 is violated without sources: the total has no bins, whatever the bounds are.
* `C97_sum_violates`: C97 is violated for the sum over the bins: it is not the number of counts of the source, with the bins at the energies at which the exposure is known.
* `C98_failed_write_violates`: When writing the map fails, the map still counts as written: it can be dropped, and the image that is in the file comes back, not the one the user had set.
* `C98_forced_drop_violates`: Dropping the map by force, as the option `delete_local_fixed` does for the maps of fixed sources, loses an image that was set: the computed map comes back.
* `C98_image_lost_violates`: An image given while the map is dropped from memory is lost at the next `setSaveModel(true)`: the old map is read again over it.
* `C98_other_source_violates`: A map handed to another source keeps the image of the first one, in whatever way it is asked for without force.
* `C98_phased_cycles_violates`: With a phased exposure map every write-drop-read cycle multiplies the map by it once more: after `k` cycles the pixels are those of the source times the `(k+1)`-st power. So the map that comes back is not the map that was written.
* `C98_sparse_image_violates`: An image given to a sparse map is not used: the pixels stay those of the source, while the counts are those of the image.
* `C98_sparse_phased_violates`: With a phased exposure map every cycle multiplies a sparse map by it once more.
* `C98_wrong_size_violates`: An image of the wrong size is refused while the map is in memory, but accepted when the map has been dropped.
* `C99_sparse_weights_violates`: A sparse map that has been dropped from memory: new weights make its counts zero, whatever the source.

## Modelled code

Files and lines cited by the definitions of the model, by area.  Lines that are not listed are not modelled.

* `Accumulator.cxx`: Accum (19-20, 22-44, 23-38, 46-64, 66-77)
* `Accumulator.h`: Accum (20-23, 28-38, 41-46, 50-51, 70-79, 87, 88-95, 96-104, 106-108, 111)
* `AppHelpers.cxx`: Cuts (89-101, 93-100, 564-587, 572-578, 603-653, 713-730, 732-815, 740-769, 780-814, 817-855, 834-850, 842-848, 857-895, 865-894, 868-872, 868-869, 888, 897-905, 960-1009, 968-993, 994-1008); EvRead (430-553, 471-538, 477, 496); FileKind (920-958, 1017-1055, 1047, 1058-1077, 1061-1076, 1080-1099, 1083-1098); GtCnts (589-601); OutFiles (589-601); ScanApp (589-601, 1139-1147); SrcApp (589-601, 1128-1137); WtOwn (145-152, 206); Xml (221-353)
* `AppHelpers.h`: Cuts (145)
* `BandFunction.cxx`: Spectra (56-79, 81-149)
* `BinnedConfig.h`: Edisp (212, 213)
* `BinnedCountsCache.cxx`: Counts (20-44, 42-43, 55-56, 70, 72-73, 105-127, 131-145, 170-190, 182-184, 192-209); MapFile (87-103); WtOwn (21-44, 33-41, 59-74, 65, 66-71, 82-85)
* `BinnedCountsCache.h`: CompMap (81); Counts (96-101, 170-215); WtOwn (191-194)
* `BinnedExposure.cxx`: BinExp (40-58, 50-54, 72-99, 104-138, 118-119, 123-124, 141-182, 152-153, 156-157, 164-181, 248-317, 278-303, 290-302, 319-390); ExpCube (40-58, 50-54, 208-229); FileKind (93-97)
* `BinnedExposureBase.cxx`: BinExp (39-58, 85-100, 108-117, 119-124); HpxExp (85-100)
* `BinnedExposureBase.h`: BinExp (44-46, 49)
* `BinnedHealpixExposure.cxx`: ExpCube (40-60, 187-194, 197-206); FileKind (208-212); HpxExp (40-60, 50-55, 63-76, 79-119, 87-99, 124-145, 132-133, 148-184, 161, 167-183, 187-189, 197-206, 215-261, 239-248, 263-312, 273-274)
* `BinnedLikelihood.cxx`: Attrib (935-966, 938-943, 948-950, 951-952, 955-964, 956-963, 960); Binned (114-142, 160-203, 170-185, 205-292, 213-216, 223-236, 246-258, 294-304, 323-339, 352-372, 354-364, 378-382, 384-396, 534-592, 552-560, 563-577, 579-590, 685-728, 705-725, 732-790, 769-787, 864-902, 1021-1055, 1057-1063); Edisp (40-92); Explicit (1065-1095, 1070-1093, 1097-1115, 1103-1114, 1117-1136, 1138-1171, 1159-1166); MapFile (427-438, 459-486, 474-485, 488-497, 499-531); MapOut (594-614); MapOwn (323-339); Merge (323-339, 326-333, 993-995); Readd (323-339, 352-372, 864-905, 901-904, 1021-1055, 1050-1054); Redata (148-152, 154-158, 440-451, 453-457); SrcApp (706-724); Summed (263-369); TsScan (414-417); WtOwn (115-142, 154-158, 323-339)
* `BinnedLikelihood.h`: Binned (205-210, 225-233); Edisp (225-233); Explicit (496); SrcApp (455-457)
* `BrokenPowerLaw2.cxx`: PowerLaws (38-56, 58-178, 180-216, 218-242)
* `BrokenPowerLaw3.cxx`: PowerLaws (43-59, 61-150, 152-195, 197-210, 212-231)
* `BrokenPowerLawExpCutoff.cxx`: Spectra (34-60, 62-151)
* `Composite2.cxx`: Comp2 (30-33, 35-43, 37-41, 45-52, 54-79, 61-71, 74-78, 81-95, 97-122, 103-114, 116-120, 150-174, 152-168, 162-164, 176-197, 178-189, 191-195, 199-236, 202-229, 208-228, 217-224, 231-235, 238-280, 242-271, 273-278); Ties (150-169)
* `Composite2.h`: Comp2 (93-101)
* `CompositeLikelihood.cxx`: Comp1 (20-39, 63-111, 76-85, 103-110, 129-195, 138-155, 141-154, 145-151, 169-175, 181-195, 186-190, 191-194, 197-215, 204-210, 217-244, 220-242, 246-319, 267-282, 296-307)
* `CompositeLikelihood.h`: Comp1 (67-71)
* `CompositeSource.cxx`: CompMap (255-267); Factory (58-61); Merge (88-101, 93-96, 118-135, 123-131, 218-229, 231-244, 255-270); RespCell (88-100, 93-96, 118-135, 125-131); SrcModel (218-229); WtOwn (58-69, 218-229, 231-244); Xml (15-45)
* `CompositeSource.h`: SrcModel; Xml (73, 283)
* `Convolve.cxx`: Convol (37-69, 40-50, 59-66, 60-65, 70-83, 88-172, 96-107, 144-167, 174-225)
* `ConvolveHealpix.cxx`: HpxConv (20-76, 45-68, 46-62, 48, 64-66, 69-75, 200-258, 248-257); PsfMap (104-189, 143-150, 183-189, 192-197)
* `CountsMap.cxx`: CntMap (43-193, 60-63, 66-67, 69-71, 99-105, 99-103, 106-109, 179-184, 181-187, 188-190, 194-206, 198-199, 289-297, 299-328, 346-363, 359-360, 376-384, 417-424, 431-456, 443-452, 458-473, 500-520, 569-613, 589-611); DiffMap (633); MapEdge (198-199, 521-566, 535-538, 540-543, 545-548, 550-553); MapFile (458-473); MapInt (208-222, 569-603); Owner (230-280, 333, 365); Weights (230-286, 266-281, 276-279); WtTool (476-495)
* `CountsMapBase.cxx`: CntMap (277-293, 283-292, 286-289, 398-411); HpxIo (384-391); MapEdge (398-411); MapFile (338-348); MapInt (46-55, 57-66); ModMap (312-327, 377-382); Owner (247-283, 301-311, 328-337); Weights (46-55, 57-66, 67-89, 69-78, 83-88, 91-98, 100-124, 108-113, 126-148, 130-138, 142-145, 150-161, 174-182); WtTool (57-66, 150-161, 213-225, 227-237, 418-420)
* `CountsMapBase.h`: Owner (187, 219)
* `CountsMapHealpix.cxx`: CntMap (163-180, 176-177, 183-196, 192-193); HpxIo (205, 300-339, 312-319, 329-338); MapInt (86-100); MapSize (45-66, 68-76, 78-86, 88-103, 342-346, 348-352, 360-378); ModMap (68-86); Owner (108-157, 291-293); Weights (108-160, 143-155, 151-154); WtTool (215-234)
* `CountsMapHealpix.h`: MapSize (59-61, 88)
* `CountsSpectra.cxx`: CountSpec (23-35, 37-62, 58-60, 64-85, 82-84, 87-104, 94-102, 99-101, 106-115, 117-149, 130-137, 142-147, 143-146, 151-185, 160-169, 175-182, 176-181, 187-206, 201-204, 208-215, 217-221); Npred (22-34, 36-62, 86-104, 93-102, 98-101); OutFiles (106-115); PlotSpec (22-34)
* `CountsSpectra.h`: CountSpec (35-44, 68-73)
* `DMFitFunction.cxx`: DmFit (59-74, 76-122, 124-137)
* `DiffRespIntegrand.cxx`: SkyInt (77-91, 93-118)
* `DiffRespIntegrand2.cxx`: SkyInt (22-32, 70-84)
* `DiffRespNames.cxx`: DiffRsp (46-50, 52-63)
* `DiffuseSource.cxx`: DiffRsp (133-157); ExpMap (56-90); MapSize (396-397); Merge (133-155); Npred (255-270); PixResp (56-90, 93-102, 104-121, 124-131, 133-157, 159-196, 330-350, 339-347, 352-374, 360-370, 379-398, 401-410); Profile (108-113); RespCell (132-157, 159-196); Unbinned (133-157)
* `DiffuseSource.h`: PixResp (115-120)
* `Drm.cxx`: Drm (44-111, 115-144, 130-136, 174-182, 271-284, 293-307, 332-436, 357-380, 382-384, 404-434, 405-424); Edisp (364-373); PhiDep (224-261, 227-231, 239-246, 255-259)
* `Drm.h`: Drm (215-231)
* `EblAtten.cxx`: Wrap (106-109, 111-144, 158-174)
* `EnergyBand.cxx`: Wrap (73-83)
* `EquinoxRotation.cxx`: SkyInt (16-49, 51-73, 62-71)
* `Event.cxx`: DiffRsp (36-43, 104-139, 156-228, 190, 223, 438-447, 455-466); EvRead (81-83); GaussPar (321-343, 328-336, 329-335, 489-501); MuDist (246-311, 268-298, 274-291, 362-366); SkyInt (417-436); Unbinned (467-477, 479-482)
* `Event.h`: DiffRsp (116-119, 190-191); Unbinned (182-184)
* `EventContainer.cxx`: DiffRsp (48-200, 153-186, 286-299); EvRead (48-200, 112-150, 125-133, 129-130, 134-145, 151-189); Nobs (243-262, 248-256); SrcProb (187-193); Unbinned (141-153, 238-265)
* `EventContainer.h`: SrcProb (51)
* `EventSourceCache.h`: Unbinned
* `ExpCutoff.cxx`: Spectra (34-58, 60-130)
* `ExpCutoffSEDPeak.cxx`: Spectra (31-50, 52-97)
* `ExposureCube.cxx`: PhiDep (81-93, 87-91, 95-104, 106-120); Pix (95-104)
* `ExposureCube.h`: Pix (71-85, 89-109, 92-96, 122-123, 152-163, 165-177)
* `ExposureMap.cxx`: ExpMap (59-80, 71-80, 75-78, 84-114, 90-112, 94-103, 105-107, 130, 130-134, 136, 137, 138, 145, 150-206, 165-174, 188, 200-203, 299-306)
* `FileFunction.cxx`: Wrap (32-42, 44-54, 56-73)
* `FileUtils.cxx`: CntMap (59-74, 263-287); ExpCube (59-74); Files (76-87, 89-126, 103, 128-188, 191-238, 372-397, 382, 399-460, 406-438, 412, 426-432, 446-452, 453-457, 463-547, 473, 503-529, 534-545, 576-592, 600, 615); HpxIo (290-343, 324-325); MapFile (48-56, 641); ModMap (290-343); WtTool (240-260)
* `FitScanner.cxx`: FitMerge (590-602, 605-615, 619-646, 627-645, 629-644, 630-643, 648-718, 680-691, 694-703, 904-916, 908-914); FitScan (1054-1058, 1164-1167, 1169-1183, 1174, 1175, 1341, 1369, 1369-1374, 1639-1650, 1690-1699, 1694-1697, 1877-1889); FitUtils (223-260, 223-227, 229-233); HpxIo (57-59); Readd (549-558); ScanApp (2181-2185, 2196-2201, 2728-2777, 2808-2836); ScanFile (455-496, 461-471, 479-483, 498-505, 1950-2098, 1981, 2013, 2054, 2092, 2153-2596, 2268-2316, 2324-2349, 2325-2349, 2599-2706, 2628-2656, 2636-2640, 2641-2645, 3121-3162, 3130-3134, 3165-3231, 3236-3293, 3258-3289, 3258-3288, 3270-3274); ScanNorm (1438-1541, 1453, 1454, 1485-1540, 1485-1537, 1491-1501, 1502, 1505, 1524-1525, 1524-1535, 1542-1576, 1553-1575); ScanPrior (223-228, 235-249, 252-277, 270-275, 272-273, 280-286, 289-330, 293-299, 301-312, 336-342, 1064-1117, 1119-1149, 1217-1244, 1319-1332, 1389-1394, 1616-1637, 1831-1875, 1854-1862); ScanRef (406-428, 408-412, 420-425, 430-496, 442-450, 3093-3118); Shift (51-62, 64-79, 106-178, 116-120, 128, 129, 130, 132, 133, 134, 141-157, 147-156); Snap (997-1044, 1008-1043); StScan (580-582, 908-914); SumScan (747-832, 768-798, 781, 794-797, 800-819, 807-811); TestSrc (1965-1967, 2096-2104, 2122-2131, 2136-2146, 2153-2596, 2737-2739, 2822-2824, 2880-2882, 2921-2924); TsScan (442-449, 488-490, 540-542, 838-845, 1341-1342, 2153-2596, 2321-2341, 2334-2335, 2379, 2383-2573, 2401-2407, 2447-2460, 2453, 2456, 2463-2476, 2529-2568, 2535-2567, 2537-2546, 2559-2561, 2709-2717, 2900-2918, 2994-3092, 3050-3086, 3253-3288, 3362-3399)
* `FitScanner.h`: FitMerge (631); ScanApp (1374, 1377-1381); ScanFile (1242-1248); ScanRef; Snap (789, 790, 791, 792, 793); TestSrc (1302-1310, 1611-1617)
* `FitUtils.cxx`: Binned (2176-2225, 2186-2205); CompMap (1946-1968, 1983-1993, 1995-2010); Edisp (1932-1943, 1946-1980, 1983-1993, 1995-2009, 2012-2032, 2035-2056, 2058-2088, 2080-2082, 2090-2156, 2129-2139, 2195-2197, 2208-2214, 2230-2263, 2252-2255, 2256-2258); Energy (42-44, 47-49, 52-77, 68-73, 79-85, 1918-1929); ExpCube (52-77); Explicit (243-254, 347-366); FitUtils (265-289, 347-366, 368-392, 394-424, 426-454, 443-453, 456-484, 473-483, 523-556, 542, 544, 548-555, 549-554, 558-586, 570, 572, 588-665, 602, 620-633, 637-652, 1572-1612, 1594-1605, 1614-1639, 1626-1638, 1642-1669, 1671-1720, 1686-1709, 1722-1787, 1739-1765, 1790-1822, 1805-1821, 1824-1865, 1847-1864); LogFit (588-665, 667-715, 1037-1221, 1095-1099, 1113-1182, 1117-1181, 1121, 1122, 1123-1125, 1156, 1166-1180, 1167, 1174, 1177-1179, 1184-1220, 1198-1215); MapOut (1269-1282); MatVec (87-102, 104-153, 130, 131-135, 209-219, 229-241, 231-232, 291-313, 315-337, 486-502, 504-506, 508-521, 513-520, 726-728, 737-748, 1314-1355, 1338-1353); Newton (588-665, 667-715, 693-700, 704-711, 717-784, 754-761, 763-766, 819-1034, 859, 864-884, 884, 887-979, 981-990, 981-1033); ScanPrior (1549-1567, 1594-1606); ScanRef (1223-1235); TsScan (504-506)
* `FluxBuilder.cxx`: FluxFile (116-176, 122-142, 125, 126-132, 130-138, 145-164)
* `GaussianError.cxx`: Priors (34-45, 47-87, 89-95)
* `HealCube.cxx`: ScanApp (134-150, 234-235)
* `HealpixProjMap.cxx`: HpxConv (343-349, 429-446, 448-507, 455-468, 474-483, 474-503, 598-605); HpxMap (110-187, 135-152, 161, 173-183, 189-238, 222-227, 241-289, 274-279, 364-381, 384-427, 386-388, 391-406, 410-426, 421-422, 514-518, 537-560, 541-547, 554-559, 562-579, 565-569, 571-577, 591-595, 598-605, 607-613); MapInt (83-93, 96-108); MapLib (562-579); Owner (113-132, 194-199, 246-251, 291-301, 562-579)
* `HistND.cxx`: HistND (13-30, 24-29, 46-51, 53-71, 60-69, 73-84, 91-124, 102-107, 127-159, 138-143, 162-209, 173-178, 200-206); HpxIo (91-124, 117-122, 127-159); ScanFile (12-31)
* `HistND.h`: TsScan (49)
* `LikeExposure.cxx`: CosBins (232-248, 361-375, 369-373); Livetime (58-67, 80-164, 103-117, 127-160, 142-156, 265-325, 289-294, 299-317, 327-339, 341-351)
* `LogGaussian.cxx`: Priors (23-29, 31-38, 40-79, 81-88)
* `LogLike.cxx`: RespCell (131-140, 190-199); Summed (205-272); Unbinned (27-34, 36-110, 39-46, 53-63, 54-57, 67-86, 112-162, 129-144, 154, 274-306, 297-301, 308-317, 319-324, 343-351, 345-350, 353-366, 368-385, 387-390, 392-398, 404-412, 414-417, 419-424)
* `LogNormal.cxx`: Spectra (26-40, 42-84)
* `LogNormalMuDist.cxx`: MuDist (46-63, 52, 65-67, 69-71, 73-105, 74-82, 83-84, 87-99, 90-98, 107-115)
* `LogNormalMuDist.h`: MuDist (36-49)
* `LogParabola.cxx`: Spectra (53-60, 62-98)
* `MapBase.cxx`: ExpMap (219-238); MapLib (35-41, 43-45, 47-52, 54-62, 64-72, 74-93, 95-100, 102-108, 110-114, 199-208)
* `MapBase.h`: MapLib (77-82, 104-114)
* `MapCubeFunction2.cxx`: ExpMap (55-60, 92-191, 107-118, 121-129, 130-134, 160-173, 176-184, 185-189)
* `MathUtil.cxx`: FitOut (32-56, 44-53, 85-97, 99-112)
* `MeanPsf.cxx`: MeanPsf (29-60, 35-53, 37-51, 77-92, 116-147, 118-146, 121-132, 125-126, 127-130, 135-144, 136-140, 149-195, 164-194, 167-177, 172-176, 236-254, 290-299)
* `ModelMap.cxx`: ModMap (52-56, 61-69, 71-89, 91-120, 124-187, 139-150, 170)
* `MultipleBrokenPowerLaw.cxx`: Pieces (22-49, 39-48, 51-66, 68-123, 125-141); Xml (22-49, 32-33, 44-47)
* `OneSourceFunc.cxx`: EM (40-63); OneSrc (19-31, 41-63, 46-56, 65-84, 70-80, 86-97, 99-121, 104-106, 116-118, 123-138, 132-136, 134-135)
* `OptEM.cxx`: EM (19-98, 36-84, 38, 44-55, 45-51, 60-80, 61-62, 63, 92, 99-113)
* `PSFUtils.cxx`: CompMap (1119-1152, 1133-1144); DiffMap (137-154, 157-178, 199-206, 214-233, 366-539, 404-405, 409-412, 413-461, 426-433, 467-479, 485-491, 503-521, 505-519, 567-571, 583-609, 820-823); MapEdge (102-113, 106-111, 115-128, 121-126, 963-968); MapSize (131-135, 149-151, 339-353, 640-663, 669-687, 696, 708-712, 721-722, 736-757, 742-743, 755-756); Merge (1143-1148); PsfInt (45, 48, 52, 56-83, 235-272, 260-262, 260-270, 1187-1219, 1221-1264, 1238-1241, 1246-1260, 1266-1291, 1279, 1281, 1282-1287, 1283-1285); PsfMap (887-1047, 920-926, 963-1024, 971-1002, 974-1000, 992-993, 996-998, 1006-1023, 1013-1016, 1026-1036, 1087-1096, 1109-1112)
* `PiecewisePowerLaw.cxx`: Pieces (27-56, 46-55, 58-76, 78-145, 90-103, 104-145, 132-144, 133, 147-159, 161-173, 175-188, 209-252); Xml (27-56, 51-54)
* `Pixel.cxx`: Pix (16-45, 30-43, 46-80, 55-79, 60-78, 62-76, 83-88, 91-98, 105-110, 113-120)
* `Pixel.h`: PsfMap (71-89, 74-81)
* `PointSource.cxx`: Livetime (395-457, 408-411, 413-457); Merge (79-118); Npred (272-287, 289-294, 289-298, 304-309, 320-335, 337-342, 353-358); PhiDep (510-557); Pix (120-140, 206-239, 216-218, 219, 510-562); RespCell (76-119, 106-117, 130-140, 154-204, 188-199); Unbinned (102-115, 241-259)
* `PointSource.h`: Unbinned (121-137)
* `PowerLaw2.cxx`: PowerLaws (23-24, 26-40, 42-59, 61-118, 120-136)
* `PowerLaw2.h`: PowerLaws (38-40, 46-75, 78-87, 88-89)
* `PowerLawSuperExpCutoff.cxx`: Spectra (36-53, 56-104)
* `PowerLawSuperExpCutoff2.cxx`: Spectra (36-55, 58-106)
* `PowerLawSuperExpCutoff3.cxx`: Spectra (36-54, 53, 57-105)
* `PowerLawSuperExpCutoff4.cxx`: Spectra (36-59, 57, 58, 62-119)
* `ProjMap.cxx`: HpxMap (174-179, 181-186); MapInt (142-167, 147-150); MapSize (113-131, 133-138); Owner (59-67, 69-80, 94-110, 113-132, 168-172); PixResp (111-130); Wcs (168-173, 175-180, 184-226)
* `ProjMap.h`: MapInt (120-140); Owner (164)
* `RadialDisk.cxx`: Profile (72-77, 128-132); Radial (29-34, 39-47, 49-61, 97-99)
* `RadialDisk.h`: PixResp (80-82)
* `RadialGaussian.cxx`: Radial (30-34, 41-50, 52-71, 108-110)
* `RadialGaussian.h`: PixResp (79-82)
* `RadialProfile.cxx`: Profile (51-62, 64-74, 65-71, 76-85, 88-97, 99-101, 103-105, 105-115, 130-153, 138-152)
* `RadialProfile.h`: PixResp (54-56)
* `ResponseFunctions.cxx`: EvRead (98-106, 108-160, 121-128); PhiDep (34-65)
* `ResponseFunctions.h`: EvRead (36, 77-82, 146-150)
* `RoiCuts.cxx`: LtCube (58-68, 70-91, 145-176, 165-174); Roi (29-47, 30-33, 36, 37-39, 70-91, 93-107, 126-143, 145-175, 149-153, 160-161, 163-173, 165-173, 177-227, 183, 184-211, 186-205, 190-193, 229-263, 239-242, 241, 245-247)
* `RoiCuts.h`: Roi (93-97, 146-169, 156)
* `ScData.cxx`: Livetime (102-118); ScData (31-84, 49-66, 52-83, 86-100, 90-94, 102-118, 105, 120-127, 129-145)
* `ScaleFactor.cxx`: Wrap (50-70, 72-79, 96-103, 114-117)
* `ScaleFactor.h`: Wrap (46-49)
* `ScanUtils.cxx`: StScan (28-36, 38-45, 47-56, 71-158, 104-110, 121-129, 138-154, 160-189, 177-184)
* `SkyDirFunction.cxx`: FindSrc (32, 35); Xml (29-38)
* `SmoothBrokenPowerLaw.cxx`: Spectra (38-56, 59-110)
* `SmoothDoubleBrokenPowerLaw.cxx`: Spectra (46-69, 71-141)
* `Snapshot.cxx`: Snap (39-64, 54-61, 56-59, 66-85, 141-153, 144-147, 155-186, 168-184, 179-182, 272-285, 299-309, 329-338, 357-371, 373-383, 385-433, 403-422); SnapOwn (23-28, 30-36, 87-133, 105-110, 127-131, 194, 205, 264-270, 272-285, 273-278, 288-297, 299-309)
* `Snapshot.h`: Snap (46, 47, 58, 59, 60, 61, 62, 63, 87, 88, 89, 91, 92, 93, 95, 99, 100, 101, 102, 104, 105, 113, 114, 117, 118, 125-126, 131-132, 142-179, 171, 172, 174, 175, 356-366); SnapOwn (312-316)
* `Source.cxx`: Binned (205-207); Npred (66-82, 72-76, 113-135, 137-156, 147-151, 158-183, 248-288, 253-255, 256-258, 259-263, 264-287, 273-285); PixResp (53-64); Unbinned (66-82)
* `Source.h`: Factory (83); Npred (433-446, 437-443, 454-467); SrcModel
* `SourceFactory.cxx`: Factory (60-66, 61-63, 72-81, 83-94, 96-109, 111-119, 255-258, 260-345, 447-453); SrcApp (322-326); Xml (96-109, 142-152, 154-165, 167-180, 231-259, 255-258, 261-350, 271-349, 296-306, 309-343, 330-341, 356-389, 373-381, 391-432, 402-405, 407-414, 409-422, 441-443, 459-515, 469-475, 508-512, 524-550, 535-539, 542-548, 558-582, 566-571, 574-580, 585-588)
* `SourceFactory.h`: Factory (238)
* `SourceMap.cxx`: AddMap (405-415, 448-460, 509-520, 522-533, 741-762, 745, 746-748, 754-761, 757, 764-790, 780-789, 781-787, 792-813, 816-836); Binned (75-110, 380-395, 405-415, 432-445, 494-501); CompMap (240-265, 344-362, 405-407, 697-739, 728-736); Drm (423-430, 535-550); Edisp (77-110, 112-145, 212-280, 243-276, 250-254, 265, 266-273, 282-342, 307-320, 322-341, 330); MapFile (76-110, 380-395, 448-460, 552-560, 743, 877-888); Readd (76-110, 380-395, 697-731, 849-864); Redata (552-560, 562-565); SrcMap (76-99, 76-110, 112-135, 112-143, 188-190, 212-224, 226-282, 246-265, 266-280, 344-362, 344-350, 364-378, 380-395, 448-460, 449-457, 486-491, 552-560, 562-565, 596-637, 697-739, 849-864, 857-861, 866-875, 877-888, 879-887); WtOwn (76-110, 270, 332, 344-362, 493-498, 552-560, 562-565)
* `SourceMap.h`: AddMap (415-520); Edisp; MapFile (166-177, 440-520); Readd (166-177, 440-520); SrcMap (166-177, 324-327, 440-520, 514-520); WtOwn (460)
* `SourceMapCache.cxx`: AddMap (421-429); Binned (86-103, 112-148, 459-465); CompMap (112-148, 421-429); MapFile (43-53, 115-151, 130-150, 157-160, 185-217, 192-211, 221-246, 249-257, 271-304, 276-285, 286-301, 315-332, 421-429, 478-530, 535-590); MapOut (336-368, 354-367); MapOwn (63-68, 112-148, 157-160, 163-173, 175-182, 222-246); Merge (112-148, 151-155, 222-245, 421-429); PsfMap (437-446); Readd (112-148, 336-348); Redata (222-245, 248-256, 251-254, 410-419); SrcMap (258-310, 477-530, 487-503); WcsCopy (598-676, 605-611, 617-621, 622-630, 639-675, 643-649, 652-674, 658-662, 665-669); WtOwn (112-124, 151-155, 410-419, 413-418)
* `SourceModel.cxx`: Binned (197-206, 208-218); Factory (197-206); FitOut (376-400, 389-398, 402-412); Merge (197-206, 263-281, 294-303, 305-315); Pix (654-668, 662-666); Readd (197-206, 208-218); SrcModel (197-206, 208-218, 220-228, 223-226, 255-261, 263-281, 274-276, 283-292, 305-315, 310-312, 321-334, 336-352, 338-340, 347-349, 354-363, 365-374, 376-400, 389-398, 394-397, 402-412, 402-410, 670-677); StScan (230-235); Ties (197-206, 208-218, 376-400, 389-398, 394-397, 402-412); TsMap (197-206, 208-218); TsVal (345-352, 347-349, 402-412); Unbinned (169-174, 220-228, 223-226, 321-412); WtOwn (263-281, 305-315); Xml (97-108, 197-206, 456-490, 482-488, 614-620)
* `SourceModel.h`: SrcModel (88-94, 239-254); TestSrc
* `SourceModelBuilder.cxx`: Xml (76-81, 106-115, 150-159, 178-198, 200-251, 213-236, 253-312, 273-282, 318-322)
* `SparseVector.h`: Sparse (115, 118, 142-145, 157, 160, 163-167, 211-215, 226-230, 232-237, 256-260, 262-266, 268-274, 276-286, 288-296, 298-312, 314-322, 324-332, 334-346, 341-345, 348-354, 356-369, 371-377, 374-376, 379-385, 382, 387-394, 396-402, 399, 404-415, 417-430, 425-429, 432-437, 439-444)
* `SpatialFunction.cxx`: Profile (44-49, 60-62, 98-102)
* `SpatialFunction.h`: Profile (132-135)
* `SpatialMap.cxx`: ExpMap (68-71, 94-190, 108-119, 122-130, 131-135, 159-171, 175-183, 184-188)
* `SummedLikelihood.cxx`: Summed (29-34, 36-46, 48-71, 59-64, 66-70, 73-93, 81-86, 87-91, 95-102, 113-129, 123-127, 131-138, 145-185, 157-167, 175-184, 179-182, 187-200, 190-198, 228-249, 233-241, 242-247)
* `SummedLikelihood.h`: Summed (95-103)
* `TiedParameter.cxx`: Comp2 (35-43, 75-81); Summed (35-43, 75-81); Ties (35-43, 39-42, 45-51, 63-118, 70-76)
* `TiedParameter.h`: Comp2; Summed (25-77)
* `TrapQuad.cxx`: TrapQuad (18-34, 27-32, 36-60, 53-58, 62-86, 79-84, 88-95, 97-119)
* `TrapQuad.h`: TrapQuad (36-62, 36-38, 40-41)
* `TsCube.cxx`: ScanApp (140-156, 200-206, 240-242, 244-249)
* `TsMap.cxx`: Cuts (169-175); EvRead (195-198); TsMap (186-190, 224-248, 231-240, 244-246, 250-309, 270-276, 282-306, 286-305, 290-297, 326-380)
* `WcsMap2.cxx`: Convol (43-55, 602-683, 610-628, 640-656, 663-675, 1066-1074); FileKind (147-168); MapInt (71-90, 80-87, 81-85, 93-106, 99-103, 109-124, 114-122, 116-121, 126-144, 349-419, 377-380, 405-414, 758-803, 806-818, 929-957, 933-942, 944-956, 959-1062, 961-970, 1014-1028, 1015, 1030-1048, 1049-1055, 1049); MapLib (959-1062); MapSize (185-187, 204-219, 210-216, 290-347, 377-379, 388-394, 920-926); Owner (202, 255, 318, 382, 584-598, 590-595, 959-1062); PixResp (758-793, 766-793, 779-786, 795-806, 809-822); SpatConv (686-748, 705, 706, 707, 708, 711, 712-719, 714-719, 729-741, 736-737); Wcs (58-64, 477-541, 521-540, 543-573, 548-563, 819-834, 837-850)
* `WcsMap2.h`: MapInt (150-171)
* `WcsMapLibrary.cxx`: FileKind (43-62); MapLib (36-65, 38, 67-76, 69, 72-73, 84-92, 94-98, 96, 100-102, 108-113); WtOwn (36-65, 84-92)
* `WeightMap.cxx`: Weights (105-136, 116-132)
* `backfile.cxx`: BackFile (107-174, 142-150, 152-167, 155-166, 157-163, 176-197, 180-195, 188-194, 199-218, 230-242)
* `diffuseResponses.cxx`: DiffHdr (166-204, 182-203, 183-184, 211-231, 233-255, 257-283, 262-268, 264-265, 271-282); DiffRsp (51-58, 59-65, 115-116, 165-204, 181-203, 182-203, 314-335, 344, 359-367, 396-413, 414-439, 426-435, 442-511, 457-486, 470, 482-485, 490-501, 499, 555-568); ScanFile (464-484)
* `expMap.cxx`: ExpApp (86-103, 134-152, 205-210, 212-221, 215-220, 215-217, 218-220)
* `gtaddlivetime.cxx`: CosBins (101-116); LtSum (83-90, 86-87, 118-133, 121-132, 124-131, 135-145, 147-214, 147-237, 167-214, 168-211, 188-202, 189-201, 216-228)
* `gtalphabkg.cxx`: WtTool (90-107, 97-101)
* `gtcntsmap.cxx`: CntMap (136-141); Cuts (92-97); GtCnts (81-146, 83, 92-97, 99, 107-117, 120-134, 136-141, 186-196, 198-209, 211-225)
* `gtexpcube2.cxx`: ExpCube (113-167, 170-218, 182-187, 188-206, 221-264, 239-252, 269-284, 286-298, 303-323, 325-374, 330-343, 345-370, 346-361, 363-369); PhiDep (412-424, 418-422)
* `gtfindsrc.cxx`: Cuts (110-131, 119-123); FindRun (95-158, 185-199, 187, 201-226, 319-407, 373, 441-472); FindSrc (244-272, 246-250, 252-254, 266-270, 269, 277-279, 306-309, 319-407, 341-342, 354-358, 360-362, 360-406, 365-370, 400-405, 403-404, 409-439, 419-430, 424-428)
* `gtsrcmaps.cxx`: SrcApp (100-216, 160, 186-199, 201-202)
* `gtsrcprob.cxx`: SrcProb (165, 168-178, 180-242, 194-213, 226-234, 229-233, 236-239)
* `gtwtsmap.cxx`: WtTool (85-121)
* `likelihood.cxx`: CountSpec (458-470); Cuts (238-258, 246-250, 251-253, 254-257); EvRead (383-389); FitOut (271, 278-312, 279-308, 284-300, 320-331, 327-329, 589-654, 606-614, 610-613, 611, 625, 627-634, 640-651, 642-645, 685-733, 691-704, 726, 772-834, 794-811, 795-810, 813-829, 815, 831-833); OutFiles (201-318, 277-312, 278-311, 313-315, 347-349, 392-416, 431-439, 458-470, 668-676, 734, 757-761); PlotSpec (472-577, 475-480, 485-498, 489, 490, 502-506, 512, 513, 532, 534-535, 538-543, 545, 546-551, 553, 557-562); Refit (277-312, 967-975); TsVal (60-73, 657-663, 836-892, 841, 849-888, 851-887, 854-886, 861-875, 864-873, 866, 879-883, 886, 891, 894-917, 898-916, 902-905, 908-916, 910-915, 936-950, 952-955, 957-965)
* `m_dataCache.h`: Binned
* `makeExposureCube.cxx`: LtCube (35-49, 101-129, 119-129, 120-129, 141-146, 171-184, 186-248, 195-200, 220-240)
* `meanPsf.cxx`: PsfApp (75-100, 102-112, 114-123, 125-177, 149-158)

Source files of which nothing is modelled:

`BinnedConfig.cxx`, `Npred.cxx`, `SparseVector.cxx`, `WcsMap.cxx`, `XmlBuilder.cxx`, `XmlParser.cxx`.

## Axioms

As printed by `#print axioms` for every theorem of MANIFEST.json.

* none: 3 theorems (C01_swap, C13_healpix_unchecked_violates, C42_violates)
* propext: 24 theorems (C01_fill_wrong_size_throws, C01_nth_entries, C02_range_key_value_violates, C116_leaves, C139_rebin_violates, C146_single_turn, C148_clobber_violates, C148_complete, C148_confined, C148_exception_violates, C148_last_fit, C148_same_name_violates, C148_save_no_partial, C148_save_no_violates, C156_name_in_use, C159_fails, C159_name_taken_violates, C159_none_violates, C159_report_kept_violates, C160_axes_partial, C160_axes_violates, C160_order_violates, C161_checks, C161_refused)
* propext, Classical.choice, Quot.sound: 1186 theorems
* propext, Quot.sound: 75 theorems
