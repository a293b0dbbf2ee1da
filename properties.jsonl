{"id": "C01", "title": "Weight context is a last-write-wins store with a default", "statement": "After any sequence of set_weight / set_default_weight / clear calls on a WeightContext, get_weight(spill, event, particle) returns the value of the last set_weight for exactly that triple since the last clear, and the current default weight if there was none; writing one triple never changes the weight reported for another triple.", "quantifier": "every finite history of set/clear/set-default calls, every integer triple, every weight value", "why_tests_cant": "a test fixes a handful of triples and histories; the claim is about all of them (including triples that agree in two of three components)", "anchors": ["xboa/core/cpplib/WeightContext.hpp: getWeight, setWeight, clearWeights, setDefaultWeight", "xboa/core/cpplib/WeightContext.hh: HitId::operator<"]}
{"id": "C02", "title": "Weight context arithmetic is pointwise", "statement": "For contexts a, b and number k, the contexts a+b, a-b, a*b, a/b, a+k, a-k, a*k, a/k, k+a, k*a report for every (spill, event, particle) - whether or not either operand ever stored that triple - exactly the arithmetic combination of the weights the operands report, and the same for the default weight. k-a and k/a raise NotImplementedError.", "quantifier": "all pairs of contexts (any stored triples, any defaults), all numbers, all triples", "why_tests_cant": "the interesting cases are triples stored on one side only, combined with arbitrary defaults; there are infinitely many", "anchors": ["xboa/core/cpplib/WeightContext.hpp: adoptHits, add, subtract, multiply, divide, Add/Subtract/Multiply/Divide::operate", "xboa/core/pylib/PyWeightContext.cc: binary_operator"]}
{"id": "C03", "title": "Context operators never disturb their operands", "statement": "Through any history of creating contexts, combining them with operators, making one current and writing weights through it or through hits, an operator expression creates a context distinct from every existing one, leaves the weights of every existing context as they were, and a context changes only when written through itself, through an alias handed out by get_weight_context, or through a hit while it is current.", "quantifier": "every finite history of context operations, every context, every triple", "why_tests_cant": "aliasing bugs appear only for particular interleavings of operations on shared objects", "anchors": ["xboa/core/pylib/PyWeightContext.cc: binary_operator, unary_operator", "xboa/core/pylib/PyHitcore.cc: setWeightContext, getWeightContext"]}
{"id": "C04", "title": "Inverting a cut context", "statement": "~c reports for each triple c's default if c reports 0 and 0 otherwise. Consequently ~c selects exactly the triples c rejects. (A user further expects ~~c to select the same triples as c.)", "quantifier": "all contexts, all triples", "why_tests_cant": "quantifies over all contexts, including those with default 0 and with triples never stored", "anchors": ["xboa/core/cpplib/WeightContext.hpp: op_not, Not::operate"]}
{"id": "C05", "title": "A hit's global weight is the current context's weight for its (spill, event, particle)", "statement": "For every hit, hit['global_weight'] equals current_context.get_weight(hit['spill'], hit['event_number'], hit['particle_number']), and setting either is visible through the other.", "quantifier": "all hits, all contexts", "why_tests_cant": "tests use ids with equal event and particle numbers or only one of the two interfaces", "anchors": ["xboa/core/cpplib/Hitcore.hh: set_global_weight, global_weight", "xboa/core/pylib/PyWeightContext.cc: setWeight, getWeight"]}
{"id": "C06", "title": "Global weight is shared by track and only by track", "statement": "After any history of hit creations, variable assignments, cuts and weight writes, two hits with the same spill, event_number and particle_number report the same global_weight; and assigning the global_weight of a hit changes the global_weight of exactly the hits with the same triple.", "quantifier": "all histories, all pairs of hits", "why_tests_cant": "must hold for every interleaving of id changes and weight writes across any number of hits", "anchors": ["xboa/core/cpplib/Hitcore.hh: set_global_weight, global_weight", "xboa/hit/_hit.py: Hit docstring, get, set"]}
{"id": "C07", "title": "Clearing global weights resets every hit to 1", "statement": "After Hit.clear_global_weights() / Bunch.clear_global_weights() every hit reports global_weight 1, whatever happened before.", "quantifier": "all histories before the call, all hits", "why_tests_cant": "depends on the default weight of whichever context is current - a test only exercises the start-up context", "anchors": ["xboa/core/cpplib/WeightContext.hpp: clearWeights", "xboa/core/cpplib/Hitcore.cc: clear_global_weights", "xboa/hit/_hit.py: clear_global_weights", "xboa/bunch/_bunch.py: clear_global_weights"]}
{"id": "C08", "title": "Hit set/get round trip and frame", "statement": "For every stored variable name and value of its type, hit.set(name, v) makes hit.get(name) (and its alias spelling) return v and leaves every other independent variable of that hit and every variable of every other hit unchanged; the total weight is always local_weight*global_weight.", "quantifier": "all variable names, all values, all prior hit states", "why_tests_cant": "a name-to-field table with any two rows swapped or duplicated passes tests that set all variables to one value; the claim is over all (name, other name) pairs and all states", "anchors": ["xboa/core/cpplib/Hitcore.cc: initialise_string_to_accessor_maps, initialise_string_to_mutator_maps", "xboa/core/pylib/PyHitcore.cc: get, set", "xboa/hit/_hit.py: get, set"]}
{"id": "C09", "title": "A rejected assignment leaves the hit unchanged", "statement": "If hit.set(name, value) raises, then no variable of the hit has changed.", "quantifier": "all names (known, derived, unknown), all values (numeric or not), all hit states", "why_tests_cant": "needs the exceptional path for every name and value kind, not a sample", "anchors": ["xboa/core/pylib/PyHitcore.cc: set", "xboa/hit/_hit.py: set, set_p, set_xP, set_yP, set_tP"]}
{"id": "C10", "title": "dict_from_hit / new_from_dict round trip", "statement": "new_from_dict(hit.dict_from_hit()), copy.deepcopy(hit) and unpickling give a hit that reports the same value as the original for every variable.", "quantifier": "all hit states and all weight contexts", "why_tests_cant": "involves iteration order over the variable table and the shared weight context; all states needed", "anchors": ["xboa/hit/_hit.py: dict_from_hit, new_from_dict, __deepcopy__, __getstate__, __setstate__", "xboa/core/cpplib/Hitcore.cc: set_names"]}
{"id": "C11", "title": "Copying a hit does not disturb other hits", "statement": "deepcopy / new_from_dict(dict_from_hit) / unpickling of one hit leaves every variable (including global weights) of every other hit unchanged.", "quantifier": "all hits, all other hits, all weight contexts", "why_tests_cant": "the side effect only shows for particular ids and weights of third-party hits", "anchors": ["xboa/hit/_hit.py: __deepcopy__, new_from_dict, __setstate__", "xboa/core/cpplib/Hitcore.cc: set_names", "xboa/core/cpplib/Hitcore.hh: set_global_weight"]}
{"id": "C12", "title": "Mass shell condition", "statement": "hit.mass_shell_condition(v) returning True leaves energy^2 = px^2+py^2+pz^2+mass^2 with every variable other than v (for 'p': other than px,py,pz, whose direction is kept) unchanged; returning False leaves v = 0; unknown v raises IndexError with nothing changed; '' changes nothing.", "quantifier": "all hit states and all strings v", "why_tests_cant": "an algebraic identity over all momenta, energies and masses and all failure branches", "anchors": ["xboa/hit/_hit.py: mass_shell_condition, set_p"]}
{"id": "C13", "title": "Impossible mass shell is reported as False, not raised", "statement": "As documented, if the mass shell condition cannot be obeyed then mass_shell_condition(v) returns False and sets v to 0, for every v in mass_shell_variables().", "quantifier": "all hit states, all v in mass_shell_variables()", "why_tests_cant": "the unguarded branch is reached only for energy<mass", "anchors": ["xboa/hit/_hit.py: mass_shell_condition"]}
{"id": "C14", "title": "Derived variable set/get round trips", "statement": "For p, x', y', t', ct and kinetic_energy, a successful hit.set(v, a) makes hit.get(v) return a; p keeps the momentum direction, x' and y' keep pz, ct changes only t, kinetic_energy changes only energy.", "quantifier": "all hit states, all values", "why_tests_cant": "algebraic identities over all real states including sign changes of pz", "anchors": ["xboa/hit/_hit.py: set_p, set_xP, set_yP, set_tP, set_ct, set_ek, get_p, get_xP, get_yP, get_tP, get_ct, get_ek"]}
{"id": "C15", "title": "Hit equality is a tolerance relation", "statement": "hit1 == hit2 iff every listed variable differs by at most the float tolerance; it is reflexive and symmetric, and any two hits that differ by more than the tolerance in a stored variable compare unequal.", "quantifier": "all pairs of hit states", "why_tests_cant": "universally quantified over pairs of states", "anchors": ["xboa/hit/_hit.py: __eq__, __ne__", "xboa/core/cpplib/Hitcore.cc: get_names"]}
{"id": "C16", "title": "Translation and abelian transformation", "statement": "translate by d then by -d restores the hit (no mass shell variable); abelian_transformation computes V_out = R(V_in - O) + T + O on the listed variables, leaves all others alone, and composing with the inverse matrix and opposite translation restores the hit.", "quantifier": "all hits, all variable lists without repetition, all matrices and vectors", "why_tests_cant": "linear-algebra identity for all matrices and dimensions", "anchors": ["xboa/hit/_hit.py: translate, abelian_transformation, get_vector"]}
{"id": "C17", "title": "Reference counted pointers free each object exactly once and never while in use", "statement": "Through any history of creating, copying, assigning and destroying handles, the recorded count of an object equals the number of live handles to it, the object is destroyed exactly when the last handle goes, is never destroyed twice, and no live handle refers to a destroyed object.", "quantifier": "every finite history of handle operations", "why_tests_cant": "an inductive invariant over unbounded histories", "anchors": ["xboa/core/utils/SmartPointer.hh: SmartPointer, set, incref, decref"]}
{"id": "C18", "title": "index_by_power enumerates every multi-index exactly once", "statement": "Bunchcore.index_by_power(n, d) lists every d-tuple of non-negative integers with sum at most n exactly once and nothing else, the all-zero tuple first; so the list length is binomial(n+d, d).", "quantifier": "all n >= 0, d >= 1", "why_tests_cant": "a recursion over unbounded dimension and power", "anchors": ["xboa/core/cpplib/Bunchcore.cc: get_index_by_power, get_index_by_power_recurse", "xboa/core/pylib/PyBunchcore.cc: index_by_power"]}
{"id": "C19", "title": "Moments are the weighted central moments", "statement": "bunch.moment(axes, means) equals sum_i w_i prod_a (h_i[a]-means[a]) / sum_i w_i with w_i the total weight; the fast C++ path and the Python fallback agree; hits of zero weight do not contribute; the result does not depend on the order of hits or of axes.", "quantifier": "all bunches of any size, all axis lists, all mean dictionaries defining every axis", "why_tests_cant": "for all bunches, any length", "anchors": ["xboa/core/cpplib/Bunchcore.cc: get_moment, bunch_weight", "xboa/bunch/_bunch.py: moment, mean"]}
{"id": "C20", "title": "moment() with missing means uses the bunch mean", "statement": "As documented, a variable missing from the mean dictionary is taken relative to the bunch mean.", "quantifier": "all bunches, all axis lists, all partial mean dictionaries", "why_tests_cant": "depends on the combination of axis list and dictionary keys", "anchors": ["xboa/bunch/_bunch.py: moment", "xboa/core/cpplib/Bunchcore.cc: get_moment"]}
{"id": "C21", "title": "Covariance matrix is symmetric and positive semidefinite", "statement": "For non-negative weights with positive total, covariance_matrix(axes) (C++ core and Bunch level) has entry (i,j) equal to moment([a_i,a_j]), is symmetric and v^T C v >= 0 for every v.", "quantifier": "all bunches with non-negative weights, all axis lists, all vectors", "why_tests_cant": "algebraic inequality for all inputs", "anchors": ["xboa/core/cpplib/Bunchcore.cc: covariance_matrix", "xboa/bunch/_bunch.py: covariance_matrix"]}
{"id": "C22", "title": "moment_tensor agrees with index_by_power and raw moments", "statement": "Bunchcore.moment_tensor(axes, n) returns for the j-th multi-index of index_by_power(n, len(axes)) the weighted raw moment of that multi-index; the first entry is 1.", "quantifier": "all bunches with non-zero weight, all axis lists, all n >= 1", "why_tests_cant": "for all powers and dimensions", "anchors": ["xboa/core/cpplib/Bunchcore.cc: get_moment_tensor", "xboa/core/pylib/PyBunchcore.cc: moment_tensor"]}
{"id": "C23", "title": "Cut removes exactly the hits meeting the comparator", "statement": "bunch.cut({v: c}, op) sets to zero the (local or global) weight of exactly the hits with op(h[v], c), hits outside keep their weight, no phase space variable changes, and cutting twice equals cutting once; with a global cut every hit of a cut track drops to weight zero.", "quantifier": "all bunches, all variables, all comparators, all cut values", "why_tests_cant": "needs all bunches incl. shared tracks and weights used as cut variables", "anchors": ["xboa/core/cpplib/Bunchcore.cc: cut_double", "xboa/core/pylib/PyBunchcore.cc: cut_double", "xboa/bunch/_bunch.py: cut, _cut"]}
{"id": "C24", "title": "Bunch list and fast core stay in step", "statement": "After any history of list operations on a Bunch (append, set item, delete item, conditional_remove, copying), item i of the Bunch and item i of the object used for moments refer to the same hit, and lengths agree.", "quantifier": "every finite history of list operations with any indices Python allows (including negative ones)", "why_tests_cant": "an invariant over unbounded histories of operations", "anchors": ["xboa/bunch/_bunch.py: __setitem__, __delitem__, append, conditional_remove, new_from_hits", "xboa/core/pylib/PyBunchcore.cc: set_item, get_item, del_item", "xboa/core/utils/TypeConversions-inl.hh: PyCppIndexConverter"]}
{"id": "C25", "title": "Python negative indices count from the end", "statement": "Bunchcore item access with index -k (1<=k<=len) refers to element len-k, and indices outside [-len, len) raise IndexError on read.", "quantifier": "all bunches, all integer indices", "why_tests_cant": "for every length and index", "anchors": ["xboa/core/utils/TypeConversions-inl.hh: PyCppIndexConverter::convert", "xboa/core/pylib/PyBunchcore.cc: get_item, set_item"]}
{"id": "C26", "title": "transmission_cut keeps exactly tracks present in the test bunch", "statement": "bunch.transmission_cut(test, test_variable=v) gives weight zero to every hit whose value of v is not within the tolerance of the value for some hit of test, and leaves the others' weights unchanged.", "quantifier": "all pairs of bunches, all test variables, both global and local cuts", "why_tests_cant": "binary search over arbitrary sorted data; any size", "anchors": ["xboa/bunch/_bunch.py: transmission_cut"]}
{"id": "C27", "title": "conditional_remove keeps exactly the hits not matching", "statement": "After bunch.conditional_remove({v: c}, op) the bunch contains exactly the original hits with not op(h[v], c), in the original order.", "quantifier": "all bunches, comparators, values", "why_tests_cant": "list mutated while scanning; must hold for any run of matching hits", "anchors": ["xboa/bunch/_bunch.py: conditional_remove"]}
{"id": "C28", "title": "Splitting a bunch loses and duplicates nothing", "statement": "bunch.split(v) returns bunches that together contain each hit exactly once, in order, and hits are in the same bunch iff they have the same value of v.", "quantifier": "all bunches, all variables", "why_tests_cant": "for all bunches; separation of nearby non-integer values", "anchors": ["xboa/bunch/_bunch.py: split"]}
{"id": "C29", "title": "period_transformation folds time into one period", "statement": "After bunch.period_transformation(offset, frequency) every t lies in [-0.5/f, 0.5/f) and differs from t-offset by an integer number of periods.", "quantifier": "all bunches, offsets, positive frequencies", "why_tests_cant": "for all times", "anchors": ["xboa/bunch/_bunch.py: period_transformation"]}
{"id": "C30", "title": "Ellipse construction has the requested emittance", "statement": "build_ellipse_2d(beta, alpha, emittance, p, mass, geometric) returns a symmetric matrix with determinant emittance^2 (geometric) or (emittance*mass)^2 (normalised), and build_penn_ellipse with |charge|=1 a symmetric 4x4 matrix of determinant (emittance*mass)^4; non-positive beta, emittance or mass are rejected with ValueError.", "quantifier": "all real optics parameters", "why_tests_cant": "polynomial identity over all reals", "anchors": ["xboa/bunch/_bunch.py: build_ellipse_2d, build_penn_ellipse"]}
{"id": "C31", "title": "multisort sorts rows together", "statement": "Common.multisort returns (and leaves in the arguments) columns such that the first column is non-decreasing, the rows are a permutation of the input rows and rows with equal first entries keep their order.", "quantifier": "all equal-length column lists", "why_tests_cant": "for all lists", "anchors": ["xboa/common/_common.py: multisort"]}
{"id": "C32", "title": "Histogram conserves weight", "statement": "Common.histogram with given bin edges puts each point in exactly the bin whose half-open interval contains it: the sum of bin contents equals the sum of weights of points inside the edges, and each bin holds the sum of weights of points inside it.", "quantifier": "all point lists, all weight lists, all strictly increasing bin edges", "why_tests_cant": "for all data and edges incl. points on edges", "anchors": ["xboa/common/_common.py: histogram"]}
{"id": "C33", "title": "Automatic bin edges cover all the data", "statement": "Histogramming data in bin edges obtained from Common.get_bin_edges for the same data loses no point.", "quantifier": "all data lists, all bin counts", "why_tests_cant": "for all data", "anchors": ["xboa/common/_common.py: get_bin_edges, min_max, n_bins, histogram"]}
{"id": "C34", "title": "min_max bounds and purity", "statement": "Common.min_max(x, weights, margin, xmin, xmax) returns an interval that contains every x of weight > 1e-6 (no explicit limits), has xmin/xmax as its ends when given, has non-zero length for default limits and never modifies the caller's lists.", "quantifier": "all lists, weights, margins", "why_tests_cant": "for all lists including empty and mismatched ones", "anchors": ["xboa/common/_common.py: min_max"]}
{"id": "C35", "title": "make_grid and make_shell counts and geometry", "statement": "make_grid(n, d) returns n^d pairwise distinct points of the cube [-1,1]^d including all corners (n >= 2); make_shell(n, ellipse) returns exactly the non-central grid points scaled on to the ellipsoid v^T E^-1 v = 1.", "quantifier": "all n and all dimensions", "why_tests_cant": "for all n, d", "anchors": ["xboa/common/_common.py: make_grid, make_grid_recursive, make_shell, normalise_vector"]}
{"id": "C36", "title": "process_list results do not depend on the schedule", "statement": "Common.process_list(f, args, max_n_processes) returns [f(*a) for a in args] in order (exceptions as values) whatever order worker processes finish in.", "quantifier": "all functions, argument lists, worker limits and all schedules", "why_tests_cant": "schedules are non-deterministic", "anchors": ["xboa/common/_common.py: process_list, __function_with_queue"]}
{"id": "C37", "title": "PID translation tables", "statement": "Translating a PDG pid to ICOOL or MARS and back gives the same pid for every pid the writer accepts; mass is the same and charge opposite for antiparticles where both are listed.", "quantifier": "all integers pid", "why_tests_cant": "for all table rows jointly", "anchors": ["xboa/common/_common.py: icool_pid_to_pdg, pdg_pid_to_icool, mars_pid_to_pdg, pdg_pid_to_mars, pdg_pid_to_mass, pdg_pid_to_charge"]}
{"id": "C38", "title": "Write/read round trip of built-in text formats", "statement": "Writing a hit with an ICOOL, G4Beamline or MARS format and reading the line back yields a hit with the same value of every variable in the format (energy from the mass shell, mass and charge from pid).", "quantifier": "all hits with a known pid, all built-in line formats", "why_tests_cant": "for all values, units and columns", "anchors": ["xboa/hit/_hit.py: write_builtin_formatted, __write_formatted, __file_formats, __file_units", "xboa/hit/factory/_line_factory_base.py: _read_formatted", "xboa/hit/factory/_builtin_hit_factory.py"]}
{"id": "C39", "title": "Writing does not modify the hit", "statement": "write_builtin_formatted leaves every variable of the hit unchanged, whether it succeeds or raises (unknown pid, failing file).", "quantifier": "all hits, formats and points at which the output file fails", "why_tests_cant": "needs every failure point", "anchors": ["xboa/hit/_hit.py: write_builtin_formatted, write_list_builtin_formatted"]}
{"id": "C40", "title": "Writing a list groups by station and drops nothing", "statement": "write_list_builtin_formatted writes every hit that can be written exactly once, in order of station, keeping the original order within a station.", "quantifier": "all hit lists", "why_tests_cant": "for all lists", "anchors": ["xboa/hit/_hit.py: write_list_builtin_formatted"]}
{"id": "C41", "title": "Line reader consumes files line by line", "statement": "Reading a text file of a built-in or user format yields hits in file order, one per well formed line, never more than requested, and stops at end of file.", "quantifier": "all files (sequences of lines), all limits", "why_tests_cant": "for all files", "anchors": ["xboa/hit/factory/_line_factory_base.py: _read_formatted", "xboa/bunch/_bunch.py: new_from_read_builtin, new_from_read_user, new_hit_shell"]}
{"id": "C42", "title": "MAUS tree keeps every hit", "statement": "The MAUS tree built from a list of hits contains each hit exactly once, grouped by event_number then particle_number, groups ordered by first appearance.", "quantifier": "all hit lists", "why_tests_cant": "for all lists", "anchors": ["xboa/hit/_hit.py: get_maus_tree, __get_maus_tree_recursive, __split_list_by_equality"]}
{"id": "C43", "title": "Uphill/downhill peak finder returns the strict local maxima", "statement": "UphillDownhillPeakFinder.find_peaks(data) returns, in increasing order and without repetition, exactly the interior indices i with data[i-1] < data[i] > data[i+1].", "quantifier": "all data lists", "why_tests_cant": "for all data", "anchors": ["xboa/algorithms/peak_finder/_uphill_downhill_peak_finder.py: find_peaks, _get_derivative"]}
{"id": "C44", "title": "Window peak finder soundness", "statement": "Every index returned by WindowPeakFinder.find_peaks is a valid index, appears once, and is the maximum of one of the windows examined; with window_step 1 no interior strict maximum over a whole window on either side is missed (threshold disabled).", "quantifier": "all data, window sizes and steps", "why_tests_cant": "for all data", "anchors": ["xboa/algorithms/peak_finder/_window_peak_finder.py: find_peaks"]}
{"id": "C45", "title": "Gaussian smoothing is an averaging filter", "statement": "With boundary adjustment, GaussianSmoothing keeps the length, maps constant signals to themselves, keeps every output between the minimum and maximum of the signal, is linear in the signal; without it, outputs further than the window from both ends are unchanged by the option.", "quantifier": "all signals, widths and window sizes", "why_tests_cant": "for all signals", "anchors": ["xboa/algorithms/smoothing/_gaussian_smoothing.py: _smooth_one, smooth, smooth_table"]}
{"id": "C46", "title": "Parameter scan visits the whole grid", "statement": "The scan generator of the ellipse closed orbit finder yields every combination start + k*step (below end, for each variable) exactly once in odometer order and then stops.", "quantifier": "all numbers of scan variables, ranges and step sizes", "why_tests_cant": "for all ranges, in particular those that divide exactly", "anchors": ["xboa/algorithms/closed_orbit/_ellipse_closed_orbit_finder.py: scan_generator"]}
{"id": "C47", "title": "Bounding ellipse cut is a filter", "statement": "BoundingEllipse.cut_on_bound(points) keeps exactly the points with (v-mean)^T E^-1 (v-mean) <= 1, in order, together with their original indices.", "quantifier": "all point lists, ellipses", "why_tests_cant": "deletes from a list while scanning; all lists needed", "anchors": ["xboa/bunch/weighting/_bounding_ellipse.py: cut_on_bound"]}
{"id": "C48", "title": "Matrix tracking applies affine maps to the input", "statement": "MatrixTracking.track_one(hit) returns a copy of the input followed by one hit per matrix, hit i having the phase space vector M_i (u_in - v_in) + v_i computed from the input hit; its pz (or energy) is then set so that it is on the mass shell; the input hit is not modified; track_many maps track_one over hits in order.", "quantifier": "all matrix lists, offsets and hits", "why_tests_cant": "for all sequences of matrices", "anchors": ["xboa/tracking/_matrix_tracking.py: track_one", "xboa/tracking/_tracking_base.py: track_many"]}
{"id": "C49", "title": "Multi-process tracking preserves hit order", "statement": "MultiTrack.track_many(hits) returns the concatenation of the per-chunk results in the order of the input hits, whatever order the jobs finish in, and every hit is given to exactly one job.", "quantifier": "all hit lists, job counts and schedules", "why_tests_cant": "job completion order is non-deterministic", "anchors": ["xboa/tracking/_multitrack.py: track_many_async, track_many, get_return_value", "xboa/tracking/tracking_process/_tracking_process.py: get_return_value"]}
{"id": "C50", "title": "fit_ellipse terminates and returns the covariance of the points in its cut", "statement": "fit_ellipse stops after at most max_number_of_iterations rounds; if no round fails, the mean and matrix returned are the weighted mean and covariance matrix of the points accepted by the cut before the last round.", "quantifier": "all point sets and limits", "why_tests_cant": "termination for all inputs", "anchors": ["xboa/common/_common.py: fit_ellipse, _update_fit_ellipse_cut"]}
{"id": "C51", "title": "Tune angles are folded to one turn", "statement": "Every phase advance reported by DPhiTune lies in [0, 1) and equals the angle difference modulo one turn; two calls on the same data report the same tune.", "quantifier": "all point sequences, repeated calls", "why_tests_cant": "for all data and call histories", "anchors": ["xboa/algorithms/tune/_dphi_tune.py: get_tune"]}
{"id": "C52", "title": "Random seeds and spill numbers are never reused", "statement": "Through any history of track_one / track_many calls on one MAUSTracking object the random seeds given to primaries are pairwise distinct and spill numbers strictly increase.", "quantifier": "all call histories", "why_tests_cant": "over unbounded histories", "anchors": ["xboa/tracking/_maus_tracking.py: track_many, _hit_to_primary"]}
{"id": "C53", "title": "Reconstructed station identifiers are unique", "statement": "The station number assigned to a tracker point determines its tracker, station and plane.", "quantifier": "all (tracker, station, plane) within the accepted range", "why_tests_cant": "injectivity over the whole accepted range", "anchors": ["xboa/hit/factory/_maus_root_recon_hit_factory.py"]}
{"id": "C54", "title": "Twiss parameters are consistent", "statement": "For any covariance matrix with non-zero emittance the beta, alpha, gamma returned by the bunch satisfy beta*gamma - alpha^2 = 1 in one plane.", "quantifier": "all covariance matrices", "why_tests_cant": "identity over all reals", "anchors": ["xboa/bunch/_bunch.py: get_beta, get_alpha, get_gamma, get_emittance"]}
{"id": "C55", "title": "Bunch weights add up", "statement": "bunch_weight() equals the sum of the hits' weights for the C++ and Python paths, is unchanged by reordering, and after any cut is at most what it was for non-negative weights.", "quantifier": "all bunches", "why_tests_cant": "for all bunches", "anchors": ["xboa/bunch/_bunch.py: bunch_weight", "xboa/core/cpplib/Bunchcore.cc: bunch_weight"]}
{"id": "C56", "title": "Bunch equality is symmetric", "statement": "b1 == b2 iff b2 == b1.", "quantifier": "all pairs of bunches including cached means and covariances", "why_tests_cant": "over all pairs", "anchors": ["xboa/bunch/_bunch.py: __eq__"]}
{"id": "C57", "title": "Unit-conversion and substitution purity", "statement": "Common.substitute replaces every occurrence of each key in the file text, independent of the order of keys, when no value or key contains another key.", "quantifier": "all texts and replacement tables", "why_tests_cant": "for all texts", "anchors": ["xboa/common/_common.py: substitute"]}
{"id": "C58", "title": "Average amplitude is 2n times the emittance", "statement": "For n axes the weighted average over the bunch of Bunch.get_amplitude(bunch, hit, axes) equals 2n times bunch.get_emittance(axes).", "quantifier": "all bunches with a non-singular covariance matrix, all weights, all axis lists", "why_tests_cant": "identity over all bunches of any size", "anchors": ["xboa/bunch/_bunch.py: get_amplitude, get_emittance, covariance_matrix"]}
{"id": "C63", "title": "Tabulated charges are the charges of the particles", "statement": "For every particle known to the pid tables, Common.pdg_pid_to_charge gives the electric charge implied by its PDG number (quark content for hadrons, Z for nuclei), and every pid a reader can produce has an entry.", "quantifier": "all integers pid", "why_tests_cant": "tests compare a few rows with themselves; the claim relates all rows to the numbering scheme", "anchors": ["xboa/common/_common.py: pdg_pid_to_charge, mars_pid_to_pdg"]}
{"id": "C64", "title": "fit_ellipse cut is the documented normalised chi-squared", "statement": "In each round fit_ellipse keeps exactly the points with x^T V^-1 x |V|^(1/n) < eps_cut, x measured from the mean, V the current matrix and n the dimension of the points.", "quantifier": "all point sets, dimensions and cut values", "why_tests_cant": "for all point sets and dimensions", "anchors": ["xboa/common/_common.py: fit_ellipse, _update_fit_ellipse_cut"]}
{"id": "C65", "title": "CutSmoothing rejects exactly the outliers", "statement": "CutSmoothing.smooth(signal) returns the signal without the values further than cut_range from the mean of their window, in order.", "quantifier": "all signals, windows and ranges", "why_tests_cant": "for all signals", "anchors": ["xboa/algorithms/smoothing/_cut_smoothing.py: smooth, smooth_table"]}
{"id": "C66", "title": "The tune depends only on the data", "statement": "DPhiTuneFinder.get_tune returns a value determined by the data set (u, up) the object holds, whatever data it held before.", "quantifier": "all data sets and all call histories of the object", "why_tests_cant": "tests use a new object for each data set; the claim is about every history", "anchors": ["xboa/algorithms/tune/_dphi_tune.py: get_tune, get_dphi_list, run_tracking"]}
{"id": "C67", "title": "Write/read round trip of user defined text formats", "statement": "Writing a hit with write_user_formatted and reading the line back with new_from_read_user, with the same list of columns and units, yields a hit with the same value of every variable in the list, and mass and charge from the pid when they are not in the list.", "quantifier": "all hits, all column lists and unit dictionaries the writer and the reader accept", "why_tests_cant": "for all formats, units and values", "anchors": ["xboa/hit/_hit.py: write_user_formatted, __write_formatted", "xboa/hit/factory/_user_hit_factory.py: UserHitFactory", "xboa/hit/factory/_line_factory_base.py: _read_formatted"]}
{"id": "C68", "title": "MAUS json files are read back", "statement": "Hits written in the format maus_json_virtual_hit are read back by Bunch.read_maus_json_file: each hit once, event by event and track by track, with the position, momentum, fields, time, mass, charge, path length, proper time, pid, station and particle number that were written, the energy on the mass shell and spill and event numbers that are positions in the file; every type in list_of_maus_types is loaded.", "quantifier": "all lists of hits, all numbers of hits asked for", "why_tests_cant": "for all lists; the tests of the format need MAUS", "anchors": ["xboa/hit/_hit.py: get_maus_tree, write_list_builtin_formatted", "xboa/hit/factory/_maus_json_hit_factory.py: MausJsonHitFactory", "xboa/bunch/_bunch.py: read_maus_json_file"]}
{"id": "C69", "title": "Primaries of MAUS ROOT files", "statement": "Reading a MAUS ROOT file with type maus_root_primary returns the primary of every MC event of every spill, in order, with the position, time, energy, pid, mass and charge of the primary, spill number and position of the event in the spill, and a momentum along the direction of the primary's that lies on the mass shell.", "quantifier": "all files (lists of spills), all test functions and numbers of hits", "why_tests_cant": "Tests read one fixed file with a handful of well behaved primaries; they neither look at the charge nor contain a primary that is off the mass shell.", "anchors": ["xboa/hit/factory/_maus_root_hit_factory.py:150-179", "xboa/bunch/_bunch.py:403-439"]}
{"id": "C70", "title": "Virtual hits and steps of MAUS ROOT files", "statement": "Reading a MAUS ROOT file with type maus_root_virtual_hit or maus_root_step returns every virtual hit (every step of every track) of every event of every spill exactly once and in order, with the data of the file, and only the first number_of_hits that pass the test function; several types are read one after the other.", "quantifier": "all files, all test functions, all numbers of hits, all lists of types", "why_tests_cant": "Tests read one fixed file; completeness, order and the interplay of test function and number of hits are statements about all files.", "anchors": ["xboa/hit/factory/_maus_root_hit_factory.py:47-148", "xboa/bunch/_bunch.py:403-439"]}
{"id": "C71", "title": "Reconstructed tracks of MAUS ROOT files", "statement": "Reading a MAUS ROOT file with type maus_root_scifi_trackpoint returns every track point of every track that passes the P value cut, in order, labelled by spill, event and track; maus_root_scifi_and_tof does so for the events with a time of flight between TOF0 and TOF1, which becomes t.", "quantifier": "all files, all cuts, test functions and numbers of hits", "why_tests_cant": "The tests that read reconstructed data need a MAUS installation and are skipped without one; they look at one file and one interpreter version.", "anchors": ["xboa/hit/factory/_maus_root_recon_hit_factory.py:50-168", "xboa/bunch/_bunch.py:403-439"]}
{"id": "C59", "title": "Linear maps of a bunch", "statement": "Bunch.abelian_transformation(list, R, T, O) moves every hit of the bunch to R(V-O)+T+O in the listed variables and changes nothing else; means transform with the same map, covariance matrices become R C R^T, and weights are unchanged.  Without O the origin is the bunch mean.", "quantifier": "all bunches without repeated hits, all lists of coordinate variables, all matrices, translations and origins", "why_tests_cant": "Tests move one bunch by one matrix; that second moments transform by R C R^T is an identity for all bunches and matrices, and the documented default origin shows only for a bunch off axis.", "anchors": ["xboa/bunch/_bunch.py:503-525", "xboa/hit/_hit.py:262-295", "xboa/bunch/_bunch.py:726-757"]}
{"id": "C60", "title": "Histograms of a bunch", "statement": "Bunch.histogram_var_bins gives in each bin the weight of the hits whose variable, in the requested units, lies in the bin; Bunch.histogram does so for equal bins between limits in the requested units, by default from the least to the greatest value, in one or two dimensions.", "quantifier": "all bunches, variables, units, numbers of bins, limits and sorted edges", "why_tests_cant": "Tests look at one histogram; completeness of the contents for all bunches and edges, and the treatment of units and of the greatest hit, are general statements.", "anchors": ["xboa/bunch/_bunch.py:1507-1563", "xboa/common/_common.py:299-368"]}
{"id": "C61", "title": "Internal covariance matrix", "statement": "After Bunch.set_covariance_matrix(True, matrix, means) moments of pairs of coordinates are the entries of the matrix, by default of the covariance matrix of the bunch at that time; after set_covariance_matrix(False) they are calculated from the hits again.", "quantifier": "all bunches, matrices, and pairs of variables", "why_tests_cant": "The tests would have to be run with the numpy version at hand; the failure is for every bunch and every matrix of more than one element.", "anchors": ["xboa/bunch/_bunch.py:759-790", "xboa/bunch/_bunch.py:671-757"]}
{"id": "C62", "title": "transform_to reaches the target covariances", "statement": "Bunch.transform_to(list, target) moves all hits by one affine map of determinant 1 in modulus, after which the covariance matrix of the bunch is a positive multiple of the target; the determinant of the covariance matrix (the emittance) is conserved.", "quantifier": "all bunches with a positive definite covariance matrix, all positive definite targets of any size, all translations and origins", "why_tests_cant": "Tests compare one bunch with one target to a tolerance; the claim is an identity for every size of matrix and every bunch, for any eigenvector routine.", "anchors": ["xboa/bunch/_bunch.py:527-560"]}
{"id": "C72", "title": "Standard deviations and cuts in units of them", "statement": "Bunch.standard_deviation(v, mean) is the weighted standard deviation about the given mean, by default the mean of the bunch; cut and conditional_remove with value_is_nsigma_bool compare the variable with n of its standard deviations.", "quantifier": "all bunches with non negative weights, variables, comparators, numbers of standard deviations", "why_tests_cant": "Tests with a standard deviation of one cannot tell a standard deviation from its square root; the identity is for all bunches.", "anchors": ["xboa/bunch/_bunch.py:644-669", "xboa/bunch/_bunch.py:613-642", "xboa/bunch/_bunch.py:814-844"]}
{"id": "C73", "title": "Angular momentum of a bunch", "statement": "get_kinetic_angular_momentum(axis) is the weighted mean of (x-x0)(py-py0)-(y-y0)(px-px0), with geometric momenta that of x y' - y x' times the mean of pz; get_canonical_angular_momentum adds the field term c bz/2 <r^2> about the field axis, with the field of the first hit by default.", "quantifier": "all bunches, axes and fields", "why_tests_cant": "Tests check one bunch; the geometric setting together with the default axis is not covered by them and fails for every bunch.", "anchors": ["xboa/bunch/_bunch.py:1118-1146"]}
{"id": "C74", "title": "Dispersion", "statement": "get_dispersion(q) is cov(q,E) mean(E)/var(E), get_dispersion_prime(q) the same with the momentum conjugate to q in the chosen momentum convention, get_dispersion_rsquared is (<r^2 E> - <r^2><E>) mean(E)/var(E) with raw moments; a bunch without energy spread raises ZeroDivisionError.", "quantifier": "all bunches and axes", "why_tests_cant": "Tests use bunches on axis and the default momentum convention; the formulae are for all bunches.", "anchors": ["xboa/bunch/_bunch.py:970-1012"]}
{"id": "C75", "title": "Clearing weights", "statement": "clear_local_weights sets the local weight of the hits of the bunch to 1 and changes nothing else; after clear_weights all hits of the bunch have weight 1 and other hits are not affected.", "quantifier": "all bunches, weights and weight contexts", "why_tests_cant": "Tests look at one bunch in the default context; the effect on hits outside the bunch and on other contexts is not looked at.", "anchors": ["xboa/bunch/_bunch.py:799-812", "xboa/hit/_hit.py:659-666"]}
{"id": "C76", "title": "Choosing and comparing hits", "statement": "get_hits(v, value, comparator) are the hits with comparator(hit[v], value), in order; hit_equality(target, tolerance) is True iff the bunches have as many hits and hits at the same place agree to the tolerance.", "quantifier": "all bunches, comparators, values and tolerances", "why_tests_cant": "An argument that has no effect is only visible when it differs from the default in a case where it matters; the characterisation is an iff over all bunches.", "anchors": ["xboa/bunch/_bunch.py:584-611", "xboa/hit/_hit.py:114-123"]}
{"id": "C77", "title": "Tables of bunch variables", "statement": "Bunch.list_get(dict, names, lists) is a table of a column for each variable with a row for each bunch, rows sorted by the first variable, the values of a bunch staying together, bunches with equal first variable in the order of the dict; unknown names raise KeyError.", "quantifier": "all dicts of bunches and all lists of variables", "why_tests_cant": "Tests use one dict; that rows stay together and that sorting is stable are statements about all tables.", "anchors": ["xboa/bunch/_bunch.py:1304-1351", "xboa/common/_common.py:280-297"]}
{"id": "C78", "title": "Multipole weighting reaches the moments it was asked for", "statement": "After MultipoleWeighting.apply_weights has returned, the weighted moments of the bunch are the target moments (set by set_target_moments, or the mean and covariance ellipse given to the constructor), no variable other than the weight has changed, and if all weights were one they sum to the number of hits.", "quantifier": "for all bunches, weighting variables, lists of targets with distinct power indices within the maximum moment, local or global weights, and any correct matrix inverse", "why_tests_cant": "The tests compare a few moments of one Gaussian bunch with tolerances; whether the linear system that is solved is the one that makes the moments right is an algebraic identity over all bunches and targets, and the error of the code is small when the targets are close to the moments.", "anchors": ["xboa/bunch/weighting/_multipole_weighting.py:45-74", "xboa/bunch/weighting/_multipole_weighting.py:76-131", "xboa/bunch/weighting/_multipole_weighting.py:149-176"]}
{"id": "C79", "title": "The FFT tune finder returns the frequency of the strongest peak", "statement": "FFTTuneFinder.get_tune returns the frequency, in turns per sample and not 0, of the strongest peak that the peak finder finds in the Fourier spectrum of the data; it ends for every positive tolerance; asking again gives the same answer; and if there is no peak it raises an error.", "quantifier": "for all data, peak finders, tolerances and earlier uses of the finder", "why_tests_cant": "The tests compare the tune of a few generated signals with a wide tolerance; the systematic error of one part in the number of samples, the frequency 0 that ties with a peak, the peaks left from earlier data and the unbounded recursion only show in particular data, and termination is a statement about all data.", "anchors": ["xboa/algorithms/tune/_fft_tune.py:63-104", "xboa/algorithms/tune/_fft_tune.py:226-268", "xboa/algorithms/tune/_fft_tune.py:270-321", "xboa/algorithms/tune/_fft_tune.py:323-345"]}
{"id": "C80", "title": "The closed orbit finder iterates over ellipses of tracked points and ends", "statement": "EllipseClosedOrbitFinder.find_closed_orbit_generator yields at most max_iterations iterations (any number if it is None); each holds the mean, covariance ellipse and noise of at least number_of_points consecutive tracked hits that start from the seed with its variables at the centre of the iteration before; it ends when the spread of the noise exceeds its mean; for a linear one-turn map and a whole number of turns the first centre is the closed orbit; a fit that fails raises RuntimeError; check_closed_orbit returns an iteration for values on the closed orbit.", "quantifier": "for all seeds, trackings, lists of variables, numbers of points and of iterations", "why_tests_cant": "The tests follow one tracking model from a few seeds and break out of the loop by hand; how the generator ends, what happens when the closed orbit is met exactly or the points are degenerate, and that the loop which collects points always ends, depend on the tracking, which is arbitrary.", "anchors": ["xboa/algorithms/closed_orbit/_ellipse_closed_orbit_finder.py:93-185", "xboa/algorithms/closed_orbit/_ellipse_closed_orbit_finder.py:217-272"]}
{"id": "C81", "title": "A closed orbit scan visits every point of its grid once", "statement": "EllipseClosedOrbitFinder.scan_generator yields one iteration for each point of the grid start, start + step, ... below the end of every variable, in lexicographic order of the variables sorted by name, each with the variables of the hits tracked from that point, and then ends.", "quantifier": "for all sets of variables, starts, ends, step sizes, seeds and trackings", "why_tests_cant": "The tests of the scan use ends that are not a whole number of steps away; whether every grid point is visited depends on arithmetic relations between start, end and step in every dimension.", "anchors": ["xboa/algorithms/closed_orbit/_ellipse_closed_orbit_finder.py:57-91"]}
{"id": "C82", "title": "The root finders take Newton steps and return a root", "statement": "nd_newton_raphson2 returns a point at which every component of the function is within its tolerance and, when limits are given, within them; it is arrived at by Newton steps with the jacobian of difference quotients over the last step; for an affine function the exact root is returned after one iteration, and a starting value that is a root is returned; nd_newton_raphson1 does the same with a function of one point.", "quantifier": "for all functions, starting values, steps, tolerances, limits, dimensions and numbers of iterations", "why_tests_cant": "The functions are arbitrary: a test compares the root of one or two hand-picked functions, and does not show what is returned when the iterations run out, the jacobian is singular, or the function calls the root finder itself.", "anchors": ["xboa/common/_common.py:165-250"]}
{"id": "C83", "title": "DecoupledTransferMatrix finds the periodic ellipse of a transfer matrix", "statement": "For the transfer matrix M of stable motion, DecoupledTransferMatrix(M).get_v_m(emittances) returns a symmetric positive definite matrix V that M leaves in place, with the eigen-emittances asked for; R takes M to a matrix of 2 x 2 blocks, and the trace of each block is twice the cosine of get_phase_advance of its axis; matrices that are not square, of odd size or of determinant other than 1, and lists of emittances of the wrong length, raise ValueError.", "quantifier": "for all dimensions, transfer matrices with eigenvalues in conjugate pairs on the unit circle, and emittances", "why_tests_cant": "The module has no unit tests that check values; a test would compare a few matrices, while periodicity, decoupling and positivity concern every stable matrix of every size, including uncoupled ones.", "anchors": ["xboa/algorithms/decoupled_transfer_matrix.py:18-139"]}
{"id": "C84", "title": "HullContent gives every Voronoi tile its content", "statement": "HullContent(tesselation, region_list).tile_content_list has, for every point of region_list, the content (length, area, volume, hypervolume) of the Voronoi tile of that point: the sum of the contents of the simplices of its Delaunay triangulation, and 0 for a tile that is not closed. The content of a simplex is |det(edges)| / dimension!.", "quantifier": "for all dimensions, tesselations, triangulations and lists of points", "why_tests_cant": "The tests compare the contents of a few tiles in two dimensions; that the Cayley-Menger determinant with its coefficient is the squared content concerns all dimensions and all simplices.", "anchors": ["xboa/bunch/weighting/_hull_content.py:42-125"]}
{"id": "C85", "title": "VoronoiWeighting gives every hit its tile content times a Gaussian", "statement": "VoronoiWeighting(variables, ellipse, mean, bound).apply_weights(bunch, global_cut) sets the local or global weight of every hit on or inside of the bound to the content of its Voronoi tile times get_pdf at the hit, that of every other hit to 0, and changes nothing else; get_pdf is the density of the Gaussian distribution that has the given mean and covariance matrix.", "quantifier": "for all dimensions, bunches, ellipses, means, bounds, tesselations, local and global weights", "why_tests_cant": "The tests look at a few weights in two dimensions; that the function is the density of a distribution with the given covariance is a statement about an integral over all points, and the hits that are cut depend on the bunch.", "anchors": ["xboa/bunch/weighting/_voronoi_weighting.py:74-187"]}
{"id": "C86", "title": "RefinePeakFinder returns the vertex of the parabola fitted around each peak", "statement": "RefinePeakFinder.find_peak_errors(data) replaces each estimated peak, in order and independently of the other peaks, by the vertex of the parabola fitted to the data within a distance delta of it, with the fit covariance propagated to the vertex, where delta is delta_seed doubled while below max_delta; an estimate is left out only if the vertex is further than delta from it or outside of the data; for data on a parabola the vertex is found exactly; find_peaks returns the indices of these peaks.", "quantifier": "for all data, peak lists, delta_seed, max_delta and (least squares) fits", "why_tests_cant": "The tests refine two peaks of a cosine with tolerances of several points; that peaks do not influence each other and that the covariance is propagated with the right derivatives holds or fails for all data, not for one curve.", "anchors": ["xboa/algorithms/peak_finder/_refine_peak_finder.py:37-203"]}
{"id": "C87", "title": "new_hit_shell puts one hit on every point of the ellipsoid", "statement": "Bunch.new_hit_shell(n, ellipse, variables, mass_shell_variable, defaults) returns one hit per point of make_shell(n, ellipse): the listed variables are the default values plus the point, whose offset satisfies v^T ellipse^-1 v = 1, all other variables have their default values, event numbers are 0, 1, 2, ..., the hits obey the mass shell condition, and no existing hit or weight changes.", "quantifier": "for all positive definite ellipses of any dimension, 2 <= n <= 31623, lists of distinct stored variables, defaults and prior states", "why_tests_cant": "The test makes a single shell with n = 2 in a few dimensions; that every point of every shell is on the ellipsoid and on the mass shell at once and that nothing else changes holds over all ellipses, dimensions and defaults.", "anchors": ["xboa/bunch/_bunch.py:379-401", "xboa/common/_common.py:829-897", "xboa/hit/_hit.py:138-153", "xboa/hit/_hit.py:290-332"]}
{"id": "C88", "title": "Bunch.deepcopy and new_from_hits make independent, equal copies", "statement": "bunch.deepcopy() and Bunch.new_from_hits(hits) return a bunch of new hits, none shared with the original, with the same variables in the same order, the same recorded means and covariances; the copy equals the original under ==. No existing hit and no weight changes.", "quantifier": "for all bunches, hits with representable integers, weights, recorded means and covariances, tolerances and prior states", "why_tests_cant": "The tests copy one small bunch whose hits belong to distinct tracks; that no weight and no other hit is touched is a statement about the whole shared state, for any bunch.", "anchors": ["xboa/bunch/_bunch.py:84-113", "xboa/bunch/_bunch.py:166-181", "xboa/hit/_hit.py:100-112"]}
{"id": "C89", "title": "Reading a file into sorted bunches", "statement": "Bunch.new_list_from_read_builtin(format, files, variable, test) returns one bunch for each value of the variable that some hit of the files has, in ascending order of the value; every hit of the files that passes the test is in exactly one of them, the one of its value, in the order of the files. new_dict_from_read_builtin gives the same bunches by value. No existing hit and no weight changes.", "quantifier": "for all files in the built-in line formats, any number of lines and files, test functions, variables and prior states", "why_tests_cant": "The tests read one fixed file with a few stations; that no hit is lost, repeated, reordered or put with other values must hold for every file and test function.", "anchors": ["xboa/bunch/_bunch.py:183-273", "xboa/bunch/_bunch.py:275-340"]}
{"id": "C90", "title": "The tune found for a linear lattice is its tune", "statement": "For the points of a particle in a stable linear lattice, turn by turn (each the image of the one before under the one-turn matrix with phase advance mu about the closed orbit), DPhiTuneFinder.get_tune on a new object returns mu/(2 pi) modulo 1, independent of the Courant-Snyder parameters, the closed orbit and the initial displacement.", "quantifier": "for all phase advances, numbers of turns, Courant-Snyder parameters, closed orbits and displacements with amplitude below the cut of 1e9", "why_tests_cant": "A test compares one lattice with a tolerance; whether the ellipse fitted to the points is the invariant ellipse, so that the tune is exact, depends on all turns and lattices.", "anchors": ["xboa/algorithms/tune/_dphi_tune.py:24-40", "xboa/algorithms/tune/_dphi_tune.py:67-87", "xboa/common/_common.py: fit_ellipse"]}
{"id": "C91", "title": "run_tracking records the orbit of the displaced reference particle", "statement": "run_tracking of DPhiTuneFinder and FFTTuneFinder tracks the reference hit displaced by the given amounts in the given variables, and sets the data to the values of the variable (and of the second variable, or of the momentum belonging to it) of the hits that the tracking returns, in order, at the positions in use_hits; the tracked particle is a physical one; the reference hit does not change. With MatrixTracking of a linear ring, run_tracking followed by get_tune gives the tune of the ring.", "quantifier": "for all tracking objects, reference hits, stored variables, displacements, index lists, rings with phase advance m/N on N turns", "why_tests_cant": "The tests use one tracking object and one or two axes; the claims concern every tracking object, every axis and every ring.", "anchors": ["xboa/algorithms/tune/_dphi_tune.py:42-65", "xboa/algorithms/tune/_fft_tune.py:106-125"]}
{"id": "C92", "title": "Hit.check accepts exactly the hits on the mass shell with the right mass", "statement": "hit.check(tolerance) returns True exactly when the particle type is known, the mass is that of the particle type and energy squared equals momentum squared plus mass squared, both up to the tolerance; it raises nothing and changes nothing.", "quantifier": "for all hits, mass tables, tolerances", "why_tests_cant": "The tests try a few hits with round numbers; the claim is about every momentum and every tolerance, and the rounding in the code only shows between integers.", "anchors": ["xboa/hit/_hit.py:367-379"]}
{"id": "C93", "title": "The ratio histogram holds the ratio of each bin", "statement": "plot_hist2d_ratio(axes, h1, h2, xedges, yedges, on_nan) returns a histogram with the given edges whose bin (i, j) contains h1[i][j]/h2[i][j], or on_nan where h2[i][j] is 0; tables of different shape, or not of the size of the edges, raise ValueError.", "quantifier": "for all tables, strictly increasing edges and on_nan", "why_tests_cant": "The one test uses square tables and fails on purpose; the claim covers every shape, where rows and columns are easily exchanged, and every pattern of zeros.", "anchors": ["xboa/common/matplotlib_wrapper.py:198-241"]}
{"id": "C94", "title": "A one-dimensional matplotlib histogram shows all the data", "statement": "make_histogram(x, label, n) with or without weights draws over the centre of each bin the weight of the data in that bin; all data lie in the bins drawn.", "quantifier": "for all data, weights and numbers of bins", "why_tests_cant": "The drawing functions are only run to see that they do not raise; which bins are drawn depends on the data.", "anchors": ["xboa/common/matplotlib_wrapper.py:29-77"]}
{"id": "C95", "title": "A matplotlib graph shows every point, in order, and leaves the data alone", "statement": "make_graph(x, xlabel, y, ylabel, sort) draws every point (x, y) once, in order of x if sort is set and otherwise in the order given, inside axes that extend a tenth of the range beyond the outermost points; it raises IndexError without points or if the numbers of x and y values differ; it does not change the lists passed.", "quantifier": "for all lists", "why_tests_cant": "A drawing test looks at one list; keeping the pairs together while sorting and leaving the caller's lists alone are claims about all of them.", "anchors": ["xboa/common/matplotlib_wrapper.py:79-122", "xboa/common/_common.py:282-297"]}
{"id": "C96", "title": "A dictionary of bunches by station survives being saved and read back", "statement": "Bunch.hit_write_builtin_from_dict(d, format, file, comment) followed by Bunch.new_dict_from_read_builtin(format, file, 'station') gives a dictionary with the same keys, each bunch having the same hits in the same order with the same values of the variables of the format, and the comment is in the header of the file; hit_write_builtin and new_from_read_builtin do the same for one bunch.", "quantifier": "for all dictionaries, bunches, hits, formats and comments", "why_tests_cant": "A test writes and reads a few files; the claim combines the sorting, the header, the grouping and the line format for every dictionary and comment.", "anchors": ["xboa/bunch/_bunch.py:1363-1389", "xboa/bunch/_bunch.py:183-214", "xboa/hit/_hit.py:413-484", "xboa/hit/_hit.py:889-901"]}
{"id": "C97", "title": "A bunch written in a user defined format is read back in order", "statement": "bunch.hit_write_user(format, units, file, separator, comparator) appends one line for each hit, in the order of the comparator if there is one and otherwise of the bunch, and new_from_read_user with the same format and units gives back a bunch with the same values of every variable of the format, in that order; the hits written do not change.", "quantifier": "for all bunches, formats and units", "why_tests_cant": "Formats and units are free choices of the user, and files may have been written to before.", "anchors": ["xboa/bunch/_bunch.py:1391-1409", "xboa/bunch/_bunch.py:342-376", "xboa/hit/_hit.py:486-498"]}
{"id": "C98", "title": "A histogram of a bunch has every hit in a bin", "statement": "bunch.root_histogram(x, x_units, y, y_units, ...) fills every hit of the bunch once, at its coordinates in the units given and with its weight, into a histogram of one variable, or of two if a second one is named, with the numbers of bins and limits asked for; by default there is at least one bin and every hit of non-zero weight lies in a bin. bunch.matplot_histogram draws the contents of such bins.", "quantifier": "for all bunches, variables, weights, bins, limits and draw options", "why_tests_cant": "A plot test checks that something is drawn; that no hit is lost is a claim about every bunch, weight and choice of options.", "anchors": ["xboa/bunch/_bunch.py:1565-1626", "xboa/bunch/_bunch.py:1757-1796", "xboa/common/_common.py:393-445", "xboa/common/_common.py:252-280"]}
{"id": "C99", "title": "A graph over bunches has one point for each bunch with both quantities", "statement": "Bunch.root_graph(bunches, x, x_axes, y, y_axes, ..., comparator) draws one point (x/units, y/units) for each bunch for which both quantities can be calculated, ordered by the comparator or else by x, within axes a tenth larger than the points unless limits are given; bunches for which one of the quantities raises are left out without disturbing the others. Bunch.matplot_graph draws the same points but raises if a quantity cannot be calculated.", "quantifier": "for all collections of bunches, quantities, units, limits and comparators", "why_tests_cant": "Whether points of neighbouring bunches are mixed up depends on which of the quantities fail for which bunches.", "anchors": ["xboa/bunch/_bunch.py:1689-1754", "xboa/bunch/_bunch.py:1825-1861", "xboa/common/_common.py:564-610", "xboa/common/_common.py:611-639"]}
{"id": "C100", "title": "A scatter plot shows the hits asked for", "statement": "bunch.root_scatter_graph(x, y, ..., include_weightless) and bunch.matplot_scatter_graph draw one point (x/units, y/units) for each hit of the bunch, leaving out the hits of weight <= 0 if include_weightless is False, with each axis labelled by its own variable, within axes a tenth larger than the points unless limits are given, and return the plot.", "quantifier": "for all bunches, variables, units and weights", "why_tests_cant": "The points drawn are not returned as data, and negative weights are rare in tests.", "anchors": ["xboa/bunch/_bunch.py:1628-1687", "xboa/bunch/_bunch.py:1798-1823", "xboa/common/_common.py:704-724"]}
{"id": "C101", "title": "Several graphs on one set of axes", "statement": "make_root_multigraph and make_matplot_multigraph(x lists, xlabel, y lists, ylabel) draw one graph for each pair of lists with all their points, on axes a tenth larger than the points of all lists, and leave the lists alone; a list of y values that is too short raises IndexError.", "quantifier": "for all lists of lists", "why_tests_cant": "A drawing test uses one set of lists; whether the caller's data survives depends on their order.", "anchors": ["xboa/common/_common.py:641-672", "xboa/common/_common.py:674-702"]}
{"id": "C102", "title": "Amplitudes as variables of hits: values, cuts and means", "statement": "The variable 'amplitude x y' (or 'amplitude:' with a list of axes) has for each hit the value eps * u^T V^-1 u relative to the bunch, the same from list_get_hit_variable, get_hit_variable and get_amplitude; its mean over the bunch is 2n times the emittance; a cut on it sets the weights of exactly the hits (or, globally, of the tracks) whose amplitude relative to the bunch before the cut meets the comparator to 0, conditional_remove keeps exactly the others in order, and the same cut applied again changes nothing; a name that is no axis raises KeyError and changes nothing.", "quantifier": "for all bunches with a non-singular covariance matrix, axes, weights, comparators and limits", "why_tests_cant": "The amplitude of a hit depends on all hits and weights of the bunch, so whether a cut sees the bunch before or during the cut shows only for particular bunches.", "anchors": ["xboa/bunch/_bunch.py: list_get_hit_variable, get_hit_variable, get_amplitude, cut, conditional_remove, mean"]}
{"id": "C103", "title": "Tracking in a child process returns what the tracking gives", "statement": "A ThisNodeProcess given hits by set_hit_list and then started returns from get_return_value, once the child has exited, what the tracking makes of the hits set last. get_return_value, terminate and kill raise RuntimeError before start; start and get_return_value raise RuntimeError while the child runs, so that at most one child runs at a time; join() and kill() without timeout return only after the child has exited, with exitcode its exit code.", "quantifier": "for all sequences of calls, all interleavings with the children, all trackings and exit codes", "why_tests_cant": "The results depend on how calls and children interleave, and on jobs that fail after earlier ones succeeded.", "anchors": ["xboa/tracking/tracking_process/_tracking_process.py:67-144", "xboa/tracking/tracking_process/_this_node_process.py:46-86", "xboa/tracking/tracking_process/xboa_tracking_process.py:39-51"]}
{"id": "C104", "title": "File conversion: the output file holds the hits of the input file, worked on as the control file says", "statement": "The program File_Convert run on a control file (file_in, format_in, file_out, format_out, and optionally station_in, translate, rotate with origin and covariance lines, mass_shell_condition, plots; text after '#' or '!' is ignored, white space does not matter, the last of several lines with a name holds) writes a file that, read back in the output format, holds exactly the hits of the input lines that belong to the station and that the output format can express, in order of station, each moved by the translation and then put on the mass shell; a station that no hit has is a KeyError. A rotation makes the covariance matrix of the bunch a positive multiple of the one asked for, conserves emittance, and is about the origin given. Plots are made besides. Lengths in G4Beamline files are in the unit that their header names.", "quantifier": "for all control files, input files, formats and contents", "why_tests_cant": "The result depends on the product of formats, stations, particle codes, translations and matrices, and the program has no tests at all.", "anchors": ["xboa/examples/File_Convert.py: file_convert, read_control, read_input, write_output, rotate, translate, mass_shell_condition, plots", "xboa/bunch/_bunch.py: new_from_read_builtin, new_dict_from_read_builtin, translate, transform_to, hit_write_builtin"]}
{"id": "C105", "title": "Moving a bunch keeps its hits on the mass shell", "statement": "Bunch.translate, abelian_transformation and transform_to with a mass shell variable move every hit as they do without one and then change that variable alone, such that E^2 = p^2 + m^2 (for 'p': px, py and pz by one factor); the covariances that transform_to was asked for are reached as without it.  A hit that cannot be put on the mass shell is reported without losing data.  A translation given to transform_to is applied to all its variables.", "quantifier": "all bunches without repeated hits, lists of coordinate variables, matrices, translations and targets; mass shell variables px, py, pz, energy and p", "why_tests_cant": "The order of map and condition matters only for hits whose values are used by later hits, and the condition fails only for hits of low energy inside an otherwise good bunch; a test of a few bunches sees neither, and cannot show that covariances are untouched for all of them.", "anchors": ["xboa/bunch/_bunch.py:489-560", "xboa/hit/_hit.py:251-288", "xboa/hit/_hit.py:290-340"]}
{"id": "C106", "title": "Peaks refined with the derivative are where the peaks are", "statement": "find_peak_errors_derivative gives one pair for each peak, in the order of the peaks: the position at which a straight line, fitted to the positions near that peak over the increase of the data there, reaches increase 0, and its error.  For data on a parabola this is the vertex.  It does not depend on other peaks, nor on the unit or the zero of the data.  Peaks of find_peaks never raise.", "quantifier": "all data, numbers of points and lists of peaks; every least squares fit", "why_tests_cant": "Only a comparison with the exact vertex shows that a position is off by half a bin, and independence of scale and offset quantifies over all data.", "anchors": ["xboa/algorithms/peak_finder/_uphill_downhill_peak_finder.py:37-82"]}
{"id": "C107", "title": "A hit generator gives the hits of its source", "statement": "hit_generator of a hit factory gives, one after the other, the hits that the factory makes from its source, skips what is not a hit, and ends with the source.  Hit.new_list_from_maus_root and new_list_from_maus_json list the hits of a file.", "quantifier": "all factories and states of their source; for text files all formats and lists of lines, good and bad", "why_tests_cant": "How many hits are seen depends on the source in any order of good and bad lines; a test that reads the first hit cannot tell one hit from all.", "anchors": ["xboa/hit/factory/_hit_factory_base.py:35-47", "xboa/hit/_hit.py:192-221"]}
{"id": "C108", "title": "The ellipse function is the beam ellipse of the first two variables", "statement": "make_root_ellipse_function gives (x-mean)^T V^-1 (x-mean) for the covariances V of the first two variables: the contour of level r^2 is the image of the circle of radius r under every A with A A^T = V.  Contours are drawn at the levels given, and the axes have the limits given, where given.", "quantifier": "all symmetric regular matrices of two or more variables, means, contours, limits and points", "why_tests_cant": "Section and projection of an ellipse agree for matrices without correlations to the other variables, which is what a test would use.", "anchors": ["xboa/common/_common.py:1039-1078"]}
{"id": "C109", "title": "The extension modules give memory back and never free what is in use", "statement": "Through any history of calls of Bunchcore, Hitcore and WeightContext and of a Python program that makes, shares, stores and gives up references to results, no Python object is freed while a reference to it is owned, and an object is freed when the last reference to it is given up: a program that owns nothing any more has nothing in memory.", "quantifier": "every finite history of calls (any axes, means, powers and results, accepted or refused) and of operations of the program", "why_tests_cant": "A reference too many changes no value that a test could compare; it shows as memory that grows with the number of calls.  A reference too few shows only after particular interleavings of giving up references.", "anchors": ["xboa/core/pylib/PyBunchcore.cc:80-443", "xboa/core/pylib/PyHitcore.cc:45-179", "xboa/core/pylib/PyWeightContext.cc:195-268", "xboa/core/utils/TypeConversions-inl.hh:40-222", "xboa/core/utils/PythonComparator.hh:60-71"]}
{"id": "C110", "title": "Statistics depend only on the relative weight at each point of phase space", "statement": "If one bunch carries, at every point of the space of the variables used, the weight of another times one constant (hits in another order, all weights multiplied, hits repeated, hits of weight zero added, one hit split in two), then bunch_weight is multiplied by the constant and mean, moment, covariance_matrix, get_emittance, get_beta, get_gamma, get_alpha and get_amplitude give the same.  The mean and covariance matrix of the hits of two bunches together are the weighted means of those of the parts, plus for the covariance the spread of the two means.", "quantifier": "all bunches, hits, weights (also negative), constants, variables and axes", "why_tests_cant": "A metamorphic relation between two runs over all pairs of bunches; a test compares a few numbers from one bunch and would not see a dependence on the order, the first hit or the scale of the weights.", "anchors": ["xboa/bunch/_bunch.py:671-757", "xboa/bunch/_bunch.py:792-797", "xboa/bunch/_bunch.py:885-971", "xboa/bunch/_bunch.py:1079-1115", "xboa/bunch/_bunch.py:1167-1202", "xboa/core/cpplib/Bunchcore.cc"]}
{"id": "C111", "title": "Processes started with common.subprocess are all stopped", "statement": "After any history of calls of common.subprocess, of children that end and of a program that starts, waits for and closes processes, kill_all_subprocesses and the function called at exit stop every process that common.subprocess started and no other; setting kill_subprocesses_at_exit to False leaves them alone at exit; and without multiprocessing but with ROOT the call raises ImportError as documented.", "quantifier": "every finite history of calls, with every outcome of multiprocessing and fork, and every interleaving of ends, waits and closes", "why_tests_cant": "The test of the project starts two processes and stops them.  What is left running depends on earlier failures and on the order of events, and shows only after the program has ended.", "anchors": ["xboa/common/_common.py:63", "xboa/common/_common.py:765-802", "xboa/common/_common.py:822-825", "xboa/common/config.py:64-80", "xboa/common/__init__.py:25"]}
{"id": "C112", "title": "Every plot has a figure of its own unless a figure is named", "statement": "A matplotlib plot made without fig_index is put on a new figure: its number was not in use, the figure holds what this call draws and nothing else, and all other figures stay as they are. With fig_index the drawing is added to that figure and to no other. The number of the figure is returned; a plot that raises draws nothing. make_scatter shows the points and labels it is given.", "quantifier": "every finite program of plots of xboa with all arguments, with figures made, drawn on and closed by pyplot in between", "why_tests_cant": "Whether two plots share a figure depends on the whole history of the program, in which numbers are given out by a global counter and chosen by the caller; the tests of the project draw single plots.", "anchors": ["xboa/common/matplotlib_wrapper.py:29-77", "xboa/common/matplotlib_wrapper.py:79-122", "xboa/common/matplotlib_wrapper.py:124-167", "xboa/common/matplotlib_wrapper.py:169-196", "xboa/common/matplotlib_wrapper.py:253-261", "xboa/common/_common.py:536", "xboa/common/_common.py:625", "xboa/common/_common.py:717"]}
{"id": "C113", "title": "Emittance and amplitudes are invariants of transport; optics functions follow the transfer matrix", "statement": "Moving a bunch with abelian_transformation on the phase space variables of any of the axes x, y, z and t (momentum convention), with a matrix of determinant 1 or -1 and any translation and origin, leaves get_emittance of these axes and get_amplitude of every hit as they were, also after any number of such maps; a matrix of determinant d multiplies the 2n-th power of the emittance by d^2 and leaves amplitude over emittance unchanged. In one plane get_beta, get_alpha and get_gamma change by the usual rule for the elements of the matrix, with the mean momenta before and after.", "quantifier": "all bunches without repeated hits and with a non-singular covariance matrix, all weights of non-negligible sum, all matrices, translations and origins, all sequences of maps", "why_tests_cant": "An identity over all bunches and matrices, and over sequences of any length; tests compare single numbers for single bunches.", "anchors": ["xboa/bunch/_bunch.py:503-525", "xboa/bunch/_bunch.py: get_emittance, get_amplitude, get_beta, get_alpha, get_gamma", "xboa/hit/_hit.py:262-295"]}
{"id": "C114", "title": "Cuts can be made in any order", "statement": "After any sequence of bunch.cut and bunch.transmission_cut calls, local and global, on one or several bunches, a hit has weight 0 if at least one of the calls rejects it (local: the hit is in the bunch and meets the comparator, or has no partner in the test bunch; global: some hit of the bunch on the same track does) and the weight it had before the first call otherwise. So the order of the calls and repeated calls do not matter for any weight or bunch_weight, and no variable but the weights changes.", "quantifier": "all worlds, all finite sequences of cuts on any number of bunches sharing hits or tracks, all comparators and variables other than the weights", "why_tests_cant": "all interleavings of local and global cuts over bunches that share tracks through one weight context; tests make one or two cuts on one bunch", "anchors": ["xboa/bunch/_bunch.py: cut, _cut, transmission_cut", "xboa/core/cpplib/Bunchcore.cc: cut_double"]}
{"id": "C115", "title": "The closed orbit finder converges on a linear lattice", "statement": "When the tracking is a stable linear one-turn map with a single closed orbit c, each iteration of find_closed_orbit_generator with n points yields a centre whose distance from c is at most 2 g r / n times that of the hit it started from (r bounds the growth of distances over any number of turns, g bounds a distance by its change in one turn), with or without use_seed and however many turns one call of the tracking makes, provided no point is cut by eps_max. So with n > 2 g r any precision is reached. In two variables no point is cut when eps_max exceeds the number of points times (r R)^2, R being the distance of the seed from c.", "quantifier": "all stable linear maps in any number of variables, all seeds, numbers of points and iterations", "why_tests_cant": "a limit over all iterations, for every lattice; tests follow one lattice for a few iterations", "anchors": ["xboa/algorithms/closed_orbit/_ellipse_closed_orbit_finder.py: find_closed_orbit_generator, _get_points, calculate_ellipse", "xboa/common/_common.py: fit_ellipse"]}
{"id": "C116", "title": "A bunch matched to an ellipse has the optics functions the ellipse was built for", "statement": "If the covariance matrix of a bunch is that of build_ellipse_2d(beta, alpha, emittance, p, mass, geometric) or build_penn_ellipse(emittance, mass, beta, alpha, p, Ltwiddle, bz, q), then get_emittance, get_beta, get_alpha and get_gamma return what the ellipse was built for (mass being that of the first hit and p the mean momentum), and the canonical angular momentum is 2 emittance mass Ltwiddle. bunch.transform_to with such an ellipse conserves the emittance of the bunch and gives it alpha and, up to the ratio of mean momentum and p, beta and gamma of the ellipse.", "quantifier": "all bunches with any number of hits and weights, all conjugate pairs of variables (one plane) and x, y (two planes), all beta, emittance, mass > 0, all alpha, p, fields and angular momenta, momentum and geometric variables, any translation in transform_to", "why_tests_cant": "the builders and the optics functions are tested separately with a few numbers; that they are inverse to each other for every bunch needs the algebra of covariance matrices and determinants in 2 and 4 dimensions", "anchors": ["xboa/bunch/_bunch.py:1411-1444", "xboa/bunch/_bunch.py:1470-1505", "xboa/bunch/_bunch.py:885-971", "xboa/bunch/_bunch.py:1079-1146"]}
{"id": "C117", "title": "Amplitude cuts and linear transport can be made in either order", "statement": "bunch.cut on an amplitude ('amplitude x y', local or global, limit plain or in standard deviations) followed by any number of abelian_transformations whose matrices have determinant 1 or -1 leaves the same hits, the same weight of every hit and the same weight of every track as the transformations followed by the cut; the same is true for cuts on a stored variable that the transformations do not change, whatever the determinants.", "quantifier": "all bunches with any number of hits and weights, all sets of phase space planes, all lattices of any length, all translations and origins, all comparators and limits", "why_tests_cant": "needs the equality of the whole state after two different sequences of calls for every lattice, by induction on its length and invariance of the amplitude of every hit", "anchors": ["xboa/bunch/_bunch.py:814-844", "xboa/bunch/_bunch.py:503-517", "xboa/bunch/_bunch.py:1167-1190"]}
{"id": "C118", "title": "The tune found for a linear lattice is right to one part in the number of turns", "statement": "For N points, three or more, of a particle in a stable linear lattice, turn by turn, whose phase advance mu is not a whole number of half turns, DPhiTuneFinder.get_tune on a new object returns a number that differs from the tune of the lattice (mu/(2 pi) modulo 1) by less than 1/(N-1), independent of the Courant-Snyder parameters, the closed orbit and the initial displacement, as long as N times the amplitude is below 2e9. So of two lattices whose tunes differ by 2/(N-1) or more, the one with the greater tune gets the greater number.", "quantifier": "for all phase advances that are not multiples of pi, numbers of points, Courant-Snyder parameters, closed orbits and displacements with N times the amplitude below 2e9", "why_tests_cant": "A test compares a few lattices with a tolerance that was found by trial; that no phase advance, however close to 0, 1/2 or 1, makes the folded differences miscount a turn, and that the centre of the ellipse fitted to a part of a period never falls outside it, is a statement about all of them.", "anchors": ["xboa/algorithms/tune/_dphi_tune.py:24-40", "xboa/algorithms/tune/_dphi_tune.py:67-87", "xboa/common/_common.py: fit_ellipse"]}
{"id": "C119", "title": "Random seeds when MAUS tracks in several processes", "statement": "When MultiTrack tracks with jobs made of a MAUSTracking, every particle is sent to MAUS with a random seed of its own, as it is when the MAUSTracking is used directly.", "quantifier": "for all lists of hits, numbers of processes, states of the MAUSTracking and answers of MAUS", "why_tests_cant": "Repeated seeds are not visible in any single result: every process returns well-formed hits, only the random numbers behind them are the same. Whether seeds can repeat is a statement about all splittings of the hits and about what the copies of the tracking object hold.", "anchors": ["xboa/tracking/_multitrack.py:65-84", "xboa/tracking/_maus_tracking.py:155-189", "xboa/tracking/tracking_process/_tracking_process.py:65-75"]}
{"id": "C120", "title": "Saving as a G4Beamline track file and reading back can be repeated", "statement": "A bunch that is saved with Bunch.hit_write_builtin('g4beamline_bl_track_file', file, comment) and read back with Bunch.new_from_read_builtin, any number of times in one program and with any comments, keeps the positions and all other variables of the format.", "quantifier": "for all bunches, numbers of rounds and comments", "why_tests_cant": "The unit of length of these files is a hidden global that reading sets from the text of the comment line; a round trip in a test looks right, the fault appears only in later rounds and only for some comments.", "anchors": ["xboa/bunch/_bunch.py:465-487", "xboa/bunch/_bunch.py:1363-1373", "xboa/hit/_hit.py:684-696", "xboa/hit/factory/_builtin_hit_factory.py:83-91"]}
{"id": "C121", "title": "The decoupled emittance is the emittance without the coupling", "statement": "get_decoupled_emittance(coupled_axis_list, emittance_axis_list, covariance_matrix) is the emittance of the axes in emittance_axis_list with any coupling between them and the axes in coupled_axis_list removed: it is get_emittance of these axes if there are no other coupled axes or no coupling, it does not change when a linear element couples the axes, and it can be given the covariance matrix to use.", "quantifier": "for all bunches with a regular covariance matrix, axes, linear elements and orders in which the eigenvalues are found", "why_tests_cant": "The order of the eigenvalues is a choice of the linear algebra library that a test cannot vary, and with all axes in both lists the result is always right.", "anchors": ["xboa/bunch/_bunch.py:1014-1077"]}
{"id": "C122", "title": "A tracking job in a batch queue is not lost", "statement": "A BSubProcess follows the job it submitted: after any sequence of start, is_alive, terminate and kill it holds the number of the job it submitted last, a further job is submitted only when the one before has come to its end, kill stops the job that is followed and raises RuntimeError when there is none, is_alive tells whether the job is still there and sets the exit code, and _get_substr gives the text between the first start key and the next end key and raises ValueError otherwise.", "quantifier": "for all sequences of calls, all answers of the batch system, all texts and keys", "why_tests_cant": "The tests are skipped on machines without bsub, and what the batch system answers, and when a job changes its state, is not under the control of a test.", "anchors": ["xboa/tracking/tracking_process/_bsub_process.py:37-118", "xboa/tracking/tracking_process/_tracking_process.py:41-54"]}
{"id": "C123", "title": "The emittance of several axes is bounded by those of its parts", "statement": "For a bunch without negative weights, get_emittance of two lists of axes put together is at most the geometric mean of get_emittance of the two lists (each counted with its number of axes), and equal to it exactly if no variable of the one list is correlated with a variable of the other; all three are positive. In the same way get_emittance of n axes to the power n is at most the product of get_emittance of each axis alone, and equal to it exactly if no two axes are correlated.", "quantifier": "for all bunches with nonnegative weights, all lists of axes for which the covariance matrix of both together has a nonzero determinant, without an internal covariance matrix set, with normalised or geometric variables", "why_tests_cant": "It relates three calls through the determinants of covariance matrices of every size; tests compare the emittance with a few numbers for given covariances.", "anchors": ["xboa/bunch/_bunch.py:1079-1116", "xboa/bunch/_bunch.py:726-756"]}
{"id": "C124", "title": "Joining two bunches does not lower the emittance", "statement": "get_emittance of a bunch made of the hits of two bunches is at least the geometric mean of get_emittance of the two, weighted with their bunch weights, and so at least the smaller of the two; it is greater than this mean if the two bunches have different means in any of the positions and momenta.", "quantifier": "for all pairs of bunches with nonnegative weights, positive emittances and the same mass, and all lists of axes, without an internal covariance matrix set", "why_tests_cant": "It is an inequality between determinants of covariance matrices of any size over all pairs of distributions; tests compare the emittance with a few numbers.", "anchors": ["xboa/bunch/_bunch.py:1079-1116", "xboa/bunch/_bunch.py:726-756"]}
