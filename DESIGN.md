# Formal model of xboa: design

Source: `/repo` (chrisrogers1234/xboa at the pinned commit), read as text, not run.
Model and proofs: Lean 4.33.0 and single Mathlib modules, under `lean/Verif/`.

* `Model/` holds the model, one file for each part of the code.
* `Lemmas/` holds facts about the model that several proofs use.
* `Props/` holds the specifications, the property theorems `Cnn_*` and, beside them, examples that meet their hypotheses.
* `Axioms.lean` prints the axioms of every property theorem.
* `seeded/LOG.jsonl` lists mistakes put into the model in a scratch copy, and the theorems that failed.

## 1. Method

* Each C++ or Python function in scope becomes a total Lean function that mirrors it branch by branch.  The comment of a definition cites file and lines and says what is simplified.
* Stateful code is a state transformer.  An exception is a value that comes with the state reached so far, because xboa often changes state before it raises.
* Loops become recursion over lists.  A loop without an evident bound takes a bound on its passes, with a theorem that the bound is not reached, or that the code does not end.
* C++ `std::map` is an association list in key order; a Python dict is an association list in insertion order.
* Objects are numbers into a heap (hits, weight contexts), so that sharing is visible: two hits of one track share their global weight.
* Calls into other packages (numpy.linalg, scipy, ROOT, MAUS, the file system) are parameters.  What is assumed of them is a named law, listed in section 2, and an instance shows that the law can be met.
* A claim is stated by a small separate specification: a function, a sum, a filter, a matrix identity, a Mathlib notion.
* When a claim is false of the code its negation is proved on a witness (`..._false`) and the strongest true part is proved (`..._partial`).  Where it is short, the exact law is given too.
* Where Python 2 and Python 3 differ (`/`, `zip`, `xrange`, `dict.iteritems`), the version is a parameter `PyVer` and both are covered.  setup.py asks for Python > 3.0, so a claim that holds in Python 2 only counts as false.

## 2. Trusted base

* Lean's kernel and the axioms `propext`, `Classical.choice`, `Quot.sound`.  `lean/Verif/Axioms.lean` prints them for every theorem of the manifest; many theorems use fewer.  No axiom is added; there is no `sorry`, `admit`, `native_decide`, `bv_decide`, `implemented_by` or `unsafe`.
* The reading of the source: that each definition says what the lines it cites do.

### Numbers

* C++ `double` and Python `float` are elements of an arbitrary linearly ordered field `K`, or real or complex numbers where analysis is needed.  Rounding, overflow and nan are left out; where the code relies on nan this is said at the definition (`.error .Unmodelled`, or `none` in Decoupled).
* C++ `int` fields wrap to 32 bits where the code narrows (`Hitcore.set`), and are unbounded elsewhere.
* `WeightContext` uses only the operation symbols, so its theorems also hold of IEEE doubles.

### Laws assumed of external functions

* `Ext.Lawful`: the square root is not negative and squares to its argument; the speed of light is positive.  atan2 lies in (-pi, pi] where C51 and C66 need it.  Instance: `realExt`.
* `LinAlg.Lawful`: numpy.linalg.inv succeeds for a non zero determinant and what it returns is an inverse; the n-th root of a number that is not negative.  `LinAlg.InvLaw`: the part about the inverse.  Instances: `ratLin`, `realLin`.
* `EighLawful`: numpy.linalg.eigh gives an orthogonal basis of eigenvectors of a symmetric matrix (built from the spectral theorem).  `EigLaw`: numpy.linalg.eig gives eigenvectors (Decoupled), with stability as hypothesis of the theorems.  `Decoupling.EigLaw`: the eigenvalues of a symmetric matrix are the zeros of its characteristic polynomial, in any order (instance `realEig`).
* Cholesky decomposition (tune): a parameter, any matrix.
* `RfftLaw`: numpy.fft.rfft is the discrete Fourier transform; without the hanning filter.
* `Text.Lawful`: printing then reading a number or a whole number gives it back, and words hold no white space.
* json.dumps followed by json.loads gives the same document.
* `Gauss`: exp and pi; positive pi, and the real functions for C85_density.
* `LeastSquares`: ROOT's fit minimises the sum of squares (C86_parabola).  Instance: `realFitter`.
* scipy.spatial Voronoi and Delaunay: any tesselation (C84, C85).  multiprocessing.Pool.map is map.
* MAUS: any simulation, also one that raises (C52); answers hold the keys that the code asks for.
* Tracking in the closed orbit finder: deterministic and leaves its argument alone.
* `eval` of the axes in 'amplitude:...': any function from strings to lists of names (C102).
* File_Convert: its imports succeed, `float` and `int` of words are any partial functions, white space is blanks, tabs and ends of lines; tuples have no Print (C104_plots_false).
* Children of tracking processes: any exit codes at any polls, `Env.Stable` says that an exited child stays so; pickle through text files raises (`Pickle.Python3`), through binary ones gives back what was written (`Faithful`) (C103).
* Python's recursion limit in the FFT tune finder is a fuel parameter.

### Python and numpy semantics used

* dict insertion order, stable `sorted`, `bisect`, slices with negative ends, `round`-free `int()`.
* `raise StopIteration` in a generator is a RuntimeError for the caller (PEP 479, Python >= 3.7).
* `/` is true division, `range(float)` and slices with a float raise TypeError.
* `PyLong_AsLong` refuses floats (Python >= 3.10).
* numpy compares arrays with None element by element; the truth of an array with several elements raises ValueError.
* numpy.histogram and histogram2d put a value into the bin whose lower edge it reaches and whose upper edge it does not reach, the last bin being closed; equal bins have exact edges; edges that decrease or weights of another length raise ValueError.
* numpy.array of a zip object has no length in Python 3; `numpy.math` is present.
* ROOT histograms: an entry x is in a bin if lo <= x < hi, else in the under- or overflow (`InBins`, C98_largest_false); constructors raise TypeError for None.
* matplotlib.pyplot.figure raises TypeError for anything but a number or name (C100_matplot_false); plot and scatter raise ValueError for lists of different length. Figures are kept in an ordered dictionary whose last entry is the current figure; pyplot.figure(n) makes figure n or moves it to the end, pyplot.close(n) takes it out, a drawing command without figures makes figure 1 (C112).
* The C++ extension modules are loaded so that each has its own copy of static variables (RTLD_LOCAL), see Model/Bunchcore.lean.

### Left out everywhere

* Drawing by ROOT and matplotlib (what is handed to them is modelled for the functions of C93-C95 and C98-C101) and messages.
* Bunch variables with 'amplitude' in the name, as input of moments and cuts, outside C102.
* Comparators and test functions with side effects.
* The operating system, except for what a property speaks of: results of workers in any order (C36, C49), files that fail at any write (C39).
* In MultiTrack the job methods succeed; a comment in a file header is a single line; data lines do not start with '#'; negative powers in MultipoleWeighting; sizes of matrices that differ from those of the means.
* numpy's broadcasting of arrays of other shapes, where the definition says Unmodelled.

## 3. What is modelled

| code | model | left out |
|------|-------|----------|
| core/cpplib/WeightContext, pylib/PyWeightContext | WeightContext | keyword names of set_weight |
| core/cpplib/Hitcore, pylib/PyHitcore | Hitcore, Hit | |
| core/utils/SmartPointer | SmartPointer | NULL contexts, 2^64 references |
| reference counts in core/pylib, utils/TypeConversions, utils/PythonComparator | RefCount | cycle collector, integers up to 256, comparators that return something else than a bool |
| common/_common.py: subprocess, kill_all_subprocesses, __atexit; common/config.py: has_multiprocessing, has_root | Subprocess | exit codes, time, pids used again; the library's Process is three states of an object (started, never started, closed) |
| common/matplotlib_wrapper.py: get_figure_index, make_histogram, make_graph, make_multigraph, make_scatter; common/_common.py: make_matplot_histogram, make_matplot_graph, make_matplot_scatter (their figures) | Figures | drawing; figures named by strings or figure objects; two dimensional histograms; keywords other than 's' |
| core/cpplib/Bunchcore, pylib/PyBunchcore, utils/TypeConversions | Bunchcore, IndexByPower | |
| hit/_hit.py | Hit, HitCheck, HitTransform, TextIO, MausTree | pickling is the same assignments as copying; ROOT output |
| hit/factory | TextIO, MausTree, MausRoot, Generator | |
| bunch/_bunch.py | Amplitude, Bunch, BunchCopy, BunchList, BunchMore, BunchRead, BunchWrite, DecoupledEmittance, HitShell, Optics, Plots, Reload | two-dimensional matplot_histogram, documentation functions |
| bunch/weighting | BoundingEllipse, Multipole, HullContent, Voronoi | plots |
| common/_common.py | Common, Grid, FitEllipse, EllipseFunction, Newton, Process, Substitute, Plots | canvases, legends, contour plots, names and colours of ROOT objects, subprocess |
| algorithms/peak_finder | PeakFinder, RefinePeak, PeakErrors | |
| algorithms/smoothing | Smoothing | fit and hanning smoothing |
| algorithms/tune | Tune, FFTTune, RunTracking | plots |
| algorithms/closed_orbit | Scan, ClosedOrbit | plots, json_repr |
| algorithms/decoupled_transfer_matrix.py | Decoupled | print_tests |
| common/matplotlib_wrapper.py | Hist | two-dimensional make_histogram (one numpy call), make_multigraph, drawing |
| examples/File_Convert.py | FileConvert | MAUS formats, messages, command line |
| tracking | Tracking, MausTracking, MultiMaus, NodeProcess, BatchQueue | timeouts; what bsub, bjobs and bkill do (what they print is a parameter) |

Not modelled at all: common/config.py, examples other than File_Convert.

## 4. Properties

| id | title | status | theorems in Props/ | proof |
|----|-------|--------|--------------------|-------|
| C01 | Weight context is a last-write-wins store with a default | proved | WeightContext | induction over history; refinement to a function `HitId -> K` |
| C02 | Weight context arithmetic is pointwise | proved | WeightContext | refinement: denotation of the result = pointwise operation; error branch for number-left |
| C03 | Context operators never disturb their operands | proved | WeightContext | step function; frame theorem by cases on the operation, induction over history |
| C04 | Inverting a cut context | partial | WeightContext | pointwise; `~~c` shown to be all zero => negation of the involution claim |
| C05 | A hit's global weight is the current context's weight for its (spill, event, particle) | partial | HitStorage | false: witness with event != particle; partial: equal event and particle; exact swapped law |
| C06 | Global weight is shared by track and only by track | proved | HitStorage | invariant by definition of lookup; frame theorem |
| C07 | Clearing global weights resets every hit to 1 | partial | HitStorage | false when default weight is not 1; partial when it is |
| C08 | Hit set/get round trip and frame | partial | HitStorage | case analysis over the tables, for all values and states |
| C09 | A rejected assignment leaves the hit unchanged | partial | HitCopy | false: non numeric value stores -1, `t'` raises after mutation; partial for unknown names, x', y' |
| C10 | dict_from_hit / new_from_dict round trip | proved | HitCopy | fold lemma, all states |
| C100 | A scatter plot shows the hits asked for | partial | Plots | induction over the hits; C31 and C34 |
| C101 | Several graphs on one set of axes | partial | Plots | induction over the lists of lists; C31 and C34 |
| C102 | Amplitudes as variables of hits: values, cuts and means | partial | Amplitude, Refused | C58 for the values of each hit; then C23 and C26 for the cuts; a real witness of eight hits |
| C103 | Tracking in a child process returns what the tracking gives | partial | NodeProcess | invariants of all histories of calls and children: where the contents of the files come from, which children have exited |
| C104 | File conversion: the output file holds the hits of the input file, worked on as the control file says | partial | FileConvert | composition of the reading (C89), translation (C16), mass shell (C12), transform_to (C62) and writing (C96) theorems along the steps of the program; induction over the lines of the control file; splitting by induction over the characters |
| C105 | Moving a bunch keeps its hits on the mass shell | partial | BunchShell | exact effect of a loop over distinct hits that leaves the weight contexts alone; C16, C59, C62 for the move and C12 for the condition; covariances from the values of the hits (C21) |
| C106 | Peaks refined with the derivative are where the peaks are | partial | PeakErrors | the points are the graph of the specification; two best lines agree unless all abscissas are equal; on a parabola the points lie on a line |
| C107 | A hit generator gives the hits of its source | partial | Generator | cases of the generator; induction over the lines with C41 for one line |
| C108 | The ellipse function is the beam ellipse of the first two variables | partial | EllipseFunction, Refused | the inverse as matrix with N V = 1; the quadratic form by the solution of V s = x |
| C109 | The extension modules give memory back and never free what is in use | partial | RefCount | accounts: count = references owned + references in a list of lost ones, kept by every operation; conversions by induction over the vectors; items are younger than their list |
| C11 | Copying a hit does not disturb other hits | partial | HitCopy | false: id (0,0,0) receives the copied global weight; partial: all other ids unaffected |
| C110 | Statistics depend only on the relative weight at each point of phase space | partial | BunchRelative | sums over hits are sums over points of the weight at the point; congruence of mean, moment and covariance loops; parallel axis identity for the merged bunch |
| C111 | Processes started with common.subprocess are all stopped | partial | Subprocess | invariant: running processes of ours are listed; calm histories keep all objects started and no forked pid reaped; effect of the two loops pointwise |
| C112 | Every plot has a figure of its own unless a figure is named | partial | Figures, Refused | lookup in the dictionary of figures after figure, draw and close; invariant: all figures have numbers at most the counter; the counter grows with every number given out |
| C113 | Emittance and amplitudes are invariants of transport; optics functions follow the transfer matrix | proved | Invariants | covariances become R V R^T (C59); determinant of a product; the quadratic form of the inverse is the same for R u and R V R^T; induction over the maps |
| C114 | Cuts can be made in any order | proved | CutSequences | One call is a LocalCut or a GlobalCut (C23, C26), both instances of `Weighted` (zero on a set, everything but weights unchanged); `Weighted` composes, and leaves the set of hits a later call rejects unchanged; induction over the list. |
| C115 | The closed orbit finder converges on a linear lattice | proved | ClosedOrbitConverges | Telescoping: (M - 1) times the sum of the distances is M^(N+k) - M^k times the first distance; bound both terms by r, divide by N; induct over `Iterates` (C80). For the plane, chi^2 <= N by Cauchy-Schwarz on v = C^-1 (p - m) and det C <= C00 C11. |
| C116 | A bunch matched to an ellipse has the optics functions the ellipse was built for | partial | Matching | The covariance matrix gives V.det = c^n det(target) (Matrix.det_smul), the root of a power is unique, and beta, alpha, gamma are ratios of entries; transform_to by C62 (covariances c times the target, determinant conserved) and C59 (masses kept); Penn ellipses are positive definite by completing two squares. |
| C117 | Amplitude cuts and linear transport can be made in either order | proved | CutTransport | C113_lattice gives equal amplitudes and emittance before and after, so the cut loop runs over the same values; worlds that differ in local weights only still do after an element (C59 for every stored variable), by induction on the lattice; a local cut then leaves equal worlds, a global cut equal hits and equal track weights. |
| C118 | The tune found for a linear lattice is right to one part in the number of turns | proved | TuneBound | the points are the image of a circle under an affine map; the covariance matrix has positive determinant because three of them are not on a line, and the mean is inside the circle because the variance is positive; the angle seen from a point inside has a continuous version F with F(x + 2 pi) = F(x) + 2 pi and |F(x) - x - const| < pi; a ray meets the circle once, so by the intermediate value theorem part of a turn is seen as part of a turn, every folded difference is the growth of F, and the sum telescopes. |
| C119 | Random seeds when MAUS tracks in several processes | partial | MultiMaus | the copies are computed to have the seed and spill of the original and an empty list of requests; with call_sent of C52 and the splitting of C49 the seeds of each chunk follow, and the first of two non-empty chunks is the repetition. |
| C12 | Mass shell condition | proved | MassShell | `Real.sqrt` algebra |
| C120 | Saving as a G4Beamline track file and reading back can be repeated | partial | Reload | the words written for a hit in another unit are those written in mm for the hit with positions divided by the unit, so the round trip of C38 gives the hit read back exactly; the unit after reading is computed from the header (the phrase cannot overlap the word in front of the comment); rounds compose. |
| C121 | The decoupled emittance is the emittance without the coupling | partial | DecoupledEmittance | the determinant is the product of the eigenvalues, which are fixed by the characteristic polynomial up to their order, and does not depend on the order of the variables; for the witness the characteristic polynomial is (t^2-6t+4)(t^2-9t+4), of which no two zeros have the product 1. |
| C122 | A tracking job in a batch queue is not lost | partial | BatchQueue | the first occurrence found by the search is characterised by induction over the text; the state between calls keeps an invariant (the job followed is the last submitted, every earlier job was found not pending, running or waiting) by induction over the calls; the witnesses are a batch system with a suspended job and the Python 3 types. |
| C123 | The emittance of several axes is bounded by those of its parts | proved | PlaneEmittance | Fischer's inequality for a positive definite matrix in blocks (Schur complement; the determinant does not decrease when a positive semidefinite matrix, a sum of c c^T, is added, by induction over the sum), applied to the covariance matrix, which is positive semidefinite for nonnegative weights; then the roots are compared and the mass cancelled. |
| C124 | Joining two bunches does not lower the emittance | proved | JoinedEmittance | the covariance matrix of the joined bunch is the weighted mean of the two matrices plus a multiple of the product of the differences of the means; the determinant of a mean of positive definite matrices is at least the geometric mean of the determinants (one matrix is brought to the unit matrix, the other diagonalised, and the inequality of the means used for each eigenvalue). |
| C13 | Impossible mass shell is reported as False, not raised | partial | MassShell | false for 'p' with energy<mass; partial for px, py, pz, energy |
| C14 | Derived variable set/get round trips | partial | MassShell | field algebra |
| C15 | Hit equality is a tolerance relation | proved | HitCopy | refl/symm; separation |
| C16 | Translation and abelian transformation | partial | HitTransform | matrix algebra over `Fin n` / lists |
| C17 | Reference counted pointers free each object exactly once and never while in use | proved | SmartPointer | inductive invariant counts = live handles |
| C18 | index_by_power enumerates every multi-index exactly once | proved | IndexByPower | membership characterisation + nodup by induction on remaining axes |
| C19 | Moments are the weighted central moments | proved | BunchMoments | fold = finite sum; permutation invariance |
| C20 | moment() with missing means uses the bunch mean | partial | BunchMoments | false witness; partial for complete dictionaries and empty dictionary |
| C21 | Covariance matrix is symmetric and positive semidefinite | proved | BunchCov | finite-sum algebra |
| C22 | moment_tensor agrees with index_by_power and raw moments | proved | BunchCov | powers table = power function; fold = sum |
| C23 | Cut removes exactly the hits meeting the comparator | proved | BunchCut | induction over the list |
| C24 | Bunch list and fast core stay in step | partial | BunchList | false: witnesses (del, negative index); partial: invariant for histories of append/set(i>=0)/conditional_remove |
| C25 | Python negative indices count from the end | partial | BunchList | false; exact law proved |
| C26 | transmission_cut keeps exactly tracks present in the test bunch | partial | BunchTransmission | bisect specification, induction over the hits; false for values just below; exact law for integer variables |
| C27 | conditional_remove keeps exactly the hits not matching | proved | BunchList | equals filter |
| C28 | Splitting a bunch loses and duplicates nothing | partial | BunchSplit | partition by int(value); false for other values |
| C29 | period_transformation folds time into one period | proved | BunchPeriod | floor algebra |
| C30 | Ellipse construction has the requested emittance | partial | Optics | `ring`/`field_simp` |
| C31 | multisort sorts rows together | proved | Common | permutation + sortedness from a stable insertion sort model |
| C32 | Histogram conserves weight | proved | Common | induction, sums |
| C33 | Automatic bin edges cover all the data | partial | MinMax | false: maximum lands outside; partial: all other points inside |
| C34 | min_max bounds and purity | partial | MinMax | bounds; false for mismatched weights (mutation) |
| C35 | make_grid and make_shell counts and geometry | partial | Grid, Refused | counting / nodup induction |
| C36 | process_list results do not depend on the schedule | proved | Process | any permutation sorts to the same list |
| C37 | PID translation tables | proved | MinMax | for all pid by lookup characterisation |
| C38 | Write/read round trip of built-in text formats | partial | TextFile, TextIO | word by word round trip for each format, then induction over the lines of a file; number printing is an abstract invertible function |
| C39 | Writing does not modify the hit | partial | TextIO | false if the file fails; success path restores pid |
| C40 | Writing a list groups by station and drops nothing | proved | TextFile | output = stable sort filtered by writability |
| C41 | Line reader consumes files line by line | partial | TextFile, TextUser | filter/take specification |
| C42 | MAUS tree keeps every hit | proved | MausTree | flatten is permutation |
| C43 | Uphill/downhill peak finder returns the strict local maxima | proved | PeakFinder | membership characterisation |
| C44 | Window peak finder soundness | partial | PeakFinder | invariants |
| C45 | Gaussian smoothing is an averaging filter | proved | Smoothing | weighted-mean inequalities |
| C46 | Parameter scan visits the whole grid | partial | Scan | odometer invariant; false when a later variable reaches its end exactly |
| C47 | Bounding ellipse cut is a filter | proved | BoundingEllipse | equals filter with indices |
| C48 | Matrix tracking applies affine maps to the input | proved | Tracking | induction |
| C49 | Multi-process tracking preserves hit order | partial | Tracking | partition; Python 3 true division makes slicing raise (negation) |
| C50 | fit_ellipse terminates and returns the covariance of the points in its cut | proved | FitEllipse | fuel = max_iterations; invariants of the loop |
| C51 | Tune angles are folded to one turn | proved | Tune | range; false: second call accumulates |
| C52 | Random seeds and spill numbers are never reused | proved | MausTracking | induction over histories of calls |
| C53 | Reconstructed station identifiers are unique | partial | MausRoot | false witness; partial for digits 0..9 |
| C54 | Twiss parameters are consistent | partial | Optics | field algebra |
| C55 | Bunch weights add up | proved | BunchCut, BunchMoments | sums |
| C56 | Bunch equality is symmetric | partial | BunchSplit | false witness; partial |
| C57 | Unit-conversion and substitution purity | partial | Substitute | list-of-tokens model |
| C58 | Average amplitude is 2n times the emittance | proved | Optics | trace of the product of a covariance matrix and its inverse |
| C59 | Linear maps of a bunch | partial | BunchTransform | matrix algebra on the variables of each hit |
| C60 | Histograms of a bunch | partial | BunchHistogram | counting per bin through the modelled histogram |
| C61 | Internal covariance matrix | partial | BunchInternal, Refused | state machine of set_covariance_matrix; negation for the default call |
| C62 | transform_to reaches the target covariances | proved | BunchTransform | conjugation by the matrices built from an orthogonal eigenbasis |
| C63 | Tabulated charges are the charges of the particles | partial | PidCharge | the whole table against the PDG numbering rules (finite, `decide +kernel`) |
| C64 | fit_ellipse cut is the documented normalised chi-squared | partial | FitEllipse | closed form of the cut, dimension by dimension |
| C65 | CutSmoothing rejects exactly the outliers | partial | Smoothing | Python 3: negation for every input; Python 2: induction over the windows, the marks they set and the sweep that deletes them |
| C66 | The tune depends only on the data | partial | Tune | exact law of the accumulated list, witness |
| C67 | Write/read round trip of user defined text formats | partial | TextUser | as C38, for user formats |
| C68 | MAUS json files are read back | partial | MausRead, Refused2 | reader after writer for the MAUS document; negations for Python 3 and for several types |
| C69 | Primaries of MAUS ROOT files | partial | MausRoot | list induction over spills and events; witnesses |
| C70 | Virtual hits and steps of MAUS ROOT files | partial | MausRoot | list induction over spills and events; witness |
| C71 | Reconstructed tracks of MAUS ROOT files | partial | MausRoot | list induction over tracks; negation under PEP 479 |
| C72 | Standard deviations and cuts in units of them | partial | BunchSigma | sigma from the moment law; filter specification of the cut |
| C73 | Angular momentum of a bunch | partial | BunchDerived | algebra on moments |
| C74 | Dispersion | partial | BunchDerived | algebra on moments |
| C75 | Clearing weights | partial | BunchDerived | frame theorem of the weight context |
| C76 | Choosing and comparing hits | partial | BunchDerived, Refused | filter specification |
| C77 | Tables of bunch variables | proved | BunchHistogram, Refused | list induction |
| C78 | Multipole weighting reaches the moments it was asked for | partial | Multipole | linear algebra of the weight polynomial, closed form of the moments |
| C79 | The FFT tune finder returns the frequency of the strongest peak | partial | FFTTune, FFTTuneSignal, Refused, Refused2 | invariant of the table of sampled frequencies; termination measure of the refinement |
| C80 | The closed orbit finder iterates over ellipses of tracked points and ends | partial | ClosedOrbit, Refused | invariants of the iteration; affine case in closed form |
| C81 | A closed orbit scan visits every point of its grid once | partial | ClosedOrbitScan | as C46, on top of the finder |
| C82 | The root finders take Newton steps and return a root | partial | Newton | refinement to the specified Newton step; affine case; witnesses |
| C83 | DecoupledTransferMatrix finds the periodic ellipse of a transfer matrix | partial | Decoupled | complex linear algebra of the eigenvectors in conjugate pairs |
| C84 | HullContent gives every Voronoi tile its content | partial | HullContent | Cayley-Menger determinant by block elimination; list invariants |
| C85 | VoronoiWeighting gives every hit its tile content times a Gaussian | partial | Voronoi | induction over the hits with separate weights; change of variables for the Gaussian integral |
| C86 | RefinePeakFinder returns the vertex of the parabola fitted around each peak | partial | RefinePeak | loop invariant on delta; uniqueness of the parabola through three points; derivatives over the reals |
| C87 | new_hit_shell puts one hit on every point of the ellipsoid | partial | HitShell, Refused2 | induction over the shell points; frame lemmas for assignments; C35 for the points |
| C88 | Bunch.deepcopy and new_from_hits make independent, equal copies | partial | BunchCopy | induction over the hits, with Hit.new_from_copy for one hit and the weight of track (0,0,0) followed |
| C89 | Reading a file into sorted bunches | partial | BunchRead | C41 for the hits read, C28 for the groups, sortedness and permutation of insertion sort for the order |
| C90 | The tune found for a linear lattice is its tune | partial | TuneExact | sums of cosines over whole turns give the fitted ellipse; in the frame of its Cholesky factor the points turn by the phase advance; arguments of complex numbers modulo a turn |
| C91 | run_tracking records the orbit of the displaced reference particle | partial | RunTracking | frame lemmas for the copied and displaced hit, induction over the hits returned; C48 and the lemmas of C90 for the ring |
| C92 | Hit.check accepts exactly the hits on the mass shell with the right mass | partial | HitCheck | the model evaluated branch by branch; distance of a number from its rounding; witnesses around integers and half-integers |
| C93 | The ratio histogram holds the ratio of each bin | proved | Hist | the flattened tables as nested lists, zipped blockwise; the centre of a bin lies in that bin only, so each sum has one term |
| C94 | A one-dimensional matplotlib histogram shows all the data | partial | Hist | search for the first non-empty bin; counts below successive edges telescope |
| C95 | A matplotlib graph shows every point, in order, and leaves the data alone | partial | Hist | C31 for the sorted columns, C34 for the limits |
| C96 | A dictionary of bunches by station survives being saved and read back | partial | BunchWrite | C38 for files, then C28: filters of corresponding lists correspond |
| C97 | A bunch written in a user defined format is read back in order | partial | BunchWrite, Refused | induction over the bunch with C67 |
| C98 | A histogram of a bunch has every hit in a bin | partial | Plots | the lists filled as maps over the hits; C34 for the limits, of which the upper one is the largest value |
| C99 | A graph over bunches has one point for each bunch with both quantities | partial | Plots | induction over the bunches with the lists collected so far of equal length; C31 for the order |

## 5. Where the code and the claim disagree, and what is missing

Each entry says what is false (with the theorem that shows it on a witness) and what is proved instead.

* **C04** Pointwise law of invert proved for every context; the stronger reading `not not c = c` is false (double inversion loses non-zero weights) and its negation is proved.
* **C05** False of the code: PyHitcore/Hitcore look up the context with event and particle exchanged. Negation with witness, exact law (C05_swapped) and the restricted positive statement are proved.
* **C07** False when a context with default weight other than 1 is installed; exact law (reset to the context's default) proved for all states, value 1 proved for all histories that install no context.
* **C08** Proved for all doubles and for integers that fit 32 bits; larger integers are silently wrapped (C08_int_wraps_false).
* **C09** False: rejected values leave -1 behind (C09_false); proved for numbers, excluding t'.
* **C100** C100_partial and C100_no_points for root_scatter_graph. False: hits of negative weight are drawn although weights <= 0 are to be left out (C100_negative_false); matplot_scatter_graph labels the y axis with the x variable and raises TypeError after drawing (C100_matplot_false).
* **C101** C101_partial and C101_raises for make_root_multigraph, C101_matplot for what make_matplot_multigraph draws; the latter sorts the caller's lists (C101_false).
* **C102** C102_partial: the values; C102_cut, C102_global, C102_remove: cuts; C102_mean; C102_nsigma: a cut with value_is_nsigma_bool; C102_unknown: KeyError. False: the same cut applied again cuts further hits, because the amplitudes are then relative to the bunch after the first cut (C102_twice_false).
* **C103** False in Python 3: the files are opened in text mode, so set_hit_list always raises and no history of calls ever gives a return value (C103_false). If they were opened in binary mode: any value returned is what the tracking makes of one of the hit lists set before (C103_partial) and of the right one in the usual order of calls (C103_result), but the results of an earlier job are returned after one that was killed (C103_stale_false). Proved as claimed in any case: the order of calls (C103_before, C103_one_child, C103_join).
* **C104** Proved for text formats from control file to output file with station, translation of stored coordinates and the mass shell condition on px, py, pz or energy; the rotation step on its own (covariance, emittance and the map of the hits); the control file's words and comments. Missing: the condition on 'p', MAUS formats, rotation and writing in one theorem. False of the code: the origin is handed to transform_to as a translation, so a hit at a non-zero origin never stays there (C104_origin_false); any plot line means that no file is written (C104_plots_false); G4Beamline input whose header says cm is read as mm (C104_cm_false).
* **C105** C105_translate, C105_linear and C105_partial (transform_to, covariances). False: a translation of a variable that is not in the list is ignored, also in the documented example of transform_to (C105_translation_false); with 'p' a hit of too little energy raises IndexError in the middle of the bunch, with the hits before it moved and those after it not (C105_p_false).
* **C106** C106_partial, C106_found, C106_scale; the fit of ROOT is a parameter, textbook_least shows that one exists. False: for data on a parabola the result is half a position below the vertex, always (C106_parabola_partial, C106_false); with draw every peak raises TypeError (C106_draw_false).
* **C107** C107_hit (every factory), C107_partial (text files, one generator after the other). False: a generator gives one hit and ends (C107_one_false); after two bad lines it raises RuntimeError although hits follow (C107_bad_lines), as it does at the end of the file; the two lists raise AttributeError (C107_lists_false).
* **C108** C108_partial (two variables). False for more variables: the function is that of the section through the mean (C108_section, C108_projection_false); one limit that is missing replaces the other three (C108_limits_false).
* **C109** C109_safe for all histories; C109_partial: hits, lengths, values and names are given back. False: C109_false, and C109_lost and C109_calls for exactly how many objects every call loses: (n + 1)^2 for a covariance matrix of n axes, one for each hit of a cut.
* **C11** False for hits with id (0,0,0): new_from_dict sets global_weight before the ids. Proved for every other hit.
* **C110** C110_statistics: equal mean, moments (given and default means) and covariance matrix, and scaled weight, for any two bunches of the same shape; C110_same_shape: reordering with scaling, repetition and weightless hits give the same shape; C110_merged: the law of two bunches together; C110_partial: emittance, Twiss functions and amplitudes, for the same mass of the first hit.  C110_false: weights scaled below 1e-9 give ZeroDivisionError; with different masses the order of the hits changes the emittance, since the mass of hit 0 is used.
* **C111** C111_partial: after every calm history (no failed start, no closed object, no forked child waited for, no child made by multiprocessing that ignores SIGTERM) all processes started by the function are stopped and others untouched.  C111_stuck: otherwise the loop stops at the first bad object and everything after it, with all forked children, runs on.  C111_root: the documented ImportError is caught by the handler next to it, and the call forks.  C111_switch: xboa.common.kill_subprocesses_at_exit is a copy that nothing reads.  C111_false: a history for each event.
* **C112** For all programs: what each call adds and where (C112_call), numbers given out are distinct (C112_unique), exact condition for a new figure (C112_new). Partial: a new figure for programs that only name numbers given out before. False in general: a figure named by the caller or made with pyplot has the number that is given out next (C112_false); make_multigraph always raises NameError (C112_multigraph_false).
* **C116** C116_plane and C116_geometric (one plane), C116_penn_partial and C116_angular_momentum_partial (two planes, charge 1 or -1), C116_transform_to and C116_transform_to_penn_partial (end to end with transform_to), C116_any_charge (exact emittance for any charge). False: for charge -1 get_canonical_angular_momentum does not take the charge into account while build_penn_ellipse does (C116_canonical_false: built for 0, 4 returned); for charges other than 1 and -1 the emittance is not that asked for (C116_charge_false).
* **C119** False for two or more processes, with Python 2, in which MultiTrack runs (C49_false for Python 3): every job is a copy of the same MAUSTracking, and its first hit goes out with the same seed (C119_false). Beams of equal particles come back from every process with equal hits, spill and event numbers (C119_same_false). The MAUSTracking that MultiTrack was made with is not changed, so that later calls use the same seeds again. Proved: the exact seeds of every process (C119_sent_partial) and that one process has no repetition in a call (C119_partial). MAUS is any function of what was sent to it, the same in every process; starting of processes and pickle are taken to work.
* **C120** False for comments with the words 'cm cm cm' (C120_false): reading such a file sets the unit for writing to cm, while reading always takes mm, so that from the second round on each round divides the positions by ten. C120_round_partial is the exact effect of one round for every unit of length and comment, C120_partial the claim for all lists of comments without these words, starting with mm. Hits have station 0 (the format has no column for it) and comments one line (C96_newline_false). Numbers as field elements, str and float exact.
* **C121** C121_partial: if all coupled axes are axes of the emittance, the decoupled emittance is the emittance, for every order of the eigenvalues and of the axes. False otherwise: the order of the eigenvalues decides which of them are taken, so a beam without coupling can get the emittance of another plane (C121_order_false); for a beam coupled by a skew quadrupole no order gives the emittance before (C121_false); a given matrix raises ValueError (C121_matrix_false).
* **C122** Text search is exact for all texts and keys; the life of the job holds for every sequence of calls, given Python 2 and a batch system that says what it does. False: in Python 3 the constructor always raises, and start would submit a job and then raise without recording it; a suspended job counts as ended with exit code 0 and is left behind by the next start.
* **C13** False for 'p': energy below the mass raises IndexError and leaves px = -1 (C13_false). Proved for px, py, pz and energy, with the exact slack of the 1e-6 tolerance.
* **C14** x', y', t', ct and kinetic energy proved for all values; p proved for values >= 0, false for negative values (C14_p_false).
* **C16** Translation, affine transformation and its inverse proved for stored double variables; translate-and-back is false with derived variables (C16_translate_back_false).
* **C20** False when the dictionary defines only some of the variables: the rest are taken about 0 (C20_false, exact law C20_missing_is_zero). Proved for empty and complete dictionaries.
* **C24** Every safe history of list operations keeps hits and Bunchcore in step; false for pop/del/insert-style operations that Bunch does not override or that fail half way (C24_false).
* **C25** False: negative indices are off (C25_false). Exact law C25_exact; non-negative indices proved.
* **C26** False for values that differ by less than the tolerance: a match just below is not found (C26_false). For all variables: unmatched hits are cut, exact matches are kept, nothing else changes; exact law for integer variables incl. the default ones.
* **C28** False for non-integer values: split groups by int(value) (C28_false). Exact grouping law and conservation of hits proved for all values; the full statement proved for integer valued variables.
* **C30** All three construction functions proved; the documented ValueError for a bad beta or mass is false: beta = 0 gives ZeroDivisionError (gamma is computed first) and build_ellipse_2d does not check mass or p.
* **C33** False: bins are half open and the last edge is the greatest value, so the greatest point is lost (C33_false). Proved for all data and bin counts: exactly the points below the greatest are counted (all points if they agree to 1e-9).
* **C34** False: weights shorter than the data append entries to the caller's list, longer weights raise IndexError, a negative margin excludes points (C34_false, C34_short_weights). Bounds, explicit limits and purity proved for matching or absent weights and margin >= 0.
* **C35** Grid: proved for all n >= 2 and all dimensions. Shell: proved for n <= 31623; false for larger n, where points near the centre are dropped by the absolute tolerance (C35_false).
* **C38** False after Hit.set_g4bl_unit('cm') (written in cm, read as mm) and for the energy column of MARS (ignored on reading); proved for all hits, words and all five line formats otherwise, for one line (C38_partial), and for whole files (C38_file). Numbers are exact: the rounding of str/float is not modelled.
* **C39** False when the output file fails during the write: the pid is left as the ICOOL/MARS code (C39_false). Proved on success, on an unknown pid and for G4Beamline formats at every failure point.
* **C41** False: one word that is not a number, or one unknown particle code, aborts the whole read (C41_false). Proved for files in which the lines with the right number of words are well formed, for built-in (C41_partial) and user formats (C41_user).
* **C44** Soundness and an exact law for all window sizes, steps and thresholds. Completeness proved for windows of three or more values; false for windows of two (C44_false).
* **C46** False: a variable other than the first hitting its end exactly stops the scan early, and the generator always ends with RuntimeError (StopIteration raised inside a generator). Proved: full odometer order when no later variable hits its end exactly.
* **C49** False for Python 3: n_hits/int(n_processes) is a float and slicing with it raises TypeError for every hit list and number of processes >= 1. Proved: order of results for all schedules, and the whole claim for Python 2 division.
* **C53** False of the code: 10 is accepted as the number of a station or plane, and plane 10 of station 0 has the number of plane 0 of station 1 (C53_false). C53_partial: unique if the numbers of station and plane are below 10. C53_rejected_partial: numbers out of range raise ValueError.
* **C54** beta*gamma - alpha^2 = 1 proved for the default momentum convention; false for an explicit geometric argument that differs from the global flag, because get_emittance ignores it (exact law C54_exact).
* **C56** False: means are only compared over the keys of the left operand, and a recorded covariance matrix hides the hits (C56_false, C56_covs_ignore_hits). Proved for bunches without recorded moments.
* **C57** False when keys can overlap in the text (C57_false: ab and bc in abc). Order independence, completeness and frame proved for tables whose keys and values share no characters with other keys.
* **C59** Proved for coordinate variables without mass shell variable (with one: C105). The documented default origin (bunch mean) is false: the origin is 0 (C59_false).
* **C60** histogram_var_bins proved in full (C60_var_bins, C60_var_bins_2d). histogram: limits are multiplied by the unit while the points are divided by it, and without limits the hits of greatest value are in no bin (C60_false, C60_maximum_left_out); two dimensions without ny_bins always raise ZeroDivisionError (C60_2d_default_false). C60_partial: one dimension, unit 1, given limits.
* **C61** False of the code: for every bunch set_covariance_matrix() raises ValueError after storing the matrix, and every later moment raises ValueError (C61_default_false); a given matrix raises at once (C61_matrix_false). C61_partial: switching off. Rests on numpy comparing arrays with None element by element.
* **C63** False for nuclei: charge 0 is listed for d, t, 3He and 4He, and -311 (MARS code 25) has no entry (C63_false). Proved for all other listed particles against the PDG numbering scheme.
* **C64** The root of the determinant is always the square root, so the documented cut is applied in two dimensions only (C64_partial); false in one dimension (C64_false).
* **C65** False in Python 3 for every input: range() is given a float (true division), so smooth always raises TypeError (C65_false, C65_partial). With the integer division of Python 2: for signals not shorter than the window exactly the outliers are rejected, for whole tables (C65_python2_partial, C65_signal_partial), and constant signals are kept (C65_constant); for shorter signals the mean is that of the last 2n - step values only (C65_short_false).
* **C66** False: advances of earlier data are never cleared and enter the mean (concrete witness). Proved: the exact law (mean of all advances in the life of the object) and independence for a new object.
* **C67** False for whole number columns with a unit and for formats with 'spill' (C67_false). Proved for blank columns, numbers with any known unit and whole numbers without unit.
* **C68** False: with Python 3 reading raises AttributeError (dict.iteritems) for every non-empty file (C68_false), and types after the first in list_of_maus_types give no hits since the file handle is at its end (C68_types_false). With the meaning of Python 2 all virtual hits are read back (C68_partial). Primaries: C68_primaries_partial.
* **C69** False of the code: the charge is looked up with the charge instead of the pid, so all primaries are read with charge 0 (C69_false); a primary with less energy than its mass silently ends the reading of the file (C69_truncated_false). C69_partial: everything except the charge, for files whose primaries have enough energy.
* **C70** Virtual hits proved for all files. Steps of particles that are not in the table of masses raise KeyError for the whole file (C70_steps_false); C70_steps_partial covers the other files. C70_types: several types, test function and number of hits.
* **C71** False of the code since Python 3.7: the generator of track points ends with raise StopIteration, which PEP 479 turns into RuntimeError for every spill with a reconstructed event (C71_false). C71_partial: the full statement before Python 3.7.
* **C72** standard_deviation and cut proved. conditional_remove takes the square root twice (C72_remove_false); C72_remove_partial says what is removed.
* **C73** Kinetic proved in both conventions. Canonical with geometric momenta and default axis raises KeyError for every bunch (C73_canonical_geometric_false); C73_canonical_partial: momentum variables. The documentation lacks the factor 1/2 of the code, which is the physically right one.
* **C74** get_dispersion and get_dispersion_prime proved. get_dispersion_prime ignores set_geometric_momentum (C74_prime_default_false); get_dispersion_rsquared uses central moments for <r^2> (C74_rsquared_false), C74_rsquared_partial: bunches on axis.
* **C75** clear_local_weights proved. clear_weights clears the global weights of all hits, also those outside the bunch, and gives the default weight of the context (C75_clear_false); C75_clear_partial: contexts of default weight 1.
* **C76** get_hits proved. hit_equality ignores its tolerance (C76_tolerance_false); C76_equality gives the exact meaning, with the default tolerance.
* **C78** Closed form of the moments after apply_weights, for any number of targets; with one target the target is reached exactly, and the weights are normalised. False for two or more targets (the matrix inverted has f_i g_j where g_i f_j is needed: C78_ellipse_false) and for the constructor's ellipse when the mean is not zero (used as uncentred moments: C78_centred_false).
* **C79** For all data, finders and tolerances: the table that the finder keeps is the spectrum at p(n+1)/n for position p, before and after refinement, and no peak is stronger than the position returned (C79_partial); exact result without refinement (C79_coarse); the recursion ends for every positive tolerance and not otherwise (C79_ends, C79_tolerance); asking again changes nothing (C79_again); no peak gives ValueError on a new finder (C79_no_peaks). False: the position returned is n/(n+1) of the frequency (C79_biased_false, all odd n), it can be 0 (C79_zero_false), and a finder that is used again returns a tune from the peaks of the earlier data (C79_stale_false).
* **C80** For all trackings: bound on the number of iterations, what each holds, where the next starts (C80_partial); the points are consecutive tracked hits and at least as many as asked for, and collecting them ends (C80_points, C80_points_end); the mean noise is d |C|^(1/d) when nothing is cut (C80_noise); get_sigma_noise is the standard deviation (C80_sigma); linear maps give the closed orbit at once (C80_linear); what check_closed_orbit returns (C80_check). False: the generator always ends in an exception (C80_ends_false); max_iterations None raises TypeError (C80_none_false); values exactly on the closed orbit raise RuntimeError (C80_fixed_false); a singular set of points raises ValueError unless there are more points than asked for (C80_singular_false).
* **C81** Proved for all grids in which no variable but the first reaches its end exactly: all grid points in order, then RuntimeError instead of a normal end (C81_partial). False when a later variable does reach its end exactly: the scan stops within the first row (C81_exact_false). Without variables IndexError follows the first point (C81_no_variables).
* **C82** For all functions and dimensions the result is what the specified Newton iteration arrives at, with and without limits (C82_partial); affine functions give the exact root (C82_affine), roots are kept (C82_root_kept), nd_newton_raphson1 is nd_newton_raphson2 pointwise (C82_wrapper), and limits move a value by whole periods (C82_wrap_partial). False: a constant function returns the start without an exception (C82_silent_false); the point returned is one step past the one tested (C82_tolerance_false); limits are right just when lower is 0 or the period 1 (C82_wrap_false), and the result can be outside (C82_limits_false); nested nd_newton_raphson1 evaluates the wrong function (C82_nested_false).
* **C83** With integer division as in Python 2, for all stable matrices of every size: M V M^T = V, symmetric, positive definite (C83_partial); M R = R T with T in blocks and the phase advances (C83_decoupled_partial); the blocks are cos phi + s sin phi ((alpha, beta), (-gamma, -alpha)) with what get_alpha, get_beta, get_gamma, get_phase_advance return (C83_twiss_partial); matrices that are refused (C83_rejects); when the constructor succeeds (C83_constructs). False: in Python 3 the constructor always raises (C83_py3_false); the ellipse has emittance e/(beta+gamma), at most half of that asked for (C83_emittance_false); M^T V M = V as documented (C83_transpose_false); uncoupled 4 x 4 matrices give nan because axis i uses eigenvector i instead of 2i (C83_uncoupled_false).
* **C84** In Python 2, for all dimensions: the Cayley-Menger determinant with the coefficient of the code is the square of |det(edges)|/d! (C84_simplex); the content of a tile is the sum over its simplices, 0 if open (C84_content); tile_content_list has the contents by point number if region_list holds 0..n-1, each once in any order (C84_partial). False: any other region_list raises IndexError or TypeError (C84_partial); in Python 3 every closed tile raises NameError because of xrange (C84_py3_false). Voronoi, Delaunay and Pool.map are parameters.
* **C85** In Python 2, for all bunches, bounds and dimensions: weights, zeros and nothing else changed if the weights are stored in different places (C85_partial); get_pdf is the density of Mathlib's multivariateGaussian (C85_density); what the constructor accepts and refuses (C85_new). False: Python 3 always raises TypeError in apply_weights and ValueError for a mean of two or more variables (C85_py3_false); global weights of hits on the same track are those of the last hit, or 0 if one of them is cut (C85_track_false). scipy's Voronoi and Delaunay are parameters; ellipses of negative determinant (nan) are not modelled.
* **C86** In Python 2, with ROOT's fit as a parameter: every outcome (C86_partial), exact vertex for data on a parabola and every least squares fit (C86_parabola), derivatives (C86_gradient), rounding down in find_peaks (C86_find_peaks). False: Python 3 raises TypeError for every peak (C86_py3_false); the quality of the fit of one peak is carried to the next, so that peaks that are refined on their own raise ZeroDivisionError together (C86_carry_false); find_peaks can return len(data), not an index (C86_index_false).
* **C87** C87_partial for the mass shell variables '', px, py, pz, energy and p. False: the documented number of hits n^d for odd n (C87_count_false), a default global_weight reaches only event 0 (C87_weight_false), too little energy gives hits off the mass shell without an exception (C87_shell_false).
* **C88** C88_new_from_hits, C88_partial, C88_equal. False: deepcopy raises ValueError once a covariance matrix of several elements was recorded (C88_covs_false); making the copies sets the weight of track (0,0,0), so hits of the original can change weight (C88_weight_false). Missing: infinities and nan, whose repr is not an expression.
* **C89** C89_partial (integer variables), C89_dict (any variable, grouped by the value without decimals). False: hits with different non-integer values share a bunch (C89_false). Missing: malformed lines (C41_false), MAUS formats.
* **C90** C90_partial: exact when the phase advance is m/N of a turn on N turns. False in general: C90_three shows that any three points give 1/3 or 2/3, C90_false gives a quarter-turn lattice. numpy.linalg.inv and cholesky are any functions obeying their laws. Missing: bounds on the error when the points do not close.
* **C91** C91_dphi, C91_fft_partial (x, y, z), C91_tune (exact tune end to end). False: other axes of FFTTuneFinder raise IndexError half way (C91_fft_false), t pairs with the transverse momentum (C91_fft_t_false), the tracked particle is off the mass shell (C91_shell_false).
* **C92** C92_partial: never raises, accepts all hits exactly on the shell, what it accepts is within 1+tolerance. False within the tolerance: both squares are rounded to integers first, so hits off by almost 1 are accepted (C92_accepts_false) and hits off by arbitrarily little are rejected (C92_rejects_false), for every particle type.
* **C94** C94_partial: what is drawn, exactly. False: the last bin is never drawn, so that the largest value is always missing (C94_false, with the exact number of entries drawn); weights that are all 0 raise IndexError (C94_raises_false). numpy.histogram is modelled as binning between exact equal edges.
* **C95** C95_partial and C95_raises. False: with sort the caller's lists are reordered in place (C95_false).
* **C96** C96_partial for icool_for009, C96_for009 for any dictionary (what happens to hits with other stations or unknown pids), C96_bunch for one bunch and every text format. False: the other formats have no column for the station, so everything comes back as one bunch (C96_one_bunch, for every dictionary); the comment is dropped (C96_comment_false); a comment with a newline makes an icool_for009 file unreadable (C96_newline_false).
* **C97** C97_partial without a comparator; with one every call raises TypeError (C97_false).
* **C98** C98_partial and C98_two_dimensions: what is filled, bins and limits (hits in the closed interval). False: the hits with the largest value are always in the overflow (C98_largest_false), hits of negative weight outside the others too (C98_negative_false); a draw option makes the second variable be forgotten (C98_draw_option_false); an empty bunch raises TypeError (C98_empty_false); fewer than ten hits give no bins (C98_few_false), and nothing at all is drawn by matplot_histogram (C98_matplot_few_false).
* **C99** C99_partial and C99_no_points for root_graph, C99_matplot for matplot_graph, without comparator; with one both raise TypeError (C99_comparator_false).

## 6. Tests of the theorems

`seeded/LOG.jsonl` has one line for each mistake that was put into a definition of the model in a scratch copy: the definition, the edit, the claim it breaks, the theorems that failed and those that were tightened because a mistake got through.  Theorems that were tightened were rerun against the same mistake.
