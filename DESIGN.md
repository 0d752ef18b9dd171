# Formal model of trichter/qopen in Lean 4: design

## 1. What is trusted

* Lean 4.33.0's kernel and the three standard axioms `propext`,
  `Classical.choice`, `Quot.sound`.  No axiom is added; no `sorry`, `admit`,
  `native_decide`, `bv_decide`, `implemented_by`, `unsafe`.
* The hand translation of the Python text to Lean definitions.  Each definition
  cites file and lines in `/repo/qopen`.
* The reading of floating point numbers as real numbers (`ℝ`): rounding,
  overflow and underflow are not modelled.  NaN and `None` in result tables
  *are* modelled (`Cell`).
* Library routines that are not part of qopen enter as parameters
  ("oracles") together with the documented contract that the theorem needs;
  the contract is a hypothesis visible in the theorem:
  `scipy.linalg.lstsq`/`lsmr` (returns a least-squares minimiser),
  statsmodels WLS (`Spec.IsWls`: minimises the weighted sum of squares, `mse_resid` divides by the
  number of data minus the rank; `Spec.FullRank`: a weighted matrix with trivial kernel has full
  rank) and RLM, `scipy.optimize.minimize`, `scipy.special.iv`
  (power series), `scipy.signal.hilbert`, obspy stream/event access, process
  pool scheduling, float parsing, `joblib.Memory` (a store on disk keyed by
  directory, name and arguments of the function).

## 2. Layout

* `Verif/Py/*`      Python basics: exceptions as values, insertion ordered dictionaries, cells.
* `Verif/Model/*`   the model, one file per source file/feature.
* `Verif/Spec/*`    small independent specifications (least squares, components, ...).
* `Verif/Lemmas/*`  auxiliary proofs.
* `Verif/Props/*`   the property theorems `Qopen.Cnn_*` with non-vacuity examples.

Where the code violates the property a theorem proves the violation by a
concrete witness (`*_counterexample`), and the part that does hold is proved
under the suffix `_partial`.

## 3. Properties: plan

| ID | modelled | proof |
|---|---|---|
| C01 | `_rescale_results`, `align_site_responses` loop on result tables | per cell: f·R · W/f; induction over events/bands |
| C02 | equations built by the per-frequency loop; solver oracle; the mean `_Rmean` of the package itself (`Props/SiteMean.lean`) | minimiser + shift along all factors reduces the norm row residual to 0 |
| C03 | same | a zero residual solution exists, hence the minimiser has residual 0 |
| C04 | same | factor 0 with shift is a competitor |
| C05 | `_find_unconnected_areas`, selection of largest, rescaling | membership lemmas |
| C06 | `_merge_sets` while loop on finite sets | termination by number of sets; invariant: same closure |
| C07 | `construct_ols` both branches | induction over updates |
| C08 | same as C02 | strict convexity of residuals + connectivity |
| C09 | filter/sort/frequency count | permutation and sortedness |
| C10 | two runs of the model | C08 + zero factors are a minimiser of the second run |
| C11 | station selection test | negation for text argument; list argument proved |
| C12 | `results['R']` update | negation by witness, partial for surviving stations |
| C13 | matrix construction and decode in `invert_fb` | index bookkeeping by induction on pairs |
| C14 | decode | algebra with logs |
| C15 | lstsq closure | equivariance of least squares |
| C16 | lstsq closure + linear algebra | zero residual, kernel of the design matrix is trivial if connected |
| C17 | bounds check | case analysis |
| C18 | filter and window loop | invariant over the loop |
| C19 | source branch | algebra |
| C20 | time axis | algebra on reals |
| C21 | balanced time | weighted mean inequality |
| C22 | noise removal | inequality |
| C23 | re-sort of results | induction |
| C24 | sequential loop with copies vs pool with arbitrary completion order | refinement |
| C25 | sort of (time, event) pairs | negation for ties; sortedness for distinct times |
| C26 | mean over events | list lemmas |
| C27 | selection of fixed parameters | list/dictionary lemmas |
| C28 | filter chain in `invert` | membership equivalence |
| C29 | two thresholds | negation; partial |
| C30, C31 | `time2utc` incl. string tests | on `List Char` |
| C32 | `tw2utc` | max/min |
| C33 | `_get_local_minimum` | scan invariant |
| C34, C35 | `observed_energy`, `invert_fb` (with `coda_normalization`) | lists of reals; linear inversion |
| C36 | `get_freqs` loop | closed form by induction |
| C37 | string splits | on `List Char` |
| C38 | event access | case analysis |
| C39 | `collect_results` | filterMap characterisation |
| C40 | `sort_dict` | permutation/sortedness |
| C41 | cache decorator as state machine | invariant over histories |
| C42-C44 | `smooth`, `smooth_func` | list convolution |
| C45-C49 | statistics | real analysis on lists |
| C50-C59 | Green's functions | real analysis; integrals with Mathlib |
| C60-C67 | source model | real analysis; dictionary updates |
| C68, C70 | `run` as a function from world and call to effects and value | the inversion gets the merged options; equality of option dictionaries key by key |
| C69 | comment removal on `List Char` | induction over lines |
| C71 | wrapper of the data source | case analysis, connection with the selection of pairs |
| C72 | `input_sites` branch of `run` | dictionary lemmas; negation for responses of events |
| C73 | `configure_logging` | case analysis |
| C74 | `config` entry of a result; what the calls of `invert` do to the passed `skip`, with and without pool | sortedness and membership; induction on the calls and bands |
| C75 | `invert_wrapper` without results | case analysis; negation for the simultaneous mode |
| C76-C78, C80, C81 | imaging helpers: derived quantities, limits, grids, labels, recorded fits | algebra, division and remainder |
| C82 | plotted samples, line and time axis | algebra with logarithms |
| C83 | filter of a band | case analysis |
| C79 | whole `align_site_responses` | every step returns a value under the completeness hypotheses; with a fit of source models for options with ordered limits |
| C84-C87, C89 | `run`: order of effects, output, selection of events, failing input | inversion of the effect monad stage by stage |
| C90 | `filter_width` over an abstract filter design with the Butterworth contract | sums of gains, scaling of the grid, pointwise limit of the gain |
| C91 | `invert_wrapper` with `weighted` and `robust` means over the collected tables | columns of the tables are the values of the events, weights pair up with them |
| C92 | `rt.py` Green's functions and command line against the published formulas, written down separately | unfolding to the published formulas over the reals, case by type |
| C93 | `plot_results`: panels with points, means, errors and counts | columns of the collected table; the mean on log scale is affine, so deriving and averaging commute; counterexamples for simultaneous inversion and weighted errors |
| C94 | `plot_sites`: panels, excluded stations, counts | collected tables per station, sorted keys; counterexample for simultaneous inversion |
| C95 | `plot_sds`, `plot_all_sds`: points, curve, level, label, colours | parameters drawn are those of the fit (only free parameters are reported), then C62; counterexamples for method `mean` and for the colour bar |
| C96 | `plot_mags`, `_secondary_yaxis_seismic_moment` | filter of events; regression assumed to find exact lines; C60 |
| C97 | `plot_eventresult`, `plot_eventsites` | merged entries, C76 for rows; sorted keys |
| C98 | `run` from the inversion to the result | stages of a run; specification of station lists by joining with commas |
| C99 | command `plot` of `run` | options as union of call, file and documented configuration |
| C100 | `init_data`, wrapper, joblib cache as a store keyed by directory and arguments; the world outside is an arbitrary state per request | induction over histories of requests; inductive specification of the source |
| C101 | `_load_func` with `sys.path` as state | cases of loading |
| C102 | loop of the instrument correction in `invert`, `_remove_response` | relation between streams before and after, `filterMap` |
| C103 | reading of inventory and events in `run` | relation between options and calls of the readers |
| C104 | `adjust_sonset` in `invert_fb` | specification by the first peak on the true time axis, samples of a slice from C20 |
| C105 | limits and start values in `fit_sds` | contract of the optimisers (inside of limits, not worse than the start), existence of a solver with the contract is proved |
| C106 | names and order of the figures of a band | texts as lists of characters, two-digit formatting of numbers; drawing is an arbitrary function which may fail |
| C107 | `plot_fits` | all lists of pairs; windows and model in the figure equal the samples of the inversion (`Spec.samplesOf`, `Spec.predicted`), existence of the figure |
| C108 | `plot_energies` | `Spec.ShowsTrace`, windows as sets of times |
| C109 | `smooth` of the envelope and `smooth_func` of the Green's function | both are convolutions with the same weights; samples inside of the trace; intermediate value of the absorption |
| C110 | `run_cmdline` | `Spec.lineValue`: value of the line after `--overwrite-conf`; then C68 and C85 |
| C111 | conversion to plain data in `run` | inductive specification `Spec.Json` |
| C112 | `plot_t`, `plot_r`, `plot_rt`, `main` of `rt.py` | specification by what `calc` prints (`Spec.Prints`); C51 for the samples |
| C113 | `invert_fb` | uniqueness of the best fit (C13) for permuted, recalibrated pairs; contract `FullRank` on the rank used by statsmodels |
| C114 | `align_site_responses`, `_find_unconnected_areas`, `_rescale_results` with `station` and `ignore_stations` | totality over complete results; the errors for missing and for ignored stations are characterised exactly |
| C115 | station depth and `free_surface` in `invert` / `invert_fb` | `Spec.InBorehole` over channels of the inventory; energies of the band problem divided by `Spec.SurfaceFactor` |
| C116 | `invert_fb` | uniqueness of the best fit (C13, C19) under the options of `fixed` and `source` |
| C117 | `align_site_responses` | misfit of the rescaled problem is the shifted misfit, uniqueness of its minimum; sorting by event id |
| C118 | `invert_fb` from the streams on (time strings, windows, noise, selection, inversion) | equivariance of each step under a shift of all times of a pair; induction over the streams |
| C119 | same, with `energy1c`, `observed_energy` and linear filters | each step commutes with a positive factor; loop invariant relating both states; then C113 |
| C120 | `invert_wrapper` loop with the log message of each event, `invert` up to the selection of pairs | uniqueness of the time order, loop passes over events without result; negations for unknown depth, exceptions and missing picks |
| C121 | the log message of `align_site_responses`: `_collectR` per band, `_Rstd` (nanstd of logarithms, nanmean) | numbers identified with `Spec.stdDev` of the responses before and after; optimality against centred offsets and a variance identity for stations observed for the same events; negation with three stations and two events |
| C122 | `invert_wrapper` with `invert`, `collect_results`, `sort_dict`, `gmeanlist` for one event | the loop, the collection and the means computed for one event; mean of one positive number is this number; existence from the tables of C23; negation without result |
| C123 | the effects of `run` as changes of files, which may be interrupted at any moment (`Model/Crash.lean`) | order of the effects of every run: quiet effects, then opening and writing of the output file, then quiet effects; induction over the moments; negation for a run stopped while it writes and for `create` |
| C124 | any optimiser as a strategy (`Search`), recording of fits, `plot_optimization` with all drawn numbers (`Model/FigureOpt.lean`) | invariant of the records over all calls of the optimiser; panels by C82; negation with an exactly solvable inversion |
| C125 | composition of `invert_fb`, `invert`, `invert_wrapper` and `align_site_responses` (`Props/Truth.lean`, `Props/TruthChain.lean`, `Props/SiteTruth.lean`); exact data: the samples in the windows accepted by the code are `R·W·G·exp(-bt)` (smoothed alike, C109) and the optimiser evaluates the true `g0`; each band with its own copy of the waveforms (one job or at most four bands per worker, C24), no coda normalisation | exact recovery of a band (C13, C16), rows by C23, entries of the events by C40; the alignment by C02, C117: the products response × energy are kept, one factor per connected area |
| C126 | `invert` with commands `fixed` and `source` and the result of `go` as input (`Props/Again.lean`, `Props/AgainSource.lean`); same catalogue, waveforms and options, any schedule of the bands; each band with its own copy of the waveforms as in C125 | bands by C116 and C27, accepted pairs are the same because each pass of the loop over the energies succeeds independently of the others; tables by relation of the lists of results; negation with two stations, one of which is rejected |
| C127 | labels, templates (operator `%`), recording, order and failures of the dumps `dump_optpkl`, `dump_fitpkl` (`Model/Dump.lean`); opening of files is an arbitrary function which may fail | names by C106, fits and records by C124, result by C17; negations with exactly solvable inversions |
| C128 | keyword arguments of the optimiser (`Model/OptOptions.lean`) | look-up after each step for all dictionaries of options; negation for names in upper case |
| C129 | `fit_sds`, `insert_source_properties`, `calculate_source_properties` for exact spectra | number of common points of two curves by Rolle's theorem and exponential sums (`Lemmas/Curve.lean`); contract of a search which finds the smallest value, existence proved; without the contract: error 0 implies the true parameters; negation for two frequencies and free fall-off |
| C130 | `invert_wrapper`, `align_site_responses` with `calculate_source_properties` for exact data | C125 and C129 are put together: the alignment keeps the entries used for the recalculation, every remaining energy belongs to a station of the aligned area; a factor of the reference is a factor of the energies |
| C131 | `fit_sds`, `insert_source_properties`, `calculate_source_properties` | a factor of the spectrum is a constant added to the data of a regression with a constant column; fitted values of least squares are unique (midpoint of two minimisers), so the objective of the search is the same function; contract of the robust regression: fitted values follow a shift of the data |
| C132 | `invert_fb` (loops over streams and energies) with and without the records of rejected pairs | energies are calculated per record; success of a pass of the loop does not depend on the state; both runs have the same accepted pairs (C18), the inversion looks up these pairs only |
| C133 | `invert_fb` from records to the result, `rt.G` | distances enter by the velocity and the Green's function only; dividing the Green's function by `k` is multiplying the energies by `k` in the logarithmic equations; then C113; for `rt.G` from C53 |
| C134 | loop over the energies in `invert_fb` with `_get_slice`, `_check_times`, `_get_local_minimum` and `smooth` | description of accepted pairs by samples and their times only (`PlainAccepts`), shown to be equivalent to the checks of the model; rounding of obspy's `slice` turned into inequalities between sample times; windows of smoothing by their documented shape; composed with C18 |
| C135 | `invert_wrapper`, `plot_results`, `plot_sites`, `plot_eventsites` after `invert` | totality: every step after the inversions of the single events returns, because the result of each event is complete (one row per band, the same stations) by C23 |
| C136 | `invert_fb`, `invert`, `invert_wrapper` with the bundled Green's functions | totality: sound inputs are described in `Verif/Spec/Sound.lean`; every step of the model returns (windows, smoothing, Green's function, optimisation, tables), because the smoothed Green's function is positive at every sample of the window (C92, C42) |
| C137 | `invert_fb`, `invert` with the command `source`, `insert_source_properties`, `fit_sds` | the log source energy is a weighted mean of logs over the samples (C19), a mean is as near to the truth as the samples; the misfit is then bounded; spectrum, geometric mean and best offset of the source model are monotone in the same way |
| C138 | `invert`, `invert_fb` with the command `source`, `insert_source_properties` | the log source energy is a weighted mean over the samples of the pairs of the event (C19), so it depends on the pairs of the event only; which pairs are accepted depends on their own records only, apart from the boreholes and `num_pairs` |
| C139 | `run_cmdline`: table of options and parser (`argparse`) | `Spec.Reads` describes how strings are read as options; parsing succeeds iff the strings can be read so (soundness and completeness by induction over the strings); facts about the table (names distinct, no name is a beginning of a value) by evaluation; then C110 for the call of `run` |
| C140 | `invert_fb`, `invert` with the commands `go` and `fixed`, `align_site_responses`, `insert_source_properties` | the best fit (C13) is an orthogonal projection, so the residual is orthogonal to every change of the parameters: Pythagoras bounds fit and misfit, the scatter of the times bounds the absorption; for one event the log of response times energy is a weighted mean over the samples of a station; C01 for the alignment, C137 for the spectrum |
| C141 | `rt.create_parser`, parser of `rt` and call of `main` | `Spec.RtReads` splits the strings into groups of arguments and options with values, `Spec.RtMeans` says which values they mean; parsing gives values iff the strings can be read and mean them (soundness by strong induction over the strings, completeness by induction over the reading, an invariant for the parts); that `--type` takes the arguments behind it and that options between mean free paths are refused by inversion of the reading |
| C142 | `_collect_station_coordinates`, `_join_unconnected_areas` with its while loop | `Spec.Near`, `Spec.Together`: areas with corners which are near to each other, chains of them; invariant of the loop (each area is the union of areas which belong together, the distances are the smallest ones between the parts), termination by the number of distances |
| C143 | `run` from the inversion to the end (`resultOf`, `postProcess`, `writeOutput`, `printMags`) | `Spec.CanWrite`, `Spec.CanPrint`: output can be created, magnitudes can be printed; the run returns iff the inversion returns JSON data and both hold, by rewriting the stages of the run; the effects of a run without result are computed |
| C144 | `invert` with two configurations of frequency bands | `Spec.SameAt`, `Spec.EmptyAt`, `Spec.SameInput`: results of a frequency at its places in both results; the call of `invert_fb` for the common band is the same, the rows of the tables are determined by the results of the bands (C72 specification of the tables); `Spec.SameMeansAt`: means over separately inverted events, a mean is a function of the positive values of its band and their errors |
| C145 | `invert` with an environment whose waveform source returns other amplitudes | `Spec.louder` (records of each event multiplied by a factor), `Spec.LinearInput`, `Spec.Solvable`, `Spec.SameButSize`: relation of the streams, C119 (calibration) or C137/C138 (one linear system per event) for the bands, rows of the tables, equivariance of the fit (C131) for the source parameters; `Spec.ScaledEntry`, `Spec.SameMeans` for events inverted separately |
| C146 | `invertWrapper` followed by `calculateSourceProperties`; command `recalc_source` of `run` | `Spec.ReadEvent` (entry of an event as it is read), `Spec.Documents` (documented options), `Spec.UnchangedEvent`: the first calculation equals a recalculation of an event without source parameters (C67), the velocity is the one of the event (separately) or the configured one (simultaneously) |
| C147 | `invertWrapper` for separate inversions, catalogues with equal ids allowed | `Spec.LastResult`, `Spec.idsWithResult` (written for the list of events with outcomes, without dictionaries); induction over the events in time order from the back; together: `invert`, rows as lists repeated `k` times |
| C148 | `invert`, `invertWrapper`, `calculateSourceProperties` | `Spec.catalogueMagnitude`, `Spec.LastWithId`, `Spec.LastResult`; induction over the loop which inserts the source parameters, the fit never writes the key `Mcat` |
| C149 | `selectStreams`, `invert` with two inventories | `Spec.Without` (inventory without some stations), `Spec.Useless` (no usable record for any event, written with the independent `Usable` of C28), `Spec.OwnRecords`, `Spec.NoTies`, `Spec.SameButEmptyRows`; the usable pairs of both inventories coincide (C28, C29), sorted lists without ties are equal, bands get equal records, site responses exist only for stations with records; `Spec.SameEntry`, `Spec.SameButEmptyMeans` for events inverted separately (the mean of a row without values is empty) |
| C150 | `selectStreams`, `invert`, `invertWrapper` with two orders of sets and inventories | `Spec.Reordered`, `Spec.SameStations`, `Spec.SameButRowOrder`, `Spec.SameMeansButOrder`; usable pairs coincide, sorted lists without ties are equal, the stations of the table are a permutation; for the means C149 in both directions |
| C151 | `align` (`rescaleEvent`, `calculateSourceProperties`) | `Spec.OnlyRescaled` (same stations, shape of the tables, no number where there was none, entries other than `Spec.sourceEntries` unchanged); frame lemmas of `rescaleResults` and of the recalculation composed event by event; without density the entries on the source are not updated although the energies are (section 6) |
| C152 | `align` with two solvers, twice, with two sets of references | `Spec.NoNan`, `Spec.derivedEntries`; equal aligned energies (C08, C10, C117) are equal lists if there is no NaN, and the recalculation is a function of energies and velocity (C67) |
| C153 | `decode`, `report`, `runBands`, `invert`, `invertWrapper`, `align` | `ProperResults`, `CompleteResults`, `NoNan` of C08, C79 and C152; energies and responses are exponentials times a positive reference, all windows of a single event carry its id so its energy is the first one; invariant of bands for any schedule, lifted through the tables (C23) and the wrapper (C40). `C149_aligned`, `C150_aligned`: with C117 for factor 1 |
| C154 | `invertWrapper`, `alignRun`, `align` | Entries of the events are looked up in the dictionary of the run as they are (`readEvent`); tables of `W` and `R` from C23 and C40 decide which entries exist; success from C153 and C79; one theorem per mode and `C154_which_runs` as equivalence |
| C155 | `invertFigures`, `alignedFigure`, `plottedFigure`, `plotEventresult`, `plotSds` | The dictionary with the options of the figure as state passed from event to event (induction); the panel of the spectrum depends on the entries of the source only, then C95; counterexample: options overwritten before the figure after the alignment |
| C88 | `_plot` inside of `run` | each figure drawn iff requested and data exist |

## 4. Modelled and not modelled

Modelled (file of the model: functions of the code; each definition cites its lines).

| model | code |
|---|---|
| `Model/Site` | all of `align_site_responses` with `_get_number_of_freqs`, `_rescale_results`, `_merge_sets`, `_find_unconnected_areas` |
| `Model/EventFigure` | options of the figure of a single event in `invert`, `run` and `_plot` |
| `Model/AlignRun` | alignment of the result in `run`: missing entries `W` and `R` (`_get_number_of_freqs`, `align_site_responses`) |
| `Model/SiteMean` | `_Rmean` with `_collectR` (mean of site responses of all or of named stations) |
| `Model/SiteScatter` | scatter before and after alignment (`_Rstd`, `_collectR`, numbers of the log message) |
| `Model/JoinAreas` | `_join_unconnected_areas` and `_collect_station_coordinates` (part of the code, but switched off in `align_site_responses`: `join_unconnected` is always `None`); Qhull, the distance on the earth and the orders of Python's sets are parameters |
| `Model/Filter` | `filter_width` |
| `Model/InvertFb`, `Model/Window`, `Model/Trace`, `Model/Energy` | `invert_fb` (filter, windows, noise, cut of the coda, bulk window, time axis, design matrix, decode, bounds, result), `time2utc`, `tw2utc`, `_check_times`, `_get_local_minimum`, `energy1c`, `observed_energy`, slicing of traces |
| `Model/Invert`, `Model/Freqs`, `Model/Catalog` | `invert` (selection of pairs, tables, fixed parameters, pool or loop, re-sorting of results), `get_freqs`, access to events, magnitudes, picks and stations |
| `Model/Wrapper`, `Model/Collect`, `Model/Results` | `invert_wrapper`, `collect_results`, `sort_dict` |
| `Model/CmdLine` | `run_cmdline` (options of all commands except `rt`), `_add_bool_argument`, `argparse` of Python 3.11 for tables of this kind |
| `Model/CmdLineRt` | `rt.create_parser`, command `rt` of `run_cmdline`, `argparse` of Python 3.11 with positional arguments; `float` is a parameter |
| `Model/Run` | `run`, `_plot`, `run_cmdline` (merge of options and call of `run`), `configure_logging`, `_load_json_results`, comment removal, wrapper of the data source |
| `Model/Crash` | meaning of the effects of `run` for files: opening, writing piece by piece, copying; every moment of a run and its end |
| `Model/FigureOpt` | `plot_optimization` and the recording of fits in `lstsq`; left out: texts, colours, sharing of axes; the limits of the misfit axis chosen by matplotlib are a parameter |
| `Model/Dump`, `Model/OptOptions` | dumps of fits and of the optimisation in `invert_fb`, options of the optimiser; left out: the pickle format |
| `Model/Util` | `cache`, `smooth`, `smooth_func`, `gstat`, `gmean`, `gerr`, `gmeanlist`, weighted and robust statistics |
| `Model/Source` | `sds`, `source_model`, `moment_magnitude`, `fit_sds`, `insert_source_properties`, `calculate_source_properties` |
| `Model/Rt`, `Model/RtFigure` | all Green's functions, `G`, plug-ins of the inversion, `plot_t`, `plot_r`, `plot_rt` (axes and values), `rt.main` for parsed arguments |
| `Model/Imaging` | derived quantities, limits, grids, labels, recorded fits of the optimisation, plotted samples |
| `Model/Data` | `init_data`, `_load_func` with cache and search path |
| `Model/Response` | instrument correction inside of `invert`, `_remove_response` |
| `Model/Load` | reading of inventory and events inside of `run` |
| `Model/Figures` | numbers drawn by `plot_results`, `plot_sites` |
| `Model/FigureSource` | numbers drawn by `plot_sds`, `plot_all_sds`, `plot_mags`, `plot_eventresult`, `plot_eventsites` |
| `Model/FigureBand` | file names and order of the figures of a band, numbers drawn by `plot_energies`, `plot_lstsq`, `plot_fits` |

Not modelled: log messages (except the numbers in C120, C121), the
debugger option, time measurement, help texts, appearance
of figures (colours, fonts, tick labels), reading and writing inside of obspy
and json, download of data, deconvolution, the numerical routines of
scipy/statsmodels (parameters with contracts, section 1), rounding.  Pool
workers are modelled up to their order, their grouping into chunks and the
data which the tasks of a chunk share.

## 5. Axioms

`AXIOMS.md` lists the axioms of every property theorem (output of
`#print axioms`).  Only `propext`, `Classical.choice` and `Quot.sound` occur.

## 6. Where code and property disagree

Each line is proved as a `*_counterexample` about the model unless marked.

| property | behaviour of the code |
|---|---|
| C11 | `align_site_responses(station='ABC')` also uses stations whose name is a substring of the argument |
| C12 | means of site responses of stations without any remaining data keep the values from before the alignment |
| C20 | data which start up to half a second after the window are accepted, their samples get times which are too early |
| C23 | `ignore_network_code` with stations without network code raises `IndexError` (theorem `C23_ignore_network_error`) |
| C24 | with a pool and more bands than four times the number of workers the tasks of a chunk share streams which are filtered in place |
| C25 | events with equal origin times raise `TypeError`, an empty catalogue raises `IndexError` |
| C26 | a misfit of zero is left out of the mean misfit like a missing value |
| C29 | `<=` in one and `<` in the other check of the minimal number of pairs |
| C33 | the coda is not cut if the envelope rises again and has no local minimum at all |
| C36 | explicit bands with equal central frequency collapse; `max` smaller than `min` by less than a step gives a frequency below `min` |
| C44 | `smooth_func` with two samples returns one value too much, with a single sample it raises `IndexError` |
| C50 | for an array of distances the bin of the direct wave may lie beyond the wave front |
| C51 | for an array of times the first sample after the arrival is zero if the array starts after the arrival or the direct wave is not included |
| C58 | an unknown type is accepted silently for numbers before the arrival (otherwise `UnboundLocalError`) |
| C59 | `plot_t` uses the absorption at the last time for all samples |
| C63 | `fit_sds` returns an empty dictionary instead of `None` if too few values exist; a free `n` or `gamma` without limits (`n_lim=None`) raises an exception of the optimiser |
| C67 | a magnitude of a former calculation stays if no new moment is found |
| C69 | `#` inside of a string is taken as comment |
| C70 | options are changed in place, the second call with the same options adds the prefix twice |
| C72 | `input_sites` replaces the responses of an event by the whole dictionary of the event |
| C74 | the result does not document `G_plugin` (the list for dumping contains the old name); with `njobs=1` the passed `skip` is changed in place, so the documented `skip` contains `coda_window: 0.05` even if not passed, with other values of `njobs` it does not |
| C75 | without result the simultaneous mode raises `TypeError` |
| C76 | `calc_dependent` raises without velocity also for quantities which need none |
| C77 | with one column the colour bar of the spectra lies outside of the grid |
| C80 | grids exist in which no panel carries the label of the x axis |
| C81 | panels of `plot_optimization` coincide for even `num`; the value marked as best is the last one of the optimiser |
| C84 | `run('rt')` creates an empty output file and raises `UnboundLocalError` |
| C85 | `recalc_source` with `eventid`, offered on the command line, raises `UnboundLocalError` |
| C88 | the figure of the results removes `v0` from the result of a simultaneous inversion before it is written |
| C93 | no figure of results for simultaneously inverted events with several bands unless `mean='robust'` (`ValueError`); weighted error bars vanish in each band in which any event has no misfit |
| C94 | no figure of sites for simultaneously inverted events with several bands unless `mean='robust'` |
| C95 | no figure of source spectra for `seismic_moment_method='mean'` (`nobs[freq < fc]` on a list or unassigned); colour bar without scale if the last event has no spectrum |
| C97 | if neither `W` nor the spectrum is requested, the figure of a single event of several shows the means over all events |
| C99 | command `plot` without configuration file creates the directory of the prefix, but documented file names get no prefix |
| C100 | with a waveform cache a failed request is stored as `None` and never repeated, also after the service has recovered; different sources with the same cache directory get each other's data; a missing option `data` is not reported, all requests are answered with `None` |
| C101 | `.` stays in `sys.path` if a plugin cannot be imported |
| C102 | with several events inverted simultaneously all figures of the response removal are named after the event of the last pair and overwrite each other |
| C103 | the dictionary `read_events_kwargs` of the caller keeps format and inventory of the first call and passes them to the reader in later calls |
| C104 | data which start inside the window: the new S-onset is too early by the missing time; a single pair without data in the window stops the whole inversion (`ValueError` of `np.argmax`) instead of being skipped |
| C105 | if both `n` and `gamma` are free, only their product is limited: each of them can leave its limits (`n_lim`, `gamma_lim`) |
| C106 | bands whose corners agree up to two decimals get the same file name, the later figure overwrites the first; a figure which fails suppresses the following ones of the band |
| C107 | with fixed site responses and several events the response of another station is used in the figure (`R_fix_sites[:Ns]` has one entry per pair); observed energies of a coda window can lie below the energy axis (its lower limit depends on the largest observed energy) |
| C108 | option `downsample_to` always raises (step of a slice is a float); without bulk window the coda window is not shown |
| C109 | at the ends of a trace energies are averaged with zeros, the Green's function is not: a coda window within half a smoothing window of the end of the data is biased; the Green's functions of Qopen return zero for the first sample of an array which starts after the arrival: the first sample of the coda window is modelled too small for windows with weights at their ends (flat, hamming), without smoothing (`smooth: null`) its model energy is zero and its logarithm infinite |
| C110 | `eventid`, `print_mag` (and `tutorial`, `plots`) in a configuration file are ignored and passed on to the inversion as unknown options |
| C111 | `recalc_source` with a catalogue object among the keyword arguments raises `TypeError`, `go` accepts it |
| C112 | `plot-r` with a distance but without time raises `TypeError`; absorption in `plot-t` belongs to the last time (C59) |
| C114 | a band with data of ignored stations only raises `TypeError` and no band is aligned |
| C115 | with `ignore_network_code` borehole stations get the factor of stations at the surface; in a simultaneous inversion a station at the surface gets the factor of boreholes if it is in a borehole at the time of another event |
| C120 | one event with unknown depth stops the separate inversion of all events (log message), although it would just be skipped; so does an exception for one event; in simultaneous mode with picks one event without picks leaves nothing to invert |
| C121 | the "reduction of mean stdev" need not be one: with two events and three stations, one of which differs by a factor e, the mean standard deviation rises from 1/6 to 2/9, for every least-squares solver (sums of squares are minimised, means of roots are reported) |
| C122 | without any result the separate inversion of an event returns nothing, the simultaneous one raises `TypeError`; values which are not positive (b <= 0, error 0) become `None` only in the separate mode |
| C123 | the output file is emptied before the new result is written in place, so a run stopped while it writes destroys the old result; `create` replaces an existing configuration file without asking |
| C124 | the blue cross marks the value tried last, not the result, and is not drawn if its misfit is infinite; the panel of the result is labelled as best only if the result was not among the first tried values; for an even number of panels see C81; for `num = 2` the figure fails (matplotlib finds no space for the main axes) |
| C126 | if `v0` is not configured, the velocity of `source` differs from that of the inversion which delivered the attenuation and site responses: the mean is taken over all pairs before any is rejected (core.py:640-643), but pairs of stations without site response are removed before (core.py:553-558); times of the coda and source energies change |
| C127 | the dump of the optimisation is empty unless the figure of the optimisation is requested as well; a name without place for the band (`fit.pkl`) ends the inversion with `TypeError` (dumps are not protected like figures); close bands as in C106 |
| C128 | `Brent`, `Golden`, `Bounded` (the names in scipy's documentation, which accepts both) are not recognised: the bounds of g0 are not passed to the optimiser, `Bounded` has no bounds at all |
| C129 | the number of frequencies is compared with the number of searched parameters, this is not enough if fall-off or sharpness are free: with two frequencies below the corner frequency two different fall-offs fit the spectrum without error |
| C130 | as C129: the number of frequencies which is required is too small if fall-off or sharpness are free, and the search need not find the smallest misfit |
| C132 | if `v0` is not given, the velocity is the mean over all pairs with energies before the checks (core.py:640-643), so that a pair which is rejected later changes the velocity and the result |
| C134 | a coda window shorter than half a second which lies anywhere outside the data passes `_check_times` (the empty slice of obspy starts and ends at the window), so that the pair is kept without a single sample |
| C136 | one unusual pair stops the inversion of the band, and with it of all bands and events, instead of being skipped: a record shorter than the smoothing window (`ValueError`, core.py:675-679), a pair without noise level if `remove_noise` is off and a window ends at a signal-to-noise ratio |
| C139 | `qopen` without command is accepted by the parser and ends with `ValueError` of `run` instead of a message about the usage |
| C142 | each station keeps only one partner: a later pair overwrites an earlier one, so the returned pairs need not connect the joined areas; stations which are not at a corner of the hull do not count for the distance; of stations with equal coordinates only the last one is known; areas with fewer than three stations have no hull and raise |
| C143 | if no event has a result, `print_mag` ends with TypeError after `null` has replaced the output of an earlier run, and `align_sites` ends with TypeError |
| C144 | with more than four bands per worker of the pool several bands share the filtered waveforms (C24), so that a band which has a result alone has none together with eight others; without given velocity the reported velocity, and with it the spectrum, is the one of the last band with a result |
| C146 | in a simultaneous inversion the velocity is part of the result but not of the events: if `v0` is not configured, `recalc_source` finds no velocity (source.py:199) and removes spectrum, moment, corner frequency and fit error without calculating them again, `Mw` stays; `recalc_source` without method and options documents `null` for both (core.py:1957-1961), so that a second recalculation removes the moment |
| C147 | events with different resource identifiers but the same part after the last slash (`a/e` and `b/e`, e.g. of two agencies) have the same id (core.py:206-208): their results overwrite each other (core.py:1503) without message, only that of the last one in order of origin time is reported; if they are inverted together, the origin of the last one counts for the waveforms of all (core.py:1074-1075), each energy is appended once per event (core.py:1402-1408), so that with `k` events the spectrum of band `i` is calculated from the energy of band `i // k` |
| C151 | holds; note: if the results to be aligned have no density in their configuration, spectrum, moment and magnitude of an earlier calculation stay although the source energies are rescaled (source.py:197) |
| C154 | `--align-sites` together with `invert_events_simultaneously`, with the command `source` or with coda normalisation raises `KeyError` (`'R'` or `'W'`) or `TypeError` after the inversion and before the output is written (core.py:1943 and 1951, site.py:59 and 227), so the result of the inversion is lost. |
| C155 | `invert` writes method and options of the source model into the dictionary `plot_eventresult_options` of the caller (core.py:1430-1432); with `--align-sites` these are `None` and `{}` (core.py:1914), so that the figure of the selected event after the alignment (core.py:1955) never shows the source model, not even if its options name a method |

## 7. Wrong programs

`seeded/LOG.jsonl` has one line per edit of the model.  The edited model is
built with the modules of the claim; proofs which fail are replaced by `sorry`
in the copy until the build passes.  `theorems_failed` are these proofs,
`property_theorems_no_longer_proved` are the property theorems which depend on
one of them (dependencies of the proof terms, taken from Lean's environment).
A line counts as detected if a theorem of the claim is among them.  This shows
that the given proof does not go through for the wrong program; it is not a
proof that the statement is false for it.  Lines with `survived` are edits
which no theorem of the claim noticed at that time.
