{"id": "C01", "title": "Alignment preserves predicted energy", "statement": "After align_site_responses, for every event, station and frequency band whose site response and source energy are still reported, the product (site response) x (spectral source energy) equals the product before alignment; entries that were missing stay missing.", "quantifier": "every result dictionary, band, event, station, every factor the least-squares solver returns", "why_tests_cant": "the product must be preserved for every combination of events, stations, bands and missing entries; tests check a handful of literals", "anchors": ["qopen/site.py:_rescale_results", "qopen/site.py:align_site_responses"]}
{"id": "C02", "title": "Alignment pins the requested mean site response", "statement": "After align_site_responses, in every band that has data, the average over the pinned stations (all stations, or those named) of the per-station mean log site response equals log of the requested response exactly (in exact arithmetic), whatever least-squares minimiser the solver returned.", "quantifier": "every set of results with positive responses, every band, every requested positive response, every least-squares minimiser", "why_tests_cant": "the claim is about every network of events and stations and about any minimiser, not about a few networks", "anchors": ["qopen/site.py:align_site_responses"]}
{"id": "C03", "title": "Consistent data is aligned perfectly", "statement": "If there exist per-event factors which make every station report one and the same response for all events, then after align_site_responses every station reports the same response for all events that observed it.", "quantifier": "every consistent result dictionary, every minimiser", "why_tests_cant": "unbounded family of event/station graphs", "anchors": ["qopen/site.py:align_site_responses"]}
{"id": "C04", "title": "Alignment never worsens the misfit", "statement": "The sum of squared log-differences between consecutive observations of the same station does not increase by align_site_responses.", "quantifier": "every result dictionary, every minimiser", "why_tests_cant": "must hold for all data, including data that cannot be aligned", "anchors": ["qopen/site.py:align_site_responses"]}
{"id": "C05", "title": "Only the largest connected area survives alignment", "statement": "After align_site_responses, in each band exactly the stations of the largest connected area keep their (rescaled) responses, every other response is None, and the source energy of an event is None iff no station of the event survives.", "quantifier": "every result dictionary, band, event and station", "why_tests_cant": "depends on every possible graph of shared stations", "anchors": ["qopen/site.py:_rescale_results", "qopen/site.py:_find_unconnected_areas", "qopen/site.py:align_site_responses"]}
{"id": "C06", "title": "Unconnected areas are the connected components", "statement": "The areas determined for alignment are pairwise disjoint, cover exactly the stations with data, and two stations lie in the same area iff they are linked by a chain of events sharing stations; the search terminates and no area is lost when areas are stored under the name of one member.", "quantifier": "every list of station sets, any choice of area names", "why_tests_cant": "fix-point iteration over arbitrary set families; tests use fixed small families", "anchors": ["qopen/site.py:_merge_sets", "qopen/site.py:_find_unconnected_areas"]}
{"id": "C07", "title": "Sparse and dense solver paths build the same system", "statement": "With use_sparse=True and use_sparse=False align_site_responses builds the same coefficient matrix and right hand side.", "quantifier": "every sequence of equations added during alignment", "why_tests_cant": "needs all sequences of matrix updates", "anchors": ["qopen/site.py:align_site_responses.construct_ols"]}
{"id": "C08", "title": "Alignment does not depend on the solver", "statement": "Any two least-squares minimisers of the alignment system give the same aligned site responses and source energies for everything that is retained.", "quantifier": "every result dictionary and every pair of minimisers", "why_tests_cant": "solver output is quantified; tests compare two solvers on one data set", "anchors": ["qopen/site.py:align_site_responses"]}
{"id": "C09", "title": "Alignment keeps every event with results, ordered by id", "statement": "align_site_responses drops exactly the events without result, sorts the others by event id, and rejects results whose events have different numbers of bands.", "quantifier": "every result dictionary", "why_tests_cant": "order and membership for all dictionaries", "anchors": ["qopen/site.py:align_site_responses", "qopen/site.py:_get_number_of_freqs"]}
{"id": "C10", "title": "Alignment is idempotent", "statement": "Aligning already aligned results with the same options does not change any retained response or source energy.", "quantifier": "every result dictionary and every minimiser of both runs", "why_tests_cant": "two-run history property over all data", "anchors": ["qopen/site.py:align_site_responses"]}
{"id": "C11", "title": "Only the named stations are pinned", "statement": "If a station (or list of stations) is named for normalisation, exactly the named stations enter the normalisation.", "quantifier": "every station name and every network", "why_tests_cant": "name matching must be right for all pairs of names", "anchors": ["qopen/site.py:align_site_responses"]}
{"id": "C12", "title": "The site response table after alignment describes the aligned data", "statement": "After align_site_responses every entry of the station table of mean site responses is computed from aligned responses; stations without any retained response do not keep a value.", "quantifier": "every result dictionary", "why_tests_cant": "stale entries only show up for particular histories", "anchors": ["qopen/site.py:align_site_responses"]}
{"id": "C13", "title": "Inverted parameters mean what they say", "statement": "For every solution vector of the weighted linear system, the reported R, W and b reproduce the system: for each sample of event e at station s the modelled log(E/G) equals ln R_s + ln W_e - b t (with g0, b fixed: ln R_s + ln W_e after moving b t to the data).", "quantifier": "every list of event-station pairs (any number of events, stations, incomplete combinations), window lengths, with or without bulk window, fixed or free attenuation, every solution vector", "why_tests_cant": "index bookkeeping between matrix columns, stations and events must be right for every pair list", "anchors": ["qopen/core.py:invert_fb", "qopen/core.py:invert_fb.lstsq"]}
{"id": "C14", "title": "Geometric mean of site amplification equals R0", "statement": "For every inversion with free site responses the geometric mean of the reported site amplification factors equals R0.", "quantifier": "every solution vector, every station count, every positive R0", "why_tests_cant": "needs all solution vectors", "anchors": ["qopen/core.py:invert_fb.lstsq"]}
{"id": "C15", "title": "Scaling of source energies", "statement": "Multiplying all observed energies by k multiplies every W by k and leaves R, b and the misfit unchanged; multiplying R0 by k divides W by k and multiplies R by k.", "quantifier": "all data, weights, k>0 and minimisers", "why_tests_cant": "equivariance over all data", "anchors": ["qopen/core.py:invert_fb.lstsq"]}
{"id": "C16", "title": "Exact recovery from noise-free envelopes", "statement": "If the observed energies are exactly R_s W_e G e^{-bt} with geometric mean of R equal to R0, events connected by common stations and at least one window with two different times, then the inversion returns exactly these R, W, b and misfit 0.", "quantifier": "all parameter values, geometries and windows", "why_tests_cant": "identifiability for every configuration", "anchors": ["qopen/core.py:invert_fb.lstsq"]}
{"id": "C17", "title": "Reported attenuation is strictly inside the bounds", "statement": "Whenever a band reports a result, 1.01 b_min < b < 0.99 b_max and 1.01 g_min < g0 < 0.99 g_max (for bounds that are set); otherwise the band reports no result, also for fixed parameters.", "quantifier": "every outcome of optimisation and inversion", "why_tests_cant": "all optimiser outcomes", "anchors": ["qopen/core.py:invert_fb"]}
{"id": "C18", "title": "No misattribution of windows to pairs", "statement": "After all per-pair rejections in a band, the k-th coda window, k-th bulk value, k-th weight and the k-th event-station pair all belong to the same pair, in the original order, and each surviving pair passed every check.", "quantifier": "every list of pairs and every pattern of rejections", "why_tests_cant": "all rejection patterns", "anchors": ["qopen/core.py:invert_fb", "qopen/core.py:_get_slice"]}
{"id": "C19", "title": "Source command uses the reference site responses", "statement": "With fixed attenuation and sites, each sample is corrected with the reference response of its own station, pairs without reference response are left out, and for the solution the modelled log energy is ln R_ref + ln W - b t.", "quantifier": "all pair lists, reference tables and solution vectors", "why_tests_cant": "index bookkeeping", "anchors": ["qopen/core.py:invert_fb"]}
{"id": "C20", "title": "Green's function front coincides with the S-onset", "statement": "The time axis assigned to coda and bulk samples is such that a sample lies at or after the arrival of the direct wave of the model (v0 t >= r) iff it lies at or after the S-onset.", "quantifier": "every window, sampling rate, onset, distance and v0", "why_tests_cant": "all real parameters", "anchors": ["qopen/core.py:invert_fb"]}
{"id": "C21", "title": "Bulk energy is attributed to a time inside the bulk window", "statement": "For non-negative energies with positive sum the balanced time of the bulk window lies between its first and last sample time, and the bulk energy lies between minimum and maximum energy.", "quantifier": "all windows", "why_tests_cant": "inequality for all data", "anchors": ["qopen/core.py:invert_fb"]}
{"id": "C22", "title": "Noise removal keeps energies positive", "statement": "After noise removal every sample is at least noise/100 (hence positive), samples well above noise are exactly reduced by the noise level, and order between samples is preserved.", "quantifier": "all envelopes and noise levels", "why_tests_cant": "all data", "anchors": ["qopen/core.py:invert_fb"]}
{"id": "C23", "title": "Result tables are rectangular", "statement": "In every result of an inversion freq, g0, b, error, nstations, every station row of R and every event row of W have one entry per band in the order of the bands; the entry is None exactly if the band (or station/event in that band) has no result.", "quantifier": "every list of band results, stations and events", "why_tests_cant": "all patterns of failing bands", "anchors": ["qopen/core.py:invert"]}
{"id": "C24", "title": "Results do not depend on njobs", "statement": "The band results are the same for sequential processing and for any number of workers and any completion order, and each band only sees the original waveforms even though processing modifies them in place.", "quantifier": "every schedule of workers, every number of bands", "why_tests_cant": "schedules cannot be enumerated by tests", "anchors": ["qopen/core.py:invert"]}
{"id": "C25", "title": "Events are processed in order of origin time", "statement": "invert_wrapper processes exactly the events with an origin, each once, in order of origin time; events without origin are ignored.", "quantifier": "every catalogue, including equal origin times and empty catalogues", "why_tests_cant": "tests only use catalogues with distinct times", "anchors": ["qopen/core.py:invert_wrapper"]}
{"id": "C26", "title": "Overall attenuation is the geometric mean over events", "statement": "With the plain mean the reported g0, b and error of each band is the geometric mean over the events with a result in that band and None iff no event has one.", "quantifier": "all tables of event results", "why_tests_cant": "all patterns of missing values", "anchors": ["qopen/core.py:invert_wrapper", "qopen/util.py:gmeanlist"]}
{"id": "C27", "title": "Fixed attenuation is taken from the right band", "statement": "With commands fixed and source, each band uses g0 and b of the same central frequency of the input, independent of the order of frequencies in the input; different frequency sets are rejected; bands without g0 or b are skipped.", "quantifier": "all inputs and band lists", "why_tests_cant": "all permutations of frequencies", "anchors": ["qopen/core.py:invert", "qopen/core.py:invert_fb"]}
{"id": "C28", "title": "Only acceptable pairs are inverted", "statement": "Every pair that reaches the inversion is an event-station combination of the input, not farther than skip.distance, has P- and S-onset, three gap-free traces covering the request window; every pair satisfying all conditions reaches it; pairs are ordered by origin time and distance.", "quantifier": "all catalogues, inventories and waveform availability patterns", "why_tests_cant": "all rejection patterns", "anchors": ["qopen/core.py:invert"]}
{"id": "C29", "title": "skip.num_pairs threshold", "statement": "An event/band is skipped if and only if the number of pairs is smaller than skip.num_pairs (documentation).", "quantifier": "all numbers of pairs and thresholds", "why_tests_cant": "boundary behaviour for all counts", "anchors": ["qopen/core.py:invert", "qopen/core.py:invert_fb"]}
{"id": "C30", "title": "SNR window ends at first low sample", "statement": "A time \"x SNR\" resolves to the first sample after the start time whose energy is below x times the noise level, all samples before are at or above the level, and to the end of the data if there is none.", "quantifier": "all traces, noise levels and SNR values", "why_tests_cant": "all data", "anchors": ["qopen/core.py:time2utc"]}
{"id": "C31", "title": "Time strings resolve as documented", "statement": "OT/P/S+-x s, xPtt, xStt strings resolve to the documented times for every number, case-insensitively; all other strings are rejected with ValueError.", "quantifier": "all strings", "why_tests_cant": "infinite grammar", "anchors": ["qopen/core.py:time2utc"]}
{"id": "C32", "title": "Lists of times take latest start and earliest end", "statement": "A window given as lists starts at the latest of the start candidates and ends at the earliest of the end candidates.", "quantifier": "all lists of time expressions", "why_tests_cant": "all lists", "anchors": ["qopen/core.py:tw2utc"]}
{"id": "C33", "title": "Coda is cut at the right minimum", "statement": "If a cut time is returned it is the position of the lowest preceding local minimum (or window start) of the first local maximum exceeding ratio times this minimum; if nothing is returned no local maximum exceeds the ratio.", "quantifier": "all envelopes", "why_tests_cant": "all data", "anchors": ["qopen/core.py:_get_local_minimum"]}
{"id": "C34", "title": "Observed energy", "statement": "Observed energy is sample-wise the sum of channel energies, non-negative, quadratic in amplitude, proportional to density, has the length of the shortest channel; streams whose channel lengths differ by more than the tolerance are rejected.", "quantifier": "all streams", "why_tests_cant": "all data", "anchors": ["qopen/core.py:observed_energy", "qopen/core.py:energy1c"]}
{"id": "C35", "title": "Coda normalisation removes amplitude", "statement": "With coda normalisation the mean in the normalisation window is one, and scaling the stream amplitude does not change the result. The inversion of normalised energies reports the attenuation of the best common fit A*G*exp(-b*t) for all stations and events, recovers it exactly from exact data, reports neither site responses nor source energies, and is never combined with fixed attenuation.", "quantifier": "all streams and windows, all lists of event-station pairs", "why_tests_cant": "all data", "anchors": ["qopen/core.py:observed_energy", "qopen/core.py:invert_fb"]}
{"id": "C36", "title": "Frequency bands", "statement": "get_freqs yields bands with the requested octave width around each central frequency; central frequencies form a geometric series with ratio 2**step that ends at max, stays >= min and cannot be extended; explicit bands are sorted with arithmetic centre.", "quantifier": "all parameters", "why_tests_cant": "all real parameters", "anchors": ["qopen/core.py:get_freqs"]}
{"id": "C37", "title": "Station and event ids", "statement": "For every SEED id NET.STA.LOC.CHA the station name is NET.STA (STA for an empty network), independent of location and channel; distinct stations get distinct names; the event id is the part after the last slash.", "quantifier": "all code strings", "why_tests_cant": "all strings", "anchors": ["qopen/core.py:get_station", "qopen/core.py:get_eventid"]}
{"id": "C38", "title": "Choice of origin, magnitude, arrivals and picks", "statement": "Origin/magnitude are the preferred one else the first one; arrivals come from the origin, else the first origin, else the only origin with arrivals; picks are the last P/Pg and S/Sg pick of the station.", "quantifier": "all events", "why_tests_cant": "all event structures", "anchors": ["qopen/core.py:get_origin", "qopen/core.py:get_magnitude", "qopen/core.py:get_arrivals", "qopen/core.py:get_picks"]}
{"id": "C39", "title": "collect_results collects everything once", "statement": "For each requested key exactly the values of the events having it are collected in event order, per station for R; events without result contribute nothing.", "quantifier": "all result dictionaries", "why_tests_cant": "all patterns of missing keys", "anchors": ["qopen/core.py:collect_results"]}
{"id": "C40", "title": "Result dictionaries are re-ordered losslessly", "statement": "sort_dict returns the same items in dump order, is idempotent, and raises exactly if a key is unknown; results of inversion never contain unknown keys.", "quantifier": "all dictionaries", "why_tests_cant": "all dictionaries", "anchors": ["qopen/core.py:sort_dict", "qopen/core.py:invert_wrapper"]}
{"id": "C41", "title": "Caching is transparent", "statement": "For every history of calls a cached function returns what the plain function returns if equal argument texts imply equal results, evaluates the function at most once per argument text, and does not remember failures.", "quantifier": "all call histories", "why_tests_cant": "histories", "anchors": ["qopen/util.py:cache"]}
{"id": "C42", "title": "smooth keeps the length", "statement": "smooth returns an array of the same length for methods zeros, reflect and clip, and of length n-w+1 without border handling, for all window types; too short input is rejected.", "quantifier": "all inputs, window lengths, window types", "why_tests_cant": "all sizes", "anchors": ["qopen/util.py:smooth"]}
{"id": "C43", "title": "smooth is a centred weighted average", "statement": "Each output sample is the weighted average with non-negative weights of sum one of the neighbouring samples j-(w-1)//2..j+w//2, so constants are preserved and the output stays between minimum and maximum (reflect, clip, None).", "quantifier": "all inputs", "why_tests_cant": "all data", "anchors": ["qopen/util.py:smooth"]}
{"id": "C44", "title": "smooth_func smooths on the same grid", "statement": "smooth_func returns one value per sample time: the weighted average of f on the continued regular grid; unevenly spaced times are rejected.", "quantifier": "all functions, grids and windows", "why_tests_cant": "all sizes", "anchors": ["qopen/util.py:smooth_func"]}
{"id": "C45", "title": "Geometric mean", "statement": "gmean lies between smallest and largest valid value, is equivariant under scaling and reciprocal, invariant under permutation and under scaling of the weights, and ignores invalid values.", "quantifier": "all data and weights", "why_tests_cant": "all data", "anchors": ["qopen/util.py:gmean", "qopen/util.py:gstat", "qopen/util.py:weighted_stat"]}
{"id": "C46", "title": "Geometric error bars", "statement": "gerr returns non-negative lower and upper errors, lower error smaller than the mean, lower <= upper, and mean-lower and mean+upper symmetric on log scale.", "quantifier": "all data", "why_tests_cant": "all data", "anchors": ["qopen/util.py:gerr"]}
{"id": "C47", "title": "Weights behave like repetitions", "statement": "Integer weights give the same mean and biased error as repeating the values; equal weights give the same result as no weights (mean, biased and unbiased error); unbiased error is not smaller than biased error.", "quantifier": "all data and weights", "why_tests_cant": "all data", "anchors": ["qopen/util.py:weighted_stat"]}
{"id": "C48", "title": "Robust mean falls back to the plain mean", "statement": "With fewer than fall_back valid points robust_stat equals the plain statistics, for constant data it returns the constant and zero error.", "quantifier": "all data, any robust estimator", "why_tests_cant": "all data and estimator outputs", "anchors": ["qopen/util.py:robust_stat"]}
{"id": "C49", "title": "Means written to JSON never contain NaN", "statement": "gmeanlist returns one entry per band, None iff no valid value exists, never NaN.", "quantifier": "all tables", "why_tests_cant": "all patterns", "anchors": ["qopen/util.py:gmeanlist"]}
{"id": "C50", "title": "Green's function is causal", "statement": "G is zero for every sample before the direct arrival, for scalar and array arguments and all types.", "quantifier": "all types, times, distances", "why_tests_cant": "all real parameters", "anchors": ["qopen/rt.py:G"]}
{"id": "C51", "title": "Array evaluation agrees with scalar evaluation", "statement": "Evaluating G on a sorted array of times or distances gives for each sample the value of the scalar evaluation, apart from the bin that carries the direct wave.", "quantifier": "all sorted arrays", "why_tests_cant": "all arrays", "anchors": ["qopen/rt.py:G"]}
{"id": "C52", "title": "Green's function is positive behind the front", "statement": "For r < c t all Green functions are positive.", "quantifier": "all parameters", "why_tests_cant": "all real parameters", "anchors": ["qopen/rt.py:rt3d_coda", "qopen/rt.py:rt2d_coda", "qopen/rt.py:rt1d_coda", "qopen/rt.py:diff"]}
{"id": "C53", "title": "Dimensional scaling of Green's functions", "statement": "For all types G(s r, s t, c, g0/s) = s^-dim G(r,t,c,g0), and G depends on t and c only via c t; so results do not depend on the unit of length/time.", "quantifier": "all parameters and scale factors", "why_tests_cant": "all real parameters", "anchors": ["qopen/rt.py:rt3d_coda", "qopen/rt.py:diff"]}
{"id": "C54", "title": "2D radiative transfer conserves energy exactly", "statement": "Integral of coda term plus direct term over the plane equals 1 for all times.", "quantifier": "all c, t, g0 > 0", "why_tests_cant": "test only checks numerically 3 times with 0.5% tolerance", "anchors": ["qopen/rt.py:rt2d_coda", "qopen/rt.py:rt2d_direct"]}
{"id": "C55", "title": "1D radiative transfer conserves energy exactly", "statement": "Integral of coda term plus the two direct terms over the line equals 1 for all times.", "quantifier": "all c, t, g0 > 0", "why_tests_cant": "test only checks numerically 3 times", "anchors": ["qopen/rt.py:rt1d_coda", "qopen/rt.py:rt1d_direct"]}
{"id": "C56", "title": "Diffusion Green's function is normalised", "statement": "The space integral of the diffusion solution is 1 in one, two and three dimensions.", "quantifier": "all c,t,g0 > 0", "why_tests_cant": "all real parameters", "anchors": ["qopen/rt.py:diff"]}
{"id": "C57", "title": "3D radiative transfer tends to diffusion", "statement": "For fixed distance the ratio of 3D coda term and 3D diffusion tends to 1 for large times, and diffapprox likewise.", "quantifier": "all r, c, g0", "why_tests_cant": "limit statement", "anchors": ["qopen/rt.py:rt3d_coda", "qopen/rt.py:diff", "qopen/rt.py:diffapprox"]}
{"id": "C58", "title": "Unknown type of Green function is rejected", "statement": "G raises for a type which is not one of the documented types.", "quantifier": "all type strings and arguments", "why_tests_cant": "all strings and arguments", "anchors": ["qopen/rt.py:G"]}
{"id": "C59", "title": "Absorption", "statement": "With absorption length the rt command multiplies the value at time t by exp(-c t/la), for single values and for every sample of plots.", "quantifier": "all times", "why_tests_cant": "all samples", "anchors": ["qopen/rt.py:main", "qopen/rt.py:plot_t"]}
{"id": "C60", "title": "Moment magnitude and seismic moment are inverse", "statement": "moment_magnitude and its inverse are mutually inverse and strictly increasing.", "quantifier": "all M0 > 0 and all Mw", "why_tests_cant": "all real numbers", "anchors": ["qopen/source.py:moment_magnitude"]}
{"id": "C61", "title": "Source model shape", "statement": "source_model is positive, at most M0, strictly decreasing with frequency, linear in M0, tends to M0 for low frequency, equals M0 2^(-1/gamma) at the corner and falls off like f^-n.", "quantifier": "all parameters", "why_tests_cant": "all real parameters", "anchors": ["qopen/source.py:source_model"]}
{"id": "C62", "title": "Fit of both fall-off and sharpness is reported in the documented parameters", "statement": "If n and gamma are both free, the reported n and gamma describe the fitted curve: source_model with reported values equals the fitted curve.", "quantifier": "all fit results", "why_tests_cant": "all real parameters", "anchors": ["qopen/source.py:fit_sds"]}
{"id": "C63", "title": "fit_sds decides correctly when to report", "statement": "fit_sds reports M0 iff enough valid points exist; method mean uses exactly the valid values below fc; no combination of free parameters leads to a missing internal function; otherwise None is returned as documented.", "quantifier": "all data and option combinations", "why_tests_cant": "all combinations", "anchors": ["qopen/source.py:fit_sds"]}
{"id": "C64", "title": "Fitted moment is optimal", "statement": "With fixed fc, n, gamma the ordinary fit returns the M0 which minimises the squared log misfit, recovers M0 exactly for exact data with zero error.", "quantifier": "all data", "why_tests_cant": "all data", "anchors": ["qopen/source.py:fit_sds.lstsq"]}
{"id": "C65", "title": "Scaling of source displacement spectrum", "statement": "sds is positive, increasing in W, scales with W^(1/2), v^(5/2), rho^(1/2), 1/f.", "quantifier": "all parameters", "why_tests_cant": "all real parameters", "anchors": ["qopen/source.py:sds"]}
{"id": "C66", "title": "Spectra are aligned with frequencies", "statement": "The inserted source displacement spectrum has one entry per frequency; entry i is None iff W is missing, else sds of W at that frequency.", "quantifier": "all event results", "why_tests_cant": "all patterns of missing values", "anchors": ["qopen/source.py:insert_source_properties"]}
{"id": "C67", "title": "Recalculation leaves no stale source parameters", "statement": "calculate_source_properties replaces all source parameters by values derived from W, is idempotent.", "quantifier": "all result dictionaries", "why_tests_cant": "stale values depend on history", "anchors": ["qopen/source.py:calculate_source_properties"]}
{"id": "C68", "title": "Precedence of options", "statement": "Keyword arguments of run override the configuration file, --overwrite-conf overrides command line flags; everything else is kept. The inversion gets exactly these options, except for the ones which run handles itself (logging, output, reading of data, figures, alignment); eventid, plots, print_mag and tutorial are only taken from the call.", "quantifier": "all option sets", "why_tests_cant": "all combinations", "anchors": ["qopen/core.py:run", "qopen/core.py:run_cmdline"]}
{"id": "C69", "title": "Comments in the configuration", "statement": "Everything after # in a line is ignored, texts without # are unchanged, line structure is kept, decoding is invariant under changing comments; # inside strings is kept.", "quantifier": "all texts", "why_tests_cant": "all texts", "anchors": ["qopen/core.py:ConfigJSONDecoder"]}
{"id": "C70", "title": "Prefix is added exactly once to each output file", "statement": "With prefix p every configured output/plot file name f becomes p+f, for every call in a history of calls with the same options.", "quantifier": "all option sets and call histories", "why_tests_cant": "history dependent", "anchors": ["qopen/core.py:run"]}
{"id": "C71", "title": "Failing data source is reported as missing data", "statement": "The get_waveforms wrapper returns the data if the source returns, None if it raises any ordinary exception, and only lets KeyboardInterrupt/SystemExit through.", "quantifier": "all sources", "why_tests_cant": "all exceptions", "anchors": ["qopen/core.py:init_data"]}
{"id": "C72", "title": "input_sites replaces site responses", "statement": "With input_sites the site responses (overall and per event) of the input are replaced by those of the second file.", "quantifier": "all input pairs", "why_tests_cant": "all structures", "anchors": ["qopen/core.py:run"]}
{"id": "C73", "title": "Logging set-up", "statement": "Console level follows verbosity (clamped to 3); without log file or loglevel 0 no file handler exists; invalid levels raise.", "quantifier": "all option values", "why_tests_cant": "all values", "anchors": ["qopen/core.py:configure_logging"]}
{"id": "C74", "title": "Configuration is documented in results", "statement": "The config entry of the result contains exactly the passed options which are listed for dumping plus mean and invert_events_simultaneously, in dump order, and sorting never fails.", "quantifier": "all option sets", "why_tests_cant": "all option sets", "anchors": ["qopen/core.py:invert_wrapper"]}
{"id": "C75", "title": "No result is reported as None", "statement": "If no event yields a result invert_wrapper returns None in both modes.", "quantifier": "all patterns of failing events", "why_tests_cant": "all patterns", "anchors": ["qopen/core.py:invert_wrapper"]}
{"id": "C76", "title": "Derived quantities", "statement": "calc_dependent yields Qsc^-1 = g0 v0/(2 pi f), Qi^-1 = b/(2 pi f), lsc=1/g0, li=v0/b in km; hence consistent relations between them; for every v0 that is not needed the value is still computed.", "quantifier": "all values", "why_tests_cant": "all real parameters", "anchors": ["qopen/imaging.py:calc_dependent"]}
{"id": "C77", "title": "All panels fit in the grid", "statement": "For every number of panels the grid of plots has room for each panel and no two panels share a cell.", "quantifier": "all panel counts and numbers of columns", "why_tests_cant": "all sizes", "anchors": ["qopen/imaging.py:_get_grid", "qopen/imaging.py:plot_all_sds"]}
{"id": "C78", "title": "Frequency limits enclose the data", "statement": "freqlim encloses all frequencies of a sorted list with at least two distinct entries.", "quantifier": "all lists", "why_tests_cant": "all lists", "anchors": ["qopen/imaging.py:freqlim"]}
{"id": "C79", "title": "Alignment succeeds on complete results", "statement": "align_site_responses returns a result (no exception) for every result dictionary in which every event with a result has one energy and one response per station and band, with the default selection of stations; without any event with a result it raises TypeError.", "quantifier": "all result dictionaries and patterns of missing values", "why_tests_cant": "every combination of missing values could hit an unhandled case", "anchors": ["qopen/site.py:align_site_responses"]}
{"id": "C80", "title": "Axis labels of grids", "statement": "In every grid of panels exactly one panel carries the label of the y axis and exactly one the label of the x axis.", "quantifier": "all panel counts and numbers of columns", "why_tests_cant": "all sizes", "anchors": ["qopen/imaging.py:_set_gridlabels", "qopen/imaging.py:_get_grid"]}
{"id": "C81", "title": "Figure of the optimisation", "statement": "Each of the drawn fits of the optimisation has its own panel next to the misfit curve; the fits are different, at most num, and contain the final fit, which is drawn last and marked as best.", "quantifier": "all numbers of panels and sequences of tried values", "why_tests_cant": "all sequences of evaluations of the optimiser", "anchors": ["qopen/imaging.py:plot_optimization", "qopen/core.py:invert_fb"]}
{"id": "C82", "title": "Plotted fits show the model", "statement": "In plots of fits the distance between sample and line is the logarithm of observed over modelled energy; samples lie on the line exactly if the model explains them; windows and whole traces share one time axis.", "quantifier": "all fits and samples", "why_tests_cant": "all real parameters", "anchors": ["qopen/imaging.py:plot_lstsq", "qopen/imaging.py:plot_fits"]}
{"id": "C83", "title": "Filter follows the frequency band", "statement": "A pair takes part in a band iff the centre of the band lies below the Nyquist frequency (and a needed reference response exists and its energy can be computed); its data are filtered between the corners of the band (above the lower corner if the upper one reaches Nyquist) and energies refer to the width of the same filter.", "quantifier": "all bands and sampling rates", "why_tests_cant": "all real parameters", "anchors": ["qopen/core.py:invert_fb"]}
{"id": "C84", "title": "Course of a run and its output", "statement": "A successful run of an inverting or recalculating command configures logging, inverts once (recalc_source: not at all), draws figures, then writes the returned result exactly once as requested (stdout, a file with the prefix and the given indentation, or nothing for none/null/empty names) and prints one magnitude per event on request; without alignment the written and returned result is the one of the inversion. Every accepted command leaves a complete output file.", "quantifier": "all option sets, files and worlds", "why_tests_cant": "all combinations of options and failures", "anchors": ["qopen/core.py:run"]}
{"id": "C85", "title": "Selection of an event", "statement": "With eventid only the events with this id are processed, in catalogue order and with otherwise the same options; an unknown id raises ParseError (IndexError for an empty catalogue) before anything is inverted, drawn or written; command plot shows exactly the selected event of the input. Holds for every command which accepts the option.", "quantifier": "all catalogues, ids and commands", "why_tests_cant": "all catalogues and commands", "anchors": ["qopen/core.py:run"]}
{"id": "C86", "title": "Unreadable stations, events or data", "statement": "If the inventory, the events or the data source cannot be read, run raises no exception, inverts, draws and writes nothing and returns None.", "quantifier": "all option sets and failures while reading", "why_tests_cant": "every failing call while reading", "anchors": ["qopen/core.py:run"]}
{"id": "C87", "title": "Commands and configuration file", "statement": "Unknown commands raise ValueError before anything happens; an unreadable or invalid configuration leads to a message only; create only copies the example files next to the configuration.", "quantifier": "all calls", "why_tests_cant": "all calls", "anchors": ["qopen/core.py:run"]}
{"id": "C88", "title": "Figures on request only", "statement": "After alignment or recalculation run draws exactly the requested figures for which the result has data, under the configured file name with prefix (event id filled in for figures of events), and drawing does not change the result which is returned and written.", "quantifier": "all option sets and results", "why_tests_cant": "all combinations of options and results", "anchors": ["qopen/core.py:_plot", "qopen/core.py:run", "qopen/imaging.py:plot_results"]}
{"id": "C89", "title": "Missing input results", "statement": "The commands fixed, source, recalc_source and plot do nothing and return no result if no results of a previous run are given.", "quantifier": "all option sets", "why_tests_cant": "all option sets", "anchors": ["qopen/core.py:run", "qopen/core.py:_load_json_results"]}
{"id": "C90", "title": "Width of the filter", "statement": "The width of the filter used for the spectral energy is the sum of the power gain over frequencies up to Nyquist: it is positive, not larger than the Nyquist frequency, not larger for zero-phase filters than for single-pass ones, scales with the unit of frequency and tends to the difference of the corner frequencies (up to the resolution sampling rate/1024) for many corners.", "quantifier": "all filter types, corners, corner frequencies and sampling rates", "why_tests_cant": "all real parameters", "anchors": ["qopen/core.py:filter_width"]}
{"id": "C91", "title": "Weighted and robust means over the events", "statement": "With mean weighted the reported g0, b, error and site responses are geometric means of the values of the events with positive value, weighted by the inverse misfit of the same event in the same band (without mean in a band in which a value has no or zero misfit); with mean robust they are the robust estimate for five or more different values and the geometric mean for fewer; equal misfits give the plain mean. Holds for every catalogue and every pattern of stations.", "quantifier": "all catalogues, patterns of missing values and values", "why_tests_cant": "all patterns of missing stations and bands", "anchors": ["qopen/core.py:invert_wrapper", "qopen/core.py:collect_results", "qopen/util.py:gmeanlist"]}
{"id": "C92", "title": "Green's functions are the published ones", "statement": "The functions G_diff1d/2d/3d, G_rt1d/2d/3d and the commands calc and calc-direct give, for every distance, time, velocity and scattering coefficient, the published solutions (diffusion; Hemmer 1961 for 1D, Sato 1993 for 2D, Paasschens 1997 for 3D) for exactly the requested type, with mean free path l = 1/g0.", "quantifier": "all distances, times, velocities, coefficients and types", "why_tests_cant": "all real parameters", "anchors": ["qopen/rt.py:G_rt3d", "qopen/rt.py:G_rt2d", "qopen/rt.py:G_rt1d", "qopen/rt.py:main"]}
{"id": "C93", "title": "Figure of the results shows the reported results", "statement": "plot_results draws one panel per requested quantity in this order. With the kind of mean of the inversion its marks are in each band the reported g0, b or error, or the quality factor or path length derived from it with the velocity of the call or the configuration; grey points are the values of the events; error bars are those of the geometric mean and keep their factor for derived quantities; bars count the events with a value. Holds for all events inverted one by one or simultaneously and for all kinds of mean.", "quantifier": "all results, quantities, velocities and kinds of mean", "why_tests_cant": "all patterns of missing values and bands", "anchors": ["qopen/imaging.py:plot_results", "qopen/imaging.py:calc_dependent", "qopen/util.py:gerr"]}
{"id": "C94", "title": "Figure of the site responses shows the reported site responses", "statement": "plot_sites draws one panel for each station with a value, in alphabetic order, lists the other stations as excluded, shows the values of the events and as marks the reported site responses for the kind of mean of the inversion, and colours marks by the number of events with a value, with the largest number at the end of the scale. Holds for all results.", "quantifier": "all results and kinds of mean", "why_tests_cant": "all patterns of missing stations and bands", "anchors": ["qopen/imaging.py:plot_sites", "qopen/core.py:collect_results"]}
{"id": "C95", "title": "Figures of source spectra show the reported spectra and the fitted model", "statement": "plot_sds and plot_all_sds draw for each selected event, in the order of the events, the reported spectrum, a dashed line at the reported moment and, for fit methods, the fitted source model, i.e. the curve with the reported or given parameters whose misfit to the drawn points is the reported error; points are coloured by the number of stations on one scale for all events, which the colour bar explains; the annotation consists of the reported numbers. Holds for all methods and all results.", "quantifier": "all results, options and methods", "why_tests_cant": "all combinations of free parameters, missing spectra and events", "anchors": ["qopen/imaging.py:plot_sds", "qopen/imaging.py:plot_all_sds", "qopen/source.py:source_model", "qopen/source.py:insert_source_properties"]}
{"id": "C96", "title": "Figure of magnitudes", "statement": "plot_mags shows exactly the selected events with both magnitudes; the line is drawn for more than three events and is the regression of moment magnitude on catalogue magnitude; the second axis shows the reported seismic moment of the events.", "quantifier": "all results", "why_tests_cant": "all patterns of missing magnitudes", "anchors": ["qopen/imaging.py:plot_mags", "qopen/imaging.py:_secondary_yaxis_seismic_moment", "qopen/util.py:linear_fit"]}
{"id": "C97", "title": "Figures of a single event show its reported values", "statement": "plot_eventresult draws the requested quantities in this order with the reported values, or values derived from them with frequency and velocity of the event, gaps for missing values; plot_eventsites draws one panel for each station in alphabetic order with the reported site responses and limits the axis to their range.", "quantifier": "all results of an event", "why_tests_cant": "all patterns of missing values", "anchors": ["qopen/imaging.py:plot_eventresult", "qopen/imaging.py:plot_eventsites"]}
{"id": "C98", "title": "Alignment and recalculation in a run", "statement": "With align_sites a run aligns the result of its inversion (for recalc_source the input results, with the site responses of input_sites) with the given method, options, site response (1 by default) and stations, where names separated by commas stand for several stations; recalc_source without alignment recalculates the source parameters of its input. The arguments used are documented in the configuration of the returned result, all other entries of configuration and result are the ones of the aligned or recalculated result.", "quantifier": "all configurations, calls, environments and results", "why_tests_cant": "options from two sources, stations as text or list, missing and existing configuration", "anchors": ["qopen/core.py:run", "qopen/core.py:align_site_responses", "qopen/core.py:calculate_source_properties"]}
{"id": "C99", "title": "Options of command plot", "statement": "Command plot draws the requested figures of the given results; options given neither in the call nor in a configuration file are those documented in the results, if no configuration file is given. The configured file names are used, with the prefix.", "quantifier": "all results, configurations and calls", "why_tests_cant": "combination of three sources of options", "anchors": ["qopen/core.py:run", "qopen/core.py:_plot"]}
{"id": "C100", "title": "Requests are answered by the configured data source", "statement": "init_data takes the waveforms from the function handed over, else from the client of ObsPy named by option data (built with client_options, requests without the event), else for data \"plugin\" from the function \"module : func\" (blanks do not matter), else from the file or stream, and fails exactly if this source cannot be initialised. In every history of requests, while services come and go, each request is answered with what this source delivers at that moment, None if it fails. A cache is used exactly for web services and plugins and changes no answer; a request which was completed is never sent to the source again.", "quantifier": "all configurations, histories of requests of one or several runs, states of the world", "why_tests_cant": "all histories and failures", "anchors": ["qopen/core.py:init_data", "qopen/core.py:_load_func"]}
{"id": "C101", "title": "Module search path", "statement": "Initialising the data source or loading a plugin leaves the search path for modules unchanged.", "quantifier": "all plugins and search paths", "why_tests_cant": "all failures", "anchors": ["qopen/core.py:_load_func", "qopen/core.py:init_data"]}
{"id": "C102", "title": "Instrument correction", "statement": "With remove_response each pair with a response for each of its channels keeps its place, the data of each channel are divided by the sensitivity of this channel or deconvolved with its response and the given options; all other pairs are skipped and nothing else changes; a correction which fails never stops the inversion; figures are named after the event and channel they show.", "quantifier": "all streams, inventories, options and failures", "why_tests_cant": "all combinations of missing responses and failures", "anchors": ["qopen/core.py:invert", "qopen/core.py:_remove_response"]}
{"id": "C103", "title": "Stations and events are read as configured", "statement": "Inventory and events are used as given or read from the given file, with the given format and options of the reader, the inventory being handed to the reader exactly if names of stations have to be resolved; then the configured selection is applied. The options of the caller are not changed.", "quantifier": "all options, readers and files", "why_tests_cant": "all option sets and sequences of calls", "anchors": ["qopen/core.py:run"]}
{"id": "C104", "title": "Adjusted S onset", "statement": "If the S onset is to be adjusted, the onset of each energy envelope becomes the time of the first sample with the largest energy inside the given window (up to half a sampling interval), where the window is evaluated with the onset given before; otherwise the onset is left as it is. A pair without data in the window affects only this pair.", "quantifier": "all streams, sampling rates, start times and windows", "why_tests_cant": "all envelopes and positions of the data relative to the window", "anchors": ["qopen/core.py:invert_fb"]}
{"id": "C105", "title": "Limits and start of the source fit", "statement": "The corner frequency found by the fit of a source spectrum lies inside the given limits (or between the first and the last frequency with a value), fall-off and sharpness lie inside their limits, and the fit is not worse than every curve with the given start values.", "quantifier": "all spectra, free parameters, limits and start values, all optimisers which respect their limits", "why_tests_cant": "all real spectra and limits", "anchors": ["qopen/source.py:fit_sds"]}
{"id": "C106", "title": "Each band gets its own figures", "statement": "The figures of energies, optimisation and fits which are requested are all drawn for each inverted band, into different files for different bands and different events, and they change neither the result nor stop the inversion, whatever happens while drawing.", "quantifier": "all bands, events, file names, requested figures and failures while drawing", "why_tests_cant": "all patterns of failures, all frequencies", "anchors": ["qopen/core.py:invert_fb"]}
{"id": "C107", "title": "Figure of fits shows the inversion", "statement": "The figure of fits has one panel for each event and station with a site response, in the order of the data and each in its own cell. A panel shows the whole trace and the model at the same times, and the windows drawn are exactly the data of the inversion together with the predictions of the reported parameters (free or fixed), whose logarithmic distance gives the reported error. The figure can be drawn for every result, and the axes show all data.", "quantifier": "all results, traces, windows and limits", "why_tests_cant": "all numbers of pairs and real values", "anchors": ["qopen/imaging.py:plot_fits", "qopen/core.py:invert_fb"]}
{"id": "C108", "title": "Figure of observed energies", "statement": "The figure of energies has one row per trace which shows all samples (or with downsample_to a part of them) against the time after origin time, lines at the onsets and the bulk and coda windows which are used by the inversion. It can be drawn for all inverted data.", "quantifier": "all traces, windows and options", "why_tests_cant": "all windows and sampling rates", "anchors": ["qopen/imaging.py:plot_energies", "qopen/core.py:invert_fb"]}
{"id": "C109", "title": "Observed and modelled energies are smoothed alike", "statement": "If the energy of a trace is a multiple of the Green's function, with absorption, at its samples, then after the smoothing of the inversion the energies in the coda window are the same multiple of the smoothed Green's function (times an absorption factor between the ones at the ends of the smoothing window), so that smoothing does not bias the fit. Holds for all traces and windows.", "quantifier": "all traces, smoothing windows, Green functions and coda windows", "why_tests_cant": "all real data and windows", "anchors": ["qopen/core.py:invert_fb", "qopen/util.py:smooth_func", "qopen/util.py:smooth"]}
{"id": "C110", "title": "Command line", "statement": "The command line calls run once with exactly the values of the line, options of --overwrite-conf instead of flags, flags which are not given left to the configuration file; the inversion gets the value of the line if there is one, else the value of the file, and only the events with the given id. Every option of the command line can be set in the configuration file.", "quantifier": "all command lines and configuration files", "why_tests_cant": "all combinations of three sources", "anchors": ["qopen/core.py:run_cmdline", "qopen/core.py:run"]}
{"id": "C111", "title": "Results can be written", "statement": "Options and results handed over between the stages of a run are plain data (numbers, texts, lists, dictionaries), apart from stations, events, data source and input; hence every result of a run without alignment can be written as JSON, and what is written is the returned result. The same keyword arguments can be used for all commands.", "quantifier": "all option sets, files and worlds", "why_tests_cant": "all combinations of objects in options", "anchors": ["qopen/core.py:run", "qopen/core.py:invert_wrapper"]}
{"id": "C112", "title": "Figures of the rt tool show the Green's function", "statement": "The commands plot-t, plot-r and plot-rt of qopen-rt draw one curve (image) for each mean free path and type, in the order of the command line, over axes which end at the given distance and time; each point is the value which calc prints for this distance and time and the same absorption, apart from the sample which holds the energy of the direct wave. The commands work with distance, time, both or none of them.", "quantifier": "all distances, times, velocities, mean free paths, types and options", "why_tests_cant": "all real parameters", "anchors": ["qopen/rt.py:plot_t", "qopen/rt.py:plot_r", "qopen/rt.py:plot_rt", "qopen/rt.py:main"]}
{"id": "C113", "title": "Order of the data, calibration of stations and events", "statement": "The result of a band does not depend on the order in which events and stations appear, with free site responses, fixed site responses or coda normalisation. If all energies of an event are multiplied by a factor, its source energy is multiplied by this factor; if all energies of a station are multiplied by a factor (a wrong calibration), its site response is multiplied by this factor divided by the geometric mean m of the factors of all stations, and all source energies are multiplied by m. Everything else (scattering coefficient, attenuation, error, number of stations, suppression of the result) stays the same.", "quantifier": "all connected sets of event-station pairs, orders, factors, Green functions, configurations and optimisers", "why_tests_cant": "all permutations and real factors; the linear system itself depends on the order", "anchors": ["qopen/core.py:invert_fb"]}
{"id": "C114", "title": "Alignment with named and ignored stations", "statement": "Alignment of complete results returns a result whenever in every band with data the largest group of connected stations (not counting groups of ignored stations only) contains one of the named stations; bands with data of ignored stations only are left out. If no named station is found in a band, the alignment fails as a whole instead of aligning this band to something else.", "quantifier": "all results, named stations and ignored stations", "why_tests_cant": "all patterns of connections of events and stations", "anchors": ["qopen/site.py:align_site_responses", "qopen/site.py:_rescale_results", "qopen/site.py:_find_unconnected_areas"]}
{"id": "C115", "title": "Free surface correction", "statement": "Energies of stations at the surface are divided by the factor for the surface, energies of stations which are more than 10 m below the surface by the factor for boreholes, for all stations and channels, with and without network codes.", "quantifier": "all inventories, channels, events and options", "why_tests_cant": "all inventories and naming options", "anchors": ["qopen/core.py:invert_fb", "qopen/core.py:invert", "qopen/core.py:observed_energy"]}
{"id": "C116", "title": "Commands go, fixed and source agree with each other", "statement": "An inversion of a band repeated on the same data with the scattering coefficient and attenuation it reported (command fixed) reports the same site responses, source energies and number of stations; its error belongs to the same misfit with one free parameter less. Repeated with its own attenuation and site responses (command source) it reports the same source energies. In both cases the result is never suppressed.", "quantifier": "all connected data sets, configurations, Green functions and optimisers", "why_tests_cant": "three different linear systems; all real data", "anchors": ["qopen/core.py:invert_fb"]}
{"id": "C117", "title": "Alignment does not depend on the references of the single inversions", "statement": "If before the alignment the site responses of each event in each band are multiplied by any factor and the source energy of the event in this band is divided by it (an inversion determines them only up to such a factor), the aligned site responses, aligned source energies and mean site responses are the same, whatever the order of events and stations and the solver. The order of the events alone changes nothing in the whole result.", "quantifier": "all results, factors per event and band, orders, station selections, solvers", "why_tests_cant": "all real factors and orders; rank-deficient systems", "anchors": ["qopen/site.py:align_site_responses", "qopen/site.py:_rescale_results", "qopen/site.py:_find_unconnected_areas"]}
{"id": "C118", "title": "Absolute times do not matter", "statement": "If the recordings of an event-station pair, the origin time and the onsets used for it are all moved by any time, the outcome of the inversion of a frequency band (result, no result or exception) is exactly the same: windows, noise levels, selection of pairs, adjusted onsets, the local minimum of the coda and the energies depend only on times relative to each other.", "quantifier": "all streams, configurations, time shifts per event-station pair, Green's functions and solvers", "why_tests_cant": "all real time shifts (sub-sample, years) and configurations", "anchors": ["qopen/core.py:invert_fb", "qopen/core.py:time2utc", "qopen/core.py:tw2utc", "qopen/core.py:get_slice", "qopen/core.py:get_local_minimum"]}
{"id": "C119", "title": "Units of the waveforms", "statement": "With coda normalisation the outcome of a frequency band does not depend on the units (sensitivity) of the waveforms, for each event-station pair. Without it, if the waveforms of each event are multiplied by a factor aE and those of each station by a factor aS, the same pairs are accepted with the same windows, g0, b and misfit are unchanged, the site responses are multiplied by aS squared relative to its geometric mean over the stations, and the source energies by aE squared times this mean; with known site responses (command source) source energies are multiplied by aE squared.", "quantifier": "all streams, non-zero factors, configurations (noise removal, smoothing, bulk windows, skip options), filters and Hilbert transforms which are linear, Green's functions and solvers", "why_tests_cant": "all real factors; comparisons in the selection of pairs must not involve absolute thresholds", "anchors": ["qopen/core.py:invert_fb", "qopen/core.py:observed_energy", "qopen/core.py:energy1c", "qopen/core.py:get_local_minimum"]}
{"id": "C120", "title": "Events are inverted independently of each other", "statement": "If events are inverted separately, what is reported for an event does not depend on the other events of the catalogue, events without origin and events without result influence nothing, and the order of the catalogue does not matter (also with simultaneous inversion). An event which cannot be inverted (unknown depth, no picks, exception) is skipped and leaves the other events alone.", "quantifier": "all catalogues, inversions, kinds of mean", "why_tests_cant": "all catalogues and failures of single events", "anchors": ["qopen/core.py:invert_wrapper", "qopen/core.py:invert"]}
{"id": "C121", "title": "Alignment reduces the scatter it reports", "statement": "The two numbers per band logged by the alignment are the mean standard deviations of the logarithmic site responses of the aligned stations over the events, before and after the alignment, and the second is not larger than the first.", "quantifier": "all results, selections of stations, references and least-squares solvers", "why_tests_cant": "all patterns of events and stations and all real site responses", "anchors": ["qopen/site.py:align_site_responses", "qopen/site.py:_Rstd", "qopen/site.py:_collectR"]}
{"id": "C122", "title": "Simultaneous and separate inversion of a single event agree", "statement": "For a catalogue with one event it does not matter whether events are inverted simultaneously or separately: both return a result or none of them, with the same frequencies, source energies, source parameters, g0, b, error and site responses.", "quantifier": "all inventories, data, configurations, pool schedules, events", "why_tests_cant": "all inversions; the means over events must reduce to the values of the only event", "anchors": ["qopen/core.py:invert_wrapper", "qopen/core.py:collect_results"]}
{"id": "C123", "title": "Interrupted and failing runs", "statement": "A run which fails or is stopped at any moment leaves the result of an earlier run in the output file or the complete new result: the output file is not touched before the inversion has returned, a run which raises an exception leaves the old contents or the complete new result, after a successful run the file holds exactly the returned result, and no other file of the user is changed.", "quantifier": "all configurations, worlds, failures of every stage and all moments at which the program can be stopped", "why_tests_cant": "every crash point and failure; tests cannot stop the program at every moment", "anchors": ["qopen/core.py:run"]}
{"id": "C124", "title": "Figure of the optimisation shows the course of the optimisation", "statement": "Requesting the figure of the optimisation does not change the result. If it is requested, the figure shows every value of g0 inside of the bounds for which the optimiser evaluated the misfit as a cross at its misfit (red, at a common height, if the misfit is infinite). Its panels are for different values of g0 in different cells, the result among them; a panel shows the regression of the fit for its value: all samples of the inversion, at their logarithmic misfit from the line, and the printed g0, b and W; its number is repeated at the cross of its value. The result is marked as best.", "quantifier": "every optimiser (any strategy of choosing the next value from the misfits so far), all events, stations, windows, Green's functions and numbers of panels", "why_tests_cant": "the steps of an optimiser depend on all data; a test sees a single course of it", "anchors": ["qopen/core.py:invert_fb", "qopen/imaging.py:plot_optimization", "qopen/imaging.py:plot_lstsq"]}
{"id": "C125", "title": "Inversion and alignment recover the truth", "statement": "If the energies in the windows are exactly those of true site responses, source energies, scattering coefficient and attenuation, every band of the inversion with enough accepted pairs reports the true scattering coefficient and attenuation with error 0, the true site responses times one factor and the true source energies divided by it (the factor makes the geometric mean of the responses the reference); other bands are empty. If the events are inverted separately, each has its own factor; alignment with a set of stations and a requested response makes the factor the same for all events (requested response divided by the geometric mean of the true responses of these stations), so with the right reference all reported site responses, mean site responses and source energies are the truth. The mean g0 and b over events are the truth.", "quantifier": "all catalogues, inventories, streams and configurations without coda normalisation, all true parameters per band, all Green's functions and solvers, all selections of reference stations", "why_tests_cant": "all numbers of events and stations and patterns of missing data; the factors of single inversions are different in each event", "anchors": ["qopen/core.py:invert_wrapper", "qopen/core.py:invert", "qopen/core.py:invert_fb", "qopen/site.py:align_site_responses"]}
{"id": "C126", "title": "Commands fixed and source repeat the inversion", "statement": "If the result of an inversion (command go) is used as input of the command fixed with the same catalogue, waveforms and options, the command succeeds and reports in all bands the same site responses, source energies, source properties, velocity and numbers of stations; bands without result stay without result. The same holds for the command source (attenuation and site responses are given; source energies and properties are reported).", "quantifier": "all catalogues, inventories, waveforms and configurations without coda normalisation for which the data of each band determine the parameters, all numbers of bands, jobs and orders in which the bands are finished", "why_tests_cant": "values of one run have to be looked up for the right band and station in the next one for all numbers of bands and stations, and the selection of pairs in the second run depends on what is given", "anchors": ["qopen/core.py:invert", "qopen/core.py:invert_fb"]}
{"id": "C127", "title": "Dumps for external plotting", "statement": "If dumps of fits or of the optimisation are requested, the result of the inversion is unchanged, and each band with a fit writes a file, also if its result is suppressed because of the bounds. Files of different events and bands have different names. The dump of a fit contains the attenuation, source energies, site responses and velocity which are reported for the band. The dump of the optimisation contains all steps of the optimiser inside of the bounds with their misfits, and fits for different ones of them including the result.", "quantifier": "all data of a band, configurations, optimisers, names of events, bands and templates of file names", "why_tests_cant": "all strategies of optimisers, all names and bands", "anchors": ["qopen/core.py:invert_fb"]}
{"id": "C128", "title": "Options of the optimiser", "statement": "The optimisation of g0 is done iff the option optimize is true or a dictionary. All options given by the user reach the optimiser unchanged; missing ones have the defaults method golden, tolerance 1e-8 and, depending on the method (in any spelling accepted by the optimiser), the bounds of g0 as bracket or bounds.", "quantifier": "all dictionaries of options and all bounds", "why_tests_cant": "all combinations of given and missing options", "anchors": ["qopen/core.py:invert_fb"]}
{"id": "C129", "title": "Exact spectra give the true source", "statement": "If the source displacement spectrum is exactly that of the source model with a moment, corner frequency, fall-off and sharpness, and the given ones of these parameters are right, then a fit with error 0 reports the true values of all others. With a search which finds the smallest misfit the error is 0. The same holds for the moment, magnitude and parameters which are entered for source energies which are exactly those of the model, in the inversion and in the recalculation of source parameters. The spectrum needs as many different frequencies as there are unknown parameters.", "quantifier": "all moments, corner frequencies, fall-offs, sharpnesses, frequencies, patterns of missing values, choices of free parameters, limits, densities and velocities", "why_tests_cant": "whether two different curves can agree at the given frequencies is a statement about all curves", "anchors": ["qopen/source.py:fit_sds", "qopen/source.py:insert_source_properties", "qopen/source.py:calculate_source_properties"]}
{"id": "C130", "title": "From exact envelopes to magnitudes", "statement": "If the energies of all events are exactly those of sources with spectra of the source model, of the true site responses and of the true attenuation, the events are inverted separately, and the site responses are aligned with the true (geometric mean of the) responses of the reference stations, then every event with enough frequencies gets its true moment, moment magnitude, corner frequency, fall-off and sharpness. If the response of the reference is wrong by the same factor in all bands, the moments are divided by the root of this factor, the other parameters are still right.", "quantifier": "all numbers of events, stations and bands, all patterns of missing data, all sources, true responses, reference stations and factors, all choices of free parameters", "why_tests_cant": "the true values have to survive inversion, alignment and fit for all networks and sources", "anchors": ["qopen/core.py:invert_wrapper", "qopen/site.py:align_site_responses", "qopen/source.py:calculate_source_properties", "qopen/source.py:fit_sds"]}
{"id": "C131", "title": "Choice of density and velocity", "statement": "Recalculating the source parameters with another density and velocity is possible for the same results and changes only what depends on them: for every event the source displacement spectrum and the seismic moment are multiplied by the root of the ratio of density times velocity to the fifth, the moment magnitude is shifted by 2/3 log10 of this factor, and corner frequency, fall-off, sharpness, fit error, source energies and site responses are unchanged. Events with their own velocity keep it, so that only the density counts for them.", "quantifier": "all result dictionaries, positive densities and velocities, methods (mean, fit, robust_fit) and options of the fit; if both fall-off and sharpness are searched, positive limits and two different frequencies with a source energy; every optimiser and least-squares routine", "why_tests_cant": "the optimiser must see the same objective for every spectrum; equivariance over all real data", "anchors": ["qopen/source.py:fit_sds", "qopen/source.py:calculate_source_properties", "qopen/source.py:insert_source_properties"]}
{"id": "C132", "title": "Rejected pairs have no influence", "statement": "An event-station pair which is rejected in a frequency band (sampling rate, missing site response, energy cannot be calculated, no noise window, bulk or coda window outside of the data, coda window too short, position of the maximum) has no influence on the outcome of this band: the inversion without the records of rejected pairs gives the same outcome.", "quantifier": "all records, options, Green functions, least-squares routines and minimisers, and all sets of rejected pairs which are omitted", "why_tests_cant": "all combinations of accepted and rejected pairs; bookkeeping of lists, dictionaries and indices", "anchors": ["qopen/core.py:invert_fb", "qopen/core.py:_get_slice"]}
{"id": "C133", "title": "The result does not depend on the unit of length", "statement": "If all distances and velocities are given in another unit of length (factor l), and the bounds or the fixed value of the transport cross section in the inverse unit, the inversion of a band gives the same result in the new units: g0 divided by l, velocity multiplied by l, the same b, misfit, number of stations and site responses, and source energies multiplied by the factor of the Green function (l to the power of the dimension).  All Green functions of Qopen follow the unit of length.", "quantifier": "all factors l > 0, records, options (with and without coda normalisation, fixed attenuation, fixed site responses), Green functions which follow the unit of length, least-squares routines, and optimisers which find the same optimum in both units", "why_tests_cant": "all real factors and data; least-squares solutions with unknown rank", "anchors": ["qopen/core.py:invert_fb", "qopen/rt.py:G"]}
{"id": "C134", "title": "Which pairs and which data enter the inversion", "statement": "A pair enters the inversion of a band exactly if its envelope (smoothed if configured) has data in the whole coda window, up to half a second at both ends, the window is long enough, also after the cut at the lowest minimum before a later arrival, the largest sample is in the window of skip.maximum, and there are data with energy in the bulk window of the envelope before smoothing.  Its data are exactly the samples in the coda window with their times relative to the S-onset, and mean, balanced time and weight of the bulk window.  Smoothing is the average over the chosen window around each sample.", "quantifier": "all envelopes, sampling rates, windows, smoothing windows, options for cutting and skipping", "why_tests_cant": "all traces and windows; borders of windows and of the data, ties and roundings", "anchors": ["qopen/core.py:invert_fb", "qopen/core.py:_get_slice", "qopen/core.py:_check_times", "qopen/core.py:_get_local_minimum", "qopen/util.py:smooth"]}
{"id": "C135", "title": "When inversions return and figures are drawn", "statement": "If each event is inverted separately, the whole inversion returns exactly if the events can be put in order, have depths and each single inversion returns; nothing fails afterwards, with every kind of mean, and None is returned exactly if no event has a result.  If all events are inverted at once it returns exactly if the inversion of the ordered events has a result.  The figure of the results is then drawn for every selection of the documented quantities, the figures of site responses exactly if there is a value to show.", "quantifier": "all catalogues with distinct event ids, configurations, schedules of the jobs, records, means and selections of quantities", "why_tests_cant": "absence of exceptions must hold for all catalogues, results with missing values, and means", "anchors": ["qopen/core.py:invert_wrapper", "qopen/core.py:collect_results", "qopen/imaging.py:plot_results", "qopen/imaging.py:plot_sites", "qopen/imaging.py:plot_eventsites"]}
{"id": "C136", "title": "What can stop an inversion", "statement": "With sound options and data the inversion of a band, of an event and of a catalogue of separately inverted events raises no exception, and every misfit is finite: positive energies, records at least as long as the smoothing window of three or more samples, windows which can be evaluated, coda windows which begin a sampling interval after the S-onset and are skipped below one second, positive velocity, bounds and distances, and one of the bundled Green's functions (or one which is positive after the direct wave).  Outside of these conditions a single pair stops the inversion of all others: a record which is shorter than the smoothing window, or a pair without noise level if the coda window ends at a signal-to-noise ratio.", "quantifier": "all records, stations, events, configurations, schedules, results of the optimisation and weighted least squares", "why_tests_cant": "absence of exceptions and of infinite misfits must hold for all records and options, not for the tutorial data", "anchors": ["qopen/core.py:invert_fb", "qopen/core.py:invert", "qopen/core.py:invert_wrapper", "qopen/util.py:smooth", "qopen/rt.py:G"]}
{"id": "C137", "title": "How accurate source energies and magnitudes are", "statement": "With given attenuation and given site responses (command source), errors are not amplified: if all energies agree with those of the true source energies, true site responses and true absorption up to a factor k, the given site responses with the true ones up to a factor rho, and the given absorption is wrong by at most beta for times up to T, then every reported source energy agrees with the true one up to the factor k rho exp(beta T), the source displacement spectrum up to its root, and the reported error is bounded by the logarithm of the factor.  If the spectrum is constant below the corner frequency (method mean), or follows the source model with the given corner frequency and shape (method fit), up to a factor mu, the moment is right up to the factor mu times this root, and the magnitude up to 2/3 log10 of it.", "quantifier": "all records, events, stations, bands, patterns of missing data, factors, Green functions and weights, all schedules of jobs", "why_tests_cant": "an error bound must hold for all data and all numbers of samples; tests show single deviations", "anchors": ["qopen/core.py:invert_fb", "qopen/core.py:invert", "qopen/source.py:insert_source_properties", "qopen/source.py:fit_sds"]}
{"id": "C138", "title": "The command source treats every event for itself", "statement": "With the command source (given attenuation and site responses) and a given velocity, other events have no influence on an event, if they do not change which stations are taken for borehole stations: every source energy of an inversion of some events is reported with the same value if more events are inverted together with them, and an energy which is reported there is reported without the other events as well, unless less than num_pairs pairs of the band pass the checks then.  With the default num_pairs of 1 or less the complete results of the event are equal: energies, source displacement spectrum, moment, corner frequency and magnitude.", "quantifier": "all catalogues and subsets of their events, records, options, Green functions, schedules of jobs", "why_tests_cant": "all other events, and all records of them; the linear system couples all events", "anchors": ["qopen/core.py:invert", "qopen/core.py:invert_fb", "qopen/source.py:insert_source_properties"]}
{"id": "C139", "title": "How the command line is read", "statement": "A command line is accepted exactly if it consists of a documented command and of documented options of this command, each with a valid value (text, JSON or integer), in any order and way of writing (unique abbreviations of long names, value in the next string, after = or attached, several short options in one string), and no switch is given together with its opposite.  Then each option has the last value given (verbose: the number of times), options which are not mentioned have the documented default or are left to the configuration, and exactly these values are passed to run, apart from those replaced by --overwrite-conf.  Misspelt options are never ignored.  Without command the usage is shown.", "quantifier": "all sequences of strings, all results of JSON and integer conversions", "why_tests_cant": "unbounded sequences of strings; abbreviations can become ambiguous with every new option", "anchors": ["qopen/core.py:run_cmdline", "qopen/core.py:_add_bool_argument"]}
{"id": "C140", "title": "How accurate attenuation, site responses and source energies of an inversion are", "statement": "With the commands go and fixed errors of the data are not amplified by the fit: for any number of events and stations the squared logarithmic deviations of the fitted energies from the true ones and the misfit add up to those of the observed energies (Green function for the reported scattering coefficient).  If all observed energies are right up to a factor k, the reported absorption is wrong by at most log k divided by the standard deviation of the lapse times around their means in the pairs.  If a single event is inverted and the absorption is right up to beta for times up to T, then with K = k exp(beta T) the product of site response and source energy is right up to K for every station, the source energy up to K and each site response up to K squared, apart from the common factor which is fixed by the requested mean response.  The alignment of separately inverted events keeps the accuracy of the products.  If the requested mean response is the true one, spectrum and moment are right up to the root of K (and the deviation of the spectrum from the source model).", "quantifier": "all records, stations, bands, patterns of missing data, factors, Green functions and weights, all schedules of jobs, all stations and responses of the alignment", "why_tests_cant": "an error bound must hold for all data and all numbers of samples; tests show single deviations", "anchors": ["qopen/core.py:invert_fb", "qopen/core.py:invert", "qopen/site.py:align_site_responses", "qopen/source.py:insert_source_properties"]}
{"id": "C141", "title": "How the command line of rt is read", "statement": "The command line of qopen rt is accepted exactly if it consists of a known command, a velocity and one or more mean free paths, with the documented options in between, each with valid values; then the tool works with these values, for each option with the last one given, otherwise with the default. The option --type takes all strings up to the next option, so that arguments directly behind it are refused, and the mean free paths have to stand together.", "quantifier": "all command lines without the string --, all conversions of texts to numbers", "why_tests_cant": "the ways to mix arguments, options, abbreviations and values are unlimited", "anchors": ["qopen/rt.py:create_parser", "qopen/rt.py:main", "qopen/core.py:run_cmdline"]}
{"id": "C142", "title": "Joining of unconnected areas", "statement": "The function for joining unconnected areas of stations returns the unions of the areas which are connected by a chain of areas, each of them not further than the given distance from the next one (stations at the corners of the convex hulls), each given area being part of exactly one of them; it ends after finitely many joins and fails only if a station is not part of the inventory or an area has no hull. The returned pairs of stations are nearest pairs of such areas and connect all areas which are joined. Coordinates are those of the first channel of a station.", "quantifier": "all sets of areas, inventories with different coordinates, distances, orders of sets", "why_tests_cant": "number of areas and order of the joins are unlimited", "anchors": ["qopen/site.py:_join_unconnected_areas", "qopen/site.py:_collect_station_coordinates"]}
{"id": "C143", "title": "When a run returns", "statement": "Once the inversion of a run has been started, the run without alignment returns exactly if the inversion returns plain data, the output file can be created (or none is requested) and, if magnitudes shall be printed, the result has the form of a result of events; it then returns the result of the inversion and nothing else can fail.  If no event has a result, the run ends without exception, returns None and writes null.", "quantifier": "all configurations, calls and worlds, all results of the inversion", "why_tests_cant": "every combination of options, failures and results", "anchors": ["qopen/core.py:run"]}
{"id": "C144", "title": "Frequency bands are inverted for themselves", "statement": "If the same data are inverted with other frequency bands, a band which is part of both configurations gets the same results: scattering coefficient, attenuation, error, number of stations, site responses and source energies, and with the same velocity the same source displacement spectrum; this holds for any number of jobs and, with the commands fixed and source, for inputs with the same values at this frequency.  If one of the two inversions returns None, the band is empty in the other one.  If events are inverted separately, the mean scattering coefficient, attenuation, error and site responses of a common band agree, too, for each kind of mean.", "quantifier": "all sets of other bands, all records, events, configurations, commands and schedules of jobs", "why_tests_cant": "the other bands can be arbitrary; state shared between bands shows up only in some combinations", "anchors": ["qopen/core.py:invert", "qopen/core.py:invert_fb", "qopen/core.py:get_freqs"]}
{"id": "C145", "title": "Size of an event", "statement": "If the amplitudes of the records of an event are multiplied by a factor (each event with its own factor), the inversion still returns and everything follows: the source energies of the event are multiplied by the square of the factor, source displacement spectrum and seismic moment by its absolute value, the moment magnitude is shifted by 2/3 log10 of it; corner frequency, fall-off, sharpness and fit error, all results of the other events, scattering coefficient, attenuation, error, site responses and number of stations are unchanged.  If events are inverted separately, the mean scattering coefficient, attenuation, error and site responses of the result are unchanged, too.  Holds for the command source for all events and for the other commands if the stations are connected by common events.", "quantifier": "all factors different from zero (positive and negative), events, stations, bands, records, options, schedules of jobs; linear filters, instrument corrections and noise levels", "why_tests_cant": "all real factors and data; the least-squares system and the optimiser couple all events", "anchors": ["qopen/core.py:invert", "qopen/core.py:invert_fb", "qopen/source.py:insert_source_properties", "qopen/source.py:fit_sds"]}
{"id": "C146", "title": "Recalculation repeats the source parameters of the inversion", "statement": "If the source parameters of the result of an inversion are recalculated with the options documented in the result (or with the same method and options given again), the recalculation succeeds and no value of any event changes: energies, source displacement spectrum, moment, magnitudes, corner frequency, fall-off, sharpness and fit error.  The documented options are still there afterwards.", "quantifier": "all results of inversions of events (separately or simultaneously, without coda normalization), all methods and options of the fit", "why_tests_cant": "all results and options; the recalculation reads velocity and options from other places than the inversion", "anchors": ["qopen/source.py:calculate_source_properties", "qopen/source.py:insert_source_properties", "qopen/core.py:invert_wrapper", "qopen/core.py:run"]}
{"id": "C147", "title": "Events with the same short id", "statement": "If events are inverted separately, the result of each event with a result is reported under its id, the part of the resource identifier after the last slash; events with different resource identifiers are kept apart and no result is lost.  If several events have the same short id, there is one entry, and it is that of the last of them in order of origin time which has a result.  If they are inverted together, the energies belong to one event, each of them is listed as often as there are events with the id, and the spectrum of a band is calculated from the energy of another band.", "quantifier": "all catalogues, including those with equal short ids, outcomes of the single inversions and kinds of mean", "why_tests_cant": "all orders of events and patterns of equal ids and missing results", "anchors": ["qopen/core.py:get_eventid", "qopen/core.py:invert_wrapper", "qopen/core.py:invert", "qopen/source.py:insert_source_properties"]}
{"id": "C148", "title": "Catalogue magnitudes in the result", "statement": "If a method for the seismic moment is configured, the result of every event has as catalogue magnitude exactly the preferred magnitude of this event or, without preferred one, its first magnitude; without method or magnitude it has none.  This holds if events are inverted together or separately (with equal short ids: magnitude of the event the entry belongs to), and a recalculation of the source parameters does not change it.", "quantifier": "all catalogues, including those with equal short ids and events without magnitude, configurations, methods, records and schedules of jobs", "why_tests_cant": "all combinations of events, ids, magnitudes and methods; magnitudes must not be mixed up between events", "anchors": ["qopen/core.py:get_magnitude", "qopen/core.py:invert", "qopen/core.py:invert_wrapper", "qopen/source.py:insert_source_properties", "qopen/source.py:calculate_source_properties"]}
{"id": "C149", "title": "Stations without usable data have no influence", "statement": "A station of the inventory which has no usable record for any of the events (coordinates unknown, too far away, no S-pick, no data, gaps, wrong length or no instrument correction) has no influence on an inversion: with an inventory without these stations the inversion returns the same result, but for the rows of these stations in the table of site responses, which contain nothing but None; if an event is skipped, it is skipped with and without these stations.  If events are inverted separately, the results of all events and their means are the same, too, but for such empty rows.", "quantifier": "all inventories, sets of such stations, events with distinct ids, records, options, commands, numbers of jobs and schedules; no two records of events with the same origin time at the same distance (otherwise the records are the same up to order)", "why_tests_cant": "every inventory and every set of stations without data; a unit test has a fixed inventory", "anchors": ["qopen/core.py:invert", "qopen/core.py:invert_fb"]}
{"id": "C150", "title": "Runs are reproducible", "statement": "The order of the stations in the inventory and the order in which Python returns the elements of sets (it changes from run to run) have no influence on the results: the same records enter the inversion, in the same order, and all results are the same, but for the order of the rows in the table of site responses.  If events are inverted separately, the same holds for the results of all events and their means.", "quantifier": "all inventories and orders of sets, events with distinct ids, records, options, commands and schedules of jobs; no two records of events with the same origin time at the same distance (otherwise the records are the same up to order)", "why_tests_cant": "the order of a set of strings depends on a random seed; a test sees one of them", "anchors": ["qopen/core.py:invert", "qopen/core.py:invert_wrapper"]}
{"id": "C151", "title": "Alignment changes nothing else", "statement": "align_site_responses keeps the frequencies and the configuration; every event is the event with the same id of the given results with the same stations and tables of the same shape, reports no site response or source energy where there was none, and keeps every entry other than those on the source spectrum (sds, M0, Mw, fc, n, gamma, fit_error), e.g. catalogue magnitude, velocity and error. Without a density in the configuration the entries on the source are left alone, too.", "quantifier": "every result dictionary (any number of events, stations, bands, with None entries), all options and every solver for which align_site_responses returns", "why_tests_cant": "a test compares a few entries of one result file; lost or invented entries may occur for any pattern of missing values", "anchors": ["qopen/site.py:align_site_responses", "qopen/site.py:_rescale_results", "qopen/source.py:calculate_source_properties"]}
{"id": "C152", "title": "Magnitudes of aligned results", "statement": "Source spectrum, moment, magnitude, corner frequency, fall-off, sharpness and fit error of aligned results do not depend on the least-squares solver (sparse or dense), and aligning aligned results again with the same options does not change any entry of an event.  They do not depend on the references of the single inversions either: if the site responses of an event are multiplied and its source energies are divided by any factor per band before the alignment, spectrum and parameters are the same, and so is the magnitude if a moment is determined.", "quantifier": "all results of inversions (any number of events, stations and bands), options, all factors and all least-squares minimisers", "why_tests_cant": "all solvers and all factors; equality of real numbers can not be tested on a few cases", "anchors": ["qopen/site.py:align_site_responses", "qopen/source.py:calculate_source_properties", "qopen/source.py:insert_source_properties"]}
{"id": "C153", "title": "Results of inversions meet the requirements of the alignment", "statement": "If events are inverted one by one, with free site responses and a positive reference response, all source energies and site responses in the result are positive, every site response of a band comes with a source energy of the event in this band, each event and each station has one entry per band, and there is at least one event.  Therefore the alignment with all stations as reference never fails on such results, and everything stated about the alignment of results holds for what the inversion writes; in particular stations without usable data and the order of sets have no influence on aligned energies and responses.", "quantifier": "all catalogues with distinct ids, inventories, records, bands, options without coda normalisation, any number of workers and any schedule, any weighted least-squares procedure", "why_tests_cant": "all data and schedules; the sign of every entry for all solutions of the linear system", "anchors": ["qopen/core.py:invert_fb", "qopen/core.py:invert", "qopen/core.py:invert_wrapper", "qopen/site.py:align_site_responses"]}
{"id": "C154", "title": "Which results of a run can be aligned", "statement": "If an inversion is run with the option to align the site responses, the alignment succeeds (all stations as reference, with or without model for the sources) exactly if the inversion returned a result, the events were inverted one by one, the site responses were free (not the command source) and coda normalisation was not used.  In the other cases the run ends with an exception after the inversion and before anything is written: TypeError without result, KeyError for the command source, for coda normalisation and for a simultaneous inversion (TypeError for the latter with coda normalisation).", "quantifier": "all catalogues with distinct ids, inventories, records, bands, options, any number of workers and any schedule, all solvers of the alignment", "why_tests_cant": "all combinations of modes and all data; which entries exist in the result is decided in several functions", "anchors": ["qopen/core.py:run", "qopen/core.py:invert_wrapper", "qopen/core.py:invert", "qopen/site.py:align_site_responses", "qopen/site.py:_get_number_of_freqs"]}
{"id": "C155", "title": "Source model in the figure of a single event", "statement": "If the figure of an event is requested, it shows the source model which was fitted to the reported spectrum: the curve has the reported moment and the reported or given corner frequency, fall-off and sharpness, whatever the options of the figure say and whatever was drawn before.  This holds for the figures drawn during the inversion.  The figure drawn after the alignment never shows a source model, even if its options name a method, because the inversion has overwritten these options; command plot uses only the method named in the options of the figure.  Without the option no figure is drawn and no options are changed.", "quantifier": "all results, sequences of events, options of the figure, methods and options of the source model", "why_tests_cant": "all sequences of events sharing one dictionary of options, all spectra and options", "anchors": ["qopen/core.py:invert", "qopen/core.py:run", "qopen/core.py:_plot", "qopen/imaging.py:plot_eventresult", "qopen/imaging.py:plot_sds"]}
