{"id": "C01", "title": "Row cap is exact", "statement": "When a forecaster is fitted with max_scengen_rows=m, the post-fit phase (error distribution and scenario generator) uses exactly min(n, m) rows of the validation frame, and no row is used twice, whatever the random generator returns.", "quantifier": "every frame length n, every m >= 1, every assignment of hours to rows, every outcome of the multinomial and of the choice-without-replacement draws", "why_tests_cant": "the allocation depends on a multinomial draw, a capping and a redistribution loop; a test sees a handful of seeds while over-allocation or a short draw appears only for particular draws", "anchors": ["pyforecaster/forecaster.py: ScenarioGenerator._maybe_subsample_for_scengen, _subsample_stratified_by_hour, _subsample_uniform, _order_rows_by_index_order"]}
{"id": "C02", "title": "Subsampled features and targets stay aligned and time ordered", "statement": "The rows handed to the post-fit phase are genuine (x_i, y_i) pairs of the input frame (feature row and target row come from the same position), in non-decreasing order of the time index, and rows with equal time stamps stay in the order in which they were drawn.", "quantifier": "every pair of equal-length frames with any (possibly unsorted or duplicated) index, every set of drawn positions", "why_tests_cant": "misalignment shows only on particular permutations of duplicated or unsorted indexes", "anchors": ["pyforecaster/forecaster.py: ScenarioGenerator._order_rows_by_index_order, _maybe_subsample_for_scengen"]}
{"id": "C03", "title": "Hour-stratified allocation", "statement": "With a DatetimeIndex the number of rows kept for every hour of the day never exceeds the number available for it, the redistribution loop terminates without ever reaching the uniform fallback, and it assigns exactly the capping shortfall. It is NOT guaranteed that an hour present in the data keeps a row.", "quantifier": "every vector of per-hour counts, every multinomial draw summing to m, every m < n", "why_tests_cant": "termination and the capacity bound range over all count vectors and draws; the missing-hour case has low probability under a fixed seed", "anchors": ["pyforecaster/forecaster.py: ScenarioGenerator._subsample_stratified_by_hour"]}
{"id": "C04", "title": "Inactive row cap changes nothing", "statement": "If max_scengen_rows is None, or the frame has at most that many rows, the post-fit phase sees exactly the caller's frames, no random number is consumed and the index-equality check is not made; an active cap with different x/y indexes raises ValueError; a cap that is not an int raises TypeError, and a non-positive one ValueError, at construction.", "quantifier": "every cap value (None, non-integer, any integer) and every frame length and index pair", "why_tests_cant": "decision logic over an unbounded parameter space with interacting branches; boundary n = m", "anchors": ["pyforecaster/forecaster.py: _validate_max_scengen_rows, ScenarioGenerator._maybe_subsample_for_scengen"]}
{"id": "C05", "title": "Error quantiles are bounded by the errors and monotone in the level", "statement": "The empirical error distribution computed at fit is non-decreasing in the probability level, lies between the smallest and the largest error of its sample, and returns the extremes at levels 0 and 1.", "quantifier": "every non-empty finite error sample and every pair of levels in [0,1]", "why_tests_cant": "real-valued levels and samples; interpolation boundary cases depend on exact position arithmetic", "anchors": ["pyforecaster/forecaster.py: ScenarioGenerator._estimate_err_distr"]}
{"id": "C06", "title": "Error distribution conditions on the hour only when it can", "statement": "With conditional_to_hour=True, if all 24 hours are present in the post-fit data then the distribution for hour h is a function of the errors observed at hour h alone (changing any other error does not change it); if at least one hour is missing, all 24 distributions are equal to the pooled one; no hour is ever left without a distribution. Conditional or not, a level outside [0,1] raises ValueError, no rows raise IndexError, and everything else succeeds.", "quantifier": "every history of (hour, error vector) pairs", "why_tests_cant": "non-interference: quantifies over all changes of the other hours' errors", "anchors": ["pyforecaster/forecaster.py: ScenarioGenerator._estimate_err_distr, ScenarioGenerator.fit"]}
{"id": "C07", "title": "Predicted quantiles never cross", "statement": "For the linear and LightGBM forecasters with conditional_to_hour=True, every predicted quantile equals the point prediction plus the error quantile of that row's hour and that target, so for sorted q_vect in [0,1] predicted quantiles are non-decreasing in the level for every row and target; shifting the point prediction shifts all its quantiles equally.", "quantifier": "every training history, every test row and hour, every target, every pair of levels", "why_tests_cant": "crossing can appear for a single (row, target, hour) combination only", "anchors": ["pyforecaster/forecaster.py: LinearForecaster._predict_quantiles, LGBForecaster._predict_quantiles"]}
{"id": "C08", "title": "Quantile prediction with conditional_to_hour=False", "statement": "With conditional_to_hour=False a linear/LightGBM forecaster should add to target j the pooled error quantiles of target j. The code indexes the pooled table by the row's hour: it adds the quantiles of target number 'hour' to every target, and raises IndexError when hour >= number of targets. The expected result is obtained for all error tables exactly when there is one target and the hour is 0.", "quantifier": "every number of targets, every hour, every error table", "why_tests_cant": "a test with one target and midnight-only index passes; the failure depends on the hour/targets combination", "anchors": ["pyforecaster/forecaster.py: LinearForecaster._predict_quantiles, LGBForecaster._predict_quantiles, ScenarioGenerator._estimate_err_distr"]}
{"id": "C09", "title": "Quantile frame and array are the same data", "statement": "Converting the (row, target, level) quantile array to the labelled frame puts value (i,j,k) in row i under column (target j, level k), and converting back returns the original array, for any numbers of rows, targets and (distinct) levels.", "quantifier": "every shape and content with at least one level", "why_tests_cant": "index arithmetic over all shapes; tests use one shape", "anchors": ["pyforecaster/forecaster.py: ScenarioGenerator.quantiles_to_df, quantiles_to_numpy, predict_quantiles"]}
{"id": "C10", "title": "QRF quantile array layout", "statement": "For the quantile random forest, predict_quantiles(dataframe=False) should return at (i,j,k) the level-k quantile of target j. The code's reshape/swap returns entry (k*n_targets+j) of the row-major (target, level) row, so the claim holds for all contents exactly when n_targets=1 or n_levels=1, and fails otherwise.", "quantifier": "every shape n_targets x n_levels and all contents", "why_tests_cant": "the permutation is the identity for shapes commonly used in tests", "anchors": ["pyforecaster/forecasting_models/randomforests.py: QRF.quantiles_to_numpy, QRF._predict_quantiles", "pyforecaster/forecaster.py: ScenarioGenerator.quantiles_to_df"]}
{"id": "C11", "title": "predict_pmf is a sub-probability", "statement": "Every pmf returned by predict_pmf has non-negative entries summing to (number of predicted quantiles inside the closed bin range)/(number of levels): at most 1, and exactly 1 iff all predicted quantiles lie inside the bin range; each quantile inside is counted in exactly one bin.", "quantifier": "every increasing bin-edge vector with at least 2 edges and every quantile vector", "why_tests_cant": "edge ties and out-of-range mass are measure-zero inputs that sampling misses", "anchors": ["pyforecaster/forecaster.py: ScenarioGenerator.predict_pmf"]}
{"id": "C12", "title": "Train/validation split is a tail split", "statement": "With a val_ratio in [0,1] the training part followed by the validation part is exactly the original data (nothing lost, duplicated or reordered), the validation part being the last floor(n*ratio) rows, aligned in x and y; with val_ratio=None both parts are the whole data.", "quantifier": "every frame length and every rational ratio in [0,1]", "why_tests_cant": "floor boundaries; n_val=0 slicing hazards", "anchors": ["pyforecaster/forecaster.py: ScenarioGenerator.train_val_split"]}
{"id": "C13", "title": "Categorical codes are stable over the life of a forecaster", "statement": "Once a column has been encoded by any call, every later call in any sequence of fit/predict calls gives each category the same code; codes are injective, lie in 0..n_categories-1 and are ordered as the sorted category strings; an unseen category raises ValueError (also in a new fit); no call, failing or not, changes an existing encoder; encoding an already encoded frame is the identity.", "quantifier": "every finite history of calls on frames with arbitrary object/number columns, including failing calls", "why_tests_cant": "history quantification: encoders persist across fit and predict", "anchors": ["pyforecaster/forecaster.py: encode_categorical"]}
{"id": "C14", "title": "A failing categorical call may leave the caller's frame half encoded", "statement": "encode_categorical works in place: after a successful call the caller's own frame is encoded; after a failing call exactly the object columns before the offending one have been overwritten with codes, the remaining ones being untouched.", "quantifier": "every frame, every encoder state, every position of the offending column", "why_tests_cant": "crash point quantification over column order", "anchors": ["pyforecaster/forecaster.py: encode_categorical"]}
{"id": "C15", "title": "Refitting a LightGBM forecaster", "statement": "A fresh LGBForecaster fitted on data with targets predicts with the models trained on that data. Its model list is never cleared: after any history of fits of which an earlier one had a target, a further fit raises ValueError (column count mismatch in the post-fit predict) and so does every later predict, for ever. LGBMHybrid and QRF trained sequentially predict, after any history of successful fits, the first n_single steps with the models of the very first data set and the remaining steps with the last one; with parallel=True a refit equals a fresh fit. A sequential fit that fails for lack of targets leaves its models behind. BrutalRegressor predictions are those of the first fit whatever is fitted later. Before any fit, predict raises (ValueError for LGBForecaster; IndexError or TypeError for LGBMHybrid and QRF).", "quantifier": "every history of fits, every number of targets", "why_tests_cant": "history quantification; tests fit once", "anchors": ["pyforecaster/forecaster.py: LGBForecaster.fit, predict", "pyforecaster/forecasting_models/gradientboosters.py: LGBMHybrid.fit, predict", "pyforecaster/forecasting_models/randomforests.py: QRF.fit", "pyforecaster/forecasting_models/random_fourier_features.py: BrutalRegressor"]}
{"id": "C16", "title": "Hyper-parameter get/set", "statement": "set_params stores exactly the given values for attribute names the object has and ignores the others; get_params returns the current value of precisely the constructor parameters stored as attributes; hence set_params(get_params()) is a no-op, and set then get returns what was set. It does not make LGBForecaster/QRF train with the new values: their training dictionary is frozen at construction.", "quantifier": "every attribute dictionary, constructor signature and parameter assignment, every sequence of set calls", "why_tests_cant": "quantifies over all attribute sets and update sequences", "anchors": ["pyforecaster/forecaster.py: ScenarioGenerator.set_params, get_params, LGBForecaster.__init__, LGBForecaster.fit", "pyforecaster/forecasting_models/randomforests.py: QRF.__init__"]}
{"id": "C17", "title": "Lagged features read exactly the stated sample", "statement": "A transformer with lags (and no aggregation) emits for each variable and lag L the column whose value at row t is the signal at row t-L, NaN when t-L is outside the frame; a negative lag therefore reads the future; columns appear variable-major, lag-minor in the order given.", "quantifier": "every signal length, content, lag list (positive, zero, negative, beyond the frame)", "why_tests_cant": "off-by-one at borders over all lags and lengths", "anchors": ["pyforecaster/formatter.py: Transformer.transform"]}
{"id": "C18", "title": "Aggregated features read exactly the stated window", "statement": "With an aggregation over w steps and lag L (agg_freq a whole multiple of the grid step) the value at row t is the aggregation function of exactly the samples t-L-w+1..t-L, NaN when one of them lies outside the frame or is missing, so it is unaffected by changing any sample outside the window.", "quantifier": "every signal, window width, lag, row and aggregation function", "why_tests_cant": "non-interference over all changes outside the window", "anchors": ["pyforecaster/formatter.py: Transformer.transform"]}
{"id": "C19", "title": "No look-ahead through features, no look-back through targets", "statement": "Features built with non-negative lags at row t depend only on samples at rows <= t; targets built with strictly negative lags and windows no longer than the lead depend only on samples at rows > t. Hence changing the future never changes a feature.", "quantifier": "every signal pair agreeing up to (after) t, every lag list and window", "why_tests_cant": "causality is a 2-safety property over all futures", "anchors": ["pyforecaster/formatter.py: Transformer.transform, Formatter._transform"]}
{"id": "C20", "title": "Metadata time windows describe the samples used", "statement": "For every non-binned column the metadata start_time/end_time (relative to the row's time stamp, on a regular grid, agg_freq a whole multiple of the grid step) delimit exactly the samples the column reads: sample s is read at row t iff start_time <= (s-t)*dt < end_time. With a fractional multiple the column reads one sample before start_time.", "quantifier": "every lag, window, grid step", "why_tests_cant": "links two independently computed artefacts for all parameters", "anchors": ["pyforecaster/formatter.py: Transformer.transform (metadata)"]}
{"id": "C21", "title": "Binned features with several lags are mislabelled", "statement": "With agg_bins the values of a column are the aggregation over the bin and lag named in it, but the metadata row of the column need not describe them: columns are produced lag-major and the times bin-major. With one lag, or one bin and one function, all metadata times agree; with at least two increasing lags and at least two bins or functions some column carries another column's time window, and with at least two functions and two bins some column carries another function's label.", "quantifier": "every list of bins and lags", "why_tests_cant": "depends on the two orderings coinciding; tests use one lag", "anchors": ["pyforecaster/formatter.py: Transformer.transform (agg_bins branch)"]}
{"id": "C22", "title": "Lag column names are unique and recoverable", "statement": "Within one transformer the generated lag column names are pairwise distinct for distinct (variable, lag) pairs and the lag can be read back from the name, for arbitrarily large or negative lags and arbitrary variable names; aggregated names are distinct when function names contain no underscore, and there is a collision otherwise.", "quantifier": "every variable name, every integer lag", "why_tests_cant": "zero-padded formatting changes width at powers of ten and for negatives; unbounded", "anchors": ["pyforecaster/formatter.py: Transformer.transform, hr_timedelta"]}
{"id": "C23", "title": "Human-readable time deltas are faithful", "statement": "hr_timedelta maps distinct non-negative durations (in whole seconds) to distinct strings, in both formats, and the duration can be recovered from the string.", "quantifier": "every duration", "why_tests_cant": "injectivity over an unbounded domain", "anchors": ["pyforecaster/formatter.py: hr_timedelta"]}
{"id": "C24", "title": "Row filtering keeps features and targets aligned", "statement": "Formatter.transform with NaN removal returns x and target with the identical index, containing exactly the rows in which none of the generated feature and target columns has a NaN, in the original order (for frames with distinct time stamps); in prediction it returns exactly the rows whose generated features have no NaN, a superset of the former, so a forecast can be issued for every training row.", "quantifier": "every frame and every pattern of missing values", "why_tests_cant": "all 2^n missing patterns", "anchors": ["pyforecaster/formatter.py: Formatter._transform"]}
{"id": "C25", "title": "Normalisation round trip", "statement": "If the denormalising expression inverts the normalising one for the normaliser values of every row, then denormalize(x, normalize(x, y)) returns y for every frame. Each target column is passed through the normaliser once per distinct target name and occurrence in the target metadata (so with two target names a column is normalised twice); the call raises KeyError iff a metadata column is missing; quantile frames are treated level by level and an increasing denormaliser never makes ordered levels cross.", "quantifier": "every pair of functions, every frame, any number of target names", "why_tests_cant": "universally quantified over user supplied functions", "anchors": ["pyforecaster/formatter.py: Formatter.normalize, Formatter.denormalize"]}
{"id": "C26", "title": "Cross validation folds separate train from test", "statement": "time_kfcv(time_index, n_k, multiplier_factor) is accepted exactly when n_k >= 2, there is a transformer, the index is not empty and no |start_time| of the metadata exceeds the window width floor(span/(n_k-1)). It then returns n_k*multiplier folds; both masks have the length of the index; the test mask is exactly the rows inside one closed window of that width (inside the index range when sorted) and the training mask exactly the rows further than D = max|start_time| from the window. Hence the masks are disjoint and every training row is more than |start_time| away from every test row, for every start_time.", "quantifier": "every time index, n_k, multiplier and metadata tables", "why_tests_cant": "arithmetic of window edges over all n_k, multipliers and irregular indexes", "anchors": ["pyforecaster/formatter.py: Formatter.time_kfcv"]}
{"id": "C27", "title": "Cross validation covers every row", "statement": "For a sorted index and multiplier >= 1, every row is in the test mask of at least one fold of time_kfcv; with n_k = 2 every window is the whole period, so every training mask is empty.", "quantifier": "every time index, n_k, multiplier", "why_tests_cant": "rounding of the fold edges; coverage gaps at fold borders appear for particular time ranges", "anchors": ["pyforecaster/formatter.py: Formatter.time_kfcv"]}
{"id": "C28", "title": "Cross validation deadband does not account for look-ahead", "statement": "The deadband of time_kfcv is the largest |start_time| of the metadata. Offsets up to the deadband never lead from a training row to a test row, so features with non-negative lags of training rows do not depend on the values in the test window. For every deadband D and every look-ahead H > D there are an index and a fold where the target of a training row is a sample inside the test window.", "quantifier": "every look-ahead, look-back and deadband", "why_tests_cant": "leakage depends on the relation of three parameters", "anchors": ["pyforecaster/formatter.py: Formatter.time_kfcv, Transformer.transform"]}
{"id": "C29", "title": "Step-ahead pruning keeps only allowed features", "statement": "prune_dataset_at_stepahead keeps exactly, and in order, the metadata rows allowed by the method for the target's window, followed by metadata_features; values are untouched; any other column is dropped. It is accepted exactly when there is a transformer, every target transformer has more than k columns and all kept columns exist. With 'up_to' and no keep_last_n_lags no kept feature ends after the target's window. 'periodic' keeps features from the future of the target (any whole number of periods later) and has a one-sided tolerance; keep_last_seconds > 0 keeps every feature ending in the past, however old.", "quantifier": "every data frame, metadata table, step, method, period, tolerance, keep_last arguments", "why_tests_cant": "decision logic over all window positions", "anchors": ["pyforecaster/formatter.py: Formatter.prune_dataset_at_stepahead"]}
{"id": "C30", "title": "Calendar features", "statement": "Calendar features of a row are a function of its own time stamp (given the localisation flag): hour, weekday and minute-of-day are in range, two stamps get the same features iff they agree on weekday, hour and minute of the wall clock; a utc_offset column is present for every frame iff the first frame ever transformed was localised, whatever came between, and holds offset/3600 for localised frames and 0 otherwise; the call is refused exactly for a localised frame without columns after an earlier localised frame.", "quantifier": "every time stamp sequence and every history of transformed frames", "why_tests_cant": "history quantification (sticky time-zone flag)", "anchors": ["pyforecaster/formatter.py: Formatter.add_time_features"]}
{"id": "C31", "title": "Holiday flag precedence", "statement": "Each row gets exactly one label: 3 if its date is a holiday, else 2 if in the long-weekend list, else 1 if in the bridge list, else 0; rows of the same date get the same label; whether a date is labelled holiday does not depend on the other rows of the frame, while bridge and long-weekend labels do.", "quantifier": "every holiday calendar and bridge detector, every time index", "why_tests_cant": "all calendars", "anchors": ["pyforecaster/formatter.py: Formatter.add_holidays"]}
{"id": "C32", "title": "Global-form reshaping loses nothing", "statement": "global_form_preprocess returns one table per private column (no transformer refers to it), in order: named after the column, its 'target' column equal to that column, followed by exactly the columns some transformer refers to, unchanged. Names are distinct, the original table can be recovered from the result when there is a private column, and the call is accepted exactly when 'target' is the only target and all referred columns exist. For two-level columns the same holds per private group, with exactly one unreferred column in the group and shared columns only from fully referred groups.", "quantifier": "every table, set of transformer names, and set iteration order", "why_tests_cant": "reshaping over all shapes", "anchors": ["pyforecaster/formatter.py: Formatter.global_form_preprocess"]}
{"id": "C33", "title": "Hankel windows", "statement": "hankel(x, n) succeeds iff n >= 1; it has len(x)-n+1 rows and row i is x[i..i+n-1]; consecutive rows overlap, and the table determines x when n <= len(x). With generators, row i holds x[i+g] for each g (a negative i+g counting from the end, so negative generators read later samples), accepted iff there is a generator and all lie in [-len(x), n-1] (or the window is longer than x).", "quantifier": "every vector, window length and generator list", "why_tests_cant": "index arithmetic over all sizes", "anchors": ["pyforecaster/forecasting_models/holtwinters.py: hankel"]}
{"id": "C34", "title": "Persistence forecast", "statement": "The persistent forecaster predicts for row t and every step ahead the value observed at t. Its error table holds, for every step j, the quantiles of y(t+1+j)-y(t) over exactly the N-n_sa rows whose future is known; with N <= n_sa or invalid levels fit raises. On a constant series all predicted quantiles equal the point forecast.", "quantifier": "every series and horizon", "why_tests_cant": "alignment for all lengths", "anchors": ["pyforecaster/forecasting_models/benchmarks.py: Persistent"]}
{"id": "C35", "title": "Seasonal persistence is shifted by one", "statement": "A seasonal persistent forecaster with seasonality s should forecast y(t+1+j) by y(t+1+j-s), but the code uses y(t+1+j-(s+1)): the lag is one too long. On a series of period s a forecast is exact iff the two neighbouring samples are equal; for every s >= 2 there is a period-s series on which every single forecast is wrong. The forecaster is exact on series of period s+1. It raises iff n_sa = 0 or n_sa exceeds the stored window by more than one (non-empty input).", "quantifier": "every seasonality >= 2, horizon, series", "why_tests_cant": "requires all periodic signals", "anchors": ["pyforecaster/forecasting_models/benchmarks.py: SeasonalPersistent.predict"]}
{"id": "C36", "title": "Discrete distribution benchmark", "statement": "Predicted class probabilities are count/(N+1e-12) within the time-of-day cell: non-negative, zero exactly for classes never seen in the cell, ordered as the training counts, and summing to less than 1 but within 1e-12 of 1. The point forecast is the cell's sum divided by N+1e-12, i.e. the cell mean shrunk by at most one part in 1e12. For a time of day never seen in training the probabilities are NaN, while the point forecast silently is 0.", "quantifier": "every training history", "why_tests_cant": "all histories of counts", "anchors": ["pyforecaster/forecasting_models/benchmarks.py: DiscreteDistr"]}
{"id": "C37", "title": "Holt-Winters predictions do not depend on how calls are split", "statement": "Once the states are initialised and while no observation is missing, any way of splitting the observations over consecutive predict calls gives the same forecasts and final states as one call. On a new object this fails: the first call initialises both seasonal arrays with the last observation of the call, so for alpha != 1 the first forecast of the first row depends on later observations and on where the data were cut.", "quantifier": "every split of every input, every parameter value", "why_tests_cant": "all split points", "anchors": ["pyforecaster/forecasting_models/holtwinters.py: HoltWinters.run, predict"]}
{"id": "C38", "title": "Holt-Winters is exact on perfectly seasonal data", "statement": "If level, trend and seasonal states agree with a noiseless line plus two seasonal components (within the constraints), then every future forecast at every step ahead is exact and the states keep agreeing, for any smoothing parameters and number of observations.", "quantifier": "every period, signal, smoothing constants, horizon", "why_tests_cant": "infinite histories", "anchors": ["pyforecaster/forecasting_models/holtwinters.py: HoltWinters._run"]}
{"id": "C39", "title": "Holt-Winters constraints bind the seasonal states, not the forecasts", "statement": "After a predict call with n observations the n newest entries of both seasonal arrays are within the constraints, from any starting states and also with missing observations. The forecasts themselves are not constrained: for any bounds, any alpha > 0 and any threshold an observation exists after which the forecast exceeds the threshold and the upper bound.", "quantifier": "every history", "why_tests_cant": "invariant over infinite histories", "anchors": ["pyforecaster/forecasting_models/holtwinters.py: HoltWinters._run, run"]}
{"id": "C40", "title": "One missing observation poisons Holt-Winters", "statement": "Within a call, from the first missing observation on every forecast of every step is NaN for all smoothing parameters. Across calls the forecaster does not heal: serving one observation per call, with the first period p1 dividing the second, after one missing observation at time 0 the call at time t returns NaN for the forecast of time t+1+j exactly if p1 divides t or t+1+j, for ever.", "quantifier": "every history containing a NaN", "why_tests_cant": "propagation over unbounded suffix", "anchors": ["pyforecaster/forecasting_models/holtwinters.py: HoltWinters._run"]}
{"id": "C41", "title": "Statsmodels wrapper alignment", "statement": "Row i of the rolling forecasts of the statsmodels wrapper is the forecast of the model updated with the observations strictly before row i, so row 0 does not depend on the input. On a frame that starts right after the training data the model is extended with the frame's observations. On any other frame row 0 is still the forecast for the time after the training data and the later rows come from the fitted parameters started afresh on the frame, so the training history is forgotten. fit always does the latter, on its own training frame: for a model that forecasts the series exactly the residuals of step j are y(1+j)-y(N+j) followed by the increments of the series. After training on N points of a ramp of slope s>=0 the predicted quantiles of a following frame are the forecast plus s, except that levels up to 1/(N-n-1) are dragged down towards the forecast minus s(N-1).", "quantifier": "every series, every model", "why_tests_cant": "alignment for every model", "anchors": ["pyforecaster/forecasting_models/statsmodels_wrapper.py: get_forecasts"]}
{"id": "C42", "title": "Recent-history windows", "statement": "The fast adaptive models see at time i exactly the last m of (stored window followed by the observations up to i), for every window length; splitting the observations over two calls, the first one being a fit, gives the same windows as one call.", "quantifier": "every window, split and history", "why_tests_cant": "all split points", "anchors": ["pyforecaster/forecasting_models/fast_adaptive_models.py: generate_recent_history"]}
{"id": "C43", "title": "Expert combination stays inside the envelope", "statement": "Unless all coefficients are zero, the FK_multi weights are non-negative and sum to one, so each forecast lies between any bounds on the experts' forecasts; with all coefficients zero the forecast is NaN.", "quantifier": "every coefficient vector, number of experts", "why_tests_cant": "real valued inputs", "anchors": ["pyforecaster/forecasting_models/fast_adaptive_models.py: FK_multi"]}
{"id": "C44", "title": "Kalman covariance is overconfident", "statement": "For a positive semidefinite prior and positive definite noise, the Kalman update returns the posterior mean but a covariance below the true posterior covariance: the Joseph formula is applied to the already updated matrix. Returned <= posterior <= prior, all positive semidefinite, with equality in the first iff the measured components have no prior variance. Over any number of predict/update steps the matrix stays positive semidefinite.", "quantifier": "every dimension and matrices", "why_tests_cant": "matrix inequality for all matrices", "anchors": ["pyforecaster/utilities.py: kalman_update"]}
{"id": "C45", "title": "Predict does not advance the learned state", "statement": "Calling predict of Fourier_es any number of times, also with failing calls, does not change what a later predict returns. For FK the predictions do not change either, but every predict call lengthens the stored coefficient history by its number of rows.", "quantifier": "every finite history of predict calls", "why_tests_cant": "history quantification", "anchors": ["pyforecaster/forecasting_models/fast_adaptive_models.py: Fourier_es.predict, FK.predict"]}
{"id": "C46", "title": "Scenario reduction keeps total probability", "statement": "At every time step the probability of a scenario is positive exactly if it survives, and the probabilities of the returned columns sum to 1, for every metric and every choice among equal distances.", "quantifier": "every number of scenarios, steps, distance matrix and node counts", "why_tests_cant": "invariant of an iterative algorithm over all inputs", "anchors": ["pyforecaster/scenred.py: scenred"]}
{"id": "C47", "title": "Scenario reduction meets the requested node counts", "statement": "With a number of nodes requested per step (not all 1) and survivors that do not all coincide, the number of surviving scenarios at step i is the smallest of the requests at steps >= i (1 at the root) and n_scen; it never decreases with time and is at least 1.", "quantifier": "every input", "why_tests_cant": "loop termination and counts for all inputs", "anchors": ["pyforecaster/scenred.py: scenred"]}
{"id": "C48", "title": "Merged scenarios share their past", "statement": "The reduced scenarios form a tree of samples: at every step each scenario has a surviving representative, survivors represent themselves, probabilities are the fractions of scenarios represented, representatives at step i factor through those at step i+1, and the reduced value at step t is the sample of the representative; so scenarios merged at step i coincide at all steps up to i.", "quantifier": "every input", "why_tests_cant": "invariant over the loop", "anchors": ["pyforecaster/scenred.py: scenred, _get_network"]}
{"id": "C49", "title": "Tree node probabilities are conserved", "statement": "The network is built iff exactly one scenario survives at the first step (AssertionError otherwise, never another error). Each level has one node per different value of the survivors with the probability of the first of them, whose parent carries the reduced value one step before. A level sums to 1 iff the survivors' values differ at that step (otherwise probability is lost), and when they differ at two consecutive steps every node has the sum of the probabilities of its children.", "quantifier": "every reduced scenario set", "why_tests_cant": "all trees", "anchors": ["pyforecaster/scenred.py: get_network, _get_network"]}
{"id": "C50", "title": "Scenario paths run from root to leaf", "statement": "For every non-empty tree retrieve_scenarios_indexes succeeds and returns for every node of the last time the path from the root to it, one node per time; with dyn_offset without the root and with labels one less. On the network of a reduction with different values, the values along the path are the reduced scenario.", "quantifier": "every tree", "why_tests_cant": "all trees", "anchors": ["pyforecaster/scenred.py: retrieve_scenarios_indexes"]}
{"id": "C51", "title": "Superimposing a forecast on a tree", "statement": "superimpose_signal_to_tree adds the signal value at time t to all the nodes of time t and nothing else; superimposing x then y equals superimposing x+y, -x undoes x, and the numbers of nodes per time are unchanged.", "quantifier": "every tree and signal", "why_tests_cant": "algebraic law", "anchors": ["pyforecaster/scenred.py: superimpose_signal_to_tree"]}
{"id": "C52", "title": "Quantile base tree is well formed", "statement": "For requests starting with 1, the quantile base tree is built iff each number of nodes divides the next (AssertionError otherwise). It then has exactly nodes_at_step[t] nodes at step t, every other node than the root has its parent at the previous step, probabilities are uniform per level and sum to 1, and the children of a node are nodes_at_step[t+1]/nodes_at_step[t] many and their probabilities sum to its own.", "quantifier": "every divisibility chain of node counts", "why_tests_cant": "all shapes", "anchors": ["pyforecaster/tree_builders.py: ScenarioTree.gen_init_tree"]}
{"id": "C53", "title": "Last-step scenario values do not influence the quantile tree", "statement": "init_vals never fails on a well-formed tree. The root gets the median of the first step; the children of a node of step t get, in order of label, the evenly spaced quantiles of the scenarios' values at step t (not t+1) over a non-empty set of scenarios, so siblings are sorted; these sets start from all scenarios and every scenario of a node is in one of its children. Hence changing the scenarios at the last step never changes the tree, and if all scenarios start from the same value all the nodes of the second step get that value.", "quantifier": "every scenario set and tree shape", "why_tests_cant": "2-safety over all scenario sets", "anchors": ["pyforecaster/tree_builders.py: ScenarioTree.init_vals"]}
{"id": "C54", "title": "Scenario interpolation", "statement": "Scenario values are the predicted quantiles of the row and step interpolated at the copula rank: a rank equal to a level gives its quantile, between two levels the weighted mean of their quantiles, outside the extreme levels the line of the extreme pair continues. They are non-decreasing in the rank if quantiles do not cross, lie between the extreme quantiles for ranks between the extreme levels, and do not depend on the order in which levels are listed. With an additional node the first row is the initial observation (0 if none) of that row.", "quantifier": "every level vector, quantile vector, rank", "why_tests_cant": "real ranks", "anchors": ["pyforecaster/scenarios_generator.py: ScenGen.interp_scens"]}
{"id": "C55", "title": "Copula samples are ranks with the requested shape", "statement": "Copula sampling succeeds iff every hour of the rows was seen in fitting and n_scen is not 1 (one scenario is always refused, for any number of steps); the sample of a row, step and scenario is the normal distribution function of the draw for exactly that row, scenario and step, with the covariance of the row's hour, hence a number in [0,1].", "quantifier": "every n_scen and dimension", "why_tests_cant": "shape logic with squeezing", "anchors": ["pyforecaster/copula.py: sample"]}
{"id": "C56", "title": "Pinball loss is a proper score", "statement": "For a forecast laid out (rows, steps, quantiles), quantile_scores gives for each level and label the mean over the label's cells of max(\u03b1(y-q), (1-\u03b1)(q-y)); scores and CRPS are non-negative for levels in (0,1), and the CRPS is zero iff all quantiles equal the observations. Over all constant forecasts the score is minimal exactly at the sample quantiles of the level (at most a fraction \u03b1 below, at least a fraction \u03b1 not above).", "quantifier": "every sample, level, candidate", "why_tests_cant": "minimality over all real candidates", "anchors": ["pyforecaster/metrics.py: quantile_scores, crps"]}
{"id": "C57", "title": "Reliability", "statement": "Reliability of a level is the fraction of the label's cells with observation strictly below the quantile; it lies in [0,1], is non-decreasing between levels whose quantiles do not cross, and get_score=True subtracts exactly the level. Without levels a frame always fails with IndexError, and an array laid out (rows, quantiles, steps) with more steps than quantiles fails too.", "quantifier": "every sample", "why_tests_cant": "all samples", "anchors": ["pyforecaster/metrics.py: reliability"]}
{"id": "C58", "title": "Point metrics", "statement": "rmse, mape and nmae aggregate over the rows if there are as many rows as labels (always, also for a square table), else over the columns if there are as many columns, else fail; the entry of a label is the mean (its root for rmse) of the documented cell errors. Entries are non-negative and zero iff forecasts equal observations on the label's cells; rmse is symmetric, translation invariant and scales with the unit.", "quantifier": "every table", "why_tests_cant": "all tables", "anchors": ["pyforecaster/metrics.py: chose_axis, rmse, nmae, mape"]}
{"id": "C59", "title": "Cross-validation score table", "statement": "cross_validate of type full returns, for each requested score under 'test_' and its name, one number per fold: the score on the test rows of a clone fitted on the training rows; the value returned is the mean over the folds of the score named 'score' if there is one, else of the first. random_fold with a dictionary of scores and no score_key succeeds only if one of the scores is itself named 'test_score' or 'test_' plus the first name, with a score_key iff it names one of the scores. An unknown cv type raises ValueError.", "quantifier": "every fold sequence, score dictionary, cv type", "why_tests_cant": "branch interaction", "anchors": ["pyforecaster/trainer.py: cross_validate, get_score_key"]}
{"id": "C60", "title": "Reconciled forecasts are coherent", "statement": "Every reconciled row satisfies the aggregation constraints exactly, for every base forecast, weight matrix and fitted matrix: under the names of the object always, in the frame returned by predict whenever the series appear in the order of the training frame.", "quantifier": "every hierarchy, weights, base forecast", "why_tests_cant": "linear algebra for all dimensions", "anchors": ["pyforecaster/reconciliation/reconciliation.py: reconcile, fit_reconciliation, get_summation_matrix"]}
{"id": "C61", "title": "Reconciliation leaves coherent forecasts unchanged", "statement": "Fitting with a positive definite weight matrix (in particular method='dummy') succeeds. Least-squares reconciliation is a projection: coherent base forecasts are returned unchanged and reconciling twice equals reconciling once. The reconciled row is the coherent row closest to the base forecasts in the fitted weights.", "quantifier": "every hierarchy, invertible normal matrix, forecast", "why_tests_cant": "all dimensions", "anchors": ["pyforecaster/reconciliation/reconciliation.py: fit_reconciliation, reconcile"]}
{"id": "C62", "title": "Reconciliation column labels", "statement": "Each column of the reconciled frame should hold the series it is named after. Values are computed in the order of the training frame but labelled in the order in which series first appear in the frame to predict: with the same series, labels are right for all base forecasts iff the two orders agree. A missing training series raises KeyError, an additional one ValueError.", "quantifier": "every column order", "why_tests_cant": "all permutations", "anchors": ["pyforecaster/reconciliation/reconciliation.py: reconcile"]}
{"id": "C63", "title": "Hierarchy unrolling", "statement": "Every aggregate unrolls to exactly the bottom series below it; every acyclic hierarchy without empty aggregates is unrolled, a cyclic one never; the summation matrix has ones exactly at the bottom series below an aggregate.", "quantifier": "every hierarchy", "why_tests_cant": "all trees by structural induction", "anchors": ["pyforecaster/reconciliation/reconciliation.py: unroll_dict, unroll_subdict, get_summation_matrix, explore_hierarchy"]}
{"id": "C64", "title": "One reconciliation matrix for all steps", "statement": "Prediction reconciles every step with the matrix fitted for the last one, while the stored training errors of a step are those of its own matrix; a step is reconciled as fitted, for all base forecasts, iff its matrix equals the last one.", "quantifier": "every horizon and matrix sequence", "why_tests_cant": "history of overwrites", "anchors": ["pyforecaster/reconciliation/reconciliation.py: fit, predict"]}
{"id": "C65", "title": "Chunking is a partition", "statement": "array_split cuts a frame into n consecutive pieces whose concatenation is the frame and whose sizes differ by at most one.", "quantifier": "every length and number of pieces", "why_tests_cant": "all lengths", "anchors": ["pyforecaster/big_data_utils.py: array_split"]}
{"id": "C66", "title": "Parallel map keeps all rows", "statement": "fdf_parallel should return the function applied to every chunk. Without ray only the first chunk is processed: a frame with more columns than chunks gives the first rows/n rows (or columns/n columns) as a bare array, or ValueError for chunks of unequal width. use_ray=False is ignored when the function raises on the test slice. With ray, row-wise (axis 0) and entrywise (axis 1) functions give the function of the whole frame; parallel prediction of trees equals the sequential one with at least two processors and raises IndexError with one.", "quantifier": "every frame and split count", "why_tests_cant": "depends on environment", "anchors": ["pyforecaster/big_data_utils.py: fdf_parallel"]}
{"id": "C67", "title": "Memory reduction preserves values", "statement": "Reducing an integer column never changes a value; the new type is the smallest that holds all values strictly inside its range, so it grows only for columns with the least or greatest value of their type; reducing twice equals reducing once. Without parallel processing the frame of the caller is changed too.", "quantifier": "every integer column", "why_tests_cant": "boundary values of each type", "anchors": ["pyforecaster/big_data_utils.py: reduce_mem_usage_series"]}
{"id": "C68", "title": "Neural training loop: batches, termination and the parameters kept", "statement": "NN.fit makes at most n_epochs * (n // batch_size) steps; in each epoch no row is used twice and fewer than batch_size rows are left out; every evaluation happens at a positive multiple of stats_step on the parameters of that step. The parameters kept are those of the evaluation before the last if the last recorded validation loss is higher, and the current ones otherwise; with a positive tolerance an early stop always returns the parameters with the least recorded loss, and a run without early stop returns the parameters after the last step.", "quantifier": "every loss sequence", "why_tests_cant": "all loss sequences", "anchors": ["pyforecaster/forecasting_models/neural_models/base_nn.py: NN.fit"]}
{"id": "C69", "title": "Saving and loading networks", "statement": "save writes exactly the current values of the names with a visible class-level value, except the runtime objects and values that cannot be pickled; an object constructed with load_path has all these values whatever its other constructor arguments, and keeps every other attribute of a fresh object. For NN, FFNN, LSTMNN, PICNN, PIQCNN, PIQCNNSigmoid, RecStablePICNN and CausalInvertibleNN, predict of the reloaded object equals predict of the saved one on every input.", "quantifier": "every attribute set", "why_tests_cant": "round trip over all attribute sets", "anchors": ["pyforecaster/forecasting_models/neural_models/base_nn.py: NN.save, NN.load, NN.__init__, get_class_properties_names, get_serializable_properties"]}
{"id": "C70", "title": "Partially input-convex network is convex in the controls", "statement": "For every exogenous input and all weights after reproject_weights, every output (mean, and variance if probabilistic) of PICNN and RecStablePICNN is convex in the control variables, for any depth and width and with or without augmented controls, when no output bounds are set; variances are strictly positive. With z_min < z_max the outputs lie strictly between the bounds and are quasi-convex.", "quantifier": "every depth, width, weights, inputs", "why_tests_cant": "universal inequality", "anchors": ["pyforecaster/forecasting_models/neural_models/ICNN.py: PICNN_module, PICNN.set_arch, RecStablePICNN.set_arch", "pyforecaster/forecasting_models/neural_models/layers.py: PICNNLayer", "pyforecaster/forecasting_models/neural_models/neural_utils.py: reproject_weights"]}
{"id": "C71", "title": "Monotone networks are monotone in the controls", "statement": "With weights projected by the monotone rule (PIQCNNSigmoid, StructuredPICNN, and the decoder of the latent network) every output is non-decreasing in each control variable, for any depth, width and ordered bounds; with augment_ctrl_inputs=True this fails.", "quantifier": "every depth, width, weights", "why_tests_cant": "universal inequality", "anchors": ["pyforecaster/forecasting_models/neural_models/ICNN.py: PIQCNNSigmoid, StructuredPICNN, LatentPICNN_module", "pyforecaster/forecasting_models/neural_models/neural_utils.py: reproject_weights"]}
{"id": "C72", "title": "Causal invertible embedding and its coded inverse", "statement": "For every number of features and layers and every parameter vector, inverting the embedding of x gives x if no value fed to an activation is within 1e-12 of zero, and embedding the inverse of y gives y if no intermediate value lies in the gap of the activation's range; one layer is exact both ways. Entry i of the embedding depends only on inputs up to i, and entry i of the inverse only on the embedding up to i. With two or more layers the embedding is never injective: two inputs share an embedding.", "quantifier": "every dimension, weights, input", "why_tests_cant": "all real inputs", "anchors": ["pyforecaster/forecasting_models/neural_models/layers.py: CausalInvertibleLayer, linloglin, linloglin_inverse", "pyforecaster/forecasting_models/neural_models/INN.py: CausalInvertibleModule"]}
{"id": "C73", "title": "Weight projection", "statement": "reproject_weights replaces every constrained weight by its positive part, leaves every other parameter, all biases and all names untouched and is idempotent; it raises KeyError exactly when a non-monotone convex layer lacks wz (or wy when recursively stable). Constrained are wz of every convex layer, and wy if the network is recursively stable or monotone or the layer or its module has monotone in its name.", "quantifier": "every parameter tree", "why_tests_cant": "all trees", "anchors": ["pyforecaster/forecasting_models/neural_models/neural_utils.py: reproject_weights"]}
{"id": "C74", "title": "Boosting residual invariant", "statement": "During the additive random-Fourier regression fit, each stage is trained on target minus the sum of the earlier stage predictions, the residual left is target minus the in-sample prediction of the fitted object, and predict returns the sum of the stages; if each stage does no worse than zero in sum of squares, the training error never grows with the number of stages. BrutalRegressor after its first fit satisfies the same residual identity.", "quantifier": "every number of stages and stage learners", "why_tests_cant": "loop invariant", "anchors": ["pyforecaster/forecasting_models/random_fourier_features.py: AdditiveRFFRegression, BrutalRegressor"]}
{"id": "C75", "title": "LSTM windows", "statement": "fit trains on exactly one sample per position t with a full history before it and a full horizon from it: the values before t, the exogenous row before t, the values from t on; it raises AssertionError iff there is none. predict returns one forecast per row from the history length on, labelled with that row and made, like in training, from the rows before it, so column i labelled t is for i-1 steps after t; frames that agree before t give the same forecast for t, and longer frames keep earlier forecasts. The newest row never influences any forecast.", "quantifier": "every series and window length", "why_tests_cant": "alignment for all lengths", "anchors": ["pyforecaster/forecasting_models/neural_models/LSTM_bidir.py: LSTM_Forecaster.fit, LSTM_Forecaster.predict"]}
{"id": "C76", "title": "QRF point prediction shape", "statement": "QRF.predict should return one row per input row and one column per target for every frame. Because of a squeeze it does so exactly when there is more than one target or a single row; with one target and a number of rows different from 1 it raises ValueError (so fitting such a forecaster fails in the post-fit phase).", "quantifier": "every number of rows and of targets", "why_tests_cant": "only the one-target shape fails; existing tests use many targets", "anchors": ["pyforecaster/forecasting_models/randomforests.py: QRF.predict"]}
{"id": "C77", "title": "Cloning a forecaster (cross validation) forgets parameters", "statement": "sklearn's clone, applied by cross_validate to every fold and by hyper-parameter search, rebuilds the object from get_params: signature parameters stored as attributes keep their current value, every other constructor argument (nodes_at_step; everything passed through **scengen_kwgs such as conditional_to_hour, n_scen_fit, formatter for classes that do not list it) is reset to its default. A hyper-parameter trial on stored names trains the clones with the trial's values, but the object itself (fitted by cv_type='random_fold') keeps training with the constructor's values when its dictionary is frozen; trial names in the signature that are not attributes pass the guard and have no effect.", "quantifier": "every class signature, constructor arguments, trial", "why_tests_cant": "quantifies over all parameter sets; tests look at scores only", "anchors": ["pyforecaster/forecaster.py: ScenarioGenerator.get_params, set_params", "pyforecaster/trainer.py: cross_validate, optuna_objective"]}
{"id": "C78", "title": "BrutalRegressor stages and NaN", "statement": "A stage predicts NaN for a row exactly when no bootstrap row falls in the same bin (same number of cuts at or below it); otherwise the prediction lies between the smallest and largest bootstrap residual of that bin; bootstrap rows never get NaN.", "quantifier": "every cut list, bootstrap sample and row", "why_tests_cant": "depends on random bootstrap and data", "anchors": ["pyforecaster/forecasting_models/random_fourier_features.py: compute_coeffs, linear_response, fit_features"]}
{"id": "C79", "title": "The aggregation step is frozen by the first transformed frame", "statement": "A transformer built without agg_freq takes the sampling time of the first frame it transforms. Transforming further frames on the same grid never changes it, so later results equal those of a fresh transformer; after a finer first frame, a frame on a coarser grid makes relative lags collapse onto the same sample: all lag columns become equal although their names differ.", "quantifier": "every history of frames, every transformer", "why_tests_cant": "depends on the history of earlier calls", "anchors": ["pyforecaster/formatter.py: Transformer.transform"]}
{"id": "C80", "title": "The parallel branch of the formatter equals the sequential one only for unchained transformers", "statement": "Formatter._transform with parallel=True returns the same columns as the sequential loop whenever every transformer refers only to columns of the input frame; when a transformer refers to a column generated by an earlier one the sequential loop succeeds and the parallel branch raises.", "quantifier": "every list of transformers, every frame", "why_tests_cant": "equivalence of two execution strategies for all transformer lists", "anchors": ["pyforecaster/formatter.py: Formatter._transform"]}
{"id": "C81", "title": "Serving features equal training features", "statement": "For every row that survives in the training call (features and targets), the features returned by the prediction call on the same frame are identical to those returned in training.", "quantifier": "every frame, formatter, missing pattern", "why_tests_cant": "relates two calls for all inputs", "anchors": ["pyforecaster/formatter.py: Formatter._transform"]}
{"id": "C82", "title": "Global-form series do not influence each other", "statement": "In global form (sequential branch) the features and targets returned for each series are exactly those the formatter, as it was before the call, returns for that series alone: no lag or aggregate crosses from one series into another, the order of the series and their values have no effect on each other, and the call fails iff some series alone fails.", "quantifier": "every formatter state, number of series, values and row counts", "why_tests_cant": "non-interference over all values of all other series, with a formatter whose state (agg_freq) changes during the loop", "anchors": ["pyforecaster/formatter.py: Formatter.transform (global_form), Formatter._transform, Transformer.transform"]}
{"id": "C83", "title": "corr_reorder serves every series in the order of the last training series", "statement": "With global_form and corr_reorder, training permutes the feature values of each series by its own correlation order, but only the order of the last training series is stored: at serving time every series is permuted by that order. A series gets the same features at serving as in training, for all rows, exactly when its own order equals the last one; serving first raises KeyError.", "quantifier": "every sequence of training series and orders, every served row", "why_tests_cant": "depends on the history of series; needs an all-rows equivalence", "anchors": ["pyforecaster/formatter.py: Formatter.global_form_postprocess"]}
{"id": "C84", "title": "Holt-Winters on an integer target column", "statement": "The seasonal arrays take the type of the target column, so on an integer column every seasonal update is truncated toward zero. If a new forecaster's first call ends with an observation 0 and all observations are at most M in absolute value with 2*M*gamma < 1, the seasonal arrays stay zero and every row repeats the level of simple exponential smoothing, whatever seasonal pattern the data have.", "quantifier": "every integer series, smoothing parameters and horizon", "why_tests_cant": "unbounded histories, all parameters", "anchors": ["pyforecaster/forecasting_models/holtwinters.py: HoltWinters._run L322-323, run"]}
{"id": "C85", "title": "HoltWintersMulti takes forecasts and error quantiles from different submodels", "statement": "With increasing submodel horizons column c of the combined forecast is column c of the first submodel whose horizon exceeds c (zero if there is none). With the default horizons 1..n_sa and nq quantile levels, row c of the error table is that of submodel 0 for c=0, is left zero for 1 <= c < nq (all quantiles equal the point forecast) and comes from the longest submodel for c >= nq.", "quantifier": "every number of steps and quantile levels, every submodel", "why_tests_cant": "all horizons and level counts", "anchors": ["pyforecaster/forecasting_models/holtwinters.py: HoltWintersMulti.fit, predict"]}
{"id": "C86", "title": "Holt-Winters error table understates the served errors", "statement": "With the target as only column, fit tabulates quantiles of residuals after a least-squares correction that predict does not apply. The sum of squares of the tabulated errors plus the explained part equals that of the served forecasts; both lists agree iff residuals and target are uncorrelated. Residuals compare the forecast made at row t for step j with the target at t+1+j.", "quantifier": "every training series", "why_tests_cant": "real valued inputs of any length", "anchors": ["pyforecaster/forecasting_models/holtwinters.py: HoltWinters.fit L188-215, predict L241-247"]}
{"id": "C87", "title": "Refitting Holt-Winters continues from the old states", "statement": "Fitting an object that already has states does not start over: the states afterwards are those of continuing the old run over the training data and then twenty times over its last max(periods) samples; fitting twice differs from fitting once.", "quantifier": "every state, parameters and NaN-free training series", "why_tests_cant": "unbounded series and histories", "anchors": ["pyforecaster/forecasting_models/holtwinters.py: HoltWinters.fit, reinit"]}
{"id": "C88", "title": "Fourier_es keeps coefficients but not the phase", "statement": "With harmonics below half the window and states describing a periodic band-limited signal, all forecasts are exact and the states keep describing it as long as the number of samples seen before the call is a multiple of the window m; then fitting on a first part and running on the rest equals one run over all samples. Otherwise each call restarts the phase at zero: the first forecast row is alpha times the true continuation plus (1-alpha) times the continuation from time 0.", "quantifier": "every window, number of harmonics, signal, smoothing parameters, number of samples", "why_tests_cant": "real valued signals, all call lengths", "anchors": ["pyforecaster/forecasting_models/fast_adaptive_models.py: get_basis, Fourier_es.run"]}
{"id": "C89", "title": "FK_multi judges experts against the wrong time", "statement": "The error of an expert at row i compares its forecasts for time i+1 with the observation at time i. An expert whose forecasts are all exact is charged |y(i+1)-y(i)|, one that is one step late is charged nothing and gets the strictly larger coefficient whenever the signal moves.", "quantifier": "every signal, number of experts, horizon, row", "why_tests_cant": "all signals and horizons", "anchors": ["pyforecaster/forecasting_models/fast_adaptive_models.py: FK_multi.run"]}
{"id": "C90", "title": "Fourier_es horizon longer than the window", "statement": "With periodicity at most the window length every non-empty call of Fourier_es succeeds and returns n_sa forecasts per row; with n_sa longer than the window and the default periodicity every call raises IndexError, for every state and input.", "quantifier": "every configuration, state and input", "why_tests_cant": "all window/horizon pairs", "anchors": ["pyforecaster/forecasting_models/fast_adaptive_models.py: Fourier_es.run, store_basis"]}
{"id": "C91", "title": "Fourier_es doubles the alternating component", "statement": "With an even window m and n_harmonics >= m/2 (allowed, and the upper limit of the hyper-parameter search) the basis is not orthonormal: projecting a window of an alternating signal and reconstructing it gives twice the signal.", "quantifier": "every even window, amplitude, phase", "why_tests_cant": "real valued signals, all windows", "anchors": ["pyforecaster/forecasting_models/fast_adaptive_models.py: get_basis, Fourier_es.store_basis"]}
{"id": "C92", "title": "Coinciding scenarios stall the reduction", "statement": "If the survivors coincide over the first i+1 steps, step i removes at most one of them whatever number of nodes is requested (delta_rel becomes 0/0). Hence if the first value is the same for all scenarios, e.g. the known present, and three or more survive at the second step, no tree can be built: AssertionError.", "quantifier": "every number of scenarios, steps, distances, requests", "why_tests_cant": "NaN comparison in a loop condition, all inputs", "anchors": ["pyforecaster/scenred.py: scenred, _get_network"]}
{"id": "C93", "title": "One node everywhere means tolerance mode", "statement": "Requesting one node at every step is treated as no request: with a positive tolerance, however small, each step after the first removes at least one scenario while two are left; with a tolerance <= 0 all scenarios survive at all steps after the first.", "quantifier": "every number of scenarios, steps, distances, tolerance", "why_tests_cant": "all inputs", "anchors": ["pyforecaster/scenred.py: scenred"]}
{"id": "C94", "title": "Tree labels follow creation order; single-step trees are empty", "statement": "The graph built from the edge list lists its nodes as 0,1,2,... so that labels and positions coincide, provided the tree has an edge; for a horizon of one step the graph is empty and retrieving scenarios raises ValueError.", "quantifier": "every tree", "why_tests_cant": "all trees", "anchors": ["pyforecaster/scenred.py: get_network, retrieve_scenarios_indexes"]}
{"id": "C95", "title": "Scenario reduction is greedy in the whole-horizon distance", "statement": "From step i+1 to step i, survivors and probabilities change only by merges of the ordered pair (k, r) of different survivors with the smallest distance times probability of k; the distance is the one over the whole horizon at all steps, not over the steps up to i. Before the last step all scenarios are present with probability 1/n.", "quantifier": "every number of scenarios, steps, distances, requests", "why_tests_cant": "all inputs, all choices among equal costs", "anchors": ["pyforecaster/scenred.py: scenred"]}
{"id": "C96", "title": "The additional initial node depends on the number of scenarios", "statement": "gen_init_tree adds an initial node when the number of requests is one less than the number of scenarios, not of steps; otherwise it overwrites the first request with 1, in the array of the caller or of the object as well. So with one request less than steps, the case its message describes, the requests are honoured only if there are as many scenarios as steps.", "quantifier": "every number of scenarios, steps and requests", "why_tests_cant": "all shapes", "anchors": ["pyforecaster/tree_builders.py: ScenarioTree.gen_init_tree"]}
{"id": "C97", "title": "NeuralGas training keeps tree and scenarios consistent", "statement": "On a tree all of whose nodes lead to a leaf, training never fails, whatever is drawn: the averaging gives each node one value, keeps the sum over the scenarios of a node and is idempotent; the tree ends with the values of the returned scenarios; values stay at each step in any interval containing the initial values and the scenarios. If some node has no leaf below it, gen_tree raises AssertionError.", "quantifier": "every tree, scenario set, sequence of draws, gains in [0,1], number of iterations", "why_tests_cant": "invariant over all random executions", "anchors": ["pyforecaster/tree_builders.py: NeuralGas.gen_tree, update_tree_from_scenarios"]}
{"id": "C98", "title": "NeuralGas ranks and tolerance", "statement": "The scenario with the r-th smallest distance from the draw moves with the gain of rank order(order(r)), where order is the argsort of the distances, so gains follow closeness iff order is its own inverse; the farthest may move most. The tolerance is never compared with anything measured: below 1 all k_max iterations run, otherwise none. The returned tree_vals are those before the last iteration.", "quantifier": "every set of distances, gains, tolerance, number of iterations", "why_tests_cant": "all permutations and executions", "anchors": ["pyforecaster/tree_builders.py: NeuralGas.gen_tree"]}
{"id": "C99", "title": "DiffTree: no decay, stopping rule, stale scenarios", "statement": "The learning rate never decays, however the loss grows: the result is plain gradient descent with the initial rate. With evaluation_step 1 it stops after the first step whose starting loss is within tol of the previous one (the first is compared with 1e-6) or after k_max steps. The returned scenarios are those of the base tree before initialisation and training; the tree carries the returned values.", "quantifier": "every loss, gradient, rate, tolerance, number of iterations", "why_tests_cant": "all executions of an iterative optimiser", "anchors": ["pyforecaster/tree_builders.py: DiffTree.gen_tree"]}
{"id": "C100", "title": "Layout of quantile arrays is guessed", "statement": "An array laid out (rows, quantiles, steps) is scored as such iff the number of quantiles differs from the number of steps; when they are equal it is silently read transposed: level a is scored with the values of step a.", "quantifier": "every array, level, numbers of quantiles and steps", "why_tests_cant": "all shapes", "anchors": ["pyforecaster/metrics.py: quantile_scores"]}
{"id": "C101", "title": "What the rmse scorer measures", "statement": "make_scorer(rmse) is the mean over rows of the rmse over the steps, unless there are as many rows as steps: then the mean over steps of the rmse over rows. For a one-step target with more than one row it is the mean absolute error, not the rmse over samples.", "quantifier": "every table of forecasts and targets", "why_tests_cant": "all tables and shapes", "anchors": ["pyforecaster/metrics.py: make_scorer, rmse"]}
{"id": "C102", "title": "predict_scenarios with an additional node always fails", "statement": "A forecaster with additional_node=True and at least two steps fails in predict_scenarios for every input (the diagnostic deviation subtracts tables with S+1 and S rows), although the scenarios have been sampled; without the additional node the diagnostic changes nothing.", "quantifier": "every forecaster, input, number of scenarios, at least two steps", "why_tests_cant": "all shapes", "anchors": ["pyforecaster/forecaster.py: ScenarioGenerator.predict_scenarios"]}
{"id": "C103", "title": "glasso_cv always cross-validates on midnight", "statement": "The hour chosen as the one with most observations is hour 0 for every index (argmax of counts sorted in decreasing order is position 0); fitting with glasso_cv uses exactly the rows of midnight and fails iff there are none.", "quantifier": "every sequence of hours", "why_tests_cant": "all indexes; passes whenever midnight is present", "anchors": ["pyforecaster/copula.py: HourlyGaussianCopula.fit"]}
{"id": "C104", "title": "A fixed seed restarts for every hour", "statement": "With a fixed random_state two rows of different hours at the same position among the rows of their hours get identical copula samples whenever the two hours have equal correlations and equally many rows.", "quantifier": "every index, covariance table, generator", "why_tests_cant": "relation between two rows for all generators", "anchors": ["pyforecaster/copula.py: HourlyGaussianCopula.sample"]}
{"id": "C105", "title": "Pre-fitted trees need all 24 hours", "statement": "Pre-fitting trees fails if one of the 24 hours is missing from the data; otherwise, unless the tree builder fails, every hour gets a tree, those after midnight started from the tree of midnight. Offline prediction then never fails, and gives each row the tree of its hour with its own prediction, independently of the other rows.", "quantifier": "every index, tree builder, batch of rows", "why_tests_cant": "all indexes and batches", "anchors": ["pyforecaster/scenarios_generator.py: ScenGen.fit, predict_trees, tree_gen"]}
{"id": "C106", "title": "ScenGen reads quantile frames transposed", "statement": "The frame returned by predict_quantiles (targets outer, quantiles inner), passed to ScenGen.predict_scenarios, is read with the roles of steps and quantiles exchanged: it is refused by an assertion unless there are as many targets as quantiles, and then silently transposed.", "quantifier": "every frame and shape", "why_tests_cant": "all shapes", "anchors": ["pyforecaster/scenarios_generator.py: ScenGen.predict_scenarios", "pyforecaster/forecaster.py: quantiles_to_df"]}
{"id": "C107", "title": "Folds of positions are read as labels", "statement": "random_fold, and storing results of a full run, select rows by label: folds given as positions (KFold, also built by hyperpar_optimizer for an integer cv without formatter) raise KeyError on a time index, and on an integer index give the intended rows iff the labels at these positions are the positions; boolean masks always give the intended rows. Folds given as a generator are refused in both cases.", "quantifier": "every index, fold, model, score", "why_tests_cant": "all indexes and folds; tests with RangeIndex or masks pass", "anchors": ["pyforecaster/trainer.py: cross_validate", "pyforecaster/trainer.py: hyperpar_optimizer"]}
{"id": "C108", "title": "random_fold trains the object it is given, cumulatively", "statement": "A full run leaves the model object unchanged over any number of trials; a sequence of random_fold trials leaves it fitted successively on every drawn training set, and each trial is scored with the object fitted on top of its past.", "quantifier": "every model class, sequence of drawn folds", "why_tests_cant": "all sequences of trials", "anchors": ["pyforecaster/trainer.py: cross_validate", "pyforecaster/trainer.py: optuna_objective"]}
{"id": "C109", "title": "The Bayesian reconciliation always fails", "statement": "With method=bayes, reconcile (hence fit) raises ValueError for every input, unless the aggregates are named by integers 0, 1, ..: the difference of the named aggregate rows and the unnamed product rows is aligned to twice as many rows.", "quantifier": "every hierarchy and frame whose aggregates are not named by integers", "why_tests_cant": "all hierarchies; no test uses the method", "anchors": ["pyforecaster/reconciliation/reconciliation.py: HierarchicalReconciliation.reconcile"]}
{"id": "C110", "title": "Reconciled scenarios only work on frames as long as the training frame", "statement": "predict_scenarios (and predict_quantiles) raise IndexError unless the frame has as many rows as the training frame; then every row gets scenarios exactly once, by adding training errors from the hour of the training row at the same position, not from its own hour. The vanilla method also adds errors of the reconciled forecasts.", "quantifier": "every index, draw, hierarchy", "why_tests_cant": "tests predict the training frame only", "anchors": ["pyforecaster/reconciliation/reconciliation.py: HierarchicalReconciliation.predict_scenarios"]}
{"id": "C111", "title": "Reconciled scenarios are coherent", "statement": "If the training targets are coherent, every scenario of predict_scenarios with method=reconciled is coherent at every step, although steps are reconciled with the matrix of the last one.", "quantifier": "every hierarchy, weights, base forecasts, draws", "why_tests_cant": "all inputs", "anchors": ["pyforecaster/reconciliation/reconciliation.py: HierarchicalReconciliation.predict_scenarios"]}
{"id": "C112", "title": "Hierarchy levels", "statement": "The root is the first aggregate with the greatest number of unrolled bottom series; each series below it gets the length of a path from the root as level (its depth when all paths are equally long); series not below it, such as the top of a chain listed from below, get none.", "quantifier": "every hierarchy", "why_tests_cant": "all hierarchies", "anchors": ["pyforecaster/reconciliation/reconciliation.py: get_hierarchy_levels, explore_hierarchy"]}
{"id": "C113", "title": "Labels of the parallel map without ray", "statement": "Without ray a frame with no more columns than chunks is returned with sorted column labels over unsorted values: labels are right iff the columns were sorted; repeated labels raise ValueError.", "quantifier": "every frame, shape-preserving function and axis", "why_tests_cant": "all column orders", "anchors": ["pyforecaster/big_data_utils.py: fdf_parallel"]}
{"id": "C114", "title": "Memory reduction rounds floats", "statement": "A float column is stored in 32 bits iff it has an entry that is not NaN, no infinity and all entries in range; it keeps its values iff all have at most 24 significant bits. NaN entries stay in place; reducing twice gives the values of reducing once.", "quantifier": "every float column and conversion", "why_tests_cant": "all values", "anchors": ["pyforecaster/big_data_utils.py: reduce_mem_usage_series"]}
{"id": "C115", "title": "Which convex networks can be evaluated", "statement": "PICNN and the sigmoid networks evaluate for every number of controls and widths. RecStablePICNN with augment_ctrl_inputs=True raises on every input as soon as there are two control variables. A probabilistic PICNN evaluates only if the latent width is one, the number of variance outputs is one, or both agree.", "quantifier": "every depth, width, number of controls and outputs", "why_tests_cant": "tests use latent width one", "anchors": ["pyforecaster/forecasting_models/neural_models/ICNN.py: PICNN_module, RecStablePICNN.set_arch"]}
{"id": "C116", "title": "Quasi-convex network", "statement": "Every output of PIQCNN is smallest at zero (normalised) controls, whatever the weights. With one layer it is convex in the controls; with two layers there are admissible weights for which it is not quasi-convex.", "quantifier": "every depth, weights, input", "why_tests_cant": "universal inequality", "anchors": ["pyforecaster/forecasting_models/neural_models/ICNN.py: PartiallyIQCNN_module"]}
{"id": "C117", "title": "Latent network is convex only in the embedding", "statement": "The predictor of LatentStructuredPICNN is convex in the embedding for all projected weights, but the prediction is not convex in the control variables in general.", "quantifier": "every depth, weights, input", "why_tests_cant": "universal inequality", "anchors": ["pyforecaster/forecasting_models/neural_models/ICNN.py: LatentPICNN_module"]}
{"id": "C118", "title": "A NaN validation loss crashes training", "statement": "If NN.fit returns, no recorded validation loss is NaN unless only one was recorded; a loss that is always NaN makes fit raise IndexError as soon as two evaluations are due.", "quantifier": "every training step, loss, batch size, number of epochs", "why_tests_cant": "divergence is rare in tests", "anchors": ["pyforecaster/forecasting_models/neural_models/base_nn.py: NN.fit"]}
{"id": "C119", "title": "Batch sizes for which nothing is trained", "statement": "Without a batch size NN.fit raises ZeroDivisionError exactly when there are fewer than ten training rows; with a batch size above the number of training rows it returns the initial parameters without any step.", "quantifier": "every data set and configuration", "why_tests_cant": "tests use large data sets", "anchors": ["pyforecaster/forecasting_models/neural_models/base_nn.py: NN.fit"]}
{"id": "C120", "title": "stopping_rounds has no effect", "statement": "With a positive rel_tol, NN.fit stops at the first evaluation whose loss does not fall, and its result is the same for all non-negative stopping_rounds.", "quantifier": "every training step, loss, tolerance > 0, two patience values", "why_tests_cant": "compares two runs for all losses", "anchors": ["pyforecaster/forecasting_models/neural_models/base_nn.py: NN.fit"]}
{"id": "C121", "title": "Layer counts of the latent network are not saved", "statement": "n_encoder_layers and n_decoder_layers of LatentStructuredPICNN, which its set_arch reads, are the only attributes read by set_arch or predict that are not saved; the reloaded network has those of the constructor call.", "quantifier": "every trained object and constructor call", "why_tests_cant": "tests reload with the same arguments", "anchors": ["pyforecaster/forecasting_models/neural_models/ICNN.py: LatentStructuredPICNN"]}
{"id": "C122", "title": "Quantiles after reloading", "statement": "A reloaded network has the empty residual quantiles of a fresh object; if it is not probabilistic, predict_quantiles raises KeyError on every non-empty input. In general predict_quantiles works exactly when every hour of the input occurs in the calibration data.", "quantifier": "every trained object and input", "why_tests_cant": "tests reload and call predict only", "anchors": ["pyforecaster/forecasting_models/neural_models/base_nn.py: NN.save, NN.predict_quantiles"]}
{"id": "C123", "title": "Inverter learning rate after reloading", "statement": "A reloaded PICNN reports the saved inverter_learning_rate while the optimiser used by optimize was built from the rate of the constructor call.", "quantifier": "every trained object and constructor call", "why_tests_cant": "the optimiser is opaque", "anchors": ["pyforecaster/forecasting_models/neural_models/ICNN.py: PICNN.__init__"]}
{"id": "C124", "title": "set_params ignores unknown names", "statement": "NN.set_params sets exactly the given names that are already in the instance dictionary and leaves all other attributes unchanged; names that are unknown or only class-level are silently ignored.", "quantifier": "every object and keyword dictionary", "why_tests_cant": "all names", "anchors": ["pyforecaster/forecasting_models/neural_models/base_nn.py: NN.set_params"]}
{"id": "C125", "title": "Inverses of the other activations", "statement": "Among the activations a causal invertible layer accepts, only the leaky rectifier whose slope equals negative_slope is inverted exactly everywhere. invcondiff is inverted exactly iff |x| <= e^12, softplus iff its value is between 1e-6 and 20, a function called identity (inverted as invcondiff) iff |x| <= 1 or |x| = e^12; any other name raises NotImplementedError.", "quantifier": "every real input and slope", "why_tests_cant": "the failing inputs are in tails or measure-zero sets; tests compare with a tolerance", "anchors": ["pyforecaster/forecasting_models/neural_models/layers.py: CausalInvertibleLayer.invert_activation"]}
{"id": "C126", "title": "Decoding a perfect embedded forecast", "statement": "If the predictor returns exactly the target embedding, CausalInvertibleNN.predict returns the target when the history is as long as the horizon, or when embedding commutes with shifting the window; with one layer it does iff the kernel-weighted mismatch of the past part of the window is zero in every row. With history two and horizon one the forecast is off by k(k x0 + b1 - b0).", "quantifier": "every parameter vector, history and target", "why_tests_cant": "the network is trained and never perfect, so a systematic offset is indistinguishable from training error", "anchors": ["pyforecaster/forecasting_models/neural_models/INN.py: CausalInvertibleNN.predict, quasi_end_to_end_loss_fn"]}
{"id": "C127", "title": "Constructor arguments of the invertible network", "statement": "The network built does not depend on n_hidden_y: hidden layers of the predictor always have 200 units. Without an end-to-end mode the scaling factor is ignored. Construction raises TypeError if n_out is not given, AssertionError if the endogenous history is shorter than the horizon, and succeeds otherwise.", "quantifier": "every combination of constructor arguments", "why_tests_cant": "tests check shapes of the output only", "anchors": ["pyforecaster/forecasting_models/neural_models/INN.py: CausalInvertibleNN.__init__, set_arch"]}
{"id": "C128", "title": "Order of exogenous inputs", "statement": "reorder_inputs puts the exogenous columns first in the order of the constructor and keeps the others in their order, raising KeyError if one is missing; frames differing only in where the exogenous columns stand are the same to the network. The window used for the target embedding is the endogenous history shifted by the horizon followed by the targets, whatever the number of exogenous columns.", "quantifier": "every frame, list of exogenous names and horizon", "why_tests_cant": "all column orders", "anchors": ["pyforecaster/forecasting_models/neural_models/INN.py: CausalInvertibleNN.reorder_inputs, quasi_end_to_end_loss_fn, EndToEndCausalInvertibleModule.embed"]}
{"id": "C129", "title": "Validation split of the LSTM forecaster", "statement": "Training and validation samples partition the samples in time order and the training part is the rounded-down share 1 - val_split. With a horizon of two or more steps some observation is a target both in training and in validation; with one step none is.", "quantifier": "every history, horizon, split and number of samples", "why_tests_cant": "overlap does not raise; validation loss is only a number", "anchors": ["pyforecaster/forecasting_models/neural_models/LSTM_bidir.py: LSTM_Forecaster.fit"]}
{"id": "C130", "title": "Units of the LSTM target", "statement": "Fitting and forecasting with the target in other units (positive factor and any offset) trains the network on the same numbers and gives the same forecasts in those units, for every non-constant target.", "quantifier": "every data set, factor and offset, every deterministic training procedure", "why_tests_cant": "training is stochastic and slow", "anchors": ["pyforecaster/forecasting_models/neural_models/LSTM_bidir.py: LSTM_Forecaster.fit, LSTM_Forecaster.predict"]}
{"id": "C131", "title": "Second output of a probabilistic network is a variance", "statement": "With the default maximum-likelihood loss the second half of the outputs estimates the variance: for any batch with non-zero residuals a constant second output minimises the loss exactly when it equals the mean squared residual.", "quantifier": "every batch, predictions and positive second output", "why_tests_cant": "a statement about all batches and all values", "anchors": ["pyforecaster/forecasting_models/neural_models/base_nn.py: probabilistic_loss"]}
{"id": "C132", "title": "Quantiles of a probabilistic network with a normalised target", "statement": "With normalize_target the predicted standard deviation is rescaled without adding the target mean, so that predict_quantiles returns the quantiles of the predicted normal distribution. The code adds the mean: the quantile at a level is right iff the training target has mean zero or the level is one half; the error is the mean times the standard normal quantile; levels come out in order iff deviation plus mean is not negative; NaN appears iff the network puts out a negative variance.", "quantifier": "every scaler, output and level", "why_tests_cant": "tests compare shapes and use roughly centred data", "anchors": ["pyforecaster/forecasting_models/neural_models/base_nn.py: NN.predict, NN.predict_quantiles"]}
{"id": "C133", "title": "Quantiles of a probabilistic network with a raw target", "statement": "Without normalize_target predict_quantiles should use the square root of the variance output. The code uses the variance itself: right iff the variance is zero or one or the level is one half; levels come out in order iff the second output is not negative; the variant used for training plots is right.", "quantifier": "every output and level", "why_tests_cant": "the wrong scale does not raise", "anchors": ["pyforecaster/forecasting_models/neural_models/base_nn.py: NN.predict, NN.predict_quantiles"]}
{"id": "C134", "title": "Objective quantiles of a structured network", "statement": "With the normal distribution the objective quantiles are those of the predicted mean and variance for every network output. With the log-normal distribution the parameters reproduce the predicted variance and the absolute value of the mean, the quantiles strictly increase with the level, and are positive and those of the absolute value even for a negative predicted objective.", "quantifier": "every objective, raw variance output and level", "why_tests_cant": "continuous families", "anchors": ["pyforecaster/forecasting_models/neural_models/ICNN.py: StructuredPICNN.predict, StructuredPICNN.predict_quantiles"]}
{"id": "C135", "title": "Structured probabilistic network with a normalised target", "statement": "predict of a probabilistic StructuredPICNN with normalize_target works for every number of rows and targets. The code raises ValueError unless there is exactly one row and one target.", "quantifier": "every number of rows and targets", "why_tests_cant": "the combination is not tested", "anchors": ["pyforecaster/forecasting_models/neural_models/ICNN.py: StructuredPICNN.predict"]}
{"id": "C136", "title": "Optimising the controls: number of steps and stopping", "statement": "PICNN.optimize raises UnboundLocalError iff n_iter is below ten. Otherwise it makes c + 1 blocks of ten optimiser steps, each from a fresh optimiser state, with c between one and n_iter // 10, so at least twenty steps and up to ten more than asked for; it stops at the first block whose relative improvement is below rel_tol, and with a non-negative tolerance every block before the last improved the value.", "quantifier": "every objective, optimiser, start, n_iter and tolerance", "why_tests_cant": "unbounded loops over arbitrary objectives", "anchors": ["pyforecaster/forecasting_models/neural_models/ICNN.py: PICNN.optimize"]}
{"id": "C137", "title": "Optimised controls are not worse", "statement": "If no optimiser step increases the objective then the controls returned by optimize have a value at most the one reported, which is at most that of the start. The value reported is that of the controls one step before the returned ones. Without such an optimiser there is no safeguard: for c y^2 with c > 10 plain gradient descent returns controls strictly worse than any non-zero start.", "quantifier": "every objective, optimiser, start, n_iter and tolerance", "why_tests_cant": "tests use one well-scaled objective", "anchors": ["pyforecaster/forecasting_models/neural_models/ICNN.py: PICNN.optimize"]}
{"id": "C138", "title": "Frame returned by optimize", "statement": "For one input row the frame returned by optimize has the same columns, keeps every column that is not a control exactly, and normalising it gives back the optimised controls and the exogenous inputs the optimiser saw, whatever columns are left unnormalised and in whatever order the controls are listed.", "quantifier": "every row, scaler with non-zero scales, list of controls and unnormalised columns", "why_tests_cant": "all column orders and scalers", "anchors": ["pyforecaster/forecasting_models/neural_models/ICNN.py: PICNN.optimize, PICNN.get_normalized_inputs"]}
{"id": "C139", "title": "Causal penalty", "statement": "The causal penalty of a row is never negative and is zero iff no output has a slope in a control that causal_df (controls by targets) marks as not causing that target; for a probabilistic network the variance output of a target obeys the same entry.", "quantifier": "every table and Jacobian, any number of targets and controls", "why_tests_cant": "a statement about all Jacobians", "anchors": ["pyforecaster/forecasting_models/neural_models/ICNN.py: _my_jmp, causal_loss_fn, probabilistic_causal_loss_fn, PICNN.set_arch"]}
{"id": "C140", "title": "Training with a causal table", "statement": "A PICNN can be trained with causal_df and uses the distribution asked for. The code raises TypeError at training iff causal_df is given and the network is not probabilistic, and a probabilistic one with causal_df ignores distribution.", "quantifier": "every combination of options", "why_tests_cant": "the failing combinations are not tested", "anchors": ["pyforecaster/forecasting_models/neural_models/ICNN.py: PICNN.set_arch, causal_loss_fn, probabilistic_causal_loss_fn"]}
{"id": "C141", "title": "Training and forecasting of LGBMHybrid pair the same things", "statement": "If the regressor reproduces any training set in which features determine targets, the fitted LGBMHybrid reproduces its own training targets: at the first n_single steps on every training row, at a later step on every row drawn for that step of the global model. n_single beyond the number of targets raises.", "quantifier": "every regressor with that property, data set, split, draw of rows, number of single steps, sequential first fit or parallel", "why_tests_cant": "a wrong pairing of rows, steps or step codes only lowers accuracy", "anchors": ["pyforecaster/forecasting_models/gradientboosters.py: LGBMHybrid.fit, LGBMHybrid.predict, predict_single, fit_single"]}
{"id": "C142", "title": "Size of the training set of the global model", "statement": "The global model gets, per step, the rounded-down larger of rows / n_multistep and red_frac_multistep * rows; with red_frac_multistep 1 as many as there are rows; none iff there are fewer rows than steps and red_frac_multistep * rows is below one.", "quantifier": "every non-negative fraction, number of rows and steps", "why_tests_cant": "all sizes", "anchors": ["pyforecaster/forecasting_models/gradientboosters.py: LGBMHybrid.fit"]}
{"id": "C143", "title": "Energy unbalance feature", "statement": "After a first fit that is not parallel, LGBEnergyAware gives a row in forecasting the same energy unbalance as in training: with a regressor that reproduces training sets in which features determine targets, forecasts of the training rows are the training targets at all steps.", "quantifier": "every such regressor, data set, split and control columns", "why_tests_cant": "a different feature only lowers accuracy", "anchors": ["pyforecaster/forecasting_models/gradientboosters.py: LGBEnergyAware.fit, LGBEnergyAware.predict"]}
{"id": "C144", "title": "LGBEnergyAware configurations that can be fitted", "statement": "LGBEnergyAware can be fitted for any n_single up to the number of targets, sequentially or in parallel, like its base class. The code raises whenever n_single differs from the number of targets, and, if parallel, for two or more steps.", "quantifier": "every configuration and data set", "why_tests_cant": "only one configuration is tested", "anchors": ["pyforecaster/forecasting_models/gradientboosters.py: LGBEnergyAware.fit, LGBEnergyAware.predict, LGBMHybrid.fit"]}
{"id": "C145", "title": "Refitting LGBEnergyAware", "statement": "Fitting again uses the new data. In the code a second sequential fit with the same number of targets changes no forecast, whatever the new data.", "quantifier": "every state, data set and frame forecasted", "why_tests_cant": "tests fit once", "anchors": ["pyforecaster/forecasting_models/gradientboosters.py: LGBEnergyAware.fit, LGBEnergyAware.predict"]}
{"id": "C146", "title": "Rows the error distribution is measured on", "statement": "With val_ratio the errors behind the quantiles are measured on the last rounded-down share of rows. LGBMHybrid does so; LGBEnergyAware splits twice and has only the rounded-down share of that share. Without val_ratio they are training residuals: zero for a regressor that reproduces its training set.", "quantifier": "every ratio in [0,1], data set and configuration", "why_tests_cant": "fewer errors do not raise", "anchors": ["pyforecaster/forecasting_models/gradientboosters.py: LGBMHybrid.fit, LGBEnergyAware.fit", "pyforecaster/forecaster.py: ScenarioGenerator.fit"]}
{"id": "C147", "title": "Which features normalisation changes", "statement": "Formatter.normalize normalises, once, the features derived from a normalised target and leaves every other feature alone. In the code this holds when there is one normalised target and all transformers work on it; otherwise every feature of every transformer is passed through the expression once per distinct normalised target, features of other variables included.", "quantifier": "every formatter, expression and frame", "why_tests_cant": "tests normalise formatters with one variable", "anchors": ["pyforecaster/formatter.py: Formatter.normalize, Formatter.normalizing_wrapper"]}
{"id": "C148", "title": "What denormalising a forecast needs", "statement": "Denormalising a forecast needs the normaliser columns and the forecast only. The value depends on nothing else, but the code raises KeyError iff a normaliser, a target column or any feature of any transformer is missing from the frame.", "quantifier": "every formatter with both expressions, frame and forecast", "why_tests_cant": "all subsets of columns", "anchors": ["pyforecaster/formatter.py: Formatter.denormalize, Formatter.normalize"]}
{"id": "C149", "title": "Adding target normalisers", "statement": "add_target_normalizer appends one normaliser and touches no other. It does so iff the name is new, there is one target and the lags are absent or a numpy array of one positive number; a used name is ignored silently, a number or a list of one number is a TypeError, the rest AssertionErrors.", "quantifier": "every list of normalisers, targets, lags and name", "why_tests_cant": "the documented argument type is never tried", "anchors": ["pyforecaster/formatter.py: Formatter.add_target_normalizer"]}
{"id": "C150", "title": "Time limits of a formatter", "statement": "get_time_lims gives, per variable, the first start and the last end over the windows of its features, and with extremes those over all features; before use the simulated windows count. A target transformer not used yet, next to used feature transformers, is an AttributeError; no transformer is a ValueError.", "quantifier": "every list of transformers and windows", "why_tests_cant": "all window layouts and call orders", "anchors": ["pyforecaster/formatter.py: Formatter.get_time_lims, Formatter._simulate_transform"]}
{"id": "C151", "title": "Spelling of frequencies", "statement": "The frequency string normaliser replaces each legacy unit letter by its new spelling, as a simultaneous substitution; it is idempotent, leaves no legacy letter, changes a string iff it has one and keeps the number. Letters inside longer units are replaced as well (15MIN gives 15MIns).", "quantifier": "every string", "why_tests_cant": "infinitely many strings", "anchors": ["pyforecaster/formatter.py: _normalize_timedelta_freq"]}
{"id": "C152", "title": "The random search returns the best trial", "statement": "tune_hyperpars draws every hyper-parameter inside its limits, never the upper one, and any value inside can be drawn. If no trial scores NaN it returns the keywords updated with the first of the trials with the lowest score, each trial being scored as if it were alone. If one scores NaN, the first such trial is returned.", "quantifier": "every forecaster class, limits, number of trials, random numbers and data, parallel search", "why_tests_cant": "the draws are random, the best trial is not known to a test", "anchors": ["pyforecaster/forecasting_models/holtwinters.py: tune_hyperpars, fit_sample"]}
{"id": "C153", "title": "Sequential and parallel search agree", "statement": "parallel=False gives the result of parallel=True. In the code the sequential search overwrites target_name and targets_names in the shared keyword dictionary: with two or more trials it always raises (UnboundLocalError if the models work), with one trial it returns a model for the last of the targets. Without targets_names no search succeeds.", "quantifier": "every class, keywords, trials and data", "why_tests_cant": "needs all trial lists and keyword dictionaries", "anchors": ["pyforecaster/forecasting_models/holtwinters.py: fit_sample, tune_hyperpars"]}
{"id": "C154", "title": "Score of a trial", "statement": "A trial is fitted on the first int(0.7*n) rows only and scored by the mean squared error between each forecast made on the other rows and the observations that follow it. That number is seventy per cent rounded down, or one less for some multiples of ten. If the test part is not longer than the horizon every trial scores NaN and the search returns its first trial, that is random parameters.", "quantifier": "every class, frame, horizon and number of rows below 2^49", "why_tests_cant": "off-by-one alignment for all lengths, and float rounding", "anchors": ["pyforecaster/forecasting_models/holtwinters.py: score_autoregressive"]}
{"id": "C155", "title": "Search over several targets", "statement": "With targets_names the score of a trial is the mean of one score per target; the model of a target sees all columns but those of the other targets, in frame order and with unchanged values, so the values of the other targets do not influence it; the order of the list does not matter.", "quantifier": "every class, list of targets, trial and frame", "why_tests_cant": "non-interference over all values of the other columns", "anchors": ["pyforecaster/forecasting_models/holtwinters.py: fit_sample"]}
{"id": "C156", "title": "An object tunes itself once", "statement": "fit with optimize_hyperpars=True searches, takes over the parameters of one of the trials, and switches the search off, also in init_pars: later fits only fit, continuing from the states. Parameters that are not searched go back to the constructor values: values given to set_params before such a fit are lost.", "quantifier": "every class, object, trials and sequences of fit and set_params", "why_tests_cant": "all call sequences", "anchors": ["pyforecaster/forecasting_models/holtwinters.py: HoltWinters.fit", "pyforecaster/forecasting_models/fast_adaptive_models.py: StatefulForecaster.fit"]}
{"id": "C157", "title": "Submodels of HoltWintersMulti", "statement": "After a fit without search submodel i has the i-th horizon and smoothing parameters (0.01 by default). After one with search it has the smoothing parameters its own search ends with, all searches are off, and it is fitted from its initial states. Parameters outside the fixed list, such as constraints, never reach the submodels.", "quantifier": "every class of submodels, keywords, trials and data", "why_tests_cant": "the search is random; dropped parameters raise nothing", "anchors": ["pyforecaster/forecasting_models/holtwinters.py: HoltWintersMulti"]}
{"id": "C158", "title": "Which keywords of a constructor take effect", "statement": "A keyword of Fourier_es or FK that no class of the chain knows should be refused. In the code it is accepted and has no effect but to be kept in init_pars. A keyword reaches the copula (tree) iff it is a parameter of the chosen copula (tree) class and no class in between has a parameter of that name: the copula logger can never be set, init, base_tree and learning_rate do nothing with the default tree.", "quantifier": "every dictionary of keywords", "why_tests_cant": "infinitely many names; nothing is raised", "anchors": ["pyforecaster/forecasting_models/fast_adaptive_models.py: StatefulForecaster.__init__, Fourier_es.__init__, FK.__init__", "pyforecaster/forecaster.py: ScenarioGenerator.__init__", "pyforecaster/scenarios_generator.py: ScenGen.__init__"]}
{"id": "C159", "title": "Parameters of the experts of FK_multi", "statement": "Each expert has its window, the horizon, target and search flag given to FK_multi. alphas, omegas, ns_harmonics, r and q have no influence on the experts and periodicity only on the windows (the period of an expert is the horizon, r and q of FK experts are 0.1); the undocumented keywords alpha, omega and n_harmonics are used.", "quantifier": "every dictionary of keywords and both classes of experts", "why_tests_cant": "ignored parameters raise nothing; all dictionaries", "anchors": ["pyforecaster/forecasting_models/fast_adaptive_models.py: FK_multi.__init__, FK_multi.reinit_pars"]}
{"id": "C160", "title": "Windows of the experts of FK_multi", "statement": "The windows are the grid from 1 to m rounded down, but not less than horizon and period; there is one per expert, they do not decrease and the last is m (or the horizon). With more experts than whole numbers between the smallest and the largest window two experts have the same window.", "quantifier": "every m, n_sa, n_predictors, periodicity < m and monotone grid with exact ends", "why_tests_cant": "all combinations of four numbers", "anchors": ["pyforecaster/forecasting_models/fast_adaptive_models.py: FK_multi.reinit_pars"]}
{"id": "C161", "title": "Experts of FK_multi after a search", "statement": "After a search each expert has the parameters of its own best trial, its other parameters are unchanged, its window among them, and it does not search any more. Its scenario generator should be the configured one; in the code every generator keyword but q_vect and val_ratio is lost, nodes_at_step and copula options included.", "quantifier": "every dictionary of keywords, class of experts and best trials", "why_tests_cant": "the search is random; lost keywords raise nothing", "anchors": ["pyforecaster/forecasting_models/fast_adaptive_models.py: FK_multi.fit", "pyforecaster/forecasting_models/holtwinters.py: tune_hyperpars"]}
{"id": "C162", "title": "Arrays and frames convert back and forth", "statement": "from_tensor_to_pdmultiindex puts x[:, p, q] under the column (second_index[q], first_index[p]). Converting back with zero_first=False gives x; the default gives x with the last two axes exchanged, so it gives x back exactly for arrays symmetric in these axes. Of slices with the same label only the last is kept.", "quantifier": "every array and all label lists of fitting length", "why_tests_cant": "all shapes and labels; a transposed array of equal sizes raises nothing", "anchors": ["pyforecaster/utilities.py: from_tensor_to_pdmultiindex, convert_multiindex_pandas_to_tensor"]}
{"id": "C163", "title": "Frames that are not a full product of their levels", "statement": "convert_multiindex_pandas_to_tensor should give one block per row. It does exactly if the number of columns is the product of the stored level sizes. After selecting some columns it fails or gives fewer rows than the frame has, with repeated labels it fails or gives more rows, mixing values of different rows.", "quantifier": "every frame, selection of columns and label list", "why_tests_cant": "divisibility decides between an exception and silently mixed rows", "anchors": ["pyforecaster/utilities.py: convert_multiindex_pandas_to_tensor", "pyforecaster/reconciliation/reconciliation.py: compute_kpis"]}
{"id": "C164", "title": "Important frequencies are one too high", "statement": "find_most_important_frequencies(x, n) should give the numbers of cycles per window of the n strongest components. It gives them plus one: a tone with k cycles gives k + 1 for every amplitude and phase, a constant gives 1, and the highest component is never considered. Up to this shift the selection is right: increasing, min(n, len(x)//2) of them, none left out stronger than one reported.", "quantifier": "every signal, amplitude, phase, window length and argsort", "why_tests_cant": "all real signals", "anchors": ["pyforecaster/utilities.py: find_most_important_frequencies"]}
{"id": "C165", "title": "Masked entries do not influence summary scores", "statement": "In summary_scores with a boolean mask the score of a group is taken over its entries that are not masked out; changing masked entries of forecast or target changes nothing, for every point metric and set of index columns.", "quantifier": "all frames, masks, metrics, index columns", "why_tests_cant": "non-interference over all values", "anchors": ["pyforecaster/metrics.py: summary_scores, rmse, mape, nmae"]}
{"id": "C166", "title": "Quantile metrics with masks and missing targets", "statement": "A mask should be usable with quantile forecasts, and rows without target should not count. With several targets a mask makes summary_scores fail for quantile arrays (unless rows, targets and levels happen to be equally many) and for quantile frames. In reliability a missing target counts as not covered: the value is covered rows over all rows, right iff nothing is missing or nothing covered; the quantile score uses observed rows only.", "quantifier": "all shapes, groups, forecasts and missing patterns", "why_tests_cant": "all shapes and patterns of missing values", "anchors": ["pyforecaster/metrics.py: summary_scores, quantile_scores, reliability"]}
{"id": "C167", "title": "Binning of index columns", "statement": "Whether an index column of summary_scores is binned should depend on that column. In the code int32 and int8 columns are used as they are when alone and binned as soon as a float or boolean column is beside them, and a string column with at least n_quantiles values then makes the call fail; int64 columns and columns with few values are never binned. A binned column has at most n_quantiles intervals, ordered, each value in its own.", "quantifier": "all index columns", "why_tests_cant": "all combinations of types and values", "anchors": ["pyforecaster/metrics.py: summary_scores"]}
{"id": "C168", "title": "Pairing of rows in summary scores", "statement": "Forecast, target and mask frames with different time stamps (or order) are refused. The time stamps of idxs should be respected too; in the code they have no influence, labels are paired with rows by position. An array compared with a frame takes its labels and is read by position, if the shapes agree (ValueError otherwise); two arrays raise AttributeError.", "quantifier": "all frames", "why_tests_cant": "wrong pairing raises nothing", "anchors": ["pyforecaster/metrics.py: summary_scores"]}
{"id": "C169", "title": "summary_scores relabels the forecast of the caller", "statement": "Column j of the forecast is scored against column j of the target whatever the labels of the forecast are. A call should not change its arguments; in the code, with two frames and no mask, the forecast frame of the caller has the column labels of the target afterwards (with a mask it is unchanged).", "quantifier": "all frames, metrics and index columns", "why_tests_cant": "all label lists; side effect outside the result", "anchors": ["pyforecaster/metrics.py: summary_score, summary_scores"]}
{"id": "C170", "title": "Metrics of the same name replace one another", "statement": "Each metric passed to summary_scores should have its scores in the result. Under a name there are the scores of the last metric of that name only: two functools.partial of the same metric, or two lambdas, give one entry.", "quantifier": "all lists of metrics", "why_tests_cant": "all lists; nothing is raised", "anchors": ["pyforecaster/metrics.py: summary_scores"]}
{"id": "C171", "title": "The random features of a regressor are drawn once", "statement": "The random matrix and biases of a RandomFFRegressor are drawn by the first call of fit, predict or score, even a failing one, and stay the same through all later calls; predictions use the matrix the fit used. After a first call with p columns every fit with p columns succeeds and depends on its own data and the matrix only, and every fit with another number of columns is a ValueError.", "quantifier": "all sequences of calls, frames and random draws", "why_tests_cant": "all call histories", "anchors": ["pyforecaster/forecasting_models/random_fourier_features.py: Base.set_weight, conv, RandomFFRegressor"]}
{"id": "C172", "title": "Additive RFF stages with given features", "statement": "More stages should refine the forecast of AdditiveRFFRegression. When W and b are passed, the stages share their features, and with the default LinearRegression every stage after the first predicts 0 everywhere: n_models has no effect on any forecast.", "quantifier": "all features, data, scalers, numbers of stages", "why_tests_cant": "holds for every data set; needs the optimality of least squares", "anchors": ["pyforecaster/forecasting_models/random_fourier_features.py: AdditiveRFFRegression"]}
{"id": "C173", "title": "The RFF scaler sees the validation rows", "statement": "Training should not depend on the validation rows. The scaler is fitted before the split: a training column with two different values is scaled the same for two validation parts iff these give the whole column the same mean and scale, and the scaled training column has mean 0 iff its mean is that of all rows. Over all rows the scaled column has mean 0 and variance 1.", "quantifier": "all training and validation columns", "why_tests_cant": "all real columns", "anchors": ["pyforecaster/forecasting_models/random_fourier_features.py: RFFRegression.fit, AdditiveRFFRegression.fit"]}
{"id": "C174", "title": "RFF forecasts of normalised targets", "statement": "predict should denormalise forecasts when the formatter normalised the target. The frame passed on for this is the scaled one, whose columns are numbered: with any normaliser or feature column every prediction is a KeyError, whatever x contains. Without normalisation the forecast is returned unchanged.", "quantifier": "all formatters with a normalised target, frames and forecasts", "why_tests_cant": "all formatters and frames", "anchors": ["pyforecaster/forecasting_models/random_fourier_features.py: RFFRegression.predict, AdditiveRFFRegression.predict", "pyforecaster/forecaster.py: anti_transform"]}
{"id": "C175", "title": "Orthogonal random features", "statement": "get_orf_matrix gives dim_in x dim_out entries (ZeroDivisionError without features), column c being a scaled column of the orthogonal matrix of round c // dim_in. The frequencies (columns) of a round should be orthogonal. The scales multiply rows instead, so the rows are orthogonal, and the columns are for every orthogonal draw iff all scales of the round have the same square. Only rff and orf are accepted as kinds.", "quantifier": "all dimensions, scales and orthogonal draws", "why_tests_cant": "all orthogonal matrices", "anchors": ["pyforecaster/forecasting_models/random_fourier_features.py: get_orf_matrix, get_matrix_generator"]}
{"id": "C176", "title": "Bootstrap statistics", "statement": "bootstrap should give the mean and standard deviation of the statistic over the n_sampling resamples, each as large as the series. It uses the first m of them only, m the largest of 100, 600, 1100, ... below n_sampling (3600 of 4000): between 1 and 500 are never used, and n_sampling <= 100 is a KeyError. Every resample has as many values as the series iff the index has no repeated labels.", "quantifier": "all series, statistics, draws and numbers of resamples", "why_tests_cant": "all series and all random draws", "anchors": ["pyforecaster/stat_utils.py: bootstrap"]}
{"id": "C177", "title": "Quantile frame of the random forest", "statement": "After a fit, QRF.predict_quantiles should have at (row, target, level) the level of the forest trained for that step: its own one for the first n_single steps, trained on its pruned features and target, the matching output of the global one for the rest. This holds for all frames and levels except with n_single >= 1, exactly one remaining step and two or more levels: then every call is a ValueError, the axes of levels and steps being confused.", "quantifier": "all data, splits, numbers of steps, single models, levels, rows", "why_tests_cant": "all combinations of array sizes", "anchors": ["pyforecaster/forecasting_models/randomforests.py: QRF.fit, QRF.predict, QRF._predict, QRF.predict_multi_step, QRF.predict_quantiles", "pyforecaster/forecaster.py: quantiles_to_df"]}
{"id": "C178", "title": "Point forecasts of the random forest", "statement": "After a fit, QRF.predict has at (row, target) the mean of the forest trained for that step, when there are several targets or one row; with one target and any other number of rows it raises ValueError.", "quantifier": "all data, numbers of steps, single models and rows", "why_tests_cant": "all combinations of array sizes", "anchors": ["pyforecaster/forecasting_models/randomforests.py: QRF.fit, QRF.predict"]}
{"id": "C179", "title": "Keywords of QRF.predict", "statement": "The code has a branch for quantiles=\"mean\" and one for a period. The first is unreachable: the word is split in characters and the forest raises. A period never changes a forecast: it is a TypeError in parallel mode or with single-step forests, and ignored otherwise.", "quantifier": "all fitted objects, rows, periods", "why_tests_cant": "all objects and rows", "anchors": ["pyforecaster/forecasting_models/randomforests.py: QRF.predict, QRF._predict"]}
{"id": "C180", "title": "Sample weights of the random forest", "statement": "Weights passed to QRF.fit should weight the training rows. With n_single=0 (the default) they have no effect, whatever their length; with n_single >= 1 they never reach the steps of the global forest, fit succeeds iff there is one weight per training row, so weights for all rows passed to fit are a ValueError once a validation set is split off.", "quantifier": "all data, weights, splits, numbers of single models", "why_tests_cant": "all data and weights", "anchors": ["pyforecaster/forecasting_models/randomforests.py: QRF.fit, QRF._fit"]}
{"id": "C181", "title": "Constructor arguments reaching the forests", "statement": "Sixteen forest arguments of QRF reach both kinds of forest under their name with exactly the given value; n_jobs is multiplied by the number of workers for the global forest when positive; q_vect becomes the default quantiles (the mean without one). max_depth is accepted and stored, but is never passed to any forest: it has no effect.", "quantifier": "all values of all arguments", "why_tests_cant": "absence of an effect for all values", "anchors": ["pyforecaster/forecasting_models/randomforests.py: QRF.__init__, QRF.fit"]}
{"id": "C182", "title": "Number of outputs of a feed-forward network", "statement": "With a number of layers a forecast frame comes out of FFNN iff n_out is the number of targets (twice that for a probabilistic network), whatever hidden sizes, heads and skip connection; with a selector of s columns also n_out = 1 and s fitting is accepted, so that all targets share one correction. With a list of layer sizes n_out is ignored unless heads are split; n_layers=0 is an IndexError and an empty list returns the inputs.", "quantifier": "all architectures and numbers of targets", "why_tests_cant": "all combinations of sizes", "anchors": ["pyforecaster/forecasting_models/neural_models/base_nn.py: FeedForwardModule, NN.predict"]}
{"id": "C183", "title": "Order of the columns given to a network", "statement": "A forecast should not depend on the order of the columns, or a wrong order should be refused. With all inputs normalised only the column list of the fit is accepted. Columns in unnormalized_inputs are not checked: every frame with the same number of columns whose normalised columns are those of the fit in the same order is accepted (any frame with that many columns if nothing is normalised), the values are taken in the order of the frame, and for every other order some row is read as a different vector.", "quantifier": "all frames, column lists, settings, networks", "why_tests_cant": "all column orders and rows", "anchors": ["pyforecaster/forecasting_models/neural_models/base_nn.py: NN.fit, NN.predict, NN.get_normalized_inputs"]}
{"id": "C184", "title": "Refitting a network without normalised inputs", "statement": "A refit should behave like a fit of a new object. After any history of fits, a fit without a column to normalise raises ValueError iff an earlier call had one (the old scaler is kept and refuses the empty frame), and gives the network of a new object otherwise; a fit with such a column always does.", "quantifier": "all histories of fits with changing settings", "why_tests_cant": "all call histories", "anchors": ["pyforecaster/forecasting_models/neural_models/base_nn.py: NN.fit, NN.get_normalized_inputs"]}
{"id": "C185", "title": "The scaler of a network sees the validation rows", "statement": "The training vectors should not depend on the validation rows. The input scaler is fitted before the split: with the same training rows and other validation rows the training vectors are the same iff every normalised column has the same spread over all rows, or is zero in all training rows.", "quantifier": "all data sets and splits", "why_tests_cant": "all pairs of data sets", "anchors": ["pyforecaster/forecasting_models/neural_models/base_nn.py: NN.fit"]}
{"id": "C186", "title": "Quantiles of an LSTM network", "statement": "predict_quantiles of a fitted LSTMNN should start from its forecasts, as it does for FFNN. check_inputs turns the frame into an array first, so every call with a frame raises AttributeError, probabilistic or not, and so do scenarios and trees built on it.", "quantifier": "all states, frames, settings", "why_tests_cant": "all states and frames", "anchors": ["pyforecaster/forecasting_models/neural_models/base_nn.py: NN.predict_quantiles, LSTMNN.check_inputs"]}
{"id": "C187", "title": "Network keywords without effect", "statement": "scengen_dict of FFNN and LSTMNN should configure the scenario generator and probabilistic_loss_kind the loss. The object built is the same for every scengen_dict, and the loss is the likelihood for a probabilistic network and the squared error otherwise, for every probabilistic_loss_kind. Keywords of the scenario generator given directly do reach it.", "quantifier": "all keyword dictionaries", "why_tests_cant": "absence of an effect for all values", "anchors": ["pyforecaster/forecasting_models/neural_models/base_nn.py: NN.__init__, NN.set_arch, FFNN.__init__, LSTMNN.__init__", "pyforecaster/scenarios_generator.py: ScenGen.__init__"]}
{"id": "C188", "title": "Quantile scores of a hierarchy compare different series", "statement": "compute_kpis should score the quantiles of a series against its own targets. Quantiles come with sorted series, targets with the aggregates first: the crps (and reliability) reported for the k-th series of the target matrix is that of the quantiles of the k-th series in sorted order against the targets of the former. The scores are those of the series they are reported for, whatever the data, iff the aggregates followed by the other series in order of appearance are sorted. More levels than in the frame raise IndexError.", "quantifier": "all hierarchies, frames, forecasts, targets, levels", "why_tests_cant": "all orders of names and data", "anchors": ["pyforecaster/reconciliation/reconciliation.py: compute_kpis, get_target_matrix, predict_quantiles", "pyforecaster/metrics.py: quantile_scores, crps, reliability"]}
{"id": "C189", "title": "Point scores of a hierarchy and their averages", "statement": "compute_kpis with rmse of point forecasts gives for every series its own root mean squared error in whatever order the columns come. The number reported for a level of the hierarchy is the average over the series of that level; series without a level are left out.", "quantifier": "all frames, column orders, hierarchies", "why_tests_cant": "all frames", "anchors": ["pyforecaster/reconciliation/reconciliation.py: compute_kpis", "pyforecaster/metrics.py: rmse"]}
{"id": "C190", "title": "Quantiles of the base forecasters of a hierarchy", "statement": "predict_quantiles with method=vanilla raises IndexError for every hierarchy with a bottom series whenever the base forecasters return frames (all forecasters but the networks). With arrays the columns are (series, level, step number) instead of (series, step name, level) as for reconciled quantiles, and compute_kpis raises KeyError as soon as a level is not itself the name of a target.", "quantifier": "all hierarchies, frames, base forecasters", "why_tests_cant": "failure for all inputs", "anchors": ["pyforecaster/reconciliation/reconciliation.py: get_quantiles, predict_quantiles, compute_kpis", "pyforecaster/utilities.py: from_tensor_to_pdmultiindex"]}
{"id": "C191", "title": "A trial of the hyper-parameter search and the trials before it", "statement": "hyperpar_optimizer with cv_type full scores each trial, for each fold, with a clone of the model carrying the values of the trial; its value is the mean of the fold scores, NaN if one is. Trials run on one model object: a parameter that this trial does not name keeps the value of the last earlier trial naming it, not the value the user gave. If every trial names at least what the earlier ones named, each is scored as if it were alone.", "quantifier": "all classes, samplers, search spaces, numbers of trials and folds", "why_tests_cant": "all histories of trials and conditional search spaces", "anchors": ["pyforecaster/trainer.py: hyperpar_optimizer, optuna_objective, cross_validate"]}
{"id": "C192", "title": "The model after a hyper-parameter search", "statement": "After hyperpar_optimizer the model passed should not silently hold arbitrary parameters. In the code it holds, for every stored parameter, the value of the last trial naming it: it holds the parameters of the best trial iff the last trial has the same ones. Constructor arguments and the training dictionary are unchanged.", "quantifier": "all classes, samplers, numbers of trials", "why_tests_cant": "all histories of trials", "anchors": ["pyforecaster/trainer.py: hyperpar_optimizer, optuna_objective"]}
{"id": "C193", "title": "random_fold search of a forecaster with a frozen training dictionary", "statement": "A hyper-parameter search with cv_type random_fold should compare the hyper-parameters. For classes whose fit reads the dictionary built by the constructor (LGBForecaster, QRF) every trial trains the same model: the value of a trial depends on the fold drawn only, not on its parameters.", "quantifier": "all such classes, samplers, draws", "why_tests_cant": "all trials and draws", "anchors": ["pyforecaster/trainer.py: optuna_objective, cross_validate", "pyforecaster/forecaster.py: LGBForecaster.__init__, LGBForecaster.fit"]}
{"id": "C194", "title": "Default search spaces", "statement": "hyperpar_optimizer without param_space_fun should work for every forecaster. It runs all trials for LinearForecaster, LGBForecaster, LGBMHybrid, PICNN and StructuredPICNN; for every other class, subclasses included, it raises ValueError at the first trial, unless the class has a parameter called model__n_estimators.", "quantifier": "all classes, numbers of trials", "why_tests_cant": "failure for all classes", "anchors": ["pyforecaster/trainer.py: hyperpar_optimizer, default_param_space_fun, optuna_objective", "pyforecaster/dictionaries.py: HYPERPAR_MAP"]}
{"id": "C195", "title": "Table of the trials", "statement": "retrieve_cv_results ranks the trials: NaN values have no rank, ranks compare as values do, equal values share a rank, ranks are 1 up to the number of distinct values; rank 1 is exactly the trials of least value, the best trial of the study among them. cv_test_score_std is the population standard deviation of the fold scores of the trial: NaN iff a fold score is, 0 iff all are equal; without fold scores (random_fold) there is no such column.", "quantifier": "all studies", "why_tests_cant": "all lists of values with ties and NaN", "anchors": ["pyforecaster/trainer.py: retrieve_cv_results"]}
{"id": "C196", "title": "Refining a scenario tree does not worsen later steps", "statement": "refine_scenarios returns, per step, the total distance of the samples to the nearest node before and after; after the first step it never increases, whatever the random numbers and the metric. Number, times, labels, edges and probabilities of the nodes are unchanged (the probabilities also when other samples are nearest now); each later value is the old one or a candidate drawn for that node, the first value the median; the values of a step depend on the samples of that step only.", "quantifier": "all trees, samples, metrics, random draws", "why_tests_cant": "all random draws and metrics", "anchors": ["pyforecaster/scenred.py: refine_scenarios, set_distance"]}
{"id": "C197", "title": "Refined first step", "statement": "The refined root should not be farther from the samples either. With the cityblock metric no step gets worse: the root is the componentwise median, which minimises the total cityblock distance. With other metrics it can get worse (squared distances of 0, 0, 3 to a root at 1: 6 before, 9 after).", "quantifier": "all trees, samples, random draws", "why_tests_cant": "optimality over all roots", "anchors": ["pyforecaster/scenred.py: refine_scenarios, set_distance"]}
{"id": "C198", "title": "When a tree can be refined", "statement": "refine_scenarios succeeds iff the times of the nodes are 0 to T-1, samples are given for at least T steps, and there is a single node at time 0. Several nodes at time 0 raise IndexError.", "quantifier": "all trees and samples", "why_tests_cant": "all graphs", "anchors": ["pyforecaster/scenred.py: refine_scenarios"]}
{"id": "C199", "title": "Ordering term of the losses", "statement": "The ordering term lies in [-1, 1] on two or more rows and is -1 iff predictions and targets sort the same way. On a single row it is NaN. It should depend on the pairs only, but shuffling the rows changes it for every number of rows from three on, and predictions in the reverse order of the targets can come arbitrarily close to the best value (it correlates argsorts instead of ranks).", "quantifier": "all batches", "why_tests_cant": "all batches and permutations", "anchors": ["pyforecaster/forecasting_models/neural_models/ICNN.py: monotonic_objective_right"]}
{"id": "C200", "title": "The ordering term gives no gradient", "statement": "Around every batch of distinct predictions the ordering term is constant, so its gradient is zero and training does not improve the ordering.", "quantifier": "all batches with distinct predictions", "why_tests_cant": "a neighbourhood of every point", "anchors": ["pyforecaster/forecasting_models/neural_models/ICNN.py: monotonic_objective_right, structured_loss_fn"]}
{"id": "C201", "title": "Penalty on the embeddings", "statement": "The penalty on the embedding is infinite iff some coordinate is zero on the whole batch, else non-negative, and zero iff every coordinate has mean 0 and mean square 1. It should rule out an embedding that is the same for every row; it uses the mean square in place of the variance, and such an embedding costs at least log 2 and exactly that when all its squares are one half.", "quantifier": "all batches of embeddings", "why_tests_cant": "all real embeddings", "anchors": ["pyforecaster/forecasting_models/neural_models/ICNN.py: embedded_loss_fn"]}
{"id": "C202", "title": "Minimum of the training losses", "statement": "The structured loss is at least -1 on two or more rows, with equality iff predictions equal targets, and NaN on one row. The loss with embeddings is non-negative and zero iff predictions and reconstructed controls are exact, reconstructed controls are predicted like the embedded ones, and every coordinate of the embedding has mean 0 and mean square 1.", "quantifier": "all batches", "why_tests_cant": "all real batches", "anchors": ["pyforecaster/forecasting_models/neural_models/ICNN.py: structured_loss_fn, embedded_loss_fn"]}
{"id": "C203", "title": "Relaxed ordering term", "statement": "monotonic_objective_relax is zero on pairs ordered alike, as a penalty should be; on a pair ordered differently it is positive in one orientation of the pair and negative in the other, so wrong order is rewarded as often as punished (the function is not used).", "quantifier": "all batches", "why_tests_cant": "all batches", "anchors": ["pyforecaster/forecasting_models/neural_models/ICNN.py: monotonic_objective_relax"]}
{"id": "C204", "title": "Combination of experts on the first rows", "statement": "Every call of FK_multi on a non-empty frame returns one row per row; the first n_sa rows are averages of the experts with the weights stored by the last fit (proportional to their absolute values), whatever is observed in the call.", "quantifier": "all experts, frames, stored states", "why_tests_cant": "all experts and states", "anchors": ["pyforecaster/forecasting_models/fast_adaptive_models.py: FK_multi.run"]}
{"id": "C205", "title": "Exact experts break the combination", "statement": "If all experts forecast an observed value exactly (a constant stretch), the forecast of that row is NaN; after a fit the stored weights are NaN, and the first n_sa rows of every later prediction or fit are NaN for ever.", "quantifier": "all experts, frames, sequences of calls", "why_tests_cant": "unbounded sequences of calls", "anchors": ["pyforecaster/forecasting_models/fast_adaptive_models.py: FK_multi.run"]}
{"id": "C206", "title": "Horizons longer than the history never adapt", "statement": "With n_sa > m (possible with an explicit periodicity) and frames ending at the latest one row after the first multiple of m that is at least n_sa, FK_multi never adapts: every forecast of every fit and prediction from a new object is the plain mean of the experts, since the correlation of constant weights is NaN and the exception of the filter is swallowed.", "quantifier": "all experts, sequences of fits and predictions", "why_tests_cant": "unbounded sequences of calls", "anchors": ["pyforecaster/forecasting_models/fast_adaptive_models.py: FK_multi.run, FK_multi.reinit_pars"]}
{"id": "C207", "title": "Experts judged on data they were fitted on", "statement": "In FK_multi.fit the weights at a row should use forecasts that could have been made then. The experts are fitted on the whole frame first: the window a Fourier_es expert uses at row i is the end of the frame followed by its first i+1 samples.", "quantifier": "all frames of at least m rows", "why_tests_cant": "all frames", "anchors": ["pyforecaster/forecasting_models/fast_adaptive_models.py: FK_multi.run, Fourier_es.run"]}
{"id": "C208", "title": "Running without coefficients", "statement": "FK_multi.run(return_coeffs=False) succeeds iff the frame has at least one and at most m rows; longer frames raise ValueError.", "quantifier": "all experts, frames", "why_tests_cant": "all frames", "anchors": ["pyforecaster/forecasting_models/fast_adaptive_models.py: FK_multi.run"]}
{"id": "C209", "title": "Optimising in the latent space: path and history", "statement": "LatentStructuredPICNN.optimize raises UnboundLocalError iff n_iter is below ten. Otherwise it follows the optimiser on the objective of latent prediction and decoded controls, from the embedding of the given controls, the memory of the optimiser reset after every ten steps; it stops after the first checked block of ten that improves less than rel_tol, or after n_iter//10 checked blocks (one block more is made unchecked). The value returned belongs to the point one step before the embedding returned; that embedding is not in the history returned, nor is the last block if the search stopped early.", "quantifier": "all networks, objectives, optimisers, inputs", "why_tests_cant": "all networks and optimisers", "anchors": ["pyforecaster/forecasting_models/neural_models/ICNN.py: LatentStructuredPICNN.optimize"]}
{"id": "C210", "title": "Optimised latent controls can be worse", "statement": "The controls returned should be as good for the network as the embedding found. They are if encoding the decoded controls gives the embedding back. The code computes the distance between both as a regularisation but gives it weight zero in every call, so results do not depend on it; the controls returned can be worse than those given although every step decreased the objective and the value reported is a thousandth of that at the start.", "quantifier": "all networks, histories of calls and trainings", "why_tests_cant": "all networks and histories", "anchors": ["pyforecaster/forecasting_models/neural_models/ICNN.py: LatentStructuredPICNN.optimize"]}
{"id": "C211", "title": "Reusing a compiled objective", "statement": "With recompile_obj=False a call of optimize should minimise its own objective for the trained network. It minimises the objective of the first call, with the kind of step of that call and the parameters of the network at that time, also after further training; keyword arguments, inputs, start, decoding and prediction are those of the call.", "quantifier": "all histories of calls and trainings", "why_tests_cant": "unbounded histories", "anchors": ["pyforecaster/forecasting_models/neural_models/ICNN.py: LatentStructuredPICNN.optimize, PICNN.optimize"]}
{"id": "C212", "title": "Default numbers of nodes of a scenario tree", "statement": "With eight scenarios or more and no numbers of nodes given, ScenarioTree.gen_init_tree uses one number per time step: first 1, then powers of two from 4 on, each a multiple of the one before and at most half the number of scenarios, the last being the largest such power, so the quantile tree can always be built. This holds for every rounding of the logarithmic progression. But if there is exactly one scenario more than time steps, the tree gets one level more than there are steps.", "quantifier": "all numbers of scenarios and steps, all roundings", "why_tests_cant": "all sizes and roundings", "anchors": ["pyforecaster/tree_builders.py: ScenarioTree.gen_init_tree"]}
{"id": "C213", "title": "Trees from few scenarios", "statement": "A tree builder constructed with numbers of nodes should use them for any number of scenarios. With fewer than eight scenarios it raises IndexError, whatever the object was given, since the default numbers are computed first; numbers passed with the call are accepted.", "quantifier": "all numbers of scenarios, steps, nodes", "why_tests_cant": "all sizes", "anchors": ["pyforecaster/tree_builders.py: ScenarioTree.gen_init_tree"]}
{"id": "C214", "title": "Reliability on the fitted rows", "statement": "A quantile forecaster scored with reliability on the rows its errors were measured on should be covered at rate tau at level tau. If some hour of the day is missing in the rows, at most ceil(tau (n-1)) of n targets count as covered, and exactly that many if the errors are distinct: within (1-tau)/n above and tau/n below the level. With all hours present the same holds within each hour. Equal errors are never counted as covered.", "quantifier": "all point forecasters, training rows, levels", "why_tests_cant": "all data and levels", "anchors": ["pyforecaster/forecaster.py: ScenarioGenerator.fit, _estimate_err_distr, predict_quantiles", "pyforecaster/metrics.py: reliability, make_scorer"]}
{"id": "C215", "title": "Overall reliability of hourly error tables", "statement": "With all hours of the day in the rows, the reliability over all n rows at level tau is below tau + 24 (1-tau)/n, and at least tau - 24 tau/n if the errors are distinct within every hour; at level 1 at least 24 rows count as not covered. With one row per hour the reliability is zero at every level.", "quantifier": "all point forecasters, training rows, levels", "why_tests_cant": "all data and levels", "anchors": ["pyforecaster/forecaster.py: ScenarioGenerator.fit, _estimate_err_distr, predict_quantiles", "pyforecaster/metrics.py: reliability, make_scorer"]}
{"id": "C216", "title": "Observations as roots of the predicted trees", "statement": "init_obs should be the root of the predicted trees. It is so only with an additional node; otherwise it has no effect, whatever is passed. With online reduction the observations are taken by position, must be as many as the rows (a bare number serves for one row only) and default to 0. With pre-fitted trees they are taken by label if they are a series (a missing label gives a NaN root), a bare number serves for all rows, and they default to the first prediction; the nodes of time t+1 are those of the tree of the hour raised by the prediction of step t.", "quantifier": "all forecasts, observations, pre-fitted trees, draws", "why_tests_cant": "all inputs and both modes", "anchors": ["pyforecaster/forecaster.py: ScenarioGenerator.predict_trees", "pyforecaster/scenarios_generator.py: ScenGen.predict_trees"]}
{"id": "C217", "title": "Numbers of nodes passed to predict_trees", "statement": "The numbers of nodes passed to predict_trees are those the trees are built with. With pre-fitted trees ScenGen refuses them but a forecaster drops them silently. With online reduction and an additional node all trees are built with a 1 followed by the numbers (two 1s if there are two numbers less than scenarios). Without it the first number is replaced by 1, in the array of the caller unless several workers are used.", "quantifier": "all numbers of nodes, scenarios, builders", "why_tests_cant": "all inputs; effect on the array of the caller", "anchors": ["pyforecaster/forecaster.py: ScenarioGenerator.predict_trees", "pyforecaster/scenarios_generator.py: ScenGen.predict_trees", "pyforecaster/tree_builders.py: gen_init_tree, DiffTree.gen_tree"]}
{"id": "C218", "title": "Trees by several workers and later calls", "statement": "parallel_preds only changes how fast trees are built: with two or more processors the trees (or the exception) are the same; with one processor and two or more rows the call fails. But a DiffTree without learning rate keeps the rate of its first call only if the trees were built one after the other; a later call on another number of scenarios then uses another rate than after a parallel call, unless both numbers are ten or more.", "quantifier": "all scenarios, builders, numbers of nodes, pairs of calls", "why_tests_cant": "all inputs and call histories", "anchors": ["pyforecaster/scenarios_generator.py: ScenGen.predict_trees", "pyforecaster/tree_builders.py: gen_init_tree, DiffTree.gen_tree"]}
{"id": "C219", "title": "Form of the result of predict_trees", "statement": "predict_trees returns one tree per row: a bare graph exactly if there is one row, a list of as many trees as rows otherwise.", "quantifier": "all configurations and inputs for which the call succeeds", "why_tests_cant": "all configurations", "anchors": ["pyforecaster/forecaster.py: ScenarioGenerator.predict_trees"]}
{"id": "C220", "title": "Scenarios from past errors of the same hour", "statement": "get_scenarios with the unconditional method succeeds exactly if at least one scenario is asked for, errors and forecasts have the same number of columns (or there is a single error column) and every hour of the forecasts occurs among the errors; otherwise it is a ValueError for all rows. Scenario s of the k-th forecast row of an hour is that row plus one whole error row of that hour, the one drawn for s and k. The conditional method returns the number 0, any other is refused.", "quantifier": "all frames of errors and forecasts, numbers of scenarios, draws", "why_tests_cant": "all frames and draws", "anchors": ["pyforecaster/reconciliation/reconciliation.py: HierarchicalReconciliation.get_scenarios"]}
{"id": "C221", "title": "Scenarios from past errors keep linear relations", "statement": "If forecasts and past errors satisfy a linear relation between the series (such as a total being the sum of its parts), so does every scenario of get_scenarios.", "quantifier": "all frames, linear relations, draws", "why_tests_cant": "all relations and draws", "anchors": ["pyforecaster/reconciliation/reconciliation.py: HierarchicalReconciliation.get_scenarios"]}
{"id": "C222", "title": "Copies of adaptive forecasters", "statement": "A Fourier_es, FK or FK_multi object, whatever fits it went through, should survive pickle, copy.copy and copy.deepcopy. It never does: its state can be stored but restoring always raises AttributeError, because __setstate__ updates an attribute a new object does not have. Classes without these methods are copied attribute by attribute. This holds for objects in any state; a blank one cannot even be stored.", "quantifier": "all objects and histories of fits and transfers", "why_tests_cant": "all histories", "anchors": ["pyforecaster/forecasting_models/fast_adaptive_models.py: __getstate__, __setstate__"]}
{"id": "C223", "title": "Transfer of states between adaptive forecasters", "statement": "o2.__setstate__(o1.__getstate__()) gives o2 the states of o1 and changes no other attribute, so point forecasts follow (for FK also although the history of coefficients is not a state) while the error quantiles stay those of o2 or stay missing. Fits and transfers within a class keep the set of state names, and after a fit the states are exactly those the fit produced. The states of Fourier_es are x, w, eps, last_1sa_preds, those of FK additionally P, R, Q, those of FK_multi x, P, R, Q; states of a Fourier_es given to an FK leave its covariances.", "quantifier": "all pairs of objects, all histories", "why_tests_cant": "all histories", "anchors": ["pyforecaster/forecasting_models/fast_adaptive_models.py: __getstate__, __setstate__"]}
{"id": "C224", "title": "Loss of a scenario tree", "statement": "metric_loss is the least total mean squared distance over all assignments of a tree path to every scenario; it is never negative and zero exactly if every scenario is a path of the tree. Where every scenario has a single nearest path the gradient used in training is the derivative of the loss in every direction.", "quantifier": "all trees, values, scenarios, directions", "why_tests_cant": "all trees and values", "anchors": ["pyforecaster/tree_builders.py: ScenarioTree.metric_loss, compute_distances"]}
{"id": "C225", "title": "Root of a DiffTree", "statement": "Training should bring the root of a DiffTree to the mean of the scenarios at its step. At every step its distance from that mean is multiplied by 1 - 2*lr*N/T (N scenarios, T steps), whatever the rest of the tree does. With lr*N > T, for the default rate already with more than 10*T scenarios, it therefore moves away from the mean at every step unless it starts exactly there.", "quantifier": "all trees, scenarios, initial values, rates, numbers of steps", "why_tests_cant": "all executions of the training", "anchors": ["pyforecaster/tree_builders.py: DiffTree.gen_tree", "pyforecaster/tree_builders.py: ScenarioTree.metric_loss, compute_distances"]}
{"id": "C226", "title": "Unused nodes of a DiffTree", "statement": "A node that lies on no path nearest to any scenario is not moved by a training step, however far it is from the scenarios.", "quantifier": "all trees, scenarios, values, steps", "why_tests_cant": "all executions", "anchors": ["pyforecaster/tree_builders.py: DiffTree.gen_tree", "pyforecaster/tree_builders.py: ScenarioTree.metric_loss, compute_distances"]}
{"id": "C227", "title": "Descent and range of a DiffTree", "statement": "With lr*N at most T (default rate: at most 10*T scenarios) no training step raises the loss, so the tree returned is at least as close to the scenarios as the initial one. With 2*lr*N at most T (default rate: at most 5*T scenarios and two or more steps) every node stays within bounds of its initial value and of the scenarios at its step.", "quantifier": "all trees, scenarios, initial values, rates, numbers of steps", "why_tests_cant": "all executions of the training", "anchors": ["pyforecaster/tree_builders.py: DiffTree.gen_tree", "pyforecaster/tree_builders.py: ScenarioTree.metric_loss, compute_distances"]}
{"id": "C228", "title": "When the default reconciliation can be fitted", "statement": "With the default method (minT, shrunk covariance) fit should succeed on every frame that holds all the aggregates. It succeeds exactly if at every step ahead the error of at least one series differs between two rows: base forecasts that are exact, or off by a constant, or a frame with a single time stamp make it fail with a LinAlgError.", "quantifier": "all hierarchies, frames, errors, numbers of steps", "why_tests_cant": "all errors of the base forecasts", "anchors": ["pyforecaster/reconciliation/reconciliation.py: HierarchicalReconciliation.fit_reconciliation, estimate_covariance"]}
{"id": "C229", "title": "What the default reconciliation minimises", "statement": "With the default method the reconciled forecast of every series is the combination of the base forecasts with the least penalised variance of the training errors among all combinations that reproduce the series on coherent forecasts, and no worse than the base forecast itself. The plain variance of the errors of a series can nevertheless grow: exact base forecasts of a series can become inexact.", "quantifier": "all hierarchies, errors, series, combinations", "why_tests_cant": "optimality over all combinations", "anchors": ["pyforecaster/reconciliation/reconciliation.py: HierarchicalReconciliation.fit_reconciliation, estimate_covariance"]}
{"id": "C230", "title": "Axis limits of animations", "statement": "The vertical limits of the animations of time series, trees and bars contain every value shown. Those of plot_quantiles contain every quantile of the rows shown only if at least one of them is not negative; otherwise the highest ones are cut off.", "quantifier": "all values, shapes, steps", "why_tests_cant": "all values", "anchors": ["pyforecaster/plot_utils.py: ts_animation, plot_trees, ts_animation_bars, plot_quantiles"]}
{"id": "C231", "title": "Rows shown by animations", "statement": "plot_quantiles shows every step-th row and never runs out of rows, whatever the step. ts_animation fails with an IndexError exactly if the row of its last frame does not exist (any larger step on a short frame) and with the default step never shows the last row.", "quantifier": "all numbers of rows, frames and steps", "why_tests_cant": "all numbers of rows and steps", "anchors": ["pyforecaster/plot_utils.py: ts_animation, plot_quantiles"]}
{"id": "C232", "title": "Ticks and labels of a summary plot", "statement": "plot_summary_score announces seven ticks. It fails with a ValueError for fewer than seven columns, keeps between seven and thirteen evenly spaced ticks otherwise, and seven only if the number of columns is a multiple of seven. The label option mean gives an interval the sum of its ends, twice its midpoint.", "quantifier": "all numbers of columns, intervals", "why_tests_cant": "all tables", "anchors": ["pyforecaster/plot_utils.py: plot_summary_score"]}
{"id": "C233", "title": "Two-dimensional histogram", "statement": "Every cell of hist_2d is the mean of the values of the rows whose x and y lie in its half-open intervals. A row is counted, in exactly one cell, if and only if its x and its y are above the quantile of the first level and not above that of the last one; with the default levels the rows with the least x or y are never counted.", "quantifier": "all data, levels, cells", "why_tests_cant": "all data and levels", "anchors": ["pyforecaster/plot_utils.py: hist_2d"]}
{"id": "C234", "title": "What a start tree contributes", "statement": "gen_tree accepts a tree to start from. A QuantileTree takes from it only the shape and the values behind the horizon of the scenarios: two start trees of the same shape give the same paths and the same values at all steps of the scenarios, whatever values they hold and whatever numbers of nodes are asked for. ScenredTree ignores it altogether. The paths returned are those of the tree returned.", "quantifier": "all start trees, scenarios, horizons, numbers of nodes", "why_tests_cant": "all start trees", "anchors": ["pyforecaster/tree_builders.py: ScenarioTree.gen_tree, init_vals, QuantileTree.gen_tree, ScenredTree.gen_tree"]}
{"id": "C235", "title": "Range of the values of a quantile tree", "statement": "Every value of a QuantileTree should lie in the range of the scenarios at its step. It lies in the range of the scenarios one step earlier: on rising scenarios every path, after the root, stays below every scenario.", "quantifier": "all trees, scenarios, steps", "why_tests_cant": "all scenarios", "anchors": ["pyforecaster/tree_builders.py: ScenarioTree.init_vals, QuantileTree.gen_tree"]}
{"id": "C236", "title": "Names of initial values", "statement": "An unknown name of the initial values is not rejected: on the quantile base tree it gives the same tree as zero, all values and paths being zero.", "quantifier": "all numbers of nodes, scenarios", "why_tests_cant": "all trees", "anchors": ["pyforecaster/tree_builders.py: ScenarioTree.init_vals, gen_init_tree"]}
{"id": "C237", "title": "DiffTree from equal values never branches", "statement": "Training a DiffTree from values that are equal within every step, as with the initial values zero, never separates the paths if the nodes of every step lie on equally many paths: all paths stay equal, every step moves towards or away from the mean of the scenarios by a fixed factor, and the tree is never closer to the scenarios than the single path of their means.", "quantifier": "all trees with balanced steps, scenarios, rates, iterations", "why_tests_cant": "all trees and numbers of iterations", "anchors": ["pyforecaster/tree_builders.py: DiffTree.gen_tree, metric_loss, init_vals"]}
{"id": "C238", "title": "Quantile forecasts row by row", "statement": "predict_quantiles of the linear, LightGBM, hybrid and persistent forecasters adds the error quantiles hour by hour with masked in-place additions. The result gives every row the quantiles it would get alone, for every frame (unsorted, repeated stamps, missing hours), so any rows asked for together, in any order and multiplicity, get the quantiles they have in the forecast of the whole frame; if one hour cannot be looked up nothing is returned. Without conditioning on the hour the persistent forecasters add to each target its own quantiles, unlike the others (C08).", "quantifier": "all frames, selections of rows, error tables, point forecasters acting on rows", "why_tests_cant": "all index patterns and batches", "anchors": ["pyforecaster/forecaster.py: LinearForecaster._predict_quantiles, LGBForecaster._predict_quantiles", "pyforecaster/forecasting_models/gradientboosters.py: LGBMHybrid._predict_quantiles", "pyforecaster/forecasting_models/benchmarks.py: Persistent._predict_quantiles, SeasonalPersistent._predict_quantiles"]}
{"id": "C239", "title": "Seasonal persistence served row by row", "statement": "A seasonal persistent forecaster never advances its stored season: asked for a single row it answers with the stored season whatever the row is (only for a horizon one longer than the season does the last step show the row). Serving a frame row by row gives the forecasts of the whole frame exactly if the season followed by the frame looks the same from every row.", "quantifier": "all seasons, horizons, rows and frames", "why_tests_cant": "all frames", "anchors": ["pyforecaster/forecasting_models/benchmarks.py: SeasonalPersistent.predict"]}
{"id": "C240", "title": "Errors of seasonal persistence without a validation set", "statement": "Fitted with the default val_ratio=None a seasonal persistent forecaster measures its errors on the training values with the last season put in front of the first value: for the first s entries the observation y(t+1+j) is compared with y(N-s+t+j). For signals it predicts without error (period s+1) the fitted errors all vanish exactly if the number of training values is a multiple of s+1.", "quantifier": "all series, seasonalities, horizons", "why_tests_cant": "all lengths", "anchors": ["pyforecaster/forecasting_models/benchmarks.py: SeasonalPersistent.fit"]}
{"id": "C241", "title": "Quasi end-to-end loss of the causal invertible network", "statement": "The loss compares the forecast embedding with the embedding of the targets inside the endogenous window that ends with them (exogenous columns in front do not disturb it), relative to one-step persistence in which the first step is compared with the last step of the same horizon. It is undefined exactly if in every row of the batch the embedded targets are equal at all steps, in particular always with a single target; otherwise it is nonnegative, zero exactly for the exact embedded forecast, and unchanged when the embedding is scaled by a nonzero factor or shifted row by row.", "quantifier": "all networks, batches, horizons, numbers of exogenous columns", "why_tests_cant": "all embeddings and batches; with one target the loss is NaN for every parameter", "anchors": ["pyforecaster/forecasting_models/neural_models/INN.py: quasi_end_to_end_loss_fn, EndToEndCausalInvertibleModule"]}
{"id": "C242", "title": "End-to-end losses against the forecasts served", "statement": "With end_to_end=full the training loss of a batch is the mean squared error of the forecasts predict returns for it, zero exactly if they equal the targets. With end_to_end=quasi a zero loss gives exact forecasts if the history is as long as the horizon; with a longer history and one layer it does so exactly if the kernel-weighted mismatch of the past part of the window vanishes in every row, and there is a network of zero loss whose forecasts are wrong. The forecast depends on the history only through its embedding, so with two or more layers there are different histories that get the same forecast however the head is trained.", "quantifier": "all networks, batches, horizons", "why_tests_cant": "all parameters", "anchors": ["pyforecaster/forecasting_models/neural_models/INN.py: full_end_to_end_loss_fn, quasi_end_to_end_loss_fn, CausalInvertibleNN.predict"]}
{"id": "C243", "title": "Causal invertible network without end-to-end training", "statement": "With end_to_end=none the training loss ignores the targets: it is infinite exactly if a coordinate of the embedding vanishes on the batch, otherwise nonnegative and zero exactly if every coordinate has mean zero and mean square one. predict returns the embedding of the inputs under the names of the targets, refused with a ValueError exactly if there are not as many targets as inputs; with one layer the forecast of target k is input k plus a constant, up to the scaling factor times the largest earlier input.", "quantifier": "all layers, batches, targets", "why_tests_cant": "all data and parameters", "anchors": ["pyforecaster/forecasting_models/neural_models/INN.py: loss_fn, CausalInvertibleNN.set_arch, CausalInvertibleNN.predict"]}
{"id": "C244", "title": "Inferred sampling time", "statement": "Without dt the formatter takes the median step of the index as sampling time. Whenever more than half of the steps are equal it is that step, whatever the others are; for an increasing index on a grid with rows missing it is the step of the grid exactly if more than half of the steps are. No sampling time is inferred from a single row, and DiscreteDistr, which drops repeated stamps first, infers none exactly if all stamps are equal.", "quantifier": "all indexes", "why_tests_cant": "all patterns of gaps and repetitions", "anchors": ["pyforecaster/formatter.py: Transformer.transform", "pyforecaster/forecasting_models/benchmarks.py: DiscreteDistr.fit, DiscreteDistr.predict_probabilities"]}
{"id": "C245", "title": "Features of a frame with missing rows", "statement": "On an increasing index on a grid of step dt with rows missing, an aggregate over w steps is the aggregation function of the w values observed at the grid times of its window, and NaN as soon as one of these times has no row or no value. Lags count rows: the feature of lag k is the observation of row t-k, never later than the stated time and at the stated time exactly if no row is missing in between; the target k steps ahead is never earlier than stated, and at the stated time exactly if no row is missing in between.", "quantifier": "all series, gaps, windows, lags, aggregation functions", "why_tests_cant": "all patterns of gaps", "anchors": ["pyforecaster/formatter.py: Transformer.transform"]}
{"id": "C246", "title": "Cells of the discrete distribution benchmark", "statement": "Trained and asked on frames of the same sampling time u (a divisor of the day), the forecast at a time is the average over the training rows in the same slot of length u of the day, shrunk by one part in 1e12 per row. Asked on a coarser frame of step U it is the forecast of the slot in which the step of length U containing the time starts, the own slot exactly if the time lies less than u after that start; asked on a finer frame a time gets its forecast only in the first step of its slot, and 0 otherwise.", "quantifier": "all training frames, sampling times dividing the day, times", "why_tests_cant": "all pairs of sampling times and stamps", "anchors": ["pyforecaster/forecasting_models/benchmarks.py: DiscreteDistr.fit, DiscreteDistr.predict, DiscreteDistr.predict_probabilities"]}
{"id": "C247", "title": "Layout of the forecasts of the discrete distribution benchmark", "statement": "predict is refused exactly if all stamps of the frame are equal, for example for a single row. Otherwise the rows of the forecast are numbered from 0 in place of the stamps, the columns are the names of the targets in alphabetical order with the forecasts of the target of that name; they come in the order of the training targets exactly if the names are in alphabetical order (not the case for lag names with ten or more steps).", "quantifier": "all frames, target names", "why_tests_cant": "all names and frames", "anchors": ["pyforecaster/forecasting_models/benchmarks.py: DiscreteDistr.fit, DiscreteDistr.predict"]}
{"id": "C248", "title": "Arguments of constructors are kept", "statement": "An argument given to the constructor of a forecaster, network, copula or scenario tree, by position or by keyword, for a parameter of the class or of one of its base classes, is the value of the attribute of that name on the object (nodes_at_step: of its scenario generator); without it the attribute is the default of the nearest class that has the parameter. The exceptions are listed by class; n_in and n_hidden_y of the invertible network are kept under other names.", "quantifier": "34 classes, all parameters, all calls and values", "why_tests_cant": "all combinations of positional and keyword arguments through up to four constructors", "anchors": ["pyforecaster/forecaster.py: ScenarioGenerator.__init__", "pyforecaster/forecasting_models/neural_models/base_nn.py: NN.__init__", "pyforecaster/forecasting_models/neural_models/ICNN.py: PICNN.__init__", "pyforecaster/tree_builders.py: ScenarioTree.__init__"]}
{"id": "C249", "title": "Parameters without effect", "statement": "Whatever is given for them: logger, n_scen_fit, additional_node, formatter and conditional_to_hour of LSTM_Forecaster are the defaults of ScenarioGenerator; the logger of LGBMHybrid and QRF is a new one; n_hidden_y of CausalInvertibleNN and objective_fun of LatentStructuredPICNN are the class attributes; the experts of HoltWintersMulti have no constraints and the default beta and val_ratio.", "quantifier": "all calls and values", "why_tests_cant": "absence of an effect for all values", "anchors": ["pyforecaster/forecasting_models/neural_models/LSTM_bidir.py: LSTM_Forecaster.__init__", "pyforecaster/forecasting_models/neural_models/INN.py: CausalInvertibleNN.__init__, CausalInvertibleNN.set_arch", "pyforecaster/forecasting_models/neural_models/ICNN.py: LatentStructuredPICNN.__init__", "pyforecaster/forecasting_models/holtwinters.py: HoltWintersMulti.__init__, HoltWintersMulti.reinit_pars", "pyforecaster/forecasting_models/gradientboosters.py: LGBMHybrid.__init__", "pyforecaster/forecasting_models/randomforests.py: QRF.__init__"]}
{"id": "C250", "title": "Refused arguments of constructors", "statement": "The binding of arguments refuses a construction exactly if the call does not fit the signature of the class (too many positional arguments, an argument twice, a required one missing, an unknown keyword for a tree or copula) or it has one of the keywords a constructor of the chain passes itself: nn_module of FFNN and LSTMNN, n_hidden_x of CausalInvertibleNN, model_class and model_pars of ExponentialSmoothing.", "quantifier": "34 classes, all calls and values", "why_tests_cant": "all calls", "anchors": ["pyforecaster/forecasting_models/neural_models/base_nn.py: FFNN.__init__, LSTMNN.__init__", "pyforecaster/forecasting_models/neural_models/INN.py: CausalInvertibleNN.__init__", "pyforecaster/forecasting_models/statsmodels_wrapper.py: ExponentialSmoothing.__init__"]}
{"id": "C251", "title": "Forecasts of Fourier_es are linear in the series", "statement": "For every two series of equal length and numbers a, b, fitting a new Fourier_es to a*y1+b*y2 gives in every row and step a times the forecast for y1 plus b times the forecast for y2; in particular a change of units of the series changes the forecasts by the same factor.", "quantifier": "all series, numbers, learning rates and sizes with n_sa and period fitting the window", "why_tests_cant": "all series and parameters", "anchors": ["pyforecaster/forecasting_models/fast_adaptive_models.py: Fourier_es.run, Fourier_es._fit"]}
{"id": "C252", "title": "Bounds of the forecasts bound the controls of the latent network", "statement": "LatentStructuredPICNN with z_min < z_max: not only the forecasts but the embedding and the reconstructed (normalised) controls lie strictly between z_min and z_max, for all weights and inputs. A control outside is missed by more than its distance from the interval, and optimize can only return controls inside.", "quantifier": "all weights, depths, widths, inputs and controls", "why_tests_cant": "all weights and inputs", "anchors": ["pyforecaster/forecasting_models/neural_models/ICNN.py: LatentPICNN_module.setup, LatentPICNN_module.__call__, LatentPICNN_module.decode", "pyforecaster/forecasting_models/neural_models/layers.py: PICNNLayer.__call__"]}
{"id": "C253", "title": "Bounds of the forecasts bound the variance", "statement": "A probabilistic PICNN with z_min < z_max: every variance it forecasts lies between softplus(z_min) and softplus(z_max) (plus 1e-10), for all weights and inputs; the layers of the variance get the bounds of the targets.", "quantifier": "all weights, depths, widths, inputs and controls", "why_tests_cant": "all weights and inputs", "anchors": ["pyforecaster/forecasting_models/neural_models/ICNN.py: PICNN_module.__call__", "pyforecaster/forecasting_models/neural_models/layers.py: PICNNLayer.__call__"]}
{"id": "C254", "title": "Which latent networks can be evaluated", "statement": "LatentStructuredPICNN without probabilistic and without bounds can always be evaluated and returns n_out forecasts, n_embeddings and one value per control. With probabilistic=True it can be evaluated exactly if n_embeddings is 1, controls are not augmented and n_latent, if given, is 1 or fits the numbers of outputs and controls; with one z_min and z_max per target and at least two targets exactly if n_embeddings is the number of targets (or 1 without augmentation) and the number of controls is the number of targets or 1.", "quantifier": "all sizes, depths and options", "why_tests_cant": "all sizes", "anchors": ["pyforecaster/forecasting_models/neural_models/ICNN.py: LatentPICNN_module.setup, LatentPICNN_module.__call__, PICNN_module.__call__, LatentStructuredPICNN.set_arch"]}
{"id": "C255", "title": "Forecasts of Holt-Winters are linear in the series", "statement": "Without constraints and on a float column, an object fitted to a*y + b*z and asked on a*y2 + b*z2 forecasts a times the forecasts of the object fitted to y and asked on y2 plus b times those for z and z2, in every row and step. With constraints and with missing values, measuring series and constraints in other units (a positive factor) changes all forecasts by that factor and missing forecasts stay missing.", "quantifier": "all series, factors, smoothing parameters, periods and horizons", "why_tests_cant": "relates three objects on all series", "anchors": ["pyforecaster/forecasting_models/holtwinters.py: HoltWinters._run, run, HoltWinters.reinit, HoltWinters.fit, HoltWinters.predict"]}
{"id": "C256", "title": "A new Holt-Winters object counts the level twice", "statement": "Run over a constant series v (beta = 0, the default), a new object forecasts v*(1 + (1-alpha)^(t+1)) at sample t as long as no replaced seasonal entry is read: both seasons start at the last value of the series and the level at 0. Hence adding a constant to a series moves the forecasts inside the first period by (1 + (1-alpha)^(t+1)) times the constant.", "quantifier": "all constants, series, smoothing parameters, periods, samples and steps inside the first period", "why_tests_cant": "closed form for all samples and parameters", "anchors": ["pyforecaster/forecasting_models/holtwinters.py: HoltWinters._run L321-324, run"]}
{"id": "C257", "title": "Quantile forecasts in other units", "statement": "If the targets are measured in other units (target j: y -> k_j*y + d_j, k_j >= 0) and the point forecasts change accordingly, then with conditional_to_hour=True all quantile forecasts change accordingly, for every row, hour and level. With the sign changed, the quantile forecasts of level q are minus those of level 1-q.", "quantifier": "all point forecasters, training histories, valid levels, rows, factors and offsets", "why_tests_cant": "relates two fits on all histories", "anchors": ["pyforecaster/forecaster.py: ScenarioGenerator.fit, ScenarioGenerator._estimate_err_distr, LinearForecaster._predict_quantiles"]}
{"id": "C258", "title": "Forecasts and errors in the units of the data", "statement": "With a formatter that normalises the target, and a denormalising expression that undoes the normalising one, forecasts are in the units of the data and the errors behind quantiles and scenarios are data minus forecasts. This holds for the linear, LightGBM, hybrid and random forest forecasters, which reproduce the data if their models reproduce the normalised target. Networks return what the network puts out: forecasts stay normalised while errors are data in original units minus normalised forecasts; a network reproducing the normalised target forecasts the data iff normalising changes none of them. Without a denormalising expression forecasts and targets are taken as they are.", "quantifier": "all formatters, expressions, frames, models and networks", "why_tests_cant": "all expressions and models", "anchors": ["pyforecaster/forecaster.py: ScenarioGenerator.fit, ScenarioGenerator.anti_transform, LinearForecaster.predict, LGBForecaster.predict", "pyforecaster/forecasting_models/neural_models/base_nn.py: NN.predict, NN.fit"]}
{"id": "C259", "title": "Persistent benchmarks with a normalising formatter", "statement": "Fitting Persistent or SeasonalPersistent should not depend on a normalising formatter. The targets are passed on with numbered columns: the fit succeeds iff the formatter has no target column and the frame has all normalisers and features; every other fit is a KeyError, whatever the data.", "quantifier": "all normalising formatters, frames and horizons", "why_tests_cant": "all formatters", "anchors": ["pyforecaster/forecasting_models/benchmarks.py: Persistent.fit, SeasonalPersistent.fit", "pyforecaster/forecaster.py: ScenarioGenerator.anti_transform"]}
{"id": "C260", "title": "FK in other units of measure", "statement": "A new FK fed with a series multiplied by a non-zero factor returns its forecasts multiplied by that factor, over any sequence of fits and predictions, including those after Q and R have been re-estimated.", "quantifier": "all configurations, bases, pseudo-inverses, factors and sequences of calls", "why_tests_cant": "all sequences of calls and factors", "anchors": ["pyforecaster/forecasting_models/fast_adaptive_models.py: update_predictions, FK.run", "pyforecaster/utilities.py: kalman"]}
{"id": "C261", "title": "FK after a coefficient that does not vary", "statement": "An FK should keep forecasting whatever the series. At a re-estimation (sample numbers that are positive multiples of m) the filter is lost iff fewer than two samples precede it or some coefficient has been the same in all of them; from then on no call yields a forecast. Fitting a new FK on a series that starts with m zeros forecasts the first m + 1 samples and nothing after; a window of one sample is lost at the second sample of any series.", "quantifier": "all configurations, states, series and later calls", "why_tests_cant": "all series and states", "anchors": ["pyforecaster/forecasting_models/fast_adaptive_models.py: update_predictions, FK.run", "pyforecaster/utilities.py: kalman_update"]}
{"id": "C262", "title": "Score of the predicted quantiles on the fitted rows", "statement": "A forecaster scored with quantile_scores on the rows its errors were measured on is nearly optimal among common shifts of its forecasts: the quantile of level a corresponds to a shift between two neighbouring errors, and no other shift has a mean pinball loss smaller by more than max(a, 1 - a)/n of the distance of these two errors. With all 24 hours in the data this holds for every hour.", "quantifier": "all forecasters, rows, levels and shifts", "why_tests_cant": "all forecasters, data and shifts", "anchors": ["pyforecaster/forecaster.py: ScenarioGenerator.fit, ScenarioGenerator.predict_quantiles", "pyforecaster/metrics.py: quantile_scores"]}
{"id": "C263", "title": "Live forecasts equal those of the backtest", "statement": "Transform a data set for training and forecast the quantiles of all its rows. For each of the rows, transforming only the history up to its stamp with the same formatter and forecasting its last row gives the very same quantiles. Feature lags are non-negative; the forecaster is a function of the stamp and the named features of a row.", "quantifier": "all formatters with non-negative lags, frames with missing values, forecasters, error tables and rows", "why_tests_cant": "relates two pipelines for all data and forecasters", "anchors": ["pyforecaster/formatter.py: Formatter.transform", "pyforecaster/forecaster.py: ScenarioGenerator.predict_quantiles, LinearForecaster._predict_quantiles, LGBForecaster._predict_quantiles"]}
{"id": "C264", "title": "In-sample errors of LinearForecaster", "statement": "On the rows a LinearForecaster was fitted on (all rows without val_ratio, otherwise those before the last int(n*val_ratio)) the forecast errors of every target sum to zero, for kind linear and ridge; for kind linear they also have zero product with every feature. Any other kind is refused with ValueError.", "quantifier": "all data, kinds, validation ratios and solvers that return a minimiser", "why_tests_cant": "all data sets", "anchors": ["pyforecaster/forecaster.py: LinearForecaster.fit, LinearForecaster.predict, ScenarioGenerator.train_val_split"]}
{"id": "C265", "title": "LinearForecaster of kind linear and units", "statement": "Measuring each feature and each target in other units (a non-zero factor and an offset for each) and fitting a LinearForecaster of kind linear again gives the same forecasts, in the new units, for every row, provided no feature is a combination of the others and a constant on the fitted rows; on the fitted rows themselves always.", "quantifier": "all data, factors and offsets", "why_tests_cant": "all data sets and changes of units", "anchors": ["pyforecaster/forecaster.py: LinearForecaster.fit, LinearForecaster.predict"]}
{"id": "C266", "title": "LinearForecaster of kind ridge and units of the signal", "statement": "A forecast should not depend on whether the signal is measured in kW or W. For kind ridge it does: if features and targets, all taken from the signal, are multiplied by 10^p with p not a multiple of 5, the refitted forecasts of a target are the old ones times 10^p iff the target is uncorrelated with every feature on the fitted rows, because the penalties are fixed numbers.", "quantifier": "all data, powers p and solvers that return a minimiser", "why_tests_cant": "all data sets", "anchors": ["pyforecaster/forecaster.py: LinearForecaster.fit"]}
{"id": "C267", "title": "LinearForecaster of kind ridge and units of the targets", "statement": "Another unit for the targets alone (one factor, any offsets) and other zeros of the features (Celsius, Kelvin) do not change the penalty that kind ridge settles on, and the forecasts are the old ones in the new unit, for every row.", "quantifier": "all data with at least two fitted rows, factors and offsets", "why_tests_cant": "all data sets and changes of units", "anchors": ["pyforecaster/forecaster.py: LinearForecaster.fit"]}
{"id": "C268", "title": "Targets of LinearForecaster and their companions", "statement": "With kind linear the forecasts of a target do not depend on which other targets are in the data (independent features). With kind ridge they do: the forecasts with and without companions agree iff the same penalty is picked for both sets of targets or the target is uncorrelated with every feature.", "quantifier": "all data and choices of targets", "why_tests_cant": "all data sets and choices of targets", "anchors": ["pyforecaster/forecaster.py: LinearForecaster.fit"]}
{"id": "C269", "title": "Scenario tree of shifted scenarios", "statement": "Adding a signal (for instance the forecast) to all scenarios and reducing them with scenred gives the same tree as reducing the scenarios first and adding the signal with superimpose_signal_to_tree: same nodes, times, probabilities, parents and values; the same errors.", "quantifier": "all scenario arrays, signals, numbers of nodes, tolerances, metrics", "why_tests_cant": "all scenario arrays and signals", "anchors": ["pyforecaster/scenred.py: scenred, superimpose_signal_to_tree"]}
{"id": "C270", "title": "Scenario tree and units of measure", "statement": "A scenario tree should not depend on the unit of the signal. It does: scenarios are normalised by std + 1e-6, and for a positive factor a different from 1 the normalised value of a scenario at a step is the same in the new unit iff it equals the mean of the step. There are scenarios (spreads of 1e-6, such as powers in GW) whose tree branches at another step once they are multiplied by 1e6.", "quantifier": "all scenario arrays and factors; existence of scenarios for the trees", "why_tests_cant": "all arrays and factors", "anchors": ["pyforecaster/scenred.py: scenred"]}
{"id": "C271", "title": "Scenarios and trees follow the predicted quantiles", "statement": "With the same random numbers, multiplying the predicted quantiles by a factor and adding a signal to them (per observation and step) does the same to the predicted scenarios, up to (1 - factor) times the added noise 1e-9*randn. Hence with online_tree_reduction the scenred tree of an observation is the tree of the error quantiles with the forecast superimposed.", "quantifier": "all quantiles, factors, signals, copula samples, without additional node", "why_tests_cant": "relates runs for all quantiles and random numbers", "anchors": ["pyforecaster/scenarios_generator.py: ScenGen.predict_scenarios, ScenGen.sample_scenarios, interp_scens, ScenGen.predict_trees"]}
{"id": "C272", "title": "Features and targets in other units", "statement": "If every aggregation function commutes with a change of units of the raw data, Formatter.transform on the data in the new units gives the old features and targets in the new units, with the same column names and the same kept rows, or the same exception. The mean commutes with every affine change, maximum and minimum with every increasing one, the sum exactly with those that keep the zero. A moving aggregation over w steps follows a change of units for all data iff its function does so on every list of w observations.", "quantifier": "all formatters, frames, index labels, changes of units", "why_tests_cant": "all frames, transformers and units", "anchors": ["pyforecaster/formatter.py: Formatter._transform, Transformer.transform"]}
{"id": "C273", "title": "Features and targets at other times", "statement": "Moving the time stamps of the raw frame (any injective relabelling, for instance by a week) moves the time stamps of features and targets in the same way and changes nothing else: values, columns, kept rows and exceptions are the same. Only the calendar features depend on absolute time.", "quantifier": "all formatters, frames and injective relabellings", "why_tests_cant": "all frames and shifts", "anchors": ["pyforecaster/formatter.py: Formatter._transform"]}
{"id": "C274", "title": "Order of columns and further columns of the raw frame", "statement": "With distinct column names, the order of the columns of the raw frame changes neither features (without augmentation) nor targets, kept rows or exceptions. The same holds for adding columns that no transformer reads and whose names no transformer produces: not even missing values in them remove a row. With augmentation it still holds of targets and kept rows. A further column with the name of a generated feature does change the result: that feature is no longer returned.", "quantifier": "all formatters, frames, permutations and added columns", "why_tests_cant": "all frames and column orders", "anchors": ["pyforecaster/formatter.py: Formatter._transform"]}
{"id": "C275", "title": "Observations of a tree at a step", "statement": "On a non-empty scenario tree, ScenarioTree.obs_at_step_t returns for a step within the tree, in increasing order and without repetitions, exactly the values of the nodes of that time from which the last time can be reached; if every node reaches the last time these are the values of all nodes of the step. Step -1-j is the step j before the last one; beyond the tree it raises IndexError.", "quantifier": "all well-formed trees and steps", "why_tests_cant": "all trees", "anchors": ["pyforecaster/scenred.py: obs_at_step_t"]}
{"id": "C276", "title": "Plot of the features kept for each target", "statement": "Formatter.plot_dataset_at_stepahead returns iff there are transformers and, for every target column, pruning works and every column it keeps is a feature made from every variable; it then draws one picture per target column with one bar for exactly the features that pruning keeps, over their time span. As every generated column comes from one variable, it raises as soon as the transformers use two variables and some column is kept; with metadata_features=None it raises unless there is no target column.", "quantifier": "all frames, transformers and pruning methods", "why_tests_cant": "all transformers and frames", "anchors": ["pyforecaster/formatter.py: plot_dataset_at_stepahead"]}
{"id": "C277", "title": "Renaming features by prediction time", "statement": "Formatter.rename_features_prediction_time never returns: it raises ValueError before the transformers were used and KeyError afterwards, since the metadata have no column referring_time.", "quantifier": "all transformers, frames and steps", "why_tests_cant": "absence of any working call", "anchors": ["pyforecaster/formatter.py: rename_features_prediction_time"]}
{"id": "C278", "title": "Width of the LSTM forecaster", "statement": "LSTMNN.predict returns one forecast per target column iff the width of its network agrees with the number of target columns: n_out for a positive number of layers, the last entry for a list of layer sizes, whatever n_out is. Otherwise it raises ValueError; with zero layers IndexError.", "quantifier": "all parameters, layer sizes and rows with at least one feature", "why_tests_cant": "all architectures", "anchors": ["pyforecaster/forecasting_models/neural_models/base_nn.py: LSTMModule, LSTMNN"]}
{"id": "C279", "title": "The LSTM forecaster stays in a fixed band", "statement": "Whatever the features, the forecast of step k by an LSTMNN differs from mean_k + scale_k b_k by at most |scale_k| times the sum of the absolute weights of row k of the final layer. So no trained network follows a trend without bound.", "quantifier": "all parameters and all rows of features", "why_tests_cant": "a bound over all inputs and parameters", "anchors": ["pyforecaster/forecasting_models/neural_models/base_nn.py: LSTMModule, LSTMNN.predict"]}
{"id": "C280", "title": "The LSTM forecaster reads columns as a sequence, through all layers", "statement": "The columns of the input frame are the time axis of the LSTM: there is a network whose forecast changes whenever two different features are swapped. Features reach the forecast only through all layers one after the other: if one layer does not look at its inputs, all rows of the same length get the same forecast.", "quantifier": "all layer sizes, parameters and rows", "why_tests_cant": "all parameters and rows", "anchors": ["pyforecaster/forecasting_models/neural_models/base_nn.py: LSTMModule, LSTMNN.check_inputs"]}
{"id": "C281", "title": "History and exogenous features of the bidirectional LSTM", "statement": "In LSTM_Forecaster a change of the exogenous features moves the forecast by the same amount whatever the history is; any change of the history moves it by at most twice the scale of the target times the sum of the absolute weights of the head of the history; without exogenous columns all forecasts lie in one band. A network whose two directions are alike gives a history and its reversal the same forecast. A change of the exogenous features moves a forecast by at most the scale of the target times the weights along all ways from the changed features through both dense layers and the head; where the head has no negative weight for a step, no exogenous features lower the forecast below that of the history and offsets alone.", "quantifier": "all parameters, histories and exogenous features", "why_tests_cant": "bounds over all inputs and parameters", "anchors": ["pyforecaster/forecasting_models/neural_models/LSTM_bidir.py: _build_model, predict"]}
{"id": "C282", "title": "Keyword arguments of mapper", "statement": "big_data_utils.mapper returns the results in the order of the parameters, but passes keyword arguments by position: for a function that tells its arguments apart and keywords with different values, it computes f(p, *argv, **kwarg) iff the keywords are given in the order of the declaration; names are never looked at. On a machine with one processor, and with sharedmem=True and a positional argument, it always raises.", "quantifier": "all functions, parameters, arguments and keywords", "why_tests_cant": "all functions and keyword orders", "anchors": ["pyforecaster/big_data_utils.py: mapper"]}
{"id": "C283", "title": "Formatter and linear forecaster in other units", "statement": "If the raw data are given in other units (a v + b, a not 0) and the aggregation functions follow the change, a pipeline of Formatter and LinearForecaster that can be fitted on the old data can be fitted on the new ones, and on any newer data in the new units it then forecasts what the old one forecasts on the old data, in the new units, for the same rows, or raises the same exception.", "quantifier": "all formatters, frames, validation ratios, newer frames and units", "why_tests_cant": "all data, formatters and units", "anchors": ["pyforecaster/formatter.py: Formatter._transform", "pyforecaster/forecaster.py: LinearForecaster"]}
{"id": "C284", "title": "Formatter and linear forecaster at other times", "statement": "Moving the time stamps of training data or of new data injectively changes neither the fitted model nor the forecasts or exceptions of a pipeline of Formatter (without calendar features) and LinearForecaster of any kind; the forecasts carry the moved time stamps.", "quantifier": "all formatters, frames, kinds, solvers and injective relabellings", "why_tests_cant": "all data and shifts", "anchors": ["pyforecaster/formatter.py: Formatter._transform", "pyforecaster/forecaster.py: LinearForecaster"]}
{"id": "C285", "title": "Back-testing equals live use", "statement": "With non-negative feature lags and only generated features, the forecast that a fitted linear model makes for a row of the training frame is the last forecast the pipeline makes when it is given only the raw data up to that time.", "quantifier": "all formatters, frames with distinct time stamps, coefficients and rows", "why_tests_cant": "all data and rows", "anchors": ["pyforecaster/formatter.py: Formatter._transform", "pyforecaster/forecaster.py: LinearForecaster.predict"]}
{"id": "C286", "title": "Feed-forward forecasts stay in a band", "statement": "With at least one hidden layer, no selector and no skip connection, every forecast of a feed-forward network lies within a distance from the bias of the last layer that depends on the parameters only, so forecasts cannot follow unbounded growth of the features.", "quantifier": "all configurations, parameters and rows", "why_tests_cant": "all parameters and rows of any size", "anchors": ["pyforecaster/forecasting_models/neural_models/base_nn.py: FeedForwardModule"]}
{"id": "C287", "title": "Selector and skip connection of feed-forward networks", "statement": "With a selector the forecast is the selected features plus a correction that is bounded by the parameters; with a skip connection it is an affine function of the features plus such a correction.", "quantifier": "all configurations, parameters and rows", "why_tests_cant": "all parameters and rows of any size", "anchors": ["pyforecaster/forecasting_models/neural_models/base_nn.py: FeedForwardModule"]}
{"id": "C288", "title": "Layers of feed-forward networks", "statement": "A network of one layer forecasts an affine function of the features. In deeper networks without selector and skip connection the features act only through all layers in turn: if a hidden layer has no weights, or its units all have the same weights and bias (constant initialisation), all rows get the same forecast, and so do all rows of non-negative features if all weights and biases of the first hidden layer are at most zero. Layer sizes follow the documented rules for n_layers and n_neurons.", "quantifier": "all configurations, parameters and rows", "why_tests_cant": "all parameters and rows", "anchors": ["pyforecaster/forecasting_models/neural_models/base_nn.py: FeedForwardModule", "pyforecaster/forecasting_models/neural_models/base_nn.py: FFNN"]}
{"id": "C289", "title": "Point metrics in other units", "statement": "If forecasts and targets are both changed to a v + b the rmse is multiplied by |a|, for every way of aggregating. mape and nmae are not free of units because of the constants in their denominators: if all numbers are a >= 1 times as large, every entry is at least as large and at most a times as large. Refused inputs are refused in all units.", "quantifier": "all frames, aggregations and units", "why_tests_cant": "all data and units", "anchors": ["pyforecaster/metrics.py: rmse", "pyforecaster/metrics.py: mape", "pyforecaster/metrics.py: nmae"]}
{"id": "C290", "title": "Quantile metrics in other units", "statement": "If quantile forecasts and targets are both changed to a v + b with a > 0, the crps is multiplied by a and the reliability does not change.", "quantifier": "all quantile forecasts, targets, levels, aggregations and units", "why_tests_cant": "all data and units", "anchors": ["pyforecaster/metrics.py: quantile_scores", "pyforecaster/metrics.py: crps", "pyforecaster/metrics.py: reliability"]}
{"id": "C291", "title": "Reconciliation in other units and of sums", "statement": "Multiplying targets and base forecasts of all series by a factor other than 0 leaves the fitted reconciliation unchanged, and reconciled forecasts and scenarios are multiplied by the factor. Reconciling is linear in the base forecasts. A bias of the base forecasts in the training rows that is constant for each series and step changes nothing in the reconciliation of later forecasts.", "quantifier": "all hierarchies, targets, base forecasts, factors and biases", "why_tests_cant": "all data, hierarchies and units", "anchors": ["pyforecaster/reconciliation/reconciliation.py: HierarchicalReconciliation.fit_reconciliation", "pyforecaster/reconciliation/reconciliation.py: HierarchicalReconciliation.reconcile"]}
{"id": "C292", "title": "Random Fourier features and the Gaussian kernel", "statement": "For a new RandomFFRegressor of type rff the products of the features of two rows, summed over the features, have the expectation dim_kernel/2 times exp(-std_kernel^2 |x-y|^2 / 2). With independent columns, 2/dim_kernel times the sum is within 4/dim_kernel of the kernel in mean square.", "quantifier": "all numbers of features, widths and rows", "why_tests_cant": "a statement about the distribution of random numbers, for all rows and dimensions", "anchors": ["pyforecaster/forecasting_models/random_fourier_features.py: get_rff_matrix", "pyforecaster/forecasting_models/random_fourier_features.py: Base.conv", "pyforecaster/forecasting_models/random_fourier_features.py: Base.set_weight"]}
{"id": "C293", "title": "Calibration of scenarios", "statement": "The probability that a scenario of predict_scenarios does not exceed the quantile of level a = Phi(z) forecast for its row and step is Phi(z/sqrt(v)), v being the diagonal entry for this step of the matrix fitted for the hour of the row. With ones on the diagonal the scenarios fall below each quantile with the probability its level says.", "quantifier": "all increasing levels and quantile forecasts, fitted matrices, rows, steps, scenarios", "why_tests_cant": "a statement about the distribution of random scenarios, exact for all quantile forecasts", "anchors": ["pyforecaster/copula.py: HourlyGaussianCopula.sample", "pyforecaster/scenarios_generator.py: ScenGen.predict_scenarios", "pyforecaster/scenarios_generator.py: interp_scens"]}
{"id": "C294", "title": "Copula matrices and what they do to the calibration", "statement": "If every column of an hour varies, the matrices of the methods vanilla and shrunk are positive definite. Scenarios drawn with vanilla fall below a quantile with the probability of its level up to one in a million. With shrunk, for every level but one half, they do so exactly if the variance of the step is the mean of the variances of all steps; steps of lower variance get too wide scenarios, steps of higher variance too narrow ones.", "quantifier": "all data of an hour, levels, quantile forecasts, steps", "why_tests_cant": "exact characterisation over all data; the effect is a small bias of a probability", "anchors": ["pyforecaster/copula.py: HourlyGaussianCopula.fit", "pyforecaster/copula.py: HourlyGaussianCopula.sample"]}
{"id": "C295", "title": "Share of many scenarios below a quantile", "statement": "If the n scenarios of predict_scenarios are drawn independently, the share of them that do not exceed a forecast quantile in a row and step is within 1/(4n) of the probability of C293 in mean square, which is the level of the quantile when the fitted matrix has ones on its diagonal.", "quantifier": "all numbers of scenarios, levels, quantile forecasts, fitted matrices", "why_tests_cant": "rate of convergence for all sample sizes and forecasts", "anchors": ["pyforecaster/copula.py: HourlyGaussianCopula.sample", "pyforecaster/scenarios_generator.py: ScenGen.predict_scenarios"]}
{"id": "C296", "title": "Distribution of scenarios from past errors", "statement": "For uniform draws the probability that a scenario of get_scenarios (all series of a row) is in a set is the share of the error rows of that hour which added to the forecast lie in the set. Its expectation is the forecast plus the mean error of the hour.", "quantifier": "all forecasts, errors, sets of rows", "why_tests_cant": "a statement about the distribution of random scenarios for all sets", "anchors": ["pyforecaster/reconciliation/reconciliation.py: HierarchicalReconciliation.get_scenarios"]}
{"id": "C297", "title": "Convex networks before training", "statement": "A new PICNN or RecStablePICNN without bounds is convex in its controls and a new network with sigmoid activations non-decreasing, for every seed: the projection of the weights leaves the parameters of a new network as they are. Networks can be created exactly with init_type normal or uniform. A recursively stable network whose initial weights of the controls include a negative one is not recursively stable before its first step of training.", "quantifier": "all seeds (random numbers), sizes, inputs and controls", "why_tests_cant": "all random initialisations and all inputs", "anchors": ["pyforecaster/forecasting_models/neural_models/neural_utils.py: positive_lecun, reproject_weights", "pyforecaster/forecasting_models/neural_models/layers.py: PICNNLayer", "pyforecaster/forecasting_models/neural_models/ICNN.py: PICNN, RecStablePICNN"]}
{"id": "C298", "title": "Size of the initial convex weights", "statement": "With ideal random numbers the expected sum of the initial weights of the m inputs of a unit of a convex layer is m/sqrt(n_out) times sqrt(2/pi)/10 for init_type normal and 1/20 for uniform: it is scaled by the number of outputs of the layer, so it grows in proportion to the number of inputs.", "quantifier": "all numbers of inputs and outputs", "why_tests_cant": "an expectation over random initialisations for all sizes", "anchors": ["pyforecaster/forecasting_models/neural_models/neural_utils.py: positive_lecun"]}
{"id": "C299", "title": "Plots of a scenario tree", "statement": "plot_from_graph draws one line per node of the last time, showing the values along the path from the root at times 0, 1, ... Given the lines of an earlier plot it updates the first of them to the lines of a new plot; surplus lines keep the old points and paths without a line are not shown. plot_vars leaves the plotted variable in the tree: the values of the tree are lost (with dyn_offset the root gets NaN and node k the value number k-1).", "quantifier": "all well-formed trees, variables and lists of earlier lines", "why_tests_cant": "all trees; plots are not compared by tests", "anchors": ["pyforecaster/scenred.py: plot_from_graph, plot_vars, replace_var, retrieve_scenarios_indexes"]}
{"id": "C300", "title": "Plot of scenarios", "statement": "plot_scen can be called exactly for scenarios of one or two variables; with more it raises UnboundLocalError instead of the message of its assertion, which is raised without variables. It draws one line per scenario with one point per step, except for one variable and one step: then a single line joins the scenarios.", "quantifier": "all shapes and values", "why_tests_cant": "all shapes, including those never plotted in tests", "anchors": ["pyforecaster/scenred.py: plot_scen"]}
{"id": "C301", "title": "Chances of rows under the row cap", "statement": "With ideal random numbers, for an active max_scengen_rows = m on n rows: two rows of the same hour have the same chance to be kept; without time stamps, or with fewer rows to keep than hours present, every row has the chance m/n; the chances of all rows always add up to m.", "quantifier": "all frames, caps and ideal generators, whatever the distribution of the allocation to the hours", "why_tests_cant": "probabilities over all random draws", "anchors": ["pyforecaster/forecaster.py: ScenarioGenerator._maybe_subsample_for_scengen, _subsample_stratified_by_hour, _subsample_uniform"]}
{"id": "C302", "title": "Smooth loss of a scenario tree", "statement": "The function metric_loss of tree_builders (not the method) lies between the loss of the method, which takes the nearest path of each scenario, and the mean squared distance over all paths. It equals the former exactly if each scenario is equally far from all paths. It is zero only if all paths equal every scenario: a tree whose paths are exactly the given, differing, scenarios has a positive loss.", "quantifier": "all trees with at least one path, values and scenarios", "why_tests_cant": "inequalities over all trees and scenarios", "anchors": ["pyforecaster/tree_builders.py: metric_loss (module level)"]}
{"id": "C303", "title": "What Holt-Winters remembers of its initial states", "statement": "Without constraints, moving a constant from the seasons to the level changes no forecast of predict, whatever is observed, and the constant stays in the states for ever; with constraints on the seasons the same move can change the forecasts. With seasons that are not learnt (gamma zero), the forecasts from two initial levels and trends differ after n observations by (1-alpha)^n times the gap of the levels plus a fixed multiple of at least h of the gap of the trends at step h: levels are forgotten for 0 < alpha < 2, trends never.", "quantifier": "all states, parameters, observations and horizons", "why_tests_cant": "all observation sequences of any length", "anchors": ["pyforecaster/forecasting_models/holtwinters.py: predict, run"]}
{"id": "C304", "title": "Sensitivity of feed-forward forecasts", "statement": "For every feed-forward network and number of features there is a factor K such that, if no feature changes by more than d, no forecast changes by more than K d (and a row that can be forecast stays so). The normalisation of the layers can make the factor large: with all weights 0 or 1, a feature moving from 0 to 0.002 moves a forecast from 0 to more than 0.7.", "quantifier": "all configurations, parameters, rows and changes", "why_tests_cant": "all networks and pairs of rows", "anchors": ["pyforecaster/forecasting_models/neural_models/base_nn.py: FeedForwardModule"]}
{"id": "C305", "title": "Expectations over a scenario tree and the tolerance", "statement": "The expectation of any function of the value at a step over the tree of scenred is the mean over the scenarios, each replaced by the one it was merged with; it is off by at most the share of merged scenarios times the range of the function. Merges change the expectation of a function that varies at most as the distance by at most their cost (probability times distance). In tolerance mode the cheapest merges of step i are made until their costs exceed tol/1.5^(i+2) times the smallest sum of the distances to one scenario, or one scenario is left; the sum is not weighted with probabilities, so that at the last step the tolerance is too generous by a factor equal to the number of scenarios.", "quantifier": "all scenarios, distances, tolerances and functions", "why_tests_cant": "all functions of the scenarios and all inputs", "anchors": ["pyforecaster/scenred.py: scenred"]}
{"id": "C306", "title": "Folds of shifted data and rows tested twice", "statement": "The time k-folds of time_kfcv do not depend on where the data lie in time: adding a constant to every time stamp gives the same train and test rows. The docstring shows, for multiplier 1, folds testing disjoint windows of 1/n_k of the history each; the test windows of consecutive folds have an interval of at least 1/(n_k-1) of a window (less two nanoseconds) in common, whatever the multiplier, so with time stamps dense enough some rows are tested by both folds and weigh twice in a cross-validated score.", "quantifier": "all sorted indices, numbers of folds, multipliers and lead times", "why_tests_cant": "all indices", "anchors": ["pyforecaster/formatter.py: Formatter.time_kfcv"]}
{"id": "C307", "title": "What the bootstrap estimates on average", "statement": "Over all equally likely draws, the mean returned by bootstrap is on average the average of the statistic over all n^n resamples, and the square of the standard deviation it returns is on average 1-1/m times the variance of the statistic over all resamples, m the number of resamples used. For the mean these are the mean of the series and 1-1/m times its population variance over its length.", "quantifier": "all series with distinct labels, statistics and numbers of resamples", "why_tests_cant": "an expectation over all random draws", "anchors": ["pyforecaster/stat_utils.py: bootstrap"]}
{"id": "C308", "title": "Share of new observations below their quantile forecast", "statement": "Let one row, any with the same chance, be forecast with the error quantiles of all the other rows (exchangeable errors, fixed point forecaster). Among the m rows of an hour (all rows if some hour of the day does not occur) the observation is below its forecast of level q in more than q(m-2) cases, and, if no two errors are equal, in fewer than q(m-2)+2: the coverage exceeds q-2q/m and is below q+2(1-q)/m. The nominal level is thus met up to 2/m with m the rows of an hour, whatever the forecaster.", "quantifier": "all point forecasters, rows, levels and hours", "why_tests_cant": "all data sets and forecasters", "anchors": ["pyforecaster/forecaster.py: ScenarioGenerator.fit, ScenarioGenerator._estimate_err_distr, LinearForecaster._predict_quantiles"]}
{"id": "C309", "title": "What crps measures", "statement": "crps should be the continuous ranked probability score E|X-y| - E|X-X'|/2 of the forecast distribution. With N non-crossing quantiles of the levels 1/(2N), 3/(2N), ... it is exactly half of this score for the distribution that takes the predicted quantiles with the same probability; without levels (0 to 1 evenly) exactly half of the fair score of the sample of predicted quantiles, in which X' is another member of the sample.", "quantifier": "all forecasts, targets and groupings", "why_tests_cant": "all forecasts and observations", "anchors": ["pyforecaster/metrics.py: crps, quantile_scores"]}
{"id": "C310", "title": "Estimating a constant with the Kalman filter", "statement": "Filtering k noisy observations of a constant (variance r, initial variance p) should leave the variance 1/(1/p+k/r), and give the initial estimate the weight r/(r+kp). The filter as coded reports a smaller variance, with inverse between 1/p+5k/(3r) (if p<=r) and 1/p+2k/r, and consequently keeps too much of the initial estimate: on equal observations its weight is at least the correct one, strictly from the second observation on.", "quantifier": "all initial estimates, variances, observations and numbers of observations", "why_tests_cant": "all lengths of the series and all real variances", "anchors": ["pyforecaster/utilities.py: kalman, kalman_predict, kalman_update"]}
{"id": "C311", "title": "Chance of success of the random search", "statement": "If the trials of a share p of the outcomes of the random generator score s or better, each on its own, and no trial fails or scores NaN, the parallel search with n independent trials ends with parameters that score s or better with probability exactly 1-(1-p)^n.", "quantifier": "all classes, data, limits, numbers of trials and thresholds", "why_tests_cant": "a probability over all random draws", "anchors": ["pyforecaster/forecasting_models/holtwinters.py: tune_hyperpars, fit_sample"]}
{"id": "C312", "title": "A perfect expert is never followed alone", "statement": "In the first m+1 rows of any call of a new FK_multi with k experts (unless all of them are exact at once) every forecast is an average of the experts in which each has a weight of at least e^-k/(k-1+e^-k) and at most 1/(1+(k-1)e^(-k/(k-1))), less than one. However good one expert has been, if all others are off by at least d on the same side the combined forecast is off by at least (1-cap) d.", "quantifier": "all experts, frames, horizons, numbers of experts, positive r and non-negative q, fits and predictions", "why_tests_cant": "a bound over all histories of errors", "anchors": ["pyforecaster/forecasting_models/fast_adaptive_models.py: FK_multi.run", "pyforecaster/utilities.py: kalman"]}
{"id": "C313", "title": "Probability mass functions of the quantile forest", "statement": "predict_pmf of QRF should give for every target the distribution of its own quantiles, adding up to one when they are all inside the bins. With quantiles=levels the total is (number of levels asked for)/(number of levels of the object), so it is one exactly if the numbers agree. For all forecasts and bins the distributions are those of the own quantiles exactly with a single target or a single level; otherwise already the first target mixes in quantiles of others.", "quantifier": "all forecasts, targets, levels, numbers of levels of the object and non-decreasing bins", "why_tests_cant": "an equivalence over all shapes and contents", "anchors": ["pyforecaster/forecaster.py: predict_pmf", "pyforecaster/forecasting_models/randomforests.py: QRF.predict_quantiles, quantiles_to_numpy"]}
{"id": "C314", "title": "FK_multi in other units", "statement": "If the signal and the forecasts of the experts are changed to a v + b (a not 0), every sequence of fits and predictions of FK_multi gives the old forecasts in the new units, or the same error, and leaves the same weights and filter matrices, also after these have been re-estimated.", "quantifier": "all experts, frames, sequences of calls, horizons, factors and offsets", "why_tests_cant": "all sequences of calls and all changes of units", "anchors": ["pyforecaster/forecasting_models/fast_adaptive_models.py: FK_multi.run, fit, predict"]}
{"id": "C315", "title": "Loss of a probabilistic structured network", "statement": "Training a probabilistic StructuredPICNN with the default loss: on a batch of at least two rows and positive variances the loss is a number, otherwise not. With the variances the network can forecast it is above log(1e-10) - 1 plus the mean squared error; perfect forecasts with variance v score log(v) - 1, so no variance is best for them. Whatever the forecasts, the loss is least exactly where the variance of each row is the squared error of its objective (or the smallest variance allowed, if larger), whatever the errors of the single targets.", "quantifier": "all batches, objectives, forecasts and variances", "why_tests_cant": "lower bounds and minimisers over all batches", "anchors": ["pyforecaster/forecasting_models/neural_models/ICNN.py: structured_probabilistic_loss_fn", "pyforecaster/forecasting_models/neural_models/base_nn.py: probabilistic_loss"]}
{"id": "C316", "title": "Columns chosen as categorical", "statement": "auto_cat_feature_selection(df, n) returns, in order, exactly the columns in which at most n different values occur, missing ones not counted (the docstring says more than n). All columns of a frame of at most n rows are chosen, the target included; some of the rows of a frame give at least the columns of the frame; recoding values one to one changes nothing; a larger n gives at least the same columns.", "quantifier": "all frames and bounds", "why_tests_cant": "all frames, subsets of rows and recodings", "anchors": ["pyforecaster/formatter.py: Formatter.auto_cat_feature_selection"]}
{"id": "C317", "title": "Quantile forecasts of the pipeline in other units", "statement": "If the raw data are given in other units (a v + b, a > 0) and the aggregation functions follow the change, Formatter and LinearForecaster that can be fitted on the old data can be fitted on the new ones, and all quantile forecasts on any newer data are the old ones in the new units: same rows, hours, levels and exceptions.", "quantifier": "all raw frames, formatters, levels, validation ratios and later data", "why_tests_cant": "all data and units", "anchors": ["pyforecaster/formatter.py: Formatter.transform", "pyforecaster/forecaster.py: LinearForecaster.fit, LinearForecaster._predict_quantiles, ScenarioGenerator.fit"]}
{"id": "C318", "title": "Quantile forecasts of the pipeline in another time zone", "statement": "If all time stamps are moved such that the hours of the day are exchanged among themselves (by whole hours, by days), Formatter and LinearForecaster keep their coefficients, the error distributions move along with the hours, and all quantile forecasts are the same under the moved time stamps; the same exceptions are raised.", "quantifier": "all data, time stamps and shifts by whole hours", "why_tests_cant": "all data and shifts", "anchors": ["pyforecaster/forecaster.py: ScenarioGenerator._estimate_err_distr, LinearForecaster._predict_quantiles"]}
{"id": "C319", "title": "Quantile forecasts: back-testing equals live use", "statement": "With non-negative feature lags and only generated features, the quantile forecasts of a fitted LinearForecaster for a row of the transformed frame are the last ones of the pipeline when it is given only the raw data up to the time of that row.", "quantifier": "all frames, formatters, fitted forecasters and rows", "why_tests_cant": "all rows and truncations", "anchors": ["pyforecaster/formatter.py: Formatter.transform", "pyforecaster/forecaster.py: LinearForecaster._predict_quantiles"]}
{"id": "C320", "title": "Order in which transformations are added", "statement": "If all transformations and targets of a Formatter refer to columns of the raw frame, the order in which they were added does not matter: transform succeeds in one order iff in the other, with the same rows kept and the same features and targets, only the columns come in another order. A transformation of a generated feature must come after the one generating it; placed first, transform raises AssertionError.", "quantifier": "all frames, formatters and orders", "why_tests_cant": "all orders of all lists of transformations", "anchors": ["pyforecaster/formatter.py: Formatter.add_transform, Formatter.transform, Formatter._transform, Transformer.transform"]}
{"id": "C321", "title": "Order of features, targets and rows of the linear forecaster", "statement": "LinearForecaster does not depend on the order of the feature and target columns: with the columns in another order at fit and prediction all forecasts are the same, target by target, for kind linear (no feature being a combination of the others) and for kind ridge, whose penalty is the same too. Without val_ratio the order of the training rows does not matter either: the coefficients are the same.", "quantifier": "all data, orders of features and rows, targets and (for the features) validation ratios", "why_tests_cant": "all orders, and any correct regression routine", "anchors": ["pyforecaster/forecaster.py: LinearForecaster.fit, LinearForecaster.predict"]}
{"id": "C322", "title": "Least squares forecasts with redundant features", "statement": "For LinearForecaster of kind linear, whether or not features are combinations of one another (as with augment and lag 0), the forecast for a row of features is the same for every correct least squares routine exactly if the row is a weighted mean (weights of any sign, summing to one) of the training rows. Features that are combinations of others, on the training rows and on the row to forecast, change no forecast.", "quantifier": "all data, rows, routines and redundant features", "why_tests_cant": "a statement about all routines, and a characterisation of when they may differ", "anchors": ["pyforecaster/forecaster.py: LinearForecaster.fit, LinearForecaster.predict"]}
{"id": "C323", "title": "Training errors of the linear forecaster", "statement": "On the rows it was trained on, LinearForecaster of kind linear has, for every target, squared errors not above those of any other linear forecast, of any single feature used as forecast (persistence) and of any constant (the mean); adding features never increases the squared errors on these rows. On other rows it can be worse.", "quantifier": "all data, targets, features and subsets of features", "why_tests_cant": "all data and all competing forecasts", "anchors": ["pyforecaster/forecaster.py: LinearForecaster.fit, LinearForecaster.predict"]}
{"id": "C324", "title": "Order of transformations, up to the forecasts", "statement": "If all transformations and targets of a Formatter refer to raw columns and generate distinct names, the order in which they were added has no effect on a LinearForecaster trained on its output: it can be fitted in one order iff in the other, and for any newer raw data with the same columns both pipelines refuse with ValueError or give the same forecasts for the same rows under the same target names; the check of feature names by scikit-learn always passes.", "quantifier": "all raw data, formatters, orders of transformations and targets, later data; kinds linear and ridge", "why_tests_cant": "all orders and data, any correct regression routine", "anchors": ["pyforecaster/formatter.py: Formatter.add_transform, Formatter.add_target_transform, Formatter.transform", "pyforecaster/forecaster.py: LinearForecaster.fit, LinearForecaster.predict"]}
{"id": "C325", "title": "Convexity of the parts of the latent network", "statement": "LatentStructuredPICNN without bounds, after reproject_weights, for any depth, width and exogenous input: the embedding is convex in the controls, the forecasts are convex in the embedding and the controls reconstructed from an embedding are convex in it. Hence a cost that is a non-negative combination of the forecasts has no local minima in the embedding but the global ones. With bounds all three are quasi-convex: between two points no value exceeds the larger of the two.", "quantifier": "all parameter dictionaries the projection accepts, depths, widths, inputs, controls, embeddings", "why_tests_cant": "all weights and all pairs of points", "anchors": ["pyforecaster/forecasting_models/neural_models/ICNN.py: LatentStructuredPICNN, PICNNLayer, reproject_weights"]}
{"id": "C326", "title": "Values of binned features with nested=False", "statement": "For a Transformer with decreasing agg_bins and nested=False: without missing values each column holds, lag-major, then function, then bin, the aggregation over the samples its label names, but only from the row on at which the largest bin is covered, and nothing in the last (largest - smallest border - 1) rows, where nested=True has values; so Formatter.transform, which drops rows with missing values, never keeps the latest observation once the bins reach over more than one row. With missing values a column holds something only at rows followed by a full run of observations, never reads rows later than its label says, and reads earlier rows than it says unless all rows back to lag + largest border - 1 rows before begin a full run. Transforming raises ValueError exactly if no run of observations is as long as the bins reach or the list of lags is empty. Reducer puts every position in the bin between whose borders it lies, and a position at the last border in the last bin.", "quantifier": "all variables with any missing values, decreasing natural borders, functions, lags; relative or not", "why_tests_cant": "all patterns of missing values, borders and lags", "anchors": ["pyforecaster/formatter.py: Transformer.__init__, Transformer.transform, Reducer.reduce"]}
{"id": "C327", "title": "Metadata of binned features with nested=False", "statement": "With nested=False and a single lag (or none) the metadata columns function, lag, start_time and end_time are right for all bins and functions; with two increasing lags and at least two bins or two functions the times of the second column are not those of its label.", "quantifier": "all functions, bins, lags and sampling times", "why_tests_cant": "all numbers of lags, bins and functions", "anchors": ["pyforecaster/formatter.py: Transformer.transform"]}
{"id": "C328", "title": "Picture of a fold", "statement": "Formatter.print_fold tells skipped, training and test rows apart. Without skipped rows it raises ValueError exactly below 100 rows, else the picture has 100 to 199 glyphs. With skipped rows whose mask changes at least twice it never raises, and the distance of the drawn rows lies between the shortest and the longest distance of neighbouring changes. In all cases the i-th glyph is that of row i times the distance.", "quantifier": "all pairs of masks of the same length", "why_tests_cant": "all lengths and masks", "anchors": ["pyforecaster/formatter.py: Formatter.print_fold"]}
{"id": "C329", "title": "Plots saved during training", "statement": "NN.fit draws from the global numpy generator as it goes: the order of the rows at the start of every epoch, validation rows at every evaluation and, with savepath_tr_plots, nine more rows from the second evaluation on. With or without plots, the result is that of training with one order per epoch and one set of validation rows per step, each drawn from the generator. The first epoch trains on the batches of the first order drawn, plots or not, cut short only by early stopping. Plots make no difference to the trained network when training takes at most 2*stats_step+1 steps, nor in a single epoch with batches at least as large as the validation set. With two epochs they can give another network from the same seed.", "quantifier": "all training data, generators, states of the generator, losses and training steps", "why_tests_cant": "all generators and states, relating two runs", "anchors": ["pyforecaster/forecasting_models/neural_models/base_nn.py: NN.fit, NN.training_plots"]}
{"id": "C330", "title": "More trials of the random search", "statement": "From the same state of the random generator, the parallel search of tune_hyperpars with more trials never ends with parameters that score worse, as long as no trial raises or scores NaN; if the best scores are equal, the parameters are the same.", "quantifier": "all classes, frames, hyper-parameter limits, numbers of trials and random numbers", "why_tests_cant": "relates two searches for all random numbers", "anchors": ["pyforecaster/forecasting_models/holtwinters.py: tune_hyperpars, fit_sample"]}
{"id": "C331", "title": "HoltWinters.rand_search", "statement": "rand_search succeeds exactly with a positive optimization_budget. If no candidate gives NaN it sets the candidate with the least error, and a larger budget never gives a larger error. It restarts the global random generator: the numbers drawn after it depend on the budget only, not on earlier seeds, draws or data.", "quantifier": "all generators, states, budgets and errors", "why_tests_cant": "all generators and states, relating two searches", "anchors": ["pyforecaster/forecasting_models/holtwinters.py: HoltWinters.rand_search"]}
{"id": "C332", "title": "Scenarios drawn twice with the same random_state", "statement": "Two calls of predict_scenarios with the same random_state should return the same scenarios. They fail in the same way or return scenarios of the same number and length whose values differ by exactly the difference of the noise added from the global generator (1e-9 times normal numbers, and 1e-6 times uniform ones at an additional node): equal exactly where the same noise is drawn, and within twice the largest noise.", "quantifier": "all quantiles, levels, samples of the copula and noise", "why_tests_cant": "relates two calls for all draws", "anchors": ["pyforecaster/scenarios_generator.py: ScenGen.predict_scenarios, ScenGen.sample_scenarios"]}
{"id": "C333", "title": "BrutalRegressor shrinks the level of its targets", "statement": "A regressor should follow the level of its targets: shifted targets should shift the forecasts as much, and constant targets should be forecast as that constant. Every stage of BrutalRegressor uses the first feature whose stage has the smallest squared error in the bootstrap rows, if all these errors are numbers. With the same bootstrap draws, BrutalRegressor trained on a*y+c chooses the same features, raises the same exceptions, gives NaN for the same rows, and otherwise forecasts a times the former forecast plus c*(1-(1-learning_rate)^n_iter). So constant targets c are forecast as c*(1-(1-learning_rate)^n_iter), strictly below c, and as about 65.1 % of c with the defaults.", "quantifier": "all rows, targets, bootstrap draws, cuts, learning rates, numbers of iterations and nonzero factors", "why_tests_cant": "relates two trainings for all data and draws, by induction over the iterations", "anchors": ["pyforecaster/forecasting_models/random_fourier_features.py: BrutalRegressor.fit, one_level_fit, predict, fit_feature, compute_coeffs"]}
{"id": "C334", "title": "Rows that ExponentialSmoothing forecasts", "statement": "ExponentialSmoothing should forecast every row of the frame it gets. With equal steps shorter than a day, and three rows or more, it does. With fewer than three rows predict and fit raise. With increasing times whose steps differ, as in hourly data with a row missing, the forecasts are daily from the first time on: they are made from the rows at whole days after the first one alone, with NaN where there is none, and the other rows get no forecast. Such a frame of less than two days cannot be used to fit.", "quantifier": "all times, values, models and forecast lengths", "why_tests_cant": "for all patterns of missing rows", "anchors": ["pyforecaster/forecasting_models/statsmodels_wrapper.py: ExponentialSmoothing.fit, ExponentialSmoothing.predict, get_forecasts"]}
{"id": "C335", "title": "Units of the features of BrutalRegressor and rows beyond the training data", "statement": "Multiplying features by positive factors and adding constants to them, in training and prediction alike and differently for every feature, changes nothing: BrutalRegressor raises the same exceptions, gives NaN for the same rows and the same forecasts otherwise. It does not extrapolate: two rows that differ only in features at or above the largest training value, or below the smallest, get the same forecast.", "quantifier": "all rows, targets, bootstrap draws, numbers of bins, learning rates, factors and constants", "why_tests_cant": "relates trainings on all data, by induction over the iterations", "anchors": ["pyforecaster/forecasting_models/random_fourier_features.py: BrutalRegressor.fit, one_level_fit, predict, fit_features"]}
{"id": "C336", "title": "Squared error of BrutalRegressor over its iterations", "statement": "Every iteration should lower the training error. In its own bootstrap rows it does: the sum of squares of the residuals falls by learning_rate*(2-learning_rate) times that of the values of the stage, so for a learning rate between 0 and 2 it never grows, and stays the same only if the stage is 0 in all these rows. Over all training rows the error can grow, for every learning rate other than 0, every feature and all cuts.", "quantifier": "all rows, residuals that are numbers in the bootstrap rows, bootstrap draws with repetitions, cuts, features and learning rates", "why_tests_cant": "an identity for all data and draws, from means of bins being projections", "anchors": ["pyforecaster/forecasting_models/random_fourier_features.py: BrutalRegressor.fit, compute_coeffs, linear_response"]}
{"id": "C337", "title": "NaN residuals spread in BrutalRegressor", "statement": "A training row outside the bins of a bootstrap sample should do no harm to other rows. A stage without a value for a training row makes its residual NaN for good. As soon as such a row is drawn for a later stage, the scores of all features are NaN and the first feature is used whatever the data; that stage, and every forecast of the fitted object, is NaN for all rows in the same bin of the first feature.", "quantifier": "all rows, targets, bootstrap draws, cuts, learning rates and rows to forecast", "why_tests_cant": "for all draws and iterations, by induction", "anchors": ["pyforecaster/forecasting_models/random_fourier_features.py: BrutalRegressor.fit, one_level_fit, predict, compute_coeffs, fit_feature"]}
{"id": "C338", "title": "The noise FK_multi estimates", "statement": "After any sequence of fits and predictions of a new FK_multi its noise matrices should be covariances that reflect the data. They are those given, or NaN, or a correlation matrix (symmetric, ones on the diagonal, entries between -1 and 1, positive semidefinite) and ten times the same matrix; a fit on more than m rows leaves nothing of r and q. The weights of the experts sum to one, so the matrix of the first fit is singular, annihilating a vector with positive entries; with two experts it is [[1,-1],[-1,1]] whatever the data.", "quantifier": "all experts, frames, sequences of calls, parameters and pseudo-inverses", "why_tests_cant": "an invariant of all executions, by induction over calls and rows", "anchors": ["pyforecaster/forecasting_models/fast_adaptive_models.py: FK_multi.run, FK_multi.fit", "pyforecaster/utilities.py: kalman"]}
{"id": "C339", "title": "Covariance of the FK_multi filter with singular noise", "statement": "Although the noise matrices FK_multi estimates are singular, so that the update needs a pseudo-inverse, after any sequence of fits and predictions of a new object (r and q at least zero) the covariance is symmetric positive semidefinite. In every step it is at most the correctly updated covariance, which is at most the prior, and no variance grows by more than the process noise of that weight.", "quantifier": "all experts, frames, sequences of calls, parameters and pseudo-inverses", "why_tests_cant": "an invariant of all executions, by induction over calls and rows", "anchors": ["pyforecaster/utilities.py: kalman, kalman_predict, kalman_update", "pyforecaster/forecasting_models/fast_adaptive_models.py: FK_multi.run"]}
{"id": "C340", "title": "Covariance and noise matrices of the FK filter", "statement": "After any sequence of fits and predictions of a new FK (r and q at least zero) whose noise matrices hold no NaN, the covariance of the coefficients is symmetric positive semidefinite, and the noise matrices are either those given or a correlation matrix (symmetric, unit diagonal, entries in [-1, 1], positive semidefinite) and a hundredth of it. In every step the covariance is at most the correctly updated one, and no variance becomes negative or grows by more than the process noise of that coefficient.", "quantifier": "all bases, series, sequences of calls, parameters and pseudo-inverses", "why_tests_cant": "an invariant of all executions, by induction over calls and samples", "anchors": ["pyforecaster/utilities.py: kalman", "pyforecaster/forecasting_models/fast_adaptive_models.py: FK.run, FK.predict"]}
