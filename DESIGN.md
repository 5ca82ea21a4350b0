# Formal model of pyforecaster

The model is written in Lean 4 under `lean/Verif/`. Nothing of the Python code is executed; the
definitions are hand-written shallow transcriptions of the functions, each citing its file and lines.

## Trusted base

* Lean 4.33.0's kernel (and Mathlib's statements of the standard notions used in the specs).
* Axioms: at most `propext`, `Classical.choice`, `Quot.sound`. No others, no `sorry`, no `native_decide`.
* The faithfulness of the hand transcription (see "What is modelled" per component).
* Numbers: Python/numpy floats are idealised as exact rationals (`ℚ`) or reals (`ℝ`); rounding,
  overflow and signed zeros are not modelled. NaN is modelled as `none` where it matters.
* Library functions of numpy/pandas/scipy/sklearn/networkx are modelled by their documented behaviour.
* Random number generators are oracles: arbitrary functions restricted only by the documented contract
  of the call (e.g. "`choice(pos, size=k, replace=False)` returns k distinct elements of pos").
* Third-party regressors (LightGBM, sklearn, jax/optax) are arbitrary functions.

## Layout

`Verif/<Component>/Model.lean` code transcription; `Spec.lean` specification vocabulary; `Lemmas.lean` helpers;
`Props.lean` the property theorems with concrete instances.

## Plan per property

- **C01 Row cap is exact** — Subsample: rows as positions; multinomial/choice as oracles with contracts (sum = m; duplicate-free sublist of given size). Invariant on the deficit loop, then count.
- **C02 Subsampled features and targets stay aligned and time ordered** — Subsample: stable merge sort by index value on positions; sortedness + permutation + stability.
- **C03 Hour-stratified allocation** — Subsample: deficit loop as a fuel-free well-founded recursion; invariant alloc ≤ counts; witness for the missing hour.
- **C04 Inactive row cap changes nothing** — Subsample: decision function with exceptions as values, full characterisation.
- **C05 Error quantiles are bounded by the errors and monotone in the level** — Quantile: numpy 'linear' quantile over ℚ on a sorted list; monotone/bounded by piecewise linear interpolation.
- **C06 Error distribution conditions on the hour only when it can** — Quantile: err_distr as function of list of (hour, err); non-interference.
- **C07 Predicted quantiles never cross** — Quantile: elementwise model of _predict_quantiles; corollary of C05/C06.
- **C08 Quantile prediction with conditional_to_hour=False** — Quantile: same function with the ndarray branch; exact characterisation and witness.
- **C09 Quantile frame and array are the same data** — Reshape: row-major flattening, index arithmetic.
- **C10 QRF quantile array layout** — Reshape: QRF permutation; iff theorem.
- **C11 predict_pmf is a sub-probability** — Pmf: np.histogram counting with half-open bins, last closed.
- **C12 Train/validation split is a tail split** — Split: take/drop.
- **C13 Categorical codes are stable over the life of a forecaster** — Encode: encoder dictionary state machine over call histories.
- **C14 A failing categorical call may leave the caller's frame half encoded** — Encode: frame mutated column by column, exceptions as values carrying the frame.
- **C15 Refitting a LightGBM forecaster** — Refit: model list as state machine over fit histories.
- **C16 Hyper-parameter get/set** — Params: attribute dictionary model.
- **C17 Lagged features read exactly the stated sample** — Transform: columns as functions of row; shift.
- **C18 Aggregated features read exactly the stated window** — Transform: rolling window as list slice.
- **C19 No look-ahead through features, no look-back through targets** — Transform: agreement up to t implies equality.
- **C20 Metadata time windows describe the samples used** — Transform: metadata arithmetic against sample set.
- **C21 Binned features with several lags are mislabelled** — Transform: two orders of the cartesian product; witness + conditional.
- **C22 Lag column names are unique and recoverable** — Names: string model, digits of integers; injectivity.
- **C23 Human-readable time deltas are faithful** — Names: hr_timedelta string model.
- **C24 Row filtering keeps features and targets aligned** — Fmt: filter over Option rows.
- **C25 Normalisation round trip** — Normalize: iterated pointwise functions; left inverse by induction.
- **C26 Cross validation folds separate train from test** — Kfcv: integer (ns) time arithmetic; masks.
- **C27 Cross validation covers every row** — Kfcv: coverage by discrete intermediate value on fold edges.
- **C28 Cross validation deadband does not account for look-ahead** — Kfcv: leak witness and separation theorem.
- **C29 Step-ahead pruning keeps only allowed features** — Prune: decision logic on metadata; the consequences are stated on the columns of the returned frame (Prune/Cols).
- **C30 Calendar features** — Calendar: integer time arithmetic, sticky flag state machine.
- **C31 Holiday flag precedence** — Calendar: ordered rule application.
- **C32 Global-form reshaping loses nothing** — GlobalForm: list reshape.
- **C33 Hankel windows** — Hankel: list windows.
- **C34 Persistence forecast** — Bench: persistent.
- **C35 Seasonal persistence is shifted by one** — Bench: seasonal persistent; negation + corrected.
- **C36 Discrete distribution benchmark** — Bench: counting distribution over ℚ.
- **C37 Holt-Winters predictions do not depend on how calls are split** — HW: state fold; append law.
- **C38 Holt-Winters is exact on perfectly seasonal data** — HW: invariant by induction.
- **C39 Holt-Winters seasonal values respect constraints** — HW: clip invariant.
- **C40 One missing observation poisons Holt-Winters** — HW: Option arithmetic for NaN; absorbing.
- **C41 Statsmodels wrapper alignment** — Statsmodels: abstract results object (forecast, append that may fail, apply) folded over the rows; time stamps of append/apply as a contract (`Timed`, `Lawful`).
- **C42 Recent-history windows** — FastAdaptive: last m of append.
- **C43 Expert combination stays inside the envelope** — FastAdaptive: convex combination.
- **C44 Kalman gain shrinks the error covariance** — Kalman: Mathlib matrices over ℝ, PosSemidef.
- **C45 Predict does not advance the learned state** — FastAdaptive: predict purity.
- **C46 Scenario reduction keeps total probability** — Scenred: the while loop as a fuelled recursion; invariant `Inv` (representatives `own`) gives probabilities as fibre cardinalities.
- **C47 Scenario reduction meets the requested node counts** — Scenred: `loop_card` by induction on the fuel under `Spread`; minimum by induction over the steps.
- **C48 Merged scenarios share their past** — Scenred: invariant `Inv`/`Refines`, `after_inv`.
- **C49 Tree node probabilities are conserved** — Scenred/Network, NetProps: `addPoints_eq` (first occurrence per value), `Tree` invariant over times; fibre sums.
- **C50 Scenario paths run from root to leaf** — Scenred/TreeProps: chain of parents is increasing, induction on the label.
- **C51 Superimposing a forecast on a tree** — Scenred/TreeProps: fold over the distinct times.
- **C52 Quantile base tree is well formed** — Tree: base tree shape.
- **C53 Last-step scenario values do not influence the quantile tree** — Tree: non-interference.
- **C54 Scenario interpolation** — ScenGen: interp1d as sort, bracket and line over any ordered field; brackets by counting.
- **C55 Copula samples are ranks with the requested shape** — ScenGen: arrays with shapes, squeeze / expand / swap / broadcast as functions; loop over hours by induction.
- **C102–C106** — ScenGen: broadcast test of the diagnostic; argmax of a sorted list; call-independent generator; loop over the 24 hours; frame indexing.
- **C56 Pinball loss is a proper score** — Metrics: loop over levels; minimality by comparing with the nearest observation on each side (subgradient counts).
- **C57 Reliability** — Metrics: means of indicators, monotone pointwise.
- **C58 Point metrics** — Metrics: tables over ℚ, roots over ℝ; groupby-mean specified by sums over positions.
- **C100 Layout of quantile arrays**, **C101 rmse scorer** — Metrics: same definitions; the scorer for 2-d targets only (a Series has no columns attribute and is refused by Python).
- **C59 Cross-validation score table** — Trainer: exceptions as values.
- **C68 Neural training loop** — NNTrain: the two loops over any training step, loss and permutations; invariant relating recorded losses, evaluation times and parameters, preserved by the loop body.
- **C69 Saving and loading networks** — SaveLoad: objects as class dictionaries and instance dictionary, opaque values with a partial copy; save described by an iff; reloading for any architecture and computation that only look at saved names; tables of names per class.
- **C70 Partially input-convex network is convex in the controls** — ICNN: network as a recursion over any list of layers read from the projected dictionary; convexity by induction over layers (relu and softplus convex and increasing), bounds give quasi-convexity.
- **C71 Monotone networks are monotone in the controls** — ICNN: induction over layers from non-negative projected weights; witness for augmented controls.
- **C72 Causal invertible embedding** — INN: layers over the reals with the coded kernel (tanh of a row-major lower triangle), forward substitution for solve_triangular; induction over layers; exact description of the activation near zero.
- **C73 Weight projection** — ICNN: parameter dictionary with layers and modules of layers; pointwise description against a separate list of constrained places.
- **C74 Boosting residual invariant** — Boost: fold invariant.
- **C75 LSTM windows** — Lstm: arrays of fit and predict as list slices, scalers, training and network as parameters; closed form of predict, from which look-ahead, prefix and newest-row statements follow.
- **C76 QRF shape**, **C77 clone**, **C78 BrutalRegressor** — Reshape / Params / Boost, same models as C10, C16, C74.
- **C79 Frozen aggregation step** — Transform: `agg_freq` as state (`Agg`), idempotence on one grid, witness family on a coarser grid.
- **C80 Parallel branch** — Transform: `mapPar` against `applyAll`; equality under "names in the input", exception otherwise.
- **C81 Serving equals training** — Fmt: two calls of `transformX` on the same frame, rowwise equality.
- **C82 Global-form series do not influence each other** — GlobalForm on top of Fmt: formatter state carried through the loop, idempotence on one grid.
- **C83 corr_reorder** — GlobalForm: stored order as state; iff for all rows.
- **C84 Integer target column**, **C85 HoltWintersMulti**, **C86 Error table**, **C87 Refit** — HW: `store` truncation invariant; fill loop with the two `k` updates; least-squares identity; replay law by `runLoop_append`.
- **C52, C53, C96 quantile tree** — TreeBuild/Props: closed form of the node list (offsets, integer division for parents), then arithmetic; C53 is a two-run simulation plus a state invariant over the visited nodes.
- **C59 score table**, **C107 labels**, **C108 trained object** — Trainer: abstract class (clone, fit, score), labels as integers or time stamps, folds as positions or masks, lists or generators; induction over folds and trials.
- **C60–C64 reconciliation**, **C109 bayes**, **C110–C111 scenarios**, **C112 levels** — Recon: hierarchies as association lists with fuelled recursion (fuel = recursion limit) against inductive `Below`/`Path`; real matrices indexed by aggregates ⊕ bottom series; normal equations; frames as labelled rows.
- **C65–C67 chunking, parallel map, memory**, **C113 labels**, **C114 floats** — BigData: cut points ⌊s·N/n⌋ and any monotone points; frames as labels + index + rows; pieces in closed form and flattening lemma; integer types by two's complement wrap; 32 bit conversion as a contract.
- **C115 shapes of convex networks, C116 quasi-convex network, C117 latent network** — ICNN: broadcasting of the elementwise products is explicit; the Jacobian-vector product is the derivative along the direction; witnesses are concrete weights.
- **C118 NaN losses, C119 batch sizes, C120 stopping_rounds** — NNTrain: same loop; C120 compares two runs step by step under the invariant that recorded losses never rise before the stop.
- **C121 latent layer counts, C122 quantiles after reload, C123 inverter rate, C124 set_params** — SaveLoad: consequences of what is not saved and of the order of the constructor.
- **C125 other activations, C126 decoding, C127 constructor, C128 exogenous columns** — INN: exactness of each coded inverse by iff; the decoding step of predict with a perfect predictor; the constructor as attribute lookup.
- **C129 validation split, C130 units** — Lstm: split index, overlap of targets in the arrays (Lstm/Overlap); scaling equivariance of fit followed by predict.
- **C131–C135 quantiles of probabilistic networks** — NNQuant: loss, predict and predict_quantiles per output column over ℝ, normal quantile function as a parameter with its laws; shapes of StructuredPICNN.predict.
- **C136–C138 optimising controls** — NNOpt: the block loop over an arbitrary objective and optimiser, by induction on blocks; frame write-back for one row.
- **C139–C140 causal table** — NNOpt: penalty from an arbitrary Jacobian; keyword binding of the loss.
- **C141–C146 gradient boosting hybrids** — Hybrid: fit and predict of LGBMHybrid and LGBEnergyAware over an arbitrary regressor; exactness for interpolating regressors by induction over steps, failure cases from the shape of predict.
- **C147–C151 formatter leftovers** — FmtNorm: feature side of normalize/denormalize on top of Normalize (counting passes), add_target_normalizer as a case analysis, get_time_lims as min/max over windows, frequency strings by induction over the string.
- **C152–C157 hyper-parameter search** — Tune: forecaster class as a record of functions; keyword dictionary threaded through the sequential search, copied in the parallel one; argmin with NaN; score as a double Finset sum via the Hankel windows; 0.7*n rounded to 53 bits; objects and HoltWintersMulti as state machines.
- **C158–C161 constructor keywords** — Ctor: keyword dictionaries as functions from strings, each constructor as binding of named parameters and passing on of the rest; congruence lemmas for unknown names; FK_multi as rebuilding of experts from dictionaries.
- **C162–C164 utilities** — Utils: arrays as functions of three positions with sizes, frames with the stored level sizes; reshape as division of positions in digits; frequencies over the exact DFT (sums of powers of roots of unity), argsort as a parameter.
- **C165–C170 summary scores** — Summary: cells `Option ℚ`; the loops thread the caller's frame as state; reduction to loops without state (`pureMetrics`), then non-interference and closed forms; `pd.qcut` from the quantile model of C05.
- **C171–C175 random Fourier features** — Rff: regressor as a state machine (matrix, biases, regression, number of draws), invariant over call sequences; least squares by its optimality (a concrete one-feature instance in Examples); ORF blocks as Mathlib matrices, the counterexample being a Householder reflection.
- **C176 bootstrap** — Boot: draws as a list of label lists; last row of the summary; `loc` with repeated labels.
- **C177–C181 quantile random forest** — Qrf: forests as oracles with the axis-squeezing contract of `quantile_forest`; fit, predict, dstack, swap, reshape; spec (Spec.lean) says which forest forecasts which step. Argument dictionaries as association lists.
- **C182–C187 inputs and outputs of networks** — NnIo: frames with named columns, scaler with the name check of scikit-learn, histories of fits; sizes of layers; constructor keywords through the Ctor chain.
- **C188–C190 scores of a hierarchy** — Kpi: arrays by position with the two column orders (sorted, hierarchy), frames by label, averages per level, column labels of quantile frames.
- **C191–C195 hyper-parameter search** — Hyper: trials as successive `set_params` on one object of `Params`, clones per fold, optuna's sampler as an oracle of the history; induction over trials; default spaces by class name; dense ranks and spreads.
- **C196–C198 refinement of a tree** — Refine: greedy acceptance as folds with an invariant, candidates as an oracle, writing values back by node order; median optimality for absolute distances from the counts of C05.
- **C199–C203 training losses** — Losses: exact reals; argsort as `Tuple.sort`; local constancy from strict inequalities; the penalty by x − 1 − log x ≥ 0.
- **C204–C208 FK_multi** — FkRun: the loop with swallowed exceptions, NaN as `none`; invariants of the loop over the rows; the experts' window from C42.
- **C209–C211 optimisation in the latent space** — LatOpt: blocks of ten passes as an iterate, the whole run as a trajectory with memory reset every ten steps; histories of calls with the compiled function as part of the object.
- **C212–C213 default numbers of nodes of a tree** — TreeInit: powers of two picked along any progression rounded from the logarithmic one; combined with TreeBuild (C52) for buildability.
- **C214–C215 reliability on the fitted rows** — Insample: composition of the models Quantile and Metrics; number of errors strictly below an interpolated quantile.
- **C216–C219 predict_trees** — PredTrees: `ScenarioGenerator.predict_trees` and `ScenGen.predict_trees` with the state a tree builder keeps between calls (learning rate, numbers of nodes); scenarios of ScenGen, trees of Scenred, NaN as `⊥`. The body of a builder is a parameter. State after an exception is not modelled.
- **C220–C221 scenarios from past errors** — RecScen: masks as filters by hour, the block of an hour drawn with `np.random.choice` as an oracle, assignment through the mask by recursion over the rows; induction over the 24 hours. Column names play no role in the code and are not modelled.
- **C222–C223 copies and states of adaptive forecasters** — Pickle: objects as a dictionary of states and a dictionary of attributes, Python's copying protocol as documented; induction over histories; predictions from Fast.
- **C224–C227 loss and training of a DiffTree** — TreeLoss: the loss over any ordered field as sums of minima, jax's derivative of a minimum (equal shares of ties) and the chain rule as the gradient; fed into `diffTree` of TreeBuild. Descent by majorisation with the weights of the ties; the root by its linear recursion; true derivative over ℝ by local constancy of the nearest path.
- **C228–C229 default reconciliation** — ReconCov: scikit-learn's shrunk covariance as a quadratic form (variance of a combination plus a penalty), pseudo-inverse known by Penrose's equations; positive definite exactly if some error varies; optimality by the Gauss–Markov argument.
- **C230–C233 plotting utilities** — Plots: limits, frames, ticks and labels as functions of sizes and values, `pd.cut` on increasing edges; drawing itself is not modelled.
- **C234–C237 start trees and initial values** — TreeGen: `gen_tree` of the builders as functions of the start tree; results depend on shapes only (congruence of every helper under equal times and parents), range by the quantile bounds of C53; symmetric training as an invariant of the descent.
- **C238–C240 rows served together and alone** — Serve: the masked additions of `_predict_quantiles` as a loop over the hours, invariant of the hours already treated, refinement of the row-by-row model of Quantile; SeasonalPersistent on frames of one row and on its own training data.
- **C241–C243 losses of the invertible network** — InnLoss: the three losses of INN.py and the forecasts served by predict, on top of INN (embedder) and Losses (KL penalty, mean squared error); the prediction head is any function.
- **C244–C247 sampling time, gaps, cells** — Sampling: the median step of an index, `shift` and time-based `rolling` on an index with missing rows (Transform has the regular grid), cells and frame layout of DiscreteDistr on top of Bench (C36).
- **C248–C250 forwarding of constructor arguments** — Forward: Python call binding, and signature, assignments and base call of 37 constructors as data; a source analysis of attributes proved right for all calls (`src_sound`) and acceptance of calls (`run_ok_iff`). Ctor (C158, C159) follows the keywords further into the scenario generator.
- **C251 linearity of Fourier_es** — Fast/Linear: the combination of two runs is a run, by induction over the steps (states, windows and rows).
- **C252–C254 the latent network** — LatNet: values of encoder, decoder and predictor on the layers of ICNN, and widths with `probabilistic` and array bounds. C252 and C253 from the last layer, C254 by a closed form of the loop over layers.
- **C255–C257 change of units** — HW/Linear: the relation `Comb` (entrywise combination, same missing entries) is kept by every operation of the loop, by `run`, `reinit`, `fit` and `predict`; closed form of the level inside the first period by induction. Quantile/Units: order statistics of scaled and mirrored samples.
- **C258–C259 forecasters with a normalising formatter** — Denorm: `anti_transform` in `fit` and at the end of `predict` by class, models and networks as arbitrary functions; proved from the round trip (C25) and acceptance (C148) of the formatter.
- **C260–C261 the filter inside FK** — FkUnits: `update_predictions` and `run` over ℝ with the Kalman step, `corrcoef` and the stored columns, `pinv` arbitrary; proved by a scaling of states that commutes with every step, and by following a filter that has seen zeros only.
- **C262 pinball loss on the fitted rows** — Insample: fitting, quantiles and `quantile_scores` on the same rows; proved with subgradients of the total loss at the interpolated order statistic.
- **C263 live forecasts and backtest** — Serve/Live: `Formatter._transform` (Fmt) followed by the quantile forecasts of a frame (Serve); proved from C81 and C238.
- **C264–C268 LinearForecaster** — Ols: least squares and ridge regression with unpenalised intercept, the penalty grid, its choice by leave-one-out errors and the split; the solver is a parameter assumed to return a minimiser (its existence for ridge is proved). Proved through the normal equations and their uniqueness.
- **C269–C271 trees and scenarios in other units** — ScenUnits: normalisation and distances in front of the reduction of Scenred; the reduction commutes with injective changes of the values; the interpolation of ScenGen is affine in the quantiles.
- **C272–C274 formatter under changes of units, times and columns** — FmtUnits: no new model; theorems on Transform and Fmt, by induction over the lists of transformers.
- **C275 observations of a tree** — TreeObs: `obs_at_step_t` (scenred L249-252) on the trees of Scenred; paths by induction.
- **C276–C277 views of the formatter** — FmtViews: `plot_dataset_at_stepahead`, `rename_features_prediction_time` (formatter L528-576); a picture is its list of bars.
- **C278–C280 LSTM forecaster** — LstmNet: `LSTMModule` and `LSTMNN.predict` (base_nn L148-188, L466-485, L547-565) over ℝ with the LSTM cell written out; parameters arbitrary, training not modelled.
- **C281 bidirectional LSTM** — LstmBidir: `_build_model` and the forecast of one window (LSTM_bidir L23-47, L119-120) over ℝ, on the cell of LstmNet.
- **C282 mapper** — Mapper: `mapper` (big_data_utils L13-24) against the keyword call of Python (`Binds`).
- **C283–C285 formatter and linear forecaster together** — Pipe: transform, fit, transform newer data, predict, on the models Fmt and Ols, with the input checks of scikit-learn; compositions of C272, C273, C81, C24 and C265.
- **C286–C288 feed-forward networks** — FfNet: FeedForwardModule (Dense, relu, LayerNorm, split heads, selector, skip connection) over the reals; the norm of a normalised layer is bounded, hence the band.
- **C289–C290 metrics in other units** — Metrics/Units, on the model of the metrics: homogeneity of averages, scores and quantiles.
- **C291 reconciliation in other units** — ReconCov/Units, on Recon and ReconCov: the shrunk covariance is multiplied by the square of the factor, and the matrix is unchanged by factors of the weights.
- **C292 random Fourier features** — RffKernel, on Rff: the random numbers are random variables with the distributions numpy promises; expectation by the characteristic function of the normal distribution, accuracy by the variance of independent sums.
- **C293–C294 calibration of scenarios** — Copula, on ScenGen and ReconCov: draws are random variables with normal marginals, `norm.cdf` is the distribution function of Mathlib's Gaussian measure; the event is carried back through interpolation and distribution function; matrices of `vanilla` and `shrunk` over the reals.
- **C295 share of scenarios** — Copula/Share: variance of a sum of pairwise independent events.
- **C296 distribution of scenarios from errors** — RecScen/Law: positions drawn are uniformly distributed random variables.
- **C297 convex networks before training** — ICNN/InitModel, Init: the new dictionary is a fixed point of the projection; then C70, C71, C73.
- **C298 size of the initial weights** — ICNN/InitMean: expectation of the absolute value of a normal variable.
- **C299, C300 plots of trees and scenarios** — TreePlot: points of the lines on the trees of Scenred; paths by C50.
- **C301 chances of rows** — Subsample/Fair: draws independent of the state left behind; induction over the strata; FairExamples constructs such a generator.
- **C302 smooth tree loss** — TreeLoss/SoftModel, Soft: weights decrease with the distance (Chebyshev's sum inequality).
- **C303 initial states of Holt-Winters** — HW/Gauge: simulation relation between two runs; closed form of the gap; witness for the constraints in GaugeExamples.
- **C304 sensitivity of feed-forward networks** — FfNet/Lipschitz: the layer norm is Lipschitz because of its epsilon (mean absolute deviation at most the standard deviation); induction over the layers.
- **C305 expectations over trees** — Scenred/Expect: ownership map of C48; costs of merges as an inductive relation; loop invariant for the spent tolerance.
- **C306 shifted and overlapping folds** — Kfcv/Overlap: floor inequalities on `date_range`.
- **C307 bootstrap on average** — Boot/ExpectSpec, Expect: averages over functions factor over coordinates; second moments of sums.
- **C308 coverage of new observations** — Quantile/Coverage: ranks among all the rows; the counting specification of empirical quantiles (C05).
- **C309 meaning of crps** — Metrics/EnsSpec, Ens: score of a discrete distribution as spec; Gini mean difference of sorted values by induction.
- **C310 Kalman filter of a constant** — Kalman/Scalar: the matrix model at size one; recursion of the precision; induction over the observations.
- **C311 chance of the random search** — Tune/Chance: C152 reduces success to one good trial; counting of functions.
- **C312 a perfect expert is never followed alone** — FkRun/Cap: Jensen and the chord of exp bound the softmax of errors of mean one; the filter with multiples of the identity takes convex combinations; invariant of the loop.
- **C313 pmf of the quantile forest** — Pmf/QrfModel, QrfProps: predict_pmf on arrays composed with the conversion of C10; counting inside the bins (C11).
- **C314 FK_multi in other units** — FkRun/Units: the softmax of errors divided by their mean is free of units; simulation of the loop and of sequences of calls.
- **C315 loss of a probabilistic structured network** — Losses/Prob*: ICNN.py L42-53 and the likelihood branch of base_nn.py L48-57; minimiser of e/s + log s on a half line, range of the ordering term from C199.
- **C316 columns chosen as categorical** — CatSel: formatter.py L407-414; the number of distinct values as the cardinality of a set.
- **C317–C319 quantile forecasts of the pipeline** — PipeQ: forecaster.py L197-218, L313-321, L333-355 continued from Pipe; errors of the validation rows scale along, quantiles by homogeneity of the sorted sample, hours by a permutation.
- **C320 order of transformations** — FmtUnits/Order on the model of Fmt/Transform: columns generated in parallel commute up to a permutation, the mask of missing values is invariant.
- **C321 order of features, targets and rows** — Ols/Order on the model of Ols (forecaster.py L306-331): normal equations under a permutation, uniqueness of the solution; leave-one-out errors depend on the multiset of rows only.
- **C322, C323 redundant features, training errors** — Ols/Determined on the model of Ols: fitted values are unique, a linear functional separating a row from the span of the training rows gives a second best model; competing forecasts are models of the same class.
- **C324 order of transformations, up to the forecasts** — PipeOrd: Pipe with the names of the columns (forecaster.py L213, L334-349; name check of scikit-learn); C320 and C321 joined by the permutation the distinct names determine; trained transformers generate the same names on every later frame.
- **C325 convexity inside the latent network** — LatNet/Convex: non-negative `wz` of the three sub-networks from C73, the convexity lemma of ICNN for each; the cost over embeddings by the segment argument.
- **C326, C327 binned features with `nested=False`** — BinFlat: `Reducer`, the forward windows and the shifts among the kept rows (formatter.py L690-693, L748, L777-788, L799-811, L824-839, L851-864) for one variable; scipy's `binned_statistic` modelled by its documented borders; the columns equal a specification by rows beginning a full run; gaps in increasing lists for the stale values.
- **C328 picture of a fold** — FoldPic: formatter.py L478-492; slices by a step, the step bounded through the quantile bounds of C05.
- **C329 plots during training** — NNSeed: base_nn.py L341-440 with the state of numpy's generator threaded through; refinement to NNTrain, since the draws before a step depend on the number of the step only.
- **C330 more trials** — Tune/Budget: the trials drawn first are the same; from C152.
- **C331 rand_search** — HwSearch: holtwinters.py L249-275 with numpy's generator as a state; candidates as triples of consecutive numbers.
- **C332 scenarios drawn twice** — ScenGen/Repeat: two runs of `sample_scenarios` with the same copula samples and different noise.
- **C333 level of the targets in BrutalRegressor** — Brutal: the whole fit with the choice of features and NaN for empty bins; an affine change of the targets followed through scores, argmin, bins and residuals, by induction over the iterations.
- **C334 rows of ExponentialSmoothing** — EsFreq: `infer_freq`, `asfreq` and the index of the forecasts, on top of the loop of C41.
- **C335 units of the features of BrutalRegressor** — Brutal/Units: increasing affine changes keep the bins because the quantile cuts change along; features beyond the data have the bin of the edge.
- **C336 squared error of BrutalRegressor** — Brutal/Descent: sums over bootstrap rows taken bin by bin; the means of the bins are a projection.
- **C337 NaN residuals in BrutalRegressor** — Brutal/Spread: NaN is followed through bins, scores, argmin and residuals, by induction over the iterations.
- **C338 noise estimated by FK_multi** — FkRun/Noise: quadratic forms of the correlation matrix are sums of squares; invariant of the loop and of all calls; the weights of every row sum to one.
- **C339 covariance of the FK_multi filter** — FkRun/Psd: matrix identities for the gain with a pseudo-inverse (Joseph formula), then an invariant of the loop and of all calls together with C338.
- **C340 covariance of the FK filter** — FkUnits/Psd: the clip of `np.corrcoef` changes nothing since the quotient is a correlation matrix (C338); the matrix identities of C339, then an invariant of every reachable state.
- **C97–C99 NeuralGas, DiffTree** — TreeBuild/Gas: loops with oracle draws, gains, loss and gradient; consistency and interval invariants by induction over iterations.
- **C95 greedy** — Scenred/Greedy: reflexive transitive closure of a separately stated merge relation.
- **C92 stall**, **C93 tolerance mode**, **C94 labels** — Scenred/Props, NetProps, TreeProps: consequences of the loop lemmas; NaN of 0/0 is `none` and compares false.
- **C88 Fourier phase**, **C91 Nyquist** — Fast/Fourier: geometric sums of roots of unity give orthonormality of `get_basis`; exactness by induction over the loop; shift-invariant kernel for the phase law.
- **C89 Expert errors**, **C90 Long horizon** — Fast/Props: pointwise computation; slice bounds.

## What is modelled, per source file

Generated from the citations in the Lean files: for each file the components that transcribe it, the functions none of whose statements are transcribed, and the functions transcribed in part with the lines left out. Everything not listed is transcribed. Left out everywhere: logging, progress bars, plots, timing, imports and docstrings; estimators of sklearn, LightGBM, statsmodels, quantile_forest, jax and optax, which are parameters of the definitions.

| file | components | functions left out | transcribed in part (lines left out) | remarks |
|---|---|---|---|---|
| `big_data_utils.py` | BigData, Mapper | `f_test` | — | process pools are ordered maps |
| `copula.py` | Copula, Ctor, Forward, ScenGen | `GaussianCopula.fit`, `GaussianCopula.sample`, `ConditionalGaussianCopula.fit`, `ConditionalGaussianCopula.sample` | — | covariance estimation and the normal draws are parameters |
| `diagnostics.py` | — | — | — | a script with plots |
| `dictionaries.py` | Ctor, Hyper | — | — |  |
| `forecaster.py` | Bench, Ctor, Denorm, Encode, Forward, Hybrid, Insample, Ols, Params, Pipe, PipeOrd, PipeQ, Pmf, PredTrees, Qrf, Quantile, Refit, Reshape, ScenGen, Serve, Split, Subsample | `ScenarioGenerator.predict`, `ScenarioGenerator._predict_quantiles` | — |  |
| `forecasters_dictionaries.py` | — | — | — | one dictionary of classes |
| `forecasting_models/benchmarks.py` | Bench, Denorm, Forward, Sampling, Serve | — | — |  |
| `forecasting_models/fast_adaptive_models.py` | Ctor, Fast, FkRun, FkUnits, Forward, Pickle, Tune | `StatefulForecaster.run`, `Fourier_es._predict_quantiles` | `Fourier_es.reinit_pars` (194) |  |
| `forecasting_models/gradientboosters.py` | Denorm, Forward, Hybrid, Params, Refit, Serve | `LGBMHybrid.get_lgb_pars`, `LGBMHybrid.dataset_at_stepahead` | — | LightGBM is a parameter |
| `forecasting_models/holtwinters.py` | Ctor, Forward, HW, Hankel, HwSearch, Tune | `_reject_postfit_row_cap_kwargs` | — | plots and timing left out |
| `forecasting_models/identity.py` | — | `IdentityForecaster.__init__`, `IdentityForecaster.fit`, `IdentityForecaster.predict` | — | returns its input |
| `forecasting_models/neural_models/ICNN.py` | Forward, ICNN, LatNet, LatOpt, Losses, NNOpt, NNQuant, SaveLoad | `predict_batch_picnn` | `predict_batch_latent_picnn` (23-30), `StructuredPICNN.set_arch` (566-568, 574-577) | as base_nn.py |
| `forecasting_models/neural_models/INN.py` | Forward, INN, InnLoss, SaveLoad | `identity`, `CausalInvertibleNN.predict_quantiles`, `invert`, `embed` | — | as base_nn.py |
| `forecasting_models/neural_models/LSTM_bidir.py` | Forward, Lstm, LstmBidir | — | — | as base_nn.py |
| `forecasting_models/neural_models/base_nn.py` | Denorm, FfNet, Forward, LatOpt, Losses, LstmNet, NNOpt, NNQuant, NNSeed, NNTrain, NnIo, SaveLoad | `compute_mean_losses`, `train_step`, `predict_batch`, `LSTMNN.init_arch` | `NN.init_arch` (324-326) | flax initialisers, jax differentiation and optax are parameters |
| `forecasting_models/neural_models/layers.py` | ICNN, INN, LatNet | — | — | as base_nn.py |
| `forecasting_models/neural_models/neural_utils.py` | ICNN | `jitting_wrapper`, `identity` | — | as base_nn.py |
| `forecasting_models/random_fourier_features.py` | Boost, Brutal, Forward, Rff | `seed` | — |  |
| `forecasting_models/randomforests.py` | Denorm, Forward, Params, Pmf, Qrf, Refit, Reshape | — | — | `quantile_forest` is a parameter |
| `forecasting_models/statsmodels_wrapper.py` | EsFreq, Forward, Statsmodels | `StatsModelsWrapper.predict` | `StatsModelsWrapper.fit` (32, 41) | estimation inside statsmodels is a parameter |
| `formatter.py` | BigData, BinFlat, Binned, Calendar, CatSel, Fmt, FmtNorm, FmtViews, FoldPic, GlobalForm, Kfcv, Names, Normalize, Pipe, Prune, Sampling, Transform | `Formatter.__init__`, `Formatter.add_transform`, `Formatter.add_target_transform`, `Formatter.add_normalizing_fun`, `Formatter.add_normalizing_columns`, `Formatter.plot_transformed_feature`, `Formatter.cv_generator` | `Formatter.transform` (183-185, 205-207), `Formatter.cat_encoding` (395-405), `Formatter.global_form_postprocess` (635-640, 654-656), `get_fun_name` (903-905) | holiday calendars and feature selectors of other packages are parameters |
| `metrics.py` | Insample, Kpi, Metrics, Summary | — | — |  |
| `plot_utils.py` | Plots | `basic_setup`, `remove_ticks`, `jointplot`, `plot_multiple_summary_scores`, `plot_scenarios_from_multilevel` | — | plots only |
| `preprocessing/outlier_detection.py` | — | — | — | a script with plots |
| `reconciliation/reconciliation.py` | Kpi, RecScen, Recon, ReconCov | `HierarchicalReconciliation.get_unrolled_hierarchy` | `HierarchicalReconciliation.__init__` (16-37), `HierarchicalReconciliation.compute_kpis` (386) | covariance estimators are a parameter; `bayes` is modelled up to shapes and labels |
| `scenarios_generator.py` | BigData, Ctor, PredTrees, ScenGen | — | — |  |
| `scenred.py` | Refine, ScenUnits, Scenred, TreeObs, TreePlot | `plot_graph`, `superimpose_signal_to_scens` | — | what is left out draws trees |
| `stat_utils.py` | Boot | `qqplot` | — |  |
| `trainer.py` | Hyper, Params, Trainer | — | — | optuna and sklearn are parameters |
| `tree_builders.py` | Ctor, Forward, PredTrees, TreeBuild, TreeGen, TreeInit, TreeLoss | — | `NeuralGas.gen_tree` (146, 189), `DiffTree.gen_tree` (247) | the gradient of the distance is a parameter |
| `utilities.py` | FkRun, FkUnits, Kalman, Kpi, Utils | `get_logger` | — |  |

## Axioms per theorem

From `#print axioms` on every theorem named in MANIFEST.json.

* `propext, Classical.choice, Quot.sound`: the 838 theorems not listed below.
* `propext, Quot.sound` (82): `Subsample.C04_constructor`, `Encode.C13_idempotent`, `Refit.C15_lgb_first_fit`, `Refit.C15_lgb_refit`, `Refit.C15_lgb_never_recovers`, `Refit.C15_hybrid_first_fit`, `Refit.C15_hybrid_parallel_refit`, `Refit.C15_hybrid_failed_fit_leaks`, `Refit.C15_before_fit`, `Refit.C15_hybrid_multi_present`, `Params.C16_set_exact`, `Params.C16_get_exact`, `Params.C16_set_get_noop`, `Params.C16_get_after_set`, `Params.C16_live_training`, `Transform.C18_outside_window_irrelevant`, `Binned.C21_times_right_single_lag`, `Binned.C21_times_right_single_bin`, `Binned.C21_relative_unit`, `Names.C22_agg_names_injective`, `Calendar.C30_day_of_week`, `Calendar.C31_label`, `Calendar.C31_same_date_same_label`, `Calendar.C31_bridge_depends_on_frame`, `Hankel.C33_generated_entries`, `Statsmodels.C41_row_uses_strict_past`, `Statsmodels.C41_causal`, `Statsmodels.C41_following_frame`, `Fast.C42_window`, `Fast.C42_split`, `BigData.C66_lists`, `BigData.C66_test_slice`, `BigData.C67_caller_changed`, `NNTrain.C68_steps`, `NNTrain.C68_evaluations`, `NNTrain.C68_result`, `Boost.C74_residual_invariant`, `Lstm.C75_training`, `Reshape.C76_qrf_single_target`, `Params.C77_clone_exact`, `Params.C77_clone_keeps_iff`, `Params.C77_trial`, `Params.C77_unstored_trial_ignored`, `GlobalForm.C83_same_features_iff`, `HW.C85_forecast_source`, `Scenred.C94_graph_labels`, `ScenGen.C102_additional_node_scenarios`, `ScenGen.C105_offline_refused`, `ScenGen.C106_frame_layout`, `Recon.C109_bayes_always_fails`, `NNTrain.C118_nan_free`, `NNTrain.C119_large_batch`, `SaveLoad.C122_hours`, `INN.C128_order`, `INN.C128_missing`, `INN.C128_position_irrelevant`, `INN.C128_window`, `Lstm.C129_overlap`, `NNQuant.C135_error`, `NNOpt.C140_causal_training`, `FmtNorm.C149_duplicate`, `FmtNorm.C149_list_lags`, `FmtNorm.C149_refusals`, `FmtNorm.C150_unused`, `FmtNorm.C150_used`, `FmtNorm.C150_target_unused`, `Tune.C155_values`, `Utils.C163_rows`, `Utils.C163_selection`, `Summary.C168_check`, `Qrf.C179_period`, `PredTrees.C216_ignored`, `PredTrees.C217_offline`, `Pickle.C222_never_restored`, `Pickle.C223_transfer`, `Pickle.C223_names_kept`, `Mapper.C282_outcome`, `Mapper.C282_raises`, `Mapper.C282_keywords_in_order`, `Mapper.C282_keywords_iff`, `HwSearch.C331_restarts`, `HwSearch.C331_stream`.
* `propext` (23): `Subsample.C02_seed_precedence`, `Subsample.C04_inactive_cap`, `Subsample.C04_no_randomness`, `Reshape.C09_empty_frame`, `Encode.C13_encoders_persist`, `Params.C16_frozen_training`, `Bench.C34_predict`, `BigData.C66_fallback`, `GlobalForm.C83_serving_uses_last_order`, `NNOpt.C140_distribution`, `FmtNorm.C148_error`, `FmtNorm.C150_empty`, `NnIo.C182_none`, `NnIo.C186_lstm`, `NnIo.C186_feed_forward`, `RecScen.C220_methods`, `Pickle.C222_plain_restored`, `Pickle.C222_no_copy`, `Pickle.C223_class_names`, `Pickle.C223_between_classes`, `TreePlot.C300_lines`, `TreePlot.C300_one_step`, `EsFreq.C334_three_rows`.
* no axioms (5): `Normalize.C25_identity_without_expression`, `GlobalForm.C83_serving_first_refused`, `FmtNorm.C148_value`, `Rff.C174_plain`, `FoldPic.C328_glyph`.

## Properties where the code falls short

For these 184 properties the theorem is an exact description of what the code does, with a concrete witness, because what a user would expect is false. The notes in MANIFEST.json say what goes wrong.

- C10 QRF quantile array layout
- C15 Refitting a LightGBM forecaster
- C20 Metadata time windows describe the samples used
- C21 Binned features with several lags are mislabelled
- C28 Cross validation deadband does not account for look-ahead
- C29 Step-ahead pruning keeps only allowed features
- C33 Hankel windows
- C35 Seasonal persistence is shifted by one
- C36 Discrete distribution benchmark
- C37 Holt-Winters predictions do not depend on how calls are split
- C40 One missing observation poisons Holt-Winters
- C41 Statsmodels wrapper alignment
- C44 Kalman covariance is overconfident
- C49 Tree node probabilities are conserved
- C53 Last-step scenario values do not influence the quantile tree
- C55 Copula samples are ranks with the requested shape
- C57 Reliability
- C59 Cross-validation score table
- C62 Reconciliation column labels
- C64 One reconciliation matrix for all steps
- C66 Parallel map keeps all rows
- C72 Causal invertible embedding and its coded inverse
- C75 LSTM windows
- C76 QRF point prediction shape
- C77 Cloning a forecaster (cross validation) forgets parameters
- C79 The aggregation step is frozen by the first transformed frame
- C80 The parallel branch of the formatter equals the sequential one only for unchained transformers
- C83 corr_reorder serves every series in the order of the last training series
- C84 Holt-Winters on an integer target column
- C85 HoltWintersMulti takes forecasts and error quantiles from different submodels
- C86 Holt-Winters error table understates the served errors
- C88 Fourier_es keeps coefficients but not the phase
- C89 FK_multi judges experts against the wrong time
- C90 Fourier_es horizon longer than the window
- C91 Fourier_es doubles the alternating component
- C92 Coinciding scenarios stall the reduction
- C93 One node everywhere means tolerance mode
- C94 Tree labels follow creation order; single-step trees are empty
- C96 The additional initial node depends on the number of scenarios
- C98 NeuralGas ranks and tolerance
- C99 DiffTree: no decay, stopping rule, stale scenarios
- C100 Layout of quantile arrays is guessed
- C101 What the rmse scorer measures
- C102 predict_scenarios with an additional node always fails
- C103 glasso_cv always cross-validates on midnight
- C106 ScenGen reads quantile frames transposed
- C107 Folds of positions are read as labels
- C109 The Bayesian reconciliation always fails
- C110 Reconciled scenarios only work on frames as long as the training frame
- C113 Labels of the parallel map without ray
- C114 Memory reduction rounds floats
- C115 Which convex networks can be evaluated
- C116 Quasi-convex network
- C117 Latent network is convex only in the embedding
- C118 A NaN validation loss crashes training
- C119 Batch sizes for which nothing is trained
- C120 stopping_rounds has no effect
- C121 Layer counts of the latent network are not saved
- C122 Quantiles after reloading
- C123 Inverter learning rate after reloading
- C125 Inverses of the other activations
- C126 Decoding a perfect embedded forecast
- C127 Constructor arguments of the invertible network
- C129 Validation split of the LSTM forecaster
- C132 Quantiles of a probabilistic network with a normalised target
- C133 Quantiles of a probabilistic network with a raw target
- C134 Objective quantiles of a structured network
- C135 Structured probabilistic network with a normalised target
- C136 Optimising the controls: number of steps and stopping
- C137 Optimised controls are not worse
- C140 Training with a causal table
- C144 LGBEnergyAware configurations that can be fitted
- C145 Refitting LGBEnergyAware
- C146 Rows the error distribution is measured on
- C147 Which features normalisation changes
- C148 What denormalising a forecast needs
- C149 Adding target normalisers
- C150 Time limits of a formatter
- C152 The random search returns the best trial
- C153 Sequential and parallel search agree
- C154 Score of a trial
- C156 An object tunes itself once
- C157 Submodels of HoltWintersMulti
- C158 Which keywords of a constructor take effect
- C159 Parameters of the experts of FK_multi
- C161 Experts of FK_multi after a search
- C162 Arrays and frames convert back and forth
- C163 Frames that are not a full product of their levels
- C164 Important frequencies are one too high
- C166 Quantile metrics with masks and missing targets
- C167 Binning of index columns
- C168 Pairing of rows in summary scores
- C169 summary_scores relabels the forecast of the caller
- C170 Metrics of the same name replace one another
- C172 Additive RFF stages with given features
- C173 The RFF scaler sees the validation rows
- C174 RFF forecasts of normalised targets
- C175 Orthogonal random features
- C176 Bootstrap statistics
- C177 Quantile frame of the random forest
- C178 Point forecasts of the random forest
- C179 Keywords of QRF.predict
- C180 Sample weights of the random forest
- C181 Constructor arguments reaching the forests
- C183 Order of the columns given to a network
- C184 Refitting a network without normalised inputs
- C185 The scaler of a network sees the validation rows
- C186 Quantiles of an LSTM network
- C187 Network keywords without effect
- C188 Quantile scores of a hierarchy compare different series
- C190 Quantiles of the base forecasters of a hierarchy
- C191 A trial of the hyper-parameter search and the trials before it
- C192 The model after a hyper-parameter search
- C193 random_fold search of a forecaster with a frozen training dictionary
- C194 Default search spaces
- C199 Ordering term of the losses
- C200 The ordering term gives no gradient
- C201 Penalty on the embeddings
- C203 Relaxed ordering term
- C205 Exact experts break the combination
- C206 Horizons longer than the history never adapt
- C207 Experts judged on data they were fitted on
- C208 Running without coefficients
- C209 Optimising in the latent space: path and history
- C210 Optimised latent controls can be worse
- C211 Reusing a compiled objective
- C212 Default numbers of nodes of a scenario tree
- C213 Trees from few scenarios
- C215 Overall reliability of hourly error tables
- C216 Observations as roots of the predicted trees
- C217 Numbers of nodes passed to predict_trees
- C218 Trees by several workers and later calls
- C220 Scenarios from past errors of the same hour
- C222 Copies of adaptive forecasters
- C225 Root of a DiffTree
- C226 Unused nodes of a DiffTree
- C228 When the default reconciliation can be fitted
- C230 Axis limits of animations
- C231 Rows shown by animations
- C232 Ticks and labels of a summary plot
- C234 What a start tree contributes
- C235 Range of the values of a quantile tree
- C236 Names of initial values
- C237 DiffTree from equal values never branches
- C239 Seasonal persistence served row by row
- C240 Errors of seasonal persistence without a validation set
- C241 Quasi end-to-end loss of the causal invertible network
- C242 End-to-end losses against the forecasts served
- C243 Causal invertible network without end-to-end training
- C245 Features of a frame with missing rows
- C246 Cells of the discrete distribution benchmark
- C247 Layout of the forecasts of the discrete distribution benchmark
- C249 Parameters without effect
- C250 Refused arguments of constructors
- C252 Bounds of the forecasts bound the controls of the latent network
- C253 Bounds of the forecasts bound the variance
- C254 Which latent networks can be evaluated
- C256 A new Holt-Winters object counts the level twice
- C258 Forecasts and errors in the units of the data
- C259 Persistent benchmarks with a normalising formatter
- C261 FK after a coefficient that does not vary
- C266 LinearForecaster of kind ridge and units of the signal
- C270 Scenario tree and units of measure
- C276 Plot of the features kept for each target
- C277 Renaming features by prediction time
- C282 Keyword arguments of mapper
- C294 Copula matrices and what they do to the calibration
- C298 Size of the initial convex weights
- C299 Plots of a scenario tree
- C300 Plot of scenarios
- C305 Expectations over a scenario tree and the tolerance
- C306 Folds of shifted data and rows tested twice
- C309 What crps measures
- C310 Estimating a constant with the Kalman filter
- C313 Probability mass functions of the quantile forest
- C326 Values of binned features with nested=False
- C327 Metadata of binned features with nested=False
- C329 Plots saved during training
- C331 HoltWinters.rand_search
- C332 Scenarios drawn twice with the same random_state
- C333 BrutalRegressor shrinks the level of its targets
- C334 Rows that ExponentialSmoothing forecasts
- C337 NaN residuals spread in BrutalRegressor
- C338 The noise FK_multi estimates

## Seeded bugs (seeded/LOG.jsonl)

- `theorems_tightened` lists a theorem only if that edit (or the same bug on the same definition) survived first. Later edits tried against a new theorem say so in `note`.
- Lines with empty `theorems_failed` are edits that survived. Their `note` says whether the edit was judged without effect on any claim, or is open because it was not rerun.
- Survivors were first left out of the log and added afterwards from the saved output of the runs.
