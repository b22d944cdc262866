# Formal model of gpgradpy: design

## 1. What is proved about what

`/verif/lean/Verif` contains

* `Np.lean` - a small numpy: arrays are a shape plus an index function over the reals; slice assignment, boolean masks,
  broadcasting and shape errors behave as in numpy (exceptions are values of `Except`; methods that change an object return the
  changed object together with the outcome, so the state after an exception is modelled);
* `Model/*.lean` - the functions of `/repo/gpgradpy/src`, one Lean definition per Python function, loop by loop and slice by slice;
  each definition cites file and lines and says where it simplifies;
* `Spec/*.lean` - the independent specification: kernels as functions of two points, partial derivatives through Mathlib's
  `HasDerivAt`, the Gaussian log density, the conditional normal distribution, histories of calls;
* `Proofs/*.lean` - lemmas;
* `Props/*.lean` - the property theorems `Cnn_...`, with examples that their hypotheses are met.

The proofs follow three layers: (i) array code = closed form (loop invariants), (ii) closed form = specification (analysis, linear
algebra), (iii) the object: invariants over all programs of API calls, including calls that raise part-way.

### Modelled code

| module of the model | code |
|---|---|
| `KernelSqExp`, `KernelMatern5f2`, `KernelRatQuad`, `Kernel`, `KernelPlain` | `kernel/*.py`: the `Mod` classes used by `KernelCommon`, and the unmasked `Grad` classes |
| `CommonFun`, `GradCheck` | `base/CommonFun.py` |
| `LinAlg`, `Cov` | `kernel/Kernel.py`, `kernel/KernelCommon.py`: noise vector, covariance, Cholesky factor, preconditioner |
| `WellCond`, `RescaleHp` | `base/GpWellCond.py`; rescaling loop of `optz/OptzLkd.py` |
| `MeanFun`, `Lkd`, `LkdAll` | `eval/GpMeanFun.py`, `optz/CalcLkd.py`, callbacks of `optz/OptzLkd.py` |
| `HpOptz`, `HpGrad`, `HpGuard`, `HpX0` | `optz/GpHparaOptz.py`, `optz/GpHparaGrad.py`, `optz/GpHparaCon.py`, `optz/GpHparaX0.py`, guard of `eval_model` |
| `EvalModel`, `EvalApprox`, `EvalScl`, `Predict` | `eval/GpEvalModel.py` |
| `Rescale`, `RescaleNlc` | `base/Rescaling.py` |
| `ParaDef` | `base/GpParaDef.py`, `base/GpHpara.py: set_hp_from_idx` |
| `GpInfo` | `base/GpInfo.py` |
| `Results`, `LoadData`, `Acq`, `KernCorr`, `TestFun`, `PlotData`, `NuggetFig`, `Sweep`, `AcqPlot`, `CondPlot` | computations in the scripts: `results/PltOptzResults.py: best_at_all_iter, load_npz_data, plt_conv_nx0` (data only), `plt/plt_acq.py` (whole computation), `plt/plt_surr_1d.py` (acquisition functions, scan of the length scale and its surrogates), `plt/plt_kern_corr.py`; functions of interest of `plt/plt_cond.py`, `plt/plt_nugget_1d.py`, `plt/plt_surr_1d.py`, `plt/plt_acq.py`; `plt/plt_cond.py: calc_scl_data, calc_cond_lkd`, contour of `plot_lkd`; nuggets of `plt/plt_nugget_1d.py`; scaling of `plt/SurrPlt.py: plot_acq` |
| `GaussProc`, `OptzHp`, `OptzLoop` | `GaussianProcess.py` (`__init__`, `set_wellcond_mtd`, `set_data`, `set_hpara`), `optz/GpHparaOptz.py: optz_hp`, `optz/OptzLkd.py: optz_hp_max_lkd` |

Not modelled: formatting and printing of the tables of `base/GpInfo.py` (their contents are modelled) and its list of options, timing (arbitrary values), warnings, the drawing of figures, the
contents of files (file access raises before anything is written), the inside of `scipy.optimize.minimize`, of the latin
hypercube sampler and of LAPACK; `calc_model_mean_w_data_init` and `calc_model_mean_w_data_scl` (`eval/GpEvalModel.py:384-440`), which no
other function calls and which raise for every input: their first statement gives `calc_KernGrad` two 2-d arrays of points where it
expects the 3-d array of differences and the length scales; code that is commented out (`optz/GpHparaX0.py:185-318`).

## 2. Trusted base

* Lean's kernel (4.33.0) and the axioms `propext`, `Classical.choice`, `Quot.sound`; no others (section 5).
* The reading of the Python source by the author of the model. The code was not run.
* **Exact real arithmetic.** Floats are modelled as `ℝ`, floats that may be NaN as `Option ℝ` (`Fl`). No theorem says anything about
  rounding, overflow, underflow or the accuracy of LAPACK, except C131 about residuals of the linear solves of predictions and C135 and C136 about an inexact factorisation. Infinities are not modelled.
* numpy/scipy primitives are modelled by their contract: `cho_factor` returns the triangular factor iff the matrix is positive
  definite and raises otherwise, `cho_solve` is the linear solve, `np.linalg.cond` for a symmetric matrix is the ratio of the extreme
  absolute eigenvalues, `np.linalg.eig` is an arbitrary function that satisfies `EigOk` (right eigenpairs), the optimiser is an arbitrary
  function (any results, may raise), the sampler is an arbitrary function, for C57 with values in the unit cube (`SamplerOk`).
* Mutable state: attributes of the object are fields of a structure; arrays are values, except in `Model/HpGuard`, where a heap
  models aliasing, because the guard of `eval_model` compares by identity first.
* Simplifications named in the comments: NaN hyperparameters given to the likelihood or to `eval_model` raise in the model; the
  types of scalar arguments are right.

## 3. Plan per property

`Status` repeats MANIFEST.json.

| id | property | model | proof | status |
|---|---|---|---|---|
| C01 | Gradient-enhanced squared-exponential matrix is the joint covariance of values and partial derivatives | `Model/KernelSqExp` slice by slice on `Np` arrays | loop invariants give the closed form of every block; closed form = iterated `HasDerivAt` partials of the specification kernel | proved |
| C02 | Gradient-enhanced Matern 5/2 matrix is the joint covariance of values and partial derivatives | `Model/KernelMatern5f2` | as C01; coincident points by a removable-singularity lemma | proved |
| C03 | Gradient-enhanced rational-quadratic matrix is the joint covariance of values and partial derivatives | `Model/KernelRatQuad` | as C01 | proved |
| C04 | A gradient mask selects exactly the masked rows and columns | the same functions with masks | block closed forms with the index map of the mask; RatQuad with only the first mask: proof that the call raises | partial |
| C05 | Base kernels are correlations | `calc_KernBase` of all kernels | closed form by loop invariant, real inequalities | proved |
| C06 | Gradient-free hyperparameter derivative is the true derivative | `calc_KernBase_grad_th` | `HasDerivAt` in each theta; Matérn: proof that the value is wrong | partial |
| C07 | Gradient-enhanced hyperparameter derivative is the true derivative | `calc_KernGrad_grad_th` | loop invariants, `HasDerivAt` of the closed form; Matérn: exact characterisation and an error bound for points closer than 1e-16 | partial |
| C08 | Hyperparameter derivative with a gradient mask | `calc_KernGrad_grad_th` with a mask | RatQuad for all masks, SqExp and Matérn for full masks as C07; otherwise proof that the call raises | partial |
| C09 | Rational quadratic shape derivative | `calc_KernBase/Grad_grad_alpha` | as C07 | proved |
| C10 | Second x-derivatives of the base kernel | `calc_KernBase_hess_x` | closed form = iterated derivatives in x | proved |
| C11 | x-derivatives of the gradient-enhanced kernel rows | `calc_KernGrad_grad_x` | as C10; masked call raises | partial |
| C12 | Gradient-enhanced kernel matrix is symmetric with the preconditioner's squares on the diagonal | `calc_KernGrad`, `theta2gamma` | from the closed forms | proved |
| C13 | Base kernel matrices are positive semidefinite | `calc_KernBase` | SqExp: power series and Schur products; RatQuad: Gamma mixture; Matérn: mixture | proved |
| C14 | Gradient-enhanced kernel matrices are positive semidefinite | `calc_KernGrad` | limits of finite differences of C13 | proved |
| C15 | Preconditioner vector, inverse, derivative; theta/gamma conversion | `Model/Kernel`, `Model/Cov`: preconditioner | direct | proved |
| C16 | Pairwise difference tensor and distance extrema | `Model/CommonFun` | loop invariants | proved |
| C17 | Covariance matrix has the documented closed form in every conditioning mode | `Model/Cov`: `calc_all_K_w_chofac` | matrix algebra | proved |
| C18 | Returned Cholesky factor factors the returned covariance | `Model/Cov`, `Model/LinAlg` | existence and uniqueness of the Cholesky factor of a positive definite matrix | proved |
| C19 | The covariance matrix is always positive definite | as C17 | C13, C14 plus a positive nugget | proved |
| C20 | Condition-number guarantee of the preconditioned gradient-enhanced covariance | `Model/WellCond`: `calc_nugget`, `Model/Cov` | Gershgorin row sums of the rescaled matrix, sharp bound of (1+√d u)exp(-u²/2) and its Matérn and RatQuad counterparts | proved |
| C21 | Condition-number guarantee of the gradient-free covariance | as C20 | row sums at most n | proved |
| C22 | Condition-number guarantee with a varying nugget | varying nugget in `Model/Cov` | largest row sum bounds the spectral norm | proved |
| C23 | Nugget calculation never aborts and is positive | `calc_nugget`, all methods | real inequalities | proved |
| C24 | Noise vector layout and degenerate noise arguments | `calc_noise_vec` | case split; unknown noise without gradients raises | partial |
| C25 | Constant mean coefficient is the generalised least squares optimum | `Model/MeanFun` | normal equations, quadratic forms | proved |
| C26 | Closed-form process variance maximises the likelihood | `Model/Lkd` | one-dimensional maximisation | proved |
| C27 | Likelihood value is the Gaussian log density | `Model/Lkd` | log density written with `Matrix.det` and the quadratic form | proved |
| C28 | Noise-free likelihood gradient is the derivative of the reported likelihood | `Model/Lkd`, gradient part | derivatives of inverse and log det along matrix paths; below the floor of the variance the gradient is proved wrong | proved |
| C29 | Adjoint and direct likelihood gradients agree | the two gradient methods of `Model/Lkd` | algebra | proved |
| C30 | Noisy likelihood gradient is the derivative of the reported likelihood | noisy likelihood in `Model/Lkd` | as C28 | proved |
| C31 | Covariance hyperparameter gradient is the derivative of the covariance | `Model/HpGrad` | derivative of C17; a varying nugget is proved wrong | partial |
| C32 | Optimiser gradient accounts for the log10 parametrisation | `Model/LkdAll`, `Model/HpOptz` | chain rule through decoding, covariance, likelihood and penalty | proved |
| C33 | Likelihood penalty and its gradient agree | penalty in `Model/LkdAll` | algebra and derivative | proved |
| C34 | Objective stays defined when the factorisation fails | failure branch of `Model/LkdAll` | case analysis; discrepancies as theorems | partial |
| C35 | Condition-number constraint gradient | `calc_cond_L2/fronorm`, `Model/HpGuard`, `Model/LkdAll` | derivative of simple eigenvalues; `np.linalg.eig` is an oracle with the contract `EigOk` | proved |
| C36 | Predicted mean is the Gaussian posterior mean | `Model/EvalModel` | conditional normal distribution defined by the projection property (`Spec/CondGauss`), linear algebra | partial |
| C37 | Predicted variance is between zero and the prior variance | `Model/EvalModel` | Schur complement of a positive semidefinite joint covariance | proved |
| C38 | Predictions interpolate the data up to the nugget | `Model/EvalModel` | algebra with the nugget | proved |
| C39 | Mean gradient is the derivative of the mean | `Model/EvalModel` | `HasDerivAt` of the mean as a function of the point | proved |
| C40 | Standard-deviation gradient is the derivative of the standard deviation | `Model/EvalModel` | `HasDerivAt` of the square root | proved |
| C41 | Hessians are the second derivatives | Hessians in `Model/EvalModel` | second derivatives; Matérn regularisation error bounded (`Proofs/EvalHess`, `Props/EvalClose`); partial masks raise | partial |
| C42 | eval_model_var is consistent with eval_model | `eval_model_var` | algebra | proved |
| C43 | Batch evaluation equals pointwise evaluation | `Model/EvalModel` | row-wise form of the results | proved |
| C44 | Stale-model guard | `Model/HpGuard` (a heap of arrays, object identity), `Model/Predict` | invariant over histories | proved |
| C45 | Predictions in original units obey the chain rule | `Model/EvalScl` | chain rule; Hessian of unequal scales is proved wrong | partial |
| C46 | Scaling maps are mutually inverse | `Model/Rescale` | field algebra | proved |
| C47 | Requested minimum/maximum distance is attained | `Model/Rescale`: `isoScaling` and distances | algebra of min/max distances | proved |
| C48 | Objective scaling centres the best value and normalises the range | `Model/Rescale`: `set_obj_data` | min/max | proved |
| C49 | Scaled data always correspond to the original data | state machine of `Rescaling` | invariant over all histories | proved |
| C50 | Constraint scaling preserves feasibility | constraints in `Model/Rescale` | algebra | proved |
| C51 | Nonlinear-constraint data can be rescaled | nonlinear constraints in `Model/Rescale` | case analysis; discrepancies as theorems | partial |
| C52 | Moving length scales into the data leaves the model unchanged | `Model/RescaleHp` | algebra of the squared distances | proved |
| C53 | Iterative rescaling during optimisation preserves the optimised model | `Model/RescaleHp`: loop over `optz_lkd` calls, optimiser arbitrary | loop invariant; counterexamples | partial |
| C54 | Hyperparameter layout partitions the optimiser vector | `Model/HpOptz`: layout | induction over the slots | proved |
| C55 | Hyperparameter vector decoding inverts encoding | `hp_vec2dataclass`, `hp_dataclass2vec` | slot algebra, log/exp | proved |
| C56 | Optimiser bounds are ordered and match the layout | bounds in `Model/HpX0` | case analysis | proved |
| C57 | Starting points lie within the bounds | `Model/HpX0`: starting points; sampler arbitrary with contract `SamplerOk` | box membership; NaN box proved | partial |
| C58 | The best optimisation run is selected | `optz_hp_max_lkd`: choice of the run | argmin over runs that may be NaN | proved |
| C59 | Stored hyperparameters can be restored | `Model/ParaDef`: history arrays | sequential assignments with exceptions | proved |
| C60 | Export then load restores the surrogate history | export/load of `Model/ParaDef` | array algebra; file access raises | partial |
| C61 | Finishing truncates to the performed iterations | `finish_optz_surr` | array algebra | proved |
| C62 | Input validation of set_data | `Model/GaussProc`: `set_data` | case analysis of every check | partial |
| C63 | Noise classification | `Model/GaussProc` | case analysis | proved |
| C64 | Likelihood results are never stale | callbacks of `Model/LkdAll` with their cache | invariant over histories | proved |
| C65 | Changing the conditioning method resets its configuration | `set_wellcond_mtd` | invariant over histories | partial |
| C66 | Hyperparameter protocol: stored, custom, optimised | `Model/OptzHp`: the whole object | invariant over programs of API calls | partial |
| C67 | Initial hyperparameters are admissible | `get_init_hp_vals` | inequalities, link to `Ready` | partial |
| C68 | Mean-function basis: gradient rows are derivatives of the value rows | `Model/MeanFun` | Vandermonde rows and their derivatives | proved |
| C69 | Data vector layout | `make_data_vec` | index arithmetic | proved |
| C71 | An optimised solution can be restored | `Model/OptzHp` | invariant over programs: a stored row is only changed by calls named in the statement | proved |
| C72 | With few points optimisation cannot fail | `Model/OptzHp` | totality of every step of the branch | proved |
| C73 | Closed-form hyperparameters of the solution maximise the likelihood | `optz_closed_form_hp` | C25, C26 through the pipeline; totality for every nugget from `Proofs/CovTotal` | proved |
| C74 | Predictions belong to the current data and hyperparameters | `Model/Predict` | C36 lifted to programs; discrepancies as theorems | proved |
| C75 | Predictions with data scaling are the conditional distribution in the user's units | `Session` with rescaling data store (`Model/GaussProc`, `Model/EvalScl`, `Model/Predict`); specification of the converted process in `Spec/OrigSpec` | `C49` gives the images; the conditional distribution of an affine image is the affine image of the conditional distribution (`Proofs/CondAffine`); units of kernel, noise and data (`Proofs/Units`); composed with the whole-object frame lemmas of C74 | proved |
| C76 | What set_data stores on an object that rescales | `setData` with `newScl`, `setObjData`, `calcCoeff` | explicit form of the isotropic scale (`newScl_iso`), extreme distances under scaling, C48 for the values, specification `Spread`/`reqVmin` in `Spec/ScaleSpec` | proved |
| C77 | What an optimisation records | `optzHp`, `runOptz`, `finishOptz`, `storeSurr` with an arbitrary optimiser (`Oracle`) | the covariance code's condition number is the one of the specification (`Proofs/CondVal`, `Proofs/CondRec`, independent spec `Spec/CondNumSpec`), the chosen run is the best (`Spec/OptzRowSpec`), the stored row is read back with C59; the bound is C20 at the recorded hyperparameters | proved |
| C78 | The optimisation of the hyperparameters succeeds | `optzHp` with starting points, optimiser and final factorisation (`Model/OptzHp`, `Model/HpX0`) | positive definiteness of the likelihood's covariance for both nuggets (`Proofs/CovTotal`), the box of C57, decoding (C55), closed forms (C73), storing (C59) and setup (C66) composed in `Props/OptzTotal`; box specification in `Spec/OptzRowSpec` | proved |
| C79 | A whole optimisation loop with a surrogate never fails and always predicts from the current data | `SOp.run` iterated (`Spec/LoopSpec`: `afterIter`, `inIter`) | induction over the iterations with the invariant `LoopInv`: reachable object, sized history, numbers in all earlier rows; step by C72 (few points) or C78; predictions by C74's lemmas | proved |
| C80 | Predictions do not depend on the order of the data | setupEvalModel, evalModel of an object whose data are rearranged (Spec/DataSetSpec: Rearranged) | the kernel matrix, noise and data of the second object are those of the first with rows permuted; the nugget (a supremum of row sums) and the quadratic forms are invariant under permutations | proved |
| C81 | Predictions do not depend on the origin | as C80, with shifted points | kernels depend on differences only; special case of C80_rearranged | proved |
| C82 | How predictions depend on the observed values | setupEvalModel, evalModel of objects that differ in values, gradients and prior mean | the covariance matrix does not depend on them; the mean is prior mean plus a fixed linear map of data minus prior mean | proved |
| C83 | More data and less noise never make predictions less certain | setupEvalModel, evalModel of two objects, one with more data (Spec/DataSetSpec: MoreData) | variational characterisation of k M^-1 k as a maximum over weights; weights of the smaller data set extended by zeros | proved |
| C84 | Far from the data predictions return to the prior | setupEvalModel, evalModel | limits of the radial profiles and of sqrt(s) times their derivatives; bounds of the linear and quadratic forms | proved |
| C85 | Repeated noise-free points need a nugget | setupEvalModel, evalModel | the difference of two unit vectors has zero quadratic form, so the matrix is not positive definite | proved |
| C86 | New data replace everything; rejected data leave no trace once data are accepted again | setData statement by statement, programs of calls on a session, setup and predict | simulation: each statement of set_data maps objects that agree in what has been assigned so far to objects that agree in one more group of attributes | proved |
| C87 | Nonlinear-constraint conversions are inverse and obey the chain rule | `nlc_init_2_scl`, `nlc_scl_2_init` with all six arrays (Model/RescaleNlc) | entrywise algebra; chain rule for functions of the scaled point (Spec/NlcSpec) | partial |
| C88 | What the getters of the data store return fits together after any history | the getters of `Rescaling` (Model/RescaleNlc) in reachable states | invariant `Images` (C49), then C46 / C87 backwards | proved |
| C89 | Scaling nonlinear constraints keeps their signs | `set_nlc_data`, `_calc_nlc_scaling` | closed form of shift and scale from C51, order of the reals | proved |
| C90 | Optimisation runs from several starting points do not influence each other | `optz_hp_max_lkd` with the object's cache; the minimiser is an interaction tree of callback calls (Model/OptzLoop) | simulation: in every reachable cache state a callback answers with fresh values, so execution on the cache equals play against the true functions; induction over the tree and the starting points | proved |
| C91 | The returned hyperparameters are the best end point and meet the condition-number limit | the same, with the final condition number | selection lemma C58 on the runs of C90; the condition number of the callbacks is that of the covariance matrix | proved |
| C92 | The recorded optimisation statistics are what they are called | the counters and means of `optz_hp_max_lkd` | loop invariant for the counters | partial |
| C93 | The rescaling optimisation restarts once, at the common length scale | `optz_hp_max_lkd_mtd_rescale` and `rescaling_data_w_theta_sol` with the loop over iterations (Model/RescaleHp, Model/OptzHp) | equal length scales make the second rescaling trivial, so that the spread is 0 and the loop ends; distances under stretching (C47) | proved |
| C94 | Predictions stay right after optimisation, stored, current or set hyperparameters | programs of calls on a session (Spec/Session) and predictions | invariant: no call other than `set_data` and `set_wellcond_mtd` changes anything of the object but the scaling, and a changed scaling is still an image of the same data; then C75 with the current scaling | proved |
| C95 | The rescaling optimisation succeeds | `set_hpara` with a rescaling method | totality of the rescaling loop (the box is kept outside the length scales), decoding, closed forms, storing and setup as in C78 | proved |
| C96 | The optimisation loop with scaled data never raises and predicts in original units | `SOp.run` iterated, with scaling (Spec/LoopSpec, Spec/ScaledLoopSpec) | induction over the iterations; step by C72 (few points), C78 (fixed scaling) or C95, predictions by C94 | proved |
| C97 | The unmasked gradient-kernel classes agree with the ones in use | the three classes without masks (Model/KernelPlain) | loop congruence with the masked model at mask None; antisymmetry of the differences for the transposed blocks; then C01-C03, C07, C09, C11 | proved |
| C98 | The text tables show the history | the arrays and headers that `info_surr_summary`, `info_surr_theta` and `info_surr_optz` hand to `tabulate` (Model/GpInfo); formatting is left out | columns are added one at a time (invariant: the first columns are these); least, greatest and median by counting in the sorted row; stored values by C56 | partial |
| C99 | Gradient-free models with even noise never run into ill conditioning | as C78 and C79, for objects without gradients | the noise only shifts the diagonal evenly, so the row-sum bound of C21 and C22 holds for the shifted matrix; hence the factorisation succeeds at every candidate and `hp_best` finds a start (C57) | proved |
| C100 | The likelihood does not depend on the order, the origin or the units of the data | `calc_lkd_all` and the callbacks of the optimiser, for two objects (Spec/RestateSpec) | the covariance matrix, noise and data vector of the restated data are those of the original ones reindexed by a permutation and multiplied by powers of u; determinants, generalised least squares and eigenvalues under reindexing and scaling | proved |
| C101 | Predictions follow the units of the data | `setup_eval_model`, `eval_model` for two objects (Spec/RestateSpec) | matrix, cross covariances and residual of the restated data are those of the original data reindexed, the residual times u; closed forms of the predictions (C36-C40) | partial |
| C102 | Nothing depends on the labels or the orientation of the coordinates | `setup_eval_model`, `eval_model`, `calc_lkd_all` for two objects (Spec/CoordSpec) | kernel matrix of the new data = old one with rows and columns permuted and multiplied by signs; nugget, determinant, condition number and quadratic forms are invariant under that (Proofs/Coord); closed forms of likelihood and predictions | proved |
| C103 | With preconditioning nothing depends on the units of the coordinates | `calc_all_K_w_chofac`, `setup_eval_model`, `eval_model`, `calc_lkd_all` for two objects (Spec/CoordUnitsSpec) | kernel matrix of the new data = diag(s) K diag(s); the correlation matrix changes only by signs, so nugget and condition number stay; the covariance matrix is congruent, quadratic forms are invariant, the determinant changes by a constant factor (Proofs/CoordUnits) | proved |
| C104 | The finite-difference check of a gradient converges to the true gradient | `test_grad_calc` with arbitrary pure handles (Model/GradCheck); the handles of `eval_model` for the last sentence | loop invariant for the table of differences; slope of a differentiable function; three applications of the mean value inequality; C39 for the predicted mean | proved |
| C105 | The history of the best value is the running minimum (maximum) of the recorded values | `best_at_all_iter` with NaN as `none` (Model/Results) | position of the last number; the loop is a fold of the NaN-ignoring minimum (maximum); invariant over the prefix | proved |
| C106 | The acquisition functions are the expected improvement and a quantile of the predicted normal distribution | the two acquisition functions entry by entry (Model/Acq), normal distribution function and density from Mathlib | integral of the positive part against the Gaussian density by the fundamental theorem of calculus on a half line; monotonicity of the integrand in the mean; the improvement as an expectation over a standard normal variable is monotone in the standard deviation | proved |
| C107 | The plotted correlation curves are those of the library's kernels | the correlation functions of the script (Model/KernCorr) and `calc_KernGrad` | closed forms of the kernel entries (C01-C03) with the weights expressed by gamma; bounds from positive semidefiniteness of the 4x4 matrix of two points (C14) | proved |
| C108 | The gradients given to the example surrogates are those of the example functions | the functions of interest of the scripts, array code with loops over the coordinates (Model/TestFun) | loop invariants; derivative of a finite sum | proved |
| C109 | The scaled data and the marked maximum in the figures | `calc_scl_data`, the loop over the grid and the search for its maximum, the scaling of `plot_acq` (Model/PlotData); the likelihood is an arbitrary function that may be NaN | NaN-ignoring minimum and maximum of a list are least and greatest number; specification of nanargmax (C56) | proved |
| C110 | The rational quadratic kernel tends to the squared-exponential kernel | `calc_KernGrad`, `calc_KernBase` of two kernels | closed forms of the entries (C01, C03, C05); limit of (1+s/a)^(-a-k); Bernoulli inequality | proved |
| C111 | The likelihood is continuous in the hyperparameters and has a maximum within the bounds | `calc_lkd_all`, the objective callback, decoding of the vector | closed form of the likelihood (C27-C29, C100); every ingredient tends to its limit (profiles, matrices, inverse, determinant, extreme eigenvalues); compactness of the box, closedness of the accepted set | proved |
| C112 | Predictions are continuous in the hyperparameters and in the points | `setup_eval_model`, `eval_model` | closed form of the predictions (C36-C40); limits as in C111 | proved |
| C113 | With a large shape parameter the rational quadratic model is the squared-exponential model | `Model/LkdAll`, `Model/EvalModel` with both kernels | entrywise limits of the profiles (C110), continuity of inverse, determinant, regression and nugget in the covariance matrix (C111) | proved |
| C114 | At the minimiser of the objective the gradient callback satisfies the first-order conditions | callbacks of `Model/LkdAll` | C111 (existence by compactness) and C32 (the returned gradient is the derivative of the returned value); one-sided slopes | proved |
| C115 | Observing what was predicted changes no prediction | `setup_eval_model`, `eval_model` of both objects | the weights of the old data, extended by zeros, solve the larger linear system | proved |
| C116 | Observations with unbounded noise have no influence | as C115, a family of objects | block elimination; the influence of the noisy rows is bounded by a quadratic form with reciprocal noise | proved |
| C117 | The prediction is the best linear prediction | `setup_eval_model`, `eval_model` as functions of random data | expansion of the mean squared error; minimum of a quadratic form | proved |
| C118 | The nuggets compared in the nugget figure suffice and are ordered | `Model/NuggetFig`: the formulas and the loop body of `plt/plt_nugget_1d.py` | extreme eigenvalues by Rayleigh quotients, trace bound, Gershgorin, monotonicity in the condition number; row-sum bound of C20 for the matrices of the library | proved |
| C119 | With the estimated mean the prediction is the best linear unbiased one | `calc_lkd_all` followed by `setup_eval_model`, `eval_model`, as functions of random data | closed form of the estimate (C25) and of the prediction (C36) give explicit weights; Lagrange condition for the constrained minimum of a quadratic form; far away (C84) the sensitivity to the coefficient tends to one | proved |
| C120 | Loaded optimisation results and the area drawn around the runs | `Model/LoadData`: `load_npz_data` with slice assignment and broadcasting, the data part of `plt_conv_nx0`; a file is its name and its arrays | invariant over the files; C105 for each run; reduction with NaN by induction | proved |
| C121 | Predictions are stable under errors in the data | `setup_eval_model`, `eval_model` with other values and gradients | the change of the mean is a linear functional of the change of the data; Cauchy–Schwarz in the inverse covariance and comparison with the added diagonal | proved |
| C122 | Deterministic error bound for functions of the native space | `setup_eval_model`, `eval_model`; `Spec/NativeSpec`: norm in the native space by finite quadratic forms | the bound of the norm passes from values to partial derivatives by limits of difference quotients; the error is a functional with weights (1, −M⁻¹k), whose quadratic form is at most the relative variance; errors in the data as in C121 | proved |
| C123 | The mean is the best compromise between smoothness and fit | `setup_eval_model`, `eval_model`; `Spec/NativeSpec` | the mean is a combination of covariances with the data, so its norm and errors are quadratic forms in the weights; a two-fold Cauchy–Schwarz inequality for the competing function with the test functional (λ at x, w − λM⁻¹k), for all λ | proved |
| C124 | Predictions vary no faster than the kernel | `setup_eval_model`, `eval_model` | triangle inequality for the distance of point evaluations from the data in the native space; C123 with the prior mean as the competing function | proved |
| C125 | Near an evaluated point predictions are certain up to its noise | `setup_eval_model`, `eval_model` | a test weight on the one datum in the quadratic bound of the reduction of the variance, then the triangle inequality of C124 | proved |
| C126 | Repeated noisy evaluations average out | `setup_eval_model`, `eval_model` | equal test weights on the chosen data in the quadratic bound of the reduction of the variance; limit by choosing the number of points for a given tolerance | proved |
| C127 | Consistency: accumulating data recover the function | `setup_eval_model`, `eval_model`; `Spec/NativeSpec` | the error bound of C122 with the limit of C126 | proved |
| C128 | Noise limits what data can tell | `setup_eval_model`, `eval_model` | positive semidefiniteness of the covariance bordered by the evaluation point and the Cauchy–Schwarz inequality weighted by the added diagonal | proved |
| C129 | Predictions and their gradients have explicit Lipschitz bounds | `setup_eval_model`, `eval_model` | C124, and the kernels decrease at most linearly in the squared scaled distance (convexity, for the Matérn kernel by a derivative); the slopes by the derivatives of C39 and C40 and the Lipschitz bounds | proved |
| C130 | Mean squared error with random errors in the data | `setup_eval_model`, `eval_model` with random values and gradients; `Spec/NativeSpec` | bias by C122, variance of the weighted errors bounded by the relative variance through the bordered covariance; limit by C126 | proved |
| C131 | Rounding errors in the linear solves | `eval_model` with an arbitrary linear solver (`Model/EvalApprox`); `Spec/SolveSpec` | Cauchy–Schwarz in the inverse covariance; the inverse covariance is bounded by the inverse of the added diagonal; the variance stays positive by the floor of C128; for the failing case solutions too large by a small factor | proved |
| C132 | The length-scale scan fits each model and plots the most likely one | `plt/plt_surr_1d.py` without plotting (`Model/Sweep`); `Spec/SweepSpec` | the loop by an invariant over C26 and C99 for each length scale; scaling is strictly increasing; posteriors by C36; the limit of the variance by the Cauchy–Schwarz inequality for the difference of two values | proved |
| C133 | The acquisition figure marks the minima of the acquisition functions of the fitted model | `plt/plt_acq.py`, `SurrPlt.plot_acq` without drawing (`Model/AcqPlot`) | C132 for one length scale; scaling keeps the order and its second application is the identity; `np.argmin` gives the first minimum | proved |
| C134 | The marked point of the length-scale map is the most likely usable pair | `plt/plt_cond.py: calc_cond_lkd` (`Model/CondPlot`) | one cell: `lkd_form` with C26 or C27 and the bounds on the condition number; all cells: C109 | proved |
| C135 | An inexact factorisation changes the likelihood by a bounded amount | `lkdBody` given the factor of another matrix (`Model/Lkd`) | two-sided bound of the quadratic forms from κ (smallest eigenvalue), hence of the determinants (`det_sandwich`), of the minimal residuals (`rss_le_of_quad`) and of the variance | proved |
| C136 | An inexact factorisation changes predictions by a bounded amount | `evalModel` with the factor of another matrix (`Model/EvalModel`) | two inverses close in the metric of one of them (`inv_gap`, by polarisation), the reduction of the variance is at most one; gradient as in C131 | proved |
| C137 | The recorded condition number is that of the matrix, and decides whether the model can be evaluated | `setupEvalModel`, `evalModel`, `calcAllK` | the specification of `calcAllK` (`CovSpec`), `cov_cond` (condition numbers are scale invariant), closed form of the predictions | proved |
| C138 | The map of likelihoods outlines the pairs above the condition number limit | table and level passed to `ax.contour` by `plt/plt_cond.py: plot_lkd` (`limitContour` in `Model/PlotData`) | C109: scaled numbers are at most 1 | partial |

## 4. Discrepancies between code and property, proved as theorems

| id | what happens | theorems |
|---|---|---|
| C04 | RatQuad with a mask for the first set of points only raises (a matrix of the wrong shape is assigned). | `C04_ratQuad_mask1_only_broken` |
| C06 | The gradient-free Matérn derivative with respect to theta is not the derivative. | `C06_matern_wrong` |
| C08 | SqExp and Matérn theta derivatives with a partial mask raise. | `C08_masked_theta_raises` |
| C11 | x derivatives with a partial mask raise. | `C11_masked_raises` |
| C24 | Unknown noise of the values in a model without gradients raises. | `C24_unknown_noise_without_gradients_raises` |
| C28 | Below the floor of the closed-form variance the likelihood gradient is not the derivative of the reported likelihood. | `C28_below_floor_discrepancy` |
| C31 | With a varying nugget the covariance gradient ignores the derivative of the nugget. | `C31_varying_nugget_discrepancy` |
| C34 | When the factorisation fails the gradient is not transformed to log10 variables; with noise and the Frobenius norm, or with preconditioning, the objective raises. | `C34_gradient_discrepancy`, `C34_noisy_frobenius_raises`, `C34_precon_raises` |
| C36 | With noise and varK ≠ 1 the predictions condition on noise variances multiplied by varK; RatQuad with a partial mask raises. | `C36_noisy_not_posterior`, `C36_ratQuad_mask_raises` |
| C41 | Hessians with a partial mask raise. | `C41_partial_mask_raises` |
| C44 | A change of a hyperparameter array in place is not noticed; equal copies of arrays with several entries are rejected. | `C44_inplace_change_undetected`, `C44_equal_copy_rejected` |
| C45 | Hessians in original units are scaled by s_i² instead of s_e s_i. | `C45_hessian_anisotropic_wrong` |
| C51 | Nonlinear-constraint data raise with the default options; rescaling after them raises and leaves stale data. | `C51_default_options_raise`, `C51_rescaling_raises` |
| C53 | The iterated rescaling forgets the optimised anisotropy; `rescale_eta_vary` changes the kernel. | `C53_anisotropy_lost`, `C53_eta_vary_changes_kernel` |
| C57 | Starting points in iteration 0 or after a NaN in the history come from a NaN box, silently; `hp_best` raises. | `C57_no_history`, `C57_hp_best_raises` |
| C58 | If the runs considered are all NaN the choice raises even though another run has an objective. | `C58_raises` |
| C60 | Saving to or loading from a file raises. | `C60_file_raises` |
| C62 | Points are not checked against the values; negative standard deviations are accepted as noise-free. | `C62_points_unchecked`, `C62_negative_noise` |
| C65 | After `rescale_eta_vary` the varying nugget stays on for all later methods. | `C65_sticky` |
| C66 | `set_hpara('set')` does not check varK. | `C66_set_unchecked` |
| C67 | The initial noise variance is 0, outside of the range of the optimiser. | `C67_zero_noise` |
| C74 | New data without a new `set_hpara` are ignored by `eval_model`; a `set_hpara` that raises leaves new hyperparameters with old matrices and predictions are not blocked. | `C74_stale_data`, `C74_failed_call_mixes` |
| C39 | With the rational quadratic kernel and a gradient at exactly one of several points, `calc_KernGrad` with a mask for the first point set only broadcasts the row of that point (kernel/KernelRatQuad.py:494-505). `eval_model` then returns the right mean and standard deviation but wrong gradients of both, without any error. With several but not all gradients it raises. | `C04_ratQuad_single_gradient`, `C39_single_gradient_wrong`, `C39_single_gradient_example` |
| C83 | With the varying nugget (the default unless a constant one is configured) more data can make predictions less certain: for noise-free values at two distinct points, adding the second one strictly increases the standard deviation at the first one, for every kernel, hyperparameters and condition number target, because the nugget grows with the row sums of the kernel matrix. | `C83_varying_nugget` |
| C07 | Matérn length-scale derivatives are wrong (by a negligible amount) exactly when two distinct points are closer than 1e-16. | `C07_matern_iff`, `C07_matern_error` |
| C11 | Matérn x derivatives likewise. | `C11_matern_iff`, `C11_matern_error` |
| C41 | Hessians at two or more points always raise although the docstring promises them. | `C41_several_points_raise` |
| C86 | set_data writes the counts before it checks the data: a rejected data set leaves the old points with the new counts. | `C86_rejected_damages` |
| C87 | `nlc_init_2_scl` and `nlc_scl_2_init` multiply Hessians by the square of one scale: mixed second derivatives are wrong whenever the two coordinates have different scales. `nlc_scl_2_init` raises AttributeError when the values are omitted, although they are optional; `nlc_init_2_scl` raises TypeError without standard deviations. | `C87_hessian_iff`, `C87_absent_values_raise` |
| C92 | `optz_max_init_cond` starts at NaN and `np.max` propagates NaN, so it is always NaN; `optz_n_cho_fail` counts NaN likelihoods, but a failed factorisation puts minus the condition number there, so it is always 0. | `C92_useless_statistics`, `C92_useless_history` |
| C98 | `get_txt_info_surr` with `save2file=True` (or `save_data_txt`) always raises AttributeError: `save_txt_data` and the paths exist nowhere. | `C98_save_raises` |
| C100 | The penalty on the process variance multiplies a variance with the square of a variance: in other units it changes by the sixth power of the unit, so that with `lkd_varK_pnlt_use` the chosen hyperparameters depend on the units of the data. | `C100_penalty_units_discrepancy` |
| C101 | The standard deviations of noisy models do not follow the units of the data: in units of another size the standard deviation at a single noisy point is never the old one in the new units, even though data, noise and hyperparameters are all restated (consequence of C36). | `C101_noise_units_discrepancy` |
| C107 | `calc_sq_exp_2d_corr` ignores its arguments and returns the surface over the module variables `Xrvec`, `Yrvec`. | `C107_surface_ignores_arguments` |
| C109 | The figures of `plt_cond.py` show the second length scale on the axis labelled with the first one, and the marker of the maximum likewise. | `C109_axes_swapped` |
| C118 | `plt_nugget_1d.py` tests diagonal dominance with row sums that include the diagonal: only the identity passes. | `C118_diagdom_flag` |
| C119 | The reported variance ignores that the mean coefficient was estimated: far from the data it is smaller than the mean squared error, even with the true process variance. | `C119_reported_variance_discrepancy` |
| C120 | With `n_iter_max` given, `load_npz_data` clips the rows of `merit_all` and `opt_all` but not of `fsb_all`, which has another shape. | `C120_loaded` |
| C131 | The assertion that the variance is not negative comes before the line that clips small negative values, so that line never acts: at an evaluated point of a model without noise and nugget arbitrarily small rounding errors make `eval_model` raise. | `C131_raises` |
| C132 | Without gradients `plt_surr_1d.py` plots position 62 of the scan whatever the likelihoods are (it raises for fewer than 63 values) and ignores the local maxima it has computed; with `RatQu`, one of the listed kernels, it raises because it gives no kernel parameter. | `C132_scan`, `C132_too_few`, `C132_ratquad_raises` |
| C138 | The contour that `plot_lkd` in `plt_cond.py` adds at the level log10(cond_max) is one of the scaled likelihoods (at most 1) instead of the condition numbers, so it is never drawn. | `C138_contour_partial`, `C138_never_drawn` |

Other facts found while modelling, stated in comments of the model or as examples: an explicit `x_shift_in` makes `set_xscale` raise;
`eval_model_var` raises with data scaling; the cache of the likelihood callbacks never hits (C64 holds trivially for the values, and the
histories are proved to be independent); the file-name attributes of `export_data_surr` do not exist.

## 5. Axioms

`#print axioms` of every theorem in MANIFEST.json prints a subset of `[propext, Classical.choice, Quot.sound]` (checked by script
and by the gate). No axiom is declared in the project; there is no use of compiled evaluation in proofs.

## 6. Tests of the theorems

`seeded/LOG.jsonl` has one line per edit of the model in a scratch copy: the definition, the edit, the claim it breaks, the theorems that no
longer prove. Edits marked as control do not change the meaning for the modelled inputs. Survivors led to stronger theorems
(`theorems_tightened`).
