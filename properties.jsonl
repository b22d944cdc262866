{"id": "C01", "title": "Gradient-enhanced squared-exponential matrix is the joint covariance of values and partial derivatives", "statement": "For the squared-exponential kernel, calc_KernGrad with no gradient masks returns an (n1+n1*dim) x (n2+n2*dim) matrix whose [p,q] entry is k(x_p,y_q) for value rows/columns, dk/dx_i for gradient row i, dk/dy_j for gradient column j, and d2k/dx_i dy_j for gradient-gradient entries, in the layout (all values, then all derivatives wrt coordinate 0, then coordinate 1, ...).", "quantifier": "all dimensions, all n1, n2, all point sets, all theta", "why_tests_cant": "The claim ranges over every dimension, every number of points and every real coordinate; a finite-difference test samples a few points at finite tolerance.", "anchors": ["gpgradpy/src/kernel/KernelSqExp.py: sq_exp_calc_KernGrad", "gpgradpy/src/base/CommonFun.py: calc_Rtensor"]}
{"id": "C02", "title": "Gradient-enhanced Matern 5/2 matrix is the joint covariance of values and partial derivatives", "statement": "Same statement as C01 for the Matern 5/2 kernel, including coincident points, where the distance is not differentiable.", "quantifier": "all dimensions, all n1, n2, all point sets (including coincident points), all nonnegative theta", "why_tests_cant": "The claim ranges over every dimension, every number of points and every real coordinate; a finite-difference test samples a few points at finite tolerance. The coincident-point case is a removable singularity where finite differences lose all accuracy.", "anchors": ["gpgradpy/src/kernel/KernelMatern5f2.py: matern_5f2_calc_KernGrad"]}
{"id": "C03", "title": "Gradient-enhanced rational-quadratic matrix is the joint covariance of values and partial derivatives", "statement": "Same statement as C01 for the rational quadratic kernel with shape alpha > 0.", "quantifier": "all dimensions, all n1, n2, all point sets, all nonnegative theta, all alpha > 0", "why_tests_cant": "The claim ranges over every dimension, every number of points and every real coordinate; a finite-difference test samples a few points at finite tolerance.", "anchors": ["gpgradpy/src/kernel/KernelRatQuad.py: rat_quad_calc_KernGrad"]}
{"id": "C04", "title": "A gradient mask selects exactly the masked rows and columns", "statement": "For every kernel, calc_KernGrad called with boolean masks for the first and/or second point set returns exactly the sub-matrix of the unmasked result that keeps all value rows/columns and the gradient rows/columns of the selected points, in unchanged order.", "quantifier": "all three kernels, all point sets, all masks on either argument (absent, all-false, all-true, arbitrary)", "why_tests_cant": "There are 2^n1*2^n2 masks and the code has a separate code path for each of the four present/absent combinations and per-kernel variants.", "anchors": ["gpgradpy/src/kernel/KernelSqExp.py: sq_exp_calc_KernGrad", "gpgradpy/src/kernel/KernelMatern5f2.py: matern_5f2_calc_KernGrad", "gpgradpy/src/kernel/KernelRatQuad.py: rat_quad_calc_KernGrad", "gpgradpy/src/kernel/Kernel.py: calc_KernGrad"]}
{"id": "C05", "title": "Base kernels are correlations", "statement": "For each kernel the gradient-free kernel matrix has entry k(x_p,y_q) given by the documented closed form, every entry lies in (0,1], entries are 1 when the points coincide, and the matrix of a point set with itself is symmetric.", "quantifier": "all dimensions, point sets, nonnegative theta, alpha > 0", "why_tests_cant": "Universally quantified over real coordinates and array sizes.", "anchors": ["gpgradpy/src/kernel/KernelSqExp.py: sq_exp_calc_KernBase", "gpgradpy/src/kernel/KernelMatern5f2.py: matern_5f2_calc_KernBase", "gpgradpy/src/kernel/KernelRatQuad.py: rat_quad_calc_KernBase"]}
{"id": "C06", "title": "Gradient-free hyperparameter derivative is the true derivative", "statement": "For each kernel, slice d of calc_KernBase_grad_th is the partial derivative of calc_KernBase with respect to theta_d.", "quantifier": "all three kernels, all dimensions, all point sets, all theta > 0, all directions d", "why_tests_cant": "A wrong formula can still give a descent direction so optimisation tests pass; only the derivative identity for all inputs settles it.", "anchors": ["gpgradpy/src/kernel/KernelSqExp.py: sq_exp_calc_KernBase_grad_th", "gpgradpy/src/kernel/KernelMatern5f2.py: matern_5f2_calc_KernBase_grad_th", "gpgradpy/src/kernel/KernelRatQuad.py: rat_quad_calc_KernBase_grad_th"]}
{"id": "C07", "title": "Gradient-enhanced hyperparameter derivative is the true derivative", "statement": "For each kernel, slice d of calc_KernGrad_grad_th without a mask is the entrywise partial derivative with respect to theta_d of the matrix calc_KernGrad returns.", "quantifier": "all three kernels, all dimensions, all point sets, all theta > 0, all d, all entries", "why_tests_cant": "The claim ranges over every dimension, every number of points and every real coordinate; a finite-difference test samples a few points at finite tolerance.", "anchors": ["gpgradpy/src/kernel/KernelSqExp.py: sq_exp_calc_KernGrad_grad_th", "gpgradpy/src/kernel/KernelMatern5f2.py: matern_5f2_calc_KernGrad_grad_th", "gpgradpy/src/kernel/KernelRatQuad.py: rat_quad_calc_KernGrad_grad_th"]}
{"id": "C08", "title": "Hyperparameter derivative with a gradient mask", "statement": "When gradients are available at only some points, calc_KernGrad_grad_th with that mask returns the entrywise theta-derivative of the masked calc_KernGrad matrix.", "quantifier": "all three kernels, all dimensions, all masks with at least one and fewer than n true entries", "why_tests_cant": "Mask x dimension combinatorics; some masks happen to broadcast while others raise.", "anchors": ["gpgradpy/src/kernel/KernelSqExp.py: sq_exp_calc_KernGrad_grad_th_jit", "gpgradpy/src/kernel/KernelMatern5f2.py: matern_5f2_calc_KernGrad_grad_th_jit", "gpgradpy/src/kernel/KernelRatQuad.py: rat_quad_calc_KernGrad_grad_th_jit"]}
{"id": "C09", "title": "Rational quadratic shape derivative", "statement": "calc_KernBase_grad_alpha and calc_KernGrad_grad_alpha of the rational quadratic kernel are the entrywise derivatives wrt alpha of calc_KernBase and calc_KernGrad.", "quantifier": "all dimensions, all point sets, all theta >= 0, alpha > 0, every entry, with and without mask", "why_tests_cant": "The claim ranges over every dimension, every number of points and every real coordinate; a finite-difference test samples a few points at finite tolerance.", "anchors": ["gpgradpy/src/kernel/KernelRatQuad.py: rat_quad_calc_KernBase_grad_alpha", "gpgradpy/src/kernel/KernelRatQuad.py: rat_quad_calc_KernGrad_grad_alpha"]}
{"id": "C10", "title": "Second x-derivatives of the base kernel", "statement": "calc_KernBase_hess_x returns at [k, i*n1+a, b] the second partial derivative d2k/dx_k dx_i at (x_a,y_b), for each kernel.", "quantifier": "all three kernels, all dimensions, all point sets including coincident points", "why_tests_cant": "The claim ranges over every dimension, every number of points and every real coordinate; a finite-difference test samples a few points at finite tolerance.", "anchors": ["gpgradpy/src/kernel/KernelSqExp.py: sq_exp_calc_KernBase_hess_x", "gpgradpy/src/kernel/KernelMatern5f2.py: matern_5f2_calc_KernBase_hess_x", "gpgradpy/src/kernel/KernelRatQuad.py: rat_quad_calc_KernBase_hess_x"]}
{"id": "C11", "title": "x-derivatives of the gradient-enhanced kernel rows", "statement": "calc_KernGrad_grad_x returns d2/dx_k dx_i of every column of the gradient-enhanced cross-covariance (values and derivative columns).", "quantifier": "all three kernels, all dimensions, all point sets, with and without column mask", "why_tests_cant": "The claim ranges over every dimension, every number of points and every real coordinate; a finite-difference test samples a few points at finite tolerance. With a mask the column slices have the wrong width.", "anchors": ["gpgradpy/src/kernel/KernelSqExp.py: sq_exp_calc_KernGrad_grad_x", "gpgradpy/src/kernel/KernelMatern5f2.py: matern_5f2_calc_KernGrad_grad_x", "gpgradpy/src/kernel/KernelRatQuad.py: rat_quad_calc_KernGrad_grad_x"]}
{"id": "C12", "title": "Gradient-enhanced kernel matrix is symmetric with the preconditioner's squares on the diagonal", "statement": "For a point set against itself (same mask on both sides) calc_KernGrad is symmetric, its value-diagonal is 1 and its gradient-diagonal for coordinate i is gamma_i^2 where gamma=theta2gamma(theta).", "quantifier": "all three kernels, all dimensions, point sets, masks, theta >= 0", "why_tests_cant": "The claim ranges over every dimension, every number of points and every real coordinate; a finite-difference test samples a few points at finite tolerance.", "anchors": ["gpgradpy/src/kernel/Kernel.py: calc_KernGrad", "gpgradpy/src/kernel/KernelSqExp.py: sq_exp_theta2gamma", "gpgradpy/src/kernel/KernelMatern5f2.py: matern_5f2_theta2gamma", "gpgradpy/src/kernel/KernelRatQuad.py: rat_quad_theta2gamma"]}
{"id": "C13", "title": "Base kernel matrices are positive semidefinite", "statement": "For each kernel and any point set the gradient-free kernel matrix of the set with itself is positive semidefinite.", "quantifier": "all point sets of any size and dimension (duplicates allowed), theta >= 0, alpha > 0", "why_tests_cant": "Positive definiteness is a statement about all weight vectors and all configurations; eigenvalue tests are dominated by rounding exactly in the interesting near-singular cases.", "anchors": ["gpgradpy/src/kernel/KernelSqExp.py: sq_exp_calc_KernBase", "gpgradpy/src/kernel/KernelMatern5f2.py: matern_5f2_calc_KernBase", "gpgradpy/src/kernel/KernelRatQuad.py: rat_quad_calc_KernBase"]}
{"id": "C14", "title": "Gradient-enhanced kernel matrices are positive semidefinite", "statement": "For each kernel and any point set and mask, the gradient-enhanced kernel matrix of the set with itself is positive semidefinite.", "quantifier": "all point sets of any size and dimension, all masks, theta >= 0, alpha > 0", "why_tests_cant": "As C13; additionally ranges over all masks.", "anchors": ["gpgradpy/src/kernel/KernelSqExp.py: sq_exp_calc_KernGrad", "gpgradpy/src/kernel/KernelMatern5f2.py: matern_5f2_calc_KernGrad", "gpgradpy/src/kernel/KernelRatQuad.py: rat_quad_calc_KernGrad"]}
{"id": "C15", "title": "Preconditioner vector, inverse, derivative; theta/gamma conversion", "statement": "theta2gamma and gamma2theta are mutually inverse on positive reals; Kern_precon returns a vector (or diagonal matrix) with 1 for each value and gamma_i for each derivative wrt coordinate i, its elementwise inverse, and the derivative of the vector wrt each theta_i.", "quantifier": "all three kernels, all theta > 0, all n_eval, n_grad, dim", "why_tests_cant": "Layout must hold for every (n_eval, n_grad, dim) triple, where n_grad != n_eval.", "anchors": ["gpgradpy/src/kernel/KernelCommon.py: calc_grad_precon_matrix", "gpgradpy/src/kernel/KernelSqExp.py: sq_exp_Kern_precon", "gpgradpy/src/kernel/KernelMatern5f2.py: matern_5f2_Kern_precon", "gpgradpy/src/kernel/KernelRatQuad.py: rat_quad_Kern_precon"]}
{"id": "C16", "title": "Pairwise difference tensor and distance extrema", "statement": "calc_Rtensor(x,y) returns x_a[d]-y_b[d] at [d,a,b] and raises when the dimensions differ; calc_dist_min/calc_dist_max return the minimum/maximum euclidean distance over distinct pairs, and calc_dist_min is NaN for a single point.", "quantifier": "all point sets", "why_tests_cant": "Universally quantified over the number of points and dimensions.", "anchors": ["gpgradpy/src/base/CommonFun.py: calc_Rtensor, calc_dist_min, calc_dist_max, make_data_vec"]}
{"id": "C17", "title": "Covariance matrix has the documented closed form in every conditioning mode", "statement": "The covariance the model uses equals varK*(Kern + N/varK + eta*D), where N is the diagonal noise matrix, D is the identity without preconditioning and diag(Kern)+N/varK with it; the correlation matrix used for conditioning has unit diagonal.", "quantifier": "all kernels, all data sets, all hyperparameters with varK > 0, all conditioning methods", "why_tests_cant": "The matrix is assembled through several in-place scalings whose order depends on four flags.", "anchors": ["gpgradpy/src/kernel/Kernel.py: calc_all_K_w_chofac"]}
{"id": "C18", "title": "Returned Cholesky factor factors the returned covariance", "statement": "Whenever a factor is returned, solving with it inverts the returned covariance matrix and its log-determinant is that of the covariance matrix, with and without preconditioning.", "quantifier": "all positive definite covariance matrices, both conventions (upper factor; preconditioned lower factor)", "why_tests_cant": "Must hold for each matrix size and each factor convention; numerically it is only tested to tolerance.", "anchors": ["gpgradpy/src/kernel/Kernel.py: calc_all_K_w_chofac", "gpgradpy/src/optz/CalcLkd.py: calc_detKmat"]}
{"id": "C19", "title": "The covariance matrix is always positive definite", "statement": "With a positive nugget and varK > 0, the covariance matrix assembled from any data set and any admissible hyperparameters is positive definite, so the exact Cholesky factorisation exists.", "quantifier": "all kernels, all data sets including duplicated points, all theta > 0, varK > 0, any nonnegative noise", "why_tests_cant": "Statement over all inputs; in testing one can only fail to find a counterexample.", "anchors": ["gpgradpy/src/kernel/Kernel.py: calc_all_K_w_chofac", "gpgradpy/src/base/GpWellCond.py: calc_nugget"]}
{"id": "C20", "title": "Condition-number guarantee of the preconditioned gradient-enhanced covariance", "statement": "With the preconditioning method and the nugget the library computes, the condition number of the preconditioned covariance is at most cond_max_target for every data set and every theta > 0, for all three kernels.", "quantifier": "all n_eval, dim, point sets, theta > 0, noise >= 0, cond_max_target > 1", "why_tests_cant": "This is the headline guarantee of the library; it is a supremum over all point sets and hyperparameters.", "anchors": ["gpgradpy/src/base/GpWellCond.py: calc_nugget, calc_nugget_Kfull_precon", "gpgradpy/src/kernel/Kernel.py: calc_all_K_w_chofac"]}
{"id": "C21", "title": "Condition-number guarantee of the gradient-free covariance", "statement": "For a gradient-free model with the constant nugget n/(cond_max-1), the condition number of the noise-free covariance is at most cond_max_target for every data set and hyperparameters.", "quantifier": "all n_eval, point sets, theta > 0, cond_max_target > 1", "why_tests_cant": "Supremum over all point sets.", "anchors": ["gpgradpy/src/base/GpWellCond.py: calc_nugget_Kbase", "gpgradpy/src/kernel/Kernel.py: calc_all_K_w_chofac"]}
{"id": "C22", "title": "Condition-number guarantee with a varying nugget", "statement": "When the nugget is computed from the matrix (max absolute row sum over cond_max-1) the condition number of the regularised matrix is at most cond_max_target for any positive semidefinite kernel matrix.", "quantifier": "all PSD matrices of any size", "why_tests_cant": "Supremum over all PSD matrices.", "anchors": ["gpgradpy/src/kernel/Kernel.py: calc_all_K_w_chofac", "gpgradpy/src/base/GpWellCond.py: calc_nugget"]}
{"id": "C23", "title": "Nugget calculation never aborts and is positive", "statement": "For every n_eval >= 1 and dim >= 1 and cond_max_target > 1, calc_nugget for every conditioning method returns without tripping its assertions, a positive nugget, which decreases when cond_max_target grows.", "quantifier": "all n_eval >= 1, dim >= 1, cond_max_target > 1, all methods", "why_tests_cant": "The internal assertions compare transcendental expressions with a tolerance of 1%; whether they can fire for some n, dim cannot be sampled.", "anchors": ["gpgradpy/src/base/GpWellCond.py: calc_nugget_Kfull_vreq, calc_nugget"]}
{"id": "C24", "title": "Noise vector layout and degenerate noise arguments", "statement": "calc_noise_vec returns the variance of each entry of the data vector in the same order as the data vector: value variances first and then derivative variances coordinate-major; in every supported combination of known/unknown/absent noise it returns a vector of that length.", "quantifier": "all combinations of use_grad, known/unknown std for values and gradients, masks, sizes", "why_tests_cant": "Cartesian product of flags with all sizes.", "anchors": ["gpgradpy/src/kernel/Kernel.py: calc_noise_vec", "gpgradpy/src/base/CommonFun.py: make_data_vec"]}
{"id": "C25", "title": "Constant mean coefficient is the generalised least squares optimum", "statement": "The mean coefficient the model uses minimises (y-V b)^T K^-1 (y-V b) over all b and makes the weighted residual orthogonal to the basis; its hyperparameter derivative is the true derivative.", "quantifier": "all positive definite K, all data vectors, all basis matrices with full column rank", "why_tests_cant": "Optimality over all competitors b.", "anchors": ["gpgradpy/src/eval/GpMeanFun.py: calc_model_max_lkd_poly"]}
{"id": "C26", "title": "Closed-form process variance maximises the likelihood", "statement": "In the noise-free case, the closed-form variance is the maximiser over varK > 0 of the Gaussian log-likelihood (when it exceeds the floor), and the profile likelihood the optimiser sees equals the full log-likelihood at that variance up to a constant independent of the hyperparameters.", "quantifier": "all data vectors with nonzero residual, all positive definite correlation matrices, all varK > 0", "why_tests_cant": "Global optimality over a continuum.", "anchors": ["gpgradpy/src/optz/CalcLkd.py: calc_lkd_opt_varK, calc_lkd_wo_noise"]}
{"id": "C27", "title": "Likelihood value is the Gaussian log density", "statement": "calc_lkd_w_Kcov and the noisy likelihood return log N(y; V beta, Kcov) plus a constant that depends only on the number of data.", "quantifier": "all data vectors and positive definite covariances", "why_tests_cant": "Statement over all matrices.", "anchors": ["gpgradpy/src/optz/CalcLkd.py: calc_lkd_w_Kcov, calc_lkd_w_noise"]}
{"id": "C28", "title": "Noise-free likelihood gradient is the derivative of the reported likelihood", "statement": "Wherever the closed-form variance exceeds its floor, the gradient returned with the noise-free likelihood is the derivative of the returned likelihood wrt each hyperparameter, including the dependence of the mean coefficient and the variance on the hyperparameters.", "quantifier": "all differentiable positive definite covariance families, all data vectors, all hyperparameter directions", "why_tests_cant": "Derivative identity for all inputs; finite differences only sample.", "anchors": ["gpgradpy/src/optz/CalcLkd.py: calc_lkd_wo_noise, calc_lkd_adjoint, calc_lkd_direct"]}
{"id": "C29", "title": "Adjoint and direct likelihood gradients agree", "statement": "The two implementations of the likelihood gradient return identical values (in exact arithmetic) for every input.", "quantifier": "all inputs", "why_tests_cant": "Universally quantified over matrices.", "anchors": ["gpgradpy/src/optz/CalcLkd.py: calc_lkd_direct, calc_lkd_adjoint"]}
{"id": "C30", "title": "Noisy likelihood gradient is the derivative of the reported likelihood", "statement": "When noise is present the returned gradient is the derivative of the returned likelihood wrt every hyperparameter (theta, kernel, varK, noise variances).", "quantifier": "all differentiable positive definite covariance families, all data vectors", "why_tests_cant": "Derivative identity for all inputs.", "anchors": ["gpgradpy/src/optz/CalcLkd.py: calc_lkd_w_noise"]}
{"id": "C31", "title": "Covariance hyperparameter gradient is the derivative of the covariance", "statement": "calc_Kcov_grad_hp returns, for each optimised hyperparameter in the optimiser's order, the derivative of the covariance matrix the model factorises, in every conditioning mode.", "quantifier": "all conditioning modes, all kernels, all hyperparameter subsets, all data", "why_tests_cant": "Cross product of modes and hyperparameters; errors appear as slow optimiser convergence, not failures.", "anchors": ["gpgradpy/src/optz/GpHparaGrad.py: calc_Kcov_grad_hp, calc_KernGrad_hp"]}
{"id": "C32", "title": "Optimiser gradient accounts for the log10 parametrisation", "statement": "The objective gradient given to the optimiser is the derivative of the objective wrt the optimiser's own variables (log10 of the hyperparameters where so parametrised).", "quantifier": "all hyperparameter vectors, all layouts", "why_tests_cant": "Derivative identity over the continuum.", "anchors": ["gpgradpy/src/optz/OptzLkd.py: calc_store_likelihood", "gpgradpy/src/base/GpHpara.py: hp_vec2dataclass"]}
{"id": "C33", "title": "Likelihood penalty and its gradient agree", "statement": "The likelihood penalty added for a too-large variance has the reported gradient as its derivative; with no penalty configured it is zero.", "quantifier": "all variances and thresholds", "why_tests_cant": "Derivative identity for all inputs.", "anchors": ["gpgradpy/src/optz/CalcLkd.py: calc_lkd_penalty"]}
{"id": "C34", "title": "Objective stays defined when the factorisation fails", "statement": "If the covariance cannot be factorised, the optimiser receives a finite objective worse than successful points and a gradient consistent with that objective, in every conditioning mode.", "quantifier": "all failing covariance matrices, all modes", "why_tests_cant": "The failing path is reached only by rare hyperparameters.", "anchors": ["gpgradpy/src/optz/OptzLkd.py: calc_store_likelihood", "gpgradpy/src/optz/GpHparaCon.py: calc_cond_w_grad"]}
{"id": "C35", "title": "Condition-number constraint gradient", "statement": "The condition number and gradient used as a constraint are consistent: the returned gradient is the derivative of the returned value wrt the hyperparameters.", "quantifier": "all differentiable invertible covariance families", "why_tests_cant": "Derivative identity for all inputs.", "anchors": ["gpgradpy/src/optz/GpHparaCon.py: calc_cond_fro, calc_cond_L2"]}
{"id": "C36", "title": "Predicted mean is the Gaussian posterior mean", "statement": "eval_model's mean at any point equals the conditional expectation of the function value given the data under the GP prior with the current hyperparameters and noise.", "quantifier": "all data sets, all evaluation points, all hyperparameters, with or without gradients and noise", "why_tests_cant": "Equality with a conditional expectation for all inputs.", "anchors": ["gpgradpy/src/eval/GpEvalModel.py: eval_model, setup_eval_model"]}
{"id": "C37", "title": "Predicted variance is between zero and the prior variance", "statement": "eval_model's variance equals the conditional variance under the model and lies in [0, varK]; the non-negativity assertion in the code cannot fire in exact arithmetic.", "quantifier": "all data sets, all evaluation points, all hyperparameters", "why_tests_cant": "A single violating configuration would abort the program.", "anchors": ["gpgradpy/src/eval/GpEvalModel.py: eval_model"]}
{"id": "C38", "title": "Predictions interpolate the data up to the nugget", "statement": "At an evaluated point, the difference between the datum and the prediction (value, and derivative where a gradient was supplied) is exactly the regularisation-plus-noise diagonal entry times the corresponding weight; with no nugget and no noise the model interpolates values and gradients exactly.", "quantifier": "all data sets, all data points, all coordinates", "why_tests_cant": "Identity over all data sets; numerically invisible under ill-conditioning.", "anchors": ["gpgradpy/src/eval/GpEvalModel.py: eval_model, calc_dmudx"]}
{"id": "C39", "title": "Mean gradient is the derivative of the mean", "statement": "The gradient of the mean returned by eval_model is the derivative of the mean it returns, at every point.", "quantifier": "all data sets, all evaluation points, all kernels, with and without masks (rational quadratic: masks that leave out no point; otherwise the code raises or, with a single gradient, is wrong)", "why_tests_cant": "Derivative identity for all inputs.", "anchors": ["gpgradpy/src/eval/GpEvalModel.py: eval_model, calc_dmudx"]}
{"id": "C40", "title": "Standard-deviation gradient is the derivative of the standard deviation", "statement": "The gradient of sigma returned by eval_model is the derivative of the sigma it returns wherever sigma > 0, and zero where sigma is 0.", "quantifier": "all data sets and evaluation points (rational quadratic: masks that leave out no point, see C39)", "why_tests_cant": "Derivative identity for all inputs and the sigma=0 branch.", "anchors": ["gpgradpy/src/eval/GpEvalModel.py: calc_dsig2dx, calc_dsigdx"]}
{"id": "C41", "title": "Hessians are the second derivatives", "statement": "The Hessians of the mean and standard deviation returned by eval_model are the second derivatives of what it returns.", "quantifier": "all data sets and evaluation points, sigma > 0", "why_tests_cant": "Derivative identity for all inputs.", "anchors": ["gpgradpy/src/eval/GpEvalModel.py: calc_d2mudx2, calc_d2sigdx2"]}
{"id": "C42", "title": "eval_model_var is consistent with eval_model", "statement": "eval_model_var returns at each point the square of the standard deviation that eval_model returns there, and its gradient is the derivative of that variance.", "quantifier": "all data sets, hyperparameters and batches of evaluation points", "why_tests_cant": "Identity and derivative identity over all batches.", "anchors": ["gpgradpy/src/eval/GpEvalModel.py: eval_model_var"]}
{"id": "C43", "title": "Batch evaluation equals pointwise evaluation", "statement": "Evaluating a batch of points returns for each point what evaluating it alone returns (mean, sigma and gradients).", "quantifier": "all batches of any size and order", "why_tests_cant": "All batch sizes and permutations.", "anchors": ["gpgradpy/src/eval/GpEvalModel.py: eval_model"]}
{"id": "C44", "title": "Stale-model guard", "statement": "Evaluating after the hyperparameters were replaced by different ones without setting the model up again is rejected; evaluating right after setup is accepted.", "quantifier": "all sequences of set-hyperparameter, setup and evaluate calls", "why_tests_cant": "Ranges over call histories.", "anchors": ["gpgradpy/src/eval/GpEvalModel.py: eval_model", "gpgradpy/src/GaussianProcess.py: set_hpara"]}
{"id": "C45", "title": "Predictions in original units obey the chain rule", "statement": "Converting mean, sigma, gradients and Hessians from scaled to original coordinates gives the value, derivative and Hessian of the same function expressed in the original coordinates.", "quantifier": "all positive per-coordinate scales, shifts and differentiable functions", "why_tests_cant": "Derivative identity for all functions and scales; isotropic tests hide per-axis errors.", "anchors": ["gpgradpy/src/base/Rescaling.py: obj_scl_2_init, obj_init_2_scl", "gpgradpy/src/GaussianProcess.py: data_scl_2_init"]}
{"id": "C46", "title": "Scaling maps are mutually inverse", "statement": "x_init_2_scl and x_scl_2_init are inverse bijections, and so are obj_init_2_scl and obj_scl_2_init (values, standard deviations, gradients and Hessians), for any nonzero scales.", "quantifier": "all points, scales, shifts", "why_tests_cant": "For all reals.", "anchors": ["gpgradpy/src/base/Rescaling.py: x_init_2_scl, x_scl_2_init, obj_init_2_scl, obj_scl_2_init"]}
{"id": "C47", "title": "Requested minimum/maximum distance is attained", "statement": "After scaling with the set_vmin / set_vmax method, the minimum / maximum distance between scaled points equals the requested one.", "quantifier": "all point sets with distinct points, all requested distances > 0", "why_tests_cant": "For all point sets.", "anchors": ["gpgradpy/src/base/Rescaling.py: _calc_x_shift_n_scale, _calc_x2_isoscaling"]}
{"id": "C48", "title": "Objective scaling centres the best value and normalises the range", "statement": "After default objective scaling the objective at the designated best point is 0 and the range of the scaled objective is the configured range when the data range is above the floor; ordering of objective values is preserved.", "quantifier": "all objective vectors, all best indices", "why_tests_cant": "For all vectors.", "anchors": ["gpgradpy/src/base/Rescaling.py: _calc_obj_scaling"]}
{"id": "C49", "title": "Scaled data always correspond to the original data", "statement": "After any sequence of rescaling and data-setting operations, the scaled points, objective and constraint data held by the object are the images of the stored original data under the current scaling.", "quantifier": "all operation sequences", "why_tests_cant": "Ranges over histories.", "anchors": ["gpgradpy/src/base/Rescaling.py: set_xscale_data, set_obj_data, set_obj_scaling, set_boxcon, set_lincon, set_nlc_data"]}
{"id": "C50", "title": "Constraint scaling preserves feasibility", "statement": "A point satisfies the box (linear) constraints in original coordinates iff its image satisfies the scaled constraints.", "quantifier": "all points, bounds, matrices, positive scales", "why_tests_cant": "Equivalence over all points.", "anchors": ["gpgradpy/src/base/Rescaling.py: boxcon_init_2_scl, lincon_init_2_scl"]}
{"id": "C51", "title": "Nonlinear-constraint data can be rescaled", "statement": "Setting nonlinear-constraint data with default options succeeds, and subsequently changing the x-scaling keeps constraint data consistent.", "quantifier": "all nonlinear-constraint data", "why_tests_cant": "Ranges over histories of calls; the failing path needs a particular order.", "anchors": ["gpgradpy/src/base/Rescaling.py: set_nlc_data, set_xscale_data"]}
{"id": "C52", "title": "Moving length scales into the data leaves the model unchanged", "statement": "Rescaling the data so that all length scales coincide leaves the base kernel matrix unchanged and makes the minimum distance equal to the requested one.", "quantifier": "all point sets with distinct points, theta > 0, requested distances > 0, all kernels", "why_tests_cant": "For all point sets.", "anchors": ["gpgradpy/src/base/GpWellCond.py: rescaling_data_w_theta_sol"]}
{"id": "C53", "title": "Iterative rescaling during optimisation preserves the optimised model", "statement": "After hyperparameter optimisation with a rescaling method, the stored scaling and hyperparameters represent the same kernel as the best hyperparameters found.", "quantifier": "all optimiser outcomes, all rescaling methods", "why_tests_cant": "Ranges over optimiser outcomes and iterations.", "anchors": ["gpgradpy/src/optz/OptzLkd.py: set_hpara_optz_rescale_x"]}
{"id": "C54", "title": "Hyperparameter layout partitions the optimiser vector", "statement": "The index ranges assigned to theta, kernel, varK and noise hyperparameters are disjoint, in order, and cover the optimiser vector exactly.", "quantifier": "all combinations of optimised hyperparameters and dimensions", "why_tests_cant": "Cartesian product of flags and all dimensions.", "anchors": ["gpgradpy/src/optz/GpHparaOptz.py: set_hp_optz_info"]}
{"id": "C55", "title": "Hyperparameter vector decoding inverts encoding", "statement": "Encoding hyperparameters in the optimiser's vector (log10 where configured) and decoding yields the same hyperparameters, for each layout.", "quantifier": "all layouts and positive hyperparameter values", "why_tests_cant": "Cartesian product of layouts with a continuum of values.", "anchors": ["gpgradpy/src/base/GpHpara.py: hp_vec2dataclass", "gpgradpy/src/optz/GpHparaOptz.py: set_hp_optz_info"]}
{"id": "C56", "title": "Optimiser bounds are ordered and match the layout", "statement": "get_hp_bounds returns one (lower, upper) pair per optimised hyperparameter with lower < upper, in the layout order.", "quantifier": "all layouts, all data", "why_tests_cant": "All layouts.", "anchors": ["gpgradpy/src/optz/GpHparaCon.py: get_hp_bounds"]}
{"id": "C57", "title": "Starting points lie within the bounds", "statement": "Every starting hyperparameter vector handed to the optimiser lies within the bounds, has the right length, and there are at least the requested number of rows.", "quantifier": "all layouts, all random samples in the unit cube, all iteration numbers", "why_tests_cant": "Ranges over all random draws and all histories of previous solutions.", "anchors": ["gpgradpy/src/optz/GpHparaX0.py: select_hp_optz_x0, get_hp_x0_lhs_median"]}
{"id": "C58", "title": "The best optimisation run is selected", "statement": "Among the optimiser runs whose condition number satisfies the constraint, the stored hyperparameters are the ones with the highest likelihood; if none satisfies it, the best overall.", "quantifier": "all numbers of runs and all outcomes including failed (NaN) runs", "why_tests_cant": "All outcome vectors.", "anchors": ["gpgradpy/src/optz/OptzLkd.py: optz_hp_max_lkd"]}
{"id": "C59", "title": "Stored hyperparameters can be restored", "statement": "Hyperparameters stored at optimisation iteration i are the ones restored by selecting index i, for every history of stores.", "quantifier": "all store/restore histories within and beyond the initial capacity", "why_tests_cant": "Ranges over histories.", "anchors": ["gpgradpy/src/base/GpParaDef.py: store_new_para_surr, init_optz_surr", "gpgradpy/src/base/GpHpara.py: set_hp_from_idx"]}
{"id": "C60", "title": "Export then load restores the surrogate history", "statement": "Exporting the surrogate data and loading it returns the stored hyperparameter history.", "quantifier": "all histories", "why_tests_cant": "Ranges over histories.", "anchors": ["gpgradpy/src/base/GpParaDef.py: export_data_surr, load_data_surr"]}
{"id": "C61", "title": "Finishing truncates to the performed iterations", "statement": "finish_optz_surr keeps exactly the stored iterations in every history array, without altering them.", "quantifier": "all histories", "why_tests_cant": "Ranges over histories.", "anchors": ["gpgradpy/src/base/GpParaDef.py: finish_optz_surr"]}
{"id": "C62", "title": "Input validation of set_data", "statement": "set_data accepts only mutually consistent shapes: it rejects objective or gradient arrays whose number of rows differs from the number of points, and negative noise.", "quantifier": "all shape combinations", "why_tests_cant": "Cartesian product of shapes and flags.", "anchors": ["gpgradpy/src/GaussianProcess.py: set_data"]}
{"id": "C63", "title": "Noise classification", "statement": "After set_data, the known/unknown/noise-free flags agree with the supplied standard deviations: all-zero (below threshold) is noise-free, NaN/None is unknown, otherwise known.", "quantifier": "all std inputs", "why_tests_cant": "All inputs.", "anchors": ["gpgradpy/src/GaussianProcess.py: set_data"]}
{"id": "C64", "title": "Likelihood results are never stale", "statement": "Objective, gradient, constraint and constraint-gradient callbacks always return the values for the hyperparameter vector they are called with, for any call order.", "quantifier": "all sequences of callback calls", "why_tests_cant": "Ranges over call histories.", "anchors": ["gpgradpy/src/optz/OptzLkd.py: calc_store_likelihood, return_optz_lkd_obj"]}
{"id": "C65", "title": "Changing the conditioning method resets its configuration", "statement": "The configuration after set_wellcond_mtd depends only on the last requested method (and static options), not on the history of calls; unsupported methods are rejected.", "quantifier": "all sequences of set_wellcond_mtd calls", "why_tests_cant": "Ranges over histories.", "anchors": ["gpgradpy/src/GaussianProcess.py: set_wellcond_mtd"]}
{"id": "C66", "title": "Hyperparameter protocol: stored, custom, optimised", "statement": "set_hpara with each option leaves the object with exactly the requested hyperparameters, rejects missing arguments, and varK > 0 always holds afterwards.", "quantifier": "all sequences of set_hpara calls", "why_tests_cant": "Ranges over histories.", "anchors": ["gpgradpy/src/GaussianProcess.py: set_hpara", "gpgradpy/src/base/GpHpara.py: set_custom_hp"]}
{"id": "C67", "title": "Initial hyperparameters are admissible", "statement": "The hyperparameters used before any optimisation are positive, have the length demanded by the data and lie in the kernel's admissible range.", "quantifier": "all data sets", "why_tests_cant": "All data.", "anchors": ["gpgradpy/src/optz/GpHparaOptz.py: get_init_hp_vals", "gpgradpy/src/kernel/KernelRatQuad.py: rat_quad_hp_kernel_default"]}
{"id": "C68", "title": "Mean-function basis: gradient rows are derivatives of the value rows", "statement": "The augmented basis matrix has the basis functions at the data points in its value rows and their partial derivatives in its gradient rows, ordered like the data vector.", "quantifier": "all point sets, masks, polynomial orders supported", "why_tests_cant": "For all sizes.", "anchors": ["gpgradpy/src/eval/GpMeanFun.py: calc_vand, calc_aug_vand"]}
{"id": "C69", "title": "Data vector layout", "statement": "The data vector stacks objective values and then gradients coordinate-major so that entry p matches row p of the gradient-enhanced kernel matrix, also when only some points have gradients.", "quantifier": "all sizes, masks", "why_tests_cant": "For all sizes.", "anchors": ["gpgradpy/src/base/CommonFun.py: make_data_vec", "gpgradpy/src/GaussianProcess.py: set_data"]}
{"id": "C71", "title": "An optimised solution can be restored", "statement": "After a successful set_hpara('optz', i), set_hpara('stored', i) brings back exactly the optimised hyperparameters, whatever calls were made in between (optimisations at other iterations, failing calls, new data, other conditioning methods, finish_optz_surr with more than i iterations, load_data_surr of shorter histories), except a new initialisation of the history, another optimisation at i, or cutting or overwriting row i.", "quantifier": "all programs of API calls, optimisers and samplers", "why_tests_cant": "The history of calls between storing and restoring is unbounded and includes calls that raise part-way.", "anchors": ["gpgradpy/src/GaussianProcess.py: set_hpara", "gpgradpy/src/base/GpHpara.py: set_hp_from_idx", "gpgradpy/src/base/GpParaDef.py: store_new_para_surr"]}
{"id": "C72", "title": "With few points optimisation cannot fail", "statement": "With at most hp_const_n_eval points set_hpara('optz', i) succeeds for every accepted data set, does not call the optimiser, and uses the initial hyperparameters.", "quantifier": "all accepted data sets, all objects reachable by API calls, all optimisers", "why_tests_cant": "It must hold for every data set and configuration.", "anchors": ["gpgradpy/src/optz/GpHparaOptz.py: optz_hp, get_init_hp_vals"]}
{"id": "C73", "title": "Closed-form hyperparameters of the solution maximise the likelihood", "statement": "The mean coefficient (and for noise-free data the prior variance) stored after an optimisation is the maximiser of the Gaussian likelihood given the other optimised hyperparameters, and computing it never fails.", "quantifier": "all data sets, kernels and admissible solutions of the optimiser", "why_tests_cant": "A maximum over all means and variances cannot be tested pointwise.", "anchors": ["gpgradpy/src/optz/GpHparaOptz.py: optz_closed_form_hp", "gpgradpy/src/optz/CalcLkd.py: calc_lkd_all"]}
{"id": "C74", "title": "Predictions belong to the current data and hyperparameters", "statement": "On an object without data scaling, after set_data(d) and set_hpara('set', hp) return normally, eval_model succeeds at all points and returns the mean and standard deviation of the conditional distribution of the function given exactly the data d under the hyperparameters hp; nothing that was done with the object before (other data, failed calls, optimisations, other conditioning methods) has any influence.", "quantifier": "all programs of API calls before set_data, all accepted data sets, all admissible hyperparameters, all prediction points", "why_tests_cant": "The history of the object is unbounded and the conditional distribution is required for all data, hyperparameters and points; new data without a new set_hpara and a set_hpara that raises are the cases where it fails.", "anchors": ["gpgradpy/src/GaussianProcess.py: set_data, set_hpara", "gpgradpy/src/eval/GpEvalModel.py: setup_eval_model, eval_model"]}
{"id": "C75", "title": "Predictions with data scaling are the conditional distribution in the user's units", "statement": "On an object that rescales its data, after set_data(d) and set_hpara('set', hp) return normally, eval_model succeeds, and the mean and standard deviation it returns are those of the conditional distribution, given the data d in the units the user passed, of the Gaussian process whose length scales, prior variance and prior mean are hp converted to those units; nothing done with the object before has any influence.", "quantifier": "all programs of API calls before set_data, all rescaling methods, all accepted data sets (with and without gradients, noise, masks), all admissible hyperparameters, all prediction points", "why_tests_cant": "The identity has to hold for every data set, scaling and hyperparameter, and the history of the object is unbounded.", "anchors": ["gpgradpy/src/GaussianProcess.py: set_data, set_hpara", "gpgradpy/src/base/Rescaling.py: Rescaling", "gpgradpy/src/eval/GpEvalModel.py: setup_eval_model, eval_model"]}
{"id": "C76", "title": "What set_data stores on an object that rescales", "statement": "set_data on an object that rescales its data stores the given points and, as scaled points, a common multiple of their differences to the last point, spread so that the configured smallest (or largest) distance has the requested value; the scaled values preserve the order of the given values, are zero at the last point, and have range exactly 100 when the given range is at least 1e-20; for the rescaling from the origin the requested smallest distance is the one the condition number bound needs.", "quantifier": "all accepted data sets, all rescaling methods, all objects", "why_tests_cant": "It must hold for all point sets and values, with every rescaling method.", "anchors": ["gpgradpy/src/GaussianProcess.py: set_data", "gpgradpy/src/base/Rescaling.py: set_obj_data, _calc_x_shift_n_scale, _calc_obj_scaling", "gpgradpy/src/base/GpWellCond.py: calc_mtd_rescale_origin_vreq"]}
{"id": "C77", "title": "What an optimisation records", "statement": "When set_hpara('optz', i) returns normally, the object's hyperparameters are those written in row i of the history. With more points than the configured number of constant-hyperparameter points (and outside of the rescaling iterations) they are decoded from the run with the best admissible objective among the optimiser's runs from the generated starting points (a run is admissible when its constraint value is within the bound, when constraints are used). The condition number written in the row is, in the chosen norm, the condition number of the matrix that is factorised at exactly those hyperparameters, with a positive nugget; with the preconditioning method it never exceeds the configured target.", "quantifier": "all programs of API calls before, all optimiser outcomes, all data sets, all row indices", "why_tests_cant": "The optimiser is arbitrary and the condition number bound has to hold for every hyperparameter it can return and every data set.", "anchors": ["gpgradpy/src/optz/GpHparaOptz.py: optz_hp", "gpgradpy/src/optz/OptzLkd.py: optz_hp_max_lkd", "gpgradpy/src/base/GpParaDef.py: store_new_para_surr", "gpgradpy/src/GaussianProcess.py: set_hpara"]}
{"id": "C78", "title": "The optimisation of the hyperparameters succeeds", "statement": "With more points than the configured number of constant-hyperparameter points, set_hpara('optz', i) never raises as long as the optimiser, started inside the box, returns a number and a point inside the box: starting points are found, every evaluation and the final factorisation succeed, the row is stored, the model is set up, and the resulting hyperparameters are proper for the data, with every optimised one positive and within its configured range.", "quantifier": "all accepted data sets (any number of points, coinciding points included), kernels, nuggets, histories, iterations i >= 1, optimiser and sampler outcomes", "why_tests_cant": "Success depends on the positive definiteness of the covariance matrix for every data set and every hyperparameter vector in the box.", "anchors": ["gpgradpy/src/optz/GpHparaOptz.py: optz_hp", "gpgradpy/src/optz/GpHparaX0.py: select_hp_optz_x0", "gpgradpy/src/optz/OptzLkd.py: optz_hp_max_lkd", "gpgradpy/src/GaussianProcess.py: set_hpara"]}
{"id": "C79", "title": "A whole optimisation loop with a surrogate never fails and always predicts from the current data", "statement": "In a loop that initialises the history for n iterations and in iteration k calls set_data with the data of the iteration, then set_hpara('optz', k), no call raises, and after every iteration the hyperparameters are proper for the data of the iteration and every prediction of eval_model is the conditional distribution of the function value given exactly those data.", "quantifier": "all numbers of iterations, all sequences of data sets (starting with few points; unknown noise stays unknown), all outcomes of the sampler and of an optimiser that stays in the box, all prediction points", "why_tests_cant": "An induction over an unbounded number of iterations, each depending on the history of all earlier ones.", "anchors": ["gpgradpy/src/GaussianProcess.py: set_data, set_hpara, eval_model", "gpgradpy/src/base/GpParaDef.py: init_optz_surr, store_new_para_surr", "gpgradpy/src/optz/GpHparaOptz.py: optz_hp"]}
{"id": "C80", "title": "Predictions do not depend on the order of the data", "statement": "Two objects with the same settings and hyperparameters that were given the same points, values, gradients and noise levels in a different order use the same nugget, agree on whether the covariance matrix can be factorised, and return the same means, standard deviations and gradients of both at every point.", "quantifier": "all data sets and all permutations of their points and of the rows of the gradients (mask permuted accordingly), all kernels, noise settings, nuggets, hyperparameters, prediction points", "why_tests_cant": "All orders of all data sets; with gradient masks the layout of the rows is permuted in a non-obvious way.", "anchors": ["gpgradpy/src/eval/GpEvalModel.py: setup_eval_model, eval_model", "gpgradpy/src/kernel/Kernel.py: calc_all_K_w_chofac", "gpgradpy/src/base/GpMeanFun.py: make_data_vec"]}
{"id": "C81", "title": "Predictions do not depend on the origin", "statement": "Shifting all data points and all prediction points by the same vector changes neither the nugget nor the means, standard deviations or gradients returned.", "quantifier": "all data sets, all shifts, all kernels, noise settings, nuggets, hyperparameters, prediction points", "why_tests_cant": "All shifts of all data sets.", "anchors": ["gpgradpy/src/base/CommonFun.py: calc_Rtensor", "gpgradpy/src/eval/GpEvalModel.py: setup_eval_model, eval_model"]}
{"id": "C82", "title": "How predictions depend on the observed values", "statement": "The standard deviation and its gradient depend neither on the observed values and gradients nor on the prior mean; the predicted mean and its gradient are linear in the observed values, gradients and prior mean taken together (so with a fixed prior mean affine in the data).", "quantifier": "all points, all pairs of data vectors and prior means, all coefficients, all kernels, noise settings, nuggets, hyperparameters, prediction points", "why_tests_cant": "Linearity and independence are statements about all values.", "anchors": ["gpgradpy/src/eval/GpEvalModel.py: setup_eval_model, eval_model"]}
{"id": "C83", "title": "More data and less noise never make predictions less certain", "statement": "With a constant nugget (or whenever the nugget does not grow), an object that holds all the data of another with noise that is at most as large, and possibly more points and more gradients, never returns a larger standard deviation. With the varying nugget this fails: a second noise-free value always makes the prediction at the first point less certain.", "quantifier": "all pairs of data sets where one contains the other (any embedding of points and gradient rows), all noise levels, kernels, hyperparameters, prediction points", "why_tests_cant": "An inequality between inverses of matrices of different size, for all data sets.", "anchors": ["gpgradpy/src/eval/GpEvalModel.py: eval_model", "gpgradpy/src/kernel/Kernel.py: calc_all_K_w_chofac", "gpgradpy/src/base/GpWellCond.py: GpWellCond"]}
{"id": "C84", "title": "Far from the data predictions return to the prior", "statement": "For every tolerance there is a distance such that at every point which is at least that far from all data points the predicted mean is within the tolerance of the prior mean and the predicted variance is at most, and within the tolerance of, the prior variance. All components of the gradients of the mean and of the standard deviation are within the tolerance of zero there. At a single such point, when all points have gradients or none are used, the entries of both Hessians are within the tolerance of zero.", "quantifier": "all data sets (values and gradients, masks, noise), kernels, hyperparameters, tolerances, prediction points", "why_tests_cant": "A limit statement about all points outside of a ball.", "anchors": ["gpgradpy/src/eval/GpEvalModel.py: eval_model", "gpgradpy/src/kernel/Kernel.py: calc_Kern"]}
{"id": "C85", "title": "Repeated noise-free points need a nugget", "statement": "If two rows of the data have the same coordinates and noise-free values, and the nugget is constant and zero, then no Cholesky factor is found and every call of eval_model raises an AssertionError instead of returning a prediction.", "quantifier": "all data sets with a repeated point, all kernels, hyperparameters, prediction points", "why_tests_cant": "All data sets with coinciding points in any dimension.", "anchors": ["gpgradpy/src/kernel/Kernel.py: calc_all_K_w_chofac", "gpgradpy/src/eval/GpEvalModel.py: setup_eval_model, eval_model"]}
{"id": "C86", "title": "New data replace everything; rejected data leave no trace once data are accepted again", "statement": "What set_data does depends on the options of the object, its conditioning method and the data only, not on what was done with the object before: two objects used in any way (data sets accepted or rejected, optimisations, exceptions) that have the same options and conditioning method raise the same exception or none, are afterwards the same in everything later calls read, and after the same hyperparameters give the same predictions. In particular a rejected data set has no effect after the next accepted one; before that it can leave the old data with the new counts.", "quantifier": "all options, all pairs of programs of calls, all data, hyperparameters and prediction points", "why_tests_cant": "Two arbitrary histories of calls with exceptions at any point.", "anchors": ["gpgradpy/src/GaussianProcess.py: set_data, set_hpara", "gpgradpy/src/eval/GpEvalModel.py: setup_eval_model, eval_model"]}
{"id": "C87", "title": "Nonlinear-constraint conversions are inverse and obey the chain rule", "statement": "nlc_init_2_scl and nlc_scl_2_init invert each other (values, standard deviations, gradients, Hessians), and turn the values, gradients and Hessians of the constraints as functions of the original point into those of the scaled constraints as functions of the scaled point and back; absent arguments stay absent.", "quantifier": "all numbers of points, constraints and coordinates, all nonzero scales and shifts, all differentiable constraints", "why_tests_cant": "For all reals and all functions; mixed second derivatives are only affected when coordinates have different scales.", "anchors": ["gpgradpy/src/base/Rescaling.py: nlc_init_2_scl, nlc_scl_2_init"]}
{"id": "C88", "title": "What the getters of the data store return fits together after any history", "statement": "After any sequence of successful calls on the data store, get_scl_x / get_scl_obj_data / get_scl_nlc_data return arrays that x_scl_2_init / obj_scl_2_init / nlc_scl_2_init convert back to exactly what get_init_x / get_init_obj_data / get_init_nlc_data return, and a getter of scaled data raises exactly when the getter of the original data does.", "quantifier": "all sequences of successful calls", "why_tests_cant": "Ranges over histories of calls.", "anchors": ["gpgradpy/src/base/Rescaling.py: get_init_x, get_scl_x, get_scl_x_w_dist, get_init_obj_data, get_scl_obj_data, get_init_nlc_data, get_scl_nlc_data, get_init_boxcon, get_scl_boxcon, get_init_lincon, get_scl_lincon"]}
{"id": "C89", "title": "Scaling nonlinear constraints keeps their signs", "statement": "Without a shift (the default) the scaled values of the nonlinear constraints have the signs of the original ones; with a shift those at the best point become zero; in both cases the order of the values of each constraint is kept, and the scale is 1 or that of the objective.", "quantifier": "all constraint data, reachable data stores, methods", "why_tests_cant": "For all data and histories.", "anchors": ["gpgradpy/src/base/Rescaling.py: set_nlc_data, _calc_nlc_scaling, set_nlc_scaling"]}
{"id": "C90", "title": "Optimisation runs from several starting points do not influence each other", "statement": "Maximising the likelihood from several starting points gives, whatever was evaluated before, exactly the selected end point among runs that are each made on their own, where every question of the minimiser about the objective, its gradient, the condition number and its gradient is answered with the value at the vector it asked about. Neither earlier optimisations nor the other starting points change the result or the recorded statistics.", "quantifier": "all terminating minimisers (arbitrary adaptive programs calling the four callbacks), all starting points, all histories of the cache", "why_tests_cant": "Ranges over all adaptive call sequences; a stale cache shows only for particular sequences.", "anchors": ["gpgradpy/src/optz/OptzLkd.py: optz_hp_max_lkd, calc_store_likelihood, return_optz_val, return_optz_grad, return_cond_val, return_cond_grad"]}
{"id": "C91", "title": "The returned hyperparameters are the best end point and meet the condition-number limit", "statement": "If the condition number is a constraint and some run ends where the covariance matrix has a condition number below 1.01 times the limit, the returned vector does so too, and the recorded condition number is that number. With a minimiser that reports the objective at its solution, no other end point (within the limit, if there is one) is more likely; if the minimiser also never ends above its starting value, no starting point is. The order of the starting points does not matter for this.", "quantifier": "all terminating minimisers, starting points, data sets and cache histories", "why_tests_cant": "For all minimisers and data.", "anchors": ["gpgradpy/src/optz/OptzLkd.py: optz_hp_max_lkd", "gpgradpy/src/optz/GpHparaCon.py: calc_cond_w_grad"]}
{"id": "C92", "title": "The recorded optimisation statistics are what they are called", "statement": "The statistics recorded with an optimisation are the share of successful runs, the share of runs within the limit, the mean and maximal number of iterations, the number of starting points with too large a condition number, the number of failed Cholesky factorisations at the starting points, and the largest condition number there.", "quantifier": "all minimisers, starting points and data sets", "why_tests_cant": "For all runs; the statistics are never compared with anything.", "anchors": ["gpgradpy/src/optz/OptzLkd.py: optz_hp_max_lkd", "gpgradpy/src/base/GpParaDef.py: store_new_para_surr"]}
{"id": "C93", "title": "The rescaling optimisation restarts once, at the common length scale", "statement": "With a rescaling method, when the first optimisation ends at length scales that differ by more than the tolerance, there is exactly one further run of the optimiser: it starts at one point whose length scales are all equal (the value for which the points, stretched by the length scales found, have the required minimal distance) and whose other hyperparameters are those found. If the second run raises, the call raises the same error and leaves the object as it was. Otherwise the result has the other hyperparameters of the second run and equal length scales. No third run is made, whatever the maximal number of iterations.", "quantifier": "all objects with a rescaling method, data, options, optimisers and starting points", "why_tests_cant": "Ranges over all optimisers and data sets.", "anchors": ["gpgradpy/src/optz/OptzLkd.py: optz_hp_max_lkd_mtd_rescale", "gpgradpy/src/base/GpWellCond.py: rescaling_data_w_theta_sol", "gpgradpy/src/optz/GpHparaOptz.py: optz_hp"]}
{"id": "C94", "title": "Predictions stay right after optimisation, stored, current or set hyperparameters", "statement": "Whatever calls are made after the data are set, as long as they leave the data and the method as they are (optimisations that succeed or fail and change the scaling, stored, current, set and custom hyperparameters, a new history), after a successful set_hpara every prediction is the conditional distribution of the Gaussian process with the object's hyperparameters given the data, in original units; it exists if the hyperparameters are proper and the condition number is not asked for. Setting proper hyperparameters always succeeds, even after failed calls.", "quantifier": "all programs of calls, data, hyperparameters, prediction points; all methods with and without scaling", "why_tests_cant": "Quantifies over all histories of calls, including optimisations that change the scaling.", "anchors": ["gpgradpy/src/GaussianProcess.py: set_hpara, set_data", "gpgradpy/src/optz/OptzLkd.py: optz_hp_max_lkd_mtd_rescale", "gpgradpy/src/eval/GpEvalModel.py: setup_eval_model, eval_model"]}
{"id": "C95", "title": "The rescaling optimisation succeeds", "statement": "With a rescaling method, after data are set and more points than the constant-hyperparameter limit are there, set_hpara('optz') succeeds if the optimiser stays in the box: the object has proper hyperparameters for the data, the optimised hyperparameters other than the length scales are within their ranges, all length scales are equal, and predictions can be made.", "quantifier": "all data that are accepted, histories with proper earlier rows, samplers and optimisers that respect the box, calls in between", "why_tests_cant": "For all data and optimisers.", "anchors": ["gpgradpy/src/optz/OptzLkd.py: optz_hp_max_lkd_mtd_rescale", "gpgradpy/src/base/GpWellCond.py: rescaling_data_w_theta_sol", "gpgradpy/src/optz/GpHparaOptz.py: optz_hp", "gpgradpy/src/base/Rescaling.py: set_xscale_data"]}
{"id": "C96", "title": "The optimisation loop with scaled data never raises and predicts in original units", "statement": "For each of the four scaling methods: a new object, an initialised history, and then in each of n iterations set_data and set_hpara('optz'). If the data fit together and the options and the optimiser are proper, no call of any iteration raises, and after every iteration the model is up to date and each prediction is the conditional distribution given the data of that iteration, in original units.", "quantifier": "all numbers of iterations, data sequences, optimisers that respect the box, options, prediction points", "why_tests_cant": "Unbounded number of iterations with changing data and scalings.", "anchors": ["gpgradpy/src/GaussianProcess.py: set_data, set_hpara", "gpgradpy/src/optz/OptzLkd.py: optz_hp_max_lkd_mtd_rescale", "gpgradpy/src/eval/GpEvalModel.py: setup_eval_model, eval_model"]}
{"id": "C97", "title": "The unmasked gradient-kernel classes agree with the ones in use", "statement": "KernelSqExpGrad, KernelMatern5f2Grad and KernelRatQuadGrad (the classes without gradient masks) return, for every point sets and hyperparameters, exactly the arrays that the methods in use return without a mask: calc_KernGrad is the joint covariance of values and gradients of shape n(dim+1), calc_KernGrad_grad_th and calc_KernGrad_grad_alpha are its entrywise derivatives (for a point set against itself; Matern: points equal or more than 1e-16 apart), calc_KernGrad_grad_x are the derivatives of the gradient rows wrt the first points.", "quantifier": "all kernels, point sets of any size and dimension, length-scale parameters, shapes", "why_tests_cant": "For all sizes, dimensions and values; derivatives.", "anchors": ["gpgradpy/src/kernel/KernelSqExp.py: KernelSqExpGrad", "gpgradpy/src/kernel/KernelMatern5f2.py: KernelMatern5f2Grad", "gpgradpy/src/kernel/KernelRatQuad.py: KernelRatQuadGrad"]}
{"id": "C98", "title": "The text tables show the history", "statement": "The tables of get_txt_info_surr have one row per entry of the history. The summary shows under each header the index, kernel parameter, first mean coefficient (NaN without any), varK, its ratio to the variance of the values, the noise variances that are optimised, and the length scales: each of them for at most three dimensions, and their minimum, maximum and median (NaN if one of them is) for more. The theta table shows all length scales, the optimisation table time, success and good-constraint percentages, iterations, condition number and whether it was at its limit. After any sequence of stores each row shows what was stored there last, and NaN where nothing was. The tables can always be made once the history exists and data was given, and get_txt_info_surr returns them or saves them to a file as asked.", "quantifier": "all dimensions, numbers of mean coefficients, history lengths, flags, sequences of stores with any indices", "why_tests_cant": "The number and position of the columns depends on dimension, mean function and noise flags, and the rows on the history of stores.", "anchors": ["gpgradpy/src/base/GpInfo.py: GpInfo.get_txt_info_surr, info_surr_summary, info_surr_theta, info_surr_optz"]}
{"id": "C99", "title": "Gradient-free models with even noise never run into ill conditioning", "statement": "For an object without gradients (whose method is always 'base') and data without noise or with known noise of one standard deviation: at every admissible set of hyperparameters, for any points (even coinciding), the Cholesky factorisation succeeds, the likelihood is a number and the condition number (spectral norm) is at most cond_max_target. Hence the starting-point search 'hp_best' always finds a start, set_hpara('optz') succeeds in every iteration of the loop, and the condition number that it records is at most the target.", "quantifier": "all numbers of points and dimensions, points, hyperparameters, kernels, noise levels, programs of calls before, optimisers", "why_tests_cant": "A bound on the condition number for all points and hyperparameters; ill-conditioned configurations are exactly the ones tests do not hit.", "anchors": ["gpgradpy/src/base/GpWellCond.py: calc_nugget_Kbase", "gpgradpy/src/optz/CalcLkd.py: calc_lkd_all", "gpgradpy/src/optz/GpHparaX0.py: select_hp_optz_x0", "gpgradpy/src/optz/GpHparaOptz.py: optz_hp"]}
{"id": "C100", "title": "The likelihood does not depend on the order, the origin or the units of the data", "statement": "Give the same data in another order, with all points shifted by a constant vector, and with values u*f+b, gradients u*g and standard deviations |u|*s (u not 0), and multiply the variance hyperparameters by u^2. Then the covariance matrix is factorised in both cases or in neither, its condition number is the same, the fitted mean becomes u*beta+b, and the log likelihood changes by the constant -n log|u|; without noise the fitted process variance becomes u^2 times the old one. So the objective that the optimiser minimises ranks all candidates alike and its minimisers correspond. Without noise and with |u| not 1, this needs the variance penalty to be off (it is not invariant: it scales with u^6) and fitted variances above the code's floor.", "quantifier": "all data, permutations of points and of gradients, shifts, units, kernels, masks, noise, hyperparameters, and all earlier evaluations by the optimiser", "why_tests_cant": "A relation between two runs for all data, permutations and units; a test compares two concrete runs and rounding.", "anchors": ["gpgradpy/src/optz/CalcLkd.py: calc_lkd_all, calc_lkd_w_Kcov, calc_lkd_w_Kern_mtd_direct, calc_lkd_varK_pnlt", "gpgradpy/src/optz/OptzLkd.py: return_optz_val", "gpgradpy/src/base/GpHpara.py: hp_vec2dataclass"]}
{"id": "C101", "title": "Predictions follow the units of the data", "statement": "Give the same data in another order, with all points shifted by a constant vector, and with values u*f+b, gradients u*g and standard deviations |u|*s (u not 0), and give the hyperparameters in the new units (variances times u^2, prior mean u*beta+b). Then eval_model at the shifted points returns u*mean+b, |u|*sigma, and u resp. |u| times their gradients and Hessians, with the same nugget.", "quantifier": "all data, permutations, shifts, units, kernels, masks, hyperparameters, batches of prediction points", "why_tests_cant": "A relation between two runs for all data, permutations and units; a test compares two concrete runs.", "anchors": ["gpgradpy/src/eval/GpEvalModel.py: setup_eval_model, eval_model", "gpgradpy/src/kernel/Kernel.py: calc_all_K_w_chofac"]}
{"id": "C102", "title": "Nothing depends on the labels or the orientation of the coordinates", "statement": "Give the same data with the coordinates in another order and with some axes turned around (points, gradients and gradient noise follow the coordinates), and the length scales in the new order. Then the same nugget is used; the covariance matrix is factorised in both cases or in neither; the condition number, the fitted mean, the fitted variance and the log likelihood are the same; and at corresponding points eval_model returns the same means and standard deviations, and gradients and Hessians that are the old ones expressed in the new coordinates.", "quantifier": "all data, permutations and reflections of the coordinates, kernels, masks, noise, hyperparameters, batches of prediction points", "why_tests_cant": "A relation between two runs for all data, permutations and reflections; a test compares two concrete runs and rounding.", "anchors": ["gpgradpy/src/kernel/KernelSqExp.py: sq_exp_calc_KernGrad", "gpgradpy/src/kernel/KernelMatern5f2.py: matern_5f2_calc_KernGrad", "gpgradpy/src/kernel/KernelRatQuad.py: rat_quad_calc_KernGrad", "gpgradpy/src/eval/GpEvalModel.py: setup_eval_model, eval_model", "gpgradpy/src/optz/CalcLkd.py: calc_lkd_all"]}
{"id": "C103", "title": "With preconditioning nothing depends on the units of the coordinates", "statement": "Multiply coordinate d of all points by a_d (not 0), divide partial derivatives and the standard deviations of their noise accordingly, and give the length scales in the new units (theta_d / a_d^2). If the covariance matrix is preconditioned (the default), or no gradients are used, then the same nugget is used; the covariance matrix is factorised in both cases or in neither; the condition number, the fitted mean and the fitted variance are the same; the log likelihood changes by the constant n_grad * sum_d log|a_d|; and at corresponding points eval_model returns the same means and standard deviations, and gradients and Hessians in the new units. Without preconditioning this fails.", "quantifier": "all data, factors, kernels, masks, noise, hyperparameters, batches of prediction points; if the variance of gradient noise is a hyperparameter, all factors for which that one variance can be expressed in the new units", "why_tests_cant": "A relation between two runs for all data and units; a test compares two concrete runs and rounding.", "anchors": ["gpgradpy/src/kernel/Kernel.py: calc_all_K_w_chofac", "gpgradpy/src/base/GpWellCond.py: calc_nugget", "gpgradpy/src/eval/GpEvalModel.py: setup_eval_model, eval_model", "gpgradpy/src/optz/CalcLkd.py: calc_lkd_all"]}
{"id": "C104", "title": "The finite-difference check of a gradient converges to the true gradient", "statement": "test_grad_calc returns the given gradient unchanged and finite differences that, as the step tends to 0, converge to the partial derivatives of the given functions, whatever gradient was given, so that the difference it shows tends to the error of that gradient. For a step eps > 0 the error is at most M eps^2 / 6 with central differences (M bounds the third derivatives along the axes) and at most M eps / 2 with one-sided ones (M bounds the second derivatives); it is 0 for functions that are quadratic (affine) along each axis. A 1-d gradient for other than one function is refused. Run on the mean predicted by eval_model, the differences converge to the gradient that eval_model returns.", "quantifier": "all functions with partial derivatives at the point, all points, numbers of functions and dimensions, all steps, both kinds of differences; all objects that are ready for prediction", "why_tests_cant": "It is the instrument the tests use: its limit and its error bounds hold for every function and step, a test sees one function, one step and rounding.", "anchors": ["gpgradpy/src/base/CommonFun.py: test_grad_calc", "gpgradpy/src/eval/GpEvalModel.py: eval_model"]}
{"id": "C105", "title": "The history of the best value is the running minimum (maximum) of the recorded values", "statement": "best_at_all_iter(data,'min') (with 'max') returns an array as long as the data whose entry i is the smallest (largest) of the numbers among the first i+1 entries, whatever NaN gaps the data have; it is NaN as long as no number has been seen and after the last number of the data. Empty data raise an IndexError and an unknown method is refused when there is a number in the data.", "quantifier": "all data arrays of any length with NaN entries anywhere, both methods", "why_tests_cant": "NaN gaps at the start, in the middle and at the end can be combined in unboundedly many ways; a test tries a few histories.", "anchors": ["gpgradpy/results/PltOptzResults.py: best_at_all_iter"]}
{"id": "C106", "title": "The acquisition functions are the expected improvement and a quantile of the predicted normal distribution", "statement": "For a predicted mean mu and standard deviation sig >= 0 and a best known value, calc_acq_exp_improvement returns minus the expectation of max(best - Y, 0) for Y normal with that mean and standard deviation, and NaN exactly if sig = 0 and best = mu. It is at most 0 and at most mu - best, negative for sig > 0, and does not increase if the mean falls or the standard deviation grows. calc_acq_upper_conf returns a value below which Y falls with a probability that depends on beta only.", "quantifier": "all means, standard deviations >= 0, best values and beta", "why_tests_cant": "An identity between a closed formula and an integral over all outcomes, and inequalities for a continuum of arguments.", "anchors": ["gpgradpy/plt/plt_acq.py: calc_acq_exp_improvement, calc_acq_upper_conf", "gpgradpy/plt/plt_surr_1d.py: calc_acq_exp_improvement, calc_acq_upper_conf"]}
{"id": "C107", "title": "The plotted correlation curves are those of the library's kernels", "statement": "The curves of calc_sq_exp_1d_corr, calc_Ma5f2_1d_corr and calc_rat_qd_corr at gamma(x-y) are the entries of the kernel matrix that calc_KernGrad returns for points on a line, divided by gamma for every derivative, with gamma = theta2gamma(theta); all of them stay within [-1,1], are 1, 0, 1 at distance 0, and even, odd, even. calc_sq_exp_2d_corr evaluated on its grid is the correlation of partial derivatives wrt two different coordinates. (It ignores its arguments.)", "quantifier": "all pairs of points, length scales theta >= 0, all three kernels, all alpha > 0", "why_tests_cant": "Agreement of two independently written formulas for a continuum of points and hyperparameters.", "anchors": ["gpgradpy/plt/plt_kern_corr.py: calc_sq_exp_1d_corr, calc_sq_exp_2d_corr, calc_Ma5f2_1d_corr, calc_rat_qd_corr", "gpgradpy/src/kernel: calc_KernGrad, theta2gamma"]}
{"id": "C108", "title": "The gradients given to the example surrogates are those of the example functions", "statement": "calc_obj of the scripts is the Rosenbrock function of the coordinates, and calc_grad returns its partial derivatives at every point for any number of variables from two on; for one variable it raises an IndexError. With a > 0 the function is positive except at (1,...,1), where it is 0. The same for the function of one variable of the other scripts and its derivative.", "quantifier": "all arrays of points, all numbers of variables, all parameters a", "why_tests_cant": "Derivatives of a function of any number of variables at all points; finite differences check one point up to an error.", "anchors": ["gpgradpy/plt/plt_cond.py: calc_obj, calc_grad", "gpgradpy/plt/plt_nugget_1d.py: calc_obj, calc_grad", "gpgradpy/plt/plt_surr_1d.py: calc_obj, calc_grad", "gpgradpy/plt/plt_acq.py: calc_obj, calc_grad"]}
{"id": "C109", "title": "The scaled data and the marked maximum in the figures", "statement": "calc_scl_data maps a table affinely onto [0,1], smallest number to 0 and largest to 1, and keeps NaN (if all numbers are equal everything becomes NaN). The scaling of acquisition values in plot_acq keeps their order, maps the minimum to 0 and stays within [0,1]. The maximum that plt_cond.py marks is the place of a pair of length scales of the grid whose likelihood is at least that of every other pair, NaN ignored; there is no mark exactly if all likelihoods are NaN. (The first axis shows the second length scale.)", "quantifier": "all tables with NaN anywhere, all grids, all likelihood functions", "why_tests_cant": "NaN can be anywhere in the table, and the maximum is over all grids and functions.", "anchors": ["gpgradpy/plt/plt_cond.py: calc_scl_data, calc_cond_lkd", "gpgradpy/plt/SurrPlt.py: plot_acq"]}
{"id": "C110", "title": "The rational quadratic kernel tends to the squared-exponential kernel", "statement": "For fixed points and length scales every entry of the kernel matrix of values and gradients of the rational quadratic kernel tends to that of the squared-exponential kernel as the shape parameter alpha grows. The correlation between two values does not increase with alpha and is never below that of the squared-exponential kernel.", "quantifier": "all point sets, dimensions, length scales theta >= 0 and all alpha > 0", "why_tests_cant": "A limit and an ordering over a continuum of shape parameters and points.", "anchors": ["gpgradpy/src/kernel/KernelRatQuad.py: calc_KernGrad, calc_KernBase", "gpgradpy/src/kernel/KernelSqExp.py: calc_KernGrad, calc_KernBase"]}
{"id": "C111", "title": "The likelihood is continuous in the hyperparameters and has a maximum within the bounds", "statement": "If hyperparameters converge to admissible ones (noise-free or noisy, any kernel, with or without gradients, fixed or varying nugget), the log-likelihood and the mean chosen with it converge to those at the limit. If the covariance matrix is tested for its condition number (the base method), a limit of hyperparameters that pass the test passes it. Hence for any bounds on the optimised hyperparameters (positive for those not optimised as logarithms) there is a vector within the bounds where the likelihood is largest among those where it is computed; the objective handed to the optimiser attains its minimum there and returns at no vector within the bounds, after any history of calls, less than it does there.", "quantifier": "all well-formed objects, all converging families of hyperparameters (any filter), all bounds, all vectors, all histories of callbacks", "why_tests_cant": "Continuity and the existence of a maximiser concern a continuum of hyperparameters.", "anchors": ["gpgradpy/src/optz/CalcLkd.py: calc_lkd_all", "gpgradpy/src/optz/OptzLkd.py: return_optz_val", "gpgradpy/src/kernel/Kernel.py: calc_all_K_w_chofac"]}
{"id": "C112", "title": "Predictions are continuous in the hyperparameters and in the points", "statement": "If the hyperparameters, including the prior variance and the mean, converge and the points at which the model is evaluated converge, the predicted means, standard deviations and gradients of the mean converge to those for the limits, and so do the gradients of the standard deviation where the limit of the standard deviation is not zero.", "quantifier": "all objects and hyperparameters ready for prediction, all converging families of them and of points", "why_tests_cant": "Convergence along arbitrary families of hyperparameters and points.", "anchors": ["gpgradpy/src/eval/GpEvalModel.py: eval_model, setup_eval_model"]}
{"id": "C113", "title": "With a large shape parameter the rational quadratic model is the squared-exponential model", "statement": "For an object with the rational quadratic kernel, as the kernel hyperparameter alpha grows the log-likelihood, the mean coefficient chosen with it, and the predicted mean, standard deviation and their gradients at any points tend to those that the same object with the squared-exponential kernel computes for the same other hyperparameters.", "quantifier": "all data sets (with or without gradients and noise), hyperparameters, prediction points and families of shape parameters tending to infinity", "why_tests_cant": "A limit over an unbounded parameter for all data sets; a test sees one finite alpha with rounding error.", "anchors": ["gpgradpy/src/kernel/KernelRatQuad.py", "gpgradpy/src/kernel/KernelSqExp.py", "gpgradpy/src/optz/CalcLkd.py: calc_lkd_all", "gpgradpy/src/eval/GpEvalModel.py: eval_model"]}
{"id": "C114", "title": "At the minimiser of the objective the gradient callback satisfies the first-order conditions", "statement": "For all bounds, the function that the optimiser minimises is defined at every vector within the bounds, has a minimiser there, and at every minimiser the gradient returned by the gradient callback is zero in the coordinates strictly within the bounds, not negative at a lower bound and not positive at an upper bound; so a bound-constrained gradient-based optimiser has a point to converge to, whatever was evaluated before.", "quantifier": "all data sets, kernels, bounds, log options and histories of callback calls", "why_tests_cant": "Existence of a minimiser and conditions at it concern a continuum of vectors; the callbacks are stateful and the order of calls is arbitrary.", "anchors": ["gpgradpy/src/optz/OptzLkd.py: return_optz_val, return_optz_grad", "gpgradpy/src/optz/CalcLkd.py: calc_lkd_all", "gpgradpy/src/optz/GpHparaGrad.py"]}
{"id": "C115", "title": "Observing what was predicted changes no prediction", "statement": "If further observations are added to the data, values or gradients with noise of any size, and each of them equals what the current model predicts at its point, then, with the same hyperparameters and the same nugget, the predicted values and gradients are unchanged at every point (\"kriging believer\").", "quantifier": "all data sets, kernels, masks, hyperparameters, noise of the added observations and evaluation points", "why_tests_cant": "It relates two models for every pair of data sets and every evaluation point.", "anchors": ["gpgradpy/src/eval/GpEvalModel.py: setup_eval_model, eval_model", "gpgradpy/src/kernel/Kernel.py: calc_all_K_w_chofac"]}
{"id": "C116", "title": "Observations with unbounded noise have no influence", "statement": "As the noise variances of some of the observations grow beyond all bounds, the predicted values, standard deviations and gradients tend to those of the model without these observations; in particular, with a growing noise variance of the gradients, the gradient-enhanced model tends to the model of the values alone (same hyperparameters, same constant nugget).", "quantifier": "all data sets, kernels, masks, hyperparameters, ways in which the noise grows, and evaluation points", "why_tests_cant": "It is a statement about a limit, for every data set.", "anchors": ["gpgradpy/src/eval/GpEvalModel.py: setup_eval_model, eval_model", "gpgradpy/src/kernel/Kernel.py: calc_noise_vec, calc_all_K_w_chofac"]}
{"id": "C117", "title": "The prediction is the best linear prediction", "statement": "For noise-free data: if the observed function is a random function with the mean, variance and correlations of the model (not necessarily normal), and the nugget is the variance of an observation error, then the square of the predicted standard deviation is the mean squared error of the predicted value, and no prediction that is a linear function of the data has a smaller mean squared error. The predicted standard deviation does not depend on the observed values.", "quantifier": "all probability spaces and random data with the moments of the model, all data sets, kernels, hyperparameters, evaluation points and linear predictors", "why_tests_cant": "It quantifies over all random functions and all linear predictors.", "anchors": ["gpgradpy/src/eval/GpEvalModel.py: setup_eval_model, eval_model"]}
{"id": "C118", "title": "The nuggets compared in the nugget figure suffice and are ordered", "statement": "For the preconditioned correlation matrix of any points and hyperparameters, the minimum nugget drawn by plt_nugget_1d.py is the least one that brings the condition number down to cond_max; the nuggets from the row sums, from the condition numbers, from the trace and the constant one (which is the nugget calc_nugget returns) are all at least as large, in the order minimum <= row sums <= constant <= trace and minimum <= condition numbers <= trace. The flag called diagonal dominance is set only for the identity matrix.", "quantifier": "all sets of points, numbers of points and dimensions, all hyperparameters, all target condition numbers above 1, all correlation matrices", "why_tests_cant": "The script draws the curves for one sample of ten points in two dimensions and one line of hyperparameters; sufficiency and minimality of a nugget are statements about all matrices and all smaller nuggets.", "anchors": ["gpgradpy/plt/plt_nugget_1d.py: eta_w_trace, eta_Gaussian, loop over n_gamma", "gpgradpy/src/base/GpWellCond.py: calc_nugget", "gpgradpy/src/kernel/Kernel.py: calc_all_K_w_chofac"]}
{"id": "C119", "title": "With the estimated mean the prediction is the best linear unbiased one", "statement": "For noise-free data, when the mean coefficient is the one calc_lkd_all estimates, the predicted value is a linear function of the data that is unbiased whatever the constant mean of the function is; if the function has the correlations of the model (nugget included), with any constant mean and variance, no linear unbiased prediction has a smaller mean squared error, whether or not the process variance stored is the true one. The mean squared error is the reported variance plus the variance of the estimated coefficient times the squared sensitivity of the prediction to it, so that the reported variance is too small far from the data.", "quantifier": "all probability spaces and random data with these means and covariances, all true means and variances, all stored process variances (also random), all kernels, gradient settings, hyperparameters, query points and numbers of data", "why_tests_cant": "it compares with every linear unbiased predictor and averages over all data sets of the assumed law; a test sees single data sets", "anchors": ["gpgradpy/src/optz/CalcLkd.py:calc_lkd_all", "gpgradpy/src/eval/GpMeanFun.py:calc_model_max_lkd", "gpgradpy/src/eval/GpEvalModel.py:setup_eval_model", "gpgradpy/src/eval/GpEvalModel.py:eval_model", "gpgradpy/plt/plt_acq.py", "gpgradpy/plt/plt_surr_1d.py"]}
{"id": "C120", "title": "Loaded optimisation results and the area drawn around the runs", "statement": "load_npz_data returns, for every file, starting point and iteration, exactly the number recorded there (the noise-free one if asked for) and NaN where nothing was recorded or the iteration is beyond n_iter_max; the arrays have as many rows as the largest number of starting points and n_iter_max columns, or as many as the longest history if n_iter_max is None; a file of another type, one that cannot be read, or one with more than n_x0_init starting points raises. If n_iter_max is given the feasibility array keeps n_x0_init rows and so has another shape than the other two. The area drawn by plt_conv_nx0 is bounded by the smallest and the largest of the best values of the runs so far, and ends with the shortest run.", "quantifier": "all lists of files, numbers of starting points and iterations, all recorded values including NaN", "why_tests_cant": "it ranges over all shapes, numbers of files and patterns of missing values; off-by-one errors of the clipping show only for particular combinations", "anchors": ["gpgradpy/results/PltOptzResults.py:load_npz_data", "gpgradpy/results/PltOptzResults.py:plt_conv_nx0", "gpgradpy/results/PltOptzResults.py:best_at_all_iter"]}
{"id": "C121", "title": "Predictions are stable under errors in the data", "statement": "If the values and gradients given to set_data are changed at the same points, with the same hyperparameters, the squared change of the mean returned by eval_model at any x, times varK, is at most varK minus the squared returned standard deviation, times the sum over the data of the squared change divided by the noise variance plus nugget that the library adds to the diagonal of the kernel matrix for that datum. In particular, if only values change, the squared change of the mean is nowhere larger than the sum of the squared changes divided by the nugget.", "quantifier": "all kernels, dimensions, point sets, gradient masks, noise models, nugget strategies with a positive added diagonal, all data before and after and all evaluation points", "why_tests_cant": "a bound over all data perturbations and all evaluation points; the worst perturbation is not known to a test", "anchors": ["gpgradpy/src/eval/GpEvalModel.py:setup_eval_model", "gpgradpy/src/eval/GpEvalModel.py:eval_model", "gpgradpy/src/kernel/Kernel.py:calc_all_K_w_chofac"]}
{"id": "C122", "title": "Deterministic error bound for functions of the native space", "statement": "If the data are the values and partial derivatives of a function whose difference from the prior mean has norm at most B in the native space of the kernel with the hyperparameters of the model, then at every x the mean returned by eval_model differs from the function by at most B times the returned standard deviation divided by the square root of varK, whatever nugget and noise variances are used. With errors in the data the bound grows by the effect of the errors, each weighted by the noise variance plus nugget of its datum. Sections of the kernel and their linear combinations are such functions.", "quantifier": "all kernels, dimensions, point sets, gradient masks, noise models, nugget strategies, functions, norms, errors and evaluation points", "why_tests_cant": "it is about every function of an infinite-dimensional space and every evaluation point", "anchors": ["gpgradpy/src/eval/GpEvalModel.py:setup_eval_model", "gpgradpy/src/eval/GpEvalModel.py:eval_model", "gpgradpy/src/kernel/Kernel.py:calc_KernGrad"]}
{"id": "C123", "title": "The mean is the best compromise between smoothness and fit", "statement": "Weigh every datum (value or partial derivative) by the noise variance plus nugget the library adds to the diagonal of the kernel matrix for it, where data with weight 0 must be matched exactly. Among all functions of the native space of the kernel the mean returned by eval_model, as a function of x, has the smallest squared norm of its difference from the prior mean plus weighted sum of squared errors at the data; any other function differs from it at x by at most the returned standard deviation divided by the square root of varK, times the square root of its excess. In particular the mean is the only minimiser, and without noise and nugget it is the interpolant of smallest norm.", "quantifier": "all kernels, dimensions, point sets, gradient masks, data, noise models, nugget strategies and all competing functions", "why_tests_cant": "optimality among all functions of an infinite-dimensional space", "anchors": ["gpgradpy/src/eval/GpEvalModel.py:setup_eval_model", "gpgradpy/src/eval/GpEvalModel.py:eval_model", "gpgradpy/src/kernel/Kernel.py:calc_all_K_w_chofac"]}
{"id": "C124", "title": "Predictions vary no faster than the kernel", "statement": "Between two points x and x' the standard deviation returned by eval_model changes by at most sqrt(2 varK (1 - k(x,x'))), where k is the correlation function of the chosen kernel; the square of the change of the mean is at most 2 (1 - k(x,x')) times the sum over the data of the squared deviation from the prior mean divided by the noise variance plus nugget added for that datum.", "quantifier": "all kernels, dimensions, point sets, gradient masks, data, noise models, nugget strategies and all pairs of evaluation points", "why_tests_cant": "a bound over all pairs of points and all data", "anchors": ["gpgradpy/src/eval/GpEvalModel.py:setup_eval_model", "gpgradpy/src/eval/GpEvalModel.py:eval_model"]}
{"id": "C125", "title": "Near an evaluated point predictions are certain up to its noise", "statement": "With tau the noise variance and nugget (relative to varK) added on the diagonal for the value at the evaluated point x_q, the standard deviation returned by eval_model at any x is at most sqrt(varK tau/(1+tau)) + sqrt(2 varK (1 - k(x,x_q))), where k is the correlation function of the chosen kernel; at x_q itself it is at most sqrt(varK tau/(1+tau)), so zero without noise and nugget.", "quantifier": "all kernels, dimensions, point sets, gradient masks, data, noise models, nugget strategies, evaluated points and evaluation points", "why_tests_cant": "a bound over all data sets and all points", "anchors": ["gpgradpy/src/eval/GpEvalModel.py:setup_eval_model", "gpgradpy/src/eval/GpEvalModel.py:eval_model"]}
{"id": "C126", "title": "Repeated noisy evaluations average out", "statement": "If m evaluated points have correlation at least rho >= 0 with x and the noise variance plus nugget added for their values is at most t, then the square of the standard deviation returned by eval_model at x is at most varK (1 - rho^2 m/(m+t)). Along any sequence of data sets and hyperparameters in which, for every eps > 0, the number of such points with rho = 1 - eps grows beyond all bounds (t fixed, varK bounded), the standard deviation at x tends to zero.", "quantifier": "all kernels, dimensions, point sets, gradient masks, data, noise models, nugget strategies and evaluation points; all subsets of the evaluated points; all sequences (filters) of data sets", "why_tests_cant": "a bound for every data set and a limit over unboundedly many evaluations", "anchors": ["gpgradpy/src/eval/GpEvalModel.py:setup_eval_model", "gpgradpy/src/eval/GpEvalModel.py:eval_model"]}
{"id": "C127", "title": "Consistency: accumulating data recover the function", "statement": "Let the data be the values and partial derivatives of a function whose deviation from the prior mean has bounded norm in the native space of the kernel. Along any sequence of data sets and hyperparameters whose evaluated points accumulate at x as in C126, the mean returned by eval_model at x tends to the value of the function there, whatever noise level and nugget the model assumes.", "quantifier": "all kernels, dimensions, point sets, gradient masks, data, noise models, nugget strategies and evaluation points; all functions of bounded norm; all sequences (filters) of data sets", "why_tests_cant": "a limit over unboundedly many evaluations, for all functions of a function space", "anchors": ["gpgradpy/src/eval/GpEvalModel.py:setup_eval_model", "gpgradpy/src/eval/GpEvalModel.py:eval_model"]}
{"id": "C128", "title": "Noise limits what data can tell", "statement": "With tau_i > 0 the noise variance plus nugget added for datum i and k_i(x) its correlation (value or partial derivative) with the value at x, the square of the standard deviation returned by eval_model at x is at least varK/(1 + sum_i k_i(x)^2/tau_i). Without gradients and with n values, all tau_i >= t > 0, it is at least varK t/(t+n) everywhere.", "quantifier": "all kernels, dimensions, point sets, gradient masks, data, noise models, nugget strategies and evaluation points", "why_tests_cant": "a bound for every data set and every point", "anchors": ["gpgradpy/src/eval/GpEvalModel.py:setup_eval_model", "gpgradpy/src/eval/GpEvalModel.py:eval_model"]}
{"id": "C129", "title": "Predictions and their gradients have explicit Lipschitz bounds", "statement": "With ||x-x'||^2 = sum_d theta_d (x_d-x'_d)^2 and c = 1 (squared exponential, rational quadratic) or 5/6 (Matern 5/2): the standard deviation returned by eval_model satisfies (sigma(x)-sigma(x'))^2 <= 2 c varK ||x-x'||^2 and the mean (mu(x)-mu(x'))^2 <= 2 c ||x-x'||^2 sum_i (y_i-m_i)^2/tau_i, with tau_i > 0 the noise variance plus nugget added for datum i and m_i its prior mean. The gradients returned satisfy (d sigma/d x_i)^2 <= 2 c varK theta_i and (d mu/d x_i)^2 <= 2 c theta_i sum_j (y_j-m_j)^2/tau_j.", "quantifier": "all kernels, dimensions, point sets, gradient masks, data, noise models, nugget strategies and all (pairs of) evaluation points", "why_tests_cant": "a bound over all data sets, points and directions", "anchors": ["gpgradpy/src/eval/GpEvalModel.py:setup_eval_model", "gpgradpy/src/eval/GpEvalModel.py:eval_model"]}
{"id": "C130", "title": "Mean squared error with random errors in the data", "statement": "Let the data be the values and partial derivatives of a fixed function, whose deviation from the prior mean has norm at most B in the native space of the kernel, plus uncorrelated random errors of mean zero with variances at most the noise variances and nugget the model assumes. Then the mean squared error of the mean returned by eval_model is at most (1 + B^2) sigma^2/varK with sigma the returned standard deviation (which does not depend on the errors); it tends to zero as the evaluated points accumulate at the evaluation point as in C126.", "quantifier": "all kernels, dimensions, point sets, gradient masks, noise models, nugget strategies, evaluation points, functions of bounded norm and error distributions with the stated means and variances; all sequences (filters) of data sets", "why_tests_cant": "a statement about expectations over all error distributions and a limit", "anchors": ["gpgradpy/src/eval/GpEvalModel.py:setup_eval_model", "gpgradpy/src/eval/GpEvalModel.py:eval_model"]}
{"id": "C131", "title": "Rounding errors in the linear solves", "statement": "If every datum has positive noise variance or nugget, the predictions of eval_model do not break down when its linear systems are solved inexactly: with residuals (weighted by the inverse added variances) at most eps for the weights computed by setup_eval_model and at most delta for the systems solved by eval_model, delta small compared with the noise, eval_model still succeeds, its mean is wrong by at most eps, the i-th component of the gradient of the mean by at most eps*sqrt(2 c theta_i) (c a constant of the kernel) and its variance by at most varK*delta. Where the predicted standard deviation is zero (evaluated points without noise and nugget) this fails: arbitrarily small relative residuals make eval_model raise, because it asserts that the variance is not negative before the line that would clip small negative values.", "quantifier": "all kernels, dimensions, point sets, gradient masks, data, noise levels, hyperparameters, evaluation points and all inexact solutions with the given residuals", "why_tests_cant": "Tests see the rounding errors of one machine on a few data sets; the claim is about every error of the given size.", "anchors": ["gpgradpy/src/eval/GpEvalModel.py: setup_eval_model, eval_model"]}
{"id": "C132", "title": "The length-scale scan fits each model and plots the most likely one", "statement": "The script plt_surr_1d scans a list of length scales for a one-dimensional function with noise-free data. For every length scale the stored mean and process variance are more likely for the data than any other pair, unless the variance is at its lower limit (it is not if two data values differ enough), and scaling the likelihoods to [0, 1] keeps their order. The surrogates it evaluates for the first length scale, one other and the last succeed and are the Gaussian-process posteriors for the stored parameters, with positive standard deviation at most the prior one. With gradients the other one is the most likely model of the scan, over all means, variances and length scales of the list. Without gradients it is position 62, so that with at most 62 values the script raises after the scan; the local maxima it finds (exactly the positions with larger likelihood than both neighbours) are not used. With the rational quadratic kernel, which it lists as a choice, it raises.", "quantifier": "all data sets with or without gradients, all lists of positive length scales of any length, all nuggets and all evaluation points", "why_tests_cant": "Optimality ranges over all means and variances, and the scan over all data and lists of length scales.", "anchors": ["gpgradpy/plt/plt_surr_1d.py: calc_lkd, the selection of positions, the evaluation loop", "gpgradpy/src/optz/CalcLkd.py: calc_lkd_all", "gpgradpy/src/eval/GpEvalModel.py: setup_eval_model, eval_model"]}
{"id": "C133", "title": "The acquisition figure marks the minima of the acquisition functions of the fitted model", "statement": "The script plt_acq fits the mean and variance of a one-dimensional model with given length scale to noise-free data, evaluates it on a grid and draws two acquisition functions, the mean and the mean minus two standard deviations. The mean and variance it uses are the most likely ones (unless the variance is at its lower limit) and the surrogate is the Gaussian-process posterior for them; the marked points are the first points of the grid where the mean, and the mean minus two standard deviations, are smallest; each curve is drawn as (value - smallest)/(largest - smallest), unless all values are equal (NaN), scaling twice changing nothing.", "quantifier": "all noise-free data sets with or without gradients, all positive length scales, all nuggets, all grids with at least one point", "why_tests_cant": "Optimality of the hyperparameters ranges over all means and variances, and the marked minima over all data, length scales and grids.", "anchors": ["gpgradpy/plt/plt_acq.py", "gpgradpy/plt/SurrPlt.py: plot_acq", "gpgradpy/src/optz/CalcLkd.py: calc_lkd_all", "gpgradpy/src/eval/GpEvalModel.py: setup_eval_model, eval_model"]}
{"id": "C134", "title": "The marked point of the length-scale map is the most likely usable pair", "statement": "The script plt_cond computes, for every pair of length scales of a grid, the condition number of the covariance matrix and the likelihood of a two-dimensional model, and marks one pair. Each cell holds the base-10 logarithm of the condition number of the covariance matrix for its pair (of the one actually factorised, in the configured norm; in the 2-norm if it is not used and there is no noise). A cell has no likelihood exactly if, without preconditioning, that condition number is above the absolute limit, and no point is marked exactly if this holds for every cell. Otherwise the marked pair, together with some mean (and variance, if the data are noise-free; with noise the script fixes it at 0.1), is at least as likely for the data as every mean (and variance) with every usable pair of the grid. The second input's length scale is marked first.", "quantifier": "all data with known noise, with or without gradients, all kernels, nuggets and condition number limits, all grids of positive length scales, all means and variances", "why_tests_cant": "Optimality ranges over a continuum of means and variances for every cell and every data set.", "anchors": ["gpgradpy/plt/plt_cond.py: calc_cond_lkd", "gpgradpy/src/optz/CalcLkd.py: calc_lkd_all", "gpgradpy/src/kernel/Kernel.py: calc_all_K_w_chofac, calc_Kern_w_chofac"]}
{"id": "C135", "title": "An inexact factorisation changes the likelihood by a bounded amount", "statement": "When a Gaussian process's likelihood is computed with the factor of a matrix that is not exactly the one whose condition number κ is reported, but differs from it by at most u times its spectral norm (as a factor computed in floating point does), and uκ < 1, then: the factorisation still succeeds; the fitted mean moves by at most 2uκ/(1-uκ) times the quadratic form of the residuals, measured by the square of the shift in the metric of the covariance matrix; without noise in the data the fitted variance changes by factors between 1-uκ and 1+uκ and, without the condition number penalty, the log-likelihood by at most n log(1/(1-uκ)) for n data; with noise the log-likelihood changes by at most (n/2) log(1/(1-uκ)) + uκ/(1-uκ) times half the quadratic form of the residuals about the fitted mean. Without preconditioning κ is at most the absolute limit on the condition number, so without noise the change is bounded for all hyperparameters at once: this is what the limit buys the user.", "quantifier": "all data, gradients and noise, all kernels and hyperparameters, all nuggets, preconditioned or not, both condition number norms, and all matrices within the distance", "why_tests_cant": "It ranges over every perturbation of every covariance matrix; a test sees the rounding errors of one machine on one matrix.", "anchors": ["gpgradpy/src/optz/CalcLkd.py: calc_lkd_all, calc_lkd_w_noise, calc_lkd_wo_noise", "gpgradpy/src/kernel/Kernel.py: calc_all_K_w_chofac, calc_Kern_w_chofac"]}
{"id": "C136", "title": "An inexact factorisation changes predictions by a bounded amount", "statement": "If the model is evaluated with the factor of a matrix that is not exactly the one to be factorised, but differs from it by at most u times its spectral norm (as a factor computed in floating point does), and uκ < 1 for the condition number κ of the factorised matrix, then the factorisation still succeeds and, with c = uκ/(1-uκ): wherever eval_model does not raise, the predicted mean is off by at most c times the norm of the centred data in the metric of the covariance matrix, the predicted variance by at most c times the prior variance (so the standard deviation by at most the square root of that), and the i-th component of the gradient of the mean by at most √(2 θ_i) times the bound of the mean (with Matérn √(5/3 θ_i)). Wherever eval_model does not raise, eval_model_var does not either; its variance is off by at most c times the prior variance and the i-th component of its gradient by at most 2c times the prior variance times √(2 θ_i) (Matérn √(5/3 θ_i)). eval_model does not raise if all data have positive noise or nugget τ and c ≤ 1/(1 + ∑ k_i(x)²/τ_i) for the covariances k(x) of each point with the data. Where the predicted standard deviation is zero it can raise for a matrix arbitrarily near the right one. This explains the role of the limit on the condition number for predictions.", "quantifier": "all models ready for evaluation, all kernels, data, hyperparameters, nuggets, with or without gradients and preconditioning, both condition number norms, all points, and all matrices within the distance", "why_tests_cant": "It ranges over every perturbation of every covariance matrix and every point.", "anchors": ["gpgradpy/src/eval/GpEvalModel.py: setup_eval_model, eval_model, eval_model_var, calc_dmudx, calc_dsig2dx", "gpgradpy/src/kernel/Kernel.py: calc_all_K_w_chofac"]}
{"id": "C137", "title": "The recorded condition number is that of the matrix, and decides whether the model can be evaluated", "statement": "After setup_eval_model(calc_cond = True) the attribute condK is the condition number, in the configured norm, of the matrix that is factorised: the covariance matrix of the data relative to the prior variance, with nugget, rescaled to unit diagonal with preconditioning. With preconditioning eval_model then always succeeds; without it, it succeeds if condK is at most cond_max_abs and otherwise raises an assertion error. After setup_eval_model() condK is None, no matrix is refused, and wherever both versions can be evaluated their means and standard deviations agree.", "quantifier": "all models ready for evaluation with a positive nugget, all kernels, data, noise, hyperparameters and condition number limits, all points", "why_tests_cant": "It ranges over all covariance matrices on both sides of the limit.", "anchors": ["gpgradpy/src/eval/GpEvalModel.py: setup_eval_model, eval_model", "gpgradpy/src/kernel/Kernel.py: calc_all_K_w_chofac, calc_Kern_w_chofac"]}
{"id": "C138", "title": "The map of likelihoods outlines the pairs above the condition number limit", "statement": "If some pair of length scales of the grid has a condition number above cond_max, then plot_lkd in plt_cond.py draws the contour line that separates these pairs from the ones within the limit; otherwise it draws none.", "quantifier": "all tables of likelihoods (with NaN anywhere) and of positive condition numbers on a grid, all limits above 10", "why_tests_cant": "It ranges over all tables; the script only shows a picture of one, from which a missing line is easily not noticed.", "anchors": ["gpgradpy/plt/plt_cond.py: plot_lkd, calc_scl_data"]}
