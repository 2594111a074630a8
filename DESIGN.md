# Formal model of Molecolab-Pisa/GPX in Lean 4 — design

## Layout

* `lean/Verif/Model/*.lean` — the model. One file per source file (or group). Every definition cites
  the lines of `/repo` it models and states its simplifications.
* `lean/Verif/Spec/*.lean` — short specifications, independent of the model's helpers.
* `lean/Verif/Lemmas/*.lean` — helper lemmas.
* `lean/Verif/Props/*.lean` — the property theorems (`C01_…`, `C02_…`), each with an `example`
  showing that its hypotheses are met by a concrete, non-trivial case.
* `properties.jsonl` — the English properties. `MANIFEST.json` — property ↔ theorem names ↔ status.
* `seeded/LOG.jsonl` — log of deliberate model mutations and which theorems caught them.

## Modelling conventions

* **Numbers.** Floating point arrays are modelled as real-valued functions on `Fin n`
  (`Fin m → Fin n → ℝ`, i.e. Mathlib matrices). Rounding, overflow, NaN are *not* modelled,
  except in the comparisons of losses by the restart loops and the particle swarm (`Model/PyFloat.lean`, C57, C111) and
  the rounding of squared distances, the SquaredExponential kernel and predictions (`Model/Rounding.lean`, C127–C129). The
  jitters written in the code (`1e-300`, `1e-12`, `1e-10`, `1e-6`, …) *are* modelled, as the real
  numbers they denote. Shapes are type indices: a shape error that the real code raises at trace
  time is either excluded by the types or modelled explicitly when a property is about it.
* **Row-major reshape.** `reshape` is modelled by `finProdFinEquiv` (`(i, j) ↦ j + n * i`), which is
  C order, so layout bugs are visible in the model.
* **Control flow.** `lax.scan`/`fori_loop`/`for` are folds over lists or `Nat` recursion;
  `dynamic_update_slice`/`dynamic_slice` clamp their start index as XLA does; `vmap` is a pointwise function.
* **Automatic differentiation.** `jax.grad/jacrev/jacfwd` are modelled as a program transformation, not as the
  mathematical derivative: kernels are programs of a small language (`Ex`, `Model/Autodiff.lean`) and `Ex.D` applies the
  JVP rule of each JAX primitive. At kinks the rules return what JAX returns: `abs` uses `+1` at `0`
  (`select(x >= 0, g, -g)`), `maximum` shares the derivative equally at a tie, a zero exponent of `**` has derivative
  zero; a `custom_jvp` function is differentiated by its rule, and the rule itself is differentiated for second
  derivatives. That the rules give the true derivative away from kinks is proved (`Lemmas/Autodiff.lean`), and
  hand-written derivative kernels are proved against both. Forward and reverse mode are identified: over ℝ they give
  the same number.
* **External numerics.** They are parameters of the model, with a contract as an explicit hypothesis:
  * `LinAlg.Exact`: `solve` and `inv` are exact on invertible matrices; `cholesky` returns a lower triangular factor
    with positive diagonal on positive definite matrices; `solve_triangular` is exact on lower triangular matrices with
    nonzero diagonal; `svd` is a thin singular value decomposition. Nothing is assumed on other inputs. Satisfiable:
    `LinAlg.ideal_exact`.
  * `CGExact`: conjugate gradients solves positive definite systems exactly (`idealCG_exact`). C108 replaces it by the
    stopping rule of the routine (`CGStops`, satisfied by a routine that is not exact: `earlyCG_stops`).
  * `Eigh.Exact`: `eigh` diagonalises symmetric matrices orthogonally.
  * Optimisers (`scipy`, `optax`, `nlopt`, `pyswarms`): arbitrary functions with a hidden state, which may raise. For Optax (C148) also gradient descent, momentum and Adam, written from their definitions, on the gradient JAX computes.
  * Random generators: an abstract split and abstract draws. Theorems about moments assume an expectation operator
    under which the standard draws are centred, uncorrelated and of unit variance; laws are measures.
    C109 takes the expectation over an ideal generator (`Spec/Draws.lean`): successive draws are independent uniform
    numbers. The code samples with the very key it carries on to the next `split`, so this independence is an
    assumption on the generator, not a consequence of the code.
* **Exceptions** are values of an inductive error type (`Except`).
* **Strings** (dictionary keys) are `List Char`, with Python's `split`/`join` written out.

## Trusted base

* Lean 4.33.0 kernel. Every theorem depends on at most the axioms `propext`, `Classical.choice`, `Quot.sound`
  (`#print axioms`). There are no own axioms, and no `sorry`, `admit`, `native_decide` or `bv_decide`.
* The reading of the Python source, cited definition by definition.
* The JVP rules and the contracts of the external libraries listed above (Python, JAX, NumPy, SciPy, optax, nlopt),
  including JAX's rules for static arguments, clamped slices and broadcasting where a model definition says so.
* The idealisation of floats as real numbers: except C127–C129, the theorems say nothing about rounding.

### What is modelled

| source | model |
|--------|-------|
| `bijectors.py`, `priors.py` | `Bijectors`, `Priors`: all |
| `parameters/*` | `Dict`, `Params`: parameters, states, update, save/load, randomize, transform, ravel/unravel; `Disk`: saving and loading as disk operations, with crashes |
| `kernels/kernels.py`, `kernelizers.py` | `Kernels`, `KernelClasses`, `Kernelizers`, `Autodiff`: all kernels, sums, products, every derivative and contraction |
| `kernels/operations.py`, `operations.py` | `Operations`, `Centering` |
| `kernels/approximations.py` | `Approximations`: randomly pivoted Cholesky and preconditioner |
| `lanczos.py` | `Lanczos`: tridiagonalisation, stochastic log-determinant |
| `models/_gpr.py`, `_sgpr.py`, `_sgpr_rpchol.py` | `GPR`, `SGPR`, `RPCDerivs`: dense and iterative fits, predictions, covariances, likelihoods, losses |
| `models/gpr_td.py` | `GPRTD`: block systems, matrix-free products, fit, predict, likelihood, preconditioner; `GPRTDPredict`: predict with any number of derivative sets; `GPRTDAPI`: the class `GPR_TD`; `GPRTDLik`: likelihood with optional sets |
| `models/base.py`, `gpr.py`, `utils.py` | `API`, `BaseMethods`, `Restarts`, `LossCalls`, `Sampling`, `Defaults`: fit control flow, flags, keyword binding, restarts, sampling, constructors |
| `models/rbfnet.py` | `RBFNet`: predictions and training loss; `RBFNetAPI`: the class `RBFNet`; `API`: the call made by `fit` |
| `optimizers/*` | `Optim`: scipy, nlopt, optax and PSO wrappers, checkpoints |

### What is not modelled

* Floating point overflow and NaN, and rounding outside C127–C129; compilation, devices and performance; the internals of the external
  solvers; printing and `__repr__`; warnings; type annotations; concurrency (the library has none).
* `parameters/*`: the flattening of states and parameters is modelled on arrays; the placeholder leaves JAX puts into a tree
  while tracing are not.
* Files: other processes, full disks and writes reordered by the operating system; a crash leaves the effects of an
  initial part of the operations, and an archive without its directory cannot be read.
* `models/rbfnet.py`: what the fitting methods do after the call that always raises (C43).
* `optimizers/pso_optimize.py`: `replace_bijector_with_identity`; `optax_optimize.py`: `_check_optimizer`.

## Plan per property

| id | what is modelled | how it is proved |
|----|------------------|------------------|
| C01–C04 | `bijectors.py`, all forward/backward functions over ℝ with the 1e-300 jitter | real analysis (log/exp monotonicity) |
| C05–C06 | `priors.py` logpdf/sample; standard draws as random variables with a given law | reduction to Mathlib's Gaussian/Gamma densities; push-forward of measures |
| C07–C09 | nested dicts as an inductive tree with ordered keys; `_flatten_dict`, `_unflatten_dict` incl. the `is` comparison; `save`/`load` on a file = list of (name, array) | induction on trees; negation witness where the `is` comparison breaks the round trip |
| C10–C11 | `ModelState`/`Parameter` as records with an association list of options; dict passed by reference = returned second component | induction over the list of updates; negation with witness for C11 |
| C12–C14, C58 | parameter tree leaves, ravel/unravel with per-parameter shapes, `randomize` with an abstract key-splitting function | induction on leaves lists |
| C15–C16, C56–C57 | restart loops with an abstract minimiser/loss; `fit` control flow with exceptions | induction on the number of restarts |
| C17–C20 | kernelizers with scan/vmap versions | list/Fin-function extensionality, sums |
| C21–C28 | base kernels, hand-written derivatives, kernel expressions (inductive type) | `HasDerivAt` computations, Schur product, power-series argument for exp |
| C29, C32 | row-wise matvec loops | induction over the scan |
| C30 | Woodbury matvec | matrix algebra |
| C31, C33–C36 | `_gpr.py` dense fit/predict/lml | positive-definite matrices, Schur complement, determinants |
| C37–C39 | randomly pivoted Cholesky as a fold over an arbitrary pivot sequence | invariant (Loewner order) by induction; negation for C39 |
| C40 | Lanczos loop | invariant by induction |
| C41 | kernel centering | sums |
| C42 | API state machine of fitted flags | induction over operation sequences |
| C43 | keyword-argument binding of Python calls | decision logic; the property is false of the code, negation proved |
| C44–C47 | checkpoint names, optax loop, recursive type check, sample | induction; negation for C47 |
| C48–C51 | `_sgpr.py` dense and matrix-free, `sample_prior` | matrix algebra; negations where the code violates the property |
| C52–C53 | `gpr_td.py` block system, interleaved result reordering, lml | index algebra, block matrices; negation for C53 (second derivative block) |
| C54–C55 | `log_prior` reduction, distances | induction, real algebra |
| C59 | keys consumed by successive restarts | iterates of the split; negation with witness |
| C60–C61 | scipy, NLopt and Optax wrappers around an arbitrary optimiser | induction over steps; negation where frozen values move |
| C62–C63 | kernel values and their dependence on samples | real algebra; induction on kernel expressions |
| C64 | posterior covariance for nested data | Schur complements, variational characterisation |
| C65, C78 | derivative and joint Gram matrices | feature maps, limits of Gram matrices, closure under sums and products; negations with explicit data |
| C66 | iterative fit of a single sample | error propagation through the pivoted Cholesky model |
| C67–C68 | stochastic Lanczos quadrature | expectation operator; polynomial exactness by induction on the degree |
| C69, C90–C91 | histories of a model object, raising calls, training records | induction over histories; case analysis of the control flow; negations |
| C70–C73 | sparse models | least squares, Woodbury, reduction to selected samples; negation for C72 |
| C74–C75 | samples from prior and posterior | bilinearity of the expectation operator; negation for C75 |
| C76–C77 | `GPR_TD` fit, predictions and preconditioner | block index algebra, reduction to the proved linear algebra |
| C79–C80 | derivatives along paths of samples | chain rule over kernel expressions; negations caused by jitters and floors |
| C81–C83 | operator learning: `fit_ol`, `predict_ol`, `mse_loss` | least squares; error and counterexample for C83 |
| C84–C85 | binding of losses and their keyword arguments | decision logic over all keyword sets; negations |
| C86 | default parameters and every training history | invariant over histories; negation (Optax and the polynomial degree) |
| C92–C93 | likelihood and posterior at the level of states, `Model/Posterior.lean` | unfolding of the calls, rearrangement of sums over leaves; negation with an explicit Lanczos run |
| C94 | `tree_flatten`, `tree_unflatten`, `copy` of states and parameters, `Model/Pytree.lean` | induction on the parameter dictionary |
| C95–C96 | state-level functions of the sparse models, `Model/SparseAPI.lean` | case analysis of every call on an arbitrary state; negation for C96 |
| C97 | `GPR_TD.predict` with its optional second jacobian, `Model/GPRTDPredict.lean` | the mixed matrix-free product is the beginning of the full one; negations for the three failing combinations |
| C98–C100 | class `GPR_TD`, `Model/GPRTDAPI.lean` | invariant over histories of fits; reduction of save/load to C08; negations for C99 and C100 |
| C101–C104 | class `RBFNet`, `Model/RBFNetAPI.lean` | invariant over histories of calls; reduction to C08 and C14; negations for C102 and C103 |
| C105, C106 | `BaseGP.is_fitted`, `_check_is_fitted`, iterative options and likelihood methods, `Model/BaseMethods.lean` | invariant of C42; reduction to C32, C34, C66; negations of both |
| C107 | GPR_TD likelihoods with every combination of optional sets, `Model/GPRTDLik.lean` | case analysis, reduction to C53 |
| C108 | iterative fits with a solver that only obeys its stopping rule, `Spec/Residual.lean` | energy estimate for `K + s I`, Cauchy-Schwarz for the joint covariance |
| C109 | the pivoted Cholesky loop driven by an ideal generator (inverse cumulative weights of independent uniforms, `Spec/Draws.lean`) | exact one-step expectation of the trace, projection onto the range of the competitor, induction over the steps with a linearised recursion |
| C110 | preconditioners and matrix-free operators of C29, C30, C52, C77 | quadratic forms: `F Fᵀ ≤ K`, `K - F Fᵀ ≤ tr(K - F Fᵀ) I` |
| C111 | `losses.index(min(losses))` on values that may be `nan`, with Python's identity test | invariants of the two loops |
| C112 | the stationary kernels again with a vector of lengthscales (`Model/KernelsARD.lean`), broadcasting explicit, failing shapes as errors | reduction to unit lengthscale; calculus with one scale per coordinate |
| C113 | `lanczos_logdet` with `n` steps | second and fourth moments of independent signs (sign-flip involution); `C67_term` |
| C114 | `lanczos_logdet` with any number of steps | moment matching (C68) for a polynomial approximating the logarithm, Ritz values inside the spectrum, truncated series of the logarithm |
| C115 | iterative likelihoods of GPR, SGPR, GPR_TD with `lanczos_logdet` inside (`Model/LikelihoodLanczos.lean`) | spectrum of the covariance between noise and noise plus trace; C108 for the solver, C114 for the log-determinant |
| C116 | `save`, `load` and `StateCheckpointer` as sequences of disk operations, crash = initial part (`Model/Disk.lean`) | induction over the calls for all crash points; save/load round trip (C08) for the rebuilt states; negation: a second run truncates the first checkpoint |
| C117 | as C116; `np.savez` appends `.npz`, `np.load` does not | partial for names ending in `.npz`; negation with the name `model` |
| C118 | as C116 | case analysis of the crash points; negation: the file is truncated on opening |
| C119 | as C31, C35; ridge estimates (`Lemmas/TrainingPoints.lean`) | spectral inequalities for `K (K + s)⁻¹` obtained from quadratic forms |
| C120 | mean squared error of an arbitrary linear predictor written with kernel values and the noise of the model | completing the square with the fit equation |
| C121 | prediction functions at selected inputs | kernels are evaluated sample by sample (C63); negation: the covariance of `SGPR.predict(full_covariance=True)` at a point changes when a second point is asked for |
| C122 | as C31; bounded and decaying kernel expressions (`Spec/Decay.lean`) | Cauchy-Schwarz for the joint covariance; `k ≤ 6 lengthscale / distance` for the decaying kernels, induction on the expression |
| C123, C124, C125 | as C31, C48, both models on the original and on the mapped data (`Spec/Transfer.lean`: `SameModels`; `Spec/TransferMore.lean`: iterative methods, SGPR_RPChol, GPR_TD) | one predicate `Carries` (all kernel functions agree after the change of variables), proved for sums, products and every leaf from the closed forms; every fit, prediction and likelihood only uses the kernel functions |
| C126 | as C31, C48 | the difference of the coefficients solves the sparse system with right-hand side `1e-10 (K c - c)`; energy estimates, then Cauchy-Schwarz for the joint covariance |
| C127, C128, C129 | `squared_distances`, `_squared_exponential_kernel` and the last line of `_predict_dense` with every rounding explicit (`Model/Rounding.lean`); sums as a relation over all orders and fused multiply-adds; rounding to nearest with 53 bits (`Spec/Floats.lean`) | a calculus of relative errors by induction on the evaluation order; negations by exact computation of the roundings for two samples |
| C130 | base functions against specialised functions | both are the nine functions of a `KernelObj`; structural induction over expressions without distances; exact factor for SquaredExponential; error recursions for the values, derivatives and contractions of all expressions (`jitterError`, `derivErrors`); negation for the full claim |
| C131, C132 | continuity | all model functions over an arbitrary topological space of settings; induction over kernel expressions (values) and closed forms (derivatives); inverse, determinant and Cholesky products rewritten by the solver contracts; negation for the derivatives of Matern12 by the intermediate value theorem |
| C133 | bounded training objective | all dense likelihoods; determinant of a shifted positive semidefinite matrix as product of shifted eigenvalues, concavity of the logarithm, quadratic form bound; GPR_TD through its observation-indexed covariance |
| C134 | `Model/Dispatch.lean`: signatures of all public methods and of the functions the classes register, binding of positional and keyword arguments, the calls in the bodies | for all argument lists: generic lemmas on binding, and a finite table of classes and methods checked case by case; negation for the broken methods |
| C135 | `Model/Getters.lean`: the data attributes; histories `Remembered` indexed by what the user remembers (data of the last fit, last Jacobian, reset since) | invariant on the stored options by induction over histories; negation by `fit_derivs` then `fit` |
| C136 | `Model/SGPR.lean`, `Model/GPRTD.lean`: systems, coefficients, predictions, likelihoods under permutations of samples and inducing points | the matrices become submatrices under permutations (`C63_sampleWise`); permutations commute with products, inverses and determinants |
| C137 | `Model/Print.lean`: rows of `print_params` (text formatting not modelled) | induction on dictionaries: leaves with paths correspond to lookups, sorted listings are ordered, joined names are injective without `:` |
| C138 | `Model/Heap.lean`: memory of `Parameter` objects (addresses) and `ModelState` objects, with construction, copies, updates, maps and in-place assignments as steps | invariant: addresses held by states are in use and no two states hold the same; every step keeps it and changes only what the states changed in place show |
| C139 | `Model/Heap.lean`: `tree_flatten` with the stored `_params_structure` | negation with a program of three steps; partial: the stored structure agrees with the parameters as long as only values change in place, so the map equals the functional one of C94 |
| C140 | `Model/GPR.lean`: `predictDerivsDenseCov`, `predictYDerivsDenseCov` | Schur complement of the block covariance of training and new observations; the explained part is monotone in the rows of the selected samples; negation from the indefinite covariance of C78 with a noise small enough |
| C141 | `Model/GPR.lean`: `fitDense`, `predictDense`, `predictDenseCov`, `lmlDense` with kernel `Constant() * k` | the matrices scale by `s²`; uniqueness of solutions, inverse and determinant of a multiple; error by the residual of one noise in the system of the other; negation by one sample |
| C142 | same, dataset indexed by sample and copy | sums over copies of the coefficients solve the averaged system; uniqueness |
| C143 | `Model/JitCache.lean`: kernel objects by address, traces kept by compiled functions (JAX's rule for static arguments is assumed, not derived) | invariant: kept traces agree with the objects; induction over programs; negation by a program of four operations |
| C144 | `Model/GPR.lean`: `fitDense`, `predictDense`, `predictDenseCov`, `lmlDense` on a concatenated dataset | block system solved through its Schur complement, which is the predictive covariance plus noise; uniqueness; determinant of a block matrix |
| C145 | `Model/GPR.lean`, `Model/SGPR.lean`, `Model/Kernels.lean`, `Model/Bijectors.lean` along differentiable families of settings (`Spec/Gradient.lean`) | induction over kernel expressions (the distance jitter 1e-12 keeps the Matérn square root and floor away from their kinks); determinant and inverse entrywise; Jacobi's formula and derivative of the inverse; maximum along every curve has derivative zero; scaling curve of the variance plus noise curve |
| C146 | `Model/GPR.lean` (derivatives), `Model/GPRTD.lean` along differentiable families of settings (`Spec/Gradient.lean`) | closed forms of the derivative kernels are differentiable leaf by leaf, sums and products by the product rules; then as C145 |
| C147 | `scipyMinimize` (`Model/Optim.lean`) with an arbitrary proposal, `unravelForward`, the default parameters and the posteriors (`Model/Defaults.lean`, `Model/Posterior.lean`); the minimiser evaluates at one arbitrary vector (`Spec/Unconstrained.lean`) | every number a model reads is constant or the bijector image of one coordinate (position of a key path in the list of leaves, `Lemmas/DictIndex.lean`); admissible by C86, differentiable by C145, bounded by C133; at a zero gradient move the coordinate of `sigma` and of the variance alone and use C145 |
| C148 | `jax.value_and_grad` of a function of a state (`Model/StateGrad.lean`): the state is rebuilt from moving values, frozen ones cut off by `stop_gradient`; `optax_minimize` with this gradient; `optax.sgd` (with and without momentum) and `optax.adam` as rules for one entry | states given by their list of leaves (`Lemmas/StateGrad.lean`); constraining such a state is a proposal of `scipy_minimize`, so the loss Optax differentiates is SciPy's objective (`Lemmas/Descent.lean`); run by induction on the steps; descent from the derivative along the negative gradient; exact GPs by C147 |
| C149 | `sample` and its callers (`Model/Sampling.lean`), keys as points of a probability space | Mathlib's multivariate Gaussian on plain vectors (`Spec/NormalLaw.lean`); law of an affine image of standard normal numbers with the Cholesky factor; rows independent as images of independent rows |
| C150 | `fitDense`, `predictDense`, `predictDenseCov`, `fitDerivsDense`, `predictDerivsDense` (`Model/GPR.lean`), `tdFitDense1/2`, `tdPredictDense1/2` (`Model/GPRTD.lean`) as functions of random targets | a jointly Gaussian vector is built in two stages, so its conditional law is Gaussian with the Schur complement as covariance (`Lemmas/NormalLaw.lean`); the coefficients solve the system of the observations (C31, C76) |
| C151 | `lmlDense`, `lmlDerivsDense`, `sgprLmlDense`, `tdLmlDense1` as functions of the targets | density of an affine image by change of variables (`Lemmas/NormalDensity.lean`), then C34, C53, C71. GPR_TD with two sets of derivatives is excluded: its constant is wrong (C53) |
| C152 | same | Gibbs' inequality with its equality case; the law determines mean and covariance (`Lemmas/NormalInfo.lean`) |
| C153 | same as C150 | the error is independent of the data, so the cross term vanishes |
| C154 | same as C150 | each coordinate of the error is Gaussian |
| C155 | `sgprFitDense`, `sgprPredict`, `sgprFitDerivsDense`, `sgprPredictDerivs` (`Model/SGPR.lean`) as functions of random targets | as C150, with Woodbury's identity; the jitter of the system is moved into the covariance of the inducing points |
| C156 | `scatterSet`, `diagSet`, `meshSet` of the raw derivative kernels and the contracted ones (`Model/Kernels.lean`) with repeated features | counterexample for the raw kernels; closed forms of the contracted kernels for every list (`Lemmas/KernelClosedJ.lean`); an expression with repetitions is carried to one without on copied features |
| C157 | `fitDerivsDense`, `predictDerivs…`, `lmlDerivsDense`, `sgprFitDerivsDense`, `tdFitDense1/2`, `tdPredictDense1/2`, `tdLmlDense1/2` (`Model/GPR.lean`, `SGPR.lean`, `GPRTD.lean`) | the contracted kernels are linear in the jacobians (structural induction); a change of frames multiplies the training matrix by a coisometry, which carries solutions to solutions; determinant and quadratic form are kept |
| C158 | `tdFitDense1/2`, `tdPredictDense1/2`, `tdLmlDense1/2`, `fitDense`, `lmlDense` | selecting components is linear, so the covariance of two sets is that of the merged set entry by entry; the two systems differ by the order of the observations |
| C159 | `KernelObj.sum`, `KernelObj.prod`, `KernelObj.constant`, all models | induction over the rules of arithmetic; each rule is an identity of the nine functions entry by entry; models only see these functions |
| C160 | `expSinSquaredBase`, `KernelObj.sum`, `KernelObj.prod`, all models | sine and cosine change sign together after half a turn and only their products enter; models only see the kernel functions of one representative of each class of samples |
| C161 | kernels of the leaves, `KernelObj.sum`, `KernelObj.prod`, `fitDense`, `predictDense`, `predictDenseCov` | Gaussians: a null vector of the form annihilates exponentials of distinct linear forms, which are independent characters; Matern: strictly positive mixtures of Gaussians; products: Kronecker products of the class matrices; then ridge and Schur complement estimates |
| C162 | `lmlDense`, `sgprLmlDense`, `lmlDerivsDense` | one orthogonal change of coordinates writes the likelihood for every noise as a sum over eigenvalues; each term is strictly monotone past the data (log x < x − 1); existence by continuity and compactness; for the variance coercivity from the positive definite Gram matrix (C161) |
| C163 | `sgprFitDense`, `sgprPredict`, `fitDense`, `predictDense`, the derivative versions, `sgprLmlDense`, `lmlDense` | Woodbury writes the sparse prediction as a dense one with the projected kernel; the residual kernel is a Schur complement, hence positive semidefinite; Cauchy-Schwarz and trace bounds; likelihood: log det(1 + R) ≤ tr R after whitening |
| C164 | `fitDense`, `predictDense`, `predictDenseCov`, the derivative versions, `tdFitDense1`, `tdPredictDense1` | the objective of the regularised fit is a quadratic whose excess over the minimum is ‖f - fit‖² + Σ (f - fit)(x_i)²/s; Cauchy-Schwarz in the kernel's space and in the noise, against any linear weights; C120 says which weights give the variance; the extremal function is fit + τ (k(x, ·) - Σ α_i k(x_i, ·)) |
| C165 | `fitDense`, `predictDense`, `predictDenseCov`, `sgprFitDense`, `sgprPredict`, the derivative versions, `tdFitDense2`, `tdPredictDense2`; every kernel's `k` | Cauchy-Schwarz for the joint covariance of the training data and the difference of two predictions, and the energy of the coefficients, at most a quarter of the squared residuals over the noise; the slopes of the kernels by the mean value theorem in the squared distance, by induction over the expression |
| C166 | `predictDenseCov`, `predictDerivsDenseCov`, `fitDense`, `predictDense`, `fitDerivsDense`, `predictDerivsDense`, `predictYDerivsDense`, `tdFitDense1`, `tdPredictDense1`, the sum and product of kernels | monotonicity of Schur complements (the posterior covariance as the least variance of a residual); limits of a block system whose second diagonal block carries a noise tending to infinity |
| C167 | `fitDense`, `predictDense`, `predictDenseCov` with `stretch p s` (every lengthscale times `s`) | entrywise limits of the kernel by induction on the expression; limits of inverses by continuity of determinant and adjugate; at new inputs the bound `s²‖c‖² ≤ ‖r‖²` on the weights, so that training samples may coincide |
| C168 | `fitDense`, `predictDense`, `predictDenseCov` on a training set with and without one sample (`Fin.succAbove`) or a group | elimination of one unknown from the system of C31; for groups from C144; for `sgprFitDense` a rank-one update; for derivatives `nz - V = nz² A⁻¹` and the difference of the two solutions |
| C169 | the dense fits and predictions of GPR, SGPR, GPR_TD on data mapped onto themselves by a motion of C123 | the motion changes nothing (C123), the reordering of the samples neither (C35, C136); linearity (C36) for odd data |
| C170 | the dense GPR covariance and predictions, also trained on derivatives | the mean over the near samples is one linear guess, and the variance is the least error of a linear guess (C120); limits by continuity of the kernel (C131), predictions by C164; the floor by two Cauchy-Schwarz inequalities |
| C171 | `fitDense`, `predictDense`, `predictDenseCov` with the kernels `Constant`, `Linear`, `Polynomial`; ridge regression and degrees in Spec/Simple | dual of ridge regression, push-through identity; induction on the kernel expression for degrees |
| C172 | `fitDense`, `predictDense`, `predictDenseCov`, `lmlDense`, `fitDerivsDense`, `predictDerivsDense`, `predictDerivsDenseCov`, `predictYDerivsDense`, `predictOl`; which features an expression reads and combines in Spec/Interactions | induction on the kernel expression |
| C173 | `fitDense`, `predictDense`, `fitDerivsDense`, `predictDerivsDense` on exact data | the fitted system tested with its own solution and the Cauchy-Schwarz inequality of the kernel |
| C174 | `predictDerivsDense`, `predictYDerivsDense`, `sgprPredictDerivs`, `predictOl`, `tdPredictDense1` along paths | fundamental theorem of calculus with the path derivatives of C80 and the continuity of C132 |
| C175 | `fitDense`, `predictDense`, `sgprFitDense`, `sgprPredict` column by column, `zeroMean`, `dataMean` | uniqueness of the solution column by column; `C175_false` refutes it for `data_mean`, whose mean runs over all columns, and `C175_difference` gives the exact difference |
| C87–C89 | RBF network | sums, ridge regression expansion; negation for C89 |

## Code and documentation disagree

Every line is backed by a theorem: `CXX_false` (for C54 `C54_log_prior_false`) refutes the property, and what does hold
is in the `_partial` theorems.

* **C02** (forward(backward(v)) gives v back up to the 1e-300 jitter). Exact for Softplus/SoftMin/SoftMax on the whole range. SoftMinMax: bounded error outside the lowest sliver of relative width 1e-300/softplus(width); in the sliver `backward` returns no number (C02_sliver). `backward(forward(u))` of SoftMinMax is no number either for very negative `u` (C03).
* **C07** (Dictionary flatten/unflatten is a round trip). Full statement C07_full is false of the code (proved); round trip proved for dictionaries whose keys avoid the separator and short-shadow clash.
* **C08** (save followed by load restores a model). False for some names: the "subk is keys[-1]" test in _unflatten_dict misplaces a one-character sub-dictionary name repeated by a leaf below it (witness proved). Proved for all trees without such a name and all option sets.
* **C09** (load refuses a file with a different number of parameters). Proved for every saved state without a shadowed one-character name; false otherwise (a file with two parameters is accepted by a state with three). For arbitrary files: success implies equal counts.
* **C11** (update does not change the caller's dictionary). False of the code: update pops kernel/mean_function/params from the caller's dictionary (witness). Proved: exactly those entries are removed and nothing else changes.
* **C20** (Coefficient-contracted kernels equal the contraction with the coefficients). Proved for every decorator-built kernel and every library expression without Matern52; false for Matern52, whose d0kjc has no jitter while d0kj has; for every expression the two sides differ by at most an explicit error (`C20_errors_partial`).
* **C24** (Hand-written derivative kernels are the true derivatives). The hand-written derivatives are exact, but `d0k` and `d1k` of SquaredExponential come from the base kernel without the jitter that `k` adds: `exp(1e-12)` times the derivative (`C24_squared_exponential_false`). The custom_jvp rules are exact above the 1e-36 floor, and at coincident points for the sample arguments; the lengthscale rule is off by about 1e-36 at coincident points, so the full claim is false.
* **C32** (Iterative and dense predictions agree). Iterative and dense paths agree for exact CG; predict_y_derivs with stored jacobian coefficients disagrees for Matern52 (C32_false), by at most an explicit error (`C32_errors_partial`).
* **C34** (Log marginal likelihood is the Gaussian log density divided by the number of data). Exact for one output column and for derivative targets. For several output columns the code counts log-determinant and constant once, and the iterative version adds cross terms between columns: both refuted.
* **C39** (A pivot is never selected twice). False: the 1e-6 jitter leaves a positive sampling weight on a used pivot. Proved: the remaining weight is at most 2e-6 times the square root of the old one.
* **C43** (Public fit methods accept their documented arguments). false of the code for SGPR, SGPR_RPChol and RBFNet: their fit methods raise for every input; holds for GPR and for fit_nlopt
* **C44** (Checkpoints never overwrite each other). false for file names containing single braces (str.format interprets them and raises). Proved for all names: the calls succeed exactly when braces are doubled, checkpoint n is `stem.NNN.ext` with stem and extension cut as by os.path.splitext, and then no two checkpoints share a file, for any number of calls
* **C47** (Sampling returns all requested samples). False for two or more output dimensions: only the draws of the last one are returned; with a one-dimensional mean the sample count is ignored. Proved for one output.
* **C48** (Sparse fit solves the subset-of-regressors system and its iterative version multiplies by the same matrix). Dense systems, target operators and the likelihood operator proved for all inputs. The derivative operator permutes columns when there are two or more derivative components and inducing points (C48_false); exact permutation in C48_matvec_derivs_formula; equality proved for one component or one inducing point.
* **C49** (Sparse predictive covariance depends on the training data). False in general: the code passes the prediction points where the training inputs belong. Proved when they coincide; the returned matrix is positive semidefinite for all inputs.
* **C50** (SGPR_RPChol.predict_y_derivs honours full_covariance). SGPR_RPChol drops the flag (for every input); SGPR honours it for one derivative component, and for one inducing point with the noise variance added to every entry of the covariance of the components (broadcasting of `jnp.eye(1)`).
* **C51** (Prior samples use the same noise model as fit). GPR as stated; SGPR and SGPR_RPChol add sigma instead of sigma squared, i.e. sample with noise sqrt(sigma).
* **C53** (GPR_TD log marginal likelihood counts all observations). With one derivative set the claim holds; with two the dense code divides by n+n*v and omits n*v2 copies of the constant, so dense and iterative values differ (C53_false).
* **C54** (log_posterior is lml plus the sum of all log priors). False for array-valued parameters: `C54_array_never_scalar` shows that one such parameter already makes the result an array; proved for scalar parameters.
* **C56** (fit with a requested history and no minimisation). false of the code: fit(return_history=True, minimize=False) always raises UnboundLocalError; proved: it returns in the other three combinations
* **C59** (Random restarts start from fresh draws). false of the code: the key passed to randomize is then split along the same chain, so the i-th restart reuses the keys of the previous one shifted by one parameter. Within one restart keys are distinct (C14) Restarts at least as far apart as the number of trainable parameters use different keys (`C59_apart_partial`).
* **C60** (Scipy and NLopt training only touches trainable values and keeps them in range). full for scipy_minimize; for NLoptWrapper frozen values are taken from the state given to the constructor, so the full statement is false there
* **C61** (Gradient-descent training leaves frozen parameters alone). false exactly: frozen parameters come back as forward(backward(v)), i.e. with the bijector jitter; proved up to that jitter
* **C65** (Derivative Gram matrices are positive semidefinite). Proved for a recursive class of kernel expressions closed under sums, products and scalings. False in general: SquaredExponential times Linear (value and Hessian damped by the 1e-12 jitter, first derivatives not) and Matern32 (floor) give indefinite matrices for explicit data. For every twice differentiable expression, products with `SquaredExponential` and `Matern32` included, and every dataset in which no `Matern32` finds two different samples nearer than `1e-18/√3` lengthscales (`Separated`), the matrix is positive semidefinite once `slack` (`Spec/JointSlack.lean`) is added: `3e-12` of the covariance for `SquaredExponential`, what the jitter and the floor took for `Matern32`, the product rule for products. `fit_derivs` is well posed when the noise variance exceeds the sum of the slacks (`C65_slack_partial`, `C65_fit_slack_partial`).
* **C66** (Iterative fitting works on every nonempty dataset). Iterative fitting raises IndexError on a single sample, succeeds otherwise.
* **C69** (Coefficients belong to the model's own hyperparameters and data). false of the code after randomize(reset=False); proved for every history ending in a fit, possibly followed by calls that raise in the linear fit
* **C72** (Sparse derivative covariance and likelihood are defined). False: TypeError for two or more components and inducing points, for every kernel and data; one component proved; one inducing point proved, with the jitter added to every entry.
* **C75** (Derivatives can be sampled for any number of components). False: prior sampling (both models) and SGPR posterior sampling raise for two or more components; GPR posterior and the one-component case proved.
* **C78** (The joint covariance of targets and derivatives is positive semidefinite). Proved for the recursive class JointSmooth (constant, linear, polynomial, Matern52, ExpSinSquared, their sums and products). False for SquaredExponential: three samples 1e-7 apart. There a weaker statement is proved: enlarging the entries between observations of the same kind by a relative 2e-12 makes the covariance of every DerivSmooth kernel positive semidefinite (`C78_near_partial`), so the systems are positive definite when each noise variance exceeds 2e-12 times the sum of the prior variances (`C78_well_posed_noise_partial`). Not treated: products containing SquaredExponential, and Matern32. `C78_slack_partial` covers all twice differentiable expressions on separated datasets. `SquaredExponential`: its true jet kernel, rescaled so that the first derivatives lose the factor `exp(-1e-12)`, exceeds the code's Hessian by at most a relative `3e-12`. `Matern32`: its jet kernel without jitter is a limit of smooth ones (`m32_jet`), and the jitter takes away a positive semidefinite part (`m32_shift`). Products of jet kernels follow the product rule. Well-posedness of GPR_TD for noise above the sum of the slacks: `C78_well_posed_separated_partial`; without `Matern32` nothing is asked of the noise of the targets: `C78_well_posed_slack_partial`.
* **C79** (Derivative kernels are derivatives along any motion of the samples). Exact for Constant, Linear, Polynomial (natural degree >= 2), Matern52, ExpSinSquared, all sums and products; SquaredExponential (with Constants) up to the exact factor exp(+-1e-12), for which and for Matern32 the full claim is false (C79_false). For every twice differentiable expression (C79_near_partial): up to 2e-12 of the terms in which a SquaredExponential is differentiated and 2e-6 of those in which a Matern32 is; the second derivatives of Matern32 off the floor of its distance.
* **C80** (Predicted derivatives are the derivatives of predicted targets). Exact for the same kernels as C79; SquaredExponential up to the exact factor exp(+-1e-12). For every twice differentiable expression (the near theorems) up to the errors of C79, weighted with the coefficients.
* **C83** (predict_ol returns the documented covariance). False of the code: the cross kernel is overwritten by its derivative, so the call raises TypeError for n >= 2 and v >= 2, and for v = 1 the returned matrix subtracts derivative covariances (it can be negative). Proved: what is returned for v = 1, the error otherwise.
* **C84** (Fitting methods can evaluate their default loss). False of the code: fit and fit_derivs of the sparse models pass n_pivots and key_precond to losses without these parameters, fit_derivs of every class passes jacobian to a default loss without it, fit_ol passes y_derivs to the default loss. Proved: which combinations work, for every loss_kwargs, and that the others raise TypeError.
* **C85** (loss_kwargs given to fit is left unchanged). False of the code: the caller's dictionary gets iterative, n_pivots and key_precond. Proved: exactly these entries change.
* **C86** (Models built with default parameters stay well posed however they are trained). Holds for every kernel without Optax, and with Optax for every kernel without a polynomial; C86_false: Optax moves the frozen degree of a polynomial kernel off the natural numbers. PSO is excluded: it works in the constrained space and its range is what the user passes as bounds. Scalar parameters; sampler draws are assumed to have the shape of the prior and PRNG splits not to collide.
* **C89** (Centered RBF networks can be evaluated and trained). false of the code: with k_mean None the mean is taken over the inducing points, so its length is the number of samples; train_loss passes k_mean as a static (hashed) argument, which raises for arrays. Proved: fresh-state predictions work and are centred
* **C90** (A fit that raises leaves the model as it was). False of the code: fit(return_history=True, minimize=False) raises after storing the fitted state, and a linear fit that raises after an optimisation leaves the new hyperparameters with the old coefficients. Proved: the exact object after every raising call
* **C91** (Training records belong to the present model). False of the code: a later fit without return_history, and load, keep the old records. Proved: the records after a fit with return_history, and what every other call does to them
* **C92** (log_posterior is log_marginal_likelihood with the same arguments plus the log prior). False of SGPR and SGPR_RPChol with `iterative=True`: `log_posterior` does not pass `key_lanczos` on. Proved for GPR, for the derivative versions, and for the sparse models when the key is left at its default
* **C96** (The key of SGPR_RPChol's init is optional). False of the code: the default is `jax.random.PRNGKey(time.time())`, a float seed, which JAX rejects with TypeError (the one fact about `PRNGKey` the model assumes). The class `SGPR_RPChol` requires the key
* **C97** (GPR_TD.predict with a different number of derivative sets than in training). False of the code: after training on two sets, the dense prediction without `jacobian_2` raises; after training on one set, asking for `jacobian_2` raises in the iterative prediction and silently returns an `(n, 0)` array in the dense one
* **C99** (A GPR_TD can be saved). False of the code: with `sigma_derivs2=None`, the default and the natural choice for one set of derivatives, `save` reads `None.value` and raises AttributeError
* **C100** (GPR_TD.fit uses the given preconditioner key). False of the code: `key_precond` is replaced by `gpxargs.key_precond`
* **C102** (RBFNet.randomize keeps the configuration). False of the code: with `reset=True`, the default, the output layer becomes the identity, the loss the default loss and centering is switched off
* **C103** (A raising RBFNet fit leaves the network as it was). False of the code: `fit` and `fit_optax` clear the stored `k_mean` and then always raise (C43)
* **C105** (is_fitted tells whether the model is fitted). False of the code: both methods test whether the state has an attribute `c`, which every constructed model has (as `None`); `_check_is_fitted` never raises. The prediction functions read the flags of the state, which are right
* **C106** (iterative=True with default arguments). False of the code: `n_pivots=None` reaches `jnp.zeros((n, None))`; `fit_nlopt`, `log_marginal_likelihood` and `log_marginal_likelihood_derivs` have no argument for it, so they raise for every input
* **C111** (A failed run never displaces a successful one). False of the code: a `nan` loss of the first run is never replaced by `min`, so the failed first run is returned. Proved when the first loss is a number.
* **C112** (One lengthscale per feature). False of the code: the factors `2.0 / lengthscale**2`, `sqrt(5) / (3 * lengthscale)` (in `d0k`) and `5 / (3 * lengthscale**2)` meet the axis of the samples of `x2`, not the features. The calls raise unless the number of active features is one or equals the number of samples; when equal they return wrong numbers. The lengthscale rules of Matern32/52 use the full squared distance for each lengthscale.
* **C116** (Checkpoints survive a crash). False of the code over successive runs: each new checkpointer counts from zero and truncates the earlier checkpoint before writing. Proved for one run and every crash point.
* **C117** (The name given to save can be given to load). False of the code for names not ending in `.npz`: `jnp.savez` appends the extension and `load` does not. Proved for names ending in `.npz`.
* **C118** (A crash while saving does not lose the model). False of the code: the file is truncated when opened. Proved: other files are untouched, a half-written file is refused, saving under an unused name loses nothing.
* **C121** (A prediction does not depend on the other points asked for). False for `SGPR.predict(full_covariance=True)`, whose covariance is built from the points asked for. Proved for all means and for the covariance of GPR.
* **C127** (Computed squared distances are accurate, symmetric and nonnegative). False of the code in binary64: `|x|² + |y|² − 2 x·y` can come out negative and unsymmetric for two samples close to each other and far from the origin. Proved: the exact error bound for every summation order, nonnegativity and accuracy when the distance exceeds it.
* **C128** (The computed SquaredExponential kernel is accurate and at most one). False of the code in binary64: a negative computed distance gives a kernel value above 2^60. Proved: the error bound inherited from C127.
* **C130** (A kernel's functions are the ones derived from its base function). False of the code for the distance kernels: the specialised functions add `1e-12` to squared distances, the base functions do not. Proved: equality without distances, the factor `exp(-1e-12)` for SquaredExponential, and explicit error bounds for all nine functions of every expression.
* **C132** (Predicted derivatives never jump). False for `Matern12`: the predicted derivative has a jump at every training point (and is zero within `1e-18` of it). Derivatives predicted by models trained on values: proved for every expression without `Matern12`. Models trained on derivatives: without `Matern32` (its second derivatives change by about `1e-18` at the floor of the distance), with positive semidefinite derivative Gram matrices or noise above the slack.
* **C134** (Every method reaches the function of its class). False: `mse_loss` raises `AttributeError` on every model (it looks up `self.mse_fun`, the attribute is `_mse_fun`), `fit`/`fit_derivs` of the sparse models raise `TypeError`, `fit_ol`/`predict_ol` of the sparse models `AttributeError`; all other methods pass every argument on (`C134_dispatch_partial`).
* **C135** (The training data a model shows are those of its last fit). False: after `fit_derivs` (or `fit_ol`) and then `fit`, `jacobian_train` still shows the Jacobian of the earlier fit (`C135_false`); before any fit with a Jacobian reading it raises `AttributeError`. `x_train` and `y_train` are right after every history (`C135_shown_partial`).
* **C139** (A state changed in place keeps what it shows when it passes through a JAX transformation). False: `tree_flatten` returns the structure stored by the `params` setter, so `state.params['sigma'].trainable = True` followed by any passage through `jit`/`tree_map` gives a state with the old flag (`C139_false`); likewise bijectors and priors. Values are kept. Proved when only values are changed in place after the parameters were set.
* **C140** (Covariances of models trained on derivatives). False for `SquaredExponential` and small noise: targets at `±1e-7` given the derivative at `0` get an indefinite covariance (`C140_false`), because values and Hessian carry the factor `exp(-1e-12)` and first derivatives do not (as in C78). Proved for the kernels of C65 and C78; for the other kernels the covariance is positive semidefinite up to the slack of C78 at the new and training observations (`C140_targets_slack_partial`, `C140_derivs_slack_partial`).
* **C141** (Units of the targets). False: the noise is `sigma² + 1e-10` with an absolute jitter, so expressing targets in other units (variance times `s²`, sigma times `s`) changes the predictions; with `sigma = 0` and `s = 1e-5` the prediction at a training point goes from `1/(1 + 1e-10)` to one half (`C141_false`). Exact when the noise with its jitter scales (`C141_units_partial`); bound of the error otherwise (`C141_error_partial`).
* **C156** (Features named more than once in `active_dims`). False of the raw derivative kernels `d0k`, `d1k`, `d01k` of Linear, Polynomial, Matern52 (and `d01k` of SquaredExponential): `.at[active_dims].set` keeps one of the contributions, so `Linear(active_dims=[0, 0])` has `k = 2xy` and `d0k = y`. Proved: `k` and the contracted kernels, the only ones the models use, are right for every list. Elsewhere "all kernel expressions" includes repetitions, except in the claims about raw derivative kernels: C24, C25, C28, the derivative part of C130 with its consequences `C20_errors_partial` and `C32_errors_partial`, and `C78_squared_exponential_partial`, whose bound uses the norm of the jacobians.
* **C143** (Compiled functions and kernels changed after use). False: `Kernel` has no `__eq__`/`__hash__`, so `jax.jit` compares kernels (static arguments) by identity; after `kernel.k = …` the functions already compiled for that object and those shapes use the old `k`, other shapes use the new one (`C143_false`, `C143_first_use_partial`, `C143_new_shapes_partial`).
* **C175** (Several outputs). False with `data_mean`, the default of GPR and SGPR: the mean is one number over all columns, so with targets `(1, 0)` at one point where the kernel vanishes the first output is predicted as `1/2` (`C175_false`); alone it is predicted as `1`. True with `zero_mean`.
