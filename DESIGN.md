# Formal model of BayesO 0.6.0 in Lean 4

Source: `/repo/bayeso` (Python, read as text, never executed).
Model: `/verif/lean/Verif`. Properties: `/verif/properties.jsonl` (C01 ...).
Status of each claim: `/verif/MANIFEST.json`.

## 1. Layout

| directory | contents |
|---|---|
| `Verif/Model/` | one Lean file per Python module; every definition cites file and lines |
| `Verif/Spec/`  | small specifications, written without the model's helpers |
| `Verif/Lemmas/`| helper lemmas (analysis, linear algebra, lists) |
| `Verif/Props/` | the property theorems `Cnn_...`, each followed by an `example` |

## 2. Modelling conventions

* **Exceptions** are values: a function that may raise returns `Py a := Except PyErr a`.
  `assert` is `PyErr.assertion`; indexing `None` is `PyErr.type`; a singular
  `np.linalg.inv` is `PyErr.linalg`; and so on. `isinstance` assertions on arguments
  whose type is fixed by the Lean type are dropped (they cannot fail); assertions on
  values, shapes that vary and strings are kept.
* **Floats in decision code** (comparisons, argmin, `min`) are `Flt` = finite real,
  `+inf`, `-inf` or `nan`, with IEEE comparison (any comparison with `nan` is false)
  and numpy's rule that `argmin` of an array with `nan` is the first `nan`.
* **Floats in arithmetic** (kernels, linear algebra, densities) are exact reals.
  Rounding (with gradual underflow) is modelled for sampling,
  normalisation and the curves in `Model/Rounded.lean` (C103-C105): the same functions with a
  rounding `fl` after every operation, where `fl` is any function to a nearest double
  (`Spec/Doubles.Nearest`); with `fl = id` they are the exact functions
  (`Lemmas/Rounded.lean`). `Model/Overflow.lean` (C110) adds overflow to infinities and NaN
  for the same functions. `Model/RoundedKernels.lean` (C127) rounds covariances of plain inputs and the
  kernel matrix, with an exponential function of bounded relative error; `Model/RoundedPredict.lean` (C129) rounds
  predictions from them, `Model/RoundedLikelihood.lean` (C156) the likelihood, `Model/RoundedChoice.lean` (C157) the choice of a candidate, `Model/RoundedStep.lean` (C158) a whole step of `BOwGP`, `Model/RoundedTp.lean` (C159) predictions and choices with the Student-t process, `Model/RoundedTreesStep.lean` (C160) a whole step of `BOwTrees`, `Model/RoundedTpStep.lean` (C161) a whole step of `BOwTP`, `Model/RoundedTpLikelihood.lean` (C162) its likelihood, and `Model/OverflowKernels.lean` (C130) adds overflow to the covariances.
  `Model/OverflowTp.lean` (C154) has the Gamma functions of the Student-t likelihood overflow.
  `Model/NonFiniteKernels.lean` (C149) gives the covariances zero, infinite and NaN hyperparameters.
  `Model/RoundedAcquisition.lean` (C131) rounds acquisition values, and `Model/NonFiniteAcquisition.lean` (C132) gives
  those of infinite and NaN predictions and of predictions without spread. `Model/RoundedTrees.lean` (C137-C139) rounds trees
  and forests, and `Model/OverflowTrees.lean` (C143) adds overflow to them. Everything else is exact. Division by zero, which Lean
  totalises to 0, is excluded by explicit hypotheses (`lengthscale != 0`,
  `std + jitter > 0`) in each theorem where it could matter.
* **Arrays**: a point is `Fin d -> R`; an `(n, d)` array is a list of points where the
  number of rows changes at run time and `Fin n -> Fin d -> R` where linear algebra is
  done on it.
* **External code is an oracle parameter**: random draws, `scipy.optimize.minimize`,
  DIRECT, CMA-ES, `multivariate_normal.rvs`, the user's target function and the clock.
  Theorems hold for every oracle; where an oracle's contract is used
  (e.g. unit draws lie in [0,1], Cholesky succeeds exactly on positive definite
  matrices) it is a hypothesis of the theorem or part of a structure which is shown
  to be inhabited.
* **State**: objects with mutable fields (`BOwGP.is_optimize_hyps`,
  `historical_hyps`, the logging registry) are explicit state, threaded through and kept
  when a call raises.

## 3. Trusted base

* The Lean 4.33.0 kernel.
* Axioms: only `propext`, `Classical.choice`, `Quot.sound` (checked with
  `#print axioms` for every theorem named in MANIFEST.json). No own axioms, no `sorry`,
  no `native_decide`, no `bv_decide`.
* Mathlib definitions used in statements: `Real`, `Matrix`, `Matrix.PosSemidef`,
  `Matrix.PosDef`, `Matrix.det`, `HasDerivAt`, `MeasureTheory.integral`,
  `ProbabilityTheory.gaussianReal`, `Real.Gamma`.
* That the Lean definitions under `Verif/Model` say what the cited Python lines say.
* numpy/scipy semantics written into the model (`linspace`, `meshgrid`, `argmin`,
  slicing, `np.delete`, `np.where`, `slogdet`, `np.clip`), and the process pool of Python's
  standard library (`Model/Pool.lean`).

## 4. What is not modelled

* Floating point rounding outside `Model/Rounded.lean`, `Model/RoundedKernels.lean`,
  `Model/RoundedPredict.lean`, `Model/RoundedLikelihood.lean`, `Model/RoundedAcquisition.lean`, `Model/RoundedChoice.lean`, `Model/RoundedStep.lean`, `Model/RoundedTp.lean`, `Model/RoundedTpStep.lean`, `Model/RoundedTpLikelihood.lean`, `Model/RoundedTrees.lean` and `Model/RoundedTreesStep.lean`, overflow outside
  `Model/Overflow.lean`, `Model/OverflowKernels.lean`, `Model/OverflowTrees.lean` and `Model/OverflowTp.lean`, signs of
  zeros, integer overflow, memory layout, aliasing of arrays (except
  where a function mutates its argument, which is modelled).
* The internals of scipy/numpy optimisers, quasi-random generators. Of the
  process pool: processes that die, pickling.
* Drawing itself: of `utils_plotting` the contents of the figures are modelled (lines, marked
  points, bands, labels, colours, horizontal range, legend, file names), not line widths, fonts or
  what matplotlib does with them; log text except array rendering and the messages at the start
  of a run; debug logging.
* Wall-clock values (the clock is an arbitrary oracle).

## 5. Plan per property

| id | what is modelled | how it is proved |
|---|---|---|
| C01-C02 | `normalize_min_max` on lists of reals | order algebra on finite min/max |
| C03-C05 | the three selection loops, with `Flt` values | induction over the list, spec by index/filters |
| C06-C11 | wrapper loops over an arbitrary model step with state | induction over the iteration count; instances for GP/TP/trees |
| C12 | both wrapper loops | equality of folds |
| C13-C15 | sampling functions, `get_grids`, `linspace`, `meshgrid` | interval arithmetic; list combinatorics |
| C16-C18 | `get_minimum`, `get_time`, length part of `plot_minimum_vs_time` | prefix-minimum / prefix-sum induction |
| C19-C21 | hyperparameter dictionaries as dynamic values | case analysis over flags, list lemmas for all dimensions |
| C22-C23 | `BOwGP.optimize` hyperparameter state machine | what any call, failed or not, does to the object; invariant over call sequences |
| C24-C27 | the kernels and `cov_main` over exact reals | SE: power series + Schur product; Matern: Gaussian scale mixture integrals |
| C28 | `cov_set` and the in-place loops of `cov_main` | loop invariant, quadratic forms |
| C29 | `grad_cov_*` | `HasDerivAt` calculus |
| C30-C31 | `get_kernel_inverse`, `get_kernel_cholesky` | PSD + jitter is PD |
| C32-C35 | `predict_with_cov`, `predict_with_hyps` | Schur complement, completing the square |
| C67 | `predict_with_hyps` | residual uncorrelated with, hence independent of, the responses; conditional law as translated residual law |
| C36-C38 | `neg_log_ml`, `neg_log_pseudo_l_loocv` | determinant/inverse calculus, block elimination |
| C39-C40 | `tp` prediction and likelihood | same, plus log-Gamma calculus |
| C68 | `tp.predict_with_hyps` | the joint Student-t density factorises over the blocks; conditional law through the factorised density |
| C41-C46 | `acquisition.py`, `choose_fun_acquisition` | integrals of the normal density by FTC |
| C47-C53 | `trees_common.py`, `trees_random_forest.py` | structural induction over growth; oracles for randomness |
| C54-C55 | `thompson_sampling.py` | list lemmas; negation with witness |
| C73 | `thompson_sampling.py` over `sample_functions` and the GP model | every partial operation of an iteration shown to be defined; induction over the iterations |
| C74-C75 | `sample_functions` of GP and TP | case analysis on shapes; the law of a normal vector over the root of a gamma variable, by conditioning on the latter |
| C56-C59 | constructor and consistency checks | case analysis over strings; negation with witness |
| C60-C61 | `optimize` of the three models end to end | the trace of a successful call; acquisition values row by row; two related runs for C61 |
| C62-C63 | `utils_logger.py`: the registry of `logging` as a map from dotted names; rendering | handlers counted over every sequence of calls; the texts are read back by a tokenizer (arrays) and a reader of quoted keys (dictionaries) that know nothing of the code |
| C64 | the three slices of `plot_bo_step*` | list arithmetic |
| C65-C66 | `check_points_in_bounds`, `check_str_cov` | case analysis |
| C69 | the retry loop of `get_kernel_cholesky` | induction over the list of jitters |
| C71 | `optimize` of the three models and their constructors | every partial operation of a step shown to be defined; invariant on the stored hyperparameters over call sequences |
| C72 | `BayesianOptimization.__init__` and `optimize` with all three surrogates | `create` analysed into three cases; every step defined (C71), the choice of the next point never `None`; induction over the iterations |
| C76 | a whole run with the target in another unit, all three surrogates | one step (C61) lifted through the iterations by a relation between runs ("same effects, mapped outcome"); the responses stay non-constant |
| C77 | `BayesianOptimization.__init__`, `_get_model_bo_*`, `BaseBO.__init__`, `optimize_single_iteration` | inversion of the three constructors |
| C78 | `predict_with_cov` at training inputs, repeated inputs | the kernel system; the variational bound `postCov_le` with equal weights on the repeated rows |
| C79 | `predict_with_cov` for data given in two parts | block elimination in the kernel system |
| C80 | `pi`, `ei` with jitter | derivatives in mean and deviation, Mills-ratio bounds on the normal tail (`Lemmas/Mills`) |
| C81 | the jitter loop of `thompson_sampling_gp_iteration` | induction over the refused jitters |
| C82 | `get_optimized_kernel` (both), `predict_with_optimized_hyps` (both) | trace of a successful fit; value of the objective at the start (C36, C37, C38, C40); the minimiser is any function that descends (`Spec/Fit.Descends`) |
| C83 | `predict_with_hyps` (both), `neg_log_ml` | closed forms; covariances are functions of scaled distances |
| C84 | `predict_with_hyps` (both) | closed forms; rows and columns of the covariance matrices |
| C85 | `predict_with_hyps` | closed form with rescaled kernel matrix; counterexample with one observation |
| C86-C87 | `plot_gp_via_sample`, `plot_gp_via_distribution`, `plot_bo_step`, `plot_bo_step_with_acq`: a figure is a list of axes with artists | inversion of successful calls; the groups of C64 applied to pairs; what can be seen is defined on artists in `Spec/Figures` |
| C88-C90 | `plot_minimum_vs_iter`, `plot_minimum_vs_time`, `_save_figure`, legends | induction over the arrays; congruences for the cycle of styles; cancellation in strings |
| C91-C92 | `_get_random_state`, where `seed` is passed on; libraries (the same in every process) and entropy (different in each) | simulation of runs whose steps differ in their times only; a step depends on the routines through the fit and the candidates; witnesses with constant generators |
| C93 | nothing new | closed forms of both predictions and both likelihoods; `log Γ(x+1/2) - log Γ(x) - log(x)/2 → 0` from the log-convexity of `Γ`; `ν log(1 + β/(ν-2))` → `β` |
| C94-C95 | nothing new | one lemma for data in other units: the thresholds tried, both sides and the order of the costs go along, hence the tree; then leaves, means and mixtures. The draws are the same, as the generator sees counts only |
| C96-C97 | nothing new | a vector that sums to zero over the rows with equal inputs is an eigenvector of the noisy Gram matrix with the noise as eigenvalue; for k-fold copies the inverse maps sums to sums |
| C98 | nothing new | predictions as functions of one point, continuous by `fun_prop`; every acquisition function is continuous in mean and deviation where the deviation is not negative; a box is compact. Trees have finitely many leaves |
| C99 | nothing new | the profile tends to zero; sums over the training rows are bounded by a constant times the greatest covariance |
| C100 | nothing new | inversion of the six plotting functions |
| C101 | nothing new | positive semidefiniteness of the joint Gram matrix of training and one test input gives a Cauchy-Schwarz inequality; `4 τ (y·v - τ v·v) <= y·y` for `v = N^-1 y` |
| C102 | nothing new | Cauchy-Schwarz; a matrix with form at least `τ` shortens no vector below `τ`; difference of the solutions of two linear systems |
| C103 | `Model/Rounded.lean`: sampling with rounding | a scaled draw below 1 is at most the greatest double below the side times 1; rounding is monotone; for grids the accumulated error of `i * step` is below one step |
| C104 | `normalize_min_max` with rounding | rounding is monotone and exact on doubles; relative error of one operation; differences of doubles do not underflow |
| C105 | `get_minimum`, `get_time` with rounding, sums in any order (`SumOrder`) | rounded addition is monotone; induction over the order for the error |
| C106 | nothing new | block form of determinant and quadratic form (Schur complement); induction over the sequence |
| C107 | nothing new; frames in `Spec/Frames.lean` | kernels depend on differences only; induction over the program: every call maps frame to frame (`Moves`) |
| C108 | nothing new | C95 for the splits; relation of C107 with any frame; tolerance `1e-8` is the obstacle |
| C109 | `Model/Pool.lean`: batches, task queue, running batches, result queue, `MapResult`; `PredictsTo` | invariant: the batches are a permutation of waiting, running, finished and collected ones, and the collected ones are in their places; a decreasing measure |
| C110 | `Model/Overflow.lean`: the functions of C103-C105 with overflow to infinities and NaN | a bound by a double is kept by rounding, so the operations agree with those of `Rounded` below `2^1024`; case analysis above |
| C111 | nothing new; laws of draws in `Spec/Chance.lean` | the sampling functions are pointwise images of the draws; images of product measures, affine images of the uniform and normal laws |
| C112 | nothing new; laws of choices in `Spec/Bootstrap.lean` | counting functions and injections that avoid a value; linearity of the integral; `subsample` reads only the chosen rows |
| C113 | nothing new; laws as in C111 and C112 | image of the uniform law; counting of injections; the scan returns the first best candidate tried |
| C114 | nothing new; the confidence bounds and the quality of the choices are hypotheses | determinant of one more row by Schur complement (C106), concavity of the logarithm, Cauchy-Schwarz; for finitely many inputs Weinstein-Aronszajn and the inequality between the means for the eigenvalues. The jitter added to the predicted variances keeps the bound per step from tending to zero, and with the growing weight (`increase_kappa`) the part due to it grows, so only a fixed weight gives a limit |
| C115 | nothing new | law of the residual by disintegration from C67; union bound; the number by alternating partial sums of the exponential series and the bounds of pi in Mathlib. As in C67 a test value is the function value plus an independent jitter of variance `1e-5` |
| C116 | nothing new; the surrogate step is any function, as in C06-C12 | runs keep the initial values (C11), C111 for the samples; the part of the box near a point as a product of intervals |
| C117 | the attributes the constructor sets per surrogate (`AttributeError` for the others), `print_info`, the messages of `run_single_round` | the log as a list of named lines; names without colons make the lines readable; decimal texts determine their numbers |
| C118 | `validate_types` on signatures (names of arguments, keys of `__annotations__`) | counting in lists without repetitions |
| C119 | `normalize_min_max`, `_mse`, `_split`, `get_random_forest`, `get_generic_trees` on responses that may be infinite or NaN (`Model/NonFinite.lean`) | IEEE case analysis; every split scores NaN; agreement with the exact model by induction over growth; counting of draws |
| C120 | the steps of both wrappers on such responses up to the exception; `check_finite` of `cho_solve` | first evaluation of the likelihood; trace of the loop |
| C121 | nothing new; `ChosenBy` (`Spec/Exploration.lean`) says that a choice scores at most a slack less than any point of the region, for the prediction of the data so far | variance at a point near several data points; pigeonhole over a bounded region; submodularity of the information gain (greedy choice) |
| C122 | nothing new; fixed weight (`increase_kappa=False`), as the growing weight multiplies the jitter without bound (C140 shows that it loses nothing for functions of bounded norm) | C121's pigeonhole and one step of C114 |
| C123 | nothing new; `NormAtMost` (`Spec/WorstCase.lean`) is the norm of the reproducing kernel Hilbert space in its dual form, by finite combinations of values; no space is constructed | the predicted mean as the minimiser of a regularised form; Cauchy-Schwarz; the worst function is written down |
| C124 | nothing new | C121 and C123 |
| C125 | nothing new | nearly repeated points make the score small, C123 bounds the score of a much better point from below; the two jitters keep a constant, which is stated |
| C126 | nothing new; test points are finitely many and the prior is `GaussianPrior`, as in C67 | C67 gives the conditional law, C53/C80 the scores; averaging over the responses (disintegration) gives the comparison with every measurable rule |
| C127 | `Model/RoundedKernels.lean`: `cov_main` and the kernel matrix with rounding | backward error of the distance, profiles are 1-Lipschitz, relative errors of polynomial and exponential; C102 turns the entrywise error into positive definiteness and an error of the predictions. `C127_refuses` (`Props/RoundedRefusals.lean`): other names are refused |
| C128 | `Model/PlotSession.lean`: fonts, interactive mode and open figures of pyplot across calls | state reached by the calls before; C100 for what a call asks |
| C129 | `Model/RoundedPredict.lean`: `predict_with_cov` with rounding | C127 for covariances and the inverse, error of a chain of two products entry by entry, Cauchy-Schwarz for the residual; ordered sums meet the hypothesis on products. `C129_refuses` (`Props/RoundedRefusals.lean`): other names are refused |
| C130 | `Model/OverflowKernels.lean`: covariances and the kernel matrix with overflow, the check before the decomposition | sums of squares are numbers or plus infinity; constants of the kernels keep their sign; every intermediate result is bounded by a power of two |
| C131 | `Model/RoundedAcquisition.lean`: `pi`, `ei`, `ucb`, `aei` with rounding | relative error of the standardised distance; distribution function and density hardly change under a relative error of their argument, as `x phi(x)` and `x^2 phi(x)` are bounded; mean value theorem for errors of the predictions |
| C132 | `Model/NonFiniteAcquisition.lean`: `pi`, `ei`, `ucb`, `aei` on floats with infinities, NaN and division by zero | the least response as numpy sees it; case analysis on mean, deviation and best response |
| C133 | `neg_log_ml` (both), `neg_log_pseudo_l_loocv`, `restore_hyps`, `get_range_hyps` | objectives as functions of the vector; inverse and determinant are continuous, the Cholesky factor is continuous (limits along ultrafilters and uniqueness of the factor); compact box; `noise^2 + 1e-5` below every squared pivot; the Gamma ratio is continuous at two degrees of freedom while `log(ν - 2)` is not bounded |
| C134 | `cov_main`, `get_kernel_inverse`, `predict_with_hyps` (both), the three likelihoods, `grad_cov_main` | closed forms of C24-C40 contain only squares of noise, signal and lengthscales; each slice of the kernel gradient times its hyperparameter contains only squares |
| C135 | `get_generic_trees`, `predict_by_trees`, `BOwTrees.get_trees`, `BOwTrees.compute_acquisitions` | every threshold that separates rows lies above one training value and not above another, so two queries on the same side of all of these reach the same leaf of each tree |
| C136 | as C135, and `subsample` | by induction on growing, with the number of rows left as measure: a leaf reached from a drawn row holds copies of that row only; the forest moments are averages over trees; expectation of the number of trees that miss a row |
| C137 | `Model/RoundedTrees.lean`: `subsample`, splits, growing and forests with rounding | rounding is monotone and keeps doubles, so a rounded midpoint stays between its neighbours; induction on growing as in C48-C49, which needs no exact arithmetic |
| C138 | as C137 | error of a mean and of a mean square of deviations in an arbitrary order of summation; two errors of the cost on top of the best computed one; the cost of an empty side is beyond all others for `M^2 <= 4e7` |
| C139 | `Model/RoundedTrees.lean`: predictions of trees and forests with rounding | errors of leaf moments, then of the forest's first and second moment; square roots by `abs(a - b)^2 <= abs(a^2 - b^2)`; ties computed by the spacing of doubles |
| C140 | nothing new; hyperparameters are fixed along the choices, as in C121-C125 (C142 lifts this) | a number of choices polynomial in the accuracy (grid cover, kernels fall at most linearly) makes the variance at one of them smaller than the weight grows; a larger weight makes the gap between deviation and its floor outweigh the error |
| C141 | `predict_with_hyps` of the Student-t process, `pure_explore`, `ucb`; hyperparameters are fixed along the choices | C39; the misfit of the responses is at most the budget (Cauchy-Schwarz), so the factor of the covariance falls like `1 / n`; equal inputs make the kernel matrix invert in closed form |
| C142 | nothing new; hyperparameters within bounds at every choice (`C142_range`: those within `get_range_hyps` are; that `scipy`'s bounded methods stay within the ranges is not modelled, and the unbounded ones need not), responses normalised by the model's `normalizeMinMax` | C140's counting with kernels that differ at every choice: a kernel falls at most linearly with a slope that the bounds limit; the norm is only needed on the set of points in question |
| C143 | `Model/OverflowTrees.lean`: splits, growing, forests and predictions with overflow | bounds `2^m` on every intermediate result give agreement with `Model/RoundedTrees.lean`; infinity-or-NaN absorbs addition, so one deviation that cannot be squared spoils a cost, and no candidate beats `np.inf` |
| C144 | `Model/Trees.lean`: leaves reached by a query | induction on growing: a threshold that has a query and a row on one side has their box there; a midpoint of neighbouring values does not come between a query and its nearest row |
| C145 | nothing new; as for C142, with `ei` and with `aei` given the noise of the choice | C125's argument with kernels that differ at every choice: by counting, some choice has a small deviation and an earlier point near it, so no large improvement is expected there; uniform bounds on kernels and on the moduli of functions of bounded norm give a number of choices that fits all sequences |
| C146 | nothing new; the whole of `create`, `optimize` and the steps of a Gaussian process | the routines are given as contracts (`FitsIn`, `FindsLow`, bundled in `GoodSearch`), the target by `SuitsFits`; a step then proposes a nearly best point (`C146_step`). If some proposal was a duplicate of a row, expected improvement is at most of the size of the noise everywhere and the best response is close (`duplicate_choice`); otherwise every row was chosen and C145 applies. `runError` is only small when `B` is not large (normal probability of `B` deviations in the denominator). For `eq` and `se` constants are not functions of finite norm on a box, so with normalised responses `SuitsFits` asks that the least and greatest response be among the initial rows (`gap` equal to the spread, as in the example), or that responses not be normalised. UCB is in C150: with its growing weight the error at a duplicate grows with the number of responses. Steps that no longer fit ('converged') take the last hyperparameters of the history, so `run_choices` carries along that these are in `H` (`FitsFrom`) |
| C147 | nothing new; as C146 | the steps of a run are collected once for all acquisition functions (`run_choices`: rows, units, norm, nearly best proposal, recorded hyperparameters, or a duplicate). For `aei` the argument of C146 with the discount; for `pure_explore` the deviation at a proposed point is small when it is a duplicate of a row, or when rows accumulate near it, and bounds the deviation everywhere |
| C148 | nothing new; `pi`, predictions of both processes, `optimize` of the class | equal inputs make the kernel matrix invert in closed form; the shortfall below the prior mean per deviation is least at the input seen, an inequality of polynomials in the covariance; a step is reduced to the continuous function it minimises (`step_scores`), so a perfect optimiser returns this input, and the replacement of duplicates the last row |
| C149 | `Model/NonFiniteKernels.lean`: base kernels, `cov_main`, `get_kernel_cholesky` and `neg_log_ml` (without gradients) on hyperparameters that are any floats | part of each coordinate in the squared distance by cases on the lengthscale; sums of floats with NaN or infinities; the matrix without the ignored coordinates is a kernel matrix of masked inputs |
| C150 | nothing new; `pure_exploit`, `ucb`, predictions of both processes, `optimize` of the class | as C148 for `pure_exploit`: with equal inputs the predicted mean is an increasing affine function of the distance from the prior mean, so a response below it makes the input seen the lowest; for `ucb` the steps of a run (`run_choices`) meet C142, unless a proposal is a duplicate, whose deviation and value are bounded as in C146. The error at a duplicate grows with the weight, hence with the number of responses, and the theorem says which number |
| C151 | nothing new; `tp.predict_with_hyps`, `ucb`, `plot_gp_via_distribution` | one entry of a Student-t vector in units of its deviation is a normal number whose variance is `ν - 2` over a chi-squared variable (`studentT_mixture`), the same law for every entry, hence `unitStudent`; the bound integrates `P(|N| > t) <= 0.37 / t^2` for a normal number (from an upper bound for Mills' ratio) over that variance, whose mean is one; the limits are dominated convergence of the densities |
| C152 | nothing new; `create`, `optimize` and the steps of a Student-t process | the contracts of C146 with degrees of freedom (`FitsInStudent`, `GoodStudentSearch`); the predicted covariance is that of a Gaussian process times a factor that a bounded norm bounds by `(ν - 2 + B^2) / (ν - 2 + n)` (`misfit_le_norm`), so a small factor times the deviation of the best explored point bounds all others; the mean is the one of the Gaussian process, hence its error bound. Stuck runs as C148 and C150 (`student_stuck_run` reduces a run to an inequality of scores) |
| C153 | `Model/WrapperFunction.lean`: the three functions with their assertions and messages on an object | the step of a round is the step of the class for the same arguments (`C153_object` compares the constructors, which check the acquisition optimiser twice in the class), so the loops are equal by C12 and every theorem about `optimize` carries over; restated for C72, C146, C148 and C150 |
| C154 | `Model/OverflowTp.lean`: likelihood and fit of the Student-t process with a Gamma function that overflows | Γ(171) = 170! is below `2^1023` and Γ(172) = 171! above `2^1024`; Γ grows from 2 on and is at most 1 between 1 and 2 (convexity); an infinite term swallows the finite ones; an optimiser that looks within the bounds only sees a constant objective |
| C155 | `thompson_sampling.py` over the samples of `base_bo.py` | the queries are the first test points (C54, C55); each coordinate of a query comes from a draw of its own, so the joint law is the product of the laws (C111) |
| C156 | `Model/RoundedLikelihood.lean`: `get_kernel_cholesky` and `neg_log_ml` with rounding | kernel matrix from C127; log-determinants of nearby matrices by concavity (arithmetic-geometric mean of eigenvalues); a residual bound for the solution and Cauchy-Schwarz for the quadratic form; rounding errors of the last sums. `C156_refuses` (`Props/RoundedRefusals.lean`): other names are refused |
| C157 | `Model/RoundedChoice.lean`: `choose_fun_acquisition`, `compute_posteriors`, `compute_acquisitions` and `fun_negative_acquisition` with rounding | C129 at one test point, with exact means bounded by Cauchy-Schwarz and exact deviations by the prior; C131 and C80 for the acquisition value; C03 for the choice, where comparing rounded multiples costs one more unit roundoff |
| C158 | `Model/RoundedStep.lean`: `get_kernel_inverse`, `neg_log_ml`, `get_optimized_kernel`, `_optimize` and `optimize` of `BOwGP` with rounding; without rounding these are the exact ones (`C158_exact`) | inversion of the monadic program for `C158_step`; C104 for normalised responses, C101 for their effect on the posterior, C157 for the objective and C03 for the choice; C156 at initial and fitted hyperparameters with `Descends`; numbers in `Lemmas/RoundedStepNumbers.lean`; `C158_returns` runs the program forwards. `C158_refuses` (`Props/RoundedRefusals.lean`): other names are refused |
| C159 | `Model/RoundedTp.lean`: `predict_with_cov` of `tp.py`, `compute_posteriors`, `compute_acquisitions` and `fun_negative_acquisition` of `BOwTP` with rounding; without rounding these are the exact ones (`roundedTp_id`, `roundedTpNegAcquisition_id`) | C129 for mean and covariance of the Gaussian process inside; the misfit as one more chain of two products (`chain_error`); quotient error for the factor; `value_near` bounds each of the six acquisition functions at one point (also at deviation 0, by a bound of Mills), `choice_near` for the argmin. Spec: `Spec/RoundedValues.lean`. `C159_refuses` (`Props/RoundedRefusals.lean`): other names are refused |
| C160 | `Model/RoundedTreesStep.lean`: `get_trees`, `compute_posteriors`, `compute_acquisitions` and `optimize` of `BOwTrees` with rounding | `C160_exact` compares it with `Model/BoWTrees.lean`; forests and predictions from the lemmas of C137 and C139; `value_near` of C159 per candidate, argmin of computed values; rounded normalisation is in `[0, 10]` and the rounded responses have their minimum at 0; `C160_returns` adds totality |
| C161 | `Model/RoundedTpStep.lean`: `get_optimized_kernel` of `tp_kernel.py` and `optimize` of `BOwTP` with rounding; the computed likelihood is an argument | `C161_exact` compares it with `Model/BoWTp.lean`; `C161_step` from a trace of the step (`roundedTpStep_ok`); the misfit is at least the squared length of the responses over `n s² + σ² + 1e-5` (`misfit_ge`), so the error of the factor is relative; C159 for predictions with the numbers of C158 (`default_misfit`, `default_factor`, `default_tp_point`); `value_near` per point; `C161_returns` adds totality. Spec: `Spec/RoundedStep.lean`. `C161_refuses` (`Props/RoundedRefusals.lean`): other names are refused |
| C162 | `Model/RoundedTpLikelihood.lean`: `neg_log_ml` of `tp_likelihood.py` with rounding | `C162_exact` compares it with `Model/Tp.lean`; errors of the four logarithms one by one (`tp_first_error`, `tp_third_error`, `tp_fourth_error`, `log_det_near` of C156), the third through a Lipschitz bound of the logarithm of the Gamma function from its convexity (`log_gamma_near`), the fourth through the misfit of C159; then the sums (`tp_terms_error`). `C162_typical` puts in numbers. `C162_default` puts in those of a step of C161 (`default_misfit`, `default_tp_likelihood`), and `C162_fit` uses it at the start and at the end of the fit, for a step of C161 whose `nll` is this function; `C162_returns` shows that such a step returns, without the hypothesis on the likelihood of `C161_returns`. Spec: `Spec/RoundedTpLikelihood.lean`, `mvtDensity`, `Descends`. `C162_refuses` (`Props/RoundedRefusals.lean`): other names are refused |
| C70 | assertions of `cov_main`, `get_prior_mu` and `validate_common_args` | case analysis |

A property the code violates keeps its full English statement; the model proves the
negation with a concrete witness (`Cnn_..._violated` and the like) and the part that does hold
(`Cnn_..._partial`).


## 6. Where the code does not do what its claim says

| id | finding | theorem |
|---|---|---|
| C03 | no candidate below +inf: `TypeError` (subscript of `None`) | `C03_fails_iff` |
| C05 | all candidates already evaluated: the last evaluated point is returned again | `C05_exhausted` |
| C14 | `grid` returns `n**d` samples, not `n` | `C14_grid_violates` |
| C16 | `num_init = 0` puts +inf in front of the curve | see `Props/Curves.lean` |
| C18 | `num_init` equal to the number of rounds passes the checks but fails | `C18_boundary_fails` |
| C29 | the diagonal of the signal derivative is off by `2*jitter/signal` | `C29_signal_violated` |
| C36 | the Cholesky path adds `1e-7` to each diagonal entry before taking its logarithm | `C36_cholesky_path`, `C36_paths_close` |
| C37 | the signal entry of the gradient inherits the error of C29 | `C37_signal_violated` |
| C38 | the prior mean is ignored; one lengthscale for several dimensions is rejected | `C38_prior_violated`, `C38_single_lengthscale_fails` |
| C40 | the gradient entry of the degrees of freedom has twice the digamma terms, so it is never the derivative; the signal entry inherits the error of C29 | `C40_dof_violated`, `C40_ard_partial` |
| C56 | the wrapper accepts `rf` with its default optimiser and `random_search` with `gp`/`tp`; the model below then raises `AssertionError` | `C56_default_forest_violated`, `C56_random_search_violated`, `C56_mismatch` |
| C58 | a covariance function on sets is accepted, but every call of `optimize` raises (Gaussian and Student-t processes) | `C58_accepted`, `C58_gp_always_raises`, `C58_tp_always_raises` |
| C59 | one lengthscale and leave-one-out selection in two or more dimensions: every call raises | `C59_gp_always_raises` |
| C43 | expected improvement is negative with the default jitter | `C43_negative_value` |
| C47 | a split with all rows on one side duplicates the sample in both children | `C47_violated` |
| C54 | the argmin is taken over the first column of a `(1, n)` array, so the first test point is always returned | `C54_always_first`, `C54_violated` |
| C62 | every call of `get_logger` adds a handler: after `k` calls each message is written `k` times | `C62_count`, `C62_violated` |
| C73 | a single test point: `IndexError` in every iteration | `C73_run` |
| C74 | over one point the samples of a Gaussian process have rank one; those of a Student-t process are refused (`AssertionError`) when there are two or more | `C74_gp_one_point`, `C74_tp_one_point` |
| C75 | the matrix handed to `sample_functions` of a Student-t process is used as a scale matrix; the samples have `nu/(nu-2)` times that covariance, unlike `predict` and the likelihood | `C75_law`, `C75_violated` |
| C76 | responses that are all equal are handed to the surrogate as they are, not normalised, so their unit matters | `C76_constant` |
| C80 | the jitter is added to the deviation inside `z` but not in front of the density, so EI is negative and increases with the mean far above the incumbent (beyond `sqrt(s/j)` deviations) | `C80_sign`, `C80_rank_violated` |
| C85 | the `1e-5` on the diagonal does not scale with the responses, so the unit of the responses changes the predictions | `C85_violated`, `C85_response_unit_partial` |
| C87 | the horizontal range is that of the test inputs, training points beyond it cannot be seen | `C87_violated`, `C87_regression_partial`, `C87_step_partial` |
| C89 | the handles of the saved legend are those matplotlib shows (no empty label, none starting with `_`), but they are paired with all labels, so labels shift to other curves | `C89_violated`, `C89_iterations_partial`, `C89_time_partial` |
| C90 | curves against iterations and against time write the same `legend_<postfix>.pdf`; a postfix may continue a prefix (`gp_` + `sampled_a` = `gp_sampled_` + `a`) | `C90_legend_violated`, `C90_names_violated`, `C90_main_files_partial` |
| C91 | `seed` reaches `get_initials` only; `optimize_single_iteration` calls the model's `optimize` without it, so with the default options the rows after the initial ones differ from run to run | `C91_violated`, `C91_initials_partial`, `C91_run_partial` |
| C92 | `cma.fmin` is not given the seed; forests draw from the global generator | `C92_violated` (CMA-ES), `C92_forest_violated`, `C92_gp_partial`, `C92_tp_partial`, `C92_forest_partial` |
| C94 | A side without rows costs the fixed `1e8` in `_mse` (`trees_common.py:56-80`), whatever the unit of the responses; with large responses a split which separates nothing can be the cheapest (`C94_violated`: responses times 20000, the mean is half of what it should be) | `C94_unit_partial`: responses with a range below `1e4·√2` in both units (so all normalised ones). `C94_shift`: shifts, all data. |
| C108 | Proposals are compared with evaluated points by the absolute tolerance `1e-8` on the Euclidean distance (`wrappers_bo_class.py:268-277`, `utils_bo.py:146`), whatever the unit of the coordinates. If the search space is smaller than that, every candidate is a duplicate and each iteration evaluates the last initial point again, with every surrogate (`C108_tiny`; `C108_violated`: the square `[0, 1e-9]²`) | `C108_step`: one step, all units. `C108_run_partial`: runs whose points have the same pairs below the tolerance in both units. |
| C110 | a side wider than the largest double: `OverflowError`, infinite or NaN samples, or samples at the corners only; a range of responses that overflows: the greatest becomes NaN; finite minima with an infinite mean | `C110_overflow`, `C110_violated`, `C110_normalize_overflow`, `C110_minima_overflow` |
| C117 | `run_single_round` logs neither `use_ard` nor `normalize_Y` (`wrappers_bo_function.py:278-290`), so runs that differ in them have the same log | `C117_round_violated`, `C117_round_partial` |
| C128 | `_set_font_config` turns LaTeX on and never off, `_show_figure` turns the interactive mode on and never off: later figures are set by LaTeX though they do not ask for it, and a figure with an infinite pause is not waited for after one with a finite pause | `C128_tex_stays`, `C128_not_held`, `C128_as_asked_partial` |
| C130 | Matérn covariances multiply the polynomial by the exponential (`covariance.py:329`, `429-430`): for inputs more than `2^513` lengthscales apart this is an infinity times zero, NaN, and `scipy.linalg.cholesky` raises `ValueError`, which `except np.linalg.LinAlgError` does not catch | `C130_matern_nan`, `C130_matern_raises`, `C130_squared_exponential`, `C130_finite_partial` |
| C132 | with no jitter, `pi` and `ei` of a certain prediction (`pred_std = 0`) that equals the best response are 0 / 0 = NaN, not zero (`acquisition.py:48-49`, `84-88`; not with the default jitter); `aei` of a certain prediction without noise is NaN for any jitter (`acquisition.py:177-179`) | `C132_ei_certain_violated`, `C132_ei_certain_partial`, `C132_pi_certain`, `C132_aei_certain` |
| C50 | (finding, the statement says so) with responses of 20000 the cost `1e8` of an empty side is below the cost of the separating splits: a feature with one value only is split though another feature separates the rows | `C50_large_responses`, `C50_optimal` |
| C137 | (finding, the statement says so) the midpoint of neighbouring doubles can be the lower one, so that no row is below it and both leaves hold all rows; the product `num_X * ratio_sampling` is rounded before `int`, which can add a row | `C137_violated`, `C137_no_ties`, `C137_sample_more`, `C137_sample` |
| C139 | (finding, the statement says so) the mean of equal responses is not that response and their deviation is not zero, for large responses; `mean(mu^2 + sigma^2) - mu^2` (`trees_common.py:569-575`) loses all digits when the responses are large compared with their spread, so trees that agree have a positive deviation | `C139_leaf_violated`, `C139_forest_violated`, `C139_forest` |
| C141 | (finding, the statement says so) the factor `(nu + beta - 2) / (nu + n - 2)` (`tp.py:133`) falls faster with the number of responses than the weight of `ucb` grows, so `ucb` with the Student-t process need not find the best of two points | `C141_stuck`, `C141_weight`, `C141_gaussian` |
| C143 | (finding, the statement says so) responses about 2.7e154 apart, infinite or NaN make every cost infinite or NaN, so that growing a tree ends in a `TypeError`; responses from 5.4e154 on give NaN deviations; sums and ranges of inputs beyond the doubles give infinite thresholds and an `OverflowError` | `C143_nonfinite`, `C143_far`, `C143_nan_deviation`, `C143_midpoint`, `C143_width`, `C143_count`, `C143_agrees` |
| C148 | (finding, the statement says so) `pi` has no margin above the best response (`acquisition.py:49-51`), so a first response below the prior mean holds the search: the same input has the highest probability of improvement forever, and the replacement of duplicates repeats the last row | `C148_next`, `C148_forever`, `C148_violated`, `C148_run`, `C148_optimize` |
| C150 | (finding, the statement says so) `pure_exploit` ignores the deviation (`acquisition.py:182-199`), so a first response below the prior mean holds the search forever | `C150_next`, `C150_forever`, `C150_violated`, `C150_run`, `C150_optimize` |
| C152 | (finding, the statement says so) the same two with the Student-t process: whole runs by `pi` and `pure_exploit` never leave the first row when its response is below the prior mean | `C152_stuck_run`, `C152_stuck` |
| C153 | (finding, the statement says so) the functions check `num_samples_ao` and `str_sampling_method_ao` only in the first step (`wrappers_bo_function.py:88-90`, `bo_w_gp.py`), after the target was called on all initial inputs, whose values are lost with the exception | `C153_late` |
| C154 | `np.log(scipy.special.gamma((nu + num_X) / 2.0) / scipy.special.gamma(nu / 2.0))` (`tp_likelihood.py:90`) overflows where `gammaln` would not: with 342 responses or more the objective of the fit is minus infinity within all bounds and the fit ignores the data; with 144 to 341 it prefers many degrees of freedom whatever the data; for 344 degrees of freedom or more it is NaN | `C154_overflow`, `C154_flat`, `C154_fit`, `C154_between`, `C154_undefined`; `C154_accurate_partial`, `C154_few_partial` |
| C155 | consequence of C54: the responses have no influence on the queries, a Thompson sampling run is random search | `C155_blind`, `C155_random`, `C155_best` |

## 7. Simplifications per file

Each definition states its own; in short:

* `Model/Covariance.lean`: dimensions agree by typing; a zero lengthscale, a non-finite
  hyperparameter and a zero signal in a gradient are errors `outOfModel` (Python would
  divide by zero and carry on with `nan`), so only C149 speaks about them; the write of
  `validate_hyps_dict` into the caller's dictionary is not propagated by `cov_main`.
* `Model/Gp.lean`: responses have one column; dividing by zero responses is `outOfModel`;
  `scipy.optimize.minimize` is an arbitrary function of what it is given.
* `Model/Tp.lean`: as `Model/Gp.lean`; degrees of freedom at most 2 in the likelihood are
  `outOfModel`; `scipy.special.digamma` is the logarithmic derivative of `Real.Gamma`.
* `Model/Trees.lean`: random choices are oracle lists; trees are an inductive type instead
  of nested dictionaries.
* `Model/BoCommon.lean`, `BoWGp.lean`, `BoWTp.lean`, `BoWTrees.lean`: responses are finite;
  a call of `optimize` is a function of the object's state and the number of clock
  readings so far, and what it changed stays changed when it raises; log output is left out.
* `Model/WrappersBo.lean`: the surrogate's `optimize` is an oracle `step` with state.
* `Model/WrapperClass.lean`: that step for the three surrogates; a response that is not finite
  ends the run with `outOfModel` (so no theorem speaks about it). That every object satisfies
  the hypotheses on `step` of C07, C09 and C11 is proved in `Props/Steps.lean`.
* `Model/NonFinite.lean`: repeats the functions that responses pass through with responses in `Flt`
  instead of `ℝ`; `C119_agrees` proves that on finite responses they are the functions of
  `Model/UtilsBo`, `Model/Trees` and `Model/Gp`. `check_finite=True` of `scipy.linalg.cho_solve` is
  modelled as an explicit check. A step is followed until the end of the surrogate fit only: where
  the fit succeeds on such responses, and for the pseudo-likelihood, a skipped fit and the Student-t
  process, the result is `outOfModel`; the theorems about runs (`C120_start`, `C120_run`, `C120_forest_run`)
  leave open what a step does there (`FollowsSteps`).
* `Model/WrapperFunction.lean`: the three functions of `wrappers_bo_function.py` on an object; the step
  is that of `Model/WrapperClass.lean` with the same restriction to finite responses. Arguments of other
  types than documented are not followed.
* `Model/StartLog.lean`: the messages of a log are a list of texts; messages written before one that
  raises are not followed. An `AttributeError` is the error `attribute`.
* `Model/SampleFunctions.lean`: `scipy.stats.multivariate_normal` is an oracle that refuses or
  gives a sequence of draws; `np.random.chisquare` likewise; results are arrays of rank one or two.
* `Model/ThompsonSampling.lean`: as `Model/BoWGp.lean`; the debug branch is left out.
* `Model/UtilsLogger.lean`: a logger is its level and the levels of its handlers, names are lists of
  dotted parts; the message format and the streams are left out. A float is an exact real when it
  is rendered (so no negative zero); any other element or value brings its `str`.
* `Model/Figures.lean`: a figure is the list of artists with data, colours, markers and labels;
  whether matplotlib can be imported is an argument; that newer matplotlib versions refuse the third
  positional argument of `Figure.legend` is left out.
* `Model/PlotSession.lean`: calls that raise are left out; what `plt.rc`, `ion`, `pause`, `show` and `close` do is
  taken from the documentation of matplotlib; the figures open are counted, not listed.
* `Model/Seeds.lean`: a generator started with a seed is a fixed stream of numbers, one started without
  is an arbitrary one for each process; seeds that numpy refuses are left out.
* `Model/Rounded.lean`: `getMinimum` gives minima and means only (no deviation); numpy's order of
  summation is an arbitrary tree; overflow is left out (see `Overflow.lean`), and the numbers of points and rounds convert
  to doubles exactly.
* `Model/RoundedAcquisition.lean`: overflow is not modelled; `cdf`, `pdf` and `lg` are any functions within the stated
  error of the exact ones; `noise ** 2` is a rounded square. `pure_exploit` and `pure_explore` round nothing.
* `Model/NonFiniteAcquisition.lean`: finite numbers are exact reals; a sum `pred_std + jitter` that is zero is positive
  zero; jitter, noise and `kappa` are finite; `pure_exploit` and `pure_explore` are left out as they compute nothing.
* `Model/OverflowTrees.lean`: as `Model/RoundedTrees.lean` with overflow; inputs are numbers, numpy's warnings are left out,
  and `x ** 2` is `x * x`.
* `Model/RoundedTrees.lean`: overflow is left out; numpy's order of summation is an arbitrary tree for columns and
  another for flat arrays; `uniform(a, b)` is `a + (b - a) u` with rounding; the number of rows converts to a double exactly.
* `Model/RoundedPredict.lean`: inputs of rank 2 only; `np.dot` is any function on matrices whose error is bounded by
  the product of the sizes of the entries, and `inv_cov_X_X` is an argument whose distance from the inverse of
  the computed matrix is a parameter; prior means are doubles; overflow is left out.
* `Model/RoundedChoice.lean`: inputs of rank 2; the fit is an argument, and the kernel matrix and inverse in it enter through
  their errors. Candidates are a list of points, however the optimiser or the sampler found them.
* `Model/RoundedStep.lean`: inputs of rank 2 and `use_cholesky=True` (the default). The gradient handed to the optimiser of the
  hyperparameters and the leave-one-out score are arguments about which nothing is said; numerical optimisers are oracles.
  Hyperparameters that an optimiser returns are not rounded: they are whatever numbers it returns.
* `Model/RoundedTp.lean`: inputs of rank 2; the number of observations as a float is exact (below `2 ** 53`); the fit is an argument.
* `Model/RoundedTreesStep.lean`: simplifications of `Model/BoWTrees.lean` and `Model/RoundedTrees.lean`; the floor of the rounded square root of the number of dimensions is the number of features; random choices do not depend on rounding.
* `Model/RoundedTpStep.lean`: simplifications of `Model/BoWTp.lean`, `Model/RoundedStep.lean` and `Model/RoundedTp.lean`; inputs of rank 2; the computed likelihood is a function that is given.
* `Model/RoundedTpLikelihood.lean`: the value of `neg_log_ml` of `tp_likelihood.py` for inputs of rank 2, with the simplifications of `Model/Tp.lean`; `inv`, `slogdet`, products, `log` and `gamma` are functions of stated accuracy; the gradient, overflow and logarithms of numbers that are not positive are left out.
* `Model/RoundedLikelihood.lean`: inputs of rank 2, the Cholesky path and the value only; `scipy.linalg.cholesky`,
  `scipy.linalg.cho_solve`, `np.dot` and `np.log` are functions whose errors are parameters (`Spec/RoundedLikelihood.lean`,
  `Spec/RoundedPredict.lean`); without rounding it is the function of `Gp.lean` (`roundedNegLogMl_id`).
* `Model/NonFiniteKernels.lean`: finite numbers are exact reals, zeros have no sign; inputs of rank 2; no
  gradients; `np.linalg.inv` on infinities and NaN (`get_kernel_inverse`) is not modelled.
* `Model/OverflowTp.lean`: only the Gamma functions are those of doubles (an argument, specified by `GammaOfDoubles`,
  which leaves open what happens between `2^1023` and `2^1024`); digamma and all other operations are exact. The
  optimiser is an argument whose objective may be infinite or NaN; `StaysWithin` and `ReturnsWithin` say what is assumed.
* `Model/OverflowKernels.lean`: as `RoundedKernels.lean`, with finite hyperparameters; what follows the check of
  `scipy.linalg.cholesky` is left out. `signal**2` and `noise**2` are those of numpy floats (a Python float raises
  `OverflowError` instead of giving an infinity; the theorems bound both).
* `Model/RoundedKernels.lean`: inputs of rank 2 only; `cdist` is the root of the sum of the squares of the
  differences, added in an arbitrary order; the exponential function is any function within a relative
  error of `exp` on numbers up to zero; overflow, gradients, inversion and factorisation are not rounded.
* `Model/Pool.lean`: the pool of CPython 3.11 (not part of the repository) as a transition system;
  the identity of a worker is left out, as are dying processes and pickling.
* `Model/Overflow.lean`: signs of zeros and numpy's warnings are left out; the ends of the search space and
  the responses are finite.
