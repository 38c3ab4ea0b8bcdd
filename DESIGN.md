# Formal model of tBuLi/symfit in Lean 4 — design

## Approach

symfit is mostly *glue*: it sorts, classifies, binds, slices and re-assembles symbols, data and
parameter vectors around three external engines (sympy for algebra, numpy for arrays, scipy for
minimisation and integration).  The model consists of total, mostly computable Lean functions that
mirror the Python functions branch by branch, with exceptions as values (`Except PyErr`).

Layout (`lean/Verif/`):

* `Py.lean` — Python primitives: exceptions, insertion-ordered dicts, stable `sorted`,
  `inspect.Signature.bind`, arbitrary set-iteration order (`HashOrder`).
* `Model/*.lean` — the model, one file per source file or topic; every definition cites the lines of
  /repo it models and says what is simplified.
* `Spec/*.lean` — small independent specifications used in property statements (dependency graph,
  solutions of a model's equations, chi^2, best fit, derivative of a call, scipy's interface, ...).
* `Lemmas/*.lean` — helper lemmas.
* `Props/*.lean` — property theorems (`theorem Cxx_...`) and, beside them, `example`s (or theorems
  called `..._example`) showing that a concrete non-trivial case meets the hypotheses.

Naming: `Cxx_..._partial` proves a part of Cxx, its docstring says what is missing; `Cxx_finding_...`
(or another descriptive name, see the list of findings) proves that the code violates the full
claim, with a concrete witness or for all inputs of some kind.

Modelling conventions

* **Set iteration** (Python `set`, hash-randomised) is a parameter `h : HashOrder` (any function
  returning a permutation of its input); theorems quantify over all of them.
* **Numbers** are exact: an arbitrary (ordered) field, or ℝ when calculus is involved.
* **numpy arrays** are `Arr K`: a shape and a function of the multi-index, with numpy's broadcasting
  rules, axes and sums (`Model/NDArray.lean`).
* **sympy** expressions are terms of an expression language with the elementary functions
  (`Model/Expr.lean`); differentiation is an explicit symbolic derivative whose results are *proved*
  to be derivatives (Mathlib's `HasDerivAt`).  `expand` is an arbitrary value-preserving function.
* **scipy** minimisers and integrators are parameters: arbitrary functions of what they are given.
  Theorems about their results assume only that what they return solves the problem (or is accurate).
* **Object state** (`cached_property`, pickling, slider events, chains, option dicts passed by
  reference) is modelled as state machines; theorems range over all histories.

Where the code violates the intended property, the negation is proved with a concrete witness and the
part that does hold is proved as `..._partial`; such properties have status `partial` in
MANIFEST.json although nothing more could be proved about them: the claim is false of the code.

## What was modelled and how it was proved

| id | model | proof |
|----|-------|-------|
| C01 | creation history as list of operations on per-class counters | induction on the history |
| C02, C03 | constructor as `Except`; `parameters` with scalar/sequence keywords | case analysis, induction on lists; counterexample for mixed bounds |
| C04, C05 | attribute record with unset slots | algebra |
| C06, C13, C17 | `seperate_symbols`, `_init_from_dict` under `HashOrder` | a permutation of name-distinct symbols sorts to the same list |
| C07 | state machine read/delete | induction over histories |
| C08 | rendering of names | counterexamples, injectivity of the rendering under conditions |
| C09, C10, C67 | dict functions, binding | induction |
| C11–C15 | `toposort` (the library's algorithm), `_init_from_dict` | invariant of the peeling loop, rank functions; counterexamples for C14, C15 |
| C16–C18 | evaluator over a name-keyed dict in topological order; arrays with broadcasting | invariant over the evaluated prefix, uniqueness of solutions |
| C19 | `ModelOutput` record | list induction |
| C20, C21 | symbolic `diff`; jacobian/hessian models built and evaluated by the *same* constructor and evaluator | `HasDerivAt`, induction along the topological order |
| C22–C26 | `__neg__`, `__eq__`, `as_constraint`, `with_dependencies` | reduction to the evaluator theorem |
| C27–C31, C68 | signature construction and binding, sigma post-processing, decision functions | list induction, case analysis |
| C32 | `bounds` with abstract `nextafter` | order reasoning |
| C33–C39 | objectives as functions of arrays | finite sums, `HasDerivAt`; counterexamples |
| C40, C41 | dict merging and zip alignment | list lemmas |
| C42 | shapes and broadcasting of components | list induction; counterexample |
| C43–C49 | masks, packing, chains, closures | list induction; counterexamples |
| C50–C54 | `FitResults`, covariance | matrix algebra; counterexample for degrees of freedom |
| C55, C56, C70 | `ODEModel`: time splitting, ordering, negation | lemmas on sorted lists, ODE solutions as functions with `HasDerivAt`; counterexamples |
| C57, C58 | finite differences of `CallableModel` | polynomial identity; Taylor's theorem |
| C59–C61 | `distributions.py` | Mathlib's Gaussian integrals, Fubini |
| C62, C71 | `InteractiveGuess`: slider state machine, drawn points | induction over event histories |
| C63 | equality of objectives with `np.allclose` | case analysis |
| C64, C65, C72 | pickling of models, minimizers, results | state machines, round trips |
| C66 | `CallableNumericalModel` | simulation of the symbolic model |
| C69 | `shared_parameters` | loop invariant |
| C73, C74 | keyword arguments that reach scipy; option dicts as heap cells | case analysis per class; frame property |
| C75 | `Fit.execute` from the constructor arguments to `FitResults`, for every minimizer, for chains, and for symbolic models with relations as constraints | composition of C16, C24, C33, C38–C40, C43, C44, C49, C53 |
| C76, C77 | `as_constraint`/`with_dependencies` for any class of constraint on any kind of model; `Fit._init_constraints` | closure of the dependencies (as C24–C26), simulation of the symbolic counterpart |
| C78–C80 | `Mapping` methods, `ordered_symbols`, `__str__` (of `BaseModel` and `ODEModel`), `_repr_latex_` | levels of the topological sort = longest chains; uniqueness of sorted lists |
| C81 | calling a model or expression with `**fit_result.params` | composition of C16–C18 and C50 |
| C82, C83 | creation of arguments and `cached_property` as interleavings of atomic steps, any number of threads, any schedule | invariants over schedules |
| C84 | a `Fit` object in use: `Model/Refit.lean` adds the memory of `_invariant_kwargs` and of the minimizer class to the model of `execute` | invariant over histories (what is kept is up to date), then C75 |
| C85 | `BaseMinimizer._baseobjective_from_callable` on top of the model of numerical models (C58) and of minimizers (C43, C75): `Model/OwnFunction.lean` | the model of one callable is computed explicitly, then as in C75 |
| C86 | `Model/SymbolicJacobian.lean`: the two properties on top of the model of `jacobian_from_model` (C20) | C20's invariants and the derivative lemma of `Expr.diff` |
| C87 | `Spec/SymbolicObjectives.lean` says in terms of the expressions what each objective should minimise; no new model: `Model/FitExecute`, `Model/Objectives`, `Model/Model` together | C75's argument for each objective and each way of executing; `log` is any function that agrees with the logarithm on positive numbers |
| C88 | `Model/NanSum.lean`: numbers with `nan` and infinities, `np.log`, `np.nansum` and `LogLikelihood.__call__` over them | induction over the sums: a sum of numbers and `-inf` is a number or `-inf` |
| C89 | `Model/ODEFit.lean`: an `ODEModel` in an objective; C55 for its values, C33/C36 for the objective, C75 for the fit | triangle inequality for the root of chi^2; C54's fallback for the covariance matrix |
| C90 | `NumModel.ofOde`'s jacobian: `fdJacobian` of the calls by position | C57/C58 through a general lemma about models with the inherited jacobian; linearity of the central difference |
| C91 | heap of symbol objects, sympy's instance cache with arbitrary evictions, creation, unpickling, assignment | invariant: a cached object has the key it is cached under; frame lemma per operation; induction over histories |
| C92 | `Model/NumericalFit.lean` evaluates a numerical model on arrays (`onArrays`, `callNumericalArr`) and packs it as the `NumModel` used by `Fit`; `Spec/NumericalFit.lean` says what it means for an assignment to satisfy all equations (`AllHold`, `ModelArrays`). Proved from the topological-order lemma of C07 and the `Executed.bestFit` theorem of C81. A user callable is a total function from a keyword dictionary to a value or an exception (no side effects). |
| C93 | `FitResults.__str__` as string assembly; padding; constraints evaluated with `**params` | induction over the parameters and over the constraints, with C50 (addressing) and the evaluation of `MinimizeModel` by name |
| C94 | `BaseModel.__init__` for iterables and single expressions: components named after `id(expr)` | the made-up dict satisfies the hypotheses of C11, C12, C14, C16 and C27; the address strings order the components |
| C95 | `InteractiveGuess` for several independent variables: `np.meshgrid`, both strategies, layout of the figure; matplotlib only as far as it compares lengths | the flattened mesh grid is a permutation of the cartesian product; selecting a point of one axis is the product with that axis restricted; shapes by broadcasting; induction over histories |
| C96 | `printing.py`: the tokens printed for matrix expressions; Python's grammar of expressions as in its reference manual | the grammar is unambiguous: a parser finds everything the grammar allows; induction over the expression |
| C97 | `_array_safe_dict_eq` with Python's `==` of floats, lists, arrays, dicts and OrderedDicts; other objects with an arbitrary `==` | the loop answers `True` iff every turn does; each kind of value by cases or induction |
| C98 | `InteractiveGuess` and then `Fit`, sharing the parameters | induction over the events, composed with the initialisation of minimizers |
| C99 | the objectives of symbolic models and `Fit.execute` (as for C41, C87), data rearranged by any permutation of the data points | a solution for the original data, rearranged, solves the rearranged problem; sums over a permutation of the points; standard deviations: the jacobians and hessians of corresponding models are related by the chain rule, so J^T W J and the hessian of chi^2/2 (of minus the log-likelihood: `corr_errors_likelihood`) are D M' D up to the order of the parameters, and so are their inverses (`matrix_corr`, `corr_covariance`) |
| C100 | the objectives of symbolic models and `Fit.execute` (as for C41, C75), with data of one shape for each component | the model's arrays are simple per data set: each component's value at a point of its data set is that of the solution of the equations there; sums over components, over a split of the indices; the general results on minimizers (C75); derivatives by reducing every point of a data set to a model without arrays (one point of every data set) |
| C101 | numerical models, objectives, `Fit.execute`, `ODEModel`, `finite_difference` (as for C92, C33-C40, C75, C55, C57); callables, minimizers and integrators are arbitrary functions which may raise | the loop over the components in topological order raises only what a component has raised, all earlier components hold; uniqueness of partial solutions for the converse; propagation through objectives, minimizers, both directions of the integration |
| C102 | as for C11-C16, C33-C39, C87 | a one-to-one renaming maps the relation 'mentions' of the one model to that of the other, hence chains, cycles and levels; solutions of the equations are mapped to solutions, and are unique (C16); values at the data points, chi^2, constraints and bounds follow; C87 for fits; standard deviations: the jacobians and hessians of corresponding models are related by the chain rule, so J^T W J and the hessian of chi^2/2 (of minus the log-likelihood: `corr_errors_likelihood`) are D M' D up to the order of the parameters, and so are their inverses (`matrix_corr`, `corr_covariance`) |
| C103 | as for C102 | substitution lemma for evaluation; 'requires' of the inlined model is contained in the transitive closure of that of the model, so no cycles appear; solutions correspond, uniqueness (C16); symbols of the model are preserved because the component is used; standard deviations: the jacobians and hessians of corresponding models are related by the chain rule, so J^T W J and the hessian of chi^2/2 (of minus the log-likelihood: `corr_errors_likelihood`) are D M' D up to the order of the parameters, and so are their inverses (`matrix_corr`, `corr_covariance`) |
| C104 | as for C102 | the symbols of the equations are the same, so are the lists; solutions are scaled solutions, uniqueness (C16); each residual divided by its sigma is the same, hence chi^2; bounds and fixed values scale with positive factors; C87 for fits; standard deviations: the jacobians and hessians of corresponding models are related by the chain rule, so J^T W J and the hessian of chi^2/2 (of minus the log-likelihood: `corr_errors_likelihood`) are D M' D up to the order of the parameters, and so are their inverses (`matrix_corr`, `corr_covariance`) |
| C105 | as for C102, C87 | substitution of numbers; 'requires' keeps all pairs of components, and a longest chain that begins at a fixed parameter can begin at another symbol of the same component; solutions correspond, uniqueness (C16); allowed parameter values correspond, C87 for fits; covariances by `corr_errors` |
| C106 | as for C87, C99 | sums over data points are divided by g^2; C87 for fits; arrays of the two models are equal by `corr_*`, hessians are divided by g^2, inverse matrices |
| C107 | as for C87, C99, C106 | a sum over measurements is a sum over data points of sums over their measurements; the arrays at a measurement are those at its data point (solutions and derivatives are unique), so all sums over data points correspond |
| C108 | as for C12, C14, C87 | the chains of the joint model are those of the parts; values of the parts are determined by the parts alone (solutions are unique), so chi^2 (or the log-likelihood) and the allowed values split; then exchange arguments. Standard deviations: the derivatives of a component in the parameters of the other model are 0, so J^T W J and the hessian are block diagonal, and so is the inverse |
| C109 | as for C12, C16, C87, with a replacement of parameters by expressions | substitution lemma for expressions; what a component requires changes only in its parameters, so circularity and the chains are the same; then the objective depends only on the values of the components; for the standard deviations, chain rule for gradient, hessian and J^T W J (the gradient is zero) |
| C110 | as for C87, C109, with a replaced by e | a relation among parameters alone holds everywhere or nowhere; it holds iff the values are those of the replacement; then C87 for the fit that was executed |
| C111 | `DontDeleteMe` as a state machine over a heap of sets (`Model/PrinterState.lean`), sympy's `doprint` on top; and the same operations on an ordinary attribute | invariant: there is an attribute and its set exists; induction over operations and over trees of prints |
| C112 | `covarianceMatrix` at the results of `Executed` fits of symbolic models; spec: second derivatives of `NegLogLikelihoodIs`, `ChiSqIs`, inverse matrices (`Spec/Deviations.lean`) | composition of C20/C21 on arrays, C35, C38, C53, C54, C50; continuity for the positivity near the values found |
| C113 | results of `Executed` fits, as for C112; spec `SoundErrors` (`Spec/Variances.lean`) | C112; sums of outer products are positive semidefinite, and so are inverses; 2x2 minors for the covariances; the second order condition from the minimality of the values found: the objective is twice continuously differentiable in all parameters jointly (induction over the expressions and the order of evaluation); `C113_finding_fixed` computes a hessian with a fixed parameter that is not positive semidefinite at the minimum |

## Findings (the claim is false of the code; each proved in Lean)

| id | finding | theorem |
|----|---------|---------|
| C03 | bounds of `parameters()` not compared when one is a sequence and the other a scalar; bare iterators lost | `C03_mixed_bounds_not_validated`, `C03_iterator_bounds_lost` |
| C04 | a fixed Parameter with crossed bounds raises on `==` | `C04_crossed_fixed_not_comparable` |
| C08 | two different derivatives can have one name | `C08_collision`, `C08_collision_second_order` |
| C14 | an unused component need not be a dependent variable; constant models raise `IndexError` | `C14_unused_not_dependent`, `C14_constants_only` |
| C15 | a Parameter with a constant expression is accepted as a component | `C15_constant_parameter_accepted` |
| C16 | a self-referencing component gives `KeyError` at evaluation, not an error at construction | `C16_self_reference_key_error` |
| C22 | `-CallableNumericalModel` raises `TypeError` | `C22_numerical_neg_raises` |
| C23 | models with more than 256 components are not equal to themselves | `C23_large_never_equal` |
| C24 | `<=` given directly to a minimizer is rejected | `C24_raw_le_fails` |
| C28 | a Python number as dependent data raises `AttributeError` | `C28_scalar_data_fails` |
| C33 | `flatten_components=False` raises `TypeError` | `C33_unflattened_fails` |
| C34 | without dependent data the gradient has length one | `C34_no_data` |
| C36 | `VectorLeastSquares` broadcasts residuals of different shapes | `C36_different_shapes` |
| C36, C100 | `VectorLeastSquares` raises ValueError for data sets of different lengths, for which `LeastSquares` is defined: no global fits with `MINPACK` and vector objectives | `C36_finding_lengths`, `C100_finding_vector` |
| C42 | a jacobian with the shape of the data is misread | `C42_misread_jacobian` |
| C45 | hessians are reduced to their diagonal | `C45_diagonal`, `C45_wrong` |
| C46 | a class called `BFGS_2` clashes in a chain | `C46_name_clash` |
| C47 | chains with fixed parameters start at vectors of the wrong length; a chain with a minimizer which reports no iterations (scipy's `least_squares`: MINPACK) always raises | `C47_fixed_parameters`, `C47_uncounted` |
| C48 | all constraints of TrustConstr get the hessian of the last | `C48_last_hessian` |
| C52 | `r_squared` and objectives align axes differently | `C52_axes_disagree` |
| C53 | degrees of freedom wrong for components with data of equal shape | `C53_equal_shapes` |
| C55 | unsorted times reordered or answered wrongly, initial time only raises, lists raise | `C55_finding_*`, `C55_python_list` |
| C56 | second-order derivatives solved as first-order ones | `C56_finding_second_order` |
| C61 | sigmas of opposite sign give a negative density | `C61_opposite_signs` |
| C62 | making an `InteractiveGuess` clips values to the slider's range | `C62_finding_negative` |
| C63 | equality of objectives asymmetric, not transitive, raising | `C63_finding_*` |
| C64 | assigning `params` leaves stale caches | `C64_finding_stale` |
| C65 | `fixed` changed before pickling changes the unpickled minimizer | `C65_finding_fixed` |
| C66 | constant symbolic parts raise, equality asymmetric | `C66_constant_part`, `C66_equality_asymmetric` |
| C70 | negated ODE models keep their initial values, lose options | `C70_finding_not_negated`, `C70_options_lost` |
| C71 | error bars too high by the mean | `C71_finding_error_bars` |
| C72 | unpickled results lose the configuration of their minimizer; nested chains fail | `C72_finding_lost`, `C72_finding_nested` |
| C74 | `TrustConstr` and `BasinHopping` write into the caller's dicts | `C74_finding_reuse`, `C74_finding_trust` |
| C75 | bounds/constraints silently ignored by minimizers without support; wrong hessian for trust-constr; MINPACK with a scalar objective minimises its square, i.e. finds roots | `C75_silently_ignored`, `C75_ignored_example`, `C75_hessian_wrong`, `C75_minpack_square`, `C75_minpack_root` |
| C76 | numerical constraints: `<=` raises, constant components raise, the caller's mapping is extended | `C76_le_raises`, `C76_constant_component`, `C76_mapping_extended` |
| C77 | relations with ODE models or with callable components raise; for numerical models acceptance depends on set order | `C77_ode_raises`, `C77_callable_raises`, `C77_hash_order` |
| C77 | `Model.as_constraint(relation, ode_model)` works for relations between parameters; a relation about a component is silently taken to be about its derivative, or raises `KeyError` | `C77_ode_parameters`, `C77_ode_finding_rhs`, `C77_ode_finding_raises` |
| C78 | every symbol is `in` an `ODEModel` | `C78_ode_everything`, `C78_ode_finding` |
| C81 | `other_model(x, **fit_result.params)` raises `TypeError` | `C81_other_model_raises` |
| C82 | threads can get one automatic name twice | `C82_finding_race`, `C82_finding_lost_update` |
| C83 | a read can raise `AttributeError` during a concurrent deletion; threads can disagree | `C83_finding_delete`, `C83_finding_disagree` |
| C84 | after `execute`, assigning to the value of a fixed parameter and executing again reports the new fixed value with the fit for the old one | `C84_stale`, `C84_finding_stale` |
| C84 | setting `fixed` after the fit is made mixes up the parameters; bounds set after a fit without bounds is made are ignored | `C84_finding_fixed`, `C84_bounds_later` |
| C85 | `BFGS(func, [b, a])` reports the values of `a` and `b` exchanged (also guesses and bounds): `func` is called with the vector in alphabetical order of the names, the results use the order of the list | `C85_swapped`, `C85_found` |
| C86 | `model.hessian` ignores the chain rule for interdependent components (`eval_hessian` is right): zero instead of `2*x**2` for `{y: a*x, z: y**2}` | `C86_finding_hessian` |
| C87 | A component of the model that does not depend on the data is counted once, not once per data point, by `LogLikelihood`: its log-likelihood is not that of the model | `C87_finding_constant` |
| C88 | `np.nansum` silently drops data points where a component is negative (its logarithm is `nan`), so parameters for which the model is not a density at all can have a higher likelihood than those for which it is | `C88_finding_negative` |
| C89 | Data at unsorted times on both sides of the initial time are silently compared with the values of the model at other times: perfect data have a large chi^2 | `C89_finding_reordered` |
| C90 | The step of `ODEModel`'s jacobian (1e-8) is smaller than the default tolerance of its integrator (1.49012e-8): an integrator within its tolerance can give derivatives with the wrong sign | `C90_finding_wrong_sign` |
| C91 | a refused `Parameter(...)` has already changed the parameter of that name | `C91_finding_refused` |
| C91 | unpickling overwrites the live parameter of that name | `C91_finding_unpickle` |
| C91 | a generated name may belong to an existing symbol | `C91_finding_generated` |
| C92 | a fit of a `CallableNumericalModel` never yields a covariance matrix or standard deviations (no `eval_jacobian`/`eval_hessian`) | `C92_no_covariance` |
| C93 | `str(results)` raises AttributeError if a minimizer was given constraints as models or relations directly (both accepted by `scipy_constraints`) | `C93_finding_raw` |
| C94 | outputs of `Model([e1, e2])` come in the order of the expressions' memory addresses (as decimal strings), not of the list | `C94_finding_order` |
| C94 | `Fit([e1, e2], x, y1, y2)` can bind `y1` to `e2` | `C94_finding_data` |
| C94 | the same expression object twice gives one component | `C94_finding_same` |
| C95 | `InteractiveGuess` of a model with a constant component raises ValueError | `C95_finding_constant` |
| C95 | `InteractiveGuess` of a model without independent variables divides by zero | `C95_finding_no_variables` |
| C96 | `HadamardProduct(A, B, C)` computes `A*B` | `C96_finding_dropped` |
| C96 | `HadamardProduct(A + B, C)` computes `A + B*C`, `HadamardProduct(A, B + C)` computes `A*B + C` | `C96_finding_sum_left`, `C96_finding_sum_right` |
| C96 | `HadamardPower(A, Rational(1, 2))` computes `A/2` | `C96_finding_root` |
| C96 | `HadamardPower` of a sum, product or power applies to its last part only (`A + B**e`, `A*B**e`, `A**(d**e)`) | `C96_finding_power_of_sum`, `C96_finding_power_of_product`, `C96_finding_power_of_power` |
| C97 | results of several parameters whose covariance matrices differ are not reported as different: `AssertionError` is raised | `C97_finding_raises` |
| C97 | comparing a result with a covariance matrix with one without raises `TypeError` | `C97_finding_missing` |
| C97 | a result with NaN in its covariance matrix compared with its copy raises `AssertionError` | `C97_finding_nan` |
| C97 | covariance matrices of one parameter are compared exactly, others with a tolerance; the comparison is not symmetric | `C97_finding_one_parameter`, `C97_finding_asymmetric` |
| C98 | opening an `InteractiveGuess` and touching nothing changes where the fit starts (negative values become 0) | `C98_finding_negative` |
| C101 | an `AttributeError` raised by the user's code while the Hessian is evaluated is swallowed: the covariance matrix is silently an approximation | `C101_attribute_error` |
| C103 | leaving out an intermediate component can change the dependent variables, that is, what is fitted | `C103_finding` |
| C103 | `{z: y, y: 5}` is a model, `{z: 5}` raises IndexError | `C103_finding_constant` |
| C105 | the covariance matrix ignores `fixed`: a fixed parameter has a nonzero standard deviation and the free ones have the one they had if all were free (2 instead of 1/5 for the variance of `a` in `{y: a*x + b}`) | `C105_errors_ignore_fixed`, `C105_errors_example` |
| C105 | a component that contains only fixed parameters is a dependent variable, but with the numbers it is not; a model of which only numbers remain raises IndexError | `C105_constant_component`, `C105_constant_model` |
| C68 | `Fit` accepts `{y: a * sigma_y}` (`TakesData` refuses it): the data of the independent variable `sigma_y` are also the weights, and without data it is taken to be 1 | `C68_finding_sigma` |
| C108 | putting together models whose longest chains of dependencies differ in length, the dependent variables (and so the data) of the shallower one are ignored | `C108_finding_depth` |
| C111 | What was recorded before an inner print is forgotten: `f(A) + B` does not report the unknown function `f` | `C111_finding_forgotten` |
| C111 | The default set is shared and never emptied: once `B + f(A)` was printed, `f` is reported as not supported for every expression with symbols, in the whole process | `C111_finding_remembered` |
| C111 | What was recorded inside an inverse, an element-wise product or power is forgotten: `inv(f(A))` does not report the unknown function `f`, `f(A)` does | `C111_finding_inverse` |
| C113 | with a fixed parameter the variance reported for a free one can be negative (`stdev` is NaN) although the fit found the minimum: the hessian in all parameters is inverted, and it need not be positive | `C113_finding_fixed` |

## Trusted base

* Lean 4.33's kernel.  Axioms used by the theorems: `propext`, `Classical.choice`, `Quot.sound` (those of
  Mathlib) and no others; no axioms of our own, no compiled evaluation (`decide +kernel` is checked
  by the kernel).
* The reading of /repo: that the definitions in `Model/` are what the Python code does.  It was not run.
  Every definition cites its lines; deviations are in the comments.
* The contracts of external code as modelled: sympy's `doprint` (C111), `inspect.Signature`, `toposort`, `sorted`, numpy broadcasting,
  `lambdify` (evaluates an expression by the names of its arguments), sympy's `diff` on the
  expression language, `copy`/`pickle` protocol, matplotlib's `Slider` (clips, calls back).

### Modelled

`symfit/core/argument.py` (all), `support.py` (`seperate_symbols`, `sympy_to_py`, `parameters`,
`cached_property`, `key2str`, `D`/derivative names, `partial_diff` helpers), `operators.py`
(`Expr.__call__`), `models.py` (`ModelOutput`, `BaseModel`, `CallableModel`, `GradientModel`,
`HessianModel`, `CallableNumericalModel`, `ODEModel`, finite differences), `objectives.py` (all
objectives), `fit.py` (`TakesData`, `HasCovarianceMatrix`, `Fit`), `minimizers.py` (all classes),
`fit_results.py`, `distributions.py`, `printing.py` (the printing of matrix expressions and `DontDeleteMe`; not `Idx`), `contrib/interactive_guess`.

### Not modelled

* The inside of scipy, numpy's linear algebra (a matrix is inverted or `LinAlgError` is raised),
  matplotlib rendering (only what is drawn).
* IEEE rounding, NaN and infinities (`np.nansum` is a sum), integer overflow, dtypes.
* sympy's simplification (expressions have the same value), its instance cache except in C91 (elsewhere
  symbols are values, and two of one name and assumptions are one symbol), derivatives with respect to undefined functions of functions
  (three-level interdependent models: `jacobianDict` is `none`), tensor/indexed symbols beyond
  their classification.
* Warnings, log messages, docstrings, the text of error messages; performance.
* Pickling of user-defined callables (they are assumed to be picklable).

### Observations not turned into theorems

* `np.product` is used in `covariance`, which numpy 2 removed.
* COBYLA does not report `nfev` under the key that `iterations` reads.
* `TakesData` raises `ValueError` for a user variable called `sigma_y` besides a component `y`.
* `Fit`'s docstring says `objective` may be any callable of the fit parameters, but a callable which is no
  `BaseObjective` class is called as `objective(model, data)` (fit.py:387-388).
* `parameters()` runs its `finally` block even when it raises `ValueError` for a wrong length
  (support.py:220-232), so cached Parameter objects may be modified by a refused call.
