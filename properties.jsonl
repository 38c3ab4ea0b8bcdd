{"id": "C01", "title": "Generated names are never reused", "statement": "Over any history of creating named and unnamed Parameters and Variables, two unnamed arguments of the same class never receive the same generated name, and the generated name of an unnamed argument is 'par_k' / 'var_k' where k is the number of arguments of that class created before it.", "quantifier": "every finite creation history of Parameters and Variables, named or not, in any interleaving", "why_tests_cant": "A test creates a handful of symbols; the claim is about a class-level counter after arbitrarily long histories.", "anchors": ["symfit/core/argument.py:Argument.__new__", "symfit/core/argument.py:Argument._argument_indices"]}
{"id": "C02", "title": "Parameter bounds are validated at construction", "statement": "Parameter(name, value, min, max, fixed) raises ValueError exactly when both bounds are given, min > max and the parameter is not fixed; every successfully built free Parameter has min <= max whenever both are set; a fixed Parameter built with crossed bounds is accepted but carries no min/max attributes at all.", "quantifier": "every value, min, max (present or absent) and fixed flag over any linear order", "why_tests_cant": "Ranges over all numeric bounds and the presence/absence combinations.", "anchors": ["symfit/core/argument.py:Parameter.__init__"]}
{"id": "C03", "title": "parameters() distributes per-parameter keyword sequences", "statement": "parameters(names, value=, min=, max=, fixed=) gives the i-th parameter the i-th element of every sequence keyword and the common scalar of every scalar keyword (or the default); a sequence of the wrong length raises ValueError; no free parameter it returns has min > max.", "quantifier": "every number of names and every combination of scalar / sequence / absent keywords", "why_tests_cant": "Unbounded lists of names and 3^4 keyword shapes.", "anchors": ["symfit/core/support.py:parameters"]}
{"id": "C04", "title": "Parameter equality is a congruence on all its attributes", "statement": "p == q for Parameters holds exactly when the names, min, max, fixed and value all agree; it is an equivalence relation, and equal Parameters have equal hashes so they are interchangeable as dict keys.", "quantifier": "every pair / triple of Parameters with bounds set", "why_tests_cant": "Equality laws quantify over all pairs and triples.", "anchors": ["symfit/core/argument.py:Parameter.__eq__", "symfit/core/argument.py:Parameter.__hash__"]}
{"id": "C05", "title": "Pickling a Parameter preserves its attributes", "statement": "Unpickling a pickled Parameter gives name, value, fixed, min and max identical to the original, for every attribute that was set, and leaves unset attributes unset.", "quantifier": "every Parameter state", "why_tests_cant": "All attribute states incl. the unset-bounds state.", "anchors": ["symfit/core/argument.py:Argument.__getstate__", "symfit/core/argument.py:Argument.__setstate__"]}
{"id": "C06", "title": "Symbol separation is a deterministic alphabetical partition", "statement": "seperate_symbols(expr) returns exactly the Parameters of the expression and exactly its other (identifier-named, non-Idx) symbols, each sorted by name without duplicates, and the result does not depend on the iteration order of the expression's symbol set.", "quantifier": "every set of free symbols and every iteration order of that set", "why_tests_cant": "Hash-randomised set iteration order cannot be enumerated by tests.", "anchors": ["symfit/core/support.py:seperate_symbols"]}
{"id": "C07", "title": "cached_property computes once per lifetime of the cache", "statement": "Over any sequence of reads, deletes and failing computations, a read returns the value computed by the first successful computation since the last delete, and the wrapped function is run at most once successfully between two deletes; deleting an empty cache is a no-op; a failing computation caches nothing.", "quantifier": "every history of reads and deletes and every (stateful) wrapped function", "why_tests_cant": "Unbounded operation histories.", "anchors": ["symfit/core/support.py:cached_property"]}
{"id": "C08", "title": "Derivative names identify derivatives", "statement": "The keyword name generated for D(y, p1, ..., pk) differs from that of every other derivative in the model, so evaluated derivatives are never confused.", "quantifier": "every pair of derivatives of identifiers", "why_tests_cant": "Names are unbounded strings.", "anchors": ["symfit/core/support.py:name"]}
{"id": "C09", "title": "key2str keeps every entry and lets the last one win", "statement": "key2str turns a symbol-keyed mapping into a name-keyed mapping in which every name maps to the value of the last entry with that name, and which has no other names; when names are distinct nothing is lost and order is kept.", "quantifier": "every finite mapping", "why_tests_cant": "Unbounded mappings incl. name collisions between str and symbol keys.", "anchors": ["symfit/core/support.py:key2str"]}
{"id": "C10", "title": "Calling an expression ignores irrelevant names and only those", "statement": "expr(*values, **named) equals evaluating the expression with its variables (alphabetical) then parameters (alphabetical) bound positionally, and adding any extra keyword that is not a symbol of the expression does not change the outcome.", "quantifier": "every expression, values and extra keywords", "why_tests_cant": "All argument splits and all supersets of keywords.", "anchors": ["symfit/core/operators.py:call"]}
{"id": "C11", "title": "Model construction topologically orders the components", "statement": "Model(dict) succeeds in ordering its symbols exactly when the interdependencies (ignoring self references) contain no cycle; then every component comes strictly after everything it depends on; a cycle raises an error.", "quantifier": "every finite dependency graph", "why_tests_cant": "All finite graphs.", "anchors": ["symfit/core/models.py:BaseModel._init_from_dict", "symfit/core/models.py:BaseModel.connectivity_mapping", "symfit/core/models.py:BaseModel.ordered_symbols"]}
{"id": "C12", "title": "Model attributes partition the symbols alphabetically", "statement": "After construction independent_vars, params, interdependent_vars and dependent_vars are each sorted by name and duplicate free, pairwise disjoint, and together with the constant components cover every symbol of the model; independent_vars and params are exactly the symbols that have no defining component.", "quantifier": "every acyclic model dict and every set iteration order", "why_tests_cant": "All graphs and all hash orders.", "anchors": ["symfit/core/models.py:BaseModel._init_from_dict"]}
{"id": "C13", "title": "Model construction is independent of dict order and hash order", "statement": "Two models built from the same components given in any insertion order, under any set-iteration order, have identical independent_vars, params, interdependent_vars, dependent_vars, component order and call signature.", "quantifier": "every permutation of the model dict and every two set-iteration orders", "why_tests_cant": "Factorially many orders; hash randomisation differs between processes.", "anchors": ["symfit/core/models.py:BaseModel._init_from_dict", "symfit/core/models.py:BaseCallableModel._make_signature"]}
{"id": "C14", "title": "Components nothing else uses are the dependent variables", "statement": "A component is a dependent variable (i.e. something data can be fitted to) exactly when no other component uses it.", "quantifier": "every acyclic model", "why_tests_cant": "All finite graphs.", "anchors": ["symfit/core/models.py:BaseModel._init_from_dict"]}
{"id": "C15", "title": "Parameters can not be components", "statement": "Building a model with a Parameter as key raises ModelError.", "quantifier": "every model dict with a Parameter key", "why_tests_cant": "All graphs and positions of the offending key.", "anchors": ["symfit/core/models.py:BaseModel._init_from_dict"]}
{"id": "C16", "title": "Model evaluation solves the model's equations", "statement": "For an acyclic model and a complete set of arguments, calling the model succeeds (if the component functions do) and returns for each component the value in the unique assignment in which every component equals its defining function of the values of its dependencies.", "quantifier": "every acyclic model, every component function (symbolic or arbitrary callable), every argument values", "why_tests_cant": "All graphs, functions and inputs.", "anchors": ["symfit/core/models.py:BaseCallableModel.eval_components"]}
{"id": "C17", "title": "Model evaluation does not depend on evaluation order", "statement": "The output of calling a model is the same for every topological order / set-iteration order the runtime happens to use.", "quantifier": "every pair of set-iteration orders", "why_tests_cant": "Hash-order nondeterminism.", "anchors": ["symfit/core/models.py:BaseCallableModel.eval_components", "symfit/core/models.py:BaseModel.ordered_symbols"]}
{"id": "C18", "title": "Positional and keyword calls agree", "statement": "Calling a model with the values of independent variables then parameters in alphabetical order, with keywords in any order, or with any prefix positional and the rest by keyword gives the same result; too few, too many, duplicate or unknown arguments raise TypeError.", "quantifier": "every signature, every split into positional and keyword arguments, every keyword order", "why_tests_cant": "All splits and permutations.", "anchors": ["symfit/core/models.py:BaseCallableModel._make_signature", "symfit/core/models.py:BaseCallableModel.eval_components"]}
{"id": "C19", "title": "ModelOutput views agree", "statement": "For a model output, indexing, attribute access by variable name, _asdict and iteration all present the same value for the same variable, and len is the number of components.", "quantifier": "every list of distinct variables and outputs of equal length", "why_tests_cant": "All lengths and contents.", "anchors": ["symfit/core/models.py:ModelOutput"]}
{"id": "C20", "title": "eval_jacobian is the exact derivative, chain rule included", "statement": "For a symbolic model, eval_jacobian at a point (where the expressions are differentiable) returns, for every component and every parameter, the partial derivative of that component of the model call, with interdependent variables treated as functions.", "quantifier": "every model, every expression, every point of differentiability", "why_tests_cant": "All expressions and points.", "anchors": ["symfit/core/models.py:jacobian_from_model", "symfit/core/models.py:GradientModel.eval_jacobian", "symfit/core/models.py:BaseModel.vars_as_functions"]}
{"id": "C21", "title": "eval_hessian is the exact, symmetric second derivative", "statement": "eval_hessian returns for every component and every pair of parameters the second partial derivative of that component of the model call, and is symmetric.", "quantifier": "every model, every expression, every point of differentiability", "why_tests_cant": "All expressions and points.", "anchors": ["symfit/core/models.py:hessian_from_model", "symfit/core/models.py:HessianModel.eval_hessian"]}
{"id": "C22", "title": "Negating a model negates exactly its dependent components", "statement": "(-model) called at any point returns the negated values for dependent components and unchanged values for interdependent ones; --model evaluates like model.", "quantifier": "every model and argument values", "why_tests_cant": "All models and points.", "anchors": ["symfit/core/models.py:BaseModel.__neg__", "symfit/core/models.py:BaseNumericalModel.__neg__"]}
{"id": "C23", "title": "Model equality is reflexive and sound", "statement": "A model equals itself, and equal models have the same components and evaluate equally everywhere.", "quantifier": "every model (any number of components)", "why_tests_cant": "All sizes.", "anchors": ["symfit/core/models.py:BaseModel.__eq__"]}
{"id": "C24", "title": "Constraint sign convention", "statement": "A constraint lhs {==,>=,<=} rhs is satisfied at parameter values p exactly when the constraint function handed to the minimizer is zero (type 'eq') or non-negative (type 'ineq') at p.", "quantifier": "every constraint expression, relation and parameter values", "why_tests_cant": "All expressions and points.", "anchors": ["symfit/core/models.py:BaseModel.as_constraint", "symfit/core/minimizers.py:ScipyConstrainedMinimize.scipy_constraints"]}
{"id": "C25", "title": "Only ==, >= and <= constraints over the model's parameters are accepted", "statement": "as_constraint raises ModelError for every other relation, for a non-scalar constraint, and for a constraint using a parameter the model does not have; an accepted constraint has exactly the model's parameter list, so it can be called with the minimizer's vector.", "quantifier": "every relation kind and parameter sets", "why_tests_cant": "All combinations.", "anchors": ["symfit/core/models.py:BaseModel.as_constraint"]}
{"id": "C26", "title": "Constraints on model components see the component values", "statement": "A constraint that mentions components of the model is evaluated with those components computed from the model at the same independent data and parameters; the constraint stays the only dependent variable.", "quantifier": "every model, constraint expression and point", "why_tests_cant": "All graphs.", "anchors": ["symfit/core/models.py:BaseModel.with_dependencies"]}
{"id": "C27", "title": "Data is bound to the variables it was given for", "statement": "Fit(model, *ordered, **named) attaches to every variable exactly the data given for it: ordered data to independent, then dependent, then sigma variables (alphabetical in each group), named data by name, with None for omitted sigmas; missing or surplus data raises TypeError; keyword order is irrelevant.", "quantifier": "every model signature, every split and order of the data arguments", "why_tests_cant": "All splits and orders.", "anchors": ["symfit/core/fit.py:TakesData.__init__", "symfit/core/fit.py:TakesData._make_signature", "symfit/core/fit.py:TakesData._make_parameters"]}
{"id": "C28", "title": "Missing and scalar sigmas become arrays of weights", "statement": "After data handling every dependent variable with data has a sigma array of the data's shape: all ones if no sigma was given, the constant if a scalar was given, the array itself otherwise; variables without data keep sigma None.", "quantifier": "every set of dependent variables, data shapes and sigma kinds", "why_tests_cant": "All combinations.", "anchors": ["symfit/core/fit.py:TakesData.__init__"]}
{"id": "C29", "title": "absolute_sigma defaults to 'any sigma given'", "statement": "absolute_sigma is the user's preference when given, otherwise True exactly when the user supplied at least one sigma.", "quantifier": "every model and every subset of supplied sigmas", "why_tests_cant": "All subsets.", "anchors": ["symfit/core/fit.py:TakesData.__init__"]}
{"id": "C30", "title": "Objective selection", "statement": "With no objective given, MINPACK selects VectorLeastSquares; otherwise a one-component model without independent variables and without data for its dependent variable selects MinimizeModel; everything else LeastSquares. For LogLikelihood / MinimizeModel any data for a dependent or sigma variable raises TypeError and those variables are set to None.", "quantifier": "every model, minimizer choice, objective choice and set of bound data", "why_tests_cant": "All combinations.", "anchors": ["symfit/core/fit.py:Fit._determine_objective"]}
{"id": "C31", "title": "Minimizer selection", "statement": "With no minimizer given: SLSQP iff there are constraints; otherwise L-BFGS-B iff some parameter is fixed or has a bound; otherwise BFGS.", "quantifier": "every constraint list and parameter list", "why_tests_cant": "All lists.", "anchors": ["symfit/core/fit.py:Fit._determine_minimizer", "symfit/core/models.py:BaseModel.bounds"]}
{"id": "C32", "title": "Bounds reported by a model are ordered and contain fixed values", "statement": "model.bounds has one pair per parameter in parameter order; for a fixed parameter the pair is ordered, contains the fixed value and is the one-ulp interval towards zero; for a free one it is (min, max).", "quantifier": "every parameter list and every nextafter satisfying the IEEE contract", "why_tests_cant": "All parameter lists and values.", "anchors": ["symfit/core/models.py:BaseModel.bounds"]}
{"id": "C33", "title": "LeastSquares value", "statement": "LeastSquares(params) is 1/2 sum over components with data and over data points of (model-data)^2/sigma^2; it is >= 0, and is 0 exactly when the model reproduces all the data; components whose data is None do not contribute; without flattening the per-component values sum to the total.", "quantifier": "every model output, data, sigma (non-zero) and number/size of components", "why_tests_cant": "All data.", "anchors": ["symfit/core/objectives.py:LeastSquares.__call__"]}
{"id": "C34", "title": "LeastSquares jacobian is the gradient of its value", "statement": "If the model jacobian is the derivative of the model components, LeastSquares.eval_jacobian is the gradient of LeastSquares.__call__ with respect to every parameter.", "quantifier": "every differentiable model, data, sigma, parameter point", "why_tests_cant": "All models and points.", "anchors": ["symfit/core/objectives.py:LeastSquares.eval_jacobian"]}
{"id": "C35", "title": "LeastSquares hessian is the Hessian of its value", "statement": "If the model hessian is the second derivative of the components, LeastSquares.eval_hessian is the matrix of second derivatives of LeastSquares.__call__; it is symmetric; with a zero model Hessian it is the positive semidefinite J^T W J.", "quantifier": "every twice differentiable model, data, sigma, point", "why_tests_cant": "All models and points.", "anchors": ["symfit/core/objectives.py:LeastSquares.eval_hessian", "symfit/core/objectives.py:HessianObjectiveJacApprox.eval_hessian"]}
{"id": "C36", "title": "VectorLeastSquares and LeastSquares measure the same thing", "statement": "Half the sum of squares of VectorLeastSquares(params) equals LeastSquares(params), so MINPACK and the scalar minimizers minimise the same function and report the same chi^2.", "quantifier": "every model output, data and sigma with equally shaped components", "why_tests_cant": "All data.", "anchors": ["symfit/core/objectives.py:VectorLeastSquares.__call__", "symfit/core/objectives.py:LeastSquares.__call__", "symfit/core/fit_results.py:FitResults._gof_qualifiers"]}
{"id": "C37", "title": "VectorLeastSquares jacobian is the derivative of the residual vector", "statement": "Wherever the residual norm at a data point is non-zero, eval_jacobian's row for that point is the derivative of the corresponding entry; where it is zero the row is 0.", "quantifier": "every differentiable model, data, sigma, point", "why_tests_cant": "All models and points.", "anchors": ["symfit/core/objectives.py:VectorLeastSquares.eval_jacobian"]}
{"id": "C38", "title": "LogLikelihood value, gradient and Hessian are consistent", "statement": "For positive model densities LogLikelihood(params) = -sum log f, eval_jacobian is its gradient and eval_hessian its Hessian.", "quantifier": "every twice differentiable positive model, data, point", "why_tests_cant": "All models and points.", "anchors": ["symfit/core/objectives.py:LogLikelihood"]}
{"id": "C39", "title": "MinimizeModel passes the model through", "statement": "MinimizeModel returns the model's only dependent component, and its jacobian / hessian are those of the model; a vector model is rejected.", "quantifier": "every scalar model and point", "why_tests_cant": "All models.", "anchors": ["symfit/core/objectives.py:MinimizeModel"]}
{"id": "C40", "title": "Fixed parameters always have their fixed value", "statement": "Whatever a minimizer or caller passes, by position or by name, every evaluation of an objective uses p.value for each fixed parameter p and the i-th positional value for the i-th free parameter.", "quantifier": "every parameter list, every ordered vector and every keyword set", "why_tests_cant": "All mixtures of fixed/free parameters and call styles.", "anchors": ["symfit/core/objectives.py:BaseObjective.__call__", "symfit/core/objectives.py:BaseObjective._invariant_kwargs"]}
{"id": "C41", "title": "Components are compared with their own data", "statement": "Objectives pair every evaluated dependent component with the data and sigma of the same variable, also for models with interdependent components.", "quantifier": "every model and variable naming", "why_tests_cant": "All namings/alphabetical interleavings.", "anchors": ["symfit/core/objectives.py:BaseObjective.__call__", "symfit/core/objectives.py:LeastSquares.__call__"]}
{"id": "C42", "title": "Model output is broadcast to the shape of the data", "statement": "Before comparison each evaluated component (and its jacobian / hessian) has the shape of the dependent data, preceded by the parameter axes.", "quantifier": "every data shape, component shape and number of parameters", "why_tests_cant": "All shapes.", "anchors": ["symfit/core/objectives.py:BaseObjective._shape_of_dependent_data"]}
{"id": "C43", "title": "Minimizer output is merged with the fixed parameters", "statement": "The result vector has one entry per parameter in parameter order: fixed parameters keep their value, the free ones take the minimizer's vector in order; restricting to the free parameters gives back exactly the minimizer's vector.", "quantifier": "every parameter list and solution vector", "why_tests_cant": "All fixed/free patterns.", "anchors": ["symfit/core/minimizers.py:ScipyMinimize._pack_output"]}
{"id": "C44", "title": "Jacobians handed to minimizers cover exactly the free parameters", "statement": "The wrapped jacobian has exactly one entry per free parameter, the derivative with respect to that parameter, in the order of the minimizer's vector (for MINPACK, column-wise).", "quantifier": "every parameter list and jacobian", "why_tests_cant": "All fixed/free patterns.", "anchors": ["symfit/core/minimizers.py:GradientMinimizer.resize_jac", "symfit/core/minimizers.py:MINPACK.resize_jac"]}
{"id": "C45", "title": "Hessians handed to minimizers cover exactly the free parameters", "statement": "The wrapped hessian is the free-by-free block of the full hessian.", "quantifier": "every parameter list and hessian", "why_tests_cant": "All fixed/free patterns and sizes.", "anchors": ["symfit/core/minimizers.py:HessianMinimizer.resize_hess"]}
{"id": "C46", "title": "Chained minimizers get their own options", "statement": "In a ChainedMinimizer every minimizer has its own keyword name (class name, or class name plus running index from the second occurrence on), the names are distinct, and options passed under the i-th name reach exactly the i-th minimizer; unknown names raise TypeError.", "quantifier": "every list of minimizers (any repetition)", "why_tests_cant": "All lists.", "anchors": ["symfit/core/minimizers.py:ChainedMinimizer._make_signature", "symfit/core/minimizers.py:ChainedMinimizer.execute"]}
{"id": "C47", "title": "Chained minimizers start where the previous one ended", "statement": "Each minimizer of a chain is started at the best-fit values of the free parameters found by its predecessor, the first at the initial guesses; the result is that of the last with the iteration counts summed.", "quantifier": "every chain and every behaviour of the minimizers, every fixed/free pattern", "why_tests_cant": "All chains and patterns.", "anchors": ["symfit/core/minimizers.py:ChainedMinimizer.execute"]}
{"id": "C48", "title": "TrustConstr gives every constraint its own hessian", "statement": "The i-th constraint object handed to scipy uses the i-th constraint's function, jacobian and hessian and the bounds (0,0) for equalities, (0,inf) for inequalities.", "quantifier": "every list of constraints", "why_tests_cant": "All lists.", "anchors": ["symfit/core/minimizers.py:TrustConstr.scipy_constraints"]}
{"id": "C49", "title": "Bounds handed to minimizers match the free parameters", "statement": "Bounded minimizers receive one (min, max) per free parameter in the order of the minimizer's vector; MINPACK receives the same with -inf/+inf for missing bounds.", "quantifier": "every parameter list", "why_tests_cant": "All patterns.", "anchors": ["symfit/core/minimizers.py:BoundedMinimizer.bounds", "symfit/core/minimizers.py:MINPACK.bounds"]}
{"id": "C50", "title": "Fit results are addressed by parameter", "statement": "value(p), variance(p), covariance(p,q) of a fit result are the entries of the solution vector and covariance matrix belonging to p (and q); params lists names in parameter order; stdev is the square root of the variance, None when there is no covariance matrix; covariance is symmetric when the matrix is.", "quantifier": "every parameter list, vector and matrix", "why_tests_cant": "All sizes.", "anchors": ["symfit/core/fit_results.py:FitResults"]}
{"id": "C51", "title": "Goodness-of-fit qualifiers agree with the objective", "statement": "chi_squared is the sum of squared normalised residuals for LeastSquares and VectorLeastSquares; log_likelihood = -objective and likelihood = exp(log_likelihood) > 0; qualifiers of other objectives are absent and accessing them raises AttributeError.", "quantifier": "every objective kind and value", "why_tests_cant": "All values.", "anchors": ["symfit/core/fit_results.py:FitResults._gof_qualifiers", "symfit/core/fit_results.py:FitResults.__getattr__"]}
{"id": "C52", "title": "R squared", "statement": "r_squared = 1 - SS_res/SS_tot over the components with data; it is <= 1, equals 1 exactly for a perfect fit, 0 for the mean predictor (scalar model), provided the data is not constant.", "quantifier": "every data and prediction", "why_tests_cant": "All data.", "anchors": ["symfit/core/fit_results.py:r_squared"]}
{"id": "C53", "title": "Covariance matrix scaling", "statement": "For least squares the covariance is the inverse Hessian, scaled by chi^2/dof exactly when sigmas are relative; dof is number of data points minus number of parameters; rescaling all sigmas by a constant does not change the relative-sigma covariance and multiplies the absolute one by the constant squared.", "quantifier": "every data, sigma, model", "why_tests_cant": "All data and shapes.", "anchors": ["symfit/core/fit.py:HasCovarianceMatrix._covariance_matrix", "symfit/core/fit.py:TakesData.data_shapes"]}
{"id": "C54", "title": "Covariance fallback", "statement": "If the analytical Hessian is unavailable or singular the covariance is computed from J^T W J; if that fails too the result is None.", "quantifier": "every failure pattern of the two Hessians", "why_tests_cant": "All failure patterns.", "anchors": ["symfit/core/fit.py:HasCovarianceMatrix.covariance_matrix"]}
{"id": "C55", "title": "ODE evaluation returns the solution at the requested times in order", "statement": "ODEModel called with time points returns, for an integrator that returns the solution at its t_eval points, the solution at each requested time, in the requested order, on both sides of the initial time, whether or not the initial time is requested.", "quantifier": "every list of times, initial time and solution function", "why_tests_cant": "All time grids relative to t_initial.", "anchors": ["symfit/core/models.py:ODEModel.eval_components"]}
{"id": "C56", "title": "ODE right-hand sides, state and parameters are consistently ordered", "statement": "The i-th component of the system handed to the integrator is the right-hand side for the i-th state variable, evaluated with time, state and parameters bound to the right names; initial values given as Parameters are replaced by the call's value.", "quantifier": "every ODE system and parameter values", "why_tests_cant": "All namings.", "anchors": ["symfit/core/models.py:ODEModel.__init__", "symfit/core/models.py:ODEModel.system", "symfit/core/models.py:ODEModel.eval_components"]}
{"id": "C57", "title": "Finite-difference jacobian is exact up to degree six", "statement": "finite_difference returns exactly the parameter derivatives whenever the model is polynomial of degree at most 6 in each parameter, for every step size; the step is never zero.", "quantifier": "every polynomial model of degree <= 6, every parameter value and dx > 0", "why_tests_cant": "All polynomials, points and step sizes.", "anchors": ["symfit/core/models.py:BaseGradientModel.finite_difference"]}
{"id": "C58", "title": "Finite-difference error is sixth order", "statement": "For a model seven times continuously differentiable in a parameter the finite-difference entry differs from the derivative by at most a constant times h^6 times the bound on the seventh derivative.", "quantifier": "every smooth model, point, step", "why_tests_cant": "All functions.", "anchors": ["symfit/core/models.py:BaseGradientModel.finite_difference"]}
{"id": "C59", "title": "Gaussian is a normalised density", "statement": "Gaussian(x, mu, sig) is positive and integrates to one over x for every mu and every sig != 0, is symmetric about and maximal at mu.", "quantifier": "every mu, sig", "why_tests_cant": "All reals.", "anchors": ["symfit/distributions.py:Gaussian"]}
{"id": "C60", "title": "Exp is a normalised density on the half line", "statement": "Exp(x, l) is positive and integrates to one over x > 0 for every rate l > 0.", "quantifier": "every l > 0", "why_tests_cant": "All reals.", "anchors": ["symfit/distributions.py:Exp"]}
{"id": "C61", "title": "BivariateGaussian factorises and is normalised", "statement": "BivariateGaussian with rho = 0 is the product of two Gaussians, is symmetric under exchanging the variables, and integrates to one over the plane for |rho| < 1 and positive sigmas.", "quantifier": "every parameter values", "why_tests_cant": "All reals.", "anchors": ["symfit/distributions.py:BivariateGaussian"]}
{"id": "C62", "title": "Interactive guess sliders", "statement": "InteractiveGuess gives each parameter a slider from min (default 0) to max (default twice the value), and after every slider movement every parameter's value equals its slider's value; fixed parameters included.", "quantifier": "every parameter list and history of slider movements", "why_tests_cant": "Unbounded histories.", "anchors": ["symfit/contrib/interactive_guess/interactive_guess.py:InteractiveGuess._set_up_sliders", "symfit/contrib/interactive_guess/interactive_guess.py:InteractiveGuess._update_plot"]}
{"id": "C63", "title": "Objective equality is an equivalence", "statement": "Objectives compare equal exactly when type, model and all data agree; equality is symmetric.", "quantifier": "every pair of data mappings", "why_tests_cant": "All mappings.", "anchors": ["symfit/core/objectives.py:BaseObjective.__eq__"]}
{"id": "C64", "title": "Pickling a model drops caches and restores behaviour", "statement": "Unpickling a pickled model restores every non-cached attribute and the signature; cached values are recomputed and agree with those before pickling.", "quantifier": "every attribute state (any subset of caches filled)", "why_tests_cant": "All subsets and orders of cache fills.", "anchors": ["symfit/core/models.py:BaseModel.__getstate__", "symfit/core/models.py:BaseModel.__setstate__"]}
{"id": "C65", "title": "Pickling a minimizer restores its configuration", "statement": "Unpickling a minimizer (also chained) gives one with the same parameters, objective, jacobian, hessian, constraints and current initial guesses, with wrapped functions rebuilt.", "quantifier": "every minimizer configuration and history of guesses", "why_tests_cant": "All configurations.", "anchors": ["symfit/core/minimizers.py:BaseMinimizer.__getstate__", "symfit/core/minimizers.py:BaseMinimizer.__setstate__"]}
{"id": "C66", "title": "Symbolic and numerical models agree", "statement": "A CallableNumericalModel whose callables compute the same functions as a symbolic model's expressions has the same variables, signature and outputs; missing connectivity for symbolic components is inferred; user-given connectivity takes precedence.", "quantifier": "every mixed model", "why_tests_cant": "All mixes.", "anchors": ["symfit/core/models.py:BaseNumericalModel.__init__", "symfit/core/models.py:CallableNumericalModel.numerical_components"]}
{"id": "C67", "title": "Keyword renaming wrapper", "statement": "When lambdify renames arguments, the wrapper accepts exactly the original names and passes every value to the argument it was given for.", "quantifier": "every argument list and renaming", "why_tests_cant": "All renamings.", "anchors": ["symfit/core/support.py:sympy_to_py"]}
{"id": "C68", "title": "Fit with constraints merges signatures", "statement": "Fit's signature with constraints contains every variable of the model and of the constraints once, required ones first, and constraint-only data is available to the constraint under its variable.", "quantifier": "every model and list of constraints", "why_tests_cant": "All lists.", "anchors": ["symfit/core/fit.py:Fit._make_signature", "symfit/core/fit.py:Fit.__init__"]}
{"id": "C69", "title": "shared_parameters reports sharing", "statement": "shared_parameters is True exactly when two different components of the model have a common parameter.", "quantifier": "every model", "why_tests_cant": "All models.", "anchors": ["symfit/core/models.py:BaseModel.shared_parameters"]}
{"id": "C70", "title": "Negating an ODE model", "statement": "Calling -model for an ODEModel gives the negative of what calling model gives, for the same arguments and with the same integrator options.", "quantifier": "every system of ODEs, initial values, options, times and parameter values", "why_tests_cant": "All systems and initial values.", "anchors": ["symfit/core/models.py:ODEModel.__neg__"]}
{"id": "C71", "title": "The interactive guess draws the current guess over the data's range", "statement": "After constructing an InteractiveGuess and after every slider movement, the curve drawn for each dependent variable is the model evaluated with the current parameter values at n_points equally spaced points, which start a tenth of the data's range below the smallest data point (an ODE model: at the smallest) and end a tenth above the largest.", "quantifier": "every model of one independent variable, data, number of points and history of slider movements", "why_tests_cant": "Unbounded histories, all data.", "anchors": ["symfit/contrib/interactive_guess/interactive_guess.py:InteractiveGuess.__init__", "symfit/contrib/interactive_guess/interactive_guess.py:Strategy2D.update_plot"]}
{"id": "C72", "title": "Pickling fit results restores them", "statement": "Unpickling pickled fit results gives all their attributes again; the minimizer has the same class, objective and parameters, and a chain consists of minimizers of the same classes.", "quantifier": "every fit result with every minimizer configuration (nested to any depth)", "why_tests_cant": "All configurations of minimizers; the tests only compare classes of the few they pickle.", "anchors": ["symfit/core/fit_results.py:FitResults.__getstate__", "symfit/core/fit_results.py:FitResults.__setstate__"]}
{"id": "C73", "title": "Options reach scipy as documented", "statement": "Executing a minimizer calls the right function of scipy, exactly once, with the objective, the initial guesses (or bounds, for differential evolution), the algorithm's own name, the minimizer's bounds and constraints if the algorithm supports them, the minimizer's jacobian and hessian unless the user overrides them, symfit's default settings unless the user overrides them, and every other option of the user unchanged. An option that would collide with one of symfit's own raises TypeError instead of being dropped or overriding it. The number of iterations in the results is the one the algorithm reports.", "quantifier": "all minimizer classes, all configurations of a minimizer and all sets of options", "why_tests_cant": "the option dicts are arbitrary and pass through up to five cooperative execute methods; tests try a few options", "anchors": ["symfit/core/minimizers.py:ScipyMinimize.execute", "symfit/core/minimizers.py:ScipyGradientMinimize.execute", "symfit/core/minimizers.py:ScipyBoundedMinimizer.execute", "symfit/core/minimizers.py:ScipyHessianMinimize.execute", "symfit/core/minimizers.py:ScipyConstrainedMinimize.execute", "symfit/core/minimizers.py:TrustConstr.execute", "symfit/core/minimizers.py:DifferentialEvolution.execute", "symfit/core/minimizers.py:BasinHopping.execute", "symfit/core/minimizers.py:MINPACK.execute", "symfit/core/fit_results.py:FitResults.iterations"]}
{"id": "C74", "title": "Execute does not change the caller's option dicts", "statement": "Dicts of options passed to execute are not modified, so that the same dict can be used for several fits without one fit influencing another.", "quantifier": "all minimizers, all options and all sequences of fits that share option dicts", "why_tests_cant": "the effect only shows when dicts are shared between calls; it depends on the history of calls", "anchors": ["symfit/core/minimizers.py:BasinHopping.execute", "symfit/core/minimizers.py:TrustConstr.execute"]}
{"id": "C75", "title": "A fit returns a best fit", "statement": "Given a solver that solves the problem it is handed, Fit(...).execute() returns a best fit: the reported parameters keep fixed parameters at their values, respect every bound and every constraint of the fit, the reported objective value is the objective at the reported parameters, and among all parameter assignments with those restrictions reachable by the solver none has a lower objective. This holds for the default minimizer, and for a user-chosen minimizer class provided it supports the restrictions used.", "quantifier": "all models, data, parameters (bounds, fixed, guesses), constraints, objectives, minimizer classes and all solvers that solve the problem they are given", "why_tests_cant": "tests compare a handful of numeric results; the wiring of guesses, bounds, fixed parameters, constraints, objective and unpacking of the answer must be right for every combination", "anchors": ["symfit/core/fit.py:Fit._init_minimizer", "symfit/core/fit.py:Fit._init_constraints", "symfit/core/fit.py:Fit._determine_minimizer", "symfit/core/fit.py:Fit.execute", "symfit/core/minimizers.py:BaseMinimizer", "symfit/core/minimizers.py:ScipyConstrainedMinimize.scipy_constraints", "symfit/core/minimizers.py:ChainedMinimizer.execute"]}
{"id": "C76", "title": "Numerical constraints on models", "statement": "CallableNumericalModel.as_constraint(component, model, constraint_type, connectivity_mapping) makes a constraint with the given type, the parameters of the model and one dependent variable, which evaluates the component on the values of the model's components (adding those components of the model it depends on).", "quantifier": "all symbolic and numerical models, all numerical components and mappings, all hash orders", "why_tests_cant": "the closure of dependencies and the mapping handed back are graph properties; tests use one constraint", "anchors": ["symfit/core/models.py:BaseModel.as_constraint", "symfit/core/models.py:BaseModel.with_dependencies", "symfit/core/models.py:CallableNumericalModel"]}
{"id": "C77", "title": "Every constraint given to Fit is imposed as given", "statement": "Fit(..., constraints=[...]) keeps ready-made constraints as they are and turns every relation lhs >= rhs, lhs <= rhs or lhs == rhs into a constraint that evaluates lhs - rhs (or its negative for <=) on the values of the model and has the model's parameters; relations of other kinds and relations with parameters unknown to the model raise ModelError. This holds for models of every kind.", "quantifier": "all models (symbolic, numerical, ODE), all lists of constraints, all hash orders", "why_tests_cant": "models, relations and hash orders are unbounded; for numerical models the outcome depends on set order", "anchors": ["symfit/core/fit.py:Fit._init_constraints", "symfit/core/models.py:BaseModel.as_constraint", "symfit/core/models.py:BaseModel.with_dependencies"]}
{"id": "C78", "title": "Models are mappings of their components", "statement": "A model behaves as an immutable mapping from its dependent variables to their components: iteration is alphabetical, len, [], in, get, keys, values and items agree with each other and with the dict the model was made of; a symbol that is not a component raises KeyError and is not in the model.", "quantifier": "all models of all kinds, all symbols", "why_tests_cant": "must hold for every dict and every key, including keys that are not components", "anchors": ["symfit/core/models.py:BaseModel.__len__", "symfit/core/models.py:BaseModel.__getitem__", "symfit/core/models.py:BaseModel.__iter__", "symfit/core/models.py:ODEModel.__getitem__", "symfit/core/models.py:ODEModel.__iter__"]}
{"id": "C79", "title": "ordered_symbols is an evaluation order", "statement": "ordered_symbols lists every symbol of the model exactly once, every symbol after everything it depends on, symbols of smaller depth first, and within the same depth by the order of the derivative.", "quantifier": "all acyclic models, all hash orders", "why_tests_cant": "all finite graphs and all set orders", "anchors": ["symfit/core/models.py:BaseModel.ordered_symbols"]}
{"id": "C80", "title": "Printing a model is deterministic and shows its dependencies", "statement": "str(model) has one line per component, in alphabetical order, with exactly the variables and parameters the component depends on, each in alphabetical order; it is the same for every order of the dict and every hash order; an ODEModel has one line per derivative, each showing the derivative, all parameters of the model in alphabetical order, and its expression. The LaTeX form shows the same dependencies in the same order.", "quantifier": "all models, all orders of the dict, all hash orders", "why_tests_cant": "hash randomisation differs between processes", "anchors": ["symfit/core/models.py:BaseModel.__str__", "symfit/core/models.py:ODEModel.__str__", "symfit/core/models.py:BaseModel._repr_latex_"]}
{"id": "C81", "title": "Evaluating with the fitted parameters", "statement": "model(x, **fit_result.params) is the fitted model evaluated at x and the best-fit values, with x passed by position or keyword; expr(x, **fit_result.params) works for every expression containing some of the parameters, parameters it does not contain being ignored; a different model does not ignore them and raises TypeError.", "quantifier": "all models, expressions, results and ways of passing the arguments", "why_tests_cant": "models, expressions and keyword orders are unbounded", "anchors": ["symfit/core/fit_results.py:FitResults.params", "symfit/core/operators.py:call", "symfit/core/models.py:BaseCallableModel.__call__"]}
{"id": "C82", "title": "Automatic argument names under threads", "statement": "When several threads create arguments, each gets its arguments in order and with the names given explicitly, no thread waits for another, and automatically generated names are never used twice.", "quantifier": "all numbers of threads, all programs of creations, all schedules", "why_tests_cant": "races show only under particular schedules", "anchors": ["symfit/core/argument.py:Argument.__new__", "symfit/core/argument.py:Argument._argument_indices"]}
{"id": "C83", "title": "Cached properties under threads", "statement": "When several threads read a cached property of one object, none raises, all get the value of the wrapped function, and no thread computes it twice; a thread on its own behaves as described by C07.", "quantifier": "all numbers of threads, all programs of reads (and deletions), all schedules", "why_tests_cant": "races show only under particular schedules", "anchors": ["symfit/core/support.py:cached_property.__get__", "symfit/core/support.py:cached_property.__delete__"]}
{"id": "C84", "title": "Executing a fit again after changing its parameters", "statement": "`Fit.execute` can be called again: calling it twice in a row gives the same answer, and after the user changed values, `min` or `max` of parameters it returns what a new fit with the parameters as they are now returns; in particular what it reports is a best fit for them.", "quantifier": "all fits, all histories of assignments to parameters and executions, all scipy solvers", "why_tests_cant": "histories are unbounded and caches make the outcome depend on them", "anchors": ["symfit/core/objectives.py:BaseObjective._invariant_kwargs", "symfit/core/objectives.py:BaseObjective.__call__", "symfit/core/minimizers.py:BaseMinimizer.__init__", "symfit/core/minimizers.py:BaseMinimizer.initial_guesses", "symfit/core/fit.py:Fit.execute", "symfit/core/fit.py:Fit.covariance_matrix", "symfit/core/support.py:cached_property"]}
{"id": "C85", "title": "Minimising a function of one's own", "statement": "`Minimizer(func, [a, b]).execute()`, without a model or `Fit`, finds a minimum of `func` as a function of the parameters (passed by keyword): fixed parameters keep their value, bounds are respected by minimizers that have them, the value of each parameter in the results is the one at which `func` is smallest, and the derivatives a user provides are used for the free parameters.", "quantifier": "all functions (including those that raise), all lists of parameters with any bounds and fixed ones, all minimizers on scipy's `minimize` and basin hopping, all scipy solvers", "why_tests_cant": "functions, parameters and solvers range over infinite sets", "anchors": ["symfit/core/minimizers.py:BaseMinimizer._baseobjective_from_callable", "symfit/core/minimizers.py:BaseMinimizer.__init__", "symfit/core/minimizers.py:GradientMinimizer.resize_jac", "symfit/core/minimizers.py:ScipyMinimize._pack_output", "symfit/core/models.py:CallableNumericalModel", "symfit/core/objectives.py:MinimizeModel"]}
{"id": "C86", "title": "The expressions `model.jacobian` and `model.hessian`", "statement": "`model.jacobian` holds for every component and parameter an expression for the derivative of the component (given the derivatives of the components it uses), and `model.hessian` one for the second derivatives; they have the values that `eval_jacobian` and `eval_hessian` return.", "quantifier": "all models of the modelled sympy fragment, all components and parameters, all points inside the domain of the functions", "why_tests_cant": "models and points range over infinite sets", "anchors": ["symfit/core/models.py:GradientModel.jacobian", "symfit/core/models.py:HessianModel.hessian", "symfit/core/models.py:jacobian_from_model", "symfit/core/models.py:_partial_diff"]}
{"id": "C87", "title": "From the expressions to the best fit, for every objective and minimizer", "statement": "Given the model's expressions, data and constraints, the parameters in the results of `Fit(...).execute()` are allowed (fixed parameters kept, bounds and relations respected as far as the chosen minimizer supports them) and best among the allowed ones: least squares minimises the chi squared of the expressions at the data points, `LogLikelihood` maximises the product of the expressions over the data points, and a model without data is itself minimised; whichever minimizer is used: the default, basin hopping, one that was chosen or a chain of them. With no relations, the derivative of chi^2 is zero there in every free parameter strictly inside its bounds.", "quantifier": "all models of the modelled sympy fragment, all data of any shape, all parameters, bounds and constraints, all minimizers and chains, all scipy solvers that find a minimum of the problem they are given", "why_tests_cant": "models, data, constraints and solvers range over infinite sets", "anchors": ["symfit/core/fit.py:Fit.execute", "symfit/core/fit.py:Fit._init_minimizer", "symfit/core/fit.py:Fit._determine_objective", "symfit/core/objectives.py:LeastSquares", "symfit/core/objectives.py:VectorLeastSquares", "symfit/core/objectives.py:LogLikelihood", "symfit/core/objectives.py:MinimizeModel", "symfit/core/minimizers.py"]}
{"id": "C88", "title": "The log-likelihood of values the model excludes", "statement": "`LogLikelihood` at parameter values where all components are positive is minus the sum of the logarithms; at values where some data point is impossible (a component is 0) it is `+inf`, so such values are never preferred; and values where a component is negative, which cannot be a density, are never preferred either.", "quantifier": "all models, data and parameter values, with numpy's `nan` and infinities", "why_tests_cant": "values range over an infinite set and the interesting ones are on the boundary", "anchors": ["symfit/core/objectives.py:LogLikelihood.__call__"]}
{"id": "C89", "title": "Fitting a system of differential equations", "statement": "Executing a least-squares fit of an ODEModel gives allowed parameter values (fixed parameters keep their value, bounds hold for minimizers that support them) for which the chi^2 of the true solution of the system is the least, up to the accuracy of the integrator: sqrt(chi^2) is at most 2*eps*sqrt(sum(1/sigma^2)) above that for any other allowed values, where eps is the error of the integrator. The fit raises nothing of its own, and the covariance matrix is that of the finite-difference jacobian.", "quantifier": "all systems of first order ODEs, initial values (numbers or Parameters), data with any missing components, integrators, minimizers, bounds and fixed parameters", "why_tests_cant": "the minimum is over a continuum of parameter values, and the solutions of all systems of ODEs cannot be listed", "anchors": ["symfit/core/models.py:ODEModel", "symfit/core/models.py:BaseGradientModel.finite_difference", "symfit/core/fit.py:Fit.execute", "symfit/core/objectives.py:LeastSquares"]}
{"id": "C90", "title": "Accuracy of the jacobian of an ODEModel", "statement": "ODEModel.eval_jacobian answers with an array per dependent variable, of the shape (parameters, times), whose entries are the derivatives of the solution with respect to the parameters, up to 47/2100*M*step^6 + 11/6*eps/step, where M bounds the seventh derivative, eps is the error of the integrator near these parameter values and step is 1e-8 times the parameter value (1e-8 if it is tiny).", "quantifier": "all systems of first order ODEs with solutions smooth in the parameters, all parameter values, times and integrators", "why_tests_cant": "derivatives are limits, and the error bound quantifies over all integrators of a given accuracy", "anchors": ["symfit/core/models.py:ODEModel", "symfit/core/models.py:BaseGradientModel.finite_difference", "symfit/core/models.py:BaseGradientModel.eval_jacobian"]}
{"id": "C91", "title": "Parameters and variables are identified by class, name and assumptions", "statement": "Asking twice for a symbol of the same class, (explicit) name and assumptions gives the same object as long as sympy still remembers it; the later call's value, fixed flag and bounds then replace the earlier ones (also for every model that uses the parameter), and unpickling does the same with the pickled attributes. Symbols that differ in class, name or assumptions are different objects. No other creation, unpickling, eviction from the cache or assignment to another object changes a symbol.", "quantifier": "every history of creations, unpicklings, attribute assignments and cache evictions, every number of symbols", "why_tests_cant": "A test sees one short history in one interpreter; whether an object is shared depends on everything that was created before.", "anchors": ["symfit/core/argument.py: Argument.__new__, Argument.__init__, Argument.__getstate__, Argument.__setstate__, Parameter.__init__"]}
{"id": "C92", "title": "Numerical models with arbitrary callables: evaluation and fitting", "statement": "A CallableNumericalModel given a dictionary of expressions and Python callables, with a connectivity mapping naming the symbols each callable needs, takes as arguments exactly the symbols which occur in the expressions or in the mapping and are not themselves components. Calling it with good arguments returns, for every component in name order, the value of the component in the solution of all the equations (each callable receives exactly its mapped symbols, by keyword), and conversely every successful call returns such a solution. Fit on such a model (least squares, likelihood or MinimizeModel) returns parameters which are best for the corresponding quantity computed from these solutions, as far as scipy's minimizer is reliable; as such a model has no jacobian or hessian, the result carries no covariance matrix.", "quantifier": "every dictionary of expressions and callables, every connectivity mapping covering the callables, every hash order, every call, every data set, every bound and constraint, every reliable minimizer", "why_tests_cant": "The dependency graph through user callables, the order of evaluation and the objectives built on top have unboundedly many shapes; tests try a handful of callables.", "anchors": ["symfit/core/models.py:CallableNumericalModel", "symfit/core/models.py:BaseCallableModel.eval_components", "symfit/core/models.py:BaseNumericalModel", "symfit/core/fit.py:Fit", "symfit/core/fit.py:BaseFit.covariance_matrix"]}
{"id": "C93", "title": "Printed fit results are the fit results", "statement": "print(fit_result) never raises for the results of a Fit and shows, for every parameter of the model, its own fitted value and the square root of its own variance (None without covariance matrix), all goodness-of-fit qualifiers in alphabetical order, and, for every constraint of the minimizer, the constraint together with its value at the fitted parameters; after a fit that respects its constraints every printed answer satisfies the printed relation.", "quantifier": "all fit results: any number of parameters, fixed or not, any covariance matrix or None, any qualifiers, any list of constraints and values of any shape", "why_tests_cant": "A test prints one result; that every line belongs to the parameter it names, and that printing cannot fail, ranges over all results and constraints", "anchors": ["symfit/core/fit_results.py:FitResults.__str__", "symfit/core/minimizers.py:ScipyConstrainedMinimize._pack_output", "symfit/core/objectives.py:MinimizeModel.__call__"]}
{"id": "C94", "title": "Models of a list of expressions", "statement": "Model([e1, ..., en]) and Fit([e1, ..., en], ...) treat the expressions in the order of the list: the k-th output of a call is the value of ek and the k-th dependent data set given by position belongs to ek; Model(e) returns the value of e.", "quantifier": "all lists of expressions, all memory addresses of the expression objects, all hash orders, all argument values and data", "why_tests_cant": "The order depends on memory addresses, which no test controls; a test that passes today can fail in another run", "anchors": ["symfit/core/models.py:BaseModel.__init__", "symfit/core/models.py:BaseModel._init_from_dict", "symfit/core/fit.py:TakesData.__init__"]}
{"id": "C95", "title": "Interactive guesses of models with several independent variables", "statement": "InteractiveGuess of a symbolic model with independent variables, each of whose dependent variables depends on one of them, can be made, and every history of slider movements and of assignments succeeds. The model is evaluated once at every combination of the points of the independent variables. With several independent variables, after every history of slider movements the plot of y against x shows, at each point of x, the average of y over all combinations of the points of the other variables, for the current values of the parameters; the error bar at that point belongs to the same values. The figure has a place for every pair of an independent and a dependent variable, and no superfluous last row or column.", "quantifier": "all symbolic models, points, parameter values, hash orders, percentile functions and histories of events", "why_tests_cant": "All numbers of variables, all grids and unbounded histories.", "anchors": ["symfit/contrib/interactive_guess/interactive_guess.py:InteractiveGuess.__init__", "symfit/contrib/interactive_guess/interactive_guess.py:InteractiveGuess._set_up_figure", "symfit/contrib/interactive_guess/interactive_guess.py:InteractiveGuess._update_plot", "symfit/contrib/interactive_guess/interactive_guess.py:StrategynD.plot_model", "symfit/contrib/interactive_guess/interactive_guess.py:StrategynD.update_plot"]}
{"id": "C96", "title": "Matrix expressions are evaluated by code that computes them", "statement": "The code symfit generates for matrix expressions of MatrixSymbols (sums, matrix products, inverses, HadamardProduct, HadamardPower, MatPow, functions) computes the value of the expression: HadamardProduct multiplies all its arguments elementwise, HadamardPower takes powers elementwise.", "quantifier": "all matrix expressions, all values of the symbols, all interpretations of numpy's operations with associative elementwise multiplication", "why_tests_cant": "Unboundedly deep expressions: whether parentheses are needed depends on the whole tree.", "anchors": ["symfit/core/printing.py:_print_Inverse", "symfit/core/printing.py:_print_HadamardProduct", "symfit/core/printing.py:_print_HadamardPower", "symfit/core/printing.py:_print_MatPow", "symfit/core/support.py:sympy_to_py"]}
{"id": "C97", "title": "Comparing fit results", "statement": "FitResults._array_safe_dict_eq(one.__dict__, other.__dict__), which defines the equality of fit results, returns True exactly if the two results have equal constraints, models, objectives and messages, minimizers of the same class, the same parameters with the same values in the same order, the same qualifiers and the same covariance matrix up to numpy's tolerance; it returns False otherwise; a result is the same as its copy.", "quantifier": "all fit results (any number of parameters, any constraints, NaN included), all implementations of == of the models and objectives in them, dicts of arrays of any size, numpy before and after 1.25", "why_tests_cant": "The comparison depends on which comparison raises ValueError first and on which exception escapes; tests only compare a result with its own pickled copy, so they never see a difference.", "anchors": [{"file": "symfit/core/fit_results.py", "symbols": ["FitResults._array_safe_dict_eq", "FitResults.__init__"]}]}
{"id": "C98", "title": "Fitting from an interactive guess", "statement": "A fit of a model made after an InteractiveGuess of this model starts where the sliders were left: the minimizer is given the positions of the sliders of the free parameters, in the order of the parameters, and fixed parameters are held at theirs. Dragging sliders never leads outside of the bounds of a parameter.", "quantifier": "all models, parameters (bounds, fixed or free), all histories of slider events, all minimizers, whatever scipy finds", "why_tests_cant": "Depends on the whole history of slider events and on how the values written to shared Parameter objects reach the minimizer; the GUI tests check single slider events and never fit afterwards.", "anchors": [{"file": "symfit/contrib/interactive_guess/interactive_guess.py", "symbols": ["InteractiveGuess._update_plot", "InteractiveGuess._set_up_sliders"]}, {"file": "symfit/core/minimizers.py", "symbols": ["BaseMinimizer.initial_guesses", "ScipyMinimize._pack_output"]}]}
{"id": "C99", "title": "The order of the data points does not matter", "statement": "If all data of a fit (the data of the independent variables, of the components and their sigmas) is rearranged in the same way, LeastSquares has the same value at all parameter values; and what a fit finds for the rearranged data, with any minimizer, bounds and relations as constraints, by least squares or by maximum likelihood, is a best fit of the original data. If both fits find the same values, stdev of all parameters and covariance of all pairs are the same.", "quantifier": "every symbolic model, data of every number of points and dimensions, every rearrangement of the points, all parameter values, every minimizer", "why_tests_cant": "rearrangements of arbitrarily many points and all parameter values cannot be enumerated", "anchors": [{"file": "symfit/core/objectives.py", "symbols": ["LeastSquares.__call__", "VectorLeastSquares.__call__", "LogLikelihood.__call__", "BaseObjective.__call__"]}, {"file": "symfit/core/fit.py", "symbols": ["Fit.execute"]}]}
{"id": "C100", "title": "Global fitting: data sets of different lengths", "statement": "If each component of a model has its own data set (its independent variables and its data have one shape, other components may have others) and the components share parameters, LeastSquares is half the sum over all components with data and over the points of their own data set of ((v_i - y_i)/sigma_i)^2; this is the sum of the objectives of the components fitted alone, at the same parameter values, if no component mentions another; if one data set is split into several, and each part is given to a component with the same expression in its own variables, the objective is that of the whole data set; eval_jacobian and eval_hessian of LeastSquares are the gradient and the symmetric matrix of second derivatives of this sum where the expressions are smooth; Fit.execute reports, with any minimizer, the parameter values that minimize this chi^2, and it completes, including the covariance matrix, whenever the minimizer does.", "quantifier": "every symbolic model whose equations each stay within one data set, any number of data sets of any shapes, every way to split a data set, all parameter values, every minimizer", "why_tests_cant": "shapes, splits and parameter values cannot be enumerated", "anchors": [{"file": "symfit/core/objectives.py", "symbols": ["LeastSquares.__call__", "LeastSquares.eval_jacobian", "LeastSquares.eval_hessian", "BaseObjective.__call__"]}, {"file": "symfit/core/models.py", "symbols": ["BaseCallableModel.__call__", "CallableModel.eval_components"]}, {"file": "symfit/core/fit.py", "symbols": ["Fit.execute", "TakesData.covariance_matrix"]}]}
{"id": "C101", "title": "Exceptions reach the caller", "statement": "An exception is neither lost nor replaced on its way to the user: a call of a CallableNumericalModel raises exactly if one of the user's callables raises for the values of its arguments, and what it raises is what one of them has raised; if a model raises at some parameter values, every objective and every derivative of an objective evaluated there raises the same, and so does Fit.execute if these are the initial values; what a minimizer raises, alone or in a chain, Fit.execute raises; what the integrator raises, an ODEModel raises, and if the integrator reports failure, ODEError is raised instead of returning its numbers; a Jacobian by finite differences raises what the model raises; what the Hessian raises while the covariance matrix is computed is raised by Fit.execute.", "quantifier": "every numerical model with any number of interdependent components, every callable, every exception class, every objective, all parameter values, every minimizer and chain of minimizers, every integrator", "why_tests_cant": "tests would have to raise every exception at every point of every computation", "anchors": [{"file": "symfit/core/models.py", "symbols": ["CallableNumericalModel", "BaseCallableModel.eval_components", "BaseGradientModel.finite_difference", "ODEModel.eval_components"]}, {"file": "symfit/core/objectives.py", "symbols": ["BaseObjective.__call__", "LeastSquares", "VectorLeastSquares", "LogLikelihood", "MinimizeModel"]}, {"file": "symfit/core/fit.py", "symbols": ["Fit.execute", "TakesData._covariance_matrix"]}, {"file": "symfit/core/minimizers.py", "symbols": ["ChainedMinimizer.execute", "ScipyMinimize.execute"]}]}
{"id": "C102", "title": "Names do not matter", "statement": "Giving all variables and parameters of a model other (different) names changes nothing but the names: construction succeeds or fails with the same exception; the lists of dependent, interdependent and independent variables and of parameters are the renamed ones (their order is alphabetical in the new names); calling the model with the same values, each for its renamed argument, gives the same values of the renamed components; LeastSquares has the same value, and a fit by least squares or maximum likelihood, with any bounds and relations, finds a best fit of the original model. If both fits find the same values, stdev and covariance of the renamed parameters are the same.", "quantifier": "every symbolic model with any number of (interdependent) components, every one-to-one renaming, all argument values, all data, every hash order, every minimizer", "why_tests_cant": "there are infinitely many models and renamings, and the alphabetical order of the arguments, the order of evaluation and the order of the parameter vector all change with the names", "anchors": [{"file": "symfit/core/models.py", "symbols": ["BaseModel._init_from_dict", "BaseModel.__init__", "BaseCallableModel.eval_components", "BaseCallableModel.__call__"]}, {"file": "symfit/core/objectives.py", "symbols": ["LeastSquares", "LogLikelihood"]}, {"file": "symfit/core/fit.py", "symbols": ["Fit.execute"]}]}
{"id": "C103", "title": "Intermediate components are only a way of writing", "statement": "A model with an intermediate component, say {z: y**2, y: a*x}, and the model with the expression put in the place of the component, {z: (a*x)**2}, are the same to the user: both are called with the same arguments, give the same values of all components they both have, have the same dependent variables, LeastSquares has the same value for both, and a fit of the one is a best fit of the other. If both fits find the same values, stdev and covariance are the same.", "quantifier": "every symbolic model with any number of interdependent components at any depth, every component that another one uses, all argument values, all data, every hash order, every minimizer", "why_tests_cant": "there are infinitely many models; which level a component is on, the order of evaluation and the dependent variables all change with the substitution", "anchors": [{"file": "symfit/core/models.py", "symbols": ["BaseModel._init_from_dict", "BaseModel.__init__", "BaseCallableModel.eval_components", "BaseCallableModel.__call__"]}, {"file": "symfit/core/objectives.py", "symbols": ["LeastSquares", "LogLikelihood"]}, {"file": "symfit/core/fit.py", "symbols": ["Fit.execute"]}]}
{"id": "C104", "title": "Units do not matter", "statement": "Measuring any of the variables, parameters and components in other units changes nothing but the numbers: construction succeeds or fails with the same exception, the lists of variables and parameters are the same, calling the model with all arguments in the new units gives all components in the new units, LeastSquares has the same value for data and sigmas in the new units, and a fit in the new units, with initial values, bounds and relations in the new units, is a best fit in the old units. If both fits find the same values (in their units), stdev of every parameter is the old one in the new unit, and so are the covariances.", "quantifier": "every symbolic model with any number of (interdependent) components, every choice of units (positive rational factors) for every symbol, all argument values, all data and sigmas, every hash order, every minimizer", "why_tests_cant": "there are infinitely many models, data and units; an error in one weight or one component shows only for some of them", "anchors": [{"file": "symfit/core/models.py", "symbols": ["BaseModel._init_from_dict", "BaseModel.__init__", "BaseCallableModel.eval_components", "BaseCallableModel.__call__"]}, {"file": "symfit/core/objectives.py", "symbols": ["LeastSquares", "LogLikelihood"]}, {"file": "symfit/core/fit.py", "symbols": ["Fit.execute"]}]}
{"id": "C105", "title": "A fixed parameter is a number", "statement": "As long as every component still contains a symbol, fixing parameters of a model at numbers is the same as writing the numbers into the model: {y: a*x + b} with b fixed at 1, and {y: a*x + 1}. The models have the same variables and the second one has the parameters that are left; called with the numbers, the first gives the values of the second; LeastSquares has the same value; a fit by least squares or maximum likelihood of the first, with any bounds and relations, is a best fit of the second with the numbers also in the relations, and conversely. Standard deviations and covariances are an exception: they do not depend on which parameters are fixed, but are those of the fit with all parameters free that finds the same values.", "quantifier": "every symbolic model with any number of (interdependent) components, every choice of parameters and rational numbers, all argument values, all data, every hash order, every minimizer", "why_tests_cant": "there are infinitely many models and choices of parameters; fixed parameters are left out of the vector for scipy and put back in several places, and which components are dependent variables could change", "anchors": [{"file": "symfit/core/models.py", "symbols": ["BaseModel._init_from_dict", "BaseCallableModel.eval_components", "BaseCallableModel.__call__"]}, {"file": "symfit/core/objectives.py", "symbols": ["BaseObjective.invariant_kwargs", "LeastSquares", "LogLikelihood"]}, {"file": "symfit/core/minimizers.py", "symbols": ["BaseMinimizer.params", "ScipyMinimize._pack_output"]}, {"file": "symfit/core/fit.py", "symbols": ["Fit.execute", "HasCovarianceMatrix.covariance_matrix"]}]}
{"id": "C106", "title": "Only the ratios of the sigmas matter for the best fit", "statement": "Multiplying all sigmas by one number g does not change the best fit: chi^2 and the value of LeastSquares are divided by g^2 at all parameter values, so a fit with the new sigmas is a best fit with the old ones, with any bounds and relations. With absolute_sigma=False the standard deviations and covariances do not change either; with absolute_sigma=True the standard deviations are g times and the covariances g^2 times as large.", "quantifier": "every symbolic model with any number of components, all data of one shape with all sigmas (also broadcast), every g other than 0, every minimizer, bounds and relations, every hash order", "why_tests_cant": "there are infinitely many models, data sets and factors; the sigmas enter the objective, its hessian, the approximated hessian and the factor of the covariance matrix separately", "anchors": [{"file": "symfit/core/objectives.py", "symbols": ["LeastSquares", "VectorLeastSquares"]}, {"file": "symfit/core/fit.py", "symbols": ["Fit.execute", "Fit.covariance_matrix", "Fit._covariance_matrix"]}]}
{"id": "C107", "title": "Repeated measurements and their weighted means", "statement": "Replacing measurements made at the same values of the independent variables by their weighted mean (with 1/sigma^2 = the sum of the 1/sigma^2 of the measurements) changes chi^2, and the value of LeastSquares, only by a number that does not depend on the parameters: a fit to all measurements is a best fit to the means and conversely, with any bounds and relations. With absolute_sigma=True both fits give the same standard deviations and covariances. In particular the shape of the data arrays does not matter: the same data points in arrays of another shape give the same best fit, standard deviations and covariances, also with absolute_sigma=False.", "quantifier": "every symbolic model with any number of components, all measurements and sigmas (also broadcast), every grouping of the measurements, all shapes, every minimizer, bounds and relations, every hash order", "why_tests_cant": "there are infinitely many models, data sets, groupings and shapes; objective, hessian, its approximation and the number of degrees of freedom all depend on the shape of the data arrays", "anchors": [{"file": "symfit/core/objectives.py", "symbols": ["LeastSquares", "VectorLeastSquares"]}, {"file": "symfit/core/fit.py", "symbols": ["Fit.execute", "Fit.covariance_matrix", "Fit._covariance_matrix", "TakesData.data_shapes"]}]}
{"id": "C108", "title": "Models without common parameters fitted together", "statement": "Putting two models with no parameter in common (and neither using the other's components) into one model and fitting it gives best fits of both models on their own: chi^2 of the joint model is the sum of the two, a parameter vector is allowed by bounds and relations iff its parts are, the results of the joint fit are, as far as each model's parameters are concerned, a best fit of that model to its data, and conversely the results of separate fits make up a best fit of the joint model. The same holds for maximum likelihood fits, with minus the log-likelihood in place of chi^2. The dependent variables of the joint model are those of both, provided their longest chains of dependencies are equally long. With absolute sigmas, stdev and covariance of the joint fit are those of the separate fits, and the covariance between a parameter of the one and a parameter of the other model is 0; there is no covariance matrix iff one of the two has none.", "quantifier": "every pair of symbolic models with any number of components and common independent variables, all data and sigmas, all parameters (fixed, bounded), relations about either model, every minimizer, every hash order", "why_tests_cant": "there are infinitely many pairs of models and data sets; the order of components and parameters in the joint model depends on names and hash order", "anchors": [{"file": "symfit/core/models.py", "symbols": ["BaseModel._init_from_dict", "BaseModel.__init__"]}, {"file": "symfit/core/objectives.py", "symbols": ["LeastSquares", "VectorLeastSquares", "LogLikelihood"]}, {"file": "symfit/core/fit.py", "symbols": ["Fit.execute", "HasCovarianceMatrix.covariance_matrix"]}]}
{"id": "C109", "title": "Other parameters describe the same fit", "statement": "Writing a model in other parameters (expressions of new parameters in the place of the original ones: exp(-k*x) for exp(-x/t), b**3*x for a*x) does not change what is fitted: construction succeeds, or fails with the same exception; the model has the same variables in the same order; called with values of the new parameters it gives what the original model gives for the values of the original ones they stand for; chi^2 and the likelihood have the same values. If the new parameters, within their bounds, reach exactly the values the original ones may have, then a fit of the new model gives values for which the original model fits best, and values of the new parameters that stand for the results of a fit of the original model fit the new model best. If every original parameter stands for an expression of one new parameter, the standard deviations and covariances of the original parameters are those of the new ones times the slopes (the delta method), at a stationary point of chi^2.", "quantifier": "every symbolic model, every replacement of parameters by expressions of parameters, all data and sigmas, all parameters (fixed, bounded), relations, every minimizer, every hash order", "why_tests_cant": "there are infinitely many models and replacements, and the order of parameters (so of all vectors) changes with their names", "anchors": [{"file": "symfit/core/models.py", "symbols": ["BaseModel._init_from_dict", "BaseModel.__init__", "CallableModel.eval_components"]}, {"file": "symfit/core/objectives.py", "symbols": ["LeastSquares", "VectorLeastSquares", "LogLikelihood"]}, {"file": "symfit/core/fit.py", "symbols": ["Fit.execute"]}, {"file": "symfit/core/fit.py", "symbols": ["HasCovarianceMatrix.covariance_matrix", "HasCovarianceMatrix._covariance_matrix"]}]}
{"id": "C110", "title": "A relation that gives a parameter can be written into the model", "statement": "A relation a == e, where e is an expression of other parameters, can be imposed as a constraint or written into the model (e in the place of a), with the same meaning. The fit of the model into which it was written gives, with a calculated from the results, values that satisfy the relation (and all other relations and bounds), and no values that do fit the original model better. A fit of the original model with the relation as a constraint gives values for which the model into which it was written fits best.", "quantifier": "every symbolic model, every such relation, all data and sigmas, all other parameters (fixed, bounded) and relations, least squares and likelihood, every minimizer (with the relation as constraint: that supports constraints), every hash order", "why_tests_cant": "there are infinitely many models and relations, and the claim compares the result with all other values", "anchors": [{"file": "symfit/core/models.py", "symbols": ["BaseModel.as_constraint", "BaseModel._init_from_dict", "CallableModel.eval_components"]}, {"file": "symfit/core/minimizers.py", "symbols": ["ConstrainedMinimizer", "SLSQP.scipy_constraints"]}, {"file": "symfit/core/objectives.py", "symbols": ["LeastSquares", "VectorLeastSquares", "LogLikelihood"]}, {"file": "symfit/core/fit.py", "symbols": ["Fit._init_constraints", "Fit.execute"]}]}
{"id": "C111", "title": "Prints within prints do not fail", "statement": "Generating code for an expression never fails with AttributeError because a part of it (a symbol, an inverse, an elementwise product or power) is printed by a print of its own with the same printer: however prints are nested, follow one another or are interleaved (several printers, threads), what a printer recorded (unsupported functions, constants) can be added to, read and deleted. A print without inner prints reports exactly what it recorded, whatever was printed before.", "quantifier": "every sequence of the operations of any printers; every tree of prints; every expression of matrices", "why_tests_cant": "there are infinitely many nestings and interleavings, and the state is shared by all printers of the process", "anchors": [{"file": "symfit/core/printing.py", "symbols": ["DontDeleteMe", "CodePrinter._not_supported", "CodePrinter._number_symbols", "_print_Inverse", "_print_HadamardProduct", "_print_HadamardPower"]}, {"file": "symfit/core/argument.py", "symbols": ["Argument._sympystr"]}]}
{"id": "C112", "title": "From the expressions to the standard deviations", "statement": "The standard deviations and covariances in the results of a fit of a symbolic model are those of the textbook, in terms of the model's equations, the data and the parameter values found: for a likelihood fit the inverse of the matrix of second derivatives of minus the logarithm of the likelihood of the data; for a least squares fit chi^2 per degree of freedom (or one, with absolute_sigma) times the inverse of the matrix of second derivatives of chi^2/2. If that matrix is singular (and always for VectorLeastSquares) the products of the first derivatives of the components, weighted by the sigmas (for likelihoods: of their logarithms), take its place, and if that is singular as well stdev is None.", "quantifier": "every symbolic model with parameters whose derivatives exist at the values found; data of any shape; any minimizer or chain; bounds, constraints and fixed parameters", "why_tests_cant": "the derivatives are taken symbolically, compiled, broadcast over the data, assembled, inverted and addressed by name; a test checks the numbers for single models", "anchors": [{"file": "symfit/core/fit.py", "symbols": ["HasCovarianceMatrix._covariance_matrix", "HasCovarianceMatrix.covariance_matrix", "Fit.execute"]}, {"file": "symfit/core/objectives.py", "symbols": ["LeastSquares.eval_hessian", "LogLikelihood.eval_hessian", "HessianObjectiveJacApprox"]}, {"file": "symfit/core/fit_results.py", "symbols": ["FitResults.stdev", "FitResults.covariance"]}, {"file": "symfit/core/models.py", "symbols": ["jacobian_from_model", "hessian_from_model"]}]}
{"id": "C113", "title": "Sound standard deviations", "statement": "The standard deviations and covariances in the results of a fit of a symbolic model are those of random quantities: no variance is negative, stdev is its square root, the covariance of p and q is the covariance of q and p, and it is at most the product of the two standard deviations in absolute value; or stdev is None for all parameters. (With relative sigmas, there must be at least as many data points as parameters; for other objectives than VectorLeastSquares, the values found must be a minimum: either all parameters are free and strictly inside their bounds and there are no constraints, or the matrix of second derivatives has no negative direction.)", "quantifier": "every symbolic model with parameters whose derivatives exist at the values found; data of any shape; any minimizer or chain; bounds, constraints and fixed parameters", "why_tests_cant": "the sign of a variance depends on the inverse of a matrix made of all derivatives at all data points; tests look at a few good fits", "anchors": [{"file": "symfit/core/fit.py", "symbols": ["HasCovarianceMatrix._covariance_matrix", "HasCovarianceMatrix.covariance_matrix", "Fit.execute"]}, {"file": "symfit/core/fit_results.py", "symbols": ["FitResults.stdev", "FitResults.variance", "FitResults.covariance"]}]}
