import Verif.Props.Argument
import Verif.Props.Support
import Verif.Props.DerName
import Verif.Props.Construction
import Verif.Props.Evaluation
import Verif.Props.Jacobian
import Verif.Props.ModelOps
import Verif.Props.Constraint
import Verif.Props.Fit
import Verif.Props.FitNames
import Verif.Props.Objectives
import Verif.Props.Minimizers
import Verif.Props.FitResults
import Verif.Props.Covariance
import Verif.Props.SymbolicFit
import Verif.Props.SymbolicDeriv
import Verif.Props.SymbolicEval
import Verif.Props.ObjectiveExamples
import Verif.Props.Distributions
import Verif.Props.FiniteDifference
import Verif.Props.Numerical
import Verif.Props.ODE
import Verif.Props.ODESystem
import Verif.Props.ODEExamples
import Verif.Props.InteractiveGuess
import Verif.Props.ObjectiveEq
import Verif.Props.PickleModel
import Verif.Props.PickleMinimizer
import Verif.Props.Execute
import Verif.Props.FitExecute
import Verif.Props.SymbolicExecute
import Verif.Props.SymbolicExecuteExample
import Verif.Model.Dependencies
import Verif.Model.Views
import Verif.Spec.Dependencies
import Verif.Spec.FitConstraints
import Verif.Spec.Views
import Verif.Lemmas.Dependencies
import Verif.Lemmas.DependenciesSym
import Verif.Lemmas.DependenciesNum
import Verif.Lemmas.RelationClosure
import Verif.Props.Dependencies
import Verif.Props.FitConstraints
import Verif.Props.OdeConstraints
import Verif.Props.Views
import Verif.Props.OdePrinting
import Verif.Model.BestFit
import Verif.Model.Concurrency
import Verif.Props.BestFit
import Verif.Props.Concurrency
import Verif.Model.Refit
import Verif.Props.Refit
import Verif.Model.OwnFunction
import Verif.Spec.OwnFunction
import Verif.Lemmas.OwnFunction
import Verif.Props.OwnFunction
import Verif.Model.SymbolicJacobian
import Verif.Props.SymbolicJacobian
import Verif.Spec.SymbolicObjectives
import Verif.Props.SymbolicObjectives
import Verif.Props.SymbolicObjectivesExample
import Verif.Model.NanSum
import Verif.Props.NanSum
import Verif.Props.ODEFit
import Verif.Props.ODEJacobian
import Verif.Props.ODEFitExample
import Verif.Props.Instances
import Verif.Model.Identity
import Verif.Spec.Identity
import Verif.Props.Identity
import Verif.Spec.NumericalFit
import Verif.Model.NumericalFit
import Verif.Lemmas.NumericalFit
import Verif.Lemmas.NumericalTrace
import Verif.Lemmas.NumericalArr
import Verif.Props.NumericalFit
import Verif.Props.Report
import Verif.Props.FromList
import Verif.Props.GuessND
import Verif.Props.Printing
import Verif.Props.ResultEq
import Verif.Props.GuessFit
import Verif.Props.Reorder
import Verif.Props.Grouped
import Verif.Props.GroupedFit
import Verif.Props.GroupedExample
import Verif.Props.GroupedGradient
import Verif.Props.GroupedGradientExample
import Verif.Props.Raises
import Verif.Props.RaisesExample
import Verif.Props.Rename
import Verif.Props.RenameExample
import Verif.Props.Inline
import Verif.Props.InlineExample
import Verif.Props.Units
import Verif.Props.UnitsExample
import Verif.Spec.Errors
import Verif.Props.Correspond
import Verif.Props.Errors
import Verif.Props.ErrorsExample
import Verif.Props.Fixing
import Verif.Props.FixingExample
import Verif.Props.Sigmas
import Verif.Props.SigmasExample
import Verif.Props.Combine
import Verif.Props.CombineErrors
import Verif.Props.CombineExample
import Verif.Props.VectorLengths
import Verif.Props.Separate
import Verif.Props.SeparateExample
import Verif.Props.SeparateLikelihood
import Verif.Props.SeparateLikelihoodExample
import Verif.Props.SeparateErrors
import Verif.Props.CompletesVector
import Verif.Props.SeparateErrorsExample
import Verif.Props.Reparam
import Verif.Props.ReparamExample
import Verif.Props.Moved
import Verif.Props.ReparamErrors
import Verif.Props.ReparamErrorsExample
import Verif.Props.Determined
import Verif.Props.DeterminedExample
import Verif.Props.DeterminedLikelihood
import Verif.Props.PrinterState
import Verif.Props.Deviations
import Verif.Props.DeviationsExample
import Verif.Props.ErrorsLikelihood
import Verif.Props.ErrorsLikelihoodExample
import Verif.Props.Variances
import Verif.Props.VariancesOne
import Verif.Props.VariancesExample
import Verif.Props.VariancesMin
import Verif.Props.VariancesMinExample
import Verif.Props.VariancesFinding
