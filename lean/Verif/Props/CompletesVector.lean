import Verif.Props.Errors

/-!
# C75: vector least squares fits complete
-/

set_option linter.unusedSectionVars false

namespace Verif
namespace FitExec
open Argument (Parameter)
open Minimizers Results
open PickleMin (Cls)

variable {log : ℝ → ℝ} {scipy : Problem ℝ → Except PyErr (List ℝ × FunVal ℝ)} {f : FitObj ℝ}
  {mb : List (Option ℝ × Option ℝ)} {md : Dict Sym Expr} {m : ModelObj Expr} {X : Sym → Arr ℝ} {s : List Nat}
  {D : Sym → Option (Arr ℝ × Arr ℝ)}

/-- **C75** Whatever vector (of the right length) scipy returns, a vector least squares fit of a symbolic model
completes: the results hold that vector, and the fixed values of the fixed parameters, and the covariance
matrix there. -/
theorem C75_completes_vector (F : FitsData f md m s X D) (hk : f.kind = .vectorLeastSquares)
    (hb : ∀ p ∈ f.params, p.BoundsSet) (hc : ∀ c ∈ f.constraints, c.ctype = .eq ∨ c.ctype = .ge) (cls : Cls) :
    ∃ P, initMinimizer Real.sqrt log f mb cls = .ok P ∧
      ∀ x fx, scipy P = .ok (x, fx) → x.length = P.guess.length →
        ∃ r θ, fitExecute Real.sqrt log scipy f mb cls = .ok r ∧ r.fn = fx ∧
          KeepsFixed f.params θ ∧ freeVector f.params θ = x ∧
          ∀ p ∈ f.params, r.results.value p = .ok (θ p.name) := by
  obtain ⟨hpr, hnd, hpar⟩ := F.proper
  obtain ⟨h, jm, hmod, hw, ho⟩ := F.model
  obtain ⟨P, h1, h2, _⟩ := C75_problem Real.sqrt log f mb cls hb hc
  refine ⟨P, h1, fun x fx hx hl => ?_⟩
  have hl' : x.length = (params f.params).length := by
    rw [hl, h2, List.length_map]; rfl
  obtain ⟨popt, hpo, _⟩ := (C43_packed f.params x).1 hl'
  obtain ⟨θ, t1, t2, rfl⟩ := theta_of hnd hl' hpo
  obtain ⟨F', G, H, S⟩ := symbolicArrays (X := X) hw h F.hasParams F.hasPoints.1 F.hasPoints.2 F.indepShape
  have U := S.setup ho F.hasPoints.1 F.shape F.indep F.data F.dataShape F.hasData (bestFit_assigns F.params hnd hpr t1)
  obtain ⟨z, g1, g2, g3⟩ := setup_approx U.jacSetup
  have hv := setup_value U.jacSetup
  have hdep : f.objective.model.dependentVars = m.dependentVars := by rw [ho]; rfl
  have hr := rawDof_simple (m := f.objective.model) (hasData_of U.dep) (by rw [hdep]; exact F.dataShape)
    (by rw [hdep]; exact F.hasData)
  obtain ⟨a1, a2⟩ := covarianceOnce_ls (absolute := f.absolute)
    (v := chiSq f.objective.model.dependentVars D (F' θ) / 2) g2 hr
  have : ∃ cov, covarianceOnce f.objective.model f.objective.data f.absolute true (.ok (some z))
      (.ok (chiSq f.objective.model.dependentVars D (F' θ) / 2)) = .ok cov := by
    by_cases hdet : (toMatrix z f.objective.model.params.length).det = 0
    · exact ⟨_, a1 hdet⟩
    · obtain ⟨C, hC, _⟩ := a2 hdet
      exact ⟨_, hC⟩
  obtain ⟨cov, hcov⟩ := this
  have hcov' : covarianceMatrix .vectorLeastSquares f.objective f.absolute
      (bestFit f.params (f.params.map (fun p => θ p.name))) = .ok cov := by
    unfold covarianceMatrix
    simp only [CovKind.isLS, CovKind.approxIsLS, hessianOf, approxHessianOf, g1, Except.map, hv]
    exact hcov
  refine ⟨⟨⟨f.params, f.params.map (fun p => θ p.name), cov⟩, fx⟩, θ, ?_, rfl, t1, t2,
    fun p hp => value_of hnd θ cov hp⟩
  unfold fitExecute
  rw [h1]
  simp only [executeProblem, solve, hx, hpo, finish, hk, hcov']

end FitExec
end Verif
