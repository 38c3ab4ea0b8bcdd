import Verif.Props.Fit

/-!
# C27, C68: names that clash

What happens when two variables of a model, or a variable and the sigma of another one, have the
same name.
-/

namespace Verif

section
variable {C K : Type} [Field K]

/-- **C27**: when two of the variables (independent, dependent, sigmas) have the same name,
`TakesData(model, ...)` raises `ValueError` whatever the data: no data is bound to the wrong one. -/
theorem C27_same_names {m : ModelObj C} (hm : HasSigmas m) (hn : ¬ (dataNames m).Nodup)
    (args : List (Datum K)) (kw : Dict String (Datum K)) (pref : Option Bool) :
    takesDataInit (takesDataSignature m) m args kw pref = .error .valueError := by
  have hs : mkSignature (takesDataSignature m) = .error .valueError := by
    unfold mkSignature
    rw [if_neg]
    rintro ⟨h, _⟩
    refine hn ?_
    have := ((sortByDefault_perm (makeParameters m (Dict.values m.sigmas))).map
      SigParam.name).nodup_iff.1 h
    rw [makeParameters_names, hm.vars] at this
    exact this
  unfold takesDataInit
  rw [hs]

/-- **C68**: a name that needs data for the model or a constraint and is optional for another of
them makes `Fit` raise `ValueError`, whatever the data, objective and minimizer. -/
theorem C68_clash {m : ModelObj C} {cs : List (ModelObj C)} (hf : FitModels m cs) {n : String}
    (h1 : NeedsData m cs n) (h2 : MayHaveData m cs n) (objective : Option ObjKind) (minpack : Bool)
    (args : List (Datum K)) (kw : Dict String (Datum K)) (pref : Option Bool) :
    fitInit m cs objective minpack args kw pref = .error .valueError := by
  have hs := (C68_signature hf).2 ⟨n, h1, h2⟩
  unfold fitInit
  rw [hs]

end

/-- The model `{y: a * sigma_y}`: the independent variable has the name of the sigma of `y`. -/
def exSigma : Dict Sym Expr := [(vy, .mul (.sym pa) (.sym (.var "sigma_y")))]

/-- The built model. -/
def exSigmaModel : ModelObj Expr where
  modelDict := exSigma
  conn := [(vy, [.var "sigma_y", pa])]
  independentVars := [.var "sigma_y"]
  params := [pa]
  interdependentVars := []
  dependentVars := [vy]
  sigmas := [(vy, .var "sigma_y")]

theorem exSigma_built : mkModel ratLang (HashOrder.id _) exSigma = .ok exSigmaModel := by decide

/-- `TakesData` refuses this model for all data. -/
example {K : Type} [Field K] (args : List (Datum K)) (kw : Dict String (Datum K))
    (pref : Option Bool) :
    takesDataInit (takesDataSignature exSigmaModel) exSigmaModel args kw pref = .error .valueError :=
  C27_same_names (m := exSigmaModel) (show exSigmaModel.sigmas = _ from rfl) (by decide) args kw pref

/-- A constraint (here the line `y = a*x` as a constraint) whose component `y` is a variable the
model of the fit `{z: b*y}` needs data for: `ValueError`. -/
example {K : Type} [Field K] (args : List (Datum K)) (kw : Dict String (Datum K)) :
    fitInit (⟨[(vz, Expr.mul (.sym pb) (.sym vy))], [(vz, [vy, pb])], [vy], [pb], [], [vz],
      [(vz, .var "sigma_z")]⟩ : ModelObj Expr) [exLineModel] none false args kw none =
      .error .valueError :=
  C68_clash (n := "y") ⟨(show _ = _ from rfl), by decide,
    fun c hc => by rw [List.mem_singleton.1 hc]; exact (show _ = _ from rfl),
    fun c hc => by rw [List.mem_singleton.1 hc]; decide⟩
    (.inl (by decide)) (.inr ⟨exLineModel, by simp, by decide⟩) _ _ _ _ _

/-- **C27/C68** (finding): `Fit` does not refuse it, because it removes the second `sigma_y` from
its signature.  The data given for the independent variable `sigma_y` are then also the weights of
the fit; the first positional argument is `y`, not the independent variable; and without data for
the independent variable there is no error: it is taken to be 1 everywhere. -/
theorem C68_finding_sigma {K : Type} [Field K] (y s : Arr K) (pref : Option Bool)
    (hs : s.shape ≠ []) :
    (∃ td, fitInit exSigmaModel [] none false [.arr y, .arr s] [] pref = .ok (.leastSquares, td) ∧
      Dict.get? td.data (.sym vy) = some (.arr y) ∧
      Dict.get? td.data (.sym (.var "sigma_y")) = some (.arr s)) ∧
    (∃ td, fitInit exSigmaModel [] none false [.arr y] [] pref = .ok (.leastSquares, td) ∧
      Dict.get? td.data (.sym vy) = some (.arr y) ∧
      Dict.get? td.data (.sym (.var "sigma_y")) = some (.arr (Arr.full y.shape 1))) := by
  have hsig : fitSignature exSigmaModel [] = [⟨"y", none⟩, ⟨"sigma_y", some ()⟩] := by decide
  have hk : mkSignature (fitSignature exSigmaModel []) = .ok (fitSignature exSigmaModel []) := by
    decide
  have hv : exSigmaModel.vars = [.var "sigma_y", vy, .var "sigma_y"] := by decide
  have hd : exSigmaModel.dependentVars = [vy] := rfl
  have hg : exSigmaModel.sigmas = [(vy, .var "sigma_y")] := rfl
  have hi : exSigmaModel.independentVars = [.var "sigma_y"] := rfl
  constructor
  · unfold fitInit takesDataInit
    rw [hk]
    simp only [hsig]
    simp [withData, sigBind, bindPos, bindKw, Dict.has, Dict.get?, fillDefaults, takesDataBound,
      Dict.set, hv, hd, hg, hi, rekey, Dict.del, vy, Sym.name, Datum.convert, sigmaKeys,
      dependentKeys, fillSigmas, Dict.get!, newSigma, hs, determineObjective, defaultObjective,
      checkObjectiveData]
  · unfold fitInit takesDataInit
    rw [hk]
    simp only [hsig]
    simp [withData, sigBind, bindPos, bindKw, Dict.has, Dict.get?, fillDefaults, takesDataBound,
      Dict.set, hv, hd, hg, hi, rekey, Dict.del, vy, Sym.name, Datum.convert, sigmaKeys,
      dependentKeys, fillSigmas, Dict.get!, newSigma, determineObjective, defaultObjective,
      checkObjectiveData]

end Verif
