import Verif.Model.SymbolicArr
import Verif.Model.Argument
import Verif.Model.Support

/-!
# `InteractiveGuess` (`symfit/contrib/interactive_guess/interactive_guess.py`)

Modelled: the sliders, the callback, the points at which the model is evaluated, the drawn curves for
models of one independent variable (`Strategy2D`) and of several (`StrategynD`), the number of
subplots.  Not modelled: titles and axes, the scatter and contour plots of the data, the mouse (a drag
is the position it asks for).
-/

namespace Verif.Guess
open Verif.Argument

variable {K : Type} [Field K] [LinearOrder K]

/-- A `matplotlib.widgets.Slider`. -/
structure Slider (K : Type) where
  valmin : K
  valmax : K
  val : K
deriving DecidableEq

/-- `Slider._value_in_bounds` (matplotlib/widgets.py, `closedmin=closedmax=True`, no steps). -/
def inBounds (lo hi v : K) : K := if v ≤ lo then lo else if hi ≤ v then hi else v

/-- `minimum` (interactive_guess.py:174-177). -/
def minimum (p : Parameter K) : K :=
  match p.min with
  | some (some a) => a
  | _ => 0

/-- `maximum` (interactive_guess.py:178-181). -/
def maximum (p : Parameter K) : K :=
  match p.max with
  | some (some b) => b
  | _ => 2 * p.value

/-- `plt.Slider(ax, param, minimum, maximum, valinit=val)` (interactive_guess.py:183-184): the
initial value is moved into the bounds. -/
def mkSlider (p : Parameter K) : Slider K :=
  ⟨minimum p, maximum p, inBounds (minimum p) (maximum p) p.value⟩

/-- `_set_up_sliders` (interactive_guess.py:159-187): sliders are stored under their parameter (here
its name; fixed parameters get one too). -/
def setUpSliders : List (Parameter K) → Dict String (Slider K) → Dict String (Slider K)
  | [], d => d
  | p :: l, d => setUpSliders l (Dict.set d p.name (mkSlider p))

/-- The loop over the parameters in `_update_plot` (interactive_guess.py:207-208). -/
def updateValues (sliders : Dict String (Slider K)) :
    List (Parameter K) → Except PyErr (List (Parameter K))
  | [] => .ok []
  | p :: l => match Dict.get! sliders p.name with
    | .error er => .error er
    | .ok s => match updateValues sliders l with
      | .error er => .error er
      | .ok r => .ok ({ p with value := s.val } :: r)

/-! ### The drawn curve -/

/-- `np.min`, `np.max` of data. -/
def listMin (a : K) (l : List K) : K := l.foldl min a
/-- See `listMin`. -/
def listMax (a : K) (l : List K) : K := l.foldl max a

/-- `np.linspace(start, stop, n)`. -/
def linspace (start stop : K) (n : Nat) : List K :=
  (List.range n).map (fun i : Nat => start + (i : K) * ((stop - start) / ((n - 1 : Nat) : K)))

/-- `self._x_points[v]` (interactive_guess.py:63-78) for data `a :: l`; `ode` is
`hasattr(self.model, 'initial')`. -/
def xPoints (ode : Bool) (n : Nat) (a : K) (l : List K) : List K :=
  let lo := listMin a l
  let hi := listMax a l
  linspace (if ode then lo else lo - 1 / 10 * (hi - lo)) (hi + 1 / 10 * (hi - lo)) n

/-- The rows of the table of all combinations, the last factor varying fastest. -/
def gridRows : List (List K) → List (List K)
  | [] => [[]]
  | l :: ls => l.flatMap (fun t => (gridRows ls).map (t :: ·))

/-- The first two axes exchanged. -/
def swapHead {α : Type} : List α → List α
  | a :: b :: l => b :: a :: l
  | l => l

variable [Inhabited K]

/-- The flattened arrays of `np.meshgrid(*pts)` (interactive_guess.py:79-80): with the default
`indexing='xy'` the first two axes are exchanged, and `flatten` lets the last axis vary fastest. -/
def meshgrid (pts : List (List K)) : List (List K) :=
  (List.range pts.length).map (fun i =>
    ((gridRows (swapHead pts)).map swapHead).map (fun r => r.getD i default))

/-- `self._x_grid` (interactive_guess.py:81-82), from `self._x_points`. -/
def xGrid (pts : Dict Sym (List K)) : Dict Sym (Arr K) :=
  (Dict.keys pts).zip ((meshgrid (Dict.values pts)).map Arr.ofList)

/-- What is drawn for one projection: a line, or points with vertical error bars (each from the first
point of its segment to the second). -/
inductive Drawing (K : Type)
  | line (x : List K) (y : Arr K)
  | bars (x y : List K) (segments : List ((K × K) × (K × K)))

/-- What does not change: the model (called by keyword), `_x_grid`, `_projections`, and the methods
`plot_model` and `update_plot` of the strategy, given the evaluated model. -/
structure Setup (K : Type) where
  call : Dict String (Arr K) → Except PyErr (ModelOutput (Arr K))
  grid : Dict Sym (Arr K)
  projections : List (Sym × Sym)
  plotModel : Sym × Sym → ModelOutput (Arr K) → Except PyErr (Drawing K)
  update : Sym × Sym → ModelOutput (Arr K) → Except PyErr (Drawing K)

/-! #### `Strategy2D` -/

/-- `Strategy2D.plot_model` (interactive_guess.py:248-256).  `ax.plot` raises `ValueError` if the
lengths differ. -/
def plot2D (pts : Dict Sym (List K)) (q : Sym × Sym) (out : ModelOutput (Arr K)) :
    Except PyErr (Drawing K) :=
  match out.getattr q.2.name with
  | .error er => .error er
  | .ok v => match Dict.get! pts q.1 with
    | .error er => .error er
    | .ok xs => if v.shape = [xs.length] then .ok (.line xs v) else .error .valueError

/-- `Strategy2D.update_plot` (interactive_guess.py:258-266).  `set_data` does not look at the
lengths. -/
def update2D (pts : Dict Sym (List K)) (q : Sym × Sym) (out : ModelOutput (Arr K)) :
    Except PyErr (Drawing K) :=
  match out.getattr q.2.name with
  | .error er => .error er
  | .ok v => match Dict.get! pts q.1 with
    | .error er => .error er
    | .ok xs => .ok (.line xs v)

/-! #### `StrategynD` -/

/-- `np.mean`. -/
def mean (ys : List K) : K := ys.sum / (ys.length : K)

/-- The error bar at one point (interactive_guess.py:331-347): `y_error` are the percentiles of the
values `ys` of the model at that point (`lo`, `hi` are `np.percentile(ys, ..)`), and the segment drawn
is `y_plot_error + y_plot_data`. -/
def errorBar (lo hi : List K → K) (ys : List K) : K × K := (lo ys + mean ys, hi ys + mean ys)

/-- `StrategynD.plot_model` (interactive_guess.py:303-312).  `ax.errorbar` raises `ValueError` if the
lengths differ. -/
def plotND (grid : Dict Sym (Arr K)) (q : Sym × Sym) (out : ModelOutput (Arr K)) :
    Except PyErr (Drawing K) :=
  match out.getattr q.2.name with
  | .error er => .error er
  | .ok v => match Dict.get! grid q.1 with
    | .error er => .error er
    | .ok g => if v.shape = g.shape then
        .ok (.bars g.toList v.toList ((g.toList.zip v.toList).map (fun xy => (xy, xy))))
      else .error .valueError

/-- The loop over `_x_points` in `StrategynD.update_plot` (interactive_guess.py:330-340): `g` are the
grid's values of the independent variable, `v` those of the dependent variable.  `y_vals[idx_mask]`
raises `IndexError` if the lengths differ, `xs[0]` if nothing is selected. -/
def barsAt (lo hi : List K → K) (g v : Arr K) : List K → Except PyErr (List (K × K × (K × K)))
  | [] => .ok []
  | t :: l => if v.shape ≠ g.shape then .error .indexError
    else match (g.toList.zip v.toList).filter (fun xy => decide (xy.1 = t)) with
    | [] => .error .indexError
    | xy :: r => match barsAt lo hi g v l with
      | .error er => .error er
      | .ok bs => .ok ((xy.1, mean ((xy :: r).map Prod.snd),
          errorBar lo hi ((xy :: r).map Prod.snd)) :: bs)

/-- `StrategynD.update_plot` (interactive_guess.py:314-352). -/
def updateND (lo hi : List K → K) (pts : Dict Sym (List K)) (grid : Dict Sym (Arr K)) (q : Sym × Sym)
    (out : ModelOutput (Arr K)) : Except PyErr (Drawing K) :=
  match out.getattr q.2.name with
  | .error er => .error er
  | .ok v => match Dict.get! grid q.1 with
    | .error er => .error er
    | .ok g => match Dict.get! pts q.1 with
      | .error er => .error er
      | .ok xs => match barsAt lo hi g v xs with
        | .error er => .error er
        | .ok bs => .ok (.bars (bs.map (fun b => b.1)) (bs.map (fun b => b.2.1))
            (bs.map (fun b => ((b.1, b.2.2.1), (b.1, b.2.2.2)))))

/-- `_x_points` (interactive_guess.py:63-78) from the data `a :: l` of every independent variable. -/
def pointsOf (ode : Bool) (n : Nat) (data : Dict Sym (K × List K)) : Dict Sym (List K) :=
  data.map (fun vd => (vd.1, xPoints ode n vd.2.1 vd.2.2))

/-- The first part of `__init__` (interactive_guess.py:52-82): the strategy is chosen by the number of
independent variables; a projection is a pair of an independent and a dependent variable. -/
def mkSetup (call : Dict String (Arr K) → Except PyErr (ModelOutput (Arr K)))
    (pts : Dict Sym (List K)) (ys : List Sym) (lo hi : List K → K) : Setup K :=
  { call := call
    grid := xGrid pts
    projections := (Dict.keys pts).flatMap (fun x => ys.map (fun y => (x, y)))
    plotModel := if 1 < pts.length then plotND (xGrid pts) else plot2D pts
    update := if 1 < pts.length then updateND lo hi pts (xGrid pts) else update2D pts }

/-! #### All plots -/

/-- `_eval_model` (interactive_guess.py:212-220). -/
def evalModel (S : Setup K) (ps : List (Parameter K)) : Except PyErr (ModelOutput (Arr K)) :=
  S.call (Support.key2str Sym.name (Dict.update S.grid
    (ps.map (fun p => (Sym.par p.name, Arr.scalar p.value)))))

/-- A loop over the projections, with the method `f` of the strategy: `update_plot`
(interactive_guess.py:209-210) or `plot_model` (interactive_guess.py:132-157). -/
def drawAll (S : Setup K) (f : Sym × Sym → ModelOutput (Arr K) → Except PyErr (Drawing K))
    (ps : List (Parameter K)) : List (Sym × Sym) → Dict (Sym × Sym) (Drawing K) →
      Except PyErr (Dict (Sym × Sym) (Drawing K))
  | [], plots => .ok plots
  | q :: l, plots => match evalModel S ps with
    | .error er => .error er
    | .ok out => match f q out with
      | .error er => .error er
      | .ok d => drawAll S f ps l (Dict.set plots q d)

/-- The state of an `InteractiveGuess`. -/
structure State (K : Type) where
  params : List (Parameter K)
  sliders : Dict String (Slider K)
  plots : Dict (Sym × Sym) (Drawing K)

/-- `_update_plot` (interactive_guess.py:201-210). -/
def updatePlot (S : Setup K) (st : State K) : Except PyErr (State K) :=
  match updateValues st.sliders st.params with
  | .error er => .error er
  | .ok ps => match drawAll S S.update ps S.projections st.plots with
    | .error er => .error er
    | .ok plots => .ok ⟨ps, st.sliders, plots⟩

/-- `int(np.ceil(n ** 0.5))`: the smallest `k` with `n ≤ k * k`. -/
def ceilSqrt (n : Nat) : Nat := ((List.range (n + 1)).find? (fun k => decide (n ≤ k * k))).getD n

/-- The numbers of rows and columns of subplots for `n` projections (interactive_guess.py:124-127).
Without projections this divides by zero. -/
def layout (n : Nat) : Except PyErr (Nat × Nat) :=
  if ceilSqrt n = 0 then .error .other
  else .ok (ceilSqrt n, (n + ceilSqrt n - 1) / ceilSqrt n)

/-- The end of `__init__` (interactive_guess.py:95-97): the lines are drawn with the values the
parameters have, then the sliders are made and the callback is run. -/
def start (S : Setup K) (ps : List (Parameter K)) : Except PyErr (State K) :=
  match layout S.projections.length with
  | .error er => .error er
  | .ok _ => match drawAll S S.plotModel ps S.projections [] with
    | .error er => .error er
    | .ok plots => updatePlot S ⟨ps, setUpSliders ps [], plots⟩

/-- What can happen: the user drags a slider to a position, code calls `set_val` on a slider, code
assigns to the `value` of a parameter. -/
inductive Event (K : Type)
  | drag (name : String) (x : K)
  | setVal (name : String) (x : K)
  | assign (name : String) (x : K)

/-- `Slider.set_val` (matplotlib/widgets.py): any value is accepted; the observers are called. -/
def setVal (S : Setup K) (st : State K) (name : String) (s : Slider K) (x : K) :
    Except PyErr (State K) :=
  updatePlot S { st with sliders := Dict.set st.sliders name { s with val := x } }

/-- One event.  `Slider._update` (matplotlib/widgets.py) moves the position into the bounds and calls
`set_val` only if the value changes. -/
def step (S : Setup K) (st : State K) : Event K → Except PyErr (State K)
  | .drag name x => match Dict.get! st.sliders name with
    | .error er => .error er
    | .ok s => if inBounds s.valmin s.valmax x = s.val then .ok st
      else setVal S st name s (inBounds s.valmin s.valmax x)
  | .setVal name x => match Dict.get! st.sliders name with
    | .error er => .error er
    | .ok s => setVal S st name s x
  | .assign name x => .ok { st with
      params := st.params.map (fun p => if p.name = name then { p with value := x } else p) }

/-- A history. -/
def run (S : Setup K) : State K → List (Event K) → Except PyErr (State K)
  | st, [] => .ok st
  | st, e :: l => match step S st e with
    | .error er => .error er
    | .ok st' => run S st' l

end Verif.Guess
