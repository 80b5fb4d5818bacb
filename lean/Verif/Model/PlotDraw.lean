import Verif.Model.PartialDependency
import Mathlib.Analysis.SpecialFunctions.Log.Basic
import Mathlib.Analysis.SpecialFunctions.Pow.Real

/-!
# Model of the drawing in `plot_partial_dependency` (`/repo/gbdt/_partial_dependency_plot.py`)

`Model/PartialDependency.lean` gives the differences of scores; here is what is drawn.  The arithmetic is exact.  Titles, colours and the zero line are
left out.
-/

set_option autoImplicit false

namespace Gbdt

/-- `np.mean` (`_partial_dependency_plot.py:39, 46`); the mean of nothing, which is NaN, does not arise. -/
noncomputable def plotMean (l : List ℝ) : ℝ := l.sum / l.length

/-- `np.std` (`_partial_dependency_plot.py:39, 46`): the deviation of the population. -/
noncomputable def plotStd (l : List ℝ) : ℝ := Real.sqrt ((l.map (fun d => (d - plotMean l) ^ 2)).sum / l.length)

/-- What is drawn at a value: the curve and the band (`_partial_dependency_plot.py:69-70`). -/
structure CurvePoint where
  x : ℝ
  mean : ℝ
  lower : ℝ
  upper : ℝ

/-- The drawing of `plot_float_feature` (`_partial_dependency_plot.py:58-70`). -/
noncomputable def drawCurve (logScale : Bool) (out : List (ℝ × List ℝ)) : List CurvePoint :=
  let stats := out.map (fun p => (plotMean p.2, plotStd p.2))
  let lower := stats.map (fun p => p.1 - 1.96 * p.2)
  let upper := stats.map (fun p => p.1 + 1.96 * p.2)
  let x := if logScale then out.map (fun p => Real.log p.1) else out.map Prod.fst
  List.zipWith (fun xm b => ⟨xm.1, xm.2, b.1, b.2⟩) (x.zip (stats.map Prod.fst)) (lower.zip upper)

/-- What `plot_categorical_features` draws (`_partial_dependency_plot.py:83-96`): the labels under the axis, and height and error of the bars. -/
structure BarChart where
  labels : List String
  bars : List (ℝ × ℝ)

/-- `a[order]` (`_partial_dependency_plot.py:93, 95`); indices that do not exist do not arise. -/
def takeAll {α : Type} (l : List α) (order : List Nat) : List α := order.filterMap (fun i => l[i]?)

/-- The drawing of `plot_categorical_features` (`_partial_dependency_plot.py:83-96`); `argsort` is that of numpy. -/
noncomputable def drawBars (argsort : List ℝ → List Nat) (out : List (String × List ℝ)) : BarChart :=
  let means := out.map (fun p => plotMean p.2)
  let stds := out.map (fun p => plotStd p.2)
  let order := argsort means
  ⟨takeAll (out.map Prod.fst) order, (takeAll means order).zip (takeAll stds order)⟩

end Gbdt
