/-
What a plot of a fit should show, independently of the code.
-/
import Verif.Model.FitPlot

namespace Verif.FitPlot

/-- The columns of a statistic have one entry per bin. -/
def Stat.Whole (s : Stat) : Prop := s.mu.length = s.k.length ∧ s.power.length = s.k.length ∧ s.error.length = s.k.length

/-- `parts` are the theory predictions, one list per statistic and one number per bin. -/
def Predicts (parts : List (List ℝ)) (stats : List Stat) : Prop := parts.map List.length = stats.map fun s => s.k.length

/-- A theory curve and a data curve show statistic `s` with prediction `t`: same abscissae, the k of its bins; one point per bin; and the
distance of every data point from the theory, in units of its error bar, is that of the data from the prediction in units of the error. -/
def ShowsFit {Col : Type} (s : Stat) (t : List ℝ) (ct cd : Curve Col) : Prop :=
  ct.x = s.k ∧ cd.x = s.k ∧ ct.y.length = s.k.length ∧ cd.y.length = s.k.length ∧ cd.err.length = s.k.length ∧
  ∀ j, j < s.k.length → (cd.y.getD j 0 - ct.y.getD j 0) / cd.err.getD j 0 = (s.power.getD j 0 - t.getD j 0) / s.error.getD j 0

end Verif.FitPlot
