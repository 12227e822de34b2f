import Verif.Model.DeltaFExt
import Verif.Model.Main
import Verif.Model.Text

/-
Rows and text of the delta F file with the infinities and nan of numpy, `delta_f_action.py:95-139`.

`Model/Main.lean` has the file with real values, which are those of the program if no state is empty. Here the same
storage (`Model/Series.lean`) is filled with the values of `Model/DeltaFExt.lean`.
-/

namespace Bdld

noncomputable section

/-- The configuration of the storage for the values of numpy. -/
def SeriesCfg.extended (c : SeriesCfg ℝ) : SeriesCfg XReal where
  stride := c.stride
  writeStride := c.writeStride
  hasFile := c.hasFile
  timeCol := fun t => .fin (c.timeCol t)

/-- `self.calculate_delta_f()`, `delta_f_action.py:105` and 112. -/
def deltaFValsX (f : DeltaFCfg) (fes : Nd (WithTop ℝ)) : List XReal :=
  (calculateDeltaFX fes f.kt f.masks).toOption.getD []

/-- The delta F action in a simulation in which the FES is `fes t` in step `t` and `fesEnd` at the end; `garbage` is the
content of `np.empty`. -/
def deltaFSeriesX (f : DeltaFCfg) (fes : Nat → Nd (WithTop ℝ)) (fesEnd : Nd (WithTop ℝ)) (n : Nat)
    (garbage : Nat → List XReal) : Except PyErr (SeriesState XReal) :=
  SeriesState.simulate f.series.extended (fun t => deltaFValsX f (fes t)) (deltaFValsX f fesEnd) n
    (SeriesState.init f.series.extended garbage)

/-- `"%w.pf" % x` without padding. -/
def bareX (p : Nat) : XReal → List Char
  | .fin x => fixedSigned p x
  | .inf true => ['-', 'i', 'n', 'f']
  | .inf false => ['i', 'n', 'f']
  | .nan => ['n', 'a', 'n']

/-- `"%w.pf" % x`. -/
def fmtX (w p : Nat) (x : XReal) : List Char := padLeft w (bareX p x)

/-- Text of a time series, `delta_f_action.py:80-85` and 131-139. -/
def seriesTextX (w p : Nat) (fields : List String) (constants : List (String × String)) (rows : List (List XReal)) :
    List Char :=
  headerText (initHeader fields constants) ++
    rows.flatMap (fun r => [' '].intercalate (r.map (fmtX w p)) ++ ['\n'])

end

end Bdld
