import Verif.Model.Fes

/-
Model of the plots of the FES: `FesAction.plot` and `plot_fes` (`bdld/actions/fes_action.py:161-183, 211-287`) up to
the data that are handed to matplotlib, and the name and format of the file.

Contracts of matplotlib: `plot` raises `ValueError` for different lengths, `set_ylim` unpacks a list of two limits,
and `savefig` takes the format from the extension of the file name (default if there is none) and raises `ValueError`
for an unsupported one. Then `save_fig_interactive` asks for another name; without a terminal `input()` raises
`EOFError`, which nobody catches. With a terminal the user is assumed to answer sooner or later.
-/

namespace Bdld

/-- `f"{filename}_{step}"`. -/
def stepFilename (name : String) (step : Nat) : String := name ++ "_" ++ Nat.repr step

/-- `os.path.splitext(p)[1]`: the part of the last component from its last dot on; dots at its beginning do not
count. -/
def fileExtension (p : List Char) : List Char :=
  let stem := ((p.reverse.takeWhile (· ≠ '/')).reverse).dropWhile (· = '.')
  if '.' ∈ stem then '.' :: (stem.reverse.takeWhile (· ≠ '.')).reverse else []

/-- Does `savefig` know the format of this file name? (`Char.toLower` stands for `str.lower`.) -/
def saveable (formats : List String) (name : String) : Bool :=
  let format := (fileExtension name.toList).drop 1
  decide (format = []) || formats.any (fun f => decide (f.toList = format.map Char.toLower))

noncomputable section

/-- What is drawn: a line, or an image with the limits of the two axes and of the colours. The first row of an image
is at the bottom (`origin="lower"`). -/
inductive Artist where
  | line (label : String) (x : List ℝ) (y : List (WithTop ℝ))
  | image (rows : List (List (WithTop ℝ))) (xlim ylim : ℝ × ℝ) (clim : Option (ℝ × ℝ))

structure Figure where
  artists : List Artist
  ylim : Option (ℝ × ℝ)
  title : Option String

/-- Unpacking of two limits. -/
def twoLimits : List ℝ → Except PyErr (ℝ × ℝ)
  | [a, b] => .ok (a, b)
  | _ => .error .valueError

/-- `np.where(np.isinf(fes), 0, fes).max()`, `fes_action.py:245`. -/
def finiteMax : List (WithTop ℝ) → Except PyErr ℝ
  | [] => .error .valueError
  | x :: xs => .ok ((xs.map (fun v => v.untopD 0)).foldl max (x.untopD 0))

/-- Limits of the ordinate of a line plot, `fes_action.py:242-246`. -/
def plotLimits (fes : List (WithTop ℝ)) (domain : Option (List ℝ)) : Except PyErr (ℝ × ℝ) :=
  match domain with
  | some l => twoLimits l
  | none => do
    let m ← finiteMax fes
    return (-0.05 * m, 1.05 * m)

/-- Limits of the colours, `fes_action.py:248-252`: only the `TypeError` for `None` is caught. -/
def colourLimits (domain : Option (List ℝ)) : Except PyErr (Option (ℝ × ℝ)) :=
  match domain with
  | some l => do return some (← twoLimits l)
  | none => .ok none

/-- First and last value of an axis. -/
def axisLimits (a : List ℝ) : ℝ × ℝ := (a.headD 0, a.getLastD 0)

/-- `plot_fes`, `fes_action.py:211-260`, for a given reference. More than two dimensions give an empty figure. -/
def plotFes (fes : Nd (WithTop ℝ)) (axes : List (List ℝ)) (ref : List ℝ) (domain : Option (List ℝ))
    (title : String) : Except PyErr Figure :=
  match fes.shape, axes with
  | [_], [] => .error .indexError
  | [_], x :: _ =>
    if x.length ≠ ref.length ∨ x.length ≠ fes.flat.length then .error .valueError
    else do
      let ylim ← plotLimits fes.flat domain
      return ⟨[.line "ref" x (ref.map (fun v => ((v : ℝ) : WithTop ℝ))), .line "FES" x fes.flat], some ylim, some title⟩
  | [_, _], [] => .error .indexError
  | [n, m], x :: axes => do
    let clim ← colourLimits domain
    let rows := (List.range n).map (fun i => (fes.flat.drop (i * m)).take m)
    return ⟨[.image rows (axisLimits x) (axisLimits (axes.getLastD x)) clim], none, none⟩
  | _, _ => .ok ⟨[], none, none⟩

/-- Constants of the plots, `fes_action.py:107-111`, with the formats known to matplotlib and whether the program
runs in a terminal. -/
structure PlotCfg where
  filename : Option String
  stride : Option Int
  domain : Option (List ℝ)
  title : String
  ref : List ℝ
  formats : List String
  terminal : Bool

/-- A plot: name of the file, figure, and whether another name was asked for. -/
structure PlotOut where
  name : String
  figure : Figure
  asked : Bool

/-- `FesAction.plot`, `fes_action.py:161-183`, and the end of `plot_fes`, lines 261-270. `step = None` and `step = 0`
are falsy. -/
def fesPlot (c : PlotCfg) (step : Option Nat) (fes : Nd (WithTop ℝ)) (axes : List (List ℝ)) (plots : List PlotOut) :
    Except PyErr (List PlotOut) :=
  if c.filename.getD "" = "" then .ok plots
  else do
    let name := c.filename.getD ""
    let name := if truthyNat step then stepFilename name (step.getD 0) else name
    let title := if truthyNat step then stepFilename c.title (step.getD 0) else c.title
    let figure ← plotFes fes axes c.ref c.domain title
    if saveable c.formats name then return plots ++ [⟨name, figure, false⟩]
    if c.terminal then return plots ++ [⟨name, figure, true⟩]
    throw .eofError

/-- `self.plot(step)` at multiples of the plot stride, `fes_action.py:135-136`; the stride can be negative. -/
def fesPlotStride (c : PlotCfg) (step : Nat) (fes : Nd (WithTop ℝ)) (axes : List (List ℝ)) (plots : List PlotOut) :
    Except PyErr (List PlotOut) :=
  if c.stride.getD 0 ≠ 0 ∧ pyMod step (c.stride.getD 0) = 0 then fesPlot c (some step) fes axes plots
  else .ok plots

/-- The reference for the plots, `main.py:335-337`. -/
def fesReference {d : Nat} (p : Potential ℝ d) (h : Histogram ℝ) : Except PyErr (List ℝ) := do
  let pts ← pointsOfAxes h.axes
  calculateReference p (pts.map (fun q k => q.getD k 0)) true

end

end Bdld
