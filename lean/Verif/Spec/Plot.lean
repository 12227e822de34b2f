import Verif.Model.Plot
import Verif.Spec.Fes
import Verif.Spec.Options

/-
What a plot of the FES should show.
-/

namespace Bdld.Spec

/-- Limits of a plot: the two given values, or none given. -/
def LimitsGiven (o : Dict (OptVal ℝ)) (limits : Option (ℝ × ℝ)) : Prop :=
  ∀ lo hi, o.get? "plot-domain" = some (.list [.float lo, .float hi]) → limits = some (lo, hi)

/-- Plot of a FES in one dimension: the potential with its minimum at zero and the FES, both over the bin centres. The
limits are the given ones; without them all finite values of the FES are visible. -/
structure LinePlot (o : Dict (OptVal ℝ)) (centres : List ℝ) (energy : ℝ → ℝ) (fes : List (WithTop ℝ)) (title : String)
    (g : Figure) : Prop where
  drawn : ∃ m, (∃ x ∈ centres, energy x = m) ∧ (∀ x ∈ centres, m ≤ energy x) ∧
    g.artists = [.line "ref" centres (centres.map (fun x => ((energy x - m : ℝ) : WithTop ℝ))),
      .line "FES" centres fes]
  given : LimitsGiven o g.ylim
  visible : o.get? "plot-domain" = some .none → ∃ lo hi, g.ylim = some (lo, hi) ∧
    ∀ v : ℝ, (v : WithTop ℝ) ∈ fes → lo ≤ v ∧ v ≤ hi
  title : g.title = some title

/-- Plot of a FES in two dimensions: an image whose rows are the bins of the first dimension, between the first and
last bin centres. -/
structure ImagePlot (o : Dict (OptVal ℝ)) (x y : List ℝ) (value : Nat → Nat → WithTop ℝ) (g : Figure) : Prop where
  drawn : ∃ clim, LimitsGiven o clim ∧ g.artists = [.image ((List.range x.length).map (fun i =>
    (List.range y.length).map (value i))) (x.headD 0, x.getLastD 0) (y.headD 0, y.getLastD 0) clim]

/-- A saved plot of the FES of a histogram. -/
structure IsPlot {d : Nat} (o : Dict (OptVal ℝ)) (pot : Potential ℝ d) (kt : ℝ) (formats : List String)
    (terminal : Bool) (h : Histogram ℝ) (name title : String) (p : PlotOut) : Prop where
  hasName : p.name = name
  asked : p.asked = !saveable formats name
  terminal : p.asked = true → terminal = true
  one : ∀ edges, h.bins = [edges] → LinePlot o (binCenters edges) (fun x => pot.energy (fun _ => x))
    ((List.range (edges.length - 1)).map (fun i => freeEnergy kt (maxCount h.counts.flat) (h.data [i]))) title p.figure
  two : ∀ e1 e2, h.bins = [e1, e2] → ImagePlot o (binCenters e1) (binCenters e2)
    (fun i j => freeEnergy kt (maxCount h.counts.flat) (h.data [i, j])) p.figure
  more : 3 ≤ h.bins.length → p.figure.artists = []

end Bdld.Spec
