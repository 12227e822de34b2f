import Verif.Props.MainPlots

/-
C97: where the image of a two-dimensional FES shows the value of a bin.
-/

namespace Bdld

open Spec

namespace Spec

/-- Cell `k` of `m` equal cells between two limits contains the coordinate `p`. -/
def InCell (limits : ℝ × ℝ) (m k : Nat) (p : ℝ) : Prop :=
  k < m ∧ limits.1 + k * ((limits.2 - limits.1) / m) ≤ p ∧ p ≤ limits.1 + (k + 1) * ((limits.2 - limits.1) / m)

/-- An image shows the value `v` at the point `(p, q)`: the point is on a pixel, and every pixel that contains it has
this value. Rows of pixels are stacked from bottom to top, the pixels of a row lie from left to right. -/
def ShowsAt : Artist → ℝ → ℝ → WithTop ℝ → Prop
  | .line .., _, _, _ => False
  | .image rows xlim ylim _, p, q, v =>
    (∃ r c, InCell ylim rows.length r q ∧ InCell xlim (rows.headD []).length c p) ∧
      ∀ r c, InCell ylim rows.length r q → InCell xlim (rows.headD []).length c p →
        (rows[r]?).bind (fun row => row[c]?) = some v

end Spec

/-- Centre of bin `i` of `n` bins. -/
noncomputable def centre (lo hi : ℝ) (n i : Nat) : ℝ := lo + ((i : ℝ) + 1 / 2) * ((hi - lo) / n)

/-- The limits of the axes are the first and the last bin centre. -/
theorem centres_limits (lo hi : ℝ) (n : Nat) (hn : 0 < n) :
    ((binCenters (linEdges lo hi n)).headD 0, (binCenters (linEdges lo hi n)).getLastD 0) =
      (centre lo hi n 0, centre lo hi n (n - 1)) := by
  have h1 := binCenters_linEdges lo hi n 0 hn
  have h2 := binCenters_linEdges lo hi n (n - 1) (by omega)
  rw [List.headD_eq_head?_getD, List.head?_eq_getElem?, h1, List.getLastD_eq_getLast?, List.getLast?_eq_getElem?,
    binCenters_length, h2]
  rfl

/-- Although the image lies between the outermost bin centres, every bin centre is in its own cell only. -/
theorem inCell_centre (lo hi : ℝ) (hlt : lo < hi) (n : Nat) (hn : 2 ≤ n) (i : Nat) (hi' : i < n) (k : Nat) :
    InCell (centre lo hi n 0, centre lo hi n (n - 1)) n k (centre lo hi n i) ↔ k = i := by
  have hn0 : (0 : ℝ) < n := by exact_mod_cast (by omega : 0 < n)
  have hw : 0 < (hi - lo) / n := div_pos (by linarith) hn0
  have hsub : ((n - 1 : Nat) : ℝ) = (n : ℝ) - 1 := by rw [Nat.cast_sub (by omega), Nat.cast_one]
  unfold InCell centre
  simp only [hsub, Nat.cast_zero]
  generalize (hi - lo) / (n : ℝ) = w at hw
  have e : (lo + ((n : ℝ) - 1 + 1 / 2) * w - (lo + (0 + 1 / 2) * w)) / n = (n - 1) * w / n := by ring_nf
  rw [e]
  have key1 : lo + (0 + 1 / 2) * w + k * (((n : ℝ) - 1) * w / n) ≤ lo + ((i : ℝ) + 1 / 2) * w ↔ k * (n - 1) ≤ i * n := by
    have h1 : (k : ℝ) * (((n : ℝ) - 1) * w / n) = (k * ((n : ℝ) - 1)) * w / n := by ring
    constructor
    · intro h
      have h2 : ((k : ℝ) * ((n : ℝ) - 1)) * w / n ≤ i * w := by rw [← h1]; linarith
      rw [div_le_iff₀ hn0] at h2
      have h3 : ((k : ℝ) * ((n : ℝ) - 1)) * w ≤ (i * n) * w := by linarith
      have h4 := le_of_mul_le_mul_right h3 hw
      rw [← hsub] at h4
      exact_mod_cast h4
    · intro h
      have h4 : (k : ℝ) * ((n : ℝ) - 1) ≤ i * n := by rw [← hsub]; exact_mod_cast h
      have h3 := mul_le_mul_of_nonneg_right h4 hw.le
      have h2 : ((k : ℝ) * ((n : ℝ) - 1)) * w / n ≤ i * w := by rw [div_le_iff₀ hn0]; linarith
      rw [h1]; linarith
  have key2 : lo + ((i : ℝ) + 1 / 2) * w ≤ lo + (0 + 1 / 2) * w + (k + 1) * (((n : ℝ) - 1) * w / n) ↔
      i * n ≤ (k + 1) * (n - 1) := by
    have h1 : ((k : ℝ) + 1) * (((n : ℝ) - 1) * w / n) = ((k + 1) * ((n : ℝ) - 1)) * w / n := by ring
    constructor
    · intro h
      have h2 : i * w ≤ (((k : ℝ) + 1) * ((n : ℝ) - 1)) * w / n := by rw [← h1]; linarith
      rw [le_div_iff₀ hn0] at h2
      have h3 : (i * n : ℝ) * w ≤ (((k : ℝ) + 1) * ((n : ℝ) - 1)) * w := by linarith
      have h4 := le_of_mul_le_mul_right h3 hw
      rw [← hsub] at h4
      exact_mod_cast h4
    · intro h
      have h4 : (i * n : ℝ) ≤ ((k : ℝ) + 1) * ((n : ℝ) - 1) := by rw [← hsub]; exact_mod_cast h
      have h3 := mul_le_mul_of_nonneg_right h4 hw.le
      have h2 : i * w ≤ (((k : ℝ) + 1) * ((n : ℝ) - 1)) * w / n := by rw [le_div_iff₀ hn0]; linarith
      rw [h1]; linarith
  rw [key1, key2]
  obtain ⟨m, rfl⟩ : ∃ m, n = m + 1 := ⟨n - 1, by omega⟩
  simp only [Nat.add_sub_cancel]
  constructor
  · rintro ⟨h1, h2, h3⟩
    rcases lt_trichotomy k i with h | h | h
    · have : (k + 1) * m ≤ i * m := Nat.mul_le_mul_right m h
      have : i * (m + 1) = i * m + i := by ring
      omega
    · exact h
    · have : (i + 1) * m ≤ k * m := Nat.mul_le_mul_right m h
      have h4 : i * (m + 1) = i * m + i := by ring
      have h5 : (i + 1) * m = i * m + m := by ring
      omega
  · rintro rfl
    refine ⟨hi', ?_, ?_⟩
    · have : k * (m + 1) = k * m + k := by ring
      omega
    · have h4 : k * (m + 1) = k * m + k := by ring
      have h5 : (k + 1) * m = k * m + m := by ring
      omega

/-- The image of a FES with as many bins in both dimensions: at the centre of bin `(i, j)` it shows the value of bin
`(j, i)`. -/
theorem image_shows {o : Dict (OptVal ℝ)} (lo1 hi1 lo2 hi2 : ℝ) (h1 : lo1 < hi1) (h2 : lo2 < hi2) (n : Nat)
    (hn : 2 ≤ n) (value : Nat → Nat → WithTop ℝ) (g : Figure)
    (hg : ImagePlot o (binCenters (linEdges lo1 hi1 n)) (binCenters (linEdges lo2 hi2 n)) value g)
    (i j : Nat) (hi : i < n) (hj : j < n) :
    ∃ im, g.artists = [im] ∧ ∀ v, ShowsAt im (centre lo1 hi1 n i) (centre lo2 hi2 n j) v ↔ v = value j i := by
  obtain ⟨clim, _, hd⟩ := hg.drawn
  refine ⟨_, hd, ?_⟩
  rw [binCenters_length, binCenters_length, centres_limits _ _ _ (by omega), centres_limits _ _ _ (by omega)]
  have hlen : ((List.range n).map (fun i => (List.range n).map (value i))).length = n := by simp
  have hhead : (((List.range n).map (fun i => (List.range n).map (value i))).headD []).length = n := by
    obtain ⟨m, rfl⟩ : ∃ m, n = m + 1 := ⟨n - 1, by omega⟩
    rw [List.range_succ_eq_map]
    simp
  have hval : (((List.range n).map (fun i => (List.range n).map (value i)))[j]?).bind (fun row => row[i]?) =
      some (value j i) := by
    simp [List.getElem?_range hi, List.getElem?_range hj]
  intro v
  simp only [ShowsAt]
  rw [hlen, hhead]
  have c1 := inCell_centre lo1 hi1 h1 n hn i hi
  have c2 := inCell_centre lo2 hi2 h2 n hn j hj
  constructor
  · intro h
    have := h.2 j i ((c2 j).2 rfl) ((c1 i).2 rfl)
    rw [hval] at this
    exact (Option.some.inj this).symm
  · rintro rfl
    refine ⟨⟨j, i, (c2 j).2 rfl, (c1 i).2 rfl⟩, fun r c hr hc => ?_⟩
    rw [(c2 r).1 hr, (c1 c).1 hc]
    exact hval

/-- **C97**, partial: for a FES that does not change when its two dimensions are exchanged the image shows the value of
every bin at its centre. -/
theorem image_correct_partial {o : Dict (OptVal ℝ)} (lo1 hi1 lo2 hi2 : ℝ) (h1 : lo1 < hi1) (h2 : lo2 < hi2) (n : Nat)
    (hn : 2 ≤ n) (value : Nat → Nat → WithTop ℝ) (g : Figure)
    (hg : ImagePlot o (binCenters (linEdges lo1 hi1 n)) (binCenters (linEdges lo2 hi2 n)) value g)
    (hs : ∀ i j, i < n → j < n → value i j = value j i) (i j : Nat) (hi : i < n) (hj : j < n) :
    ∃ im, g.artists = [im] ∧ ShowsAt im (centre lo1 hi1 n i) (centre lo2 hi2 n j) (value i j) := by
  obtain ⟨im, e1, e2⟩ := image_shows lo1 hi1 lo2 hi2 h1 h2 n hn value g hg i j hi hj
  exact ⟨im, e1, (e2 _).2 (hs i j hi hj)⟩

/-- Only then. -/
theorem image_correct_iff {o : Dict (OptVal ℝ)} (lo1 hi1 lo2 hi2 : ℝ) (h1 : lo1 < hi1) (h2 : lo2 < hi2) (n : Nat)
    (hn : 2 ≤ n) (value : Nat → Nat → WithTop ℝ) (g : Figure)
    (hg : ImagePlot o (binCenters (linEdges lo1 hi1 n)) (binCenters (linEdges lo2 hi2 n)) value g) :
    (∀ i j, i < n → j < n → ∃ im, g.artists = [im] ∧
      ShowsAt im (centre lo1 hi1 n i) (centre lo2 hi2 n j) (value i j)) ↔
      ∀ i j, i < n → j < n → value i j = value j i := by
  constructor
  · intro h i j hi hj
    obtain ⟨im, e1, e2⟩ := h i j hi hj
    obtain ⟨im', e3, e4⟩ := image_shows lo1 hi1 lo2 hi2 h1 h2 n hn value g hg i j hi hj
    rw [e1] at e3
    cases e3
    exact (e4 _).1 e2
  · intro h i j hi hj
    exact image_correct_partial lo1 hi1 lo2 hi2 h1 h2 n hn value g hg h i j hi hj

/-! ### Examples -/

/-- Bins 0, 1, 2 in both dimensions with the given counts. -/
noncomputable def demoSquare (data : List Nat → Nat) : Histogram ℝ := ⟨[linEdges 0 2 2, linEdges 0 2 2], data⟩

theorem demoSquare_plot (data : List Nat → Nat) : ∃ g, plotFes ((demoSquare data).counts.map
    (freeEnergy 1 (maxCount (demoSquare data).counts.flat))) (demoSquare data).axes [] none "" = .ok g ∧
      ImagePlot [] (binCenters (linEdges 0 2 2)) (binCenters (linEdges 0 2 2))
        (fun i j => freeEnergy 1 (maxCount (demoSquare data).counts.flat) (data [i, j])) g := by
  have h1 : ∃ g, plotFes ((demoSquare data).counts.map (freeEnergy 1 (maxCount (demoSquare data).counts.flat)))
      (demoSquare data).axes [] none "" = .ok g := by
    have hsh : ((demoSquare data).counts.map (freeEnergy 1 (maxCount (demoSquare data).counts.flat))).shape = [2, 2] :=
      rfl
    have hax : (demoSquare data).axes = [binCenters (linEdges 0 2 2), binCenters (linEdges 0 2 2)] := rfl
    simp only [plotFes, hsh, hax, colourLimits, ok_bind, pure_eq_ok]
    exact ⟨_, rfl⟩
  obtain ⟨g, hg⟩ := h1
  exact ⟨g, hg, plotFes_two [] 1 (demoSquare data) _ _ rfl [] none (fun _ _ h => by cases h) "" g hg⟩

/-- Counts 1 in all bins but (0, 1), which is empty. -/
def demoSkew (idx : List Nat) : Nat := if idx = [0, 1] then 0 else 1

/-- **C97** is false: the empty bin (0, 1) has an infinite FES, but the image shows 0 at its centre. -/
theorem image_correct_false : ¬ ∀ (h : Histogram ℝ) (n : Nat) (lo1 hi1 lo2 hi2 kt : ℝ) (ref : List ℝ) (title : String)
    (g : Figure), lo1 < hi1 → lo2 < hi2 → 2 ≤ n → 0 < kt → h.bins = [linEdges lo1 hi1 n, linEdges lo2 hi2 n] →
    plotFes (h.counts.map (freeEnergy kt (maxCount h.counts.flat))) h.axes ref none title = .ok g →
    ∀ i j, i < n → j < n → ∃ im, g.artists = [im] ∧ ShowsAt im (centre lo1 hi1 n i) (centre lo2 hi2 n j)
      (freeEnergy kt (maxCount h.counts.flat) (h.data [i, j])) := by
  intro h
  obtain ⟨g, hg, hi⟩ := demoSquare_plot demoSkew
  have h1 := h (demoSquare demoSkew) 2 0 2 0 2 1 [] "" g (by norm_num) (by norm_num) (le_refl 2) one_pos rfl hg
  have h2 := (image_correct_iff 0 2 0 2 (by norm_num) (by norm_num) 2 (le_refl 2) _ g hi).1 h1 0 1 (by norm_num)
    (by norm_num)
  simp [freeEnergy, demoSkew] at h2

/-- `image_correct_partial` for a symmetric histogram. -/
example : ∃ g im, plotFes ((demoSquare (fun idx => if idx = [0, 0] then 1 else 2)).counts.map
    (freeEnergy 1 (maxCount (demoSquare (fun idx => if idx = [0, 0] then 1 else 2)).counts.flat)))
      (demoSquare (fun idx => if idx = [0, 0] then 1 else 2)).axes [] none "" = .ok g ∧ g.artists = [im] ∧
    ShowsAt im (centre 0 2 2 0) (centre 0 2 2 0) ((Real.log 2 : ℝ) : WithTop ℝ) := by
  obtain ⟨g, hg, hi⟩ := demoSquare_plot (fun idx => if idx = [0, 0] then 1 else 2)
  have hm : maxCount (demoSquare (fun idx => if idx = [0, 0] then 1 else 2)).counts.flat = 2 := by
    simp [demoSquare, Histogram.counts, Nd.ofFn, Histogram.shape, linEdges, indices, List.range, List.range.loop,
      maxCount]
  rw [hm] at hi
  obtain ⟨im, e1, e2⟩ := image_correct_partial 0 2 0 2 (by norm_num) (by norm_num) 2 (le_refl 2) _ g hi
    (fun i j _ _ => by rcases i with _ | i <;> rcases j with _ | j <;> simp) 0 0 (by norm_num) (by norm_num)
  refine ⟨g, im, hg, e1, ?_⟩
  simpa [freeEnergy] using e2

end Bdld
