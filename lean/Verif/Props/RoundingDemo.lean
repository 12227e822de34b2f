import Verif.Props.RoundingRates
import Mathlib.Analysis.Real.Pi.Bounds

/-
Example for C110 and C111: two walkers in a harmonic potential, computed with 53 digits.
-/

namespace Bdld
open Spec

noncomputable section

/-- The error bounds of the rates for positions exact up to 1e-12: energy of the spring. -/
def springEnergy (e : ℝ) : Bnd := ((Bnd.exact (1 / 2)).mul 1e-15 0 ⟨e, 2⟩).mul 1e-15 0 ⟨e, 2⟩

/-- Bandwidth 1, kT = 1, time step 0.01, rate factor 100, positions up to 2. -/
def demoBnd : RateBnd where
  height := Bnd.exact 0.4
  width := Bnd.exact 2
  widthLo := 2
  pref := Bnd.exact 0.4
  invKt := Bnd.exact 1
  dt := Bnd.exact 0.01
  rateFac := Bnd.exact 100
  X := 2
  energy := springEnergy
  approx := fun _ => Bnd.exact 0
  lo := 0.15
  M := 2

theorem demo_dist : demoBnd.dist (1e-15) (1e-12) = ⟨1002000000000001/500000000000000000000000000, 4⟩ := by
  rw [RateBnd.dist]
  simp only [demoBnd, Bnd.add, Bnd.mk.injEq]
  norm_num

theorem demo_sq : demoBnd.sq (1e-15) 0 (1e-12) = ⟨4012000000001012012000000003012004000000003004000000000001/250000000000000000000000000000000000000000000000000000000000000000000, 16⟩ := by
  rw [RateBnd.sq, demo_dist]
  simp only [Bnd.mul, Bnd.mk.injEq]
  norm_num

theorem demo_arg : demoBnd.arg (1e-15) 0 (1e-12) = ⟨4016000000001016024000000004024016000000006016004000000004004000000000001/500000000000000000000000000000000000000000000000000000000000000000000000000000000000, 8⟩ := by
  rw [RateBnd.arg, demo_sq]
  simp only [demoBnd, Bnd.quot, Bnd.exact, Bnd.mk.injEq]
  norm_num

theorem demo_gauss : demoBnd.gauss (1e-15) 0 (1e-15) (1e-12) = ⟨12049000000003060120500000015120120000000030120060000000030060012000000015012000000000003/1250000000000000000000000000000000000000000000000000000000000000000000000000000000000000000000000000, 2/5⟩ := by
  rw [RateBnd.gauss, demo_arg]
  simp only [demoBnd, Bnd.mul, Bnd.exp, Bnd.exact, Bnd.mk.injEq]
  norm_num

theorem demo_kernel : demoBnd.kernel (1e-15) 0 (1e-15) 1 2 (1e-12) = ⟨12049000000003060120500000015120120000000030120060000000030060012000000015012000000000003/1250000000000000000000000000000000000000000000000000000000000000000000000000000000000000000000000000, 2/5⟩ := by
  rw [RateBnd.kernel, if_pos (by norm_num), demo_gauss]
  rfl

theorem demo_sum : (demoBnd.kernel (1e-15) 0 (1e-15) 1 2 (1e-12)).sum (1e-15) 2 = ⟨12049500000003072169500000018180240500000045240180000000060180072000000045072012000000018012000000000003/625000000000000000000000000000000000000000000000000000000000000000000000000000000000000000000000000000000000000000, 4/5⟩ := by
  rw [demo_kernel]
  simp only [Bnd.sum, Bnd.mk.injEq]
  norm_num

theorem demo_density : demoBnd.density (1e-15) 0 (1e-15) 1 2 (1e-12) = ⟨12050000000003084219000000021252410000000063420420500000105420252000000105252084000000063084012000000021012000000000003/1250000000000000000000000000000000000000000000000000000000000000000000000000000000000000000000000000000000000000000000000000000000, 2/5⟩ := by
  rw [RateBnd.density, demo_sum]
  simp only [Bnd.div, Bnd.mk.injEq]
  norm_num

theorem demo_log : (demoBnd.density (1e-15) 0 (1e-15) 1 2 (1e-12)).log (1e-15) demoBnd.lo demoBnd.M = ⟨365162878787971883909090909641460333333334611151833333334606055499999999994903999999998722179636363635088726909090908545090909090909/5681818181453030303030209569121212120568108787878785956956954545451350901454545451355997454545452633817818181817545090909090909000000000000000, 2⟩ := by
  rw [demo_density]
  simp only [demoBnd, Bnd.log, Bnd.mk.injEq]
  norm_num

theorem demo_energy : demoBnd.energy (1e-12) = ⟨4008000000001008004000000002004000000000001/2000000000000000000000000000000000000000000000000000000, 2⟩ := by
  simp only [demoBnd, springEnergy, Bnd.mul, Bnd.exact, Bnd.mk.injEq]
  norm_num

theorem demo_extra : demoBnd.extra (1e-15) 0 .orig (1e-12) = ⟨4012000000001012012000000003012004000000003004000000000001/2000000000000000000000000000000000000000000000000000000000000000000000, 2⟩ := by
  rw [RateBnd.extra, if_neg (by decide), demo_energy]
  simp only [demoBnd, Bnd.mul, Bnd.exact, Bnd.mk.injEq]
  norm_num

theorem demo_raw : demoBnd.raw (1e-15) 0 (1e-15) (1e-15) 1 2 .orig (1e-12) = ⟨753166666665391452825756830351080090810077490731748959661240196358515656521219954455959471740090875104168965472814789089070745638426066529424425334331634894050885087999994991997818181817181090909090909/11363636362906060606060419138242424241136217575757571913913909090902701802909090902711994909090905267635636363635090181818181818000000000000000000000000000000000000000000000000000000000000000000000000000000000000, 4⟩ := by
  rw [RateBnd.raw, demo_log, demo_extra]
  simp only [Bnd.add, Bnd.mk.injEq]
  norm_num

theorem demo_total : (demoBnd.raw (1e-15) 0 (1e-15) (1e-15) 1 2 .orig (1e-12)).sum (1e-15) 2 = ⟨753212121210843830234847737419085886263872386682142800026386583743838928568627949335226840939681694684711248109144433618763491180487155600170063760398164318476219419634889042882906181812173088727272726181090909090909/5681818181453030303030209569121212120568108787878785956956954545451350901454545451355997454545452633817818181817545090909090909000000000000000000000000000000000000000000000000000000000000000000000000000000000000000000000000000, 8⟩ := by
  rw [demo_raw]
  simp only [Bnd.sum, Bnd.mk.injEq]
  norm_num

theorem demo_mean : ((demoBnd.raw (1e-15) 0 (1e-15) (1e-15) 1 2 .orig (1e-12)).sum (1e-15) 2).div (1e-15) 0 ((2 : ℕ) : ℝ) = ⟨753257575756296207689393189939469090808574350638332094186428921523002565762423329537766257547267393532622730336293658690738873052192774363661244247553764488539979817799207519102325816701215971633454538354179636363635181090909090909/11363636362906060606060419138242424241136217575757571913913909090902701802909090902711994909090905267635636363635090181818181818000000000000000000000000000000000000000000000000000000000000000000000000000000000000000000000000000000000000000000, 4⟩ := by
  rw [demo_total]
  simp only [Bnd.div, Bnd.mk.injEq]
  norm_num

theorem demo_rate : demoBnd.rate (1e-15) 0 (1e-15) (1e-15) 1 2 .orig (1e-12) = ⟨1506515151512592415424240925331315636162601221659868733074821799235299291567184438239169708889914989604662068258286165292959973253610620702704360200726292468260446791198585101965049797720908162686543965751242178909082535270545454544181090909090909/11363636362906060606060419138242424241136217575757571913913909090902701802909090902711994909090905267635636363635090181818181818000000000000000000000000000000000000000000000000000000000000000000000000000000000000000000000000000000000000000000000000000000000, 8⟩ := by
  rw [RateBnd.rate, if_neg (by decide), RateBnd.centred, demo_mean, demo_raw]
  simp only [Bnd.add, Bnd.mk.injEq]
  norm_num

theorem demo_prob1 : (demoBnd.rate (1e-15) 0 (1e-15) (1e-15) 1 2 .orig (1e-12)).mul (1e-15) 0 demoBnd.dt = ⟨1506606060603497170424240921276836999797455642716110956251354770376759588003406946265682972033625956016512043264184850676482776994319913662677613811346995172620647517491053362411840996306010127736341686659404865453048286512724363626716361454545453181090909090909/1136363636290606060606041913824242424113621757575757191391390909090270180290909090271199490909090526763563636363509018181818181800000000000000000000000000000000000000000000000000000000000000000000000000000000000000000000000000000000000000000000000000000000000000000000000000, 2/25⟩ := by
  rw [demo_rate]
  simp only [demoBnd, Bnd.mul, Bnd.exact, Bnd.mk.injEq]
  norm_num

theorem demo_probArg : demoBnd.probArg (1e-15) 0 (1e-15) (1e-15) 1 2 .orig (1e-12) = ⟨1506696969694401925515150008127113363432306009293716814282308797760443060972600595752492671399844948941625161981049947909980586633714590145454608131260657850234458864486225983059358487359372539577337992669532601794734945917589816675002874178909079897452363636362181090909090909/11363636362906060606060419138242424241136217575757571913913909090902701802909090902711994909090905267635636363635090181818181818000000000000000000000000000000000000000000000000000000000000000000000000000000000000000000000000000000000000000000000000000000000000000000000000000000000000000, 8⟩ := by
  rw [RateBnd.probArg, demo_prob1]
  simp only [demoBnd, Bnd.mul, Bnd.exact, Bnd.mk.injEq]
  norm_num

theorem demo_prob : demoBnd.prob (1e-15) 0 (1e-15) (1e-15) 1 2 .orig (1e-12) = ⟨4520124999992299014829540925207437423625726237012210436721832233734802309863517704950271769788958467921404587296178479143608793960076590559941907355552409914527770375432228652554668920756066796807476056126216537398182846350574834229846375306177264700979627636326235629818181813543272727272727/11363636362906060606060419138242424241136217575757571913913909090902701802909090902711994909090905267635636363635090181818181818000000000000000000000000000000000000000000000000000000000000000000000000000000000000000000000000000000000000000000000000000000000000000000000000000000000000000000000000000000, 2⟩ := by
  rw [RateBnd.prob, demo_probArg]
  simp only [Bnd.add, Bnd.exp, Bnd.exact, Bnd.mk.injEq]
  norm_num

theorem demo_fits (Ω : ℝ) (hΩ : 1e6 ≤ Ω) : demoBnd.Fits 1e-15 0 1e-15 1e-15 1 2 .orig 1e-12 Ω where
  dist := by simp only [demoBnd, Bnd.addTop]; norm_num; linarith
  sq := by rw [demo_dist]; simp only [Bnd.mulTop]; norm_num; linarith
  width := by simp only [demoBnd, Bnd.exact]; norm_num
  arg := by rw [demo_sq]; simp only [demoBnd, Bnd.quotTop, Bnd.exact]; norm_num; linarith
  exp := by rw [demo_arg]; norm_num
  gauss := by rw [demo_arg]; simp only [demoBnd, Bnd.mulTop, Bnd.exp, Bnd.exact]; norm_num; linarith
  prod := fun m hm => by simp at hm
  manual := by norm_num
  sum := by rw [demo_kernel]; simp only [Bnd.sumTop]; norm_num; linarith
  density := by rw [demo_sum]; simp only [Bnd.divTop]; norm_num; linarith
  log := by rw [demo_density]; simp only [demoBnd]; norm_num
  energy := fun _ => by rw [demo_energy]; simp only [demoBnd, Bnd.mulTop, Bnd.exact]; norm_num; linarith
  raw := by rw [demo_log, demo_extra]; simp only [Bnd.addTop]; norm_num; linarith
  total := by rw [demo_raw]; simp only [Bnd.sumTop]; norm_num; linarith
  mean := by rw [demo_total]; simp only [Bnd.divTop]; norm_num; linarith
  centred := by rw [demo_mean, demo_raw]; simp only [Bnd.addTop]; norm_num; linarith
  add := by simp
  prob1 := by rw [demo_rate]; simp only [demoBnd, Bnd.mulTop, Bnd.exact]; norm_num; linarith
  prob2 := by rw [demo_prob1]; simp only [demoBnd, Bnd.mulTop, Bnd.exact]; norm_num; linarith
  prob3 := by rw [demo_probArg]; norm_num
  prob4 := by rw [demo_probArg]; simp only [Bnd.addTop, Bnd.exp, Bnd.exact]; norm_num; linarith

/-- Errors of rates and probabilities. -/
theorem demo_errors : (demoBnd.rate 1e-15 0 1e-15 1e-15 1 2 .orig 1e-12).err ≤ 2e-10 ∧
    (demoBnd.prob 1e-15 0 1e-15 1e-15 1 2 .orig 1e-12).err ≤ 4e-10 := by
  rw [demo_rate, demo_prob]
  norm_num

/-! ### Functions with 53 digits -/

/-- A contract with larger errors. -/
def weaken {F : Type} [Add F] [Sub F] [Mul F] [Div F] [Neg F] [LT F] (A : Rounding F) (u η : ℝ) (hu : A.u ≤ u) (hη : A.η ≤ η) :
    Rounding F where
  fin := A.fin
  val := A.val
  u := u
  η := η
  Ω := A.Ω
  u_nonneg := A.u_nonneg.trans hu
  η_nonneg := A.η_nonneg.trans hη
  add := fun a b ha hb h => ⟨(A.add a b ha hb h).1, (A.add a b ha hb h).2.trans (mul_le_mul_of_nonneg_right hu (abs_nonneg _))⟩
  sub := fun a b ha hb h => ⟨(A.sub a b ha hb h).1, (A.sub a b ha hb h).2.trans (mul_le_mul_of_nonneg_right hu (abs_nonneg _))⟩
  mul := fun a b ha hb h => ⟨(A.mul a b ha hb h).1,
    (A.mul a b ha hb h).2.trans (add_le_add (mul_le_mul_of_nonneg_right hu (abs_nonneg _)) hη)⟩
  div := fun a b ha hb h0 h => ⟨(A.div a b ha hb h0 h).1,
    (A.div a b ha hb h0 h).2.trans (add_le_add (mul_le_mul_of_nonneg_right hu (abs_nonneg _)) hη)⟩
  neg := A.neg
  lt := A.lt

/-- Numbers with 53 digits, errors rounded up to 1e-15. -/
def demoRounding : Rounding Num53 := weaken (rounding53 1e300) 1e-15 0 (by norm_num [rounding53]) le_rfl

/-- Sums from left to right. -/
def leftTree : Nat → AddTree
  | 0 => .leaf 0
  | 1 => .leaf 0
  | n + 2 => .node (leftTree (n + 1)) (.leaf (n + 1))

theorem leftTree_leaves : ∀ n, (leftTree (n + 1)).leaves = List.range (n + 1)
  | 0 => rfl
  | n + 1 => by
    rw [leftTree, AddTree.leaves, leftTree_leaves n, List.range_succ (n := n + 1)]
    rfl

/-- Exponential and logarithm rounded to 53 digits. -/
def fns53 : FloatFns Num53 where
  exp := fun a => ⟨round53 (Real.exp a.val)⟩
  log := fun a => ⟨round53 (Real.log a.val)⟩
  abs := fun a => ⟨|a.val|⟩
  le := fun a b => @decide (a.val ≤ b.val) (Classical.propDecidable _)
  zero := ⟨0⟩
  one := ⟨1⟩
  ofNat := fun n => ⟨n⟩
  isInf := fun _ => false
  order := leftTree

def fns53_contract : FnContract demoRounding fns53 where
  ex := 1e-15
  lg := 1e-15
  ex_nonneg := by norm_num
  lg_nonneg := by norm_num
  exp := by
    intro a _ h
    refine ⟨trivial, (round53_err _).trans ?_⟩
    rw [abs_of_pos (Real.exp_pos _)]
    have h1 : Real.exp a.val ≤ 3 := (Real.exp_le_exp.2 h).trans (by linarith [Real.exp_one_lt_d9])
    norm_num
    linarith
  log := by
    intro a _ _
    refine ⟨trivial, (round53_err _).trans (mul_le_mul_of_nonneg_right (by norm_num) (abs_nonneg _))⟩
  abs := fun a _ => ⟨trivial, rfl⟩
  le := fun a b _ _ => by
    simp only [fns53]
    rw [@decide_eq_true_iff _ (Classical.propDecidable _)]
    rfl
  zero := ⟨trivial, rfl⟩
  one := ⟨trivial, rfl⟩
  isInf := fun _ _ => rfl
  order := by
    intro n hn
    obtain ⟨m, rfl⟩ : ∃ m, n = m + 1 := ⟨n - 1, by omega⟩
    change (leftTree (m + 1)).leaves.Perm _
    rw [leftTree_leaves]

/-- The constants of the rates. -/
def demoRates : FloatRateCfg Num53 1 where
  height := fun _ => ⟨1 / Real.sqrt (2 * Real.pi)⟩
  width := fun _ => ⟨2⟩
  pref := ⟨1 / Real.sqrt (2 * Real.pi)⟩
  invKt := ⟨1⟩
  dt := ⟨0.01⟩
  rateFac := ⟨100⟩
  variant := .orig
  approx := fun _ => ⟨0⟩

def demoExactRates : RateCfg 1 := ⟨fun _ => 1, 1, .orig, fun _ => 0⟩

theorem demo_height : 0.3 ≤ 1 / Real.sqrt (2 * Real.pi) ∧ 1 / Real.sqrt (2 * Real.pi) ≤ 0.4 := by
  have h0 : 0 < Real.sqrt (2 * Real.pi) := by positivity
  have h1 := Real.pi_gt_d2
  have h2 := Real.pi_lt_d2
  constructor
  · rw [le_div_iff₀ h0]
    have : Real.sqrt (2 * Real.pi) ≤ 3 := Real.sqrt_le_iff.2 ⟨by norm_num, by norm_num; linarith⟩
    linarith
  · rw [div_le_iff₀ h0]
    have : 2.5 ≤ Real.sqrt (2 * Real.pi) := Real.le_sqrt_of_sq_le (by norm_num; linarith)
    linarith

theorem demo_kernel0 : calcKernel demoExactRates.bw 0 = 1 / Real.sqrt (2 * Real.pi) := by
  rw [calcKernel_eq]
  simp [kernel, normalPdf, demoExactRates]

theorem demo_nearRates : NearRateCfg demoRounding fns53 demoBnd demoRates demoExactRates 0.01 100 2 1e-12 where
  dt_nonneg := by norm_num
  rateFac_nonneg := by norm_num
  height := fun k => ⟨trivial, by simp [demoRates, demoExactRates, demoRounding, weaken, rounding53, demoBnd, Bnd.exact], by
    simp only [demoExactRates, demoBnd, Bnd.exact, one_mul]
    rw [abs_of_nonneg (by positivity)]
    exact demo_height.2⟩
  width := fun k => ⟨trivial, by simp [demoRates, demoExactRates, demoRounding, weaken, rounding53, demoBnd, Bnd.exact], by
    simp [demoExactRates, demoBnd, Bnd.exact]⟩
  widthLo := fun k => by simp [demoExactRates, demoBnd]
  pref := by
    have : (1 : ℝ) / ((2 * Real.pi) ^ (((1 : ℕ) : ℝ) / 2) * ∏ k, demoExactRates.bw k) = 1 / Real.sqrt (2 * Real.pi) := by
      simp [demoExactRates, Real.sqrt_eq_rpow]
    rw [this]
    exact ⟨trivial, by simp [demoRates, demoRounding, weaken, rounding53, demoBnd, Bnd.exact], by
      rw [abs_of_nonneg (by positivity)]
      exact demo_height.2⟩
  invKt := ⟨trivial, by simp [demoRates, demoExactRates, demoRounding, weaken, rounding53, demoBnd, Bnd.exact], by
    simp [demoExactRates, demoBnd, Bnd.exact]⟩
  dt := ⟨trivial, by simp [demoRates, demoRounding, weaken, rounding53, demoBnd, Bnd.exact], by
    simp only [demoBnd, Bnd.exact]; norm_num [abs_of_pos]⟩
  rateFac := ⟨trivial, by simp [demoRates, demoRounding, weaken, rounding53, demoBnd, Bnd.exact], by
    simp [demoBnd, Bnd.exact]⟩
  variant := rfl
  approx := fun x y _ => ⟨trivial, by simp [demoRates, demoExactRates, demoRounding, weaken, rounding53, demoBnd, Bnd.exact], by
    simp [demoExactRates, demoBnd, Bnd.exact]⟩
  lo := by
    rw [demo_kernel0]
    simp only [demoBnd]
    have := demo_height.1
    push_cast
    linarith
  log := by
    rw [demo_kernel0]
    simp only [demoBnd]
    constructor
    · rw [Real.le_log_iff_exp_le (by norm_num), Real.exp_neg]
      have h1 : 2.7 ^ 2 ≤ Real.exp 2 := by
        have := Real.exp_one_gt_d9
        rw [show (2 : ℝ) = 1 + 1 by norm_num, Real.exp_add]
        nlinarith
      rw [inv_le_comm₀ (Real.exp_pos _) (by norm_num)]
      refine le_trans ?_ h1
      norm_num
    · have := demo_height
      refine (Real.log_nonpos (by positivity) (by linarith)).trans (by norm_num)
  ofNat := ⟨trivial, rfl⟩
  bw := fun _ => one_pos
  dim := one_pos

end

end Bdld
