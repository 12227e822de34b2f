import Verif.Spec.Text
import Verif.Model.DeltaFExt

/-
Reading tables that contain infinities and nan.
-/

namespace Bdld.Spec

/-- What can be read. -/
inductive XRat where
  | fin (q : ℚ)
  | inf (neg : Bool)
  | nan
deriving DecidableEq, Repr

/-- A decimal number with an optional sign, `inf`, `-inf`, or `nan`. -/
def readX (l : List Char) : Option XRat :=
  match l with
  | ['n', 'a', 'n'] => some .nan
  | ['i', 'n', 'f'] => some (.inf false)
  | ['-', 'i', 'n', 'f'] => some (.inf true)
  | '-' :: r => (readUnsigned r).map (fun q => .fin (-q))
  | r => (readUnsigned r).map .fin

/-- The table of a file; `none` if something is no number. -/
def readTableX (text : List Char) : Option (List (List XRat)) :=
  ((textLines text).filter (fun l => !isComment l)).mapM (fun l => (textWords l).mapM readX)

/-- Numbers up to half of the last printed digit, everything else as it is. -/
def PrintedX (p : Nat) : XRat → XReal → Prop
  | .fin q, .fin x => |(q : ℝ) - x| ≤ 1 / (2 * 10 ^ p)
  | .inf a, .inf b => a = b
  | .nan, .nan => True
  | _, _ => False

end Bdld.Spec
