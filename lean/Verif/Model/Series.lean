import Verif.Model.Action

/-
Model of the storage and file output shared by `bdld/actions/delta_f_action.py` and
`bdld/actions/particle_distribution.py`. The two classes contain the same code for this (compare
delta_f_action.py:52-68, 95-139 with particle_distribution.py:48-65, 84-136); they differ in the number
stored in the first column (`step * dt` resp. `step`, parameter `timeCol`) and in the values stored in the
other columns (parameter `vals`, see `Model/Fes.lean`).
Law-free in the number type `F`.
-/

namespace Bdld

/-- Constant attributes. `stride = 0` means no stride was given. -/
structure SeriesCfg (F : Type _) where
  stride : Nat
  writeStride : Nat
  hasFile : Bool
  timeCol : Nat → F

/-- The array `delta_f` resp. `counts`: one row per evaluation if there is a stride, else a single row. -/
inductive SeriesBuf (F : Type _) where
  | table (rows : List (List F))
  | single (row : List F)

/-- Mutable state. `file` are the rows written below the header. -/
structure SeriesState (F : Type _) where
  buf : SeriesBuf F
  lastWrite : Nat
  file : List (List F)

/-- Constructor, delta_f_action.py:52-68 and particle_distribution.py:48-65: configuration.
`hasFile` is the truthiness of the filename (`None` and `""` are falsy). -/
def SeriesCfg.new {F : Type _} (stride writeStride : Option Nat) (hasFile : Bool) (timeCol : Nat → F) :
    Except PyErr (SeriesCfg F) :=
  if truthyNat stride then
    if truthyNat writeStride && !hasFile then .error .valueError
    else
      let s := pyOrNat stride 0
      let w := pyOrNat writeStride (s * 100)
      if w % s ≠ 0 then .error .valueError
      else .ok ⟨s, w, hasFile, timeCol⟩
  else .ok ⟨0, 0, hasFile, timeCol⟩

/-- Constructor: state. The array comes from `np.empty`, its contents are the arbitrary function
`garbage`. -/
def SeriesState.init {F : Type _} (c : SeriesCfg F) (garbage : Nat → List F) : SeriesState F where
  buf := if c.stride = 0 then .single (garbage 0)
    else .table ((List.range (c.writeStride / c.stride)).map garbage)
  lastWrite := 0
  file := []

/-- `write`, delta_f_action.py:117-139 and particle_distribution.py:112-136. -/
def SeriesState.write {F : Type _} (c : SeriesCfg F) (s : SeriesState F) (step : Nat) :
    Except PyErr (SeriesState F) :=
  if c.hasFile then
    match s.buf with
    | .table rows => do
      let saveData ← getValidData rows step c.stride c.stride s.lastWrite
      return { s with lastWrite := step, file := s.file ++ saveData }
    | .single row => .ok { s with file := s.file ++ [row] }
  else .ok s

/-- First half of `run` (delta_f_action.py:100-105, particle_distribution.py:89-92): if the stride
matches, evaluate and store a row. `vals` are the values computed in this step. -/
def SeriesState.store {F : Type _} (c : SeriesCfg F) (s : SeriesState F) (step : Nat) (vals : List F) :
    Except PyErr (SeriesState F) :=
  if c.stride ≠ 0 ∧ pyMod step c.stride = 0 then
    if c.writeStride = 0 then .error .zeroDivisionError
    else
      let row : Int := pyDiv (pyMod step c.writeStride) c.stride - 1
      match s.buf with
      | .table rows =>
        (pySetItem rows row (c.timeCol step :: vals)).map (fun rows' => { s with buf := .table rows' })
      | .single _ => .error .indexError
  else .ok s

/-- `run`, delta_f_action.py:95-107 and particle_distribution.py:84-94. -/
def SeriesState.run {F : Type _} (c : SeriesCfg F) (s : SeriesState F) (step : Nat) (vals : List F) :
    Except PyErr (SeriesState F) := do
  let s' ← s.store c step vals
  if c.writeStride ≠ 0 ∧ pyMod step c.writeStride = 0 then s'.write c step else return s'

/-- `final_run`, delta_f_action.py:109-115 and particle_distribution.py:96-100. -/
def SeriesState.finalRun {F : Type _} (c : SeriesCfg F) (s : SeriesState F) (step : Nat)
    (vals : List F) : Except PyErr (SeriesState F) :=
  if c.stride = 0 then ({ s with buf := .single (c.timeCol step :: vals) } : SeriesState F).write c step
  else s.write c step

/-- Main loop restricted to this action (main.py:115-121): steps `1..n`, then `final_run(n)`.
`vals t` are the values that an evaluation at step `t` returns, `valsEnd` those at the end. -/
def SeriesState.steps {F : Type _} (c : SeriesCfg F) (vals : Nat → List F) :
    (n : Nat) → SeriesState F → Except PyErr (SeriesState F)
  | 0, s => .ok s
  | n + 1, s => do
    let s' ← SeriesState.steps c vals n s
    s'.run c (n + 1) (vals (n + 1))

def SeriesState.simulate {F : Type _} (c : SeriesCfg F) (vals : Nat → List F) (valsEnd : List F) (n : Nat)
    (s : SeriesState F) : Except PyErr (SeriesState F) := do
  let s' ← SeriesState.steps c vals n s
  s'.finalRun c n valsEnd

end Bdld
