import Verif.Model.Py

/-
Model of `bdld/actions/action.py`.
-/

namespace Bdld

/-- `get_valid_data`, `bdld/actions/action.py:27-83`. The array is a list of rows (first axis).
Law-free in the row type. All numbers are Python ints. A modulus of zero (empty array, or a zero stride)
raises `ZeroDivisionError` as in Python. -/
def getValidData {α : Type _} (data : List α) (step stride updateStride lastWrite : Int) :
    Except PyErr (List α) :=
  -- lines 66-67
  if step = lastWrite then .ok []
  else
    -- line 69
    let writeStride : Int := data.length * updateStride
    if writeStride = 0 then .error .zeroDivisionError
    else
      -- lines 70-71
      let alreadyWritten := pyDiv (pyMod lastWrite writeStride) updateStride
      let lastElement := pyDiv (pyMod step writeStride) updateStride
      -- lines 73-74
      if stride = updateStride ∧ alreadyWritten = 0 ∧ lastElement = 0 then .ok data
      else if stride = 0 then .error .zeroDivisionError
      else
        -- lines 76-80
        let firstElement := alreadyWritten + (pyDiv stride updateStride - 1)
          - pyDiv (pyMod lastWrite stride) updateStride
        -- lines 81-83
        if lastElement = 0 then pySlice data firstElement none (pyDiv stride updateStride)
        else pySlice data firstElement (some lastElement) (pyDiv stride updateStride)

end Bdld
