import Verif.Model.Plot

/-
The end of `plot_fes` and `save_fig_interactive`, `bdld/actions/fes_action.py:261-287`: where the figure is saved, and
the dialogue with the user.

`savefig` is a parameter with the contract `SaveContract`: the format is looked at before the file is opened (as in
matplotlib), so an unknown format gives `ValueError`, and a file that cannot be written `OSError`. The answers of the
user are a list, the end of it is the end of the standard input (`EOFError`).
-/

namespace Bdld

/-- Exceptions of this part. -/
inductive SaveErr where
  | valueError
  | osError
  | eofError
deriving DecidableEq, Repr

/-- What `input()` does: it returns a line or raises `ValueError`. -/
inductive Answer where
  | text (s : String)
  | valueError
deriving DecidableEq, Repr

/-- Messages on the screen. -/
inductive PromptLine where
  | ask
  | message (e : SaveErr)
deriving DecidableEq, Repr

/-- `save_fig_interactive`: the name the figure was saved to (`none` if it was not) or the exception, the lines on the
screen, and the answers that were not read. -/
def saveFigInteractive (save : String → Except SaveErr Unit) :
    List Answer → Except SaveErr (Option String) × List PromptLine × List Answer
  | [] => (.error .eofError, [.ask], [])
  | .valueError :: r =>
    let x := saveFigInteractive save r
    (x.1, .ask :: .message .valueError :: x.2.1, x.2.2)
  | .text s :: r =>
    if s = "" then (.ok none, [.ask], r)
    else
      match save s with
      | .ok () => (.ok (some s), [.ask], r)
      | .error .osError =>
        let x := saveFigInteractive save r
        (x.1, .ask :: .message .osError :: x.2.1, x.2.2)
      | .error e => (.error e, [.ask], r)

/-- The end of `plot_fes` for a given name, `fes_action.py:261-266`. -/
def savePlot (save : String → Except SaveErr Unit) (name : String) (answers : List Answer) :
    Except SaveErr (Option String) × List PromptLine × List Answer :=
  match save name with
  | .ok () => (.ok (some name), [], answers)
  | .error .valueError =>
    let x := saveFigInteractive save answers
    (x.1, .message .valueError :: x.2.1, x.2.2)
  | .error e => (.error e, [], answers)

/-- `savefig` with the known formats and the files that can be written. -/
def SaveContract (formats : List String) (writable : String → Bool) (save : String → Except SaveErr Unit) : Prop :=
  ∀ s, save s = if saveable formats s then (if writable s then .ok () else .error .osError) else .error .valueError

end Bdld
