import Verif.Model.Py
import Mathlib.Logic.Function.Basic
/-!
# The profile window and the standard output

Models `SRApp._on_profile` (`/repo/inference/sr_gui.py` 486-518) as far as its text is concerned: the thread keeps `sys.stdout`, puts a new text buffer there, prints the report, puts
back what it kept and takes the text of its buffer.  `sys.stdout` is one variable for all threads, read anew by every `print`; a click on the button starts another thread.  Other
threads print.

Simplified: what a report says is a list of lines (its content is `Model/Diagnostics`); the messages of the status line are `Model/SrStatus`; a `print` is one step.
-/
namespace OnnxTool.SrProfile
open OnnxTool

/-- what `sys.stdout` is: the console, or the buffer of a thread -/
inductive Out where
  | console
  | buffer (thread : Nat)
  deriving DecidableEq, Repr

/-- a step of a thread -/
inductive Act where
  /-- `old_stdout = sys.stdout` (505) -/
  | save
  /-- `sys.stdout = buf` (506) -/
  | redirect
  /-- `print(line)` (508, or elsewhere) -/
  | print (line : String)
  /-- `sys.stdout = old_stdout` (510) -/
  | restore
  /-- `profile_text = buf.getvalue()` (511), which the window shows (514) -/
  | collect
  deriving DecidableEq, Repr

structure St where
  stdout : Out := .console
  console : List String := []
  buf : Nat → List String := fun _ => []
  old : Nat → Out := fun _ => .console
  shown : Nat → Option (List String) := fun _ => none
  todo : Nat → List Act

/-- what the step of thread `i` does -/
def act (s : St) (i : Nat) : Act → St
  | .save => { s with old := Function.update s.old i s.stdout }
  | .redirect => { s with stdout := .buffer i }
  | .print l =>
    match s.stdout with
    | .console => { s with console := s.console ++ [l] }
    | .buffer j => { s with buf := Function.update s.buf j (s.buf j ++ [l]) }
  | .restore => { s with stdout := s.old i }
  | .collect => { s with shown := Function.update s.shown i (some (s.buf i)) }

/-- thread `i` takes a step -/
def step (s : St) (i : Nat) : St :=
  match s.todo i with
  | [] => s
  | a :: r => act { s with todo := Function.update s.todo i r } i a

def exec (s : St) (moves : List Nat) : St := moves.foldl step s

/-- what a thread is for: to print, to profile, or to profile with an exception in `print_profile` after some lines -/
inductive Job where
  | prints (lines : List String)
  | profile (lines : List String)
  | profileFails (lines : List String)
  deriving DecidableEq, Repr

/-- its steps; the `finally` of 509-510 is run in both cases, 511 only without an exception -/
def program : Job → List Act
  | .prints ls => ls.map .print
  | .profile ls => [.save, .redirect] ++ ls.map .print ++ [.restore, .collect]
  | .profileFails ls => [.save, .redirect] ++ ls.map .print ++ [.restore]

/-- thread `i` has the `i`-th job -/
def start (jobs : Nat → Job) : St := { todo := fun i => program (jobs i) }

end OnnxTool.SrProfile
