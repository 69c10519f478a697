import Verif.Model.Py
/-!
# The status line of the super-resolution window

Models what the threads of `SRApp` report (`/repo/inference/sr_gui.py`): `_process_in_thread` (359-382), `_on_batch` (401-436) and `_on_profile` (492-518), as a transition
system: threads take steps in any order, and the main loop runs the callbacks of `root.after(0, …)` in the order in which they were posted.

A callback of an `except Exception as e` branch (378, 430, 516) uses the variable `e`, which Python deletes when the branch ends; a callback that runs later raises `NameError`, which Tk prints,
and the status line stays as it is.  The callbacks of successful work use variables that are not deleted.

Simplified: what work a thread does is left out, only its messages are kept; `_update_status` from a thread takes effect at once; a callback posted by `after` is never dropped;
drawing and message boxes are left out.
-/
namespace OnnxTool.SrStatus
open OnnxTool

/-- a step of a thread -/
inductive Act where
  /-- `self._update_status(text)` -/
  | show (text : String)
  /-- `self.root.after(0, lambda: self._update_status(text))`, the text made from variables that stay -/
  | post (text : String)
  /-- the same with a text that uses `e` -/
  | postError (text : String)
  /-- `traceback.print_exc()` -/
  | print
  /-- the end of the `except` branch: `del e` -/
  | unbind
deriving DecidableEq

/-- a callback that waits; `thread` is given if it uses that thread's `e` -/
structure Callback where
  thread : Option Nat
  text : String
deriving DecidableEq

/-- what can be seen: a text in the status line, or a `NameError` on the console instead of it -/
structure Event where
  shown : Bool
  thread : Option Nat
  text : String
deriving DecidableEq

/-- a thread: its steps to come, and whether its `e` still has a value -/
structure Thread where
  todo : List Act
  bound : Bool := true
deriving DecidableEq

structure Window where
  queue : List Callback := []
  threads : List Thread
  log : List Event := []
deriving DecidableEq

/-- one step of a thread -/
def act (w : Window) (i : Nat) (t : Thread) : Window :=
  match t.todo with
  | [] => w
  | .show s :: r => { w with threads := w.threads.set i { t with todo := r }, log := w.log ++ [⟨true, none, s⟩] }
  | .post s :: r => { w with threads := w.threads.set i { t with todo := r }, queue := w.queue ++ [⟨none, s⟩] }
  | .postError s :: r => { w with threads := w.threads.set i { t with todo := r }, queue := w.queue ++ [⟨some i, s⟩] }
  | .print :: r => { w with threads := w.threads.set i { t with todo := r } }
  | .unbind :: r => { w with threads := w.threads.set i { todo := r, bound := false } }

/-- does the variable a callback uses have a value? -/
def usable (w : Window) (c : Callback) : Bool :=
  match c.thread with
  | none => true
  | some i => match w.threads[i]? with | some t => t.bound | none => false

/-- the main loop runs the callback that waits longest -/
def mainLoop (w : Window) : Window :=
  match w.queue with
  | [] => w
  | c :: q => { w with queue := q, log := w.log ++ [⟨usable w c, c.thread, c.text⟩] }

/-- who moves: the main loop, or a thread -/
abbrev Move := Option Nat

def step (w : Window) : Move → Window
  | none => mainLoop w
  | some i => match w.threads[i]? with
    | none => w
    | some t => act w i t

def exec (w : Window) (moves : List Move) : Window := moves.foldl step w

/-- nothing is left to do -/
def Finished (w : Window) : Prop := w.queue = [] ∧ ∀ t ∈ w.threads, t.todo = []

/-- the text of the status line: the last that was shown -/
def status (initial : String) (w : Window) : String := ((w.log.filter (·.shown)).getLast?.map (·.text)).getD initial

/-- `_process_in_thread` (360-376) that works -/
def processOk (done : String) : List Act := [.show "Processing (bicubic)...", .show "Processing (GraphInfer SR)...", .post done]

/-- `_process_in_thread` that fails while it enlarges (first argument) or runs the network (377-380) -/
def processFails (bicubic : Bool) (e : String) : List Act :=
  .show "Processing (bicubic)..." :: ((if bicubic then [] else [.show "Processing (GraphInfer SR)..."]) ++ [.postError ("Error: " ++ e), .print, .unbind])

/-- `_on_profile` (492-518) -/
def profileOk : List Act := [.post "Profile done."]
def profileFails (e : String) : List Act := [.postError ("Profile error: " ++ e), .unbind]

/-- `_on_batch` (401-432): one message per file that is begun, then the end -/
def batchOk (progress : List String) (done : String) : List Act := progress.map .post ++ [.post done]
def batchFails (progress : List String) (e : String) : List Act := progress.map .post ++ [.postError ("Batch error: " ++ e), .print, .unbind]

end OnnxTool.SrStatus
