import Verif.Model.Py
import Verif.Model.SrEngine
/-!
# The window of the super-resolution tool and its background threads

Models the state of `SRApp` and the threads that change it (`/repo/inference/sr_gui.py` 220-228, 338-380, 438-466), as a transition system: the user opens images, and the
threads started for them run in any interleaving.

Simplified: images and results are values of types `I` and `R`; reading a file, the network and the bicubic enlargement are parameters (what they do is the subject of C106);
a read or an assignment of an attribute is one step, and so is Save (its dialog is modal; it reads the attributes when it writes). Each call of the engine gives its own result:
calls that overlap in time inside one `GraphInfer` are in `Model/Overlap`. Messages, the drawing, `_on_profile` and closing the window are left out; `_on_batch` is `Model/SrBatch`.
-/
namespace OnnxTool.SrApp
open OnnxTool

/-- where a thread of `_process_in_thread` stands (360-372) -/
inductive Pc (I : Type) where
  /-- before `self.current_img` is read for line 363 -/
  | start
  /-- `process_bicubic` runs on this image; `self.current_bicubic` is not assigned yet -/
  | scaling (im : I)
  /-- before `self.current_img` is read for line 366 -/
  | ready
  /-- `process` runs on this image; `self.current_sr` is not assigned yet -/
  | running (im : I)
  | done
  deriving DecidableEq

/-- the attributes of `SRApp` (223-226) and the threads started so far -/
structure App (I R : Type) where
  path : Option String := none
  img : Option I := none
  bicubic : Option R := none
  sr : Option R := none
  threads : List (Pc I) := []

/-- what happens next -/
inductive Event where
  /-- the user opens a file -/
  | opens (path : String)
  /-- the scheduler gives a step to a thread -/
  | step (thread : Nat)
  deriving DecidableEq

/-- the tool without the window -/
structure Tool (I R : Type) where
  /-- `imread` (42-45) -/
  imread : String → Except PyErr I
  /-- `SREngine.process_bicubic` (210-215) -/
  bicubic : I → R
  /-- `SREngine.process` (185-208) -/
  process : I → Except PyErr R

/-- `_on_open` (338-357) for a chosen path: the path is assigned before the file is read; the earlier results stay. The new thread starts only if reading did not raise. -/
def openImage {I R : Type} (t : Tool I R) (s : App I R) (p : String) : App I R :=
  match t.imread p with
  | .error _ => { s with path := some p }
  | .ok im => { s with path := some p, img := some im, threads := s.threads ++ [.start] }

/-- one step of a thread (360-380); an exception ends it, whatever it is -/
def stepThread {I R : Type} (t : Tool I R) (s : App I R) (i : Nat) : App I R :=
  match s.threads[i]? with
  | none => s
  | some .start =>
    match s.img with
    | none => { s with threads := s.threads.set i .done }
    | some im => { s with threads := s.threads.set i (.scaling im) }
  | some (.scaling im) => { s with bicubic := some (t.bicubic im), threads := s.threads.set i .ready }
  | some .ready =>
    match s.img with
    | none => { s with threads := s.threads.set i .done }
    | some im => { s with threads := s.threads.set i (.running im) }
  | some (.running im) =>
    match t.process im with
    | .error _ => { s with threads := s.threads.set i .done }
    | .ok r => { s with sr := some r, threads := s.threads.set i .done }
  | some .done => s

def stepEvent {I R : Type} (t : Tool I R) (s : App I R) : Event → App I R
  | .opens p => openImage t s p
  | .step i => stepThread t s i

/-- a history -/
def run {I R : Type} (t : Tool I R) (s : App I R) (events : List Event) : App I R := events.foldl (stepEvent t) s

/-- `os.path.splitext(name)[0]` for a name without separator: up to the last dot, unless only dots are before it -/
def stem (name : List Char) : List Char :=
  let ext := name.reverse.takeWhile (· ≠ '.')
  let front := (name.reverse.dropWhile (· ≠ '.')).drop 1
  if ext.length = name.length ∨ front.all (· = '.') then name else front.reverse

/-- the images of a comparison (79-101) -/
structure Comparison (I R : Type) where
  original : Option I
  result : R
  bicubic : R
  deriving DecidableEq

/-- what is saved: the proposed file name, the result, and the comparison if there is one -/
structure Saved (I R : Type) where
  name : String
  result : R
  comparison : Option (Comparison I R)
  deriving DecidableEq

/-- `_on_save` (438-466): `none` if there is nothing to save -/
def save {I R : Type} (s : App I R) : Option (Saved I R) :=
  match s.sr with
  | none => none
  | some r =>
    let name := match s.path with
      | none => "sr_result.png"
      | some p => String.ofList (stem (SrEngine.basename p.toList)) ++ "_sr.png"
    some ⟨name, r, s.bicubic.map fun b => ⟨s.img, r, b⟩⟩

end OnnxTool.SrApp
