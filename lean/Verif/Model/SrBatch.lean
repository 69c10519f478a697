import Verif.Model.SrApp
import Mathlib.Data.List.Sort
/-!
# Super-resolution of a folder

Models `_on_batch` (`/repo/inference/sr_gui.py` 385-439).

Simplified: a folder is the list of the names in it (distinct, without separators), its output folder a map from names to contents; reading a file, the network, the enlargement and the
comparison are parameters; writing a file is one step that does not fail; `glob` and file names are those of a file system that tells upper and lower case apart; times and messages are left out.
-/
namespace OnnxTool.SrBatch
open OnnxTool

/-- the tool: `imread` (43-46), `SREngine.process` (185-208), and the comparison of an image with its result and its bicubic enlargement (422-423) -/
structure Tool (I R : Type) where
  imread : String → Except PyErr I
  process : I → Except PyErr R
  compare : I → R → Except PyErr R

/-- the patterns of line 394, with the upper case ones (396-398) -/
def extensions : List String := [".png", ".PNG", ".jpg", ".JPG", ".jpeg", ".JPEG", ".bmp", ".BMP", ".tiff", ".TIFF", ".webp", ".WEBP"]

/-- `glob.glob(folder/*.ext)` takes a name: it ends so, and `*` does not match a leading dot -/
def matchesExt (name ext : String) : Bool := ext.toList.isSuffixOf name.toList && !(['.'].isPrefixOf name.toList)

/-- lines 394-399: the files of each pattern in turn, then sorted -/
def selected (folder : List String) : List String := (extensions.flatMap fun e => folder.filter fun n => matchesExt n e).insertionSort (· ≤ ·)

/-- `os.path.splitext(fname)[0]` (412) -/
def stemOf (name : String) : String := String.ofList (SrApp.stem name.toList)

/-- a file written to the output folder: name and content -/
abbrev Write (R : Type) := String × R

/-- the files one image adds (411-425): all of them, or those before an exception -/
def ofImage {I R : Type} (t : Tool I R) (name : String) : List (Write R) × Option PyErr :=
  match t.imread name with
  | .error e => ([], some e)
  | .ok im =>
    match t.process im with
    | .error e => ([], some e)
    | .ok r =>
      match t.compare im r with
      | .error e => ([(stemOf name ++ "_sr.png", r)], some e)
      | .ok g => ([(stemOf name ++ "_sr.png", r), (stemOf name ++ "_compare.png", g)], none)

/-- the loop (410-425): an exception ends it -/
def loop {I R : Type} (t : Tool I R) : List String → List (Write R) × Option PyErr
  | [] => ([], none)
  | name :: rest =>
    match ofImage t name with
    | (w, some e) => (w, some e)
    | (w, none) => (w ++ (loop t rest).1, (loop t rest).2)

/-- what a file contains after the writes: the last one counts; `old` is what the output folder had before -/
def content {R : Type} (old : Dict R) (writes : List (Write R)) : Dict R := writes.foldl (fun d w => d.set w.1 w.2) old

/-- `_on_batch` on a folder: the output folder after the first `crash` writes (the program may end at any moment: the thread is a daemon), or at the end -/
def batch {I R : Type} (t : Tool I R) (folder : List String) (old : Dict R) (crash : Nat) : Dict R := content old ((loop t (selected folder)).1.take crash)

/-- `_on_batch` on a folder to its end -/
def batchEnd {I R : Type} (t : Tool I R) (folder : List String) (old : Dict R) : Dict R × Option PyErr :=
  (content old (loop t (selected folder)).1, (loop t (selected folder)).2)

end OnnxTool.SrBatch
