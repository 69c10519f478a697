import Verif.Model.Py
import Std.Data.String.ToNat
/-!
# Exporting weights to files and changing the shapes of graph inputs

Models `model_export_tensors_numpy` and `model_io_modify` (`/repo/onnx_tool/__init__.py` 30-64, 127-170), and `posixpath.join` for two arguments.

Simplified: a file system is a map from paths to contents with a set of directories; a path is not normalised (so `a/../b` and `b` are different paths); `numpy.save` fails exactly if the
directory before the last `/` of the path does not exist; texts are sequences of characters; the texts given to `model_io_modify` contain no digits other than `0`-`9` (for others `isnumeric`
and `int` disagree).  The model that `model_io_modify` writes afterwards is that of `Model/Load`.
-/
namespace OnnxTool.Tools
open OnnxTool

/-- lines 46-50, 58-62: the name of the file without extension -/
def exportName (key : List Char) : List Char :=
  let name := key
  let name := if '/' ∈ key then key.map (fun c => if c = '/' then '_' else c) else name
  let name := if '\\' ∈ key then key.map (fun c => if c = '\\' then '_' else c) else name
  name

/-- `os.path.join(a, b)` on Linux -/
def join (a b : List Char) : List Char :=
  if b.head? = some '/' then b
  else if a = [] ∨ a.getLast? = some '/' then a ++ b
  else a ++ '/' :: b

/-- the path of the file for a tensor (53, 64) -/
def exportPath (folder key : List Char) : List Char := join folder (exportName key ++ ".npy".toList)

/-- `os.path.dirname`, for the check that the directory exists: what is before the last `/` -/
def dirOf (path : List Char) : List Char := (path.reverse.dropWhile (· ≠ '/')).tail.reverse

/-- The files and directories -/
structure FileSys (α : Type) where
  files : List Char → Option α
  dirs : List Char → Bool

/-- `numpy.save(filename, arr)`: `none` = `FileNotFoundError` -/
def save {α : Type} (fs : FileSys α) (path : List Char) (a : α) : Option (FileSys α) :=
  if fs.dirs (dirOf path) then some { fs with files := fun p => if p = path then some a else fs.files p } else none

/-- `save_numpy` (33-36): `half` is the cast to float16, `isFloat` tells arrays of float32 and float64 -/
def converted {α : Type} (half : α → α) (isFloat : α → Bool) (fp16 : Bool) (a : α) : α := if fp16 && isFloat a then half a else a

/-- the loop of lines 44-53: the file system, and whether it went through to the end -/
def exportLoop {α : Type} (half : α → α) (isFloat : α → Bool) (fp16 : Bool) (folder : List Char) : List (List Char × α) → FileSys α → FileSys α × Bool
  | [], fs => (fs, true)
  | (key, a) :: rest, fs =>
    match save fs (exportPath folder key) (converted half isFloat fp16 a) with
    | none => (fs, false)
    | some fs' => exportLoop half isFloat fp16 folder rest fs'

/-- lines 38-42: the folder — `'./'` if none is given — with `os.makedirs` (of which only the last directory is modelled) -/
def prepare {α : Type} (folder : Option (List Char)) (fs : FileSys α) : List Char × FileSys α :=
  match folder with
  | some f => (f, { fs with dirs := fun d => d == dirOf (join f ['x']) || fs.dirs d })
  | none => ("./".toList, fs)

/-- `model_export_tensors_numpy(m, tensornames, savefolder, fp16)` (30-64) for the initializers `inits` of the graph, in their order.  Names that are not initializers are left out (55-57). -/
def exportTensors {α : Type} (half : α → α) (isFloat : α → Bool) (fp16 : Bool) (inits : List (List Char × α)) (names : Option (List (List Char))) (folder : Option (List Char)) (fs : FileSys α) :
    FileSys α × Bool :=
  exportLoop half isFloat fp16 (prepare folder fs).1
    (match names with
    | none => inits
    | some ns => ns.filterMap fun n => inits.find? (·.1 == n))
    (prepare folder fs).2

/-! ### `model_io_modify` -/

/-- A dimension in the model file: `dim_value`, `dim_param` or neither -/
inductive Dim where
  | value (n : Nat)
  | param (s : List Char)
  | unset
  deriving DecidableEq, Repr

/-- `s.isnumeric()` -/
def isNumeric (s : List Char) : Bool := !s.isEmpty && s.all Char.isDigit

/-- lines 145-152, 160-167: one dimension -/
def dimOf (s : List Char) : Dim := if isNumeric s then .value (Nat.ofDigitChars 10 s 0) else .param s

/-- lines 140-152: the dimensions of one graph input or output; `AssertionError` if the numbers differ -/
def modifyDims (dims : List Dim) (text : List Char) : Except PyErr (List Dim) :=
  if (text.splitOn 'x').length = dims.length then .ok ((text.splitOn 'x').map dimOf) else .error .assertion

/-- lines 138-152: all inputs (or, 154-167, outputs); `custom` is the dictionary `custom_io` -/
def modifyAll (custom : String → Option (List Char)) : List (String × List Dim) → Except PyErr (List (String × List Dim))
  | [] => .ok []
  | (n, dims) :: rest =>
    match custom n with
    | none => (modifyAll custom rest).map ((n, dims) :: ·)
    | some text => match modifyDims dims text with
      | .error e => .error e
      | .ok d => (modifyAll custom rest).map ((n, d) :: ·)

/-- lines 135-167: inputs, then outputs -/
def ioModify (custom : String → Option (List Char)) (inputs outputs : List (String × List Dim)) : Except PyErr (List (String × List Dim) × List (String × List Dim)) :=
  match modifyAll custom inputs with
  | .error e => .error e
  | .ok i => match modifyAll custom outputs with
    | .error e => .error e
    | .ok o => .ok (i, o)

end OnnxTool.Tools
