import Mathlib.Data.String.Basic
import Mathlib.Data.List.Sort
import Verif.Model.Py
/-!
# What the LLM command loads

Models `/repo/inference/llm_infer.py`: `get_safetensors_path` (473-504), `SUPPORTED_MODELS` (37-60) and the part of `main` (546-690) that decides which configuration, weights and ONNX file are used.

Simplified: a disk is a listing for each directory (in the order the system gives); a file exists in a directory iff it is listed; a snapshot is a directory; of a configuration only the entries `main` reads are kept,
with values of their right types; printing, building and saving an exported model are left out; a path is a directory and a file name.
-/
namespace OnnxTool.LlmCli
open OnnxTool

/-- `str.endswith` -/
def ends (s suffix : String) : Bool := suffix.toList.isSuffixOf s.toList

/-- `name.replace('/', '--')` (490): a repository's directory in the cache -/
def hubKey (name : String) : String := String.ofList (name.toList.flatMap fun c => if c = '/' then ['-', '-'] else [c])

/-- `os.path.basename` -/
def basename (p : String) : String := String.ofList ((p.toList.reverse.takeWhile (· ≠ '/')).reverse)

/-- what is on the disk: directories the user names, the snapshots of the cache by cache key (492-495), the working directory -/
structure Disk where
  dir : String → Option (List String)
  snapshots : String → List (String × List String)
  cwd : List String

/-- where weights were found -/
inductive Weights
  | inDir (dir file : String)
  | inCache (name snapshot file : String)
deriving DecidableEq

/-- lines 479-484 and 498-503: `model.safetensors`, else the first that is listed -/
def weightsOf (files : List String) : Option String :=
  if "model.safetensors" ∈ files then some "model.safetensors" else files.find? fun f => ends f ".safetensors"

/-- `sorted(os.listdir(snapshots), reverse=True)` (496) -/
def newestFirst (l : List (String × List String)) : List (String × List String) := l.insertionSort fun a b => b.1 ≤ a.1

/-- lines 496-503 -/
def inSnapshots (l : List (String × List String)) : Option (String × String) :=
  (newestFirst l).findSome? fun s => (weightsOf s.2).map fun f => (s.1, f)

/-- lines 487-489 -/
def namesToTry (name : String) : List String := if ends name "-Base" then [name] else [name, name ++ "-Base"]

/-- the first part of `get_safetensors_path` (478-484): `None` and `''` are both no directory -/
def inModelDir (d : Disk) (modelDir : Option String) : Option Weights :=
  match modelDir with
  | none => none
  | some p => if p = "" then none else
    match d.dir p with
    | none => none
    | some files => (weightsOf files).map (Weights.inDir p)

/-- `get_safetensors_path` (473-504) -/
def findWeights (d : Disk) (name : String) (modelDir : Option String) : Option Weights :=
  match inModelDir d modelDir with
  | some w => some w
  | none => (namesToTry name).findSome? fun n => (inSnapshots (d.snapshots (hubKey n))).map fun r => Weights.inCache n r.1 r.2

/-- the entries of a configuration that `main` reads -/
structure Config where
  architectures : Option (List String) := none
  nameOrPath : Option String := none
  name : Option String := none
  hidden : Option Nat := none
  heads : Option Nat := none
  headDim : Option Nat := none
deriving DecidableEq

/-- `QWEN3_0_6B_CONFIG` (37-54) -/
def qwen : Config := { architectures := some ["Qwen3ForCausalLM"], name := some "Qwen3-0.6B-Base", hidden := some 1024, heads := some 16, headDim := some 128 }

/-- `SUPPORTED_MODELS` (57-60) -/
def supported : List (String × Config) := [("Qwen/Qwen3-0.6B-Base", qwen), ("Qwen/Qwen3-0.6B", qwen)]

def supportedConfig (name : String) : Option Config := (supported.find? fun e => e.1 == name).map (·.2)

/-- line 609 -/
def supportedArchs : List String := ["Qwen2ForCausalLM", "Qwen3ForCausalLM", "LlamaForCausalLM"]

/-- the command line -/
structure Args where
  modelName : Option String := none
  modelDir : Option String := none
  onnxPath : Option String := none

/-- `if x` of a string option -/
def truthy : Option String → Option String
  | some s => if s = "" then none else some s
  | none => none

/-- `model_dir and os.path.isdir(model_dir)` -/
def dirOf (d : Disk) (modelDir : Option String) : Option (String × List String) :=
  match truthy modelDir with
  | none => none
  | some p => (d.dir p).map fun l => (p, l)

/-- lines 574-577: a model name that is a directory becomes the model directory -/
def names (d : Disk) (a : Args) : Option String × Option String :=
  match truthy a.modelName, truthy a.modelDir with
  | some n, none => if (d.dir n).isSome then (none, some n) else (some n, none)
  | n, m => (n, m)

/-- line 586: `setdefault` evaluates its default, also when it is not used -/
def setHeadDim (c : Config) : Except PyErr Config :=
  let heads := c.heads.getD 16
  if heads = 0 then .error .zeroDivision
  else .ok { c with headDim := some (c.headDim.getD (c.hidden.getD 1024 / heads)) }

/-- lines 579-604: the configuration and the model's name; `readConfig p` is what is in `p/config.json` -/
def chooseConfig (d : Disk) (readConfig : String → Config) (name dir : Option String) : Except PyErr (Config × Option String) :=
  match dirOf d dir with
  | some (p, files) =>
    if "config.json" ∈ files then
      match setHeadDim (readConfig p) with
      | .error e => .error e
      | .ok c => .ok (c, match name with | some n => some n | none => some (c.nameOrPath.getD (basename p)))
    else .error .runtimeError
  | none =>
    match name with
    | none => .error .runtimeError
    | some n => match supportedConfig n with
      | some c => .ok (c, some n)
      | none => .error .runtimeError

/-- lines 607-613 -/
def checkArch (c : Config) : Except PyErr Unit :=
  match c.architectures.getD [""] with
  | [] => .error .indexError
  | arch :: _ => if arch ∈ supportedArchs then .ok () else .error .runtimeError

/-- lines 617-627; `downloaded` is the disk after `snapshot_download(name)` -/
def chooseWeights (d : Disk) (downloaded : String → Disk) (name dir : Option String) : Except PyErr (Option Weights) :=
  match findWeights d (name.getD "") dir with
  | some w => .ok (some w)
  | none =>
    match truthy name with
    | none => .error .runtimeError
    | some n => if (supportedConfig n).isSome then .ok (findWeights (downloaded n) n none) else .error .runtimeError

/-- where the ONNX model comes from -/
inductive Onnx
  | given (path : String)
  | inDir (dir file : String)
  | inCwd (file : String)
  | exported (dir : Option String) (file : String)
deriving DecidableEq

/-- `glob.glob('*' + suffix)` in the working directory -/
def globbed (d : Disk) (suffix : String) : List String := d.cwd.filter fun f => ends f suffix && !(f.toList.head? == some '.')

/-- lines 646-648: the first candidate in the working directory -/
def cwdOnnx (d : Disk) : Option String := (globbed d "kvcache.onnx" ++ globbed d ".onnx").head?

/-- lines 638-643 -/
def dirOnnx (files : List String) : Option String := (files.insertionSort (· ≤ ·)).find? fun f => ends f ".onnx"

/-- `model_base.lower().replace("-", "_")` (659) -/
def fileBase (s : String) : String := String.ofList (s.toList.map fun c => if c.toLower = '-' then '_' else c.toLower)

/-- lines 634-661 -/
def chooseOnnx (d : Disk) (c : Config) (dir onnxPath : Option String) : Onnx :=
  match truthy onnxPath with
  | some p => .given p
  | none =>
    match (dirOf d dir).bind fun q => (dirOnnx q.2).map (Onnx.inDir q.1) with
    | some o => o
    | none =>
      match truthy dir with
      | some p => .exported (some p) (basename p ++ "_kvcache.onnx")
      | none => match cwdOnnx d with
        | some f => .inCwd f
        | none => .exported none (fileBase (c.name.getD "model") ++ "_kvcache.onnx")

/-- what the engine is created with (670-680) -/
structure Plan where
  config : Config
  name : Option String
  weights : Option Weights
  onnx : Onnx
deriving DecidableEq

/-- the part of `main` before the engine is created (565-680) -/
def run (d : Disk) (readConfig : String → Config) (downloaded : String → Disk) (a : Args) : Except PyErr Plan :=
  let nd := names d a
  match chooseConfig d readConfig nd.1 nd.2 with
  | .error e => .error e
  | .ok (c, name) =>
    match checkArch c with
    | .error e => .error e
    | .ok () =>
      match chooseWeights d downloaded name nd.2 with
      | .error e => .error e
      | .ok w => .ok ⟨c, name, w, chooseOnnx d c nd.2 a.onnxPath⟩

end OnnxTool.LlmCli
