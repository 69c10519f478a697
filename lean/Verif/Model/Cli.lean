import Verif.Model.Tools
/-!
# Command line arguments

Models the argument texts of `python -m onnx_tool` (`/repo/onnx_tool/__main__.py` 57-103): `__str2numpytype__`, `__str2list__`, `__args2dynamicshapes__`, `__args2strshapes__` and the
`--exclude-ops` list.

Simplified: texts are sequences of characters; the numbers given as dimensions contain no blanks, underscores or digits other than `0`-`9` (Python's `int` accepts those too); what
`numpy.float32(text)` and `numpy.int32(text)` do with one element is a parameter.  `argparse` itself is not modelled.
-/
namespace OnnxTool.Cli
open OnnxTool

/-- element types that can come out: `f32`, `int32`, and numpy's default `float64` -/
inductive DT where
  | f32 | i32 | f64
  deriving DecidableEq, Repr

/-- an array: element type, shape, elements in row-major order -/
structure Arr (V : Type) where
  dtype : DT
  shape : List Nat
  data : List V
  deriving DecidableEq

variable {V : Type}

/-- `__str2numpytype__` (57-61): `None` for every other text -/
def numpyType (s : List Char) : Option DT := if s = "f32".toList then some .f32 else if s = "int32".toList then some .i32 else none

/-- the digits of `int(s)` -/
def natOf (s : List Char) : Except PyErr Nat := if Tools.isNumeric s then .ok (Nat.ofDigitChars 10 s 0) else .error .valueError

/-- `int(s)` -/
def intOf : List Char → Except PyErr Int
  | '-' :: s => (natOf s).map fun n => -(n : Int)
  | '+' :: s => (natOf s).map fun n => (n : Int)
  | s => (natOf s).map fun n => (n : Int)

/-- `__str2list__(strshape, type)` (64-69), the loop -/
def listLoop {α : Type} (conv : List Char → Except PyErr α) : List (List Char) → Except PyErr (List α)
  | [] => .ok []
  | s :: ss => match conv s with
    | .error e => .error e
    | .ok a => (listLoop conv ss).map (a :: ·)

/-- `__str2list__(strshape, type)` (64-69) -/
def listOf {α : Type} (conv : List Char → Except PyErr α) (s : List Char) : Except PyErr (List α) := listLoop conv (s.splitOn 'x')

/-- product of dimensions -/
def count (shape : List Nat) : Nat := shape.foldr (· * ·) 1

/-- `numpy.zeros(shape, dtype=dtype)` (79); no type means `float64` -/
def zeros (zero : V) (dt : Option DT) (shape : List Int) : Except PyErr (Arr V) :=
  if shape.all (0 ≤ ·) then .ok ⟨dt.getD .f64, shape.map (·.toNat), List.replicate (count (shape.map (·.toNat))) zero⟩ else .error .valueError

/-- `.reshape(shape)` (77): one dimension may be `-1` (any other negative number is refused) -/
def reshape (dt : DT) (data : List V) (shape : List Int) : Except PyErr (Arr V) :=
  if shape.all (0 ≤ ·) then
    if data.length = count (shape.map (·.toNat)) then .ok ⟨dt, shape.map (·.toNat), data⟩ else .error .valueError
  else
    let known := count ((shape.filter (0 ≤ ·)).map (·.toNat))
    if (shape.filter (· < 0)) = [-1] ∧ 0 < known ∧ data.length % known = 0 then
      .ok ⟨dt, shape.map fun d => if d < 0 then data.length / known else d.toNat, data⟩
    else .error .valueError

/-- lines 76-77: the elements are given; `elem` is `numpy.float32(s)` or `numpy.int32(s)`.  Without a type the call `None(s)` raises `TypeError`. -/
def withValues (elem : DT → List Char → Except PyErr V) (dt : Option DT) (shape : List Int) (text : List Char) : Except PyErr (Arr V) :=
  match dt with
  | none => .error .typeError
  | some dt => match listOf (elem dt) text with
    | .error e => .error e
    | .ok data => reshape dt data shape

/-- one argument (74-80): the key of the dictionary and the array -/
def dynamicArg (elem : DT → List Char → Except PyErr V) (zero : V) (arg : List Char) : Except PyErr (List Char × Arr V) :=
  match arg.splitOn ':' with
  | name :: ty :: dims :: rest => match listOf intOf dims with
    | .error e => .error e
    | .ok shape => match rest with
      | [] => (zeros zero (numpyType ty) shape).map (name, ·)
      | vals :: _ => (withValues elem (numpyType ty) shape vals).map (name, ·)
  | _ => .error .indexError

/-- `__args2dynamicshapes__` (72-81): a dictionary, later arguments overwrite earlier ones -/
def dynamicArgs (elem : DT → List Char → Except PyErr V) (zero : V) : List (List Char) → (List Char → Option (Arr V)) → Except PyErr (List Char → Option (Arr V))
  | [], d => .ok d
  | a :: as, d => match dynamicArg elem zero a with
    | .error e => .error e
    | .ok (n, x) => dynamicArgs elem zero as fun k => if k = n then some x else d k

/-- one argument of `__args2strshapes__` (84-89) -/
def strArg (arg : List Char) : Except PyErr (List Char × List Char) :=
  match arg.splitOn ':' with
  | name :: text :: _ => .ok (name, text)
  | _ => .error .indexError

/-- `__args2strshapes__` (84-89) -/
def strArgs : List (List Char) → (List Char → Option (List Char)) → Except PyErr (List Char → Option (List Char))
  | [], d => .ok d
  | a :: as, d => match strArg a with
    | .error e => .error e
    | .ok (n, x) => strArgs as fun k => if k = n then some x else d k

/-- line 97: `set(args.exclude_ops.split(",")) if args.exclude_ops else None`; `none` = the option was not given or is empty -/
def excludeOps (opt : Option (List Char)) : Option (List (List Char)) :=
  match opt with
  | none => none
  | some [] => none
  | some s => some (s.splitOn ',')

end OnnxTool.Cli
