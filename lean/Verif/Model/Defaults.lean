import Verif.Model.Py
/-!
# The values of attributes a file leaves out

Models the constructors of the node classes of `/repo/onnx_tool/node.py` as far as they set attributes: `Node.__init__` (172-196) sets the attributes of the file,
`add_default_value` (202-204) the missing ones; the calls are listed per operator in the order they run (a subclass calls its superclass first).  `use` is how the methods
then read an attribute: what they do with `None`.  Left out: attributes that no method reads, and the fused operators GDN, MoE and MLA (3014-3228).
-/
namespace OnnxTool.Defaults
open OnnxTool

/-- the value of an attribute: numbers, lists, Python strings, and the `bytes` that a file gives for a string -/
inductive AVal where
  | none
  | int (i : Int)
  | real (num : Int) (den : Nat)
  | ints (l : List Int)
  | text (s : String)
  | bytes (s : String)
  deriving DecidableEq, Repr

/-- PoolBase 1392-1397 -/
def poolDefaults : List (String × AVal) :=
  [("kernel_shape", .ints [3, 3]), ("ceil_mode", .int 0), ("pads", .ints [0, 0, 0, 0]), ("strides", .ints [1, 1]), ("dilations", .ints [1, 1]), ("auto_pad", .none)]

/-- ConvNode 2137-2141 -/
def convDefaults : List (String × AVal) :=
  [("auto_pad", .none), ("pads", .ints [0, 0, 0, 0, 0, 0]), ("strides", .ints [1, 1, 1]), ("dilations", .ints [1, 1, 1]), ("group", .int 1)]

/-- GemmNode 860-861 -/
def gemmDefaults : List (String × AVal) := [("transA", .int 0), ("transB", .int 0)]

/-- ReduceMeanNode 1911-1912, ReduceL2Node 2237-2238 -/
def reduceDefaults : List (String × AVal) := [("axes", .none), ("keepdims", .int 1)]

/-- the `add_default_value` calls of an operator's class and its superclasses, in order -/
def calls : List (String × List (String × AVal)) :=
  [("HardSigmoid", [("alpha", .real 1 5), ("beta", .real 1 2)]),        -- 586-587
   ("HardSwish", [("alpha", .real 1 6), ("beta", .real 1 2)]),          -- 599-600
   ("LeakyRelu", [("alpha", .real 1 100)]),                             -- 707
   ("Transpose", [("perm", .none)]),                                    -- 838
   ("Gemm", gemmDefaults), ("MatMul", gemmDefaults), ("MatMulInteger", gemmDefaults),
   ("QLinearMatMul", gemmDefaults ++ [("transA", .none), ("transB", .none)]),   -- 2557-2558
   ("Gather", [("axis", .int 0)]),                                      -- 953
   ("OneHot", [("axis", .int (-1))]),                                   -- 1101
   ("Trilu", [("upper", .int 1)]),                                      -- 1125
   ("Unsqueeze", [("axes", .ints [0])]),                                -- 1267
   ("Squeeze", [("axes", .ints [0])]),                                  -- 1303
   ("AveragePool", poolDefaults), ("MaxPool", poolDefaults),
   ("Pad", [("pads", .none), ("value", .int 0), ("mode", .text "constant")]),   -- 1571-1573
   ("BatchNormalization", [("epsilon", .real 1 100000), ("momentum", .real 9 10), ("training_mode", .int 0)]),   -- 1625-1627
   ("Flatten", [("axis", .none)]),                                      -- 1656
   ("ArgMax", [("axis", .int 0), ("keepdims", .int 1)]),                -- 1682-1683
   ("Slice", [("steps", .none)]),                                       -- 1709
   ("ReduceMean", reduceDefaults), ("ReduceProd", reduceDefaults), ("ReduceSum", reduceDefaults), ("ReduceMin", reduceDefaults), ("ReduceMax", reduceDefaults),
   ("ReduceL2", reduceDefaults),
   ("TopK", [("axis", .none)]),                                         -- 2008
   ("Scan", [("num_scan_inputs", .none), ("scan_input_directions", .none)]),    -- 2034-2035
   ("Compress", [("axis", .none)]),                                     -- 2060
   ("LSTM", [("direction", .none), ("hidden_size", .none)]),            -- 2083-2084
   ("Conv", convDefaults), ("QLinearConv", convDefaults), ("ConvInteger", convDefaults),
   ("CumSum", [("exclusive", .int 0), ("reverse", .int 0)]),            -- 2257-2258
   ("RandomUniformLike", [("dtype", .none), ("high", .real 1 1), ("low", .real 0 1), ("seed", .none)]),   -- 2467-2470
   ("RandomNormalLike", [("dtype", .none), ("high", .real 1 1), ("low", .real 0 1), ("seed", .none)]),
   ("LayerNormalization", [("axis", .int (-1)), ("epsilon ", .real 1 100000), ("stash_type", .int 1)]),   -- 2517-2519 (the blank is in the code)
   ("ConvTranspose", [("pads", .ints [0, 0, 0, 0]), ("output_padding", .ints [0, 0, 0, 0]), ("strides", .ints [1, 1]), ("dilations", .ints [1, 1]),
     ("output_shape", .ints [0, 0]), ("group", .int 1)]),               -- 2679-2684
   ("GatherElements", [("axis", .int 0)]),                              -- 2782
   ("ConstantOfShape", [("value", .none)]),                             -- 2841
   ("Split", [("axis", .none), ("split", .none)])]                      -- 2921-2922

/-- the calls of an operator; the other classes have none -/
def callsOf (op : String) : List (String × AVal) := (Dict.get? calls op).getD []

/-- `add_default_value(attname, defaultvalue)` (202-204) -/
def addDefault (fields : Dict AVal) (p : String × AVal) : Dict AVal := if fields.has p.1 then fields else fields.set p.1 p.2

/-- the attributes of a node after its construction, from those of the file -/
def construct (op : String) (given : Dict AVal) : Dict AVal := (callsOf op).foldl addDefault given

/-- the operators whose `auto_pad` may be `None` -/
def padded : List String := ["AveragePool", "MaxPool", "Conv", "QLinearConv", "ConvInteger"]

/-- what a method that needs the attribute works with; `n` is the number of axes it is about.  Transpose: `numpy.transpose(x, None)` (845); Flatten 1660-1661; TopK 2014-2016
(`None + …` is a `TypeError`); Split 2928-2937 (`inshape[None]`); `auto_pad` 1401, 2147, 2595, 2639; Pad 1602 (`self.mode.decode`); Elu 626 (`getattr` with a default) -/
def use (op k : String) (n : Nat) (field : Option AVal) : Except PyErr AVal :=
  match field with
  | Option.none => if op = "Elu" ∧ k = "alpha" then .ok (.real 1 1) else .error .attributeError
  | some v =>
    if op = "Transpose" ∧ k = "perm" ∧ v = .none then .ok (.ints ((List.range n).reverse.map fun i : Nat => (i : Int)))
    else if op = "Flatten" ∧ k = "axis" ∧ v = .none then .ok (.int 1)
    else if op = "TopK" ∧ k = "axis" ∧ v = .none then if n = 1 then .ok (.int 0) else .error .typeError
    else if op = "Split" ∧ k = "axis" ∧ v = .none then .error .typeError
    else if op ∈ padded ∧ k = "auto_pad" ∧ v = .none then .ok (.bytes "NOTSET")
    else if op = "Pad" ∧ k = "mode" then match v with
      | .bytes s => .ok (.bytes s)
      | _ => .error .attributeError
    else .ok v

/-- the attribute `k` as the methods of a node see it -/
def seen (op k : String) (n : Nat) (given : Dict AVal) : Except PyErr AVal := use op k n ((construct op given).get? k)

end OnnxTool.Defaults
