import Verif.Model.Serial
/-!
# Specification: a reader of the binary format

A parser consumes a prefix of the bytes and returns the value and the rest.  It is written from the format alone (little-endian
two's-complement integers, NUL-terminated UTF-8 strings, length-prefixed lists, type tags) and uses no writer function.
-/
namespace OnnxTool.Serial
open OnnxTool OnnxTool.Engine

abbrev Parser (α : Type) := Bytes → Option (α × Bytes)

/-- unsigned little-endian value -/
def leNat : Bytes → Nat
  | [] => 0
  | b :: bs => b.toNat + 256 * leNat bs

/-- `n` raw bytes -/
def rdBytes (n : Nat) : Parser Bytes := fun bs => if n ≤ bs.length then some (bs.take n, bs.drop n) else none

/-- signed `n`-byte integer -/
def rdInt (n : Nat) : Parser Int := fun bs =>
  match rdBytes n bs with
  | none => none
  | some (b, rest) =>
    let u := leNat b
    some (if u < 2 ^ (8 * n - 1) then (u : Int) else (u : Int) - 2 ^ (8 * n), rest)

/-- bytes up to the next NUL, which is consumed -/
def rdCStr : Parser Bytes
  | [] => none
  | b :: bs => if b = 0 then some ([], bs) else
    match rdCStr bs with
    | none => none
    | some (s, rest) => some (b :: s, rest)

/-- a NUL-terminated UTF-8 string -/
def rdStr : Parser String := fun bs =>
  match rdCStr bs with
  | none => none
  | some (b, rest) =>
    match String.fromUTF8? ⟨b.toArray⟩ with
    | none => none
    | some s => some (s, rest)

def rdN {α : Type} (p : Parser α) : Nat → Parser (List α)
  | 0, bs => some ([], bs)
  | k + 1, bs =>
    match p bs with
    | none => none
    | some (x, bs) =>
      match rdN p k bs with
      | none => none
      | some (xs, bs) => some (x :: xs, bs)

/-- a list with an `n`-byte length -/
def rdList {α : Type} (n : Nat) (p : Parser α) : Parser (List α) := fun bs =>
  match rdInt n bs with
  | none => none
  | some (k, bs) => if k < 0 then none else rdN p k.toNat bs

/-- two values, one after the other -/
def rdPair {α β : Type} (p : Parser α) (q : Parser β) : Parser (α × β) := fun bs =>
  match p bs with
  | none => none
  | some (x, bs) =>
    match q bs with
    | none => none
    | some (y, bs) => some ((x, y), bs)

def rdMap {α β : Type} (f : α → β) (p : Parser α) : Parser β := fun bs => (p bs).map fun (x, r) => (f x, r)

/-- the integer value of an IEEE-754 single (normal numbers and zero) -/
def intOfF32 (bits : Nat) : Int :=
  if bits = 0 then 0
  else
    let e := bits / 2 ^ 23 % 256
    let m := bits % 2 ^ 23 + 2 ^ 23
    let v : Nat := if e ≤ 150 then m / 2 ^ (150 - e) else m * 2 ^ (e - 150)
    if bits / 2 ^ 31 % 2 = 1 then -(v : Int) else v

/-- an integer that single precision holds exactly: 24 significant bits and an exponent of at most 104 -/
def Single (x : Int) : Prop := ∃ m e : Nat, m < 2 ^ 24 ∧ e ≤ 104 ∧ x.natAbs = m * 2 ^ e

/-- four bytes holding a single -/
def rdF32Int : Parser Int := rdMap (fun b => intOfF32 (leNat b)) (rdBytes 4)

/-- a tagged description entry: 0 = integer, 2 = string -/
def rdDim : Parser Dim := fun bs =>
  match rdInt 4 bs with
  | some (0, bs) => rdMap Dim.num (rdInt 4) bs
  | some (2, bs) => rdMap Dim.var rdStr bs
  | _ => none

def rdBool : Parser Bool := rdMap (fun i => decide (i ≠ 0)) (rdInt 4)

def rdExpr : Parser ValueExpr :=
  rdMap (fun (((a, b), f), t) => ({ alpha := a, beta := b, factor := f, truncmode := t } : ValueExpr))
    (rdPair (rdPair (rdPair rdF32Int rdF32Int) rdBool) rdBool)

/-- the contents of a shape-engine file: variable names, tensor descriptions, expressions -/
def rdEngine : Parser ((List String × Dict (List Dim)) × Dict (String × ValueExpr)) :=
  rdPair (rdPair (rdList 4 rdStr) (rdList 4 (rdPair rdStr (rdList 4 rdDim)))) (rdList 4 (rdPair rdStr (rdPair rdStr rdExpr)))

/-- the contents of a memory-plan file: pool size, blocks, maximum shapes -/
def rdMemory : Parser ((Int × Dict (Int × Int)) × Dict Int) :=
  rdPair (rdPair (rdInt 8) (rdList 8 (rdPair rdStr (rdPair (rdInt 8) (rdInt 8))))) (rdList 8 (rdPair rdStr (rdInt 8)))

/-- what a reader can know about an attribute: its element type and its values (strings as bytes, a single value as a list of one) -/
inductive RAttr where
  | strs (vs : List Bytes)
  | ints (vs : List Int)
  | floats (vs : List Nat)

def rdAttr : Parser RAttr := fun bs =>
  match rdInt 4 bs with
  | none => none
  | some (n, bs) =>
    match rdInt 4 bs with
    | some (2, bs) => rdMap .strs (rdN rdCStr n.toNat) bs
    | some (0, bs) => rdMap .ints (rdN (rdInt 4) n.toNat) bs
    | some (1, bs) => rdMap .floats (rdN (rdMap leNat (rdBytes 4)) n.toNat) bs
    | _ => none

structure RNode where
  name : String
  opType : String
  input : List String
  output : List String
  attr : List (String × RAttr)

def rdNode : Parser RNode :=
  rdMap (fun ((((a, b), c), d), e) => ({ name := a, opType := b, input := c, output := d, attr := e } : RNode))
    (rdPair (rdPair (rdPair (rdPair rdStr rdStr) (rdList 4 rdStr)) (rdList 4 rdStr)) (rdList 4 (rdPair rdStr rdAttr)))

def dtypeOfCode : Int → Option DType
  | 1 => some .float32
  | 3 => some .float16
  | 0 => some .int32
  | 5 => some .int8
  | 6 => some .uint8
  | 9 => some .int64
  | _ => none

/-- element type, shape, then as many bytes as the shape has elements -/
def rdArray : Parser NDArray := fun bs =>
  match rdInt 4 bs with
  | none => none
  | some (c, bs) =>
    match dtypeOfCode c with
    | none => none
    | some t =>
      match rdList 4 (rdMap Int.toNat (rdInt 4)) bs with
      | none => none
      | some (shape, bs) => rdMap (fun b => ({ dtype := t, shape := shape, data := b } : NDArray))
          (rdBytes (t.size * shape.foldr (· * ·) 1)) bs

def rdGraph : Parser (List RNode × List (String × NDArray)) :=
  rdPair (rdList 4 rdNode) (rdList 4 (rdPair rdStr rdArray))

/-! ## What a file is supposed to hold -/

/-- a string without NUL character -/
def NulFree (s : String) : Prop := '\x00' ∉ s.toList

instance (s : String) : Decidable (NulFree s) := inferInstanceAs (Decidable (¬ _))

/-- the values of an attribute, a single value being a list of one -/
def Attr.vals : Attr → List AVal
  | .one v => [v]
  | .many vs => vs

def AVal.int? : AVal → Option Int
  | .int i => some i
  | _ => none
def AVal.float? : AVal → Option Nat
  | .float b => some b
  | _ => none
def AVal.text? : AVal → Option Bytes
  | .str s => some s.toUTF8.data.toList
  | .bytes b => some b
  | _ => none

/-- the typed view of an attribute (for attributes all of whose values have the type of the first) -/
def Attr.view (a : Attr) : RAttr :=
  match a.vals with
  | .int _ :: _ => .ints (a.vals.filterMap AVal.int?)
  | .float _ :: _ => .floats (a.vals.filterMap AVal.float?)
  | _ => .strs (a.vals.filterMap AVal.text?)

/-- an attribute the format can hold: not empty, all integers, all floats, or all NUL-free strings/bytes -/
def Attr.Supported (a : Attr) : Prop :=
  a.vals ≠ [] ∧
    ((∀ v ∈ a.vals, ∃ i, v = .int i) ∨ (∀ v ∈ a.vals, ∃ b, v = .float b ∧ b < 2 ^ 32) ∨
      (∀ v ∈ a.vals, (∃ s, v = .str s ∧ NulFree s) ∨ (∃ b, v = .bytes b ∧ (0 : UInt8) ∉ b)))

def SNode.view (n : SNode) : RNode :=
  { name := n.name, opType := n.opType, input := n.input, output := n.output, attr := n.attr.map fun p => (p.1, p.2.view) }

/-- names are NUL-free and attributes supported -/
def SNode.Supported (n : SNode) : Prop :=
  NulFree n.name ∧ NulFree n.opType ∧ (∀ x ∈ n.input, NulFree x) ∧ (∀ x ∈ n.output, NulFree x) ∧
    ∀ p ∈ n.attr, NulFree p.1 ∧ p.2.Supported

/-- an array holds as many bytes as its shape and element type say -/
def NDArray.WF (a : NDArray) : Prop := a.data.length = a.dtype.size * a.shape.foldr (· * ·) 1

end OnnxTool.Serial
