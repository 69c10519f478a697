import Verif.Model.Regress
/-!
# What shape regression should deliver

The shapes of a network as functions of the variables of the input description: every dimension is a number or a function of one variable.
-/
namespace OnnxTool.Regress
open OnnxTool OnnxTool.Engine

/-- how a dimension depends on the variables -/
inductive Law where
  | fixed (n : Int)
  | along (k : String) (f : Int → Int)

/-- the dimension for the values `σ` of the variables -/
def Law.at (σ : String → Int) : Law → Int
  | .fixed n => n
  | .along k f => f (σ k)

/-- a described dimension for the values `σ` of the variables -/
def dimAt (σ : String → Int) : Dim → Int
  | .num n => n
  | .var v => σ v

/-- the described inputs for the values `σ` of the variables -/
def inputsAt (inputDesc : Dict (List Dim)) (σ : String → Int) : List (String × List Int) :=
  inputDesc.map fun p => (p.1, p.2.map (dimAt σ))

/-- the second sample of a variable -/
def middle (lo hi : Int) : Int := Int.fdiv (lo + hi) 2

/-- Smallest, middle and largest value of a variable tell the functions `F` on `dom` apart. -/
structure Told (lo hi : Int) (dom : Int → Prop) (F : (Int → Int) → Prop) : Prop where
  low : dom lo
  mid : dom (middle lo hi)
  high : dom hi
  ident : F fun x => x
  /-- functions with the same samples are equal -/
  det : ∀ f g, F f → F g → f lo = g lo → f (middle lo hi) = g (middle lo hi) → f hi = g hi → ∀ x, dom x → f x = g x
  /-- functions with the same first and last sample are constant -/
  const : ∀ f, F f → f lo = f hi → ∀ x, dom x → f x = f lo

/-- The expression fitted to the samples of `f` and `g` computes `g` from `f`. -/
def Fitted (lo hi : Int) (dom : Int → Prop) (f g : Int → Int) : Prop :=
  ∃ e, buildExpr [f lo, f (middle lo hi), f hi] [g lo, g (middle lo hi), g hi] = .ok e ∧ ∀ x, dom x → e.call (f x) = .ok (g x)

/-- all variables in their domains -/
def InDom (ranges : Range) (dom : String → Int → Prop) (σ : String → Int) : Prop := ∀ r ∈ ranges, dom r.1 (σ r.1)

/-- A network whose dynamic shapes follow `laws`, each dimension a function of at most one variable. -/
structure Regular (g : Graph) (infer : List (String × List Int) → Except PyErr Shapes) (inputDesc : Dict (List Dim)) (ranges : Range)
    (dom : String → Int → Prop) (F : String → (Int → Int) → Prop) (laws : String → List Law) : Prop where
  keys_nodup : (ranges.map (·.1)).Nodup
  /-- variables of the user are not called "0", "1", … -/
  keys_names : ∀ r ∈ ranges, isNumeric r.1 = false
  desc_nodup : inputDesc.keys.Nodup
  desc_vars : ∀ p ∈ inputDesc, ∀ v, Dim.var v ∈ p.2 → v ∈ ranges.map (·.1)
  told : ∀ r ∈ ranges, Told r.2.1 r.2.2 (dom r.1) (F r.1)
  laws_along : ∀ t ∈ g.dynamics, ∀ k f, Law.along k f ∈ laws t → k ∈ ranges.map (·.1) ∧ F k f
  infer_ok : ∀ σ, InDom ranges dom σ → ∃ S, infer (inputsAt inputDesc σ) = .ok S ∧ ∀ t ∈ g.dynamics, S t = (laws t).map (Law.at σ)
  produced : ∀ t ∈ g.dynamics, t ∉ inputDesc.keys → ∃ p ps n, g.producedby.get? t = some (p :: ps) ∧ findNode g.nodemap p = some n
  /-- a varying dimension can be computed from its variable, and from the varying dimensions of the operands of its producer -/
  steps : ∀ r ∈ ranges, ∀ t ∈ g.dynamics, t ∉ inputDesc.keys → ∀ f, Law.along r.1 f ∈ laws t → f r.2.1 ≠ f r.2.2 →
    Fitted r.2.1 r.2.2 (dom r.1) (fun x => x) f ∧
    ∀ p ps n, g.producedby.get? t = some (p :: ps) → findNode g.nodemap p = some n → ∀ u ∈ n.input, u ∈ g.dynamics → u ∉ inputDesc.keys →
      ∀ f', Law.along r.1 f' ∈ laws u → f' r.2.1 ≠ f' r.2.2 → Fitted r.2.1 r.2.2 (dom r.1) f' f

end OnnxTool.Regress
