import Verif.Model.Py
/-!
# `LLMInfer.generate` (`/repo/inference/llm_infer.py` 222-416)

The engine is any state machine from feeds to logits (`GraphInfer.forward` is modelled in `Model/InferState.lean`); choosing a token from
the logits (357-369, `argmax` or sampling) is any function of the step and the logits, which may raise.  Token numbers are naturals.
Dropped: timing, profiling, printing (except the division in the last verbose line) and the tokenizer: the model works on the token
lists before decoding.  An empty prompt: its empty warm-up feed is given to the engine, then `input_ids[0]` raises.
-/
namespace OnnxTool.Generate
open OnnxTool

/-- A value of the feed: a row of integers `[[...]]`, a scalar, or a cleared cache. -/
inductive FVal where
  | row (l : List Nat)
  | scalar (n : Nat)
  | zeros
  deriving DecidableEq, Repr

abbrev Feed := Dict FVal

/-- `sub in s` for strings -/
def infixIn (sub : List Char) : List Char → Bool
  | [] => sub.isEmpty
  | c :: cs => sub.isPrefixOf (c :: cs) || infixIn sub cs

/-- `name == 'ids' or 'input' in name.lower() or 'token' in name.lower()` (270, 284, 321) -/
def isIds (name : String) : Bool :=
  name = "ids" || infixIn "input".toList (name.toList.map Char.toLower) || infixIn "token".toList (name.toList.map Char.toLower)

/-- Building the feed (269-279, 283-292, 319-338): by input name, in order; `clear` says whether a zero cache is passed.  Other inputs
are not passed. -/
def feedOf (names : List String) (ids pos : List Nat) (nPast : Nat) (clear : Bool) : Feed :=
  names.foldl (fun f name =>
    if isIds name then f.set name (.row ids)
    else if name = "position" then f.set name (.row pos)
    else if name = "n_past" then f.set name (.scalar nPast)
    else if name = "kv_cache" then (if clear then f.set name .zeros else f)
    else f) []

/-- The engine: `forward` gives the logits of the last position and the next state, or raises. -/
structure Eng (L : Type) where
  St : Type
  forward : St → Feed → Except PyErr (L × St)

/-- The parts of `LLMInfer` used: input names (`has_kv_cache` is `'kv_cache' in input_names`, 144), end token, and the choice. -/
structure LLM (L : Type) where
  eng : Eng L
  names : List String
  eos : Nat
  pick : Nat → L → Except PyErr Nat

/-- `self.has_kv_cache` (144) -/
def LLM.hasKv {L : Type} (m : LLM L) : Bool := m.names.contains "kv_cache"

/-- Loop state: engine, `generated`, `n_past`, `last_token`. -/
structure GSt (St : Type) where
  st : St
  gen : List Nat
  nPast : Nat := 0
  last : Nat := 0

/-- Input row, positions and `seq_len` of a step (301-315). -/
def stepInput {L : Type} (m : LLM L) (prompt : List Nat) (step : Nat) (gen : List Nat) (last : Nat) : List Nat × List Nat × Nat :=
  if step = 0 then (prompt, List.range prompt.length, prompt.length)
  else if m.hasKv then ([last], [prompt.length + step - 1], 1)
  else (gen, List.range gen.length, gen.length)

/-- The feed of a step (318-338). -/
def stepFeed {L : Type} (m : LLM L) (prompt : List Nat) (step : Nat) (s : GSt m.eng.St) : Feed :=
  feedOf m.names (stepInput m prompt step s.gen s.last).1 (stepInput m prompt step s.gen s.last).2.1 s.nPast (step == 0)

/-- One iteration (300-388): the new state and whether the loop ends. -/
def stepOnce {L : Type} (m : LLM L) (prompt : List Nat) (step : Nat) (s : GSt m.eng.St) : Except PyErr (GSt m.eng.St × Bool) :=
  match m.eng.forward s.st (stepFeed m prompt step s) with
  | .error e => .error e
  | .ok (logits, st) =>
    match m.pick step logits with
    | .error e => .error e
    | .ok tok =>
      .ok (⟨st, s.gen ++ [tok], if m.hasKv then s.nPast + (stepInput m prompt step s.gen s.last).2.2 else s.nPast, tok⟩, tok == m.eos)

/-- The loop: `left` iterations remain. -/
def loop {L : Type} (m : LLM L) (prompt : List Nat) : Nat → Nat → GSt m.eng.St → Except PyErr (GSt m.eng.St)
  | 0, _, s => .ok s
  | left+1, step, s =>
    match stepOnce m prompt step s with
    | .error e => .error e
    | .ok (s, true) => .ok s
    | .ok (s, false) => loop m prompt left (step + 1) s

/-- Warm-up (263-298): a prefill of up to four tokens and one decode step. -/
def warmup {L : Type} (m : LLM L) (prompt : List Nat) (st : m.eng.St) : Except PyErr m.eng.St :=
  match m.eng.forward st (feedOf m.names (prompt.take (min prompt.length 4)) (List.range (min prompt.length 4)) 0 true) with
  | .error e => .error e
  | .ok (_, st) =>
    match prompt with
    | [] => .error .indexError
    | t :: _ =>
      match m.eng.forward st (feedOf m.names [t] [min prompt.length 4] (min prompt.length 4) false) with
      | .error e => .error e
      | .ok (_, st) => .ok st

/-- `generate(prompt, max_length)` (222-416) on tokens: the generated token list (prompt included) and the engine's state.  When verbose,
the last line divides by the number of generated tokens (395). -/
def generate {L : Type} (m : LLM L) (verbose : Bool) (st : m.eng.St) (prompt : List Nat) (maxLength : Int) :
    Except PyErr (List Nat × m.eng.St) :=
  match warmup m prompt st with
  | .error e => .error e
  | .ok st =>
    match loop m prompt (maxLength - prompt.length + 1).toNat 0 { st := st, gen := prompt } with
    | .error e => .error e
    | .ok s => if verbose && s.gen.length == prompt.length then .error .zeroDivision else .ok (s.gen, s.st)

end OnnxTool.Generate
