import Verif.Model.Generate
/-!
# What text generation should do
-/
namespace OnnxTool.Generate
open OnnxTool

/-- `g` is the autoregressive continuation of `prompt` of at most `n` tokens: every token is chosen from the model's logits for the prompt
and the tokens before it, it ends with the first end token, and it is shorter than `n` only if it ends with the end token. -/
structure Autoregressive {L : Type} (lm : List Nat → L) (pick : Nat → L → Except PyErr Nat) (eos n : Nat) (prompt g : List Nat) : Prop where
  chosen : ∀ (i : Nat) (t : Nat), g[i]? = some t → pick i (lm (prompt ++ g.take i)) = .ok t
  length : g.length ≤ n
  ended : g.length = n ∨ g.getLast? = some eos
  noEos : ∀ (i : Nat), i + 1 < g.length → g[i]? ≠ some eos

/-- The feed gives the tokens `ids`, at positions `n, n+1, ...`, under the model's input names. -/
def Gives (names : List String) (idName : String) (feed : Feed) (ids : List Nat) (n : Nat) : Prop :=
  feed.get? idName = some (.row ids) ∧
  ("position" ∈ names → feed.get? "position" = some (.row ((List.range ids.length).map (n + ·)))) ∧
  ("n_past" ∈ names → feed.get? "n_past" = some (.scalar n))

/-- A correct engine with a cache of `cap` positions for the language model `lm`; `Holds st ts`: the cache holds the tokens `ts`.  Fed
tokens at the positions after those held it returns the logits for the whole sequence and holds it; with a cleared cache it starts anew.
Nothing is promised for wrong positions, a wrong `n_past` or more than `cap` tokens. -/
structure CachedEngine {L : Type} (e : Eng L) (names : List String) (idName : String) (lm : List Nat → L) (cap : Nat)
    (Holds : e.St → List Nat → Prop) : Prop where
  prefill : ∀ st feed ids, ids ≠ [] → ids.length ≤ cap → Gives names idName feed ids 0 → feed.get? "kv_cache" = some .zeros →
    ∃ st', e.forward st feed = .ok (lm ids, st') ∧ Holds st' ids
  decode : ∀ st feed ts ids, ids ≠ [] → ts.length + ids.length ≤ cap → Holds st ts → Gives names idName feed ids ts.length →
    feed.get? "kv_cache" = none → ∃ st', e.forward st feed = .ok (lm (ts ++ ids), st') ∧ Holds st' (ts ++ ids)

/-- A correct engine without a cache, for sequences of up to `cap` tokens: nothing is kept between calls.  With other positions below `cap`
it returns something. -/
structure PlainEngine {L : Type} (e : Eng L) (names : List String) (idName : String) (lm : List Nat → L) (cap : Nat) : Prop where
  whole : ∀ st feed ids, ids ≠ [] → ids.length ≤ cap → feed.get? idName = some (.row ids) →
    ("position" ∈ names → feed.get? "position" = some (.row (List.range ids.length))) →
    ∃ st', e.forward st feed = .ok (lm ids, st')
  returns : ∀ st feed ids pos, ids ≠ [] → ids.length ≤ cap → feed.get? idName = some (.row ids) → pos.length = ids.length →
    (∀ q ∈ pos, q < cap) → ("position" ∈ names → feed.get? "position" = some (.row pos)) → ∃ r, e.forward st feed = .ok r

end OnnxTool.Generate
