import Verif.Spec.Generate
import Verif.Proofs.Dict
/-!
# C53: text generation (`LLMInfer.generate`)
-/
namespace OnnxTool.Props
open OnnxTool OnnxTool.Generate

variable {L : Type}

/-- the value `feedOf` gives to a name -/
private def feedVal (ids pos : List Nat) (nPast : Nat) (clear : Bool) (t : String) : Option FVal :=
  if isIds t then some (.row ids)
  else if t = "position" then some (.row pos)
  else if t = "n_past" then some (.scalar nPast)
  else if t = "kv_cache" ∧ clear = true then some .zeros
  else none

private theorem feed_get (names : List String) (ids pos : List Nat) (nPast : Nat) (clear : Bool) (t : String) :
    (feedOf names ids pos nPast clear).get? t = if t ∈ names then feedVal ids pos nPast clear t else none := by
  have aux : ∀ (l : List String) (f : Feed), (l.foldl (fun f name =>
      if isIds name then f.set name (.row ids)
      else if name = "position" then f.set name (.row pos)
      else if name = "n_past" then f.set name (.scalar nPast)
      else if name = "kv_cache" then (if clear then f.set name .zeros else f)
      else f) f).get? t =
      if t ∈ l then (feedVal ids pos nPast clear t).or (f.get? t) else f.get? t := by
    intro l
    induction l with
    | nil => intro f; simp
    | cons a l ih =>
      intro f
      rw [List.foldl_cons, ih]
      by_cases ha : a = t
      · subst ha
        unfold feedVal
        by_cases hl : a ∈ l <;> simp only [hl, List.mem_cons, true_or, if_true, if_false] <;>
          (repeat' split) <;> simp_all [Dict.get?_set]
      · have hne : t ≠ a := fun h => ha h.symm
        have : Dict.get? (if isIds a then f.set a (.row ids)
            else if a = "position" then f.set a (.row pos)
            else if a = "n_past" then f.set a (.scalar nPast)
            else if a = "kv_cache" then (if clear then f.set a .zeros else f)
            else f) t = Dict.get? f t := by
          repeat' split
          all_goals first | exact Dict.get?_set_ne _ _ ha | rfl
        rw [this]
        simp [hne]
  unfold feedOf
  rw [aux]
  simp

private theorem feed_gives {names : List String} {idName : String} (hid : idName ∈ names) (hids : isIds idName = true)
    (ids : List Nat) (n nPast : Nat) (clear : Bool) (pos : List Nat) (hpos : pos = (List.range ids.length).map (n + ·))
    (hn : "n_past" ∈ names → nPast = n) : Gives names idName (feedOf names ids pos nPast clear) ids n := by
  refine ⟨?_, ?_, ?_⟩
  · rw [feed_get, if_pos hid]; simp [feedVal, hids]
  · intro h
    rw [feed_get, if_pos h]
    have : isIds "position" = false := by decide
    simp [feedVal, this, hpos]
  · intro h
    rw [feed_get, if_pos h, hn h]
    have : isIds "n_past" = false := by decide
    simp [feedVal, this]

private theorem feed_kv {names : List String} (hkv : "kv_cache" ∈ names) (ids pos : List Nat) (nPast : Nat) (clear : Bool) :
    (feedOf names ids pos nPast clear).get? "kv_cache" = if clear then some .zeros else none := by
  rw [feed_get, if_pos hkv]
  have h1 : isIds "kv_cache" = false := by decide
  cases clear <;> simp [feedVal, h1]

private theorem range_zero (n : Nat) : List.range n = (List.range n).map (0 + ·) := by simp

/-- The loop, for any invariant that makes the engine return the logits of the tokens so far. -/
private theorem loop_spec (m : LLM L) (lm : List Nat → L) (prompt : List Nat) (total : Nat) (Inv : Nat → GSt m.eng.St → Prop)
    (hpick : ∀ i l, ∃ t, m.pick i l = .ok t)
    (hstep : ∀ step s, step < total → Inv step s → s.gen.length = prompt.length + step →
      ∃ st', m.eng.forward s.st (stepFeed m prompt step s) = .ok (lm s.gen, st') ∧
        ∀ tok, Inv (step+1) ⟨st', s.gen ++ [tok],
          if m.hasKv then s.nPast + (stepInput m prompt step s.gen s.last).2.2 else s.nPast, tok⟩) :
    ∀ (left step : Nat) (s : GSt m.eng.St) (g : List Nat), step + left = total → Inv step s → s.gen = prompt ++ g → g.length = step →
      (∀ (i : Nat) (t : Nat), g[i]? = some t → m.pick i (lm (prompt ++ g.take i)) = .ok t) → m.eos ∉ g →
      ∃ s' g', loop m prompt left step s = .ok s' ∧ s'.gen = prompt ++ g' ∧ Autoregressive lm m.pick m.eos total prompt g' := by
  intro left
  induction left with
  | zero =>
    intro step s g ht hi hg hl hc he
    refine ⟨s, g, rfl, hg, hc, by omega, .inl (by omega), ?_⟩
    intro i _ h
    exact he (List.mem_of_getElem? h)
  | succ left ih =>
    intro step s g ht hi hg hl hc he
    obtain ⟨st', hf, hinv⟩ := hstep step s (by omega) hi (by rw [hg, List.length_append, hl])
    obtain ⟨tok, htok⟩ := hpick step (lm s.gen)
    have hg' : s.gen ++ [tok] = prompt ++ (g ++ [tok]) := by rw [hg]; simp
    have hlen : (g ++ [tok]).length = step + 1 := by simp [hl]
    have hc' : ∀ (i : Nat) (t : Nat), (g ++ [tok])[i]? = some t → m.pick i (lm (prompt ++ (g ++ [tok]).take i)) = .ok t := by
      intro i t hit
      by_cases hi : i < g.length
      · rw [List.getElem?_append_left hi] at hit
        rw [List.take_append_of_le_length (by omega)]
        exact hc i t hit
      · have : i = g.length := by
          have := (List.getElem?_eq_some_iff.1 hit).1
          simp at this; omega
        subst this
        simp only [List.getElem?_append_right (Nat.le_refl _), Nat.sub_self, List.getElem?_cons_zero, Option.some.injEq] at hit
        subst hit
        rw [List.take_left, hl, ← hg]; exact htok
    unfold loop stepOnce
    rw [hf]
    simp only
    rw [htok]
    simp only
    cases hb : (tok == m.eos) with
    | true =>
      simp only
      have hte : tok = m.eos := by simpa using hb
      refine ⟨_, g ++ [tok], rfl, hg', hc', by omega, .inr (by simp [hte]), ?_⟩
      intro i hi h
      rw [List.getElem?_append_left (by omega)] at h
      exact he (List.mem_of_getElem? h)
    | false =>
      simp only
      have hte : tok ≠ m.eos := by simpa using hb
      exact ih (step+1) _ (g ++ [tok]) (by omega) (hinv tok) hg' hlen hc' (by simp [he]; exact fun h => hte h.symm)

private theorem gen_of_loop {m : LLM L} {lm : List Nat → L} {verbose : Bool} {st st1 : m.eng.St} {prompt : List Nat} {maxLength : Int}
    (hw : warmup m prompt st = .ok st1) (hv : verbose = true → (prompt.length : Int) ≤ maxLength)
    (h : ∃ s' g', loop m prompt (maxLength - prompt.length + 1).toNat 0 { st := st1, gen := prompt } = .ok s' ∧ s'.gen = prompt ++ g' ∧
      Autoregressive lm m.pick m.eos (maxLength - prompt.length + 1).toNat prompt g') :
    ∃ g st', generate m verbose st prompt maxLength = .ok (prompt ++ g, st') ∧
      Autoregressive lm m.pick m.eos (maxLength - prompt.length + 1).toNat prompt g := by
  obtain ⟨s', g', h1, h2, h3⟩ := h
  refine ⟨g', s'.st, ?_, h3⟩
  unfold generate
  rw [hw]; simp only
  rw [h1]; simp only
  rw [if_neg, h2]
  simp only [Bool.and_eq_true, beq_iff_eq, not_and]
  intro hvb
  have := hv hvb
  have hne : g' ≠ [] := by
    rintro rfl
    rcases h3.ended with h | h
    · simp at h; omega
    · simp at h
  have := List.length_pos_iff.2 hne
  rw [h2, List.length_append]; omega

private theorem arith (a b : Nat) (ha : 0 < a) : a + b - 1 + 1 = a + (b + 1) - 1 := by omega

/-- **C53, with a cache.** With a correct engine with a cache of at least `max_length` positions (and room for the warm-up), whatever the
engine's state: `generate` returns the prompt followed by its autoregressive continuation — every token is chosen from the logits of the
prompt and all tokens before it — of at most `max_length - prompt_len + 1` tokens, cut after the first end token.  In particular every
call gets the right token, position and `n_past`, and neither the warm-up nor an earlier `generate` leaves a trace. -/
theorem C53_cached_generate_partial (m : LLM L) (lm : List Nat → L) (cap : Nat) (Holds : m.eng.St → List Nat → Prop) (idName : String)
    (hid : idName ∈ m.names) (hids : isIds idName = true) (hkv : "kv_cache" ∈ m.names)
    (heng : CachedEngine m.eng m.names idName lm cap Holds) (hpick : ∀ i l, ∃ t, m.pick i l = .ok t)
    (verbose : Bool) (st : m.eng.St) (prompt : List Nat) (hp : prompt ≠ []) (maxLength : Int)
    (hcap : maxLength ≤ cap) (hwarm : min prompt.length 4 + 1 ≤ cap) (hv : verbose = true → (prompt.length : Int) ≤ maxLength) :
    ∃ g st', generate m verbose st prompt maxLength = .ok (prompt ++ g, st') ∧
      Autoregressive lm m.pick m.eos (maxLength - prompt.length + 1).toNat prompt g := by
  have hhas : m.hasKv = true := by simpa [LLM.hasKv] using hkv
  -- warm-up
  have hw : ∃ st1, warmup m prompt st = .ok st1 := by
    have hlen : (prompt.take (min prompt.length 4)).length = min prompt.length 4 := by simp
    have hpl := List.length_pos_iff.2 hp
    obtain ⟨s1, f1, h1⟩ := heng.prefill st (feedOf m.names (prompt.take (min prompt.length 4)) (List.range (min prompt.length 4)) 0 true)
      (prompt.take (min prompt.length 4)) (by intro h; rw [h] at hlen; simp at hlen; omega) (by omega)
      (feed_gives hid hids _ 0 0 true _ (by rw [hlen]; exact range_zero _) (fun _ => rfl)) (by rw [feed_kv hkv]; rfl)
    unfold warmup
    rw [f1]; simp only
    cases prompt with
    | nil => exact absurd rfl hp
    | cons t rest =>
      simp only
      obtain ⟨s2, f2, _⟩ := heng.decode s1 (feedOf m.names [t] [min (t :: rest).length 4] (min (t :: rest).length 4) false) _ [t] (by simp)
        (by rw [hlen]; simp only [List.length_cons, List.length_nil] at hwarm ⊢; omega) h1
        (feed_gives hid hids [t] _ _ false _ (by rw [hlen]; simp) (fun _ => hlen.symm)) (by rw [feed_kv hkv]; rfl)
      rw [f2]
      exact ⟨s2, rfl⟩
  obtain ⟨st1, hw⟩ := hw
  refine gen_of_loop hw hv ?_
  refine loop_spec m lm prompt (maxLength - prompt.length + 1).toNat
    (fun step s => s.nPast = (if step = 0 then 0 else prompt.length + step - 1) ∧
      (step = 0 → s.gen = prompt) ∧
      (step ≠ 0 → ∃ ts, s.gen = ts ++ [s.last] ∧ ts.length = prompt.length + step - 1 ∧ Holds s.st ts)) hpick ?_ _ 0 _ [] (by omega)
    ⟨rfl, fun _ => rfl, fun h => absurd rfl h⟩ (by simp) rfl (by simp) (by simp)
  intro step s hs hinv hlen
  obtain ⟨i1, i2, i3⟩ := hinv
  by_cases h0 : step = 0
  · subst h0
    have hg := i2 rfl
    simp only [if_true] at i1
    obtain ⟨s2, f2, h2⟩ := heng.prefill s.st (stepFeed m prompt 0 s) prompt hp (by omega)
      (feed_gives hid hids _ 0 _ true _ (range_zero _) (fun _ => i1)) (by unfold stepFeed; rw [feed_kv hkv]; rfl)
    refine ⟨s2, by rw [f2, hg], fun tok => ⟨?_, fun h => by simp at h, fun _ => ⟨prompt, by simp only; rw [hg], by simp, h2⟩⟩⟩
    simp [hhas, stepInput, i1]
  · obtain ⟨ts, hg, hts, hh⟩ := i3 h0
    rw [if_neg h0] at i1
    have hsi : stepInput m prompt step s.gen s.last = ([s.last], [prompt.length + step - 1], 1) := by
      unfold stepInput; rw [if_neg h0, if_pos hhas]
    obtain ⟨s2, f2, h2⟩ := heng.decode s.st (stepFeed m prompt step s) ts [s.last] (by simp) (by simp; omega) hh
      (by unfold stepFeed; rw [hsi]; exact feed_gives hid hids _ _ _ _ _ (by simp [hts]) (fun _ => by omega))
      (by unfold stepFeed; rw [feed_kv hkv]; simp [h0])
    refine ⟨s2, by rw [f2, hg], fun tok => ⟨?_, fun h => by simp at h, fun _ => ⟨s.gen, rfl, by rw [hlen]; omega, by rw [hg]; exact h2⟩⟩⟩
    have hpl := List.length_pos_iff.2 hp
    rw [if_pos hhas, hsi]
    simp only
    rw [i1, if_neg (Nat.succ_ne_zero step)]
    exact arith _ _ hpl

/-- **C53, without a cache.** The same for a model without a cache, which is given the whole sequence at every step. -/
theorem C53_plain_generate_partial (m : LLM L) (lm : List Nat → L) (cap : Nat) (idName : String)
    (hid : idName ∈ m.names) (hids : isIds idName = true) (hkv : "kv_cache" ∉ m.names)
    (heng : PlainEngine m.eng m.names idName lm cap) (hpick : ∀ i l, ∃ t, m.pick i l = .ok t)
    (verbose : Bool) (st : m.eng.St) (prompt : List Nat) (hp : prompt ≠ []) (maxLength : Int)
    (hcap : maxLength ≤ cap) (hwarm : min prompt.length 4 + 1 ≤ cap) (hv : verbose = true → (prompt.length : Int) ≤ maxLength) :
    ∃ g st', generate m verbose st prompt maxLength = .ok (prompt ++ g, st') ∧
      Autoregressive lm m.pick m.eos (maxLength - prompt.length + 1).toNat prompt g := by
  have hhas : m.hasKv = false := by simpa [LLM.hasKv] using hkv
  have hgive : ∀ ids pos n clear, (feedOf m.names ids pos n clear).get? idName = some (.row ids) ∧
      ("position" ∈ m.names → (feedOf m.names ids pos n clear).get? "position" = some (.row pos)) := by
    intro ids pos n clear
    refine ⟨by rw [feed_get, if_pos hid]; simp [feedVal, hids], fun h => ?_⟩
    rw [feed_get, if_pos h]
    have : isIds "position" = false := by decide
    simp [feedVal, this]
  have hpl := List.length_pos_iff.2 hp
  have hw : ∃ st1, warmup m prompt st = .ok st1 := by
    have hlen : (prompt.take (min prompt.length 4)).length = min prompt.length 4 := by simp
    obtain ⟨s1, f1⟩ := heng.whole st (feedOf m.names (prompt.take (min prompt.length 4)) (List.range (min prompt.length 4)) 0 true)
      (prompt.take (min prompt.length 4)) (by intro h; rw [h] at hlen; simp at hlen; omega) (by omega)
      (hgive _ _ _ _).1 (by rw [hlen]; exact (hgive _ _ _ _).2)
    unfold warmup
    rw [f1]; simp only
    cases prompt with
    | nil => exact absurd rfl hp
    | cons t rest =>
      simp only
      obtain ⟨⟨_, s2⟩, f2⟩ := heng.returns s1 (feedOf m.names [t] [min (t :: rest).length 4] (min (t :: rest).length 4) false) [t] _ (by simp)
        (by simp; omega) (hgive _ _ _ _).1 (by simp)
        (by intro q hq; simp only [List.mem_singleton] at hq; omega) (hgive _ _ _ _).2
      rw [f2]
      exact ⟨s2, rfl⟩
  obtain ⟨st1, hw⟩ := hw
  refine gen_of_loop hw hv ?_
  refine loop_spec m lm prompt (maxLength - prompt.length + 1).toNat (fun step s => step = 0 → s.gen = prompt) hpick ?_ _ 0 _ [] (by omega)
    (fun _ => rfl) (by simp) rfl (by simp) (by simp)
  intro step s hs hinv hlen
  have hsi : stepInput m prompt step s.gen s.last = (s.gen, List.range s.gen.length, s.gen.length) := by
    unfold stepInput
    split
    · rename_i h; rw [hinv h]
    · rw [hhas]; rfl
  obtain ⟨s2, f2⟩ := heng.whole s.st (stepFeed m prompt step s) s.gen (by intro h; rw [h] at hlen; simp at hlen; omega) (by omega)
    (by unfold stepFeed; rw [hsi]; exact (hgive _ _ _ _).1) (by unfold stepFeed; rw [hsi]; exact (hgive _ _ _ _).2)
  exact ⟨s2, f2, fun tok h => by simp at h⟩

/-- The continuation is determined by the model, the choice and the limit. -/
theorem C53_continuation_unique (lm : List Nat → L) (pick : Nat → L → Except PyErr Nat) (eos n : Nat) (prompt g g' : List Nat)
    (h : Autoregressive lm pick eos n prompt g) (h' : Autoregressive lm pick eos n prompt g') : g = g' := by
  -- they agree on the common length
  have agree : ∀ k, k ≤ g.length → k ≤ g'.length → g.take k = g'.take k := by
    intro k
    induction k with
    | zero => intros; simp
    | succ k ih =>
      intro h1 h2
      have e := ih (by omega) (by omega)
      have a := h.chosen k (g[k]'(by omega)) (List.getElem?_eq_getElem (by omega))
      have b := h'.chosen k (g'[k]'(by omega)) (List.getElem?_eq_getElem (by omega))
      clear a
      rw [List.take_succ_eq_append_getElem (by omega), List.take_succ_eq_append_getElem (by omega), e]
      congr 2
      have := h.chosen k (g[k]'(by omega)) (List.getElem?_eq_getElem (by omega))
      rw [e, b] at this
      injection this with this
      exact this.symm
  have le : ∀ {a b : List Nat}, Autoregressive lm pick eos n prompt a → Autoregressive lm pick eos n prompt b →
      (∀ k, k ≤ a.length → k ≤ b.length → a.take k = b.take k) → b.length ≤ a.length := by
    intro a b ha hb hab
    apply Nat.le_of_not_lt
    intro hlt
    rcases ha.ended with e | e
    · have := hb.length; omega
    · have hpos : 0 < a.length := by
        cases a with
        | nil => simp at e
        | cons x a => simp
      apply hb.noEos (a.length - 1) (by omega)
      have h1 := hab a.length (Nat.le_refl _) (by omega)
      rw [List.take_length] at h1
      rw [List.getLast?_eq_getElem?] at e
      rw [← e]
      have h2 : (b.take a.length)[a.length - 1]? = a[a.length - 1]? := by rw [← h1]
      rw [← h2, List.getElem?_take_of_lt (by omega)]
  have l1 := le h h' agree
  have l2 := le h' h (fun k a b => (agree k b a).symm)
  have := agree g.length (Nat.le_refl _) (by omega)
  rw [List.take_length] at this
  rw [this, List.take_of_length_le (by omega)]

/-- **C53, the cache changes nothing.** A model exported with and without a cache generates the same tokens. -/
theorem C53_cache_same_tokens (m m' : LLM L) (lm : List Nat → L) (cap : Nat) (Holds : m.eng.St → List Nat → Prop) (idName idName' : String)
    (hid : idName ∈ m.names) (hids : isIds idName = true) (hkv : "kv_cache" ∈ m.names) (heng : CachedEngine m.eng m.names idName lm cap Holds)
    (hid' : idName' ∈ m'.names) (hids' : isIds idName' = true) (hkv' : "kv_cache" ∉ m'.names)
    (heng' : PlainEngine m'.eng m'.names idName' lm cap)
    (hpick : ∀ i l, ∃ t, m.pick i l = .ok t) (hpe : m'.pick = m.pick) (hee : m'.eos = m.eos)
    (verbose : Bool) (st : m.eng.St) (st' : m'.eng.St) (prompt : List Nat) (hp : prompt ≠ []) (maxLength : Int)
    (hcap : maxLength ≤ cap) (hwarm : min prompt.length 4 + 1 ≤ cap) (hv : verbose = true → (prompt.length : Int) ≤ maxLength) :
    ∃ ts a b, generate m verbose st prompt maxLength = .ok (ts, a) ∧ generate m' verbose st' prompt maxLength = .ok (ts, b) := by
  obtain ⟨g, a, h1, h2⟩ := C53_cached_generate_partial m lm cap Holds idName hid hids hkv heng hpick verbose st prompt hp maxLength hcap hwarm hv
  obtain ⟨g', b, h3, h4⟩ := C53_plain_generate_partial m' lm cap idName' hid' hids' hkv' heng' (by rw [hpe]; exact hpick) verbose st' prompt hp
    maxLength hcap hwarm hv
  rw [hpe, hee] at h4
  have := C53_continuation_unique _ _ _ _ _ _ _ h2 h4
  subst this
  exact ⟨_, a, b, h1, h3⟩

/-- **C53 (finding): one token too many.** `max_length` is documented as the greatest number of tokens, prompt included.  A model that
never chooses the end token generates `max_length + 1` tokens, whatever the prompt (of at most `max_length + 1` tokens). -/
theorem C53_one_token_too_many (lm : List Nat → L) (pick : Nat → L → Except PyErr Nat) (eos : Nat) (prompt g : List Nat) (maxLength : Nat)
    (hnever : ∀ i l, pick i l ≠ .ok eos) (hlen : prompt.length ≤ maxLength + 1)
    (h : Autoregressive lm pick eos ((maxLength : Int) - prompt.length + 1).toNat prompt g) :
    (prompt ++ g).length = maxLength + 1 := by
  rw [List.length_append]
  rcases h.ended with e | e
  · omega
  · have hpos : 0 < g.length := by
      cases g with
      | nil => simp at e
      | cons x a => simp
    rw [List.getLast?_eq_getElem?] at e
    exact absurd (h.chosen _ _ e) (hnever _ _)

/-- **C53, bound.** Never more than `max_length + 1` tokens, unless the prompt already has more. -/
theorem C53_length_bound (lm : List Nat → L) (pick : Nat → L → Except PyErr Nat) (eos : Nat) (prompt g : List Nat) (maxLength : Int)
    (h : Autoregressive lm pick eos (maxLength - prompt.length + 1).toNat prompt g) :
    ((prompt ++ g).length : Int) ≤ max (prompt.length : Int) (maxLength + 1) := by
  have := h.length
  rw [List.length_append]
  omega

/-- **C53 (finding): a prompt longer than `max_length`.** With `verbose` every engine raises (ZeroDivisionError in the summary line, unless
the warm-up raised before); without it the prompt comes back. -/
theorem C53_long_prompt (m : LLM L) (verbose : Bool) (st : m.eng.St) (prompt : List Nat) (maxLength : Int)
    (h : maxLength + 1 ≤ prompt.length) :
    (verbose = true → ∃ e, generate m verbose st prompt maxLength = .error e) ∧
    (∀ st1, warmup m prompt st = .ok st1 → generate m true st prompt maxLength = .error .zeroDivision ∧
      generate m false st prompt maxLength = .ok (prompt, st1)) := by
  have h0 : (maxLength - prompt.length + 1).toNat = 0 := by omega
  have key : ∀ v st1, warmup m prompt st = .ok st1 →
      generate m v st prompt maxLength = if v then .error .zeroDivision else .ok (prompt, st1) := by
    intro v st1 hw
    unfold generate
    rw [hw]; simp only [h0, loop]
    cases v <;> simp
  refine ⟨?_, fun st1 hw => ⟨by rw [key true st1 hw]; rfl, by rw [key false st1 hw]; rfl⟩⟩
  rintro rfl
  cases hw : warmup m prompt st with
  | error e => exact ⟨e, by unfold generate; rw [hw]⟩
  | ok st1 => exact ⟨_, by rw [key true st1 hw]; rfl⟩

/-- **C53 (finding): an empty prompt always raises.** -/
theorem C53_empty_prompt_raises (m : LLM L) (verbose : Bool) (st : m.eng.St) (maxLength : Int) :
    ∃ e, generate m verbose st [] maxLength = .error e := by
  unfold generate warmup
  split
  · rename_i e _; exact ⟨_, rfl⟩
  · rename_i st1 h
    split at h
    · cases h
    · cases h

/-! ### Engines meeting the contracts -/

private def rowOf (f : Feed) (t : String) : List Nat := match f.get? t with | some (.row l) => l | _ => []
private def scalarOf (f : Feed) (t : String) : Nat := match f.get? t with | some (.scalar n) => n | _ => 0

/-- an engine whose cache holds the tokens themselves: it checks the positions and takes the announced past from the cache -/
def tokenEngine (lm : List Nat → L) (cap : Nat) : Eng L where
  St := List Nat
  forward st feed :=
    let n := scalarOf feed "n_past"
    let st := if feed.get? "kv_cache" = some .zeros then [] else st
    let ids := rowOf feed "ids"
    if rowOf feed "position" = (List.range ids.length).map (n + ·) ∧ n ≤ st.length ∧ n + ids.length ≤ cap then
      .ok (lm (st.take n ++ ids), st.take n ++ ids)
    else .error .runtimeError

/-- it meets the contract of `C53_cached_generate_partial`, for every language model -/
theorem C53_contract_satisfiable (lm : List Nat → L) (cap : Nat) :
    CachedEngine (tokenEngine lm cap) ["ids", "position", "n_past", "kv_cache"] "ids" lm cap (fun st ts => st = ts) := by
  constructor
  · intro st feed ids _ hc hg hz
    obtain ⟨g1, g2, g3⟩ := hg
    have g2 := g2 (by simp); have g3 := g3 (by simp)
    refine ⟨ids, ?_, rfl⟩
    simp only [tokenEngine, rowOf, scalarOf, g1, g2, g3, hz]
    simp [hc]
  · intro (st : List Nat) feed ts ids _ hc hst hg hz
    subst hst
    obtain ⟨g1, g2, g3⟩ := hg
    have g2 := g2 (by simp); have g3 := g3 (by simp)
    refine ⟨st ++ ids, ?_, rfl⟩
    simp only [tokenEngine, rowOf, scalarOf, g1, g2, g3, hz]
    simp [hc]

/-- counts up; the end token is 7 -/
def countLLM : LLM Nat where
  eng := tokenEngine (fun ts => ts.getLastD 0 + 1) 10
  names := ["ids", "position", "n_past", "kv_cache"]
  eos := 7
  pick := fun _ l => .ok l

/-- three tokens of prompt and `max_length = 4` give five tokens -/
example : (generate countLLM false ([] : List Nat) [1, 2, 3] 4).toOption.map (·.1) = some [1, 2, 3, 4, 5] := by decide
/-- the end token stops it; an earlier session does not matter -/
example : (generate countLLM true ([9, 9, 9] : List Nat) [4, 5] 9).toOption.map (·.1) = some [4, 5, 6, 7] := by decide

end OnnxTool.Props
