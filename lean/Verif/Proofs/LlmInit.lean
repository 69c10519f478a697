import Verif.Model.LlmInit
import Verif.Spec.LlmInit
import Verif.Proofs.Dict
/-! Lemmas for C104. -/
namespace OnnxTool.LlmInit
open OnnxTool OnnxTool.Engine OnnxTool.LlmInit.Spec

theorem fixed_iff (d : Dim) : fixed d = true ↔ Known d := by
  cases d with
  | num k => simp [fixed, Known]
  | var v => simp [fixed, Known]

/-- closed form of the descriptions -/
def described (n : String) : Nat → List Dim → List Dim
  | _, [] => []
  | i, s :: l => (if fixed s then s else .var (dimVar n i)) :: described n (i + 1) l

theorem dims_fst (n : String) (m : Int) (s : List Dim) : ∀ i r, (dims n m i s r).1 = described n i s := by
  induction s with
  | nil => intro i r; rfl
  | cons a s ih =>
    intro i r
    simp only [dims, described]
    split <;> simp [ih]

theorem dims_snd (n : String) (m : Int) (s : List Dim) : ∀ i r (v : String) x, (dims n m i s r).2.get? v = some x ↔
    ((∃ (j : Nat) (d : Dim), s[j]? = some d ∧ ¬ Known d ∧ v = dimVar n (i + j)) ∧ x = (1, upper n m)) ∨
    ((¬ ∃ (j : Nat) (d : Dim), s[j]? = some d ∧ ¬ Known d ∧ v = dimVar n (i + j)) ∧ r.get? v = some x) := by
  induction s with
  | nil => intro i r v x; simp [dims]
  | cons a s ih =>
    intro i r v x
    have split0 : (∃ (j : Nat) (d : Dim), (a :: s)[j]? = some d ∧ ¬ Known d ∧ v = dimVar n (i + j)) ↔
        (¬ Known a ∧ v = dimVar n i) ∨ ∃ (j : Nat) (d : Dim), s[j]? = some d ∧ ¬ Known d ∧ v = dimVar n (i + 1 + j) := by
      constructor
      · rintro ⟨j, d, h1, h2, h3⟩
        cases j with
        | zero => simp at h1; subst h1; exact .inl ⟨h2, h3⟩
        | succ j => refine .inr ⟨j, d, by simpa using h1, h2, ?_⟩; rw [h3]; congr 1; omega
      · rintro (⟨h, h'⟩ | ⟨j, d, h1, h2, h3⟩)
        · exact ⟨0, a, rfl, h, h'⟩
        · refine ⟨j + 1, d, by simpa using h1, h2, ?_⟩; rw [h3]; congr 1; omega
    rw [split0]
    by_cases ha : fixed a = true
    · have hk := (fixed_iff a).1 ha
      simp only [dims, ha, if_true, ih, hk, not_true, false_and, false_or]
    · have hk : ¬ Known a := fun h => ha ((fixed_iff a).2 h)
      simp only [dims, ha, Bool.false_eq_true, if_false, ih, hk, not_false_eq_true, true_and]
      rw [Dict.get?_set]
      by_cases hv : dimVar n i = v
      · subst hv
        by_cases h : ∃ (j : Nat) (d : Dim), s[j]? = some d ∧ ¬ Known d ∧ dimVar n i = dimVar n (i + 1 + j)
        · simp [h]
        · simp only [h, false_and, not_false_eq_true, if_true, true_and, false_or, or_false, not_true, Option.some.injEq]
          exact eq_comm
      · have hv' : v ≠ dimVar n i := fun h => hv h.symm
        simp only [hv, if_false, hv', false_or]

/-- variables of the cache and of the other inputs differ -/
theorem dimVar_upper {n n' : String} {i j : Nat} (h : dimVar n i = dimVar n' j) (hn : n = "ids" ∨ n = "position" ∨ n = "kv_cache")
    (hn' : n' = "ids" ∨ n' = "position" ∨ n' = "kv_cache") : n = n' := by
  have h := congrArg String.toList h
  unfold dimVar at h
  simp only [String.toList_append] at h
  rcases hn with rfl | rfl | rfl <;> rcases hn' with rfl | rfl | rfl <;>
    first
      | rfl
      | (exfalso
         have h2 := congrArg (fun l => l[4]?) h
         simp at h2)

/-- what the first loop says of an input -/
def entry (shapes : Dict (List Dim)) (n : String) : Option (List Dim) :=
  if dynamicNames.contains n then
    match shapes.get? n with
    | none => none
    | some s => if n = "n_past" then some [] else if s.isEmpty then none else some (described n 0 s)
  else none

theorem describe_fst (shapes : Dict (List Dim)) (m : Int) (acc : Desc × Range) (a n : String) :
    (describe shapes m acc a).1.get? n = if a = n then (entry shapes n).or (acc.1.get? n) else acc.1.get? n := by
  unfold describe entry
  by_cases ha : a = n
  · subst ha
    simp only [if_true]
    by_cases hd : dynamicNames.contains a = true
    · rw [if_pos hd, if_pos hd]
      cases hs : shapes.get? a with
      | none => rfl
      | some s =>
        simp only []
        by_cases hp : a = "n_past"
        · simp [hp, Dict.get?_set]
        · by_cases he : s.isEmpty = true
          · simp [hp, he]
          · simp [hp, he, Dict.get?_set, dims_fst]
    · rw [if_neg hd, if_neg hd]; simp
  · simp only [if_neg ha]
    by_cases hd : dynamicNames.contains a = true
    · rw [if_pos hd]
      cases hs : shapes.get? a with
      | none => rfl
      | some s =>
        simp only []
        repeat' split
        all_goals first | rfl | simp [Dict.get?_set, ha]
    · rw [if_neg hd]

theorem fold_fst (shapes : Dict (List Dim)) (m : Int) (names : List String) : ∀ (acc : Desc × Range) (n : String),
    (names.foldl (describe shapes m) acc).1.get? n = if n ∈ names then (entry shapes n).or (acc.1.get? n) else acc.1.get? n := by
  induction names with
  | nil => intro acc n; simp
  | cons a l ih =>
    intro acc n
    rw [List.foldl_cons, ih, describe_fst]
    by_cases ha : a = n
    · subst ha; by_cases hl : a ∈ l <;> cases entry shapes a <;> simp [hl]
    · have : n ≠ a := fun h => ha h.symm
      simp [ha, this]

theorem describe_keys (shapes : Dict (List Dim)) (m : Int) (acc : Desc × Range) (a : String) :
    (describe shapes m acc a).1.keys = if (entry shapes a).isSome ∧ a ∉ acc.1.keys then acc.1.keys ++ [a] else acc.1.keys := by
  unfold describe entry
  by_cases hd : dynamicNames.contains a = true
  · rw [if_pos hd, if_pos hd]
    cases hs : shapes.get? a with
    | none => simp
    | some s =>
      simp only []
      by_cases hp : a = "n_past"
      · subst hp; simp only [if_true, Dict.keys_set]; by_cases h : "n_past" ∈ acc.1.keys <;> simp [h]
      · by_cases he : s.isEmpty = true
        · simp [hp, he]
        · simp only [hp, he, if_false, Bool.false_eq_true, Dict.keys_set]; by_cases h : a ∈ acc.1.keys <;> simp [h]
  · rw [if_neg hd, if_neg hd]; simp

/-- with distinct inputs the descriptions come in the order of the inputs -/
theorem fold_keys (shapes : Dict (List Dim)) (m : Int) (names : List String) : ∀ (acc : Desc × Range), names.Nodup →
    (∀ n ∈ names, n ∉ acc.1.keys) →
    (names.foldl (describe shapes m) acc).1.keys = acc.1.keys ++ names.filter fun n => (entry shapes n).isSome := by
  induction names with
  | nil => intro acc _ _; simp
  | cons a l ih =>
    intro acc hn hk
    have ha := hk a List.mem_cons_self
    have hn := List.nodup_cons.1 hn
    rw [List.foldl_cons, ih _ hn.2, describe_keys]
    · by_cases he : (entry shapes a).isSome = true
      · simp [he, ha]
      · simp [he]
    · intro n hnl
      rw [describe_keys]
      have hna : n ≠ a := fun h => hn.1 (h ▸ hnl)
      have := hk n (List.mem_cons_of_mem _ hnl)
      split
      · simp [this, hna]
      · exact this

theorem fold_nodup (shapes : Dict (List Dim)) (m : Int) (names : List String) : ∀ (acc : Desc × Range), acc.1.keys.Nodup →
    (names.foldl (describe shapes m) acc).1.keys.Nodup := by
  induction names with
  | nil => intro acc h; exact h
  | cons a l ih =>
    intro acc h
    rw [List.foldl_cons]
    refine ih _ ?_
    rw [describe_keys]
    split
    · rename_i h2
      rw [List.nodup_append]
      refine ⟨h, by simp, ?_⟩
      intro x hx y hy
      simp at hy
      rintro rfl
      exact h2.2 (hy ▸ hx)
    · exact h

/-- the unknown dimension `i` of the declared input `n` -/
def FreeAt (shapes : Dict (List Dim)) (names : List String) (n : String) (i : Nat) : Prop :=
  n ∈ names ∧ (n = "ids" ∨ n = "position" ∨ n = "kv_cache") ∧ ∃ s d, shapes.get? n = some s ∧ s[i]? = some d ∧ ¬ Known d

theorem dyn_iff (n : String) : dynamicNames.contains n = true ∧ n ≠ "n_past" ↔ (n = "ids" ∨ n = "position" ∨ n = "kv_cache") := by
  simp only [dynamicNames, List.contains_eq_mem, List.mem_cons, List.not_mem_nil, or_false, decide_eq_true_eq]
  constructor
  · rintro ⟨rfl | rfl | rfl | rfl, h⟩ <;> simp_all
  · rintro (rfl | rfl | rfl) <;> decide

theorem describe_snd (shapes : Dict (List Dim)) (m : Int) (acc : Desc × Range) (a v : String) (x : Int × Int) :
    (describe shapes m acc a).2.get? v = some x ↔
    ((∃ i, FreeAt shapes [a] a i ∧ v = dimVar a i) ∧ x = (1, upper a m)) ∨
    ((¬ ∃ i, FreeAt shapes [a] a i ∧ v = dimVar a i) ∧ acc.2.get? v = some x) := by
  by_cases hx : (a = "ids" ∨ a = "position" ∨ a = "kv_cache")
  · obtain ⟨hd, hp⟩ := (dyn_iff a).2 hx
    unfold describe
    rw [if_pos hd]
    cases hs : shapes.get? a with
    | none => simp [FreeAt, hs]
    | some s =>
      simp only [if_neg hp]
      by_cases he : s.isEmpty = true
      · have : s = [] := by simpa using he
        subst this
        simp [FreeAt, hs]
      · rw [if_neg he]
        simp only [dims_snd]
        have : (∃ (j : Nat) (d : Dim), s[j]? = some d ∧ ¬ Known d ∧ v = dimVar a (0 + j)) ↔ ∃ i, FreeAt shapes [a] a i ∧ v = dimVar a i := by
          constructor
          · rintro ⟨j, d, h1, h2, h3⟩
            exact ⟨j, ⟨by simp, hx, s, d, hs, h1, h2⟩, by rw [h3]; congr 1; omega⟩
          · rintro ⟨i, ⟨_, _, s', d, h0, h1, h2⟩, h3⟩
            rw [hs] at h0; injection h0 with h0; subst h0
            exact ⟨i, d, h1, h2, by rw [h3]; congr 1; omega⟩
        rw [this]
  · have : ¬ ∃ i, FreeAt shapes [a] a i ∧ v = dimVar a i := by
      rintro ⟨i, ⟨_, h, _⟩, _⟩; exact hx h
    simp only [this, false_and, not_false_eq_true, true_and, false_or]
    unfold describe
    by_cases hd : dynamicNames.contains a = true
    · have hp : a = "n_past" := Classical.byContradiction fun h => hx ((dyn_iff a).1 ⟨hd, h⟩)
      rw [if_pos hd]
      cases hs : shapes.get? a with
      | none => rfl
      | some s => simp only [if_pos hp]
    · rw [if_neg hd]

theorem fold_snd (shapes : Dict (List Dim)) (m : Int) (names : List String) : ∀ (acc : Desc × Range),
    (∀ n i x, FreeAt shapes [n] n i → acc.2.get? (dimVar n i) = some x → x = (1, upper n m)) →
    ∀ (v : String) (x : Int × Int),
    (names.foldl (describe shapes m) acc).2.get? v = some x ↔
      (∃ n i, FreeAt shapes names n i ∧ v = dimVar n i ∧ x = (1, upper n m)) ∨
      ((¬ ∃ n i, FreeAt shapes names n i ∧ v = dimVar n i) ∧ acc.2.get? v = some x) := by
  induction names with
  | nil => intro acc _ v x; simp [FreeAt]
  | cons a l ih =>
    intro acc hacc v x
    rw [List.foldl_cons, ih]
    · rw [describe_snd]
      have hsplit : ∀ n i, FreeAt shapes (a :: l) n i ↔ (n = a ∧ FreeAt shapes [a] a i) ∨ FreeAt shapes l n i := by
        intro n i
        unfold FreeAt
        constructor
        · rintro ⟨h1, h2⟩
          rcases List.mem_cons.1 h1 with rfl | h1
          · exact .inl ⟨rfl, by simp, h2⟩
          · exact .inr ⟨h1, h2⟩
        · rintro (⟨rfl, _, h⟩ | ⟨h1, h⟩)
          · exact ⟨by simp, h⟩
          · exact ⟨by simp [h1], h⟩
      by_cases hl : ∃ n i, FreeAt shapes l n i ∧ v = dimVar n i
      · obtain ⟨n, i, hf, rfl⟩ := hl
        have hex : ∃ n' i', FreeAt shapes l n' i' ∧ dimVar n i = dimVar n' i' := ⟨n, i, hf, rfl⟩
        have hex2 : ∃ n' i', FreeAt shapes (a :: l) n' i' ∧ dimVar n i = dimVar n' i' := ⟨n, i, (hsplit _ _).2 (.inr hf), rfl⟩
        simp only [hex, not_true, false_and, or_false, hex2]
        constructor
        · rintro ⟨n', i', h1, h2, h3⟩; exact ⟨n', i', (hsplit _ _).2 (.inr h1), h2, h3⟩
        · rintro ⟨n', i', h1, h2, h3⟩
          refine ⟨n, i, hf, rfl, ?_⟩
          rw [h3, dimVar_upper h2 hf.2.1 h1.2.1]
      · simp only [hl, not_false_eq_true, true_and]
        have hl1 : ¬ ∃ n i, FreeAt shapes l n i ∧ v = dimVar n i ∧ x = (1, upper n m) := by
          rintro ⟨n, i, h1, h2, _⟩; exact hl ⟨n, i, h1, h2⟩
        simp only [hl1, false_or]
        by_cases ha : ∃ i, FreeAt shapes [a] a i ∧ v = dimVar a i
        · simp only [ha, true_and, not_true, false_and, or_false]
          obtain ⟨i, h1, h2⟩ := ha
          constructor
          · intro h3; exact .inl ⟨a, i, (hsplit _ _).2 (.inl ⟨rfl, h1⟩), h2, h3⟩
          · rintro (⟨n', i', h3, h4, h5⟩ | ⟨h3, _⟩)
            · rw [h5, dimVar_upper (h2.symm.trans h4) h1.2.1 h3.2.1]
            · exact absurd ⟨a, i, (hsplit _ _).2 (.inl ⟨rfl, h1⟩), h2⟩ h3
        · have hno : ¬ ∃ n i, FreeAt shapes (a :: l) n i ∧ v = dimVar n i := by
            rintro ⟨n, i, h1, h2⟩
            rcases (hsplit _ _).1 h1 with ⟨rfl, h⟩ | h
            · exact ha ⟨i, h, h2⟩
            · exact hl ⟨n, i, h, h2⟩
          have hno1 : ¬ ∃ n i, FreeAt shapes (a :: l) n i ∧ v = dimVar n i ∧ x = (1, upper n m) := by
            rintro ⟨n, i, h1, h2, _⟩; exact hno ⟨n, i, h1, h2⟩
          simp only [ha, false_and, not_false_eq_true, true_and, false_or, hno, hno1]
    · intro n i y hf hy
      rcases (describe_snd shapes m acc a _ y).1 hy with ⟨⟨j, h1, h2⟩, h3⟩ | ⟨_, h⟩
      · rw [h3, dimVar_upper h2 hf.2.1 h1.2.1]
      · exact hacc n i y hf h

theorem described_get (n : String) (s : List Dim) : ∀ (i j : Nat),
    (described n i s)[j]? = (s[j]?).map fun d => if fixed d then d else .var (dimVar n (i + j)) := by
  induction s with
  | nil => intro i j; simp [described]
  | cons a s ih =>
    intro i j
    cases j with
    | zero => simp [described]
    | succ j =>
      simp only [described, List.getElem?_cons_succ, ih]
      congr; funext d; congr 3; omega

theorem described_length (n : String) (s : List Dim) : ∀ i, (described n i s).length = s.length := by
  induction s with
  | nil => intro i; rfl
  | cons a s ih => intro i; simp [described, ih]

theorem described_fixed (n : String) (s : List Dim) : ∀ i, (∀ d ∈ s, Known d) → described n i s = s := by
  induction s with
  | nil => intro i _; rfl
  | cons a s ih =>
    intro i h
    have ha : fixed a = true := (fixed_iff a).2 (h a List.mem_cons_self)
    simp [described, ha, ih _ (fun d hd => h d (List.mem_cons_of_mem _ hd))]

theorem set_same {α : Type} (d : Dict α) (k : String) (v : α) (h : d.get? k = some v) : d.set k v = d := by
  induction d with
  | nil => simp at h
  | cons a d ih =>
    obtain ⟨k', w⟩ := a
    by_cases hk : k' = k
    · subst hk; simp [Dict.get?] at h; simp [Dict.set, h]
    · simp only [Dict.get?, hk, if_false] at h
      simp [Dict.set, hk, ih h]

theorem empty_iff {α : Type} (d : Dict α) : d.isEmpty = true ↔ ∀ k, d.get? k = none := by
  constructor
  · intro h; have : d = [] := by simpa using h
    subst this; intro k; rfl
  · intro h
    cases d with
    | nil => rfl
    | cons a d => have := h a.1; simp [Dict.get?] at this

/-- the correction for the cache changes nothing -/
theorem fixCache_eq (names : List String) (shapes : Dict (List Dim)) (m : Int) :
    fixCache names shapes (names.foldl (describe shapes m) ([], [])).1 = (names.foldl (describe shapes m) ([], [])).1 := by
  unfold fixCache
  split
  · rename_i h
    simp only [Bool.and_eq_true, List.contains_eq_mem, decide_eq_true_eq] at h
    split
    · rfl
    · rename_i s hs
      split
      · rename_i h2
        simp only [Bool.and_eq_true, Bool.not_eq_true', List.all_eq_true] at h2
        refine set_same _ _ _ ?_
        rw [fold_fst, if_pos h.1]
        have : entry shapes "kv_cache" = some s := by
          unfold entry
          rw [if_pos (by decide), hs]
          simp only [h2.1]
          rw [described_fixed _ _ _ fun d hd => (fixed_iff d).1 (h2.2 d hd)]
          simp
        rw [this]; rfl
      · rfl
  · rfl

/-- what `lastToSeq` gives to an input -/
def seqDesc (n : String) (desc : List Dim) : List Dim :=
  if n = "kv_cache" ∨ n = "n_past" then desc else ((lastToSeq desc).map (·.1)).getD desc

/-- the bound `lastToSeq` gives -/
def seqBound (n : String) (desc : List Dim) : Option Int :=
  if n = "kv_cache" ∨ n = "n_past" then none else (lastToSeq desc).map (·.2)

theorem makeSeq_fst (acc : Desc × Range) (a n : String) : (makeSeq acc a).1.get? n =
    if a = n then (acc.1.get? n).map (seqDesc n) else acc.1.get? n := by
  unfold makeSeq seqDesc
  by_cases ha : a = n
  · subst ha
    simp only [if_true]
    by_cases hk : a = "kv_cache" ∨ a = "n_past"
    · simp [hk]
    · simp only [hk, if_false]
      cases hg : acc.1.get? a with
      | none => simp [hg]
      | some desc =>
        simp only []
        cases hs : lastToSeq desc with
        | none => simp [hg, hs]
        | some p => simp [hs, Dict.get?_set]
  · simp only [if_neg ha]
    repeat' split
    all_goals first | rfl | simp [Dict.get?_set, ha]

theorem makeSeq_keys (acc : Desc × Range) (a : String) : (makeSeq acc a).1.keys = acc.1.keys := by
  unfold makeSeq
  split
  · rfl
  · split
    · rfl
    · rename_i desc hg
      split
      · rfl
      · simp only [Dict.keys_set]
        rw [if_pos ((Dict.get?_isSome_iff _ _).1 (by rw [hg]; rfl))]

theorem makeSeq_snd (acc : Desc × Range) (a : String) : (makeSeq acc a).2 =
    match (acc.1.get? a).bind (seqBound a) with
    | none => acc.2
    | some k => acc.2.set "seq" (1, k) := by
  unfold makeSeq seqBound
  by_cases hk : a = "kv_cache" ∨ a = "n_past"
  · simp only [hk, if_true]; cases acc.1.get? a <;> rfl
  · simp only [hk, if_false]
    cases hg : acc.1.get? a with
    | none => rfl
    | some desc =>
      simp only [Option.bind_some]
      cases hs : lastToSeq desc with
      | none => rfl
      | some p => rfl

theorem foldSeq_fst (l : List String) : ∀ (acc : Desc × Range) (n : String), l.Nodup → (l.foldl makeSeq acc).1.get? n =
    if n ∈ l then (acc.1.get? n).map (seqDesc n) else acc.1.get? n := by
  induction l with
  | nil => intro acc n _; simp
  | cons a l ih =>
    intro acc n hn
    have hn := List.nodup_cons.1 hn
    rw [List.foldl_cons, ih _ _ hn.2, makeSeq_fst]
    by_cases ha : a = n
    · subst ha; simp [hn.1]
    · have : n ≠ a := fun h => ha h.symm
      simp [ha, this]

theorem filterMap_same {α β : Type} (f g : α → Option β) (l : List α) (h : ∀ x ∈ l, f x = g x) : l.filterMap f = l.filterMap g := by
  induction l with
  | nil => rfl
  | cons a l ih =>
    rw [List.filterMap_cons, List.filterMap_cons, h a List.mem_cons_self, ih fun x hx => h x (List.mem_cons_of_mem _ hx)]

/-- the range of `seq` is set by the last input that has a bound -/
theorem foldSeq_snd (l : List String) : ∀ (acc : Desc × Range) (v : String), l.Nodup → (l.foldl makeSeq acc).2.get? v =
    if v = "seq" then (((l.filterMap fun n => (acc.1.get? n).bind (seqBound n)).getLast?).map fun k => ((1 : Int), k)).or (acc.2.get? v)
    else acc.2.get? v := by
  induction l with
  | nil => intro acc v _; simp
  | cons a l ih =>
    intro acc v hn
    have hn := List.nodup_cons.1 hn
    rw [List.foldl_cons, ih _ _ hn.2, makeSeq_snd]
    have hsame : (l.filterMap fun n => ((makeSeq acc a).1.get? n).bind (seqBound n)) =
        l.filterMap fun n => (acc.1.get? n).bind (seqBound n) := by
      refine filterMap_same _ _ _ fun n hnl => ?_
      rw [makeSeq_fst, if_neg (fun h : a = n => hn.1 (h ▸ hnl))]
    rw [hsame]
    by_cases hv : v = "seq"
    · subst hv
      simp only [if_true]
      cases hb : (acc.1.get? a).bind (seqBound a) with
      | none => simp [hb]
      | some k =>
        simp only [hb, List.filterMap_cons, Dict.get?_set, if_true]
        cases hl : (l.filterMap fun n => (acc.1.get? n).bind (seqBound n)) with
        | nil => simp
        | cons b t => simp [List.getLast?_cons]
    · simp only [hv, if_false]
      split
      · rfl
      · rw [Dict.get?_set, if_neg (fun h => hv h.symm)]

end OnnxTool.LlmInit
