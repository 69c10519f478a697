import Verif.Model.Tensor
import Verif.Props.TensorProto
/-! # C97: a `Tensor` describes the data it holds, after any sequence of calls -/
namespace OnnxTool.Props
open OnnxTool OnnxTool.Engine OnnxTool.TProto OnnxTool.Tensor

/-! ## Specification -/

/-- every dimension is a number that is not negative: the only shapes an array can have -/
def KnownShape (s : List Dim) : Prop := ∀ d ∈ s, ∃ n : Nat, d = .num (n : Int)

/-- the shape `s` says the array's -/
def IsShape (a : Arr) (s : List Dim) : Prop :=
  s.length = a.shape.length ∧ ∀ (i n : Nat), a.shape[i]? = some n → s[i]? = some (.num (n : Int))

/-- the call puts data in the tensor -/
def PutsData : Call → Arr → Prop
  | .updateTensor a, b => a = b
  | .updateProto a, b => a = b
  | _, _ => False

/-- the call sets the shape to `s` -/
def SetsShape : Call → List Dim → Prop
  | .updateTensor a, s => IsShape a s
  | .updateProto a, s => IsShape a s
  | .updateShape s', s => s' = s
  | _, _ => False

/-- the call sets the element type to `d` -/
def SetsType : Call → Option NpType → Prop
  | .updateTensor a, d => d = some a.dtype
  | .updateProto a, d => d = some a.dtype
  | .updateDtype d', d => d' = d
  | _, _ => False

/-- all elements are zero, as many as the shape says -/
def AllZero (z : Arr) : Prop := z.elems.length = count z.shape ∧ ∀ e ∈ z.elems, e = 0

/-! ## Facts -/

theorem isShape_iff (a : Arr) (s : List Dim) : IsShape a s ↔ s = asDims a.shape := by
  unfold IsShape asDims
  constructor
  · rintro ⟨h1, h2⟩
    apply List.ext_getElem?
    intro i
    rw [List.getElem?_map]
    cases h : a.shape[i]? with
    | none =>
      rw [List.getElem?_eq_none_iff] at h
      exact List.getElem?_eq_none_iff.mpr (by omega)
    | some n => rw [h2 i n h]; rfl
  · rintro rfl
    refine ⟨by simp, ?_⟩
    intro i n h
    rw [List.getElem?_map, h]; rfl

theorem sameShape_iff (a b : List Dim) : sameShape a b = true ↔ a = b := by
  induction a generalizing b with
  | nil => cases b <;> simp [sameShape]
  | cons x a ih =>
    cases b with
    | nil => simp [sameShape]
    | cons y b =>
      unfold sameShape
      by_cases h : x = y
      · rw [if_pos h, ih]; subst h; simp
      · rw [if_neg h]; simp [h]

theorem zeros_known {s : List Dim} (d : Option NpType) (h : KnownShape s) :
    ∃ z, zeros s d = .ok z ∧ IsShape z s ∧ z.dtype = d.getD .float64 ∧ AllZero z := by
  have h1 : ¬ s.any isVar = true := by
    rw [List.any_eq_true]; rintro ⟨x, hx, hv⟩
    obtain ⟨n, rfl⟩ := h x hx
    cases hv
  have h2 : ¬ s.any isNeg = true := by
    rw [List.any_eq_true]; rintro ⟨x, hx, hv⟩
    obtain ⟨n, rfl⟩ := h x hx
    simp [isNeg] at hv
    omega
  unfold zeros
  rw [if_neg h1, if_neg h2]
  refine ⟨_, rfl, ?_, rfl, ?_⟩
  · rw [isShape_iff]
    show s = asDims (s.map asNat)
    unfold asDims
    rw [List.map_map]
    conv => lhs; rw [← List.map_id s]
    apply List.map_congr_left
    intro x hx
    obtain ⟨n, rfl⟩ := h x hx
    rfl
  · exact ⟨List.length_replicate, fun e he => List.eq_of_mem_replicate he⟩

theorem zeros_unknown {s : List Dim} (d : Option NpType) (h : ¬ KnownShape s) : ∃ e, zeros s d = .error e := by
  unfold zeros
  by_cases h1 : s.any isVar = true
  · exact ⟨_, if_pos h1⟩
  by_cases h2 : s.any isNeg = true
  · exact ⟨_, by rw [if_neg h1, if_pos h2]⟩
  exfalso
  apply h
  intro x hx
  rw [List.any_eq_true] at h1 h2
  cases x with
  | var v => exact absurd ⟨_, hx, rfl⟩ h1
  | num n =>
    refine ⟨n.toNat, ?_⟩
    have : ¬ n < 0 := fun hn => h2 ⟨_, hx, by simpa [isNeg] using hn⟩
    rw [Int.toNat_of_nonneg (by omega)]

theorem known_of_isShape {a : Arr} {s : List Dim} (h : IsShape a s) : KnownShape s := by
  rw [isShape_iff] at h
  subst h
  intro x hx
  unfold asDims at hx
  obtain ⟨n, _, rfl⟩ := List.mem_map.mp hx
  exact ⟨n, rfl⟩

/-- the tensor holds data that fits its shape -/
theorem getNumpy_fits {t : T} {a : Arr} (hn : t.numpy = some a) (hs : IsShape a t.shape) : getNumpy t = .ok (a, t) := by
  unfold getNumpy
  rw [hn]
  simp only []
  rw [if_pos ((sameShape_iff _ _).mpr ((isShape_iff _ _).mp hs).symm)]

theorem getNumpy_made {t : T} (hn : ∀ a, t.numpy = some a → ¬ IsShape a t.shape) (hk : KnownShape t.shape) :
    ∃ z, getNumpy t = .ok (z, { t with numpy := some z }) ∧ IsShape z t.shape ∧ z.dtype = t.dtype.getD .float64 ∧ AllZero z := by
  obtain ⟨z, hz, h1, h2, h3⟩ := zeros_known t.dtype hk
  refine ⟨z, ?_, h1, h2, h3⟩
  unfold getNumpy
  rw [hz]
  cases ht : t.numpy with
  | none => rfl
  | some a =>
    simp only []
    rw [if_neg]
    intro hh
    exact hn a ht ((isShape_iff _ _).mpr ((sameShape_iff _ _).mp hh).symm)

theorem getNumpy_raises {t : T} (hk : ¬ KnownShape t.shape) : ∃ e, getNumpy t = .error e := by
  obtain ⟨e, he⟩ := zeros_unknown t.dtype hk
  refine ⟨e, ?_⟩
  unfold getNumpy
  rw [he]
  cases ht : t.numpy with
  | none => rfl
  | some a =>
    simp only []
    rw [if_neg]
    intro hh
    exact hk (known_of_isShape ((isShape_iff _ _).mpr ((sameShape_iff _ _).mp hh).symm))

theorem step_read_shape (t : T) : (step t .getNumpy).shape = t.shape ∧ (step t .getNumpy).dtype = t.dtype ∧ (step t .getNumpy).name = t.name := by
  by_cases hk : KnownShape t.shape
  · by_cases hn : ∃ a, t.numpy = some a ∧ IsShape a t.shape
    · obtain ⟨a, h1, h2⟩ := hn
      simp only [step, getNumpy_fits h1 h2, and_self]
    · obtain ⟨z, hz, -⟩ := getNumpy_made (t := t) (fun a h1 h2 => hn ⟨a, h1, h2⟩) hk
      simp only [step, hz, and_self]
  · obtain ⟨e, he⟩ := getNumpy_raises hk
    simp only [step, he, and_self]

theorem run_append (t : T) (a b : List Call) : run t (a ++ b) = run (run t a) b := by
  unfold run; rw [List.foldl_append]

theorem run_cons (t : T) (c : Call) (b : List Call) : run t (c :: b) = run (step t c) b := rfl

theorem step_shape (t : T) (c : Call) (s : List Dim) (h : SetsShape c s) : (step t c).shape = s := by
  cases c with
  | updateTensor a => exact ((isShape_iff _ _).mp h).symm
  | updateProto a => exact ((isShape_iff _ _).mp h).symm
  | updateShape s' => exact h
  | updateDtype d => exact h.elim
  | getNumpy => exact h.elim

theorem step_shape_kept (t : T) (c : Call) (h : ∀ s, ¬ SetsShape c s) : (step t c).shape = t.shape := by
  cases c with
  | updateTensor a => exact absurd ((isShape_iff a _).mpr rfl) (h _)
  | updateProto a => exact absurd ((isShape_iff a _).mpr rfl) (h _)
  | updateShape s' => exact absurd rfl (h s')
  | updateDtype d => rfl
  | getNumpy => exact (step_read_shape t).1

theorem step_type (t : T) (c : Call) (d : Option NpType) (h : SetsType c d) : (step t c).dtype = d := by
  cases c with
  | updateTensor a => exact h.symm
  | updateProto a => exact h.symm
  | updateShape s' => exact h.elim
  | updateDtype d => exact h
  | getNumpy => exact h.elim

theorem step_type_kept (t : T) (c : Call) (h : ∀ d, ¬ SetsType c d) : (step t c).dtype = t.dtype := by
  cases c with
  | updateTensor a => exact absurd rfl (h _)
  | updateProto a => exact absurd rfl (h _)
  | updateShape s' => rfl
  | updateDtype d => exact absurd rfl (h d)
  | getNumpy => exact (step_read_shape t).2.1

theorem run_shape_kept (t : T) (cs : List Call) (h : ∀ c ∈ cs, ∀ s, ¬ SetsShape c s) : (run t cs).shape = t.shape := by
  induction cs generalizing t with
  | nil => rfl
  | cons c cs ih =>
    rw [run_cons, ih _ (fun x hx => h x (List.mem_cons_of_mem _ hx)), step_shape_kept t c (h c List.mem_cons_self)]

theorem run_type_kept (t : T) (cs : List Call) (h : ∀ c ∈ cs, ∀ d, ¬ SetsType c d) : (run t cs).dtype = t.dtype := by
  induction cs generalizing t with
  | nil => rfl
  | cons c cs ih =>
    rw [run_cons, ih _ (fun x hx => h x (List.mem_cons_of_mem _ hx)), step_type_kept t c (h c List.mem_cons_self)]

theorem run_name (t : T) (cs : List Call) : (run t cs).name = t.name := by
  induction cs generalizing t with
  | nil => rfl
  | cons c cs ih =>
    rw [run_cons, ih]
    cases c with
    | getNumpy => exact (step_read_shape t).2.2
    | _ => rfl

/-! ## Theorems -/

/-- **C97, shape.** After any sequence of calls a tensor reports the shape that was set last (by `update_tensor`, `update_proto` or `update_shape`), or, if none
was, the one it began with: `get_numpy` and `update_dtype` never change it. -/
theorem C97_shape (t : T) (before after : List Call) (c : Call) (s : List Dim) (hc : SetsShape c s) (ha : ∀ x ∈ after, ∀ s', ¬ SetsShape x s') :
    getShape (run t (before ++ c :: after)) = s ∧ getShape (run t after) = getShape t := by
  refine ⟨?_, run_shape_kept t after ha⟩
  show (run t (before ++ c :: after)).shape = s
  rw [run_append, run_cons, run_shape_kept _ _ ha, step_shape _ _ _ hc]

example : SetsShape (.updateTensor ⟨.int8, [2, 3], [1, 2, 3, 4, 5, 6]⟩) [.num 2, .num 3] := (isShape_iff _ _).mpr rfl
example : ∀ x ∈ [Call.getNumpy, .updateDtype (some .int64)], ∀ s', ¬ SetsShape x s' := by simp [SetsShape]

/-- **C97, element type.** Attribute `dtype` is the one set last. -/
theorem C97_dtype (t : T) (before after : List Call) (c : Call) (d : Option NpType) (hc : SetsType c d) (ha : ∀ x ∈ after, ∀ d', ¬ SetsType x d') :
    (run t (before ++ c :: after)).dtype = d ∧ (run t after).dtype = t.dtype := by
  refine ⟨?_, run_type_kept t after ha⟩
  rw [run_append, run_cons, run_type_kept _ _ ha, step_type _ _ _ hc]

example : ∀ x ∈ [Call.getNumpy, .updateShape [.num 4]], ∀ d', ¬ SetsType x d' := by simp [SetsType]

/-- **C97, reading.** After any sequence of calls `get_numpy` returns an array exactly if every dimension of the reported shape is a non-negative number; the
array has the reported shape; reading again gives the same array and changes nothing. -/
theorem C97_read (t : T) (cs : List Call) :
    (KnownShape (getShape (run t cs)) ↔ ∃ r, getNumpy (run t cs) = .ok r) ∧
      ∀ a t', getNumpy (run t cs) = .ok (a, t') → IsShape a (getShape (run t cs)) ∧ getShape t' = getShape (run t cs) ∧ getNumpy t' = .ok (a, t') := by
  generalize run t cs = t
  constructor
  · constructor
    · intro hk
      by_cases hn : ∃ a, t.numpy = some a ∧ IsShape a t.shape
      · obtain ⟨a, h1, h2⟩ := hn
        exact ⟨_, getNumpy_fits h1 h2⟩
      · obtain ⟨z, hz, -⟩ := getNumpy_made (t := t) (fun a h1 h2 => hn ⟨a, h1, h2⟩) hk
        exact ⟨_, hz⟩
    · rintro ⟨r, hr⟩
      refine Classical.byContradiction fun hk => ?_
      obtain ⟨e, he⟩ := getNumpy_raises (t := t) hk
      rw [hr] at he; cases he
  · intro a t' h
    by_cases hk : KnownShape t.shape
    · by_cases hn : ∃ a, t.numpy = some a ∧ IsShape a t.shape
      · obtain ⟨b, h1, h2⟩ := hn
        rw [getNumpy_fits h1 h2] at h
        cases h
        exact ⟨h2, rfl, getNumpy_fits h1 h2⟩
      · obtain ⟨z, hz, h1, -⟩ := getNumpy_made (t := t) (fun a h1 h2 => hn ⟨a, h1, h2⟩) hk
        rw [hz] at h
        cases h
        exact ⟨h1, rfl, getNumpy_fits rfl h1⟩
    · obtain ⟨e, he⟩ := getNumpy_raises (t := t) hk
      rw [he] at h; cases h

example : KnownShape [.num 2, .num 0] ∧ ¬ KnownShape [.num 2, .var "N"] ∧ ¬ KnownShape [.num (-1)] := by
  refine ⟨?_, ?_, ?_⟩
  · intro d hd
    simp only [List.mem_cons, List.not_mem_nil, or_false] at hd
    rcases hd with rfl | rfl
    · exact ⟨2, rfl⟩
    · exact ⟨0, rfl⟩
  · intro h
    obtain ⟨n, hn⟩ := h (.var "N") (by simp)
    cases hn
  · intro h
    obtain ⟨n, hn⟩ := h (.num (-1)) (by simp)
    injection hn with hn
    omega

/-- the data in the tensor while the calls put no new data: it stays until it is read under another (known) shape, from then on it is zeros -/
theorem data_after (t : T) (a : Arr) (cs : List Call) (hp : ∀ c ∈ cs, ∀ b, ¬ PutsData c b) :
    (t.numpy = some a → (∀ p q, cs = p ++ Call.getNumpy :: q → IsShape a (run t p).shape ∨ ¬ KnownShape (run t p).shape) →
        (run t cs).numpy = some a) ∧
      ((∀ z, t.numpy = some z → AllZero z) → ∀ z, (run t cs).numpy = some z → AllZero z) := by
  induction cs generalizing t with
  | nil => exact ⟨fun h _ => h, fun h => h⟩
  | cons c cs ih =>
    have ih' := ih (step t c) (fun x hx => hp x (List.mem_cons_of_mem _ hx))
    constructor
    · intro h hr
      rw [run_cons]
      apply ih'.1
      · cases c with
        | updateTensor b => exact absurd rfl (hp _ List.mem_cons_self b)
        | updateProto b => exact absurd rfl (hp _ List.mem_cons_self b)
        | updateShape s => exact h
        | updateDtype d => exact h
        | getNumpy =>
          rcases hr [] cs rfl with h1 | h1
          · simp only [step, getNumpy_fits h h1, h]
          · obtain ⟨e, he⟩ := getNumpy_raises (t := t) h1
            simp only [step, he, h]
      · intro p q hpq
        exact hr (c :: p) q (by rw [hpq]; rfl)
    · intro h z hz
      rw [run_cons] at hz
      refine ih'.2 ?_ z hz
      intro z hz
      cases c with
      | updateTensor b => exact absurd rfl (hp _ List.mem_cons_self b)
      | updateProto b => exact absurd rfl (hp _ List.mem_cons_self b)
      | updateShape s => exact h z hz
      | updateDtype d => exact h z hz
      | getNumpy =>
        by_cases hk : KnownShape t.shape
        · by_cases hn : ∃ a, t.numpy = some a ∧ IsShape a t.shape
          · obtain ⟨b, h1, h2⟩ := hn
            simp only [step, getNumpy_fits h1 h2] at hz
            exact h z hz
          · obtain ⟨z', hz', _, _, h3⟩ := getNumpy_made (t := t) (fun a h1 h2 => hn ⟨a, h1, h2⟩) hk
            simp only [step, hz'] at hz
            injection hz with hz
            exact hz ▸ h3
        · obtain ⟨e, he⟩ := getNumpy_raises (t := t) hk
          simp only [step, he] at hz
          exact h z hz

/-- **C97, what is read (partial).** Data put in a tensor is what `get_numpy` returns, if the calls since then put no other data, the reported shape is that of the data
and so it was (or unusable) whenever `get_numpy` was called in between.  `update_dtype` has no influence.
Missing: readings under another shape, where it is false (`C97_data_lost`). -/
theorem C97_data_kept_partial (t : T) (c : Call) (a : Arr) (cs : List Call) (hc : PutsData c a) (hp : ∀ c ∈ cs, ∀ b, ¬ PutsData c b)
    (hr : ∀ p q, cs = p ++ Call.getNumpy :: q → IsShape a (getShape (run t (c :: p))) ∨ ¬ KnownShape (getShape (run t (c :: p))))
    (hs : IsShape a (getShape (run t (c :: cs)))) : getNumpy (run t (c :: cs)) = .ok (a, run t (c :: cs)) := by
  apply getNumpy_fits _ hs
  rw [run_cons]
  refine (data_after (step t c) a cs hp).1 ?_ hr
  cases c with
  | updateTensor b => cases hc; rfl
  | updateProto b => cases hc; rfl
  | _ => exact hc.elim

/-- **C97 fails after `update_shape` (finding).** Once `get_numpy` has been called under another known shape the data is gone: every later reading gives zeros
until data is put again, even if the old shape is set again; and already the first such reading gives zeros instead of an error. -/
theorem C97_data_lost (t : T) (c : Call) (a : Arr) (p q : List Call) (hc : PutsData c a)
    (hp : ∀ c ∈ p ++ q, ∀ b, ¬ PutsData c b) (hs : ¬ IsShape a (getShape (run t (c :: p)))) (hk : KnownShape (getShape (run t (c :: p))))
    (r : Arr × T) (hr : getNumpy (run t (c :: p ++ Call.getNumpy :: q)) = .ok r) : AllZero r.1 := by
  -- the data held just before the first deviating reading is `a` or zeros; in both cases that reading leaves zeros
  have key : ∀ (t : T) (cs : List Call), (∀ c ∈ cs, ∀ b, ¬ PutsData c b) → t.numpy = some a →
      ∀ z, (run t cs).numpy = some z → z = a ∨ AllZero z := by
    intro t cs
    induction cs generalizing t with
    | nil => intro _ h z hz; left; rw [show (run t []).numpy = t.numpy from rfl, h] at hz; injection hz with hz; exact hz.symm
    | cons c cs ih =>
      intro hp h z hz
      rw [run_cons] at hz
      have hp' := fun x hx => hp x (List.mem_cons_of_mem _ hx)
      by_cases hst : (step t c).numpy = some a
      · exact ih _ hp' hst z hz
      · right
        refine (data_after (step t c) a cs hp').2 ?_ z hz
        intro z hz
        cases c with
        | updateTensor b => exact absurd rfl (hp _ List.mem_cons_self b)
        | updateProto b => exact absurd rfl (hp _ List.mem_cons_self b)
        | updateShape s => exact absurd h hst
        | updateDtype d => exact absurd h hst
        | getNumpy =>
          by_cases hk : KnownShape t.shape
          · by_cases hn : ∃ a, t.numpy = some a ∧ IsShape a t.shape
            · obtain ⟨b, h1, h2⟩ := hn
              simp only [step, getNumpy_fits h1 h2] at hst
              exact absurd h hst
            · obtain ⟨z', hz', _, _, h3⟩ := getNumpy_made (t := t) (fun a h1 h2 => hn ⟨a, h1, h2⟩) hk
              simp only [step, hz'] at hz
              injection hz with hz
              exact hz ▸ h3
          · obtain ⟨e, he⟩ := getNumpy_raises (t := t) hk
            simp only [step, he] at hst
            exact absurd h hst
  have h0 : (step t c).numpy = some a := by
    cases c with
    | updateTensor b => cases hc; rfl
    | updateProto b => cases hc; rfl
    | _ => exact hc.elim
  -- after the reading
  have h1 : ∀ z, (step (run t (c :: p)) .getNumpy).numpy = some z → AllZero z := by
    intro z hz
    generalize ht : run t (c :: p) = u at hs hk hz
    by_cases hn : ∃ a, u.numpy = some a ∧ IsShape a u.shape
    · obtain ⟨b, h1, h2⟩ := hn
      simp only [step, getNumpy_fits h1 h2] at hz
      rw [h1] at hz
      injection hz with hz
      subst hz
      rcases key (step t c) p (fun x hx => hp x (List.mem_append_left _ hx)) h0 b (by rw [← run_cons, ht, h1]) with e | e
      · subst e; exact absurd h2 hs
      · exact e
    · obtain ⟨z', hz', _, _, h3⟩ := getNumpy_made (t := u) (fun a h1 h2 => hn ⟨a, h1, h2⟩) hk
      simp only [step, hz'] at hz
      injection hz with hz
      exact hz ▸ h3
  have h2 := (data_after (step (run t (c :: p)) .getNumpy) a q (fun x hx => hp x (List.mem_append_right _ hx))).2 h1
  rw [run_append, run_cons] at hr
  generalize run (step (run t (c :: p)) .getNumpy) q = u at hr h2
  by_cases hk : KnownShape u.shape
  · by_cases hn : ∃ a, u.numpy = some a ∧ IsShape a u.shape
    · obtain ⟨b, h3, h4⟩ := hn
      rw [getNumpy_fits h3 h4] at hr
      cases hr
      exact h2 _ h3
    · obtain ⟨z', hz', _, _, h3⟩ := getNumpy_made (t := u) (fun a h1 h2 => hn ⟨a, h1, h2⟩) hk
      rw [hz'] at hr
      cases hr
      exact h3
  · obtain ⟨e, he⟩ := getNumpy_raises (t := u) hk
    rw [he] at hr; cases hr

/-- a tensor with data -/
def held : T := createInitial "w" ⟨.int8, [2, 2], [1, 2, 3, 4]⟩

/-- An instance: set data, look at it under shape `[4]`, go back to `[2, 2]`: zeros. -/
example : (getNumpy (run held [.updateTensor ⟨.int8, [2, 2], [1, 2, 3, 4]⟩, .updateShape [.num 4], .getNumpy, .updateShape [.num 2, .num 2]])).toOption.map (·.1)
    = some ⟨.int8, [2, 2], [0, 0, 0, 0]⟩ := by decide

/-- Without the reading in between the data is still there. -/
example : (getNumpy (run held [.updateTensor ⟨.int8, [2, 2], [1, 2, 3, 4]⟩, .updateShape [.num 4], .updateDtype none, .updateShape [.num 2, .num 2]])).toOption.map (·.1)
    = some ⟨.int8, [2, 2], [1, 2, 3, 4]⟩ := by decide

/-- the element type of the data a tensor holds; without data, attribute `dtype` -/
def heldType (t : T) : Option NpType :=
  match t.numpy with
  | none => t.dtype
  | some a => some a.dtype

theorem volume_dims (l : List Nat) (v : Int) : volumeLoop (.num v) (asDims l) = .ok (.num (v * (count l : Nat))) := by
  induction l generalizing v with
  | nil => simp [asDims, volumeLoop, count]
  | cons x l ih =>
    have h : volumeLoop (.num v) (asDims (x :: l)) = volumeLoop (.num (v * (x : Int))) (asDims l) := rfl
    rw [h, ih]
    simp only [count, List.foldr_cons, Int.natCast_mul, Int.mul_assoc]

/-- **C97, sizes (partial).** A tensor that holds data of the reported shape, with at least one dimension, reports as memory size the number of bytes of the data
(`tobytes()`), and per element the bytes of one.
Missing: scalars and symbolic shapes, where it is false (`C97_scalar_has_no_size`, `C97_symbolic_size`). -/
theorem C97_memsize_partial (t : T) (a : Arr) (hn : t.numpy = some a) (hwf : Arr.WF a) (hs : IsShape a (getShape t)) (hr : a.shape ≠ []) :
    getMemsize t = .ok (.num ((a.elems.flatMap (Serial.leBytes a.dtype.size)).length : Nat)) ∧ getElementsize t = a.dtype.size := by
  have he : getElementsize t = a.dtype.size := by unfold getElementsize; rw [hn]
  refine ⟨?_, he⟩
  have hfl : ∀ l : List Nat, (l.flatMap (Serial.leBytes a.dtype.size)).length = a.dtype.size * l.length := by
    intro l
    induction l with
    | nil => rfl
    | cons e l ih => rw [List.flatMap_cons, List.length_append, Serial.leBytes_length, ih, List.length_cons, Nat.mul_add, Nat.mul_one, Nat.add_comm]
  unfold getMemsize volume
  rw [(isShape_iff _ _).mp hs, if_pos (show (asDims a.shape).length > 0 by
    unfold asDims; rw [List.length_map]; exact List.length_pos_iff.mpr hr), volume_dims]
  simp only [mul]
  rw [he, hfl, hwf.1]
  simp [Int.mul_comm]

example : getMemsize held = .ok (.num 4) := by rfl
example : Arr.WF ⟨.int8, [2, 2], [1, 2, 3, 4]⟩ := by unfold Arr.WF; decide

/-- **C97, sizes without data.** A tensor without data whose shape is known and has at least one dimension reports the product of the dimensions times the bytes
of one element of its `dtype`. -/
theorem C97_memsize_no_data (t : T) (hn : t.numpy = none) (s : List Nat) (hs : getShape t = asDims s) (hr : s ≠ []) :
    getMemsize t = .ok (.num ((count s * bytesOf t.dtype : Nat) : Int)) := by
  unfold getMemsize volume
  rw [hs, if_pos (show (asDims s).length > 0 by unfold asDims; rw [List.length_map]; exact List.length_pos_iff.mpr hr), volume_dims]
  simp only [mul, getElementsize, hn]
  simp

/-- **C97 is false for scalars (finding).** A tensor of shape `[]` reports 0 bytes, whatever it holds. -/
theorem C97_scalar_has_no_size (t : T) (hs : getShape t = []) : getMemsize t = .ok (.num 0) := by
  unfold getMemsize volume
  rw [hs]
  simp [volumeLoop, mul]

example : getMemsize (createInitial "eps" ⟨.float32, [], [925353388]⟩) = .ok (.num 0) := by rfl

/-- **C97 is false for symbolic shapes (finding).** The size of a tensor with shape `[n, k]`, `n` a name, is a text: the name repeated `k` times the element
size; with two names it is a `TypeError`. -/
theorem C97_symbolic_size (t : T) (n m : String) (k : Nat) :
    (getShape t = [.var n, .num (k : Int)] → getMemsize t = .ok (.str (repeatStr (repeatStr (repeatStr n 1) k) (getElementsize t)))) ∧
      (getShape t = [.var n, .var m] → getMemsize t = .error .typeError) := by
  constructor
  · intro hs
    unfold getMemsize volume
    rw [hs]
    rfl
  · intro hs
    unfold getMemsize volume
    rw [hs]
    rfl

example : getMemsize { ofName "x" with shape := [.var "N", .num 2] } = .ok (.str "NNNNNNNN") := by rfl

/-- **C97, value info.** `make_value_proto` gives nothing for a nameless tensor, raises `TypeError` if there is neither data nor a `dtype` with an ONNX code,
and otherwise a description from which a new `Tensor` gets the name, the reported shape and the element type of the data (or the `dtype`, without data). -/
theorem C97_value_info (t : T) :
    (t.name = "" → makeValueProto t = .ok none) ∧
      (t.name ≠ "" → heldType t = none → makeValueProto t = .error .typeError) ∧
      (∀ d, t.name ≠ "" → heldType t = some d → ∃ v, makeValueProto t = .ok (some v) ∧ (ofValueInfo v).name = t.name ∧
        getShape (ofValueInfo v) = getShape t ∧ (ofValueInfo v).dtype = some d ∧ (ofValueInfo v).numpy = none) := by
  have hsh : ∀ s : List Dim, (((if s = [] then none else some (s.map some)) : Option (List (Option Dim))).getD []).map (fun d => d.getD (.num (-1))) = s := by
    intro s
    by_cases h : s = []
    · rw [if_pos h]; simp [h]
    · rw [if_neg h, Option.getD_some, List.map_map]
      conv => rhs; rw [← List.map_id s]
      rfl
  refine ⟨?_, ?_, ?_⟩
  · intro h; unfold makeValueProto; rw [if_pos h]
  · intro h hd
    unfold makeValueProto; rw [if_neg h]
    unfold heldType at hd
    cases hn : t.numpy with
    | none => rw [hn] at hd; simp only [] at hd; simp [hd]
    | some a => rw [hn] at hd; cases hd
  · intro d h hd
    unfold makeValueProto
    rw [if_neg h]
    unfold heldType at hd
    cases hn : t.numpy with
    | none =>
      rw [hn] at hd; simp only [] at hd
      simp only [hd, Option.map_some]
      exact ⟨_, rfl, rfl, hsh _, C32_dtype_roundtrip d, rfl⟩
    | some a =>
      rw [hn] at hd; simp only [Option.some.injEq] at hd
      subst hd
      exact ⟨_, rfl, rfl, hsh _, C32_dtype_roundtrip _, rfl⟩

example : heldType held = some .int8 ∧ held.name ≠ "" := by decide

/-- **C97, the two descriptions.** What a tensor with data writes as tensor proto and as value info has the same element type, and the same shape exactly if the
reported shape is that of the data; reloading the proto gives the data (as far as C32 says). -/
theorem C97_descriptions_agree (t : T) (a : Arr) (hn : t.numpy = some a) (hname : t.name ≠ "") :
    ∃ p v, makeTensorProto t = some p ∧ makeValueProto t = .ok (some v) ∧ p.dataType = v.elemType ∧
      (shapeOf v = asDims p.dims ↔ IsShape a (getShape t)) := by
  obtain ⟨v, hv, -, hs, -⟩ := (C97_value_info t).2.2 a.dtype hname (by unfold heldType; rw [hn])
  have hp : (makeProto a).dims = a.shape ∧ (makeProto a).dataType = npToOnnx a.dtype := by
    unfold makeProto
    by_cases h : a.shape = []
    · rw [if_pos h, h]; cases a.dtype <;> exact ⟨rfl, rfl⟩
    · rw [if_neg h]
      by_cases h2 : a.dtype = .float32 ∨ a.dtype = .int32
      · rw [if_pos h2]; cases a.dtype <;> exact ⟨rfl, rfl⟩
      · rw [if_neg h2]; exact ⟨rfl, rfl⟩
  refine ⟨makeProto a, v, by unfold makeTensorProto; rw [hn]; rfl, hv, ?_, ?_⟩
  · rw [hp.2]
    unfold makeValueProto at hv
    rw [if_neg hname, hn] at hv
    simp only [Except.ok.injEq, Option.some.injEq] at hv
    rw [← hv]
  · rw [hp.1, isShape_iff]
    have : shapeOf v = getShape t := hs
    rw [this]

/-- **C97 (finding): `update_dtype` does not reach the data.** While a tensor holds data, `update_dtype` changes neither what `get_numpy` returns nor the element
size, the memory size or the two descriptions. -/
theorem C97_dtype_ignored (t : T) (a : Arr) (d : Option NpType) (hn : t.numpy = some a) :
    getElementsize (updateDtype t d) = getElementsize t ∧ getMemsize (updateDtype t d) = getMemsize t ∧
      makeValueProto (updateDtype t d) = makeValueProto t ∧ makeTensorProto (updateDtype t d) = makeTensorProto t ∧
      (IsShape a t.shape → (getNumpy (updateDtype t d)).map (·.1) = .ok a) := by
  have h1 : getElementsize (updateDtype t d) = getElementsize t := by unfold getElementsize updateDtype; simp [hn]
  refine ⟨h1, ?_, ?_, rfl, ?_⟩
  · unfold getMemsize; rw [h1]; rfl
  · unfold makeValueProto updateDtype; simp [hn]
  · intro hs
    rw [getNumpy_fits (t := updateDtype t d) (a := a) hn hs]
    rfl

/-- **C97, attribute `proto`.** `update_proto` stores a proto of the new data, which reads back as that data (as far as C32 says); `update_tensor` (finding) keeps
the old one, so that `proto` describes data the tensor no longer holds. -/
theorem C97_proto (t : T) (a : Arr) :
    (updateProto t a).proto = .tensor t.name (makeProto a) ∧ (updateTensor t a).proto = t.proto := ⟨rfl, rfl⟩

/-- **C97, new tensors.** `create_initial_Tensor` and `create_dynamic_Tensor` give tensors that hold the array, report its shape and type, and keep the
description they would write. -/
theorem C97_create (name : String) (a : Arr) (hname : name ≠ "") :
    ((createInitial name a).numpy = some a ∧ IsShape a (getShape (createInitial name a)) ∧ (createInitial name a).dtype = some a.dtype ∧
      (createInitial name a).proto = .tensor name (makeProto a) ∧ (createInitial name a).isStatic = true ∧ (createInitial name a).name = name) ∧
    ∃ t v, createDynamic name a = .ok t ∧ t.numpy = some a ∧ IsShape a (getShape t) ∧ t.dtype = some a.dtype ∧ t.isStatic = false ∧ t.name = name ∧
      t.proto = .value v ∧ makeValueProto t = .ok (some v) := by
  refine ⟨⟨rfl, (isShape_iff _ _).mpr rfl, rfl, rfl, rfl, rfl⟩, ?_⟩
  unfold createDynamic makeValueProto
  simp only [ofName, if_neg hname]
  exact ⟨_, _, rfl, rfl, (isShape_iff _ _).mpr rfl, rfl, rfl, rfl, rfl, by simp only [if_neg hname]⟩

/-- **C97 is false for `create_tensor` (finding).** The value info kept by a tensor made with `create_tensor` says float32 whatever element type was asked for:
it differs from what the tensor itself would write unless that is float32. -/
theorem C97_create_tensor_says_float (name : String) (b : Bool) (s : List Dim) (d : NpType) (hname : name ≠ "") :
    ∃ t v w, createTensor name b s (some d) = .ok t ∧ t.dtype = some d ∧ getShape t = s ∧ t.proto = .value v ∧
      (ofValueInfo v).dtype = some .float32 ∧ makeValueProto t = .ok (some w) ∧ (v = w ↔ d = .float32) := by
  unfold createTensor makeValueProto
  simp only [ofName, if_neg hname, keep, Option.map_some]
  refine ⟨_, _, _, rfl, rfl, rfl, rfl, rfl, by simp only [if_neg hname, Option.map_some]; rfl, ?_⟩
  constructor
  · intro h
    injection h with _ h
    cases d <;> first | rfl | (exact absurd h (by decide))
  · rintro rfl; rfl

/-- **C97, `get_scalar`.** For a tensor that holds data of one dimension and at least one element it is the first element; for a scalar the value itself. -/
theorem C97_get_scalar (t : T) (a : Arr) (hn : t.numpy = some a) (hs : IsShape a (getShape t)) :
    (a.shape = [] → getScalar t = .ok (some a)) ∧
      (∀ k x xs, a.shape = [k + 1] → a.elems = x :: xs → getScalar t = .ok (some ⟨a.dtype, [], [x]⟩)) := by
  have hs' : t.shape = asDims a.shape := (isShape_iff _ _).mp hs
  unfold getScalar
  rw [hs', hn]
  constructor
  · intro h
    rw [h]
    rfl
  · intro k x xs h hx
    rw [if_neg (by rw [h]; simp [asDims])]
    simp only [h]
    simp [hx, count]

example : getScalar (createInitial "k" ⟨.int64, [2], [7, 8]⟩) = .ok (some ⟨.int64, [], [7]⟩) := by rfl

/-- **C97, `get_scalar` refuses.** Without data, or when the held data has no first entry (no dimension while the tensor claims one, or an empty first dimension), it raises
instead of inventing a number. -/
theorem C97_get_scalar_refused (t : T) (hs : getShape t ≠ []) :
    (t.numpy = none → ∃ e, getScalar t = .error e) ∧
      (∀ a, t.numpy = some a → a.shape.head?.getD 0 = 0 → ∃ e, getScalar t = .error e) := by
  have hs' : t.shape ≠ [] := hs
  refine ⟨fun hn => ?_, fun a hn h => ?_⟩
  · unfold getScalar; rw [if_neg hs', hn]; exact ⟨_, rfl⟩
  · unfold getScalar; rw [if_neg hs', hn]
    simp only []
    match hsh : a.shape, h with
    | [], _ => exact ⟨_, rfl⟩
    | 0 :: ds, _ => exact ⟨_, rfl⟩
    | (k + 1) :: ds, h => simp at h

example : getScalar (createInitial "k" ⟨.int64, [0], []⟩) = .error .indexError := by rfl

/-- **C97, tensors of the file.** A tensor made from an initializer holds what the initializer reads as (C32), is constant, and reports the shape and element type of that
data; one made from a mere name is unknown float32 data, and constant only for the empty name (the marker of a left-out input). -/
theorem C97_of_file (name : String) (p : Proto) (t : T) :
    (ofTensorProto name p = .ok t ↔ ∃ a, readProto p = .ok a ∧ t.numpy = some a ∧ t.isStatic = true ∧ IsShape a t.shape ∧ t.dtype = some a.dtype ∧ t.name = name ∧
      t.proto = .tensor name p) ∧
    (ofName name).numpy = none ∧ (ofName name).dtype = some .float32 ∧ getShape (ofName name) = [] ∧ ((ofName name).isStatic = true ↔ name = "") := by
  refine ⟨?_, rfl, rfl, rfl, by simp [ofName]⟩
  unfold ofTensorProto
  cases hr : readProto p with
  | error e => simp
  | ok a =>
    constructor
    · intro h
      have h := Except.ok.inj h
      subst h
      exact ⟨a, rfl, rfl, rfl, (isShape_iff _ _).mpr rfl, rfl, rfl, rfl⟩
    · rintro ⟨b, hb, h1, h2, h3, h4, h5, h6⟩
      have hb := Except.ok.inj hb
      subst hb
      obtain ⟨n, pr, sh, np, st, dt⟩ := t
      simp only at h1 h2 h3 h4 h5 h6
      rw [h1, h2, h4, h5, h6, (isShape_iff _ _).mp h3]

end OnnxTool.Props
