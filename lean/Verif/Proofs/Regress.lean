import Verif.Spec.Regress
import Verif.Proofs.Engine
import Std.Data.String.ToNat
/-! # Shape regression: the invariant of the search -/
namespace OnnxTool.Regress
open OnnxTool OnnxTool.Engine

/-! ### names -/

theorem isNumeric_repr (n : Nat) : isNumeric (toString n) = true := by
  show isNumeric (Nat.repr n) = true
  unfold isNumeric
  rw [Nat.toList_repr, Bool.and_eq_true]
  constructor
  · rw [bne_iff_ne]
    intro e
    have h := congrArg String.toList e
    rw [Nat.toList_repr] at h
    have : Nat.toDigits 10 n ≠ [] := by
      have := Nat.toDigits_ne_nil (b := 10) (n := n)
      exact this
    exact this (h.trans (by decide))
  · rw [List.all_eq_true]
    intro c hc
    exact Nat.isDigit_of_mem_toDigits (by omega) (by omega) hc

theorem numVal_repr (n : Nat) : numVal (toString n) = n := by
  show numVal (Nat.repr n) = n
  unfold numVal
  rw [Nat.toList_repr]
  exact Nat.ofDigitChars_toDigits (by omega) (by omega)

theorem toString_inj {m n : Nat} (h : toString m = toString n) : m = n := Nat.repr_injective h

theorem not_numeric {s : String} (h : isNumeric s = false) (n : Nat) : s ≠ toString n := by
  rintro rfl
  rw [isNumeric_repr] at h
  cases h

/-! ### dictionaries -/

theorem set_new {α : Type} {d : Dict α} {k : String} {v : α} (h : k ∉ d.keys) : d.set k v = d ++ [(k, v)] := by
  induction d with
  | nil => rfl
  | cons p d ih =>
    obtain ⟨q, w⟩ := p
    simp only [Dict.keys, List.map_cons, List.mem_cons, not_or] at h
    rw [Dict.set, if_neg (fun e => h.1 e.symm), ih h.2]
    rfl

theorem updLoop_append (es es' : Dict (String × ValueExpr)) : ∀ vs vs', updLoop es vs = .ok vs' → updLoop (es ++ es') vs = updLoop es' vs' := by
  induction es with
  | nil => intro vs vs' h; simp only [updLoop, Except.ok.injEq] at h; rw [h]; rfl
  | cons p es ih =>
    obtain ⟨k, src, e⟩ := p
    intro vs vs' h
    simp only [List.cons_append, updLoop] at h ⊢
    split at h
    · cases h
    · simp only [bind, Except.bind] at h ⊢
      split at h
      · cases h
      · exact ih _ _ h

/-! ### probing -/

theorem shapeFromDesc_at {vs : Dict Int} {σ : String → Int} : ∀ d : List Dim, (∀ v, Dim.var v ∈ d → vs.get? v = some (σ v)) →
    shapeFromDesc vs d = .ok (d.map (dimAt σ)) := by
  intro d
  induction d with
  | nil => intro _; rfl
  | cons x d ih =>
    intro h
    have hx : dimVal vs x = some (dimAt σ x) := by
      cases x with
      | num n => rfl
      | var v => exact h v List.mem_cons_self
    simp only [shapeFromDesc, hx, ih (fun v hv => h v (List.mem_cons_of_mem _ hv)), bind, Except.bind, pure, Except.pure, List.map_cons]

theorem generateInput_at {e : Engine} {σ : String → Int} : ∀ ds : Dict (List Dim),
    (∀ p ∈ ds, e.tensorDesc.get? p.1 = some p.2) → (∀ p ∈ ds, ∀ v, Dim.var v ∈ p.2 → e.variables.get? v = some (σ v)) →
    generateInput e ds = .ok (inputsAt ds σ) := by
  intro ds
  induction ds with
  | nil => intro _ _; rfl
  | cons p ds ih =>
    obtain ⟨t, d⟩ := p
    intro h1 h2
    simp only [generateInput, Engine.getTensorShape, h1 (t, d) List.mem_cons_self, shapeFromDesc_at d (h2 (t, d) List.mem_cons_self),
      ih (fun p hp => h1 p (List.mem_cons_of_mem _ hp)) (fun p hp => h2 p (List.mem_cons_of_mem _ hp)), inputsAt, List.map_cons]

/-! ### the invariant -/

/-- values of the variables with one changed -/
def upd (σ : String → Int) (k : String) (v : Int) : String → Int := fun q => if q = k then v else σ q

/-- derived variables: name, variable of the user, function -/
abbrev Derived := List (String × String × (Int → Int))

/-- `update_variables` gives every derived variable its meaning. -/
def Sound (ranges : Range) (dom : String → Int → Prop) (es : Dict (String × ValueExpr)) (D : Derived) : Prop :=
  ∀ σ, InDom ranges dom σ → ∀ vs : Dict Int, (∀ r ∈ ranges, vs.get? r.1 = some (σ r.1)) →
    ∃ vs', updLoop es vs = .ok vs' ∧ (∀ r ∈ ranges, vs'.get? r.1 = some (σ r.1)) ∧ ∀ m ∈ D, vs'.get? m.1 = some (m.2.2 (σ m.2.1))

/-- the variable `v` stands for `f` of the variable `k` -/
def Means (dom : String → Int → Prop) (D : Derived) (v k : String) (f : Int → Int) : Prop :=
  (v = k ∧ ∀ x, dom k x → f x = x) ∨ ∃ f', (v, k, f') ∈ D ∧ ∀ x, dom k x → f x = f' x

theorem Means.mono {dom : String → Int → Prop} {D D' : Derived} {v k : String} {f : Int → Int} (h : Means dom D v k f) (hs : ∀ m ∈ D, m ∈ D') :
    Means dom D' v k f := by
  rcases h with h | ⟨f', h1, h2⟩
  · exact Or.inl h
  · exact Or.inr ⟨f', hs _ h1, h2⟩

/-- an entry of a description; `done k t i` says that the entry has been filled in -/
def DimOk (lo hi : String → Int) (dom : String → Int → Prop) (done : String → String → Nat → Prop) (D : Derived) (t : String) (i : Nat) (d : Dim) : Law → Prop
  | .fixed n => d = .num n
  | .along k f => (f (lo k) = f (hi k) ∧ d = .num (f (lo k))) ∨ (f (lo k) ≠ f (hi k) ∧ ∃ v, d = .var v ∧ (v = "" ∨ Means dom D v k f) ∧ (done k t i → Means dom D v k f))

structure Inv (g : Graph) (inputDesc : Dict (List Dim)) (ranges : Range) (lo hi : String → Int) (dom : String → Int → Prop) (laws : String → List Law)
    (done : String → String → Nat → Prop) (bound : Nat) (D : Derived) (e : Engine) : Prop where
  sound : Sound ranges dom e.exprs D
  names : e.exprs.keys = D.map (·.1)
  small : ∀ m ∈ D, ∃ n, n < bound ∧ m.1 = toString n
  vars : ∀ r ∈ ranges, e.variables.get? r.1 = some (lo r.1)
  descIn : ∀ p ∈ inputDesc, e.tensorDesc.get? p.1 = some p.2
  descDyn : ∀ t ∈ g.dynamics, t ∉ inputDesc.keys → ∃ d, e.tensorDesc.get? t = some d ∧ d.length = (laws t).length ∧
    ∀ (i : Nat) (x : Dim) (l : Law), d[i]? = some x → (laws t)[i]? = some l → DimOk lo hi dom done D t i x l
  descOnly : ∀ t d, e.tensorDesc.get? t = some d → t ∈ inputDesc.keys ∨ t ∈ g.dynamics
  uniq : ∀ m ∈ D, ∀ m' ∈ D, m.1 = m'.1 → m = m'

section
variable {g : Graph} {inputDesc : Dict (List Dim)} {ranges : Range} {lo hi : String → Int} {dom : String → Int → Prop} {laws : String → List Law}

theorem Inv.weaken {done done' : String → String → Nat → Prop} {b b' : Nat} {D : Derived} {e : Engine}
    (h : Inv g inputDesc ranges lo hi dom laws done b D e) (hd : ∀ k t i, done' k t i → done k t i) (hb : b ≤ b') :
    Inv g inputDesc ranges lo hi dom laws done' b' D e := by
  refine ⟨h.sound, h.names, ?_, h.vars, h.descIn, ?_, h.descOnly, h.uniq⟩
  · intro m hm
    obtain ⟨n, h1, h2⟩ := h.small m hm
    exact ⟨n, by omega, h2⟩
  · intro t ht hi'
    obtain ⟨d, h1, h2, h3⟩ := h.descDyn t ht hi'
    refine ⟨d, h1, h2, ?_⟩
    intro i x l hx hl
    have := h3 i x l hx hl
    cases l with
    | fixed n => exact this
    | along k f =>
      rcases this with h | ⟨h, v, hv, hm⟩
      · exact Or.inl h
      · exact Or.inr ⟨h, v, hv, hm.1, fun hdn => hm.2 (hd _ _ _ hdn)⟩

/-- `update_tensor_desc` fills in an entry. -/
theorem updateDesc_inv {done : String → String → Nat → Prop} {b : Nat} {D : Derived} {e : Engine}
    (h : Inv g inputDesc ranges lo hi dom laws done b D e) {t : String} {i : Nat} {k v : String} {f : Int → Int}
    (ht : t ∈ g.dynamics) (hti : t ∉ inputDesc.keys) (hl : (laws t)[i]? = some (.along k f)) (hne : f (lo k) ≠ f (hi k))
    (hm : Means dom D v k f) :
    ∃ e', updateDesc e t i v = .ok e' ∧
      Inv g inputDesc ranges lo hi dom laws (fun k' t' i' => done k' t' i' ∨ (k' = k ∧ t' = t ∧ i' = i)) b D e' := by
  obtain ⟨d, h1, h2, h3⟩ := h.descDyn t ht hti
  have hlt : i < d.length := by
    have := (List.getElem?_eq_some_iff.mp hl).1
    omega
  have hdi : d[i]? = some d[i] := List.getElem?_eq_getElem hlt
  have hok := h3 i _ _ hdi hl
  rcases hok with ⟨hc, _⟩ | ⟨_, v0, hv0, _⟩
  · exact absurd hc hne
  · have hd0 : d[i]? = some (.var v0) := by rw [hdi, hv0]
    refine ⟨e.addTensorDesc t (d.set i (.var v)), by simp only [updateDesc, h1, hd0], ?_⟩
    refine ⟨h.sound, h.names, h.small, h.vars, ?_, ?_, ?_, h.uniq⟩
    · intro p hp
      have : t ≠ p.1 := by
        rintro rfl
        exact hti (List.mem_map_of_mem hp)
      simp only [Engine.addTensorDesc]
      rw [Dict.get?_set_ne _ _ this]
      exact h.descIn p hp
    · intro t' ht' hti'
      by_cases htt : t = t'
      · subst htt
        refine ⟨d.set i (.var v), by simp only [Engine.addTensorDesc]; rw [Dict.get?_set_self], by rw [List.length_set]; exact h2, ?_⟩
        intro j x l hx hl'
        by_cases hij : i = j
        · subst hij
          rw [hl] at hl'
          cases hl'
          rw [List.getElem?_set_self hlt] at hx
          cases hx
          exact Or.inr ⟨hne, v, rfl, Or.inr hm, fun _ => hm⟩
        · rw [List.getElem?_set_ne hij] at hx
          have := h3 j x l hx hl'
          cases l with
          | fixed n => exact this
          | along k' f' =>
            rcases this with h | ⟨h, v', hv', hm'⟩
            · exact Or.inl h
            · refine Or.inr ⟨h, v', hv', hm'.1, ?_⟩
              rintro (hd | ⟨_, _, hj⟩)
              · exact hm'.2 hd
              · exact absurd hj.symm hij
      · obtain ⟨d', g1, g2, g3⟩ := h.descDyn t' ht' hti'
        refine ⟨d', by simp only [Engine.addTensorDesc]; rw [Dict.get?_set_ne _ _ htt]; exact g1, g2, ?_⟩
        intro j x l hx hl'
        have := g3 j x l hx hl'
        cases l with
        | fixed n => exact this
        | along k' f' =>
          rcases this with h | ⟨h, v', hv', hm'⟩
          · exact Or.inl h
          · refine Or.inr ⟨h, v', hv', hm'.1, ?_⟩
            rintro (hd | ⟨_, hj, _⟩)
            · exact hm'.2 hd
            · exact absurd hj.symm htt
    · intro t' d' hd'
      simp only [Engine.addTensorDesc] at hd'
      by_cases htt : t = t'
      · exact Or.inr (htt ▸ ht)
      · rw [Dict.get?_set_ne _ _ htt] at hd'
        exact h.descOnly t' d' hd'

/-- `add_expr` introduces a new variable. -/
theorem addExpr_inv {done : String → String → Nat → Prop} {b : Nat} {D : Derived} {e : Engine}
    (hnum : ∀ r ∈ ranges, isNumeric r.1 = false)
    (h : Inv g inputDesc ranges lo hi dom laws done b D e) {k src : String} {fs f : Int → Int} {ex : ValueExpr} (hk : k ∈ ranges.map (·.1))
    (hsrc : (src = k ∧ ∀ x, fs x = x) ∨ (src, k, fs) ∈ D) (hex : ∀ x, dom k x → ex.call (fs x) = .ok (f x)) :
    Inv g inputDesc ranges lo hi dom laws done (b + 1) (D ++ [(toString b, k, f)]) (e.addExpr (toString b) src ex) := by
  have hfresh : toString b ∉ D.map (·.1) := by
    intro hm
    obtain ⟨m, hm, he⟩ := List.mem_map.mp hm
    obtain ⟨n, hn, hmn⟩ := h.small m hm
    have := toString_inj (hmn.symm.trans he)
    omega
  have hkeys : ∀ r ∈ ranges, toString b ≠ r.1 := fun r hr e => not_numeric (hnum r hr) b e.symm
  refine ⟨?_, ?_, ?_, ?_, ?_, ?_, ?_, ?_⟩
  · intro σ hσ vs hvs
    obtain ⟨vs', h1, h2, h3⟩ := h.sound σ hσ vs hvs
    have hset : (e.addExpr (toString b) src ex).exprs = e.exprs ++ [(toString b, (src, ex))] := by
      simp only [Engine.addExpr]
      exact set_new (by rw [h.names]; exact hfresh)
    obtain ⟨r, hr, hrk⟩ := List.mem_map.mp hk
    have hval : vs'.get? src = some (fs (σ k)) := by
      rcases hsrc with ⟨hs, hid⟩ | hs
      · rw [hs, hid, ← hrk]
        exact h2 r hr
      · exact h3 _ hs
    have hdom : dom k (σ k) := by rw [← hrk]; exact hσ r hr
    refine ⟨vs'.set (toString b) (f (σ k)), ?_, ?_, ?_⟩
    · rw [hset, updLoop_append _ _ _ _ h1]
      simp only [updLoop, hval, hex _ hdom, bind, Except.bind]
    · intro r' hr'
      rw [Dict.get?_set_ne _ _ (hkeys r' hr')]
      exact h2 r' hr'
    · intro m hm
      rcases List.mem_append.mp hm with hm | hm
      · have hne : toString b ≠ m.1 := fun e => hfresh (List.mem_map.mpr ⟨m, hm, e.symm⟩)
        rw [Dict.get?_set_ne _ _ hne]
        exact h3 m hm
      · rw [List.mem_singleton.mp hm, Dict.get?_set_self]
  · simp only [Engine.addExpr]
    rw [set_new (by rw [h.names]; exact hfresh)]
    have := h.names
    simp only [Dict.keys, List.map_append, List.map_cons, List.map_nil] at this ⊢
    rw [this]
  · intro m hm
    rcases List.mem_append.mp hm with hm | hm
    · obtain ⟨n, h1, h2⟩ := h.small m hm
      exact ⟨n, by omega, h2⟩
    · exact ⟨b, by omega, by rw [List.mem_singleton.mp hm]⟩
  · intro r hr
    simp only [Engine.addExpr]
    rw [Dict.get?_set_ne _ _ (hkeys r hr)]
    exact h.vars r hr
  · exact h.descIn
  · intro t ht hti
    obtain ⟨d, h1, h2, h3⟩ := h.descDyn t ht hti
    refine ⟨d, h1, h2, ?_⟩
    intro i x l hx hl
    have := h3 i x l hx hl
    cases l with
    | fixed n => exact this
    | along k' f' =>
      rcases this with h | ⟨h, v, hv, hm⟩
      · exact Or.inl h
      · refine Or.inr ⟨h, v, hv, ?_, fun hdn => (hm.2 hdn).mono fun m hm => List.mem_append_left _ hm⟩
        rcases hm.1 with h | h
        · exact Or.inl h
        · exact Or.inr (h.mono fun m hm => List.mem_append_left _ hm)
  · exact h.descOnly
  · intro m hm m' hm' he
    rcases List.mem_append.mp hm with hm | hm <;> rcases List.mem_append.mp hm' with hm' | hm'
    · exact h.uniq m hm m' hm' he
    · rw [List.mem_singleton.mp hm'] at he
      exact absurd (List.mem_map.mpr ⟨m, hm, he⟩) hfresh
    · rw [List.mem_singleton.mp hm] at he
      exact absurd (List.mem_map.mpr ⟨m', hm', he.symm⟩) hfresh
    · rw [List.mem_singleton.mp hm, List.mem_singleton.mp hm']

/-! ### one variable -/

/-- what is known while the variable `key` is examined -/
structure StInv (g : Graph) (inputDesc : Dict (List Dim)) (ranges : Range) (lo hi : String → Int) (dom : String → Int → Prop) (F : String → (Int → Int) → Prop)
    (laws : String → List Law) (done : String → String → Nat → Prop) (key : String) (vcount : Nat) (D : Derived) (s : St) : Prop where
  inv : Inv g inputDesc ranges lo hi dom laws done (vcount + s.dst.length) D s.engine
  first : ∃ tl, s.dst = [lo key, middle (lo key) (hi key), hi key] :: tl
  rest : ∀ (j : Nat) (r : List Int), 1 ≤ j → s.dst[j]? = some r → ∃ f, (toString (vcount + j), key, f) ∈ D ∧ F key f ∧
    r = [f (lo key), f (middle (lo key) (hi key)), f (hi key)]
  mapped : ∀ n k f, vcount ≤ n → (toString n, k, f) ∈ D → k = key ∧ F key f ∧ f (lo key) ≠ f (hi key) ∧
    s.rmap.get? (toString n) = some [f (lo key), f (middle (lo key) (hi key)), f (hi key)]

variable {F : String → (Int → Int) → Prop}

theorem sources_mem {done : String → String → Nat → Prop} {b : Nat} {D : Derived} {e : Engine} (hnum : ∀ r ∈ ranges, isNumeric r.1 = false)
    (hvars : ∀ p ∈ inputDesc, ∀ v, Dim.var v ∈ p.2 → v ∈ ranges.map (·.1))
    (hlaws : ∀ t ∈ g.dynamics, ∀ k f, Law.along k f ∈ laws t → k ∈ ranges.map (·.1))
    (h : Inv g inputDesc ranges lo hi dom laws done b D e) {vcount : Nat} {inputs : List String} {v : String} (hv : v ∈ sources e vcount inputs) :
    ∃ n k f u f', vcount ≤ n ∧ v = toString n ∧ (v, k, f) ∈ D ∧ u ∈ inputs ∧ u ∈ g.dynamics ∧ u ∉ inputDesc.keys ∧
      Law.along k f' ∈ laws u ∧ f' (lo k) ≠ f' (hi k) ∧ ∀ x, dom k x → f' x = f x := by
  unfold sources at hv
  obtain ⟨t, htin, hv⟩ := List.mem_flatMap.mp hv
  split at hv
  · cases hv
  · rename_i d hd
    obtain ⟨x, hx, hv⟩ := List.mem_filterMap.mp hv
    cases x with
    | num n => cases hv
    | var w =>
      simp only at hv
      split at hv
      · rename_i hc
        obtain rfl : w = v := Option.some.inj hv
        have hnk : w ∉ ranges.map (·.1) := by
          intro hw
          obtain ⟨r, hr, he⟩ := List.mem_map.mp hw
          rw [← he, hnum r hr] at hc
          cases hc.1
        by_cases hti : t ∈ inputDesc.keys
        · obtain ⟨p, hp, rfl⟩ := List.mem_map.mp hti
          have := h.descIn p hp
          have hd' : some p.2 = some d := this.symm.trans hd
          cases hd'
          exact absurd (hvars p hp w hx) hnk
        · have htd : t ∈ g.dynamics := (h.descOnly t d hd).resolve_left hti
          obtain ⟨d', h1, h2, h3⟩ := h.descDyn t htd hti
          have hdd : some d = some d' := hd.symm.trans h1
          cases hdd
          obtain ⟨i, hi', hxi⟩ := List.getElem_of_mem hx
          have hl : (laws t)[i]? = some ((laws t)[i]'(by omega)) := List.getElem?_eq_getElem (by omega)
          generalize (laws t)[i]'(by omega) = l at hl
          have hok := h3 i _ l (by rw [List.getElem?_eq_getElem hi', hxi]) hl
          cases l with
          | fixed n => cases hok
          | along k f =>
            rcases hok with ⟨_, hk⟩ | ⟨hne, v', hv', hm, _⟩
            · cases hk
            · cases hv'
              rcases hm with hm | hm
              · rw [hm] at hc
                exact absurd hc.1 (by decide)
              · rcases hm with ⟨hm, _⟩ | ⟨f', hD, hff⟩
                · rw [hm] at hnk
                  exact absurd (hlaws t htd k f (List.mem_of_getElem? hl)) hnk
                · obtain ⟨n, _, hn⟩ := h.small _ hD
                  simp only at hn
                  refine ⟨n, k, f', t, f, ?_, hn, hD, htin, htd, hti, List.mem_of_getElem? hl, hne, hff⟩
                  have := hc.2
                  rw [hn, numVal_repr] at this
                  exact this
      · cases hv

theorem rangeIn_some {r : List Int} {rs : List (List Int)} {i : Nat} (h : rangeIn r rs = some i) (h3 : ∀ x ∈ rs, x.length = r.length) : rs[i]? = some r := by
  unfold rangeIn at h
  obtain ⟨hi, hp, _⟩ := List.findIdx?_eq_some_iff_getElem.mp h
  rw [List.getElem?_eq_getElem hi]
  congr 1
  have hl := h3 _ (List.getElem_mem hi)
  apply List.ext_getElem hl
  intro n h1 h2
  rw [List.all_eq_true] at hp
  have := hp (r[n], rs[i][n]) (by
    rw [List.mem_iff_getElem]
    exact ⟨n, by simp; omega, by simp⟩)
  simp only [decide_eq_true_eq] at this
  exact this.symm

/-- the fitting hypothesis for one variable -/
def Steps (g : Graph) (inputDesc : Dict (List Dim)) (laws : String → List Law) (key : String) (lo hi : Int) (dom : Int → Prop) : Prop :=
  ∀ t ∈ g.dynamics, t ∉ inputDesc.keys → ∀ f, Law.along key f ∈ laws t → f lo ≠ f hi →
    Fitted lo hi dom (fun x => x) f ∧
    ∀ p ps n, g.producedby.get? t = some (p :: ps) → findNode g.nodemap p = some n → ∀ u ∈ n.input, u ∈ g.dynamics → u ∉ inputDesc.keys →
      ∀ f', Law.along key f' ∈ laws u → f' lo ≠ f' hi → Fitted lo hi dom f' f

/-- One dimension that depends on `key`. -/
theorem dimStep_inv {done : String → String → Nat → Prop} {key : String} {vcount : Nat} {D : Derived} {s : St}
    (hnum : ∀ r ∈ ranges, isNumeric r.1 = false) (hk : key ∈ ranges.map (·.1)) (hfit : Told (lo key) (hi key) (dom key) (F key))
    (hvars : ∀ p ∈ inputDesc, ∀ v, Dim.var v ∈ p.2 → v ∈ ranges.map (·.1))
    (hlaws : ∀ t ∈ g.dynamics, ∀ k f, Law.along k f ∈ laws t → k ∈ ranges.map (·.1))
    (hprod : ∀ t ∈ g.dynamics, t ∉ inputDesc.keys → ∃ p ps n, g.producedby.get? t = some (p :: ps) ∧ findNode g.nodemap p = some n)
    (hsteps : Steps g inputDesc laws key (lo key) (hi key) (dom key))
    (h : StInv g inputDesc ranges lo hi dom F laws done key vcount D s) {t : String} {i : Nat} {f : Int → Int}
    (ht : t ∈ g.dynamics) (hti : t ∉ inputDesc.keys) (hl : (laws t)[i]? = some (.along key f)) (hne : f (lo key) ≠ f (hi key)) (hF : F key f) :
    ∃ s' D', dimStep g key vcount t i [f (lo key), f (middle (lo key) (hi key)), f (hi key)] s = .ok s' ∧
      StInv g inputDesc ranges lo hi dom F laws (fun k' t' i' => done k' t' i' ∨ (k' = key ∧ t' = t ∧ i' = i)) key vcount D' s' := by
  obtain ⟨tl, htl⟩ := h.first
  have hthree : ∀ x ∈ s.dst, x.length = 3 := by
    intro x hx
    obtain ⟨j, hj, hjx⟩ := List.getElem_of_mem hx
    rcases Nat.eq_zero_or_pos j with rfl | hj0
    · rw [← hjx]
      simp only [htl, List.getElem_cons_zero, List.length_cons, List.length_nil]
    · obtain ⟨f', _, _, hr⟩ := h.rest j x hj0 (by rw [List.getElem?_eq_getElem hj, hjx])
      rw [hr]
      rfl
  unfold dimStep
  cases hr : rangeIn [f (lo key), f (middle (lo key) (hi key)), f (hi key)] s.dst with
  | some idx =>
    have hidx := rangeIn_some hr hthree
    by_cases h0 : idx = 0
    · subst h0
      rw [htl] at hidx
      simp only [List.getElem?_cons_zero, Option.some.injEq, List.cons.injEq] at hidx
      have hm : Means dom D key key f := Or.inl ⟨rfl, fun x hx => hfit.det f (fun x => x) hF hfit.ident hidx.1.symm hidx.2.1.symm hidx.2.2.1.symm x hx⟩
      obtain ⟨e', he, hinv⟩ := updateDesc_inv h.inv ht hti hl hne hm
      simp only [if_true, he]
      exact ⟨_, D, rfl, hinv, h.first, h.rest, h.mapped⟩
    · obtain ⟨f', hD, hF', hr'⟩ := h.rest idx _ (by omega) hidx
      simp only [List.cons.injEq] at hr'
      have hm : Means dom D (toString (vcount + idx)) key f := Or.inr ⟨f', hD, fun x hx => hfit.det f f' hF hF' hr'.1 hr'.2.1 hr'.2.2.1 x hx⟩
      obtain ⟨e', he, hinv⟩ := updateDesc_inv h.inv ht hti hl hne hm
      simp only [if_neg h0, he]
      exact ⟨_, D, rfl, hinv, h.first, h.rest, h.mapped⟩
  | none =>
    obtain ⟨p, ps, n, hp, hn⟩ := hprod t ht hti
    simp only [newDim, hp, hn]
    have hst := hsteps t ht hti f (List.mem_of_getElem? hl) hne
    -- source and expression
    have hch : ∃ src ex fs, chooseExpr key s (sources s.engine vcount n.input) [f (lo key), f (middle (lo key) (hi key)), f (hi key)] = .ok (src, ex) ∧
        ((src = key ∧ ∀ x, fs x = x) ∨ (src, key, fs) ∈ D) ∧ ∀ x, dom key x → ex.call (fs x) = .ok (f x) := by
      cases hsrc : sources s.engine vcount n.input with
      | nil =>
        obtain ⟨ex, h1, h2⟩ := hst.1
        exact ⟨key, ex, fun x => x, by simp only [chooseExpr, htl, h1], Or.inl ⟨rfl, fun _ => rfl⟩, h2⟩
      | cons v vs =>
        obtain ⟨m, k', f', u, f'', hm, hvm, hD, hu, hud, hui, hul, hune, huf⟩ := sources_mem hnum hvars hlaws h.inv (v := v) (by rw [hsrc]; exact List.mem_cons_self)
        subst hvm
        obtain ⟨rfl, hF', hne'', hmap⟩ := h.mapped m k' f' hm hD
        obtain ⟨ex, h1, h2⟩ := hst.2 p ps n hp hn u hu hud hui f'' hul hune
        rw [huf _ hfit.low, huf _ hfit.mid, huf _ hfit.high] at h1
        exact ⟨_, ex, f', by simp only [chooseExpr, hmap, h1], Or.inr hD, fun x hx => by rw [← huf x hx]; exact h2 x hx⟩
    obtain ⟨src, ex, fs, hc, hs, hex⟩ := hch
    simp only [hc]
    have hinv1 := addExpr_inv hnum h.inv hk hs hex
    have hlast : (toString (vcount + s.dst.length), key, f) ∈ D ++ [(toString (vcount + s.dst.length), key, f)] := by simp
    have hm : Means dom (D ++ [(toString (vcount + s.dst.length), key, f)]) (toString (vcount + s.dst.length)) key f := Or.inr ⟨f, hlast, fun _ _ => rfl⟩
    obtain ⟨e', he, hinv⟩ := updateDesc_inv hinv1 ht hti hl hne hm
    simp only [he]
    refine ⟨_, D ++ [(toString (vcount + s.dst.length), key, f)], rfl, ?_, ?_, ?_, ?_⟩
    · simp only [List.length_append, List.length_cons, List.length_nil]
      exact hinv
    · exact ⟨tl ++ [[f (lo key), f (middle (lo key) (hi key)), f (hi key)]], by simp only [htl, List.cons_append]⟩
    · intro j r hj hjr
      simp only at hjr
      by_cases hjl : j < s.dst.length
      · rw [List.getElem?_append_left hjl] at hjr
        obtain ⟨f', h1, h2, h3⟩ := h.rest j r hj hjr
        exact ⟨f', List.mem_append_left _ h1, h2, h3⟩
      · have hjr' := (List.getElem?_eq_some_iff.mp hjr).1
        simp only [List.length_append, List.length_cons, List.length_nil] at hjr'
        obtain rfl : j = s.dst.length := by omega
        rw [List.getElem?_append_right (Nat.le_refl _), Nat.sub_self] at hjr
        simp only [List.getElem?_cons_zero, Option.some.injEq] at hjr
        exact ⟨f, hlast, hF, hjr.symm⟩
    · intro m k' f' hm hD
      simp only
      rcases List.mem_append.mp hD with hD | hD
      · obtain ⟨h1, h2, h3, h4⟩ := h.mapped m k' f' hm hD
        refine ⟨h1, h2, h3, ?_⟩
        have : toString (vcount + s.dst.length) ≠ toString m := by
          intro e
          obtain ⟨q, hq, hq2⟩ := h.inv.small _ hD
          have := toString_inj (e.trans hq2)
          omega
        rw [Dict.get?_set_ne _ _ this]
        exact h4
      · have hD := List.mem_singleton.mp hD
        simp only [Prod.mk.injEq] at hD
        obtain ⟨h1, rfl, rfl⟩ := hD
        rw [h1]
        exact ⟨rfl, hF, hne, by rw [Dict.get?_set_self]⟩

theorem StInv.weaken {done done' : String → String → Nat → Prop} {key : String} {vcount : Nat} {D : Derived} {s : St}
    (h : StInv g inputDesc ranges lo hi dom F laws done key vcount D s) (hd : ∀ k t i, done' k t i → done k t i) :
    StInv g inputDesc ranges lo hi dom F laws done' key vcount D s :=
  ⟨h.inv.weaken hd (Nat.le_refl _), h.first, h.rest, h.mapped⟩

/-- All dimensions of a tensor, from number `i` on. -/
theorem dimLoop_inv {key : String} {vcount : Nat}
    (hnum : ∀ r ∈ ranges, isNumeric r.1 = false) (hk : key ∈ ranges.map (·.1)) (hfit : Told (lo key) (hi key) (dom key) (F key))
    (hvars : ∀ p ∈ inputDesc, ∀ v, Dim.var v ∈ p.2 → v ∈ ranges.map (·.1))
    (hlaws : ∀ t ∈ g.dynamics, ∀ k f, Law.along k f ∈ laws t → k ∈ ranges.map (·.1))
    (hprod : ∀ t ∈ g.dynamics, t ∉ inputDesc.keys → ∃ p ps n, g.producedby.get? t = some (p :: ps) ∧ findNode g.nodemap p = some n)
    (hsteps : Steps g inputDesc laws key (lo key) (hi key) (dom key))
    {t : String} (hF : ∀ k f, Law.along k f ∈ laws t → F k f)
    (ht : t ∈ g.dynamics) (hti : t ∉ inputDesc.keys) :
    ∀ (ls : List Law) (i : Nat), (laws t).drop i = ls → ∀ (done : String → String → Nat → Prop) (D : Derived) (s : St),
      StInv g inputDesc ranges lo hi dom F laws (fun k' t' i' => done k' t' i' ∨ (k' = key ∧ t' = t ∧ i' < i)) key vcount D s →
    ∃ s' D', dimLoop g key vcount t ((laws t).map (Law.at lo)) ((laws t).map (Law.at (upd lo key (middle (lo key) (hi key)))))
        ((laws t).map (Law.at (upd lo key (hi key)))) i (ls.map (Law.at lo)) s = .ok s' ∧
      StInv g inputDesc ranges lo hi dom F laws (fun k' t' i' => done k' t' i' ∨ (k' = key ∧ t' = t ∧ i' < (laws t).length)) key vcount D' s' := by
  intro ls
  induction ls with
  | nil =>
    intro i hi' done D s h
    have hlen : (laws t).length ≤ i := List.drop_eq_nil_iff.mp hi'
    refine ⟨s, D, rfl, h.weaken ?_⟩
    rintro k t' i' (h | ⟨h1, h2, h3⟩)
    · exact Or.inl h
    · exact Or.inr ⟨h1, h2, by omega⟩
  | cons l ls ih =>
    intro i hi' done D s h
    have hl : (laws t)[i]? = some l := by
      rw [← List.head?_drop, hi']
      rfl
    have hdrop : (laws t).drop (i + 1) = ls := by
      rw [← List.tail_drop, hi']
      rfl
    have hmem : l ∈ laws t := List.mem_of_getElem? hl
    simp only [List.map_cons, dimLoop, List.getElem?_map, hl, Option.map_some]
    -- weakening of an unchanged entry
    have hskip : (∀ k f, l = .along k f → k = key → f (lo k) = f (hi k)) →
        StInv g inputDesc ranges lo hi dom F laws (fun k' t' i' => done k' t' i' ∨ (k' = key ∧ t' = t ∧ i' < i + 1)) key vcount D s := by
      intro hc
      refine ⟨?_, h.first, h.rest, h.mapped⟩
      refine ⟨h.inv.sound, h.inv.names, h.inv.small, h.inv.vars, h.inv.descIn, ?_, h.inv.descOnly, h.inv.uniq⟩
      intro t' ht' hti'
      obtain ⟨d, h1, h2, h3⟩ := h.inv.descDyn t' ht' hti'
      refine ⟨d, h1, h2, ?_⟩
      intro j x l' hx hl'
      have := h3 j x l' hx hl'
      cases l' with
      | fixed n => exact this
      | along k f =>
        rcases this with h | ⟨hne, v, hv, hm⟩
        · exact Or.inl h
        · refine Or.inr ⟨hne, v, hv, hm.1, ?_⟩
          rintro (hd | ⟨e1, e2, e3⟩)
          · exact hm.2 (Or.inl hd)
          · by_cases hji : j = i
            · subst hji
              subst e2
              rw [hl] at hl'
              exact absurd (hc k f (Option.some.inj hl') e1) hne
            · exact hm.2 (Or.inr ⟨e1, e2, by omega⟩)
    have hsame : (∀ k f, l = .along k f → k ≠ key) → ∀ v, l.at (upd lo key v) = l.at lo := by
      intro hc v
      cases l with
      | fixed n => rfl
      | along k f =>
        show f (upd lo key v k) = f (lo k)
        rw [upd, if_neg (hc k f rfl)]
    by_cases hkey : ∃ f, l = .along key f
    · obtain ⟨f, rfl⟩ := hkey
      have hFf := hF key f hmem
      have ha : ∀ v, (Law.along key f).at (upd lo key v) = f v := by
        intro v
        show f (upd lo key v key) = f v
        rw [upd, if_pos rfl]
      have ha0 : (Law.along key f).at lo = f (lo key) := rfl
      simp only [ha, ha0]
      by_cases hne : f (lo key) = f (hi key)
      · have hmid := hfit.const f hFf hne _ hfit.mid
        rw [if_neg (by rintro (h | h); exact h hmid.symm; exact h hne)]
        exact ih (i + 1) hdrop done D s (hskip (fun k f' e _ => by cases e; exact hne))
      · rw [if_pos (Or.inr hne)]
        obtain ⟨s1, D1, h1, h2⟩ := dimStep_inv hnum hk hfit hvars hlaws hprod hsteps h ht hti hl hne hFf
        simp only [h1]
        refine ih (i + 1) hdrop done D1 s1 (h2.weaken ?_)
        rintro k t' i' (h | ⟨e1, e2, e3⟩)
        · exact Or.inl (Or.inl h)
        · by_cases hii : i' = i
          · exact Or.inr ⟨e1, e2, hii⟩
          · exact Or.inl (Or.inr ⟨e1, e2, by omega⟩)
    · have hc : ∀ k f, l = .along k f → k ≠ key := fun k f e ek => hkey ⟨f, by rw [e, ek]⟩
      simp only [hsame hc]
      rw [if_neg (by rintro (h | h) <;> exact h rfl)]
      exact ih (i + 1) hdrop done D s (hskip (fun k f e ek => absurd ek (hc k f e)))

/-- All tensors. -/
theorem tensorLoop_inv {key : String} {vcount : Nat}
    (hnum : ∀ r ∈ ranges, isNumeric r.1 = false) (hk : key ∈ ranges.map (·.1)) (hfit : Told (lo key) (hi key) (dom key) (F key))
    (hvars : ∀ p ∈ inputDesc, ∀ v, Dim.var v ∈ p.2 → v ∈ ranges.map (·.1))
    (hlaws : ∀ t ∈ g.dynamics, ∀ k f, Law.along k f ∈ laws t → k ∈ ranges.map (·.1))
    (hprod : ∀ t ∈ g.dynamics, t ∉ inputDesc.keys → ∃ p ps n, g.producedby.get? t = some (p :: ps) ∧ findNode g.nodemap p = some n)
    (hsteps : Steps g inputDesc laws key (lo key) (hi key) (dom key))
    (hF : ∀ t ∈ g.dynamics, ∀ k f, Law.along k f ∈ laws t → F k f) {a b c : Shapes}
    (hA : ∀ t ∈ g.dynamics, a t = (laws t).map (Law.at lo))
    (hB : ∀ t ∈ g.dynamics, b t = (laws t).map (Law.at (upd lo key (middle (lo key) (hi key)))))
    (hC : ∀ t ∈ g.dynamics, c t = (laws t).map (Law.at (upd lo key (hi key)))) (done : String → String → Nat → Prop) :
    ∀ (ts ds : List String), ds ++ ts = g.dynamics → ∀ (D : Derived) (s : St),
      StInv g inputDesc ranges lo hi dom F laws (fun k' t' i' => done k' t' i' ∨ (k' = key ∧ t' ∈ ds ∧ t' ∉ inputDesc.keys ∧ i' < (laws t').length)) key vcount D s →
    ∃ s' D', tensorLoop g inputDesc key vcount a b c ts s = .ok s' ∧
      StInv g inputDesc ranges lo hi dom F laws
        (fun k' t' i' => done k' t' i' ∨ (k' = key ∧ t' ∈ g.dynamics ∧ t' ∉ inputDesc.keys ∧ i' < (laws t').length)) key vcount D' s' := by
  intro ts
  induction ts with
  | nil =>
    intro ds hds D s h
    rw [List.append_nil] at hds
    subst hds
    exact ⟨s, D, rfl, h⟩
  | cons t ts ih =>
    intro ds hds D s h
    have ht : t ∈ g.dynamics := by rw [← hds]; simp
    have hds' : (ds ++ [t]) ++ ts = g.dynamics := by rw [← hds]; simp
    simp only [tensorLoop]
    by_cases hin : inputDesc.has t
    · rw [if_pos hin]
      refine ih (ds ++ [t]) hds' D s (h.weaken ?_)
      rintro k t' i' (h | ⟨e1, e2, e3, e4⟩)
      · exact Or.inl h
      · rcases List.mem_append.mp e2 with e2 | e2
        · exact Or.inr ⟨e1, e2, e3, e4⟩
        · rw [List.mem_singleton.mp e2] at e3
          exact absurd ((Dict.has_iff _ _).mp hin) e3
    · rw [if_neg hin, hA t ht, hB t ht, hC t ht]
      have hti : t ∉ inputDesc.keys := fun h => hin ((Dict.has_iff _ _).mpr h)
      obtain ⟨s1, D1, h1, h2⟩ := dimLoop_inv hnum hk hfit hvars hlaws hprod hsteps (hF t ht) ht hti (laws t) 0 rfl _ D s (h.weaken (by
        rintro k t' i' (h | ⟨_, _, h⟩)
        · exact h
        · omega))
      simp only [h1]
      refine ih (ds ++ [t]) hds' D1 s1 (h2.weaken ?_)
      rintro k t' i' (h | ⟨e1, e2, e3, e4⟩)
      · exact Or.inl (Or.inl h)
      · rcases List.mem_append.mp e2 with e2 | e2
        · exact Or.inl (Or.inr ⟨e1, e2, e3, e4⟩)
        · have := List.mem_singleton.mp e2
          subst this
          exact Or.inr ⟨e1, rfl, e4⟩

/-! ### the whole search -/

/-- changing variables of the user changes only their values -/
theorem Inv.setVars {done : String → String → Nat → Prop} {b : Nat} {D : Derived} {e e' : Engine}
    (h : Inv g inputDesc ranges lo hi dom laws done b D e) (h1 : e'.exprs = e.exprs) (h2 : e'.tensorDesc = e.tensorDesc)
    (h3 : ∀ r ∈ ranges, e'.variables.get? r.1 = some (lo r.1)) : Inv g inputDesc ranges lo hi dom laws done b D e' :=
  ⟨by rw [h1]; exact h.sound, by rw [h1]; exact h.names, h.small, h3, by rw [h2]; exact h.descIn, by rw [h2]; exact h.descDyn,
    by rw [h2]; exact h.descOnly, h.uniq⟩

variable {infer : List (String × List Int) → Except PyErr Shapes}

/-- `generate_input` and `shape_infer` at the values `σ` -/
theorem probe_at {e : Engine} {σ : String → Int} (hreg : Regular g infer inputDesc ranges dom F laws)
    (hd : ∀ p ∈ inputDesc, e.tensorDesc.get? p.1 = some p.2) (hσ : InDom ranges dom σ) (hv : ∀ r ∈ ranges, e.variables.get? r.1 = some (σ r.1)) :
    ∃ S, probe infer inputDesc e = .ok S ∧ ∀ t ∈ g.dynamics, S t = (laws t).map (Law.at σ) := by
  obtain ⟨S, h1, h2⟩ := hreg.infer_ok σ hσ
  refine ⟨S, ?_, h2⟩
  unfold probe
  rw [generateInput_at inputDesc hd (σ := σ)]
  · exact h1
  · intro p hp v hv'
    obtain ⟨r, hr, rfl⟩ := List.mem_map.mp (hreg.desc_vars p hp v hv')
    exact hv r hr

/-- One variable. -/
theorem varStep_inv (hreg : Regular g infer inputDesc ranges dom F laws) (hlo : InDom ranges dom lo)
    {key : String} (hk : key ∈ ranges.map (·.1)) (hfit : Told (lo key) (hi key) (dom key) (F key))
    (hsteps : Steps g inputDesc laws key (lo key) (hi key) (dom key)) {mn : Shapes}
    (hmn : ∀ t ∈ g.dynamics, mn t = (laws t).map (Law.at lo)) {done : String → String → Nat → Prop} {D : Derived} {st : Engine × Nat}
    (h : Inv g inputDesc ranges lo hi dom laws done st.2 D st.1) :
    ∃ st' D', varStep g infer inputDesc mn key (lo key) (hi key) st = .ok st' ∧
      Inv g inputDesc ranges lo hi dom laws
        (fun k' t' i' => done k' t' i' ∨ (k' = key ∧ t' ∈ g.dynamics ∧ t' ∉ inputDesc.keys ∧ i' < (laws t').length)) st'.2 D' st'.1 := by
  have hdomv : ∀ v, dom key v → InDom ranges dom (upd lo key v) := by
    intro v hv r hr
    by_cases hrk : r.1 = key
    · rw [upd, if_pos hrk, hrk]; exact hv
    · rw [upd, if_neg hrk]; exact hlo r hr
  obtain ⟨b, hb1, hb2⟩ := probe_at (e := st.1.updateVariable key (middle (lo key) (hi key))) (σ := upd lo key (middle (lo key) (hi key))) hreg h.descIn
    (hdomv _ hfit.mid) (by
      intro r hr
      simp only [Engine.updateVariable]
      rw [Dict.get?_set, upd]
      by_cases hrk : r.1 = key
      · rw [if_pos hrk.symm, if_pos hrk]
      · rw [if_neg (fun e => hrk e.symm), if_neg hrk]; exact h.vars r hr)
  obtain ⟨c, hc1, hc2⟩ := probe_at (e := (st.1.updateVariable key (middle (lo key) (hi key))).updateVariable key (hi key)) (σ := upd lo key (hi key)) hreg h.descIn
    (hdomv _ hfit.high) (by
      intro r hr
      simp only [Engine.updateVariable]
      rw [Dict.get?_set, upd]
      by_cases hrk : r.1 = key
      · rw [if_pos hrk.symm, if_pos hrk]
      · rw [if_neg (fun e => hrk e.symm), if_neg hrk, Dict.get?_set_ne _ _ (fun e => hrk e.symm)]; exact h.vars r hr)
  have h0 : StInv g inputDesc ranges lo hi dom F laws (fun k' t' i' => done k' t' i' ∨ (k' = key ∧ t' ∈ ([] : List String) ∧ t' ∉ inputDesc.keys ∧ i' < (laws t').length))
      key st.2 D { engine := ((st.1.updateVariable key (middle (lo key) (hi key))).updateVariable key (hi key)).updateVariable key (lo key), dst := [[lo key, middle (lo key) (hi key), hi key]] } := by
    refine ⟨?_, ⟨[], rfl⟩, ?_, ?_⟩
    · refine Inv.weaken (b := st.2) (done := done) ?_ ?_ (by simp)
      · refine h.setVars rfl rfl ?_
        intro r hr
        simp only [Engine.updateVariable]
        by_cases hrk : key = r.1
        · rw [← hrk, Dict.get?_set_self]
        · rw [Dict.get?_set_ne _ _ hrk, Dict.get?_set_ne _ _ hrk, Dict.get?_set_ne _ _ hrk]; exact h.vars r hr
      · rintro k t i (h | ⟨_, h, _⟩)
        · exact h
        · cases h
    · intro j r hj hjr
      have := (List.getElem?_eq_some_iff.mp hjr).1
      simp only [List.length_cons, List.length_nil] at this
      omega
    · intro n k f hn hD
      obtain ⟨m, hm, he⟩ := h.small _ hD
      have := toString_inj he
      omega
  obtain ⟨s, D', h1, h2⟩ := tensorLoop_inv hreg.keys_names hk hfit hreg.desc_vars (fun t ht k f hf => (hreg.laws_along t ht k f hf).1) hreg.produced hsteps (fun t ht k f hf => (hreg.laws_along t ht k f hf).2)
    hmn hb2 hc2 done g.dynamics [] rfl D _ h0
  refine ⟨(s.engine, st.2 + s.dst.length), D', ?_, h2.inv⟩
  simp only [middle] at hb1 hc1 h1
  simp only [varStep, hb1, hc1, h1]

/-- All variables. -/
theorem varLoop_inv (hreg : Regular g infer inputDesc ranges dom F laws) (hlo : InDom ranges dom lo)
    (hrange : ∀ r ∈ ranges, r.2.1 = lo r.1 ∧ r.2.2 = hi r.1) {mn : Shapes}
    (hmn : ∀ t ∈ g.dynamics, mn t = (laws t).map (Law.at lo)) :
    ∀ (rs ds : Range), ds ++ rs = ranges → ∀ (D : Derived) (st : Engine × Nat),
      Inv g inputDesc ranges lo hi dom laws (fun k' t' i' => k' ∈ ds.map (·.1) ∧ t' ∈ g.dynamics ∧ t' ∉ inputDesc.keys ∧ i' < (laws t').length) st.2 D st.1 →
    ∃ st' D', varLoop g infer inputDesc mn rs st = .ok st' ∧
      Inv g inputDesc ranges lo hi dom laws (fun k' t' i' => k' ∈ ranges.map (·.1) ∧ t' ∈ g.dynamics ∧ t' ∉ inputDesc.keys ∧ i' < (laws t').length) st'.2 D' st'.1 := by
  intro rs
  induction rs with
  | nil =>
    intro ds hds D st h
    rw [List.append_nil] at hds
    subst hds
    exact ⟨st, D, rfl, h⟩
  | cons r rs ih =>
    intro ds hds D st h
    have hr : r ∈ ranges := by rw [← hds]; simp
    have hfit := hreg.told r hr
    obtain ⟨e1, e2⟩ := hrange r hr
    have hsteps : Steps g inputDesc laws r.1 r.2.1 r.2.2 (dom r.1) := hreg.steps r hr
    rw [e1, e2] at hfit hsteps
    obtain ⟨st1, D1, h1, h2⟩ := varStep_inv hreg hlo (List.mem_map_of_mem hr) hfit hsteps hmn h
    obtain ⟨k, l, u⟩ := r
    simp only at e1 e2 h1 h2
    simp only [varLoop, e1, e2, h1]
    refine ih (ds ++ [(k, l, u)]) (by rw [← hds]; simp) D1 st1 (h2.weaken ?_ (Nat.le_refl _))
    rintro k' t' i' ⟨g1, g2⟩
    rw [List.map_append] at g1
    rcases List.mem_append.mp g1 with g1 | g1
    · exact Or.inl ⟨g1, g2⟩
    · simp only [List.map_cons, List.map_nil, List.mem_singleton] at g1
      exact Or.inr ⟨g1, g2⟩

/-! ### the start -/

theorem newEngine_desc : ∀ (ds : Dict (List Dim)) (e : Engine), ds.keys.Nodup →
    let e' := ds.foldl (fun e d => e.addTensorDesc d.1 d.2) e
    e'.exprs = e.exprs ∧ e'.variables = e.variables ∧ (∀ p ∈ ds, e'.tensorDesc.get? p.1 = some p.2) ∧
      ∀ t, t ∉ ds.keys → e'.tensorDesc.get? t = e.tensorDesc.get? t := by
  intro ds
  induction ds with
  | nil => intro e _; exact ⟨rfl, rfl, by simp, fun _ _ => rfl⟩
  | cons p ds ih =>
    intro e hn
    simp only [Dict.keys, List.map_cons, List.nodup_cons] at hn
    obtain ⟨h1, h2, h3, h4⟩ := ih (e.addTensorDesc p.1 p.2) hn.2
    refine ⟨h1, h2, ?_, ?_⟩
    · intro q hq
      rcases List.mem_cons.mp hq with rfl | hq
      · rw [List.foldl_cons, h4 _ hn.1]
        simp only [Engine.addTensorDesc]
        rw [Dict.get?_set_self]
      · exact h3 q hq
    · intro t ht
      simp only [Dict.keys, List.map_cons, List.mem_cons, not_or] at ht
      rw [List.foldl_cons, h4 t ht.2]
      simp only [Engine.addTensorDesc]
      rw [Dict.get?_set_ne _ _ (fun e => ht.1 e.symm)]

theorem setAll_vars (val : String × Int × Int → Int) : ∀ (rs : Range) (e : Engine), (rs.map (·.1)).Nodup →
    let e' := rs.foldl (fun e r => e.updateVariable r.1 (val r)) e
    e'.exprs = e.exprs ∧ e'.tensorDesc = e.tensorDesc ∧ (∀ r ∈ rs, e'.variables.get? r.1 = some (val r)) ∧
      ∀ k, k ∉ rs.map (·.1) → e'.variables.get? k = e.variables.get? k := by
  intro rs
  induction rs with
  | nil => intro e _; exact ⟨rfl, rfl, by simp, fun _ _ => rfl⟩
  | cons p rs ih =>
    intro e hn
    simp only [List.map_cons, List.nodup_cons] at hn
    obtain ⟨h1, h2, h3, h4⟩ := ih (e.updateVariable p.1 (val p)) hn.2
    refine ⟨h1, h2, ?_, ?_⟩
    · intro q hq
      rcases List.mem_cons.mp hq with rfl | hq
      · rw [List.foldl_cons, h4 _ hn.1]
        simp only [Engine.updateVariable]
        rw [Dict.get?_set_self]
      · exact h3 q hq
    · intro t ht
      simp only [List.map_cons, List.mem_cons, not_or] at ht
      rw [List.foldl_cons, h4 t ht.2]
      simp only [Engine.updateVariable]
      rw [Dict.get?_set_ne _ _ (fun e => ht.1 e.symm)]

theorem addDescs_desc (mn mx : Shapes) : ∀ (ts : List String) (e : Engine),
    (addDescs inputDesc mn mx ts e).exprs = e.exprs ∧ (addDescs inputDesc mn mx ts e).variables = e.variables ∧
    ∀ t, (addDescs inputDesc mn mx ts e).tensorDesc.get? t =
      if t ∈ ts ∧ t ∉ inputDesc.keys then some (firstDesc (mn t) (mx t)) else e.tensorDesc.get? t := by
  intro ts
  induction ts with
  | nil => intro e; exact ⟨rfl, rfl, fun t => by simp [addDescs]⟩
  | cons u ts ih =>
    intro e
    rw [addDescs]
    by_cases hu : inputDesc.has u
    · rw [if_pos hu]
      obtain ⟨h1, h2, h3⟩ := ih e
      refine ⟨h1, h2, fun t => ?_⟩
      rw [h3]
      have hu' := (Dict.has_iff _ _).mp hu
      by_cases htu : t = u
      · subst htu
        rw [if_neg (fun h => h.2 hu'), if_neg (fun h => h.2 hu')]
      · simp only [List.mem_cons, htu, false_or]
    · rw [if_neg hu]
      obtain ⟨h1, h2, h3⟩ := ih (e.addTensorDesc u (firstDesc (mn u) (mx u)))
      refine ⟨h1, h2, fun t => ?_⟩
      rw [h3]
      have hu' : u ∉ inputDesc.keys := fun h => hu ((Dict.has_iff _ _).mpr h)
      by_cases htu : t = u
      · subst htu
        rw [if_pos (show t ∈ t :: ts ∧ t ∉ inputDesc.keys from ⟨List.mem_cons_self, hu'⟩)]
        split
        · rfl
        · simp only [Engine.addTensorDesc]; rw [Dict.get?_set_self]
      · simp only [List.mem_cons, htu, false_or, Engine.addTensorDesc]
        rw [Dict.get?_set_ne _ _ (fun e => htu e.symm)]

/-- the value of `lo`/`hi` for a variable of the description -/
def pick (sel : String × Int × Int → Int) (ranges : Range) (k : String) : Int := ((ranges.find? (fun r => r.1 = k)).map sel).getD 0

theorem pick_eq (sel : String × Int × Int → Int) : ∀ (rs : Range), (rs.map (·.1)).Nodup → ∀ r ∈ rs, pick sel rs r.1 = sel r := by
  intro rs
  induction rs with
  | nil => intro _ r hr; cases hr
  | cons p rs ih =>
    intro hn r hr
    simp only [List.map_cons, List.nodup_cons] at hn
    rcases List.mem_cons.mp hr with rfl | hr
    · simp [pick]
    · have hne : p.1 ≠ r.1 := fun e => hn.1 (e ▸ List.mem_map_of_mem hr)
      have := ih hn.2 r hr
      unfold pick at this ⊢
      rw [List.find?_cons_of_neg (by simpa using hne)]
      exact this

end

/-- **The search succeeds and the engine it returns describes all shapes.** -/
theorem regress_ok {g : Graph} {infer : List (String × List Int) → Except PyErr Shapes} {inputDesc : Dict (List Dim)} {ranges : Range}
    {dom : String → Int → Prop} {F : String → (Int → Int) → Prop} {laws : String → List Law} (hreg : Regular g infer inputDesc ranges dom F laws) :
    ∃ e, shapeRegress g infer inputDesc ranges = .ok e ∧ (∀ r ∈ ranges, e.variables.get? r.1 = some r.2.1) ∧
      ∀ σ, InDom ranges dom σ → ∀ vs : Dict Int, (∀ r ∈ ranges, vs.get? r.1 = some (σ r.1)) →
        ∃ e', Engine.updateVariables { e with variables := vs } = .ok e' ∧ e'.exprs = e.exprs ∧ e'.tensorDesc = e.tensorDesc ∧
          (∀ r ∈ ranges, e'.variables.get? r.1 = some (σ r.1)) ∧
          (∀ p ∈ inputDesc, e'.getTensorShape p.1 = .ok (p.2.map (dimAt σ))) ∧
          ∀ t ∈ g.dynamics, t ∉ inputDesc.keys → e'.getTensorShape t = .ok ((laws t).map (Law.at σ)) := by
  have hlo : ∀ r ∈ ranges, r.2.1 = pick (·.2.1) ranges r.1 := fun r hr => (pick_eq (·.2.1) ranges hreg.keys_nodup r hr).symm
  have hhi : ∀ r ∈ ranges, r.2.2 = pick (·.2.2) ranges r.1 := fun r hr => (pick_eq (·.2.2) ranges hreg.keys_nodup r hr).symm
  generalize pick (·.2.1) ranges = lo at hlo
  generalize pick (·.2.2) ranges = hi at hhi
  have hdlo : InDom ranges dom lo := fun r hr => by rw [← hlo r hr]; exact (hreg.told r hr).low
  have hdhi : InDom ranges dom hi := fun r hr => by rw [← hhi r hr]; exact (hreg.told r hr).high
  obtain ⟨a1, a2, a3, a4⟩ := newEngine_desc inputDesc {} hreg.desc_nodup
  obtain ⟨b1, b2, b3, _⟩ := setAll_vars (·.2.2) ranges (newEngine inputDesc) hreg.keys_nodup
  obtain ⟨mx, m1, m2⟩ := probe_at (σ := hi) hreg (by rw [b2]; exact a3) hdhi (fun r hr => by rw [← hhi r hr]; exact b3 r hr)
  obtain ⟨c1, c2, c3, _⟩ := setAll_vars (·.2.1) ranges (ranges.foldl (fun e r => e.updateVariable r.1 r.2.2) (newEngine inputDesc)) hreg.keys_nodup
  obtain ⟨mn, n1, n2⟩ := probe_at (σ := lo) hreg (by rw [c2, b2]; exact a3) hdlo (fun r hr => by rw [← hlo r hr]; exact c3 r hr)
  simp only [shapeRegress, m1, n1]
  generalize hE : ranges.foldl (fun e r => e.updateVariable r.1 r.2.1) (ranges.foldl (fun e r => e.updateVariable r.1 r.2.2) (newEngine inputDesc)) = E at *
  have hex : E.exprs = [] := by rw [c1, b1]; exact a1
  have hdesc : E.tensorDesc = (newEngine inputDesc).tensorDesc := by rw [c2, b2]
  obtain ⟨d1, d2, d3⟩ := addDescs_desc (inputDesc := inputDesc) mn mx g.dynamics E
  have hinv : Inv g inputDesc ranges lo hi dom laws
      (fun k' t' i' => k' ∈ ([] : Range).map (·.1) ∧ t' ∈ g.dynamics ∧ t' ∉ inputDesc.keys ∧ i' < (laws t').length)
      0 [] (addDescs inputDesc mn mx g.dynamics E) := by
    refine ⟨?_, ?_, ?_, ?_, ?_, ?_, ?_, ?_⟩
    · intro σ _ vs hvs
      rw [d1, hex]
      exact ⟨vs, rfl, hvs, by simp⟩
    · rw [d1, hex]; rfl
    · intro m hm; cases hm
    · intro r hr
      rw [d2, ← hlo r hr]
      exact c3 r hr
    · intro p hp
      rw [d3, if_neg (fun h => h.2 (List.mem_map_of_mem hp)), hdesc]
      exact a3 p hp
    · intro t ht hti
      refine ⟨firstDesc (mn t) (mx t), by rw [d3, if_pos ⟨ht, hti⟩], ?_, ?_⟩
      · rw [n2 t ht, m2 t ht, firstDesc]
        simp
      · intro i x l hx hl
        rw [n2 t ht, m2 t ht, firstDesc, List.getElem?_zipWith] at hx
        simp only [List.getElem?_map, hl, Option.map_some, Option.some.injEq] at hx
        subst hx
        cases l with
        | fixed n => simp [DimOk, Law.at]
        | along k f =>
          by_cases hc : f (lo k) = f (hi k)
          · exact Or.inl ⟨hc, by simp [Law.at, hc]⟩
          · refine Or.inr ⟨hc, "", by simp [Law.at, hc], Or.inl rfl, ?_⟩
            rintro ⟨h, _⟩
            cases h
    · intro t d hd
      rw [d3] at hd
      split at hd
      · rename_i hc
        exact Or.inr hc.1
      · rw [hdesc] at hd
        by_cases hti : t ∈ inputDesc.keys
        · exact Or.inl hti
        · have := (a4 t hti).symm.trans hd
          cases this
    · intro m hm
      cases hm
  obtain ⟨st, D, h1, h2⟩ := varLoop_inv hreg hdlo (fun r hr => ⟨hlo r hr, hhi r hr⟩) n2 ranges [] rfl [] (addDescs inputDesc mn mx g.dynamics E, 0) hinv
  simp only [h1]
  refine ⟨st.1, rfl, fun r hr => by rw [hlo r hr]; exact h2.vars r hr, ?_⟩
  intro σ hσ vs hvs
  obtain ⟨vs', u1, u2, u3⟩ := h2.sound σ hσ vs hvs
  refine ⟨{ st.1 with variables := vs' }, ?_, rfl, rfl, u2, ?_, ?_⟩
  · simp only [Engine.updateVariables, u1, bind, Except.bind, pure, Except.pure]
  · intro p hp
    simp only [Engine.getTensorShape, h2.descIn p hp]
    refine shapeFromDesc_at _ fun v hv => ?_
    obtain ⟨r, hr, rfl⟩ := List.mem_map.mp (hreg.desc_vars p hp v hv)
    exact u2 r hr
  · intro t ht hti
    obtain ⟨d, k1, k2, k3⟩ := h2.descDyn t ht hti
    simp only [Engine.getTensorShape, k1]
    have hval : ∀ (i : Nat) (x : Dim) (l : Law), d[i]? = some x → (laws t)[i]? = some l → dimVal vs' x = some (l.at σ) := by
      intro i x l hx hl
      have hok := k3 i x l hx hl
      cases l with
      | fixed n => simp only [DimOk] at hok; rw [hok]; rfl
      | along k f =>
        obtain ⟨hk, hF⟩ := hreg.laws_along t ht k f (List.mem_of_getElem? hl)
        obtain ⟨r, hr, rfl⟩ := List.mem_map.mp hk
        have hdk := hσ r hr
        rcases hok with ⟨hc, hx⟩ | ⟨_, v, hx, hm⟩
        · have hfit := hreg.told r hr
          rw [hx]
          simp only [dimVal, Law.at]
          rw [← hlo r hr, ← hhi r hr] at hc
          rw [← hlo r hr, hfit.const f hF hc _ hdk]
        · have hlt := (List.getElem?_eq_some_iff.mp hl).1
          rw [hx]
          simp only [dimVal, Law.at]
          rcases hm.2 ⟨hk, ht, hti, hlt⟩ with ⟨rfl, hid⟩ | ⟨f', hD, hff⟩
          · rw [hid _ hdk]; exact u2 r hr
          · rw [hff _ hdk]; exact u3 _ hD
    clear k1 k3
    generalize laws t = ls at k2 hval
    induction d generalizing ls with
    | nil => cases ls with
      | nil => rfl
      | cons l ls => simp at k2
    | cons x d ih => cases ls with
      | nil => simp at k2
      | cons l ls =>
        simp only [shapeFromDesc, hval 0 x l rfl rfl, bind, Except.bind, pure, Except.pure, List.map_cons]
        rw [ih ls (by simpa using k2) (fun i x' l' h1 h2 => hval (i + 1) x' l' (by simpa using h1) (by simpa using h2))]

end OnnxTool.Regress
