import Verif.Model.NodeAttr
/-! # C98: nodes and their attributes survive loading and saving -/
namespace OnnxTool.Props
open OnnxTool OnnxTool.NodeAttr

variable {F M A : Type}

/-! ## Specification -/

/-- a list value without elements -/
def EmptyList : AVal F M → Prop
  | .ints l => l = []
  | .floats l => l = []
  | .strings l => l = []
  | .msgs _ l => l = []
  | _ => False

/-- a value: the type of the attribute is set -/
def HasValue (v : AVal F M) : Prop := v ≠ .undefined

/-- names that are parameters of `onnx.helper.make_node` -/
def ParamName (k : String) : Prop :=
  k = "op_type" ∨ k = "inputs" ∨ k = "outputs" ∨ k = "name" ∨ k = "doc_string" ∨ k = "domain" ∨ k = "overload"

/-- every tensor among the attributes can be read -/
def TensorsReadable (toArray : M → Except PyErr A) (as : List (String × AVal F M)) : Prop :=
  ∀ k m, (k, AVal.msg .tensor m) ∈ as → ∃ a, toArray m = .ok a

/-! ## Facts -/

section
variable {α β : Type}

theorem mapM_map_some (f : β → Option α) (c : α → β) (l : List α) (h : ∀ x, f (c x) = some x) : (l.map c).mapM f = some l := by
  induction l with
  | nil => rfl
  | cons x l ih => rw [List.map_cons, List.mapM_cons, h, ih]; rfl

theorem mapM_head_none (f : β → Option α) (x : β) (l : List β) (h : f x = none) : (x :: l).mapM f = none := by
  rw [List.mapM_cons, h]; rfl

theorem insertByName_perm (p : String × α) (l : List (String × α)) : (insertByName p l).Perm (p :: l) := by
  induction l with
  | nil => exact List.Perm.refl _
  | cons q l ih =>
    unfold insertByName
    split
    · exact List.Perm.refl _
    · exact (List.Perm.cons q ih).trans (List.Perm.swap p q l)

theorem sortByName_perm (l : List (String × α)) : (l.foldr insertByName []).Perm l := by
  induction l with
  | nil => exact List.Perm.refl _
  | cons p l ih => exact (insertByName_perm p _).trans (List.Perm.cons p ih)

theorem insertByName_map (f : α → β) (p : String × α) (l : List (String × α)) :
    insertByName (p.1, f p.2) (l.map fun q => (q.1, f q.2)) = (insertByName p l).map fun q => (q.1, f q.2) := by
  induction l with
  | nil => rfl
  | cons q l ih =>
    simp only [List.map_cons, insertByName]
    by_cases h : p.1 ≤ q.1
    · rw [if_pos h, if_pos h]; rfl
    · rw [if_neg h, if_neg h, ih]; rfl

theorem sortByName_map (f : α → β) (l : List (String × α)) :
    (l.map fun q => (q.1, f q.2)).foldr insertByName [] = (l.foldr insertByName []).map fun q => (q.1, f q.2) := by
  induction l with
  | nil => rfl
  | cons p l ih => simp only [List.map_cons, List.foldr_cons]; rw [ih, insertByName_map]

theorem set_fresh (d : Dict α) (k : String) (v : α) (h : k ∉ d.map (·.1)) : d.set k v = d ++ [(k, v)] := by
  induction d with
  | nil => rfl
  | cons p d ih =>
    obtain ⟨q, w⟩ := p
    simp only [List.map_cons, List.mem_cons, not_or] at h
    simp only [Dict.set, List.cons_append]
    rw [if_neg (fun e => h.1 e.symm), ih h.2]

theorem get_none (d : Dict α) (k : String) (h : k ∉ d.map (·.1)) : d.get? k = none := by
  induction d with
  | nil => rfl
  | cons p d ih =>
    obtain ⟨q, w⟩ := p
    simp only [List.map_cons, List.mem_cons, not_or] at h
    simp only [Dict.get?]
    rw [if_neg (fun e => h.1 e.symm), ih h.2]

theorem get_mem (d : Dict α) (k : String) (v : α) (hn : (d.map (·.1)).Nodup) (h : (k, v) ∈ d) : d.get? k = some v := by
  induction d with
  | nil => cases h
  | cons p d ih =>
    obtain ⟨q, w⟩ := p
    simp only [List.map_cons, List.nodup_cons] at hn
    simp only [Dict.get?]
    rcases List.mem_cons.mp h with e | e
    · injection e with e1 e2; rw [if_pos e1.symm, e2]
    · rw [if_neg, ih hn.2 e]
      intro e2
      exact hn.1 (List.mem_map.mpr ⟨(k, v), e, e2.symm⟩)
end

theorem remake_value (ofInt : Int → F) (v : AVal F M) (hv : HasValue v) (he : ¬ EmptyList v) :
    makeAttribute ofInt (getAttributeValue v) = .ok v := by
  cases v with
  | undefined => exact absurd rfl hv
  | int i => rfl
  | float f => rfl
  | string b => rfl
  | msg k m => rfl
  | ints l =>
    cases l with
    | nil => exact absurd rfl he
    | cons x l =>
      show makeList ofInt (((x :: l).map Scalar.int)) = _
      unfold makeList
      rw [if_neg (by simp), mapM_map_some asInt Scalar.int _ (fun _ => rfl)]
  | floats l =>
    cases l with
    | nil => exact absurd rfl he
    | cons x l =>
      show makeList ofInt (((x :: l).map Scalar.float)) = _
      unfold makeList
      rw [if_neg (by simp), mapM_map_some (asFloat ofInt) Scalar.float _ (fun _ => rfl)]
      simp only [List.map_cons]
      rw [mapM_head_none asInt _ _ rfl]
  | strings l =>
    cases l with
    | nil => exact absurd rfl he
    | cons x l =>
      show makeList ofInt (((x :: l).map Scalar.bytes)) = _
      unfold makeList
      rw [if_neg (by simp), mapM_map_some asBytes Scalar.bytes _ (fun _ => rfl)]
      simp only [List.map_cons]
      rw [mapM_head_none asInt _ _ rfl, mapM_head_none (asFloat ofInt) _ _ rfl]
  | msgs k l =>
    cases l with
    | nil => exact absurd rfl he
    | cons x l =>
      show makeList ofInt (((x :: l).map (Scalar.msg k))) = _
      unfold makeList
      rw [if_neg (by simp)]
      have hk := mapM_map_some (asMsg (F := F) k) (Scalar.msg k) (x :: l) (fun _ => if_pos rfl)
      simp only [List.map_cons] at hk ⊢
      rw [mapM_head_none asInt _ _ rfl, mapM_head_none (asFloat ofInt) _ _ rfl, mapM_head_none asBytes _ _ rfl]
      cases k with
      | tensor => rw [hk]
      | sparse => rw [hk, mapM_head_none (asMsg .tensor) _ _ rfl]
      | graph => rw [hk, mapM_head_none (asMsg .tensor) _ _ rfl, mapM_head_none (asMsg .sparse) _ _ rfl]
      | type => rw [hk, mapM_head_none (asMsg .tensor) _ _ rfl, mapM_head_none (asMsg .sparse) _ _ rfl, mapM_head_none (asMsg .graph) _ _ rfl]

theorem remake_empty (ofInt : Int → F) (v : AVal F M) (he : EmptyList v) : makeAttribute ofInt (getAttributeValue v) = .error .valueError := by
  cases v with
  | ints l => cases he; rfl
  | floats l => cases he; rfl
  | strings l => cases he; rfl
  | msgs k l => cases he; rfl
  | _ => exact he.elim

theorem data_ok (toArray : M → Except PyErr A) (v : AVal F M) (h : ∀ m, v = .msg .tensor m → ∃ a, toArray m = .ok a) :
    ∃ d, getAttributeData toArray v = .ok d := by
  cases v with
  | msg k m =>
    cases k with
    | tensor =>
      obtain ⟨a, ha⟩ := h m rfl
      exact ⟨.array a, by simp only [getAttributeData, ha]⟩
    | _ => exact ⟨_, rfl⟩
  | _ => exact ⟨_, rfl⟩

theorem readAttrs_ok (toArray : M → Except PyErr A) (as : List (String × AVal F M)) (o : Obj F M A) (ht : TensorsReadable toArray as)
    (hn : (as.map (·.1)).Nodup) (h1 : ∀ p ∈ as, p.1 ∉ o.attr.map (·.1)) (h2 : ∀ p ∈ as, p.1 ∉ o.fields.map (·.1)) :
    ∃ ds : List (String × Data F M A), readAttrs toArray as o = .ok { o with attr := o.attr ++ as.map (fun p => (p.1, getAttributeValue p.2)), fields := o.fields ++ ds } ∧
      ds.map (·.1) = as.map (·.1) ∧ ∀ (k : String) (v : AVal F M) (d : Data F M A), (k, v) ∈ as → getAttributeData toArray v = .ok d → (k, d) ∈ ds := by
  induction as generalizing o with
  | nil => exact ⟨[], by simp [readAttrs], rfl, by simp⟩
  | cons p as ih =>
    obtain ⟨k, v⟩ := p
    obtain ⟨d, hd⟩ := data_ok toArray v (fun m e => ht k m (e ▸ List.mem_cons_self))
    have hk1 := h1 (k, v) List.mem_cons_self
    have hk2 := h2 (k, v) List.mem_cons_self
    simp only [List.map_cons, List.nodup_cons] at hn
    have hne : ∀ p ∈ as, p.1 ≠ k := fun p hp e => hn.1 (e ▸ List.mem_map_of_mem hp)
    obtain ⟨ds, hr, hm, hds⟩ := ih { o with attr := o.attr.set k (getAttributeValue v), fields := o.fields.set k d }
      (fun k m hm => ht k m (List.mem_cons_of_mem _ hm)) hn.2
      (by
        intro p hp
        rw [set_fresh _ _ _ hk1]
        simp only [List.map_append, List.mem_append, not_or]
        exact ⟨h1 p (List.mem_cons_of_mem _ hp), by simpa using hne p hp⟩)
      (by
        intro p hp
        rw [set_fresh _ _ _ hk2]
        simp only [List.map_append, List.mem_append, not_or]
        exact ⟨h2 p (List.mem_cons_of_mem _ hp), by simpa using hne p hp⟩)
    refine ⟨(k, d) :: ds, ?_, by simp [hm], ?_⟩
    · simp only [readAttrs, hd]
      rw [hr, set_fresh _ _ _ hk1, set_fresh _ _ _ hk2]
      simp
    · intro k' v' d' hmem hd'
      rcases List.mem_cons.mp hmem with e | e
      · injection e with e1 e2
        subst e1 e2
        rw [hd] at hd'
        injection hd' with hd'
        rw [hd']
        exact List.mem_cons_self
      · exact List.mem_cons_of_mem _ (hds k' v' d' e hd')

/-- the object made of a node whose attribute names are distinct -/
theorem ofProto_ok (toArray : M → Except PyErr A) (i : Nat) (n : NodeProto F M) (ht : TensorsReadable toArray n.attrs) (hn : (n.attrs.map (·.1)).Nodup) :
    ∃ o, ofProto toArray i n = .ok o ∧ o.opType = n.opType ∧ o.input = n.input ∧ o.output = n.output ∧ (n.name ≠ "" → o.name = n.name) ∧
      o.attr = n.attrs.map (fun p => (p.1, getAttributeValue p.2)) ∧ o.proto = n.attrs ∧ o.fields.map (·.1) = n.attrs.map (·.1) ∧
      ∀ (k : String) (v : AVal F M) (d : Data F M A), (k, v) ∈ n.attrs → getAttributeData toArray v = .ok d → (k, d) ∈ o.fields := by
  obtain ⟨ds, hr, hm, hds⟩ := readAttrs_ok toArray n.attrs
    { opType := n.opType, input := n.input, output := n.output, name := if n.name.length = 0 then n.opType ++ "_" ++ toString i else n.name,
      attr := [], fields := [], proto := n.attrs } ht hn (by simp) (by simp)
  refine ⟨_, hr, rfl, rfl, rfl, ?_, by simp, rfl, by simpa using hm, by simpa using hds⟩
  intro h
  show (if n.name.length = 0 then _ else n.name) = _
  rw [if_neg]
  intro e
  exact h (String.length_eq_zero_iff.mp e)

theorem writeAttrs_ok (ofInt : Int → F) (as : List (String × AVal F M)) (h : ∀ p ∈ as, HasValue p.2 ∧ ¬ EmptyList p.2) :
    writeAttrs ofInt (as.map fun p => (p.1, getAttributeValue p.2)) = .ok as := by
  induction as with
  | nil => rfl
  | cons p as ih =>
    obtain ⟨k, v⟩ := p
    have h1 := h (k, v) List.mem_cons_self
    have hr := remake_value ofInt v h1.1 h1.2
    simp only [List.map_cons, writeAttrs]
    rw [ih (fun p hp => h p (List.mem_cons_of_mem _ hp))]
    cases hv : getAttributeValue v with
    | none => rw [hv] at hr; cases hr
    | one s => rw [hv] at hr; simp only [hr]
    | many l => rw [hv] at hr; simp only [hr]

theorem writeAttrs_iff (ofInt : Int → F) (l : List (String × PyVal F M)) :
    (∃ r, writeAttrs ofInt l = .ok r) ↔ ∀ p ∈ l, p.2 = .none ∨ ∃ a, makeAttribute ofInt p.2 = .ok a := by
  induction l with
  | nil => simp [writeAttrs]
  | cons p l ih =>
    obtain ⟨k, v⟩ := p
    rw [List.forall_mem_cons, ← ih]
    cases v with
    | none => simp [writeAttrs]
    | one s =>
      simp only [writeAttrs]
      cases makeAttribute ofInt (PyVal.one s) with
      | error e => simp
      | ok a => cases writeAttrs ofInt l <;> simp
    | many s =>
      simp only [writeAttrs]
      cases makeAttribute ofInt (PyVal.many s) with
      | error e => simp
      | ok a => cases writeAttrs ofInt l <;> simp

theorem makeNodeproto_eq (ofInt : Int → F) (o : Obj F M A) (h : ∀ k ∈ o.attr.map (·.1), ¬ ParamName k) :
    makeNodeproto ofInt o = (match writeAttrs ofInt (o.attr.foldr insertByName []) with
      | .error e => .error e
      | .ok as => .ok { opType := o.opType, input := o.input, output := o.output, name := o.name, domain := "", docString := "", attrs := as }) := by
  have hno : ∀ k, ParamName k → o.attr.get? k = none := fun k hk => get_none _ _ (fun hm => h k hm hk)
  have hp : ¬ passed.any o.attr.has = true := by
    simp [passed, Dict.has, hno "op_type" (by simp [ParamName]), hno "inputs" (by simp [ParamName]), hno "outputs" (by simp [ParamName]), hno "name" (by simp [ParamName])]
  have hf : (o.attr.filter fun p => !others.contains p.1) = o.attr := by
    rw [List.filter_eq_self]
    intro p hp
    have := h p.1 (List.mem_map_of_mem hp)
    simp only [ParamName, not_or] at this
    simp [others, this]
  have hd : textArg o.attr "domain" = .ok "" := by unfold textArg; rw [hno "domain" (by simp [ParamName])]
  have hs : textArg o.attr "doc_string" = .ok "" := by unfold textArg; rw [hno "doc_string" (by simp [ParamName])]
  unfold makeNodeproto
  rw [if_neg hp, hd, hs, hf]
  rfl

/-! ## Theorems -/

/-- **C98 (partial).** A named node of a file, whose attributes have distinct names (none of them a parameter of `make_node`), values, and no empty lists, is written
back with its operator, name, inputs, outputs and exactly its attributes, each with its type and value (ordered by name).
Missing: the domain and the documentation of the node, empty lists, attributes with the name of a parameter; there it is false (`C98_domain_lost`,
`C98_empty_list_refused`, `C98_parameter_name_refused`). -/
theorem C98_roundtrip_partial (ofInt : Int → F) (toArray : M → Except PyErr A) (i : Nat) (n : NodeProto F M) (hname : n.name ≠ "")
    (hn : (n.attrs.map (·.1)).Nodup) (ht : TensorsReadable toArray n.attrs) (hp : ∀ a ∈ n.attrs, ¬ ParamName a.1)
    (hv : ∀ a ∈ n.attrs, HasValue a.2 ∧ ¬ EmptyList a.2) :
    ∃ o p, ofProto toArray i n = .ok o ∧ makeNodeproto ofInt o = .ok p ∧
      p.opType = n.opType ∧ p.name = n.name ∧ p.input = n.input ∧ p.output = n.output ∧ p.attrs.Perm n.attrs := by
  obtain ⟨o, ho, h1, h2, h3, h4, h5, -, -, -⟩ := ofProto_ok toArray i n ht hn
  have hk : ∀ k ∈ o.attr.map (·.1), ¬ ParamName k := by
    rw [h5]
    intro k hk
    simp only [List.map_map, List.mem_map, Function.comp] at hk
    obtain ⟨a, ha, rfl⟩ := hk
    exact hp a ha
  refine ⟨o, ⟨o.opType, o.input, o.output, o.name, "", "", n.attrs.foldr insertByName []⟩, ho, ?_, h1, h4 hname, h2, h3, sortByName_perm n.attrs⟩
  rw [makeNodeproto_eq ofInt o hk, h5, sortByName_map, writeAttrs_ok]
  intro p hp'
  exact hv p ((sortByName_perm n.attrs).mem_iff.mp hp')

/-- a node with attributes of several types -/
def convNode : NodeProto Int Nat :=
  { opType := "Conv", input := ["x", "w"], output := ["y"], name := "c1", domain := "", docString := "",
    attrs := [("strides", .ints [2, 2]), ("alpha", .float 3), ("auto_pad", .string [78]), ("value", .msg .tensor 7)] }

example : convNode.name ≠ "" ∧ (convNode.attrs.map (·.1)).Nodup ∧ (∀ a ∈ convNode.attrs, ¬ ParamName a.1) ∧
    (∀ a ∈ convNode.attrs, HasValue a.2 ∧ ¬ EmptyList a.2) ∧ TensorsReadable (fun m : Nat => Except.ok m) convNode.attrs := by
  refine ⟨by decide, by decide, ?_, ?_, ?_⟩
  · intro a ha
    simp only [convNode, List.mem_cons, List.not_mem_nil, or_false] at ha
    rcases ha with rfl | rfl | rfl | rfl <;> simp [ParamName]
  · intro a ha
    simp only [convNode, List.mem_cons, List.not_mem_nil, or_false] at ha
    rcases ha with rfl | rfl | rfl | rfl <;> simp [HasValue, EmptyList]
  · intro k m _
    exact ⟨m, rfl⟩

/-- **C98, when saving succeeds.** For distinct attribute names that are no parameters of `make_node`, a loaded node can be written exactly if none of its attributes is
an empty list. -/
theorem C98_save_iff (ofInt : Int → F) (toArray : M → Except PyErr A) (i : Nat) (n : NodeProto F M) (o : Obj F M A) (ho : ofProto toArray i n = .ok o)
    (hn : (n.attrs.map (·.1)).Nodup) (ht : TensorsReadable toArray n.attrs) (hp : ∀ a ∈ n.attrs, ¬ ParamName a.1) :
    (∃ p, makeNodeproto ofInt o = .ok p) ↔ ∀ a ∈ n.attrs, ¬ EmptyList a.2 := by
  obtain ⟨o', ho', -, -, -, -, h5, -⟩ := ofProto_ok toArray i n ht hn
  rw [ho] at ho'
  injection ho' with e
  subst e
  have hk : ∀ k ∈ o.attr.map (·.1), ¬ ParamName k := by
    rw [h5]
    intro k hk
    simp only [List.map_map, List.mem_map, Function.comp] at hk
    obtain ⟨a, ha, rfl⟩ := hk
    exact hp a ha
  rw [makeNodeproto_eq ofInt o hk]
  have hw : (∃ p, (match writeAttrs ofInt (o.attr.foldr insertByName []) with
      | .error e => .error e
      | .ok as => .ok { opType := o.opType, input := o.input, output := o.output, name := o.name, domain := "", docString := "", attrs := as } :
        Except PyErr (NodeProto F M)) = .ok p) ↔ ∃ r, writeAttrs ofInt (o.attr.foldr insertByName []) = .ok r := by
    cases writeAttrs ofInt (o.attr.foldr insertByName []) <;> simp
  rw [hw, writeAttrs_iff]
  constructor
  · intro h a ha he
    have hm : (a.1, getAttributeValue a.2) ∈ o.attr.foldr insertByName [] := by
      rw [(sortByName_perm _).mem_iff, h5]
      exact List.mem_map.mpr ⟨a, ha, rfl⟩
    have he' := remake_empty ofInt a.2 he
    rcases h _ hm with e | ⟨w, e⟩
    · have e : getAttributeValue a.2 = .none := e
      rw [e] at he'; cases he'
    · rw [he'] at e; cases e
  · intro h p hp'
    rw [(sortByName_perm _).mem_iff, h5] at hp'
    obtain ⟨a, ha, rfl⟩ := List.mem_map.mp hp'
    by_cases hv : a.2 = .undefined
    · left; simp only [hv]; rfl
    · exact .inr ⟨_, remake_value ofInt a.2 hv (h a ha)⟩

/-- **C98 is false for empty lists (finding).** A node with an attribute that is an empty list (valid in ONNX, for example `axes = []`) loads, and then raises `ValueError`
when it is saved. -/
theorem C98_empty_list_refused (ofInt : Int → F) (toArray : M → Except PyErr A) (i : Nat) (n : NodeProto F M)
    (hn : (n.attrs.map (·.1)).Nodup) (ht : TensorsReadable toArray n.attrs) (hp : ∀ a ∈ n.attrs, ¬ ParamName a.1) (k : String) (hk : (k, AVal.ints []) ∈ n.attrs) :
    ∃ o e, ofProto toArray i n = .ok o ∧ makeNodeproto ofInt o = .error e := by
  obtain ⟨o, ho, -⟩ := ofProto_ok toArray i n ht hn
  refine ⟨o, ?_⟩
  cases h : makeNodeproto ofInt o with
  | error e => exact ⟨e, ho, rfl⟩
  | ok p => exact absurd rfl ((C98_save_iff ofInt toArray i n o ho hn ht hp).mp ⟨p, h⟩ _ hk)

/-- **C98 is false for nodes of other domains (finding).** Whatever the domain and the documentation of the node in the file, the node written has none: a node of a domain like
`com.microsoft` becomes a node of the ONNX domain. -/
theorem C98_domain_lost (ofInt : Int → F) (toArray : M → Except PyErr A) (i : Nat) (n : NodeProto F M) (o : Obj F M A) (p : NodeProto F M)
    (hn : (n.attrs.map (·.1)).Nodup) (ht : TensorsReadable toArray n.attrs) (hp : ∀ a ∈ n.attrs, ¬ ParamName a.1)
    (ho : ofProto toArray i n = .ok o) (hs : makeNodeproto ofInt o = .ok p) : p.domain = "" ∧ p.docString = "" := by
  obtain ⟨o', ho', -, -, -, -, h5, -⟩ := ofProto_ok toArray i n ht hn
  rw [ho] at ho'
  injection ho' with e
  subst e
  have hk : ∀ k ∈ o.attr.map (·.1), ¬ ParamName k := by
    rw [h5]
    intro k hk
    simp only [List.map_map, List.mem_map, Function.comp] at hk
    obtain ⟨a, ha, rfl⟩ := hk
    exact hp a ha
  rw [makeNodeproto_eq ofInt o hk] at hs
  cases hw : writeAttrs ofInt (o.attr.foldr insertByName []) with
  | error e => rw [hw] at hs; cases hs
  | ok as => rw [hw] at hs; cases hs; exact ⟨rfl, rfl⟩

/-- **C98 is false for some attribute names (finding).** A node with an attribute called `op_type`, `inputs`, `outputs` or `name` loads, and raises `TypeError` when it is saved. -/
theorem C98_parameter_name_refused (ofInt : Int → F) (toArray : M → Except PyErr A) (i : Nat) (n : NodeProto F M)
    (hn : (n.attrs.map (·.1)).Nodup) (ht : TensorsReadable toArray n.attrs) (k : String) (v : AVal F M) (hk : (k, v) ∈ n.attrs)
    (hr : k = "op_type" ∨ k = "inputs" ∨ k = "outputs" ∨ k = "name") :
    ∃ o, ofProto toArray i n = .ok o ∧ makeNodeproto ofInt o = .error .typeError := by
  obtain ⟨o, ho, -, -, -, -, h5, -⟩ := ofProto_ok toArray i n ht hn
  refine ⟨o, ho, ?_⟩
  have hg : o.attr.has k = true := by
    unfold Dict.has
    rw [h5, get_mem _ k (getAttributeValue v) (by rw [List.map_map]; exact hn) (List.mem_map.mpr ⟨(k, v), hk, rfl⟩)]
    rfl
  have hm : k ∈ passed := by rcases hr with rfl | rfl | rfl | rfl <;> simp [passed]
  unfold makeNodeproto
  rw [if_pos (List.any_eq_true.mpr ⟨k, hm, hg⟩)]

/-- **C98, reading attributes.** For an attribute of the file, `node.attr[k]` is its value; the field `node.k` is the number, the bytes or the list for the types INT, FLOAT,
STRING, INTS and FLOATS and the array for a tensor; for all other types (graphs, lists of strings, …) the field is `None` (finding). -/
theorem C98_fields (toArray : M → Except PyErr A) (i : Nat) (n : NodeProto F M) (hn : (n.attrs.map (·.1)).Nodup) (ht : TensorsReadable toArray n.attrs) :
    ∃ o, ofProto toArray i n = .ok o ∧
      (∀ k v, (k, v) ∈ n.attrs → o.attr.get? k = some (getAttributeValue v)) ∧
      (∀ k x, (k, AVal.int x) ∈ n.attrs → o.fields.get? k = some (.val (.one (.int x)))) ∧
      (∀ k x, (k, AVal.float x) ∈ n.attrs → o.fields.get? k = some (.val (.one (.float x)))) ∧
      (∀ k x, (k, AVal.string x) ∈ n.attrs → o.fields.get? k = some (.val (.one (.bytes x)))) ∧
      (∀ k x, (k, AVal.ints x) ∈ n.attrs → o.fields.get? k = some (.val (.many (x.map .int)))) ∧
      (∀ k x, (k, AVal.floats x) ∈ n.attrs → o.fields.get? k = some (.val (.many (x.map .float)))) ∧
      (∀ k m a, (k, AVal.msg .tensor m) ∈ n.attrs → toArray m = .ok a → o.fields.get? k = some (.array a)) ∧
      (∀ k m, (k, AVal.msg .graph m) ∈ n.attrs → o.fields.get? k = some (.val .none)) ∧
      (∀ k l, (k, AVal.strings l) ∈ n.attrs → o.fields.get? k = some (.val .none)) ∧
      (∀ k, k ∉ n.attrs.map (·.1) → o.fields.get? k = none ∧ o.attr.get? k = none) := by
  obtain ⟨o, ho, -, -, -, -, h5, -, h6, h7⟩ := ofProto_ok toArray i n ht hn
  have hf : ∀ k v d, (k, v) ∈ n.attrs → getAttributeData toArray v = .ok d → o.fields.get? k = some d := fun k v d hm hd =>
    get_mem _ _ _ (by rw [h6]; exact hn) (h7 k v d hm hd)
  refine ⟨o, ho, ?_, fun k x h => hf k _ _ h rfl, fun k x h => hf k _ _ h rfl, fun k x h => hf k _ _ h rfl, fun k x h => hf k _ _ h rfl, fun k x h => hf k _ _ h rfl,
    ?_, fun k x h => hf k _ _ h rfl, fun k x h => hf k _ _ h rfl, ?_⟩
  · intro k v hm
    rw [h5]
    exact get_mem _ _ _ (by rw [List.map_map]; exact hn) (List.mem_map.mpr ⟨(k, v), hm, rfl⟩)
  · intro k m a hm ha
    refine hf k _ _ hm ?_
    simp only [getAttributeData, ha]
  · intro k hk
    refine ⟨get_none _ _ (by rw [h6]; exact hk), get_none _ _ ?_⟩
    rw [h5, List.map_map]
    exact hk

/-- **C98, defaults.** A default value is used exactly if the file has no attribute of that name, and is never written. -/
theorem C98_defaults (ofInt : Int → F) (toArray : M → Except PyErr A) (i : Nat) (n : NodeProto F M) (o : Obj F M A) (ho : ofProto toArray i n = .ok o)
    (hn : (n.attrs.map (·.1)).Nodup) (ht : TensorsReadable toArray n.attrs) (k : String) (d : Data F M A) :
    (k ∉ n.attrs.map (·.1) → (addDefault o k d).fields.get? k = some d) ∧
      (k ∈ n.attrs.map (·.1) → (addDefault o k d).fields.get? k = o.fields.get? k ∧ (o.fields.get? k).isSome) ∧
      makeNodeproto ofInt (addDefault o k d) = makeNodeproto ofInt o := by
  obtain ⟨o', ho', -, -, -, -, -, -, h6, -⟩ := ofProto_ok toArray i n ht hn
  rw [ho] at ho'
  injection ho' with e
  subst e
  refine ⟨?_, ?_, ?_⟩
  · intro hk
    have hg := get_none o.fields k (by rw [h6]; exact hk)
    unfold addDefault Dict.has
    rw [hg]
    simp only [Option.isSome_none, Bool.false_eq_true, if_false]
    rw [set_fresh _ _ _ (by rw [h6]; exact hk)]
    apply get_mem
    · rw [List.map_append, h6, List.nodup_append]
      refine ⟨hn, by simp, ?_⟩
      intro a ha b hb
      simp only [List.map_cons, List.map_nil, List.mem_cons, List.not_mem_nil, or_false] at hb
      subst hb
      intro e; subst e; exact hk ha
    · simp
  · intro hk
    rw [← h6] at hk
    obtain ⟨p, hp, hpk⟩ := List.mem_map.mp hk
    have hg : o.fields.get? k = some p.2 := get_mem _ _ _ (by rw [h6]; exact hn) (by rw [← hpk]; exact hp)
    unfold addDefault Dict.has
    rw [hg]
    simp [hg]
  · unfold addDefault
    split <;> rfl

/-- the value is `None` -/
def isNone : PyVal F M → Bool
  | .none => true
  | _ => false

theorem writeAttrs_cons (ofInt : Int → F) (k : String) (v : PyVal F M) (l : List (String × PyVal F M)) :
    writeAttrs ofInt ((k, v) :: l) = if isNone v then writeAttrs ofInt l else
      match makeAttribute ofInt v, writeAttrs ofInt l with
      | .ok a, .ok r => .ok ((k, a) :: r)
      | .error e, _ => .error e
      | _, .error e => .error e := by
  cases v with
  | none => simp [writeAttrs, isNone]
  | one s =>
    simp only [writeAttrs, isNone, Bool.false_eq_true, if_false]
    cases makeAttribute ofInt (PyVal.one s) <;> cases writeAttrs ofInt l <;> rfl
  | many s =>
    simp only [writeAttrs, isNone, Bool.false_eq_true, if_false]
    cases makeAttribute ofInt (PyVal.many s) <;> cases writeAttrs ofInt l <;> rfl

theorem writeAttrs_perm (ofInt : Int → F) {l l' : List (String × PyVal F M)} (h : l.Perm l') :
    ∀ as, writeAttrs ofInt l = .ok as → ∃ as', writeAttrs ofInt l' = .ok as' ∧ as'.Perm as := by
  induction h with
  | nil => intro as h; exact ⟨as, h, List.Perm.refl _⟩
  | cons p _ ih =>
    obtain ⟨k, v⟩ := p
    intro as h
    rw [writeAttrs_cons] at h ⊢
    by_cases hv : isNone v = true
    · rw [if_pos hv] at h ⊢; exact ih as h
    · rw [if_neg hv] at h ⊢
      cases hm : makeAttribute ofInt v with
      | error e => rw [hm] at h; simp only at h; cases h
      | ok a =>
        rw [hm] at h
        rename_i l1 l2 _
        cases hw : writeAttrs ofInt l1 with
        | error e => rw [hw] at h; simp only at h; cases h
        | ok r =>
          rw [hw] at h
          simp only [Except.ok.injEq] at h
          subst h
          obtain ⟨r', hr', hp⟩ := ih r hw
          rw [hr']
          exact ⟨_, rfl, List.Perm.cons _ hp⟩
  | swap p q l =>
    obtain ⟨k, v⟩ := p
    obtain ⟨k', v'⟩ := q
    intro as h
    simp only [writeAttrs_cons] at h ⊢
    by_cases hv : isNone v = true <;> by_cases hv' : isNone v' = true
    · simp only [if_pos hv, if_pos hv'] at h ⊢; exact ⟨as, h, List.Perm.refl _⟩
    · simp only [if_pos hv, if_neg hv'] at h ⊢; exact ⟨as, h, List.Perm.refl _⟩
    · simp only [if_neg hv, if_pos hv'] at h ⊢; exact ⟨as, h, List.Perm.refl _⟩
    · simp only [if_neg hv, if_neg hv'] at h ⊢
      cases hm : makeAttribute ofInt v <;> cases hm' : makeAttribute ofInt v' <;> cases hw : writeAttrs ofInt l <;>
        simp only [hm, hm', hw] at h ⊢ <;> first | (cases h; done) | skip
      cases h
      exact ⟨_, rfl, List.Perm.swap _ _ _⟩
  | trans _ _ ih1 ih2 =>
    intro as h
    obtain ⟨b, hb, hp⟩ := ih1 as h
    obtain ⟨c, hc, hp'⟩ := ih2 b hb
    exact ⟨c, hc, hp'.trans hp⟩

theorem writeAttrs_filter (ofInt : Int → F) (k : String) (l : List (String × PyVal F M)) :
    ∀ as, writeAttrs ofInt l = .ok as → writeAttrs ofInt (l.filter fun p => p.1 ≠ k) = .ok (as.filter fun p => p.1 ≠ k) := by
  induction l with
  | nil => intro as h; cases h; rfl
  | cons p l ih =>
    obtain ⟨k', v⟩ := p
    intro as h
    rw [writeAttrs_cons] at h
    by_cases hv : isNone v = true
    · rw [if_pos hv] at h
      rw [List.filter_cons]
      split
      · rw [writeAttrs_cons, if_pos hv]; exact ih as h
      · exact ih as h
    · rw [if_neg hv] at h
      cases hm : makeAttribute ofInt v with
      | error e => rw [hm] at h; simp only at h; cases h
      | ok a =>
        rw [hm] at h
        cases hw : writeAttrs ofInt l with
        | error e => rw [hw] at h; simp only at h; cases h
        | ok r =>
          rw [hw] at h
          simp only [Except.ok.injEq] at h
          subst h
          rw [List.filter_cons, List.filter_cons]
          by_cases hk : k' ≠ k
          · rw [if_pos (by simpa using hk), if_pos (by simpa using hk), writeAttrs_cons, if_neg hv, hm, ih r hw]
          · rw [if_neg (by simpa using hk), if_neg (by simpa using hk)]; exact ih r hw

theorem set_perm {α : Type} (d : Dict α) (k : String) (v : α) (hn : (d.map (·.1)).Nodup) : (d.set k v).Perm ((k, v) :: d.filter fun p => p.1 ≠ k) := by
  induction d with
  | nil => exact List.Perm.refl _
  | cons p d ih =>
    obtain ⟨q, w⟩ := p
    simp only [List.map_cons, List.nodup_cons] at hn
    simp only [Dict.set]
    by_cases h : q = k
    · rw [if_pos h, List.filter_cons, if_neg (by simpa using h)]
      have hf : d.filter (fun p => p.1 ≠ k) = d := by
        rw [List.filter_eq_self]
        intro a ha
        have : a.1 ≠ k := by
          intro e
          exact hn.1 (List.mem_map.mpr ⟨a, ha, by rw [e, h]⟩)
        simpa using this
      rw [hf, h]
    · rw [if_neg h, List.filter_cons, if_pos (by simpa using h)]
      exact (List.Perm.cons _ (ih hn.2)).trans (List.Perm.swap _ _ _)

theorem set_keys {α : Type} (d : Dict α) (k : String) (v : α) (x : String) (h : x ∈ (d.set k v).map (·.1)) : x ∈ d.map (·.1) ∨ x = k := by
  induction d with
  | nil => simp only [Dict.set, List.map_cons, List.map_nil, List.mem_cons, List.not_mem_nil, or_false] at h; exact .inr h
  | cons p d ih =>
    obtain ⟨q, w⟩ := p
    simp only [Dict.set] at h
    split at h
    · exact .inl h
    · simp only [List.map_cons, List.mem_cons] at h ⊢
      rcases h with h | h
      · exact .inl (.inl h)
      · rcases ih h with h | h
        · exact .inl (.inr h)
        · exact .inr h

/-- **C98, `set_attr`.** After `set_attr(k, v)` with a value that `make_attribute` accepts, the node is written with the attribute `k` made of `v` and otherwise with the
attributes it was written with before. -/
theorem C98_set_attr (ofInt : Int → F) (o : Obj F M A) (p : NodeProto F M) (k : String) (v : PyVal F M) (a : AVal F M)
    (hn : (o.attr.map (·.1)).Nodup) (hno : ∀ k ∈ o.attr.map (·.1), ¬ ParamName k) (hk : ¬ ParamName k) (hv : makeAttribute ofInt v = .ok a)
    (hs : makeNodeproto ofInt o = .ok p) :
    ∃ q, makeNodeproto ofInt (setAttr o k v) = .ok q ∧ q.attrs.Perm ((k, a) :: p.attrs.filter fun b => b.1 ≠ k) ∧ q.opType = p.opType ∧ q.name = p.name ∧
      q.input = p.input ∧ q.output = p.output := by
  rw [makeNodeproto_eq ofInt o hno] at hs
  rw [makeNodeproto_eq ofInt (setAttr o k v) (by
    intro x hx
    rcases set_keys _ _ _ _ hx with h | rfl
    · exact hno x h
    · exact hk)]
  cases hw : writeAttrs ofInt (o.attr.foldr insertByName []) with
  | error e => rw [hw] at hs; cases hs
  | ok as =>
    rw [hw] at hs
    cases hs
    have h1 := writeAttrs_filter ofInt k _ _ hw
    have h2 : writeAttrs ofInt ((k, v) :: (o.attr.foldr insertByName []).filter fun p => p.1 ≠ k) = .ok ((k, a) :: as.filter fun p => p.1 ≠ k) := by
      rw [writeAttrs_cons, if_neg (by cases v <;> simp [isNone]; cases hv), hv, h1]
    have hperm : ((k, v) :: (o.attr.foldr insertByName []).filter fun p => p.1 ≠ k).Perm ((o.attr.set k v).foldr insertByName []) :=
      (List.Perm.cons _ ((sortByName_perm o.attr).filter _)).trans ((set_perm o.attr k v hn).symm.trans (sortByName_perm _).symm)
    obtain ⟨r, hr, hp⟩ := writeAttrs_perm ofInt hperm _ h2
    refine ⟨⟨o.opType, o.input, o.output, o.name, "", "", r⟩, ?_, hp, rfl, rfl, rfl, rfl⟩
    show (match writeAttrs ofInt ((o.attr.set k v).foldr insertByName []) with | .error e => Except.error e | .ok as => _) = _
    rw [hr]
    rfl

/-- **C98 (finding): texts come back as bytes.** An attribute set as a Python text is, after saving and loading, the bytes of that text: comparing it with the text fails. -/
theorem C98_text_becomes_bytes (ofInt : Int → F) (s : String) :
    makeAttribute ofInt (PyVal.one (Scalar.text s) : PyVal F M) = .ok (.string s.toUTF8.data.toList) ∧
      getAttributeValue (AVal.string s.toUTF8.data.toList : AVal F M) ≠ .one (.text s) := ⟨rfl, by simp [getAttributeValue]⟩

/-- An instance: the marks quantization sets are written beside the attribute of the file. -/
example : (match ofProto (fun m : Nat => Except.ok m) 0 { convNode with attrs := [("strides", AVal.ints [2, 2])] } with
    | .ok o => (makeNodeproto id (setAttr o "OTQ_Bits" (.one (.int 4)))).toOption.map (·.attrs)
    | .error _ => none) = some [("OTQ_Bits", .int 4), ("strides", .ints [2, 2])] := by decide

/-! ### Fusion copies attributes -/

/-- **C98, fusion.** Copying the attributes of a node for a fused node keeps types and values, under prefixed names, if each is an INT, FLOAT, STRING or a non-empty list of
integers or floats. -/
theorem C98_fuse_copy (ofInt : Int → F) (toArray : M → Except PyErr A) (arrayValue : A → Except PyErr (List (Scalar F M))) (pre : String) (as : List (String × AVal F M))
    (h : ∀ a ∈ as, (∃ i, a.2 = .int i) ∨ (∃ f, a.2 = .float f) ∨ (∃ b, a.2 = .string b) ∨ (∃ l, l ≠ [] ∧ a.2 = .ints l) ∨ (∃ l, l ≠ [] ∧ a.2 = .floats l)) :
    copyAttrs ofInt toArray arrayValue pre as = .ok (as.map fun a => (pre ++ a.1, a.2)) := by
  induction as with
  | nil => rfl
  | cons p as ih =>
    obtain ⟨k, v⟩ := p
    have ih' := ih (fun a ha => h a (List.mem_cons_of_mem _ ha))
    have hr : ∃ d, getAttributeData toArray v = .ok d ∧ remake ofInt arrayValue d = .ok v := by
      rcases h (k, v) List.mem_cons_self with ⟨i, rfl⟩ | ⟨f, rfl⟩ | ⟨b, rfl⟩ | ⟨l, hl, rfl⟩ | ⟨l, hl, rfl⟩
      · exact ⟨_, rfl, rfl⟩
      · exact ⟨_, rfl, rfl⟩
      · exact ⟨_, rfl, rfl⟩
      · exact ⟨_, rfl, remake_value (M := M) ofInt (.ints l) (by simp [HasValue]) hl⟩
      · exact ⟨_, rfl, remake_value (M := M) ofInt (.floats l) (by simp [HasValue]) hl⟩
    obtain ⟨d, h1, h2⟩ := hr
    simp only [copyAttrs, h1, h2, ih']
    rfl

/-- **C98 (finding): fusion refuses other attributes.** A node with a graph, a list of strings (`TypeError`) or an empty list (`ValueError`) among its attributes cannot be
fused with `keep_attr`; a tensor attribute never stays a tensor. -/
theorem C98_fuse_refused (ofInt : Int → F) (toArray : M → Except PyErr A) (arrayValue : A → Except PyErr (List (Scalar F M))) (pre k : String) (as : List (String × AVal F M)) :
    (∀ m, copyAttrs ofInt toArray arrayValue pre ((k, .msg .graph m) :: as) = .error .typeError) ∧
      (∀ l, copyAttrs ofInt toArray arrayValue pre ((k, .strings l) :: as) = .error .typeError) ∧
      (copyAttrs ofInt toArray arrayValue pre ((k, .ints []) :: as) = .error .valueError) ∧
      (∀ m r, copyAttrs ofInt toArray arrayValue pre ((k, .msg .tensor m) :: as) = .ok r → ∀ m', r.head? ≠ some (pre ++ k, .msg .tensor m')) := by
  refine ⟨fun _ => rfl, fun _ => rfl, rfl, ?_⟩
  intro m r h m'
  simp only [copyAttrs, getAttributeData] at h
  cases ha : toArray m with
  | error e => rw [ha] at h; cases h
  | ok a =>
    rw [ha] at h
    simp only [remake] at h
    cases hl : arrayValue a with
    | error e => rw [hl] at h; cases h
    | ok l =>
      rw [hl] at h
      simp only at h
      cases hm : makeList ofInt l with
      | error e => rw [hm] at h; cases h
      | ok w =>
        rw [hm] at h
        simp only at h
        cases hc : copyAttrs ofInt toArray arrayValue pre as with
        | error e => rw [hc] at h; cases h
        | ok r' =>
          rw [hc] at h
          cases h
          intro e
          simp only [List.head?_cons, Option.some.injEq, Prod.mk.injEq] at e
          rw [e.2] at hm
          unfold makeList at hm
          split at hm
          · cases hm
          · repeat' (split at hm <;> try cases hm)

/-- **C98 (finding): fusion forgets `set_attr`.** The attributes of the fused node come from the file: what was set with `set_attr` (as quantization does) is lost. -/
theorem C98_fuse_forgets (ofInt : Int → F) (toArray : M → Except PyErr A) (arrayValue : A → Except PyErr (List (Scalar F M))) (count : Nat)
    (os : List (Obj F M A)) (k : String) (v : PyVal F M) :
    fusedAttrs ofInt toArray arrayValue count (os.map fun o => setAttr o k v) = fusedAttrs ofInt toArray arrayValue count os := by
  induction os generalizing count with
  | nil => rfl
  | cons o os ih =>
    simp only [List.map_cons, fusedAttrs]
    rw [ih]
    rfl

/-- **C98, names of fused attributes.** The attribute `k` of the `i`-th fused node, of operator `op`, becomes `op` followed by `i`, an underscore and `k`, with its value (for the
kinds `C98_fuse_copy` allows). -/
theorem C98_fuse_names (ofInt : Int → F) (toArray : M → Except PyErr A) (arrayValue : A → Except PyErr (List (Scalar F M))) (os : List (Obj F M A))
    (h : ∀ o ∈ os, ∀ a ∈ o.proto, (∃ i, a.2 = .int i) ∨ (∃ f, a.2 = .float f) ∨ (∃ b, a.2 = .string b) ∨ (∃ l, l ≠ [] ∧ a.2 = .ints l) ∨ (∃ l, l ≠ [] ∧ a.2 = .floats l)) :
    ∃ r, fusedAttrs ofInt toArray arrayValue 0 os = .ok r ∧ ∀ q, q ∈ r ↔ ∃ (i : Nat) (o : Obj F M A) (k : String) (v : AVal F M), os[i]? = some o ∧ (k, v) ∈ o.proto ∧
      q = (o.opType ++ toString i ++ "_" ++ k, v) := by
  have aux : ∀ (os : List (Obj F M A)) (c : Nat),
      (∀ o ∈ os, ∀ a ∈ o.proto, (∃ i, a.2 = .int i) ∨ (∃ f, a.2 = .float f) ∨ (∃ b, a.2 = .string b) ∨ (∃ l, l ≠ [] ∧ a.2 = .ints l) ∨ (∃ l, l ≠ [] ∧ a.2 = .floats l)) →
      ∃ r, fusedAttrs ofInt toArray arrayValue c os = .ok r ∧ ∀ q, q ∈ r ↔ ∃ (i : Nat) (o : Obj F M A) (k : String) (v : AVal F M), os[i]? = some o ∧ (k, v) ∈ o.proto ∧
        q = (o.opType ++ toString (c + i) ++ "_" ++ k, v) := by
    intro os
    induction os with
    | nil => intro c _; exact ⟨[], rfl, by simp⟩
    | cons o os ih =>
      intro c h
      obtain ⟨r, h1, h2⟩ := ih (c + 1) (fun x hx => h x (List.mem_cons_of_mem _ hx))
      simp only [fusedAttrs, C98_fuse_copy ofInt toArray arrayValue _ o.proto (h o List.mem_cons_self), h1]
      refine ⟨_, rfl, fun q => ?_⟩
      rw [List.mem_append, h2, List.mem_map]
      constructor
      · rintro (⟨⟨k, v⟩, hm, rfl⟩ | ⟨i, o', k, v, h3, h4, rfl⟩)
        · exact ⟨0, o, k, v, rfl, hm, rfl⟩
        · exact ⟨i + 1, o', k, v, h3, h4, by rw [show c + 1 + i = c + (i + 1) by omega]⟩
      · rintro ⟨i, o', k, v, h3, h4, rfl⟩
        cases i with
        | zero =>
          rw [List.getElem?_cons_zero] at h3
          cases h3
          exact .inl ⟨(k, v), h4, rfl⟩
        | succ i =>
          rw [List.getElem?_cons_succ] at h3
          exact .inr ⟨i, o', k, v, h3, h4, by rw [show c + 1 + i = c + (i + 1) by omega]⟩
  obtain ⟨r, h1, h2⟩ := aux os 0 h
  refine ⟨r, h1, fun q => ?_⟩
  rw [h2]
  simp only [Nat.zero_add]

/-- **C98, a domain that was set.** The only way to write an operator domain is `set_attr('domain', …)`: then the saved node has it, and it is not among the attributes. -/
theorem C98_domain_set (ofInt : Int → F) (o : Obj F M A) (d : String) (p : NodeProto F M) (hd : o.attr.get? "domain" = some (.one (.text d)))
    (hs : makeNodeproto ofInt o = .ok p) : p.domain = d ∧ p.opType = o.opType ∧ p.name = o.name ∧ p.input = o.input ∧ p.output = o.output := by
  unfold makeNodeproto at hs
  split at hs
  · cases hs
  · have ht : textArg o.attr "domain" = .ok d := by unfold textArg; rw [hd]
    rw [ht] at hs
    cases hdoc : textArg o.attr "doc_string" with
    | error e => rw [hdoc] at hs; cases hs
    | ok doc =>
      rw [hdoc] at hs
      simp only at hs
      split at hs
      · cases hs
      · injection hs with hs; subst hs; exact ⟨rfl, rfl, rfl, rfl, rfl⟩

/-! ### The header of the file -/

/-- **C98, header.** `Model.save_model` writes the version of the format and the operator sets of the loaded file.  `Graph.save_model` without `rawmodel` (finding) writes the
newest ones, so that operators may get another meaning; local functions and metadata are lost in both cases (finding). -/
theorem C98_header (ir opset : Nat) (r : Header) :
    (savedHeader ir opset (some r)).irVersion = r.irVersion ∧ (savedHeader ir opset (some r)).opsets = r.opsets ∧
      (savedHeader ir opset none).opsets = [("", opset)] ∧ (savedHeader ir opset none).irVersion = ir ∧
      (savedHeader ir opset (some r)).functions = [] ∧ (savedHeader ir opset (some r)).metadata = [] := ⟨rfl, rfl, rfl, rfl, rfl, rfl⟩

example : savedHeader 11 25 (some ⟨8, [("", 13), ("com.microsoft", 1)], ["f"], []⟩) = ⟨8, [("", 13), ("com.microsoft", 1)], [], []⟩ := by decide

end OnnxTool.Props
