import Verif.Spec.Graph
import Verif.Proofs.Dict
/-! The index-building loop computes the exact producer and consumer lists. -/
namespace OnnxTool

theorem fold_appendAt (ts : List String) (d : Dict (List String)) (x t : String) :
    ((ts.foldl (fun d t => d.appendAt t x) d).get? t) =
      if ts.count t = 0 then d.get? t else some ((d.get? t).getD [] ++ List.replicate (ts.count t) x) := by
  induction ts generalizing d with
  | nil => simp
  | cons a ts ih =>
    simp only [List.foldl_cons, ih, Dict.get?_appendAt, List.count_cons]
    by_cases h : a = t
    · subst h
      by_cases h2 : List.count a ts = 0
      · simp [h2]
      · simp [h2, List.replicate_succ]
    · simp [h]

theorem fold_appendAt_nodup (ts : List String) (d : Dict (List String)) (x : String) (h : d.keys.Nodup) :
    (ts.foldl (fun d t => d.appendAt t x) d).keys.Nodup := by
  induction ts generalizing d with
  | nil => simpa
  | cons a ts ih => exact ih _ (Dict.nodup_keys_appendAt _ _ h)

/-- Generic step: fold over nodes of `fold over f n`. -/
theorem fold_index (f : Node → List String) (ns : List Node) (d : Dict (List String)) (t : String) :
    ((ns.foldl (fun d n => (f n).foldl (fun d t => d.appendAt t n.name) d) d).get? t) =
      if (ns.flatMap fun n => List.replicate ((f n).count t) n.name) = [] then d.get? t
      else some ((d.get? t).getD [] ++ ns.flatMap fun n => List.replicate ((f n).count t) n.name) := by
  induction ns generalizing d with
  | nil => simp
  | cons n ns ih =>
    simp only [List.foldl_cons, ih, fold_appendAt, List.flatMap_cons]
    by_cases h : (f n).count t = 0
    · simp [h]
    · have h3 : List.replicate ((f n).count t) n.name ≠ [] := by simpa using h
      by_cases h2 : (ns.flatMap fun n => List.replicate ((f n).count t) n.name) = []
      · simp [h, h2]
      · simp [h, h2]

theorem fold_index_nodup (f : Node → List String) (ns : List Node) (d : Dict (List String)) (h : d.keys.Nodup) :
    (ns.foldl (fun d n => (f n).foldl (fun d t => d.appendAt t n.name) d) d).keys.Nodup := by
  induction ns generalizing d with
  | nil => simpa
  | cons n ns ih => exact ih _ (fold_appendAt_nodup _ _ _ h)

theorem updateConsumerProducer_exact (g : Graph) : g.updateConsumerProducer.IndexExact := by
  constructor
  · intro t
    have := fold_index Node.input g.nodemap [] t
    simp only [List.nil_append, Dict.get?_nil, Option.getD_none] at this
    exact this
  · intro t
    have := fold_index Node.output g.nodemap [] t
    simp only [List.nil_append, Dict.get?_nil, Option.getD_none] at this
    exact this

theorem updateConsumerProducer_keys (g : Graph) :
    g.updateConsumerProducer.consumedby.keys.Nodup ∧ g.updateConsumerProducer.producedby.keys.Nodup :=
  ⟨fold_index_nodup Node.input g.nodemap [] (by simp [Dict.keys]),
   fold_index_nodup Node.output g.nodemap [] (by simp [Dict.keys])⟩

theorem count_consumersOf_length (ns : List Node) (t : String) :
    (consumersOf ns t).length = (ns.map fun n => n.input.count t).sum := by
  induction ns with
  | nil => rfl
  | cons n ns ih => simp_all [consumersOf]

end OnnxTool
