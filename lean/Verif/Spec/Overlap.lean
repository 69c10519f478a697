import Verif.Model.Overlap
/-!
# Specification: calls from several threads (C122)
-/
namespace OnnxTool.Infer
open OnnxTool

/-- a call is in progress -/
def Phase.Busy : Phase → Prop
  | .start => False
  | .done _ => False
  | _ => True

/-- a call has ended -/
def Phase.Ended : Phase → Prop
  | .done _ => True
  | _ => False

/-- Calls on one engine do not overlap (as with a lock for each engine): whenever a thread whose call has not ended makes a step, no other thread is in a call of the same engine. -/
def Locked (S : Nat → Setup) (T : Nat → Nat × Call) (w : Threads) (sched : List Nat) : Prop :=
  ∀ l i r, sched = l ++ i :: r → ¬ ((w.exec S T l).phase i).Ended → ∀ j, j ≠ i → (T j).1 = (T i).1 → ¬ ((w.exec S T l).phase j).Busy

/-- the threads in the order in which they began -/
def begun (sched : List Nat) : List Nat := sched.foldl (fun acc i => if i ∈ acc then acc else acc ++ [i]) []

/-- the calls on the engine of thread `i` that began before it -/
def earlierCalls (T : Nat → Nat × Call) (sched : List Nat) (i : Nat) : List Call :=
  (((begun sched).takeWhile (· ≠ i)).filter fun j => (T j).1 = (T i).1).map fun j => (T j).2

end OnnxTool.Infer
