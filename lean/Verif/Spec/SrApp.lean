import Verif.Model.SrApp
/-!
# Words about histories of the window
-/
namespace OnnxTool.SrApp
open OnnxTool

/-- every thread has ended -/
def Quiet {I R : Type} (s : App I R) : Prop := ∀ c ∈ s.threads, c = .done

/-- nothing is opened in the history -/
def NoOpen (events : List Event) : Prop := ∀ p, Event.opens p ∉ events

/-- the image a thread has read and not yet finished with -/
def held {I : Type} : Pc I → Option I
  | .scaling im => some im
  | .running im => some im
  | _ => none

/-- the image of the last file in the history that could be read -/
def lastRead {I R : Type} (t : Tool I R) : List Event → Option I
  | [] => none
  | e :: rest =>
    match lastRead t rest with
    | some im => some im
    | none => match e with
      | .opens p => (t.imread p).toOption
      | .step _ => none

end OnnxTool.SrApp
