/- Specification of scratch memory. -/
import Verif.Model.Scratch
import Verif.Spec.Alloc

namespace Verif.Spec
open Alloc

/-- Under `P`, whichever way the function is left, the heap is as it was. -/
def GivesBackWhen (P : Calls → Prop) (f : List Step) : Prop :=
  ∀ e h, P e → WellFormed h →
    match perform e f [] h with
    | .ok (_, h') => h'.live = h.live
    | .error _ => False

/-- Whatever fails. -/
def GivesBack (f : List Step) : Prop := GivesBackWhen (fun _ => True) f

end Verif.Spec
