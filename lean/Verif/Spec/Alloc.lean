/- Specification of memory ownership. -/
import Verif.Model.Alloc

namespace Verif.Spec
open Alloc

/-- A heap as it can be: no block is allocated twice, and only blocks that were asked for are. -/
def WellFormed (h : Heap) : Prop := h.live.Nodup ∧ ∀ b ∈ h.live, b < h.asked

/-- Under `P`, opening leaves the heap as it was unless it makes a stream, and a stream made is released completely, once, by freeing it. -/
def CleanWhen (P : Env → Prop) (m : StreamMem) : Prop :=
  ∀ e h, P e → WellFormed h →
    match m.open_ e h with
    | .ok (.made o, h') => ∃ h'', m.free o h' = .ok h'' ∧ h''.live = h.live
    | .ok (_, h') => h'.live = h.live
    | .error _ => False

/-- Whatever fails. -/
def Clean (m : StreamMem) : Prop := CleanWhen (fun _ => True) m

/-- The same except that an exception may leave something behind. -/
def CleanReturns (m : StreamMem) : Prop :=
  ∀ e h, WellFormed h →
    match m.open_ e h with
    | .ok (.made o, h') => ∃ h'', m.free o h' = .ok h'' ∧ h''.live = h.live
    | .ok (.thrown, _) => True
    | .ok (_, h') => h'.live = h.live
    | .error _ => False

end Verif.Spec
