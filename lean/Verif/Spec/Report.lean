/- Specification: how a stream constructor answers when memory cannot be had. -/
import Verif.Model.Alloc

namespace Verif.Spec
open Alloc

/-- Something asked for between the heap `h` and the later heap `h'` was not given. -/
def Short (e : Env) (h h' : Heap) : Prop := ∃ k, h.asked ≤ k ∧ k < h'.asked ∧ e.fails k = true

/-- Under `P`: `TI_OUT_OF_MEMORY` is answered exactly when something asked for was not given, and no exception leaves the function. -/
def ReportsWhen (P : Env → Heap → Prop) (m : StreamMem) : Prop :=
  ∀ e h, P e h →
    match m.open_ e h with
    | .ok (.oom, h') => Short e h h'
    | .ok (.thrown, _) => False
    | .ok (_, h') => ¬ Short e h h'
    | .error _ => False

/-- Whatever fails. -/
def Reports (m : StreamMem) : Prop := ReportsWhen (fun _ _ => True) m

/-- The first request, that for the stream itself, is met. -/
def FirstMet (e : Env) (h : Heap) : Prop := e.fails h.asked = false

/-- Only the first request, that for the stream itself, can fail. -/
def OthersMet (e : Env) (h : Heap) : Prop := ∀ k, h.asked < k → e.fails k = false

/-- In some environment an exception leaves the function. -/
def Throws (m : StreamMem) : Prop := ∃ e h h', m.open_ e h = .ok (.thrown, h')

end Verif.Spec
