/-
Model of `/repo/utils/buffer.h` and `/repo/utils/buffer.c`: the summing ring buffer of the batch functions.
-/
import Verif.Core.Num

namespace Verif

/-- `ti_buffer`, buffer.h:12-16. The cells come from `malloc`, so a cell that was never written is `none`. -/
structure TiBuf (R : Type) where
  size : Int
  pushes : Int
  index : Int
  sum : R
  vals : List (Option R)

namespace TiBuf
variable {R : Type} [Num R]

/-- `ti_buffer_new`, buffer.c:13-21 (`malloc` is assumed to succeed; the code does not check it). -/
def new (size : Int) : TiBuf R := ⟨size, 0, 0, c! 0, List.replicate size.toNat none⟩

/-- `(BUFFER)->vals[i]` as a value. -/
def at_ (b : TiBuf R) (i : Int) : M R := do
  match ← rd b.vals i with
  | some v => .ok v
  | none => .error .uninit

/-- `(BUFFER)->vals[(BUFFER)->index] = (VAL)`. -/
def store (b : TiBuf R) (v : R) : M (List (Option R)) :=
  if 0 ≤ b.index ∧ b.index < b.vals.length then .ok (b.vals.set b.index.toNat (some v)) else .error .oobWrite

/-- `index = index + 1; if (index >= size) index = 0;`, buffer.h:41-42, 50-51. -/
def next (b : TiBuf R) : Int := if b.size ≤ b.index + 1 then 0 else b.index + 1

/-- `ti_buffer_push`, buffer.h:32-43. -/
def push (b : TiBuf R) (v : R) : M (TiBuf R) := do
  let sum ← if b.size ≤ b.pushes then b.at_ b.index >>= fun old => pure (b.sum - old) else pure b.sum
  let sum := sum + v
  let vals ← b.store v
  return ⟨b.size, b.pushes + 1, b.next, sum, vals⟩

/-- `ti_buffer_qpush`, buffer.h:47-52: no sum, no count. -/
def qpush (b : TiBuf R) (v : R) : M (TiBuf R) := do
  let vals ← b.store v
  return { b with index := b.next, vals := vals }

/-- `ti_buffer_get`, buffer.h:56. C's `%` truncates. -/
def get (b : TiBuf R) (k : Int) : M R := b.at_ (Int.tmod (b.index + b.size - 1 + k) b.size)

end TiBuf
end Verif
