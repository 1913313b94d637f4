/-
Model of `/repo/utils/localbuffer.h`: several ring buffers in one block of memory.
-/
import Verif.Core.Num

namespace Verif

/-- A structure that ends with `BUFFERS(…)` and the cells behind it, localbuffer.h:56-57. `info` is `buf_info` as the macros see it, a
row of ints: `zero[4]`, then `offset`, `size`, `index` and `padding` of each buffer in order. (Stepping from one member to another is
taken as stepping through an array, as the header assumes.) `cells` are the `BUFFERS_SIZE` reals `realloc` added, unset at first. -/
structure LocalBuf (R : Type) where
  info : List Int
  cells : List (Option R)

namespace LocalBuf
variable {R : Type}

/-- `p[i] = v`. -/
def put {α : Type} (xs : List α) (i : Int) (v : α) : M (List α) :=
  if 0 ≤ i ∧ i < xs.length then .ok (xs.set i.toNat v) else .error .oobWrite

/-- Where `offset_name` of the buffer declared as number `k` (from 0) is; `size_name`, `index_name` follow it. -/
def slot (k : Nat) : Int := 4 * ((k : Int) + 1)

/-- `BUFFER_INIT`, localbuffer.h:58-62. -/
def init (info : List Int) (k : Nat) (size : Int) : M (List Int) := do
  let info ← put info (slot k) (← i32 ((← rd info (slot k - 3)) + (← rd info (slot k - 4))))
  let info ← put info (slot k + 1) size
  put info (slot k + 2) (-1)

/-- `BUFFER_INIT` of the buffers from number `k` on. -/
def inits : Nat → List Int → List Int → M (List Int)
  | _, info, [] => .ok info
  | k, info, n :: ns => do inits (k + 1) (← init info k n) ns

/-- `BUFFERS_SIZE`, localbuffer.h:63. -/
def total (info : List Int) : M Int := do
  i32 ((← rd info ((info.length : Int) - 3)) + (← rd info ((info.length : Int) - 4)))

/-- `calloc`, one `BUFFER_INIT` per declared buffer in order, `BUFFERS_SIZE` and `realloc`: the usage localbuffer.h:26-47 prescribes. -/
def make (sizes : List Int) : M (LocalBuf R) := do
  let info ← inits 0 (List.replicate (4 * (sizes.length + 1)) 0) sizes
  return ⟨info, List.replicate (← total info).toNat none⟩

/-- A cell as a value. -/
def cell (b : LocalBuf R) (i : Int) : M R := do
  match ← rd b.cells i with
  | some v => .ok v
  | none => .error .uninit

/-- `BUFFER_PUSH`, localbuffer.h:72-77. -/
def push (b : LocalBuf R) (k : Nat) (v : R) : M (LocalBuf R) := do
  let idx ← i32 ((← rd b.info (slot k + 2)) + 1)
  let idx := if idx = (← rd b.info (slot k + 1)) then 0 else idx
  let cells ← put b.cells ((← rd b.info (slot k)) + idx) (some v)
  return ⟨← put b.info (slot k + 2) idx, cells⟩

/-- `while (idx >= size) { idx -= size; }`. For `size ≤ 0` the loop does not end, which is undefined behaviour for a loop without effects. -/
def lower (size idx : Int) : M Int :=
  if size ≤ idx then
    if h : 0 < size then lower size (idx - size) else .error .badPtr
  else .ok idx
termination_by (idx - size + 1).toNat
decreasing_by omega

/-- `while (idx < 0) { idx += size; }`. -/
def raise (size idx : Int) : M Int :=
  if idx < 0 then
    if h : 0 < size then raise size (idx + size) else .error .badPtr
  else .ok idx
termination_by (-idx).toNat
decreasing_by omega

/-- `BUFFER_AT`, localbuffer.h:64-69. -/
def at_ (b : LocalBuf R) (k : Nat) (delta : Int) : M R := do
  let size ← rd b.info (slot k + 1)
  let idx ← lower size (← i32 ((← rd b.info (slot k + 2)) + delta))
  let idx ← raise size idx
  b.cell ((← rd b.info (slot k)) + idx)

/-- `BUFFER_AT1`, localbuffer.h:70-71. C's `%` truncates; a zero divisor is undefined behaviour. -/
def at1 (b : LocalBuf R) (k : Nat) (delta : Int) : M R := do
  let size ← rd b.info (slot k + 1)
  let sum ← i32 ((← i32 ((← rd b.info (slot k + 2)) + delta)) + size)
  if size = 0 then .error .intRange else
  b.cell ((← rd b.info (slot k)) + Int.tmod sum size)

/-- `BUFFER_PUSH` calls on buffers by number. -/
def pushes (b : LocalBuf R) (ps : List (Nat × R)) : M (LocalBuf R) := ps.foldlM (fun b p => b.push p.1 p.2) b

end LocalBuf
end Verif
