/-
The call wrapper of the Python binding, `/repo/bindings/python/tindicators/impl.py`.
-/
import Verif.Core.Stream

namespace Verif

/-- Outcome of a Python call: a value or the exception raised.
`valueError` (`c_double * n` or `np.pad` with a negative size) and `indexError` (more initialisers than an array has
cells) are raised by ctypes/numpy; the other two by the wrapper. -/
inductive Py (α : Type) where
  | ret (v : α) | valueError | indexError | invalidOption | outOfMemory
  deriving DecidableEq

/-- `(c_double * insize)(*column)`, impl.py:111: copies a column into a fresh C array of `insize` cells; cells without
an initialiser are zero, more initialisers than cells raise `IndexError`. -/
def pyColumn {R : Type} [OfNat R 0] (insize : Nat) (col : List R) : Py (List R) :=
  if insize < col.length then .indexError else .ret (col ++ List.replicate (insize - col.length) 0)

/-- All columns in order, impl.py:109-112. -/
def pyColumns {R : Type} [OfNat R 0] (insize : Nat) : List (List R) → Py (List (List R))
  | [] => .ret []
  | c :: cs =>
    match pyColumn insize c with
    | .ret a =>
      match pyColumns insize cs with
      | .ret as => .ret (a :: as)
      | .valueError => .valueError
      | .indexError => .indexError
      | .invalidOption => .invalidOption
      | .outOfMemory => .outOfMemory
    | .valueError => .valueError
    | .indexError => .indexError
    | .invalidOption => .invalidOption
    | .outOfMemory => .outOfMemory

/-- The rows the C function sees: row `i` is made of cell `i` of every column. -/
def rowsOf {R ρ : Type} [OfNat R 0] (mk : (Nat → R) → ρ) (insize : Nat) (cols : List (List R)) : List ρ :=
  (List.range insize).map fun i => mk fun c => ((cols.getD c []).getD i 0)

/-- `_Indicator.__call__`, impl.py:97-139.  `mk` builds a row from the columns, `fields` are the output arrays.
A NaN used for padding is `none`.  The result is one list per output (a single output is returned bare, impl.py:139).
The C return code 2 (allocation failure) cannot occur in the models, which do not fail to allocate.
`start` and `batch` are `ti_xxx_start` and `ti_xxx`. -/
def pyCall {R ρ ω : Type} [OfNat R 0] (start : (Nat → R) → M Int) (batch : (Nat → R) → List ρ → M (Ret × List ω))
    (mk : (Nat → R) → ρ) (fields : List (ω → R)) (cols : List (List R)) (o : Nat → R) (pad : Bool) :
    M (Py (List (List (Option R)))) := do
  let insize := (cols.getD 0 []).length
  let start_amount ← start o
  let outsize := (insize : Int) - start_amount
  match pyColumns insize cols with
  | .valueError => pure .valueError
  | .indexError => pure .indexError
  | .invalidOption => pure .invalidOption
  | .outOfMemory => pure .outOfMemory
  | .ret cols => do
    if outsize < 0 then pure .valueError
    else do
      let (r, out) ← batch o (rowsOf mk insize cols)
      match r with
      | .invalidOption => pure .invalidOption
      | .outOfMemory => pure .outOfMemory
      | .okay =>
        let arrays := fields.map fun f =>
          (out.map fun w => some (f w)) ++ List.replicate (outsize.toNat - out.length) (some (0 : R))
        if pad then
          if start_amount < 0 then pure .valueError
          else pure (.ret (arrays.map fun a => List.replicate start_amount.toNat none ++ a))
        else pure (.ret arrays)

end Verif
