/-
Outcomes of running C++ code, checked memory accesses and counting loops.

Nothing here models a particular source file: these are the primitives in which the models of
`/repo/indicators/*.cc` and `/repo/utils/*` are written.  Undefined behaviour is an outcome of its
own (`Except.error`), never a default value.
-/
namespace Verif

/-- The ways a modelled run can leave defined behaviour.
* `oobRead`  : a read through an input pointer (or into a local array) outside the array,
* `oobWrite` : a write past the `size - start` cells the caller must supply for an output,
* `uninit`   : a read of a variable or heap cell that was never written,
* `assertFail` : a library `assert` fails (with `NDEBUG` the code runs on with a wrong index),
* `intRange` : a `double → int` conversion or an `int` operation whose result is not an `int`,
* `badPtr`   : a call through a null function pointer, or an object used as one of another type. -/
inductive UB where
  | oobRead | oobWrite | uninit | assertFail | intRange | badPtr
  deriving DecidableEq, Repr

/-- A computation of the modelled program: a value, or the undefined behaviour it ran into. -/
abbrev M (α : Type _) := Except UB α

/-- Return codes of the C API, `/repo/codegen.py` (generated `indicators.h`:
`TI_OKAY 0`, `TI_INVALID_OPTION 1`, `TI_OUT_OF_MEMORY 2`). -/
inductive Ret where
  | okay | invalidOption | outOfMemory
  deriving DecidableEq, Repr

/-- Read `p[i]` where `p` points at an array holding exactly the list `xs`. -/
def rd {α : Type _} (xs : List α) (i : Int) : M α :=
  if h : 0 ≤ i ∧ i.toNat < xs.length then .ok (xs[i.toNat]'h.2) else .error .oobRead

/-- `*out++ = v` where the caller supplied `cap` cells for `out`. -/
def wr {α : Type _} (cap : Int) (out : List α) (v : α) : M (List α) :=
  if (out.length : Int) < cap then .ok (out ++ [v]) else .error .oobWrite

/-- `assert(b)`. -/
def asrt (b : Bool) : M Unit := if b then .ok () else .error .assertFail

/-- `assert(output - outputs[0] == cap); return TI_OKAY;` -/
def finish {α : Type _} (cap : Int) (out : List α) : M (Ret × List α) :=
  if (out.length : Int) = cap then .ok (.okay, out) else .error .assertFail

/-- An `int` result must fit 32 bits; otherwise the C++ program has undefined behaviour. -/
def i32 (i : Int) : M Int :=
  if -2147483648 ≤ i ∧ i ≤ 2147483647 then .ok i else .error .intRange

/-- `n` iterations of a loop body, the loop variable starting at `i`. -/
def iter {σ : Type _} (f : Int → σ → M σ) : Nat → Int → σ → M σ
  | 0, _, s => .ok s
  | n + 1, i, s => match f i s with
    | .ok s' => iter f n (i + 1) s'
    | .error e => .error e

/-- `for (i = lo; i < hi; ++i) s = f(i, s);` -/
def forUp {σ : Type _} (lo hi : Int) (s : σ) (f : Int → σ → M σ) : M σ :=
  iter f (hi - lo).toNat lo s

/-- The segment `x off, x (off+1), …, x (off+n-1)` of a signal. -/
def seg {α : Type _} (x : Nat → α) (off n : Nat) : List α :=
  (List.range n).map fun i => x (off + i)

/-- The first `n` values of a signal. -/
def pre {α : Type _} (x : Nat → α) (n : Nat) : List α := (List.range n).map x

end Verif
