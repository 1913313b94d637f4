/-
A program that uses the library: any number of streams of any indicators alive at the same time, and batch calls in between. The library has
no writable static data (text search over /repo/indicators and /repo/utils: only constant tables), so all that lasts from call to call is the
stream objects, each in its own block.
-/
import Verif.Model.Table

namespace Verif
section
variable {R ρ ω : Type}

/-- A call of the public interface, /repo/codegen.py:93-98 and 176-190. An address stands for a `ti_stream *`. -/
inductive Call (R ρ : Type) where
  /-- `ti_X_stream_new(options, &p)`; `a` is what the allocator returns if a block is asked for. -/
  | new (X : Name) (o : Nat → R) (a : Nat)
  /-- `ti_stream_run(p, size, inputs, outputs)`. -/
  | run (a : Nat) (rows : List ρ)
  /-- `ti_stream_get_progress(p)`. -/
  | progress (a : Nat)
  /-- `ti_stream_get_info(p)`. -/
  | info (a : Nat)
  /-- `ti_stream_free(p)`. -/
  | free (a : Nat)
  /-- `ti_X(size, inputs, options, outputs)`. -/
  | batch (X : Name) (o : Nat → R) (rows : List ρ)

/-- What a call gives back: the return code, the values written, the progress or the name of the entry. -/
inductive Answer (ω : Type) where
  | code (r : Ret)
  | wrote (out : List ω)
  | progress (p : Int)
  | info (e : Option (Name × Bool))
  | freed
  | batch (r : Ret) (out : List ω)

/-- The stream objects by address. -/
abbrev Heap (env : Name → Indicator R ρ ω) := Nat → Option (StreamObj env)

/-- `heap` with the cell at `a` replaced. -/
def Heap.put {env : Name → Indicator R ρ ω} (heap : Heap env) (a : Nat) (v : Option (StreamObj env)) : Heap env :=
  fun b => if b = a then v else heap b

/-- The object a pointer points to; a pointer to no live object must not be used. -/
def Heap.deref {env : Name → Indicator R ρ ω} (heap : Heap env) (a : Nat) : M (StreamObj env) :=
  match heap a with
  | some st => .ok st
  | none => .error .badPtr

/-- One call. (`ti_X_stream_new` of an allocator that returns a block in use is not a call of this program: `badPtr`.) -/
def callOne (env : Name → Indicator R ρ ω) (d : List (Name × Bool)) (heap : Heap env) : Call R ρ → M (Heap env × Answer ω)
  | .new X o a => do
    match ← newStream env d X o with
    | (r, none) => pure (heap, .code r)
    | (r, some st) => if (heap a).isSome then .error .badPtr else pure (heap.put a (some st), .code r)
  | .run a rows => do
    let (st, out) ← tiStreamRun env d (← heap.deref a) rows
    pure (heap.put a (some st), .wrote out)
  | .progress a => do
    let st ← heap.deref a
    pure (heap, .progress (tiStreamProgress st))
  | .info a => do
    let e ← tiStreamInfo env d (← heap.deref a)
    pure (heap, .info e)
  | .free a => do
    tiStreamFree env d (← heap.deref a)
    pure (heap.put a none, .freed)
  | .batch X o rows => do
    let (r, out) ← (env X).batch o rows
    pure (heap, .batch r out)

/-- A history of calls and their answers. -/
def callAll (env : Name → Indicator R ρ ω) (d : List (Name × Bool)) : List (Call R ρ) → Heap env → M (Heap env × List (Answer ω))
  | [], heap => .ok (heap, [])
  | c :: cs, heap => do
    let (heap, a) ← callOne env d heap c
    let (heap, as) ← callAll env d cs heap
    pure (heap, a :: as)

end
end Verif
