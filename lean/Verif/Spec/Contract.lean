/-
What it means for an indicator to keep the contract of the C API.  Small and independent of any model:
`batch` is any function from options and input rows to an outcome.
-/
import Verif.Core.Stream

namespace Verif
variable {R ρ ω : Type}

/-- For every input signal `x` and every size `N`, the call succeeds without undefined behaviour and writes
exactly `N - start` values (none if `N ≤ start`), the `j`-th being `val x j`.
(`pre x N` is the list `[x 0, …, x (N-1)]`; every list is of this form.) -/
def Computes (batch : (Nat → R) → List ρ → M (Ret × List ω)) (o : Nat → R) (start : Nat)
    (val : (Nat → ρ) → Nat → ω) : Prop :=
  ∀ (x : Nat → ρ) (N : Nat), batch o (pre x N) = .ok (.okay, pre (val x) (N - start))

/-- For every input the call succeeds without undefined behaviour and writes exactly
`size - start` values (none if `size ≤ start`). -/
def Safe (batch : (Nat → R) → List ρ → M (Ret × List ω)) (o : Nat → R) (start : Nat) : Prop :=
  ∀ xs : List ρ, ∃ out, batch o xs = .ok (.okay, out) ∧ out.length = xs.length - start

/-- Running on an extension of the input reproduces the output and possibly adds to it. -/
def Causal (batch : (Nat → R) → List ρ → M (Ret × List ω)) (o : Nat → R) : Prop :=
  ∀ (xs ys : List ρ) (out : List ω), batch o xs = .ok (.okay, out) →
    ∃ more, batch o (xs ++ ys) = .ok (.okay, out ++ more)

/-- The contract every successful call keeps: `ti_xxx_start` returns `start`, and for every input the call
succeeds without undefined behaviour, writes exactly `size - start` values (none if `size ≤ start`), and never
revises a value when more input is appended. -/
structure Contract (startF : (Nat → R) → M Int) (batch : (Nat → R) → List ρ → M (Ret × List ω)) (o : Nat → R)
    (start : Nat) : Prop where
  start_eq : startF o = .ok (start : Int)
  safe : Safe batch o start
  causal : Causal batch o

/-- The options are refused: `TI_INVALID_OPTION`, nothing written, whatever the input. -/
def Refuses (batch : (Nat → R) → List ρ → M (Ret × List ω)) (o : Nat → R) : Prop :=
  ∀ xs : List ρ, batch o xs = .ok (.invalidOption, [])

/-- `stream_new` refuses the options. -/
def Indicator.NewRefuses (I : Indicator R ρ ω) (o : Nat → R) : Prop :=
  I.new o = .ok (.fail .invalidOption)

/-- For every signal, size and chunking, a streaming session succeeds without undefined behaviour, ends with
progress `N - start`, and has written `val x 0, …, val x (N - start - 1)`. -/
def Indicator.StreamComputes (I : Indicator R ρ ω) (o : Nat → R) (start : Nat)
    (val : (Nat → ρ) → Nat → ω) : Prop :=
  ∀ (x : Nat → ρ) (N : Nat) (chunks : List (List ρ)), chunks.flatten = pre x N →
    I.session o chunks = .ok (.okay, (N : Int) - start, pre (val x) (N - start))

/-- However the input is cut into chunks, a session writes what one batch call on the whole writes. -/
def Indicator.StreamEqBatch (I : Indicator R ρ ω) (o : Nat → R) (start : Nat) : Prop :=
  ∀ chunks : List (List ρ), ∃ out, I.batch o chunks.flatten = .ok (.okay, out) ∧
    I.session o chunks = .ok (.okay, (chunks.flatten.length : Int) - start, out)

/-- A session depends only on the concatenation of its chunks: values, final progress, return code and
undefined behaviour (if any). -/
def Indicator.ChunkInvariant (I : Indicator R ρ ω) (o : Nat → R) : Prop :=
  ∀ chunks : List (List ρ), I.session o chunks = I.session o [chunks.flatten]

/-- `stream_new` accepts the options and sets progress to `-start`. -/
def Indicator.NewAccepts (I : Indicator R ρ ω) (o : Nat → R) (start : Nat) : Prop :=
  ∃ k s, I.new o = .ok (.made k (-(start : Int)) s)

end Verif
