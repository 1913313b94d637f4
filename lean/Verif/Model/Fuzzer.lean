/- The fuzzer, /repo/tests/fuzzer.cc: which calls it makes, and what a clean run means. -/
import Verif.Core.Num
import Verif.Core.Stream

namespace Verif
variable {R : Type} [Num R]

/-- `g_options`, fuzzer.cc:17. -/
def gOptions : List R := [((-20 : Int) : R), c! 0, c! 7 / c! 10, c! 5]

/-- The option vector of iteration `b`, fuzzer.cc:103-106, for an indicator with `k` options. `std::pow` of 4 is taken to be exact. -/
def fuzzOptions (k b : Nat) : List R := (List.range k).map fun i => gOptions.getD (b / 4 ^ i % 4) (c! 0)

/-- The series of one test, fuzzer.cc:114-120 and 123-129 (the arrays are filled in `main`): `row` puts the same value in every input of a bar. -/
def fuzzSeries {ρ : Type} (row : R → ρ) : List (List ρ) :=
  let count := fun n : Nat => (List.range n).map fun j => row (Int.cast (Int.ofNat j))
  [count 0, count 1, count 2, count 5, count 210, (List.range 210).map fun _ => row (c! 0), (List.range 210).map fun j => row (Int.cast (Int.ofNat (j / 10)))]

/-- `test_vector`, fuzzer.cc:42-68. The inputs are copies of the right length, the outputs have room for `size - start` values. -/
def testVector {ρ ω : Type} (start : (Nat → R) → M Int) (batch : (Nat → R) → List ρ → M (Ret × List ω)) (o : Nat → R) (xs : List ρ) : M Unit := do
  let s ← start o
  let _ ← i32 (xs.length - s)
  let _ ← batch o xs
  return ()

/-- `test_stream`, fuzzer.cc:69-100: the whole series is fed at once. -/
def testStream {ρ ω : Type} (I : Indicator R ρ ω) (o : Nat → R) (xs : List ρ) : M Unit := do
  let s ← I.start o
  let _ ← i32 (xs.length - s)
  let _ ← I.session o [xs]
  return ()

/-- The array `options` passed to the library. -/
def optArray (v : List R) : Nat → R := fun i => v.getD i (c! 0)

/-- `stress`, fuzzer.cc:39-135, for an indicator without a stream (printing left out). -/
def stressBatch {ρ ω : Type} (row : R → ρ) (start : (Nat → R) → M Int) (batch : (Nat → R) → List ρ → M (Ret × List ω)) (k : Nat) : M Unit :=
  (List.range (4 ^ k + 1)).forM fun b => (fuzzSeries row).forM fun xs => testVector start batch (optArray (fuzzOptions k b)) xs

/-- `stress`, fuzzer.cc:39-135, for an indicator with a stream. -/
def stress {ρ ω : Type} (row : R → ρ) (I : Indicator R ρ ω) (k : Nat) : M Unit :=
  (List.range (4 ^ k + 1)).forM fun b => do
    (fuzzSeries row).forM fun xs => testVector I.start I.batch (optArray (fuzzOptions k b)) xs
    (fuzzSeries row).forM fun xs => testStream I (optArray (fuzzOptions k b)) xs

end Verif
