/- The comparison of results in `/repo/utils/testing.cc` and the verdict of the smoke test, `/repo/tests/smoke.c`. -/
import Verif.Core.Num

namespace Verif
variable {R : Type} [Num R]

/-- `equal_reals`, testing.cc:15-17. -/
def equalReals (a b : R) : Bool :=
  decide (CMath.fabs (a - b) < c! 1 / c! 1000) || decide (CMath.fabs (c! 1 - CMath.fabs (a / b)) < c! 1 / c! 1000)

/-- `equal_arrays`, testing.cc:19-27. -/
def equalArrays (a b : List R) : Bool :=
  if a.length ≠ b.length then false
  else (a.zip b).all fun p => equalReals p.1 p.2

/-- `any_bad` of one output, testing.cc:48-54: an index beyond either array is bad. -/
def anyBad (answer output : List R) : Nat :=
  (List.range (max answer.length output.length)).countP fun j =>
    match answer[j]?, output[j]? with
    | some a, some b => !equalReals a b
    | _, _ => true

/-- `compare_answers`, testing.cc:39-73 (printing left out): the number of outputs with a mismatch. -/
def compareAnswers (answers outputs : List (List R)) : Nat :=
  (answers.zip outputs).countP fun p => anyBad p.1 p.2 != 0

/-- What the variants of an indicator did on one test case: the return code and outputs of the batch function, those of the reference
if there is one, and, if there is a stream, the outputs of one fed bar by bar and of one fed at once, or `none` if `stream_new` failed. -/
structure Ran (R : Type) where
  batch : Ret × List (List R)
  ref : Option (Ret × List (List R))
  stream : Option (Option (List (List R) × List (List R)))

/-- How much `run_one` adds to `failed_cnt`, smoke.c:118-238, once the variants have run. `outputs` of the batch function is what is
compared after the reference (smoke.c:155) and after the stream fed bar by bar (smoke.c:203); the mismatches of the stream fed at once
are added to `any_failures_here` only (smoke.c:233), which nobody reads. A `stream_new` that fails is counted for each of the two streams
(smoke.c:174, 220). -/
def runOne (answers : List (List R)) (r : Ran R) : Nat :=
  let bad := if compareAnswers answers r.batch.2 ≠ 0 then 1 else 0
  let batch := if r.batch.1 ≠ .okay then 1 else bad
  let ref := match r.ref with
    | none => 0
    | some (ret, _) => if ret ≠ .okay then 1 else bad
  let stream1 := match r.stream with
    | none => 0
    | some none => 1 + bad + 1
    | some (some _) => bad
  batch + ref + stream1

end Verif
