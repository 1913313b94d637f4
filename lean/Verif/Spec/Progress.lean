/- What `ti_stream_get_progress` means. -/
import Verif.Core.Stream

namespace Verif
variable {R ρ ω : Type}

/-- Progress accounting: whenever `stream_new` succeeds, `ti_xxx_start` is defined, say `s`, and the progress of the fresh stream is
`-s`; and after any sequence of calls that feed `n` bars altogether the progress is `n - s`. -/
def Indicator.CountsBars (I : Indicator R ρ ω) (o : Nat → R) : Prop :=
  ∀ k p s, I.new o = .ok (.made k p s) → I.start o = .ok (-p) ∧
    ∀ chunks prog out, I.session o chunks = .ok (.okay, prog, out) → prog = p + chunks.flatten.length

/-- Full accounting: on any sequence of calls that feed `n` bars altogether the stream ends without undefined behaviour with
progress `n - start` and has written `n - start` values to every output (none if `n ≤ start`). -/
def Indicator.Accounts (I : Indicator R ρ ω) (o : Nat → R) (start : Nat) : Prop :=
  I.start o = .ok (start : Int) ∧ ∀ chunks : List (List ρ), ∃ out,
    I.session o chunks = .ok (.okay, (chunks.flatten.length : Int) - start, out) ∧ out.length = chunks.flatten.length - start

/-- Output accounting: whenever `stream_new` succeeds and the calls so far, which fed `n` bars altogether, end without undefined behaviour,
exactly `n - start` values have been written to every output (none if `n ≤ start`). -/
def Indicator.WritesAll (I : Indicator R ρ ω) (o : Nat → R) : Prop :=
  ∀ k p s, I.new o = .ok (.made k p s) → ∀ start, I.start o = .ok start → 0 ≤ start → ∀ chunks prog out,
    I.session o chunks = .ok (.okay, prog, out) →
    (out.length : Int) = max 0 (chunks.flatten.length - start)

end Verif
