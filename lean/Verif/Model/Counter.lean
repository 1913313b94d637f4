/-
The streams again, with the `int` in which they count their bars (`struct ti_stream { int index; int progress; }`,
`/repo/codegen.py:105`; `int progress = stream->progress;`, for example sma.cc:95).
-/
import Verif.Core.Stream

namespace Verif

/-- `Phase.loop` whose `++progress` is undefined beyond `INT_MAX` (for example sma.cc:107-118). -/
def Phase.loopInt {ρ σ ω : Type} (ph : Phase ρ σ ω) : List ρ → Int → σ → M (List ρ × Int × σ × List ω)
  | [], p, s => .ok ([], p, s, [])
  | r :: rs, p, s =>
    if ph.cond p then
      match ph.body p r s with
      | .error e => .error e
      | .ok (s1, o1) =>
        match i32 (p + 1) with
        | .error e => .error e
        | .ok p1 =>
          match ph.loopInt rs p1 s1 with
          | .error e => .error e
          | .ok (rs', p', s', o') => .ok (rs', p', s', o1 ++ o')
    else .ok (r :: rs, p, s, [])

/-- One call of `stream_run` with such loops. -/
def runPhasesInt {ρ σ ω : Type} : List (Phase ρ σ ω) → List ρ → Int → σ → M (Int × σ × List ω)
  | [], _, p, s => .ok (p, s, [])
  | ph :: phs, rs, p, s =>
    match ph.loopInt rs p s with
    | .error e => .error e
    | .ok (rs', p', s', o) =>
      match runPhasesInt phs rs' p' s' with
      | .error e => .error e
      | .ok (p'', s'', o') => .ok (p'', s'', o ++ o')

namespace Indicator
variable {R ρ ω : Type}

/-- Successive calls of `stream_run`. -/
def runsInt (I : Indicator R ρ ω) (k : I.κ) : List (List ρ) → Int → I.σ → M (Int × I.σ × List ω)
  | [], p, s => .ok (p, s, [])
  | c :: cs, p, s =>
    match runPhasesInt (I.phases k) c p s with
    | .error e => .error e
    | .ok (p1, s1, o1) =>
      match I.runsInt k cs p1 s1 with
      | .error e => .error e
      | .ok (p2, s2, o2) => .ok (p2, s2, o1 ++ o2)

/-- `session` with the `int` counter. -/
def sessionInt (I : Indicator R ρ ω) (o : Nat → R) (chunks : List (List ρ)) : M (Ret × Int × List ω) :=
  match I.new o with
  | .error e => .error e
  | .ok (.fail r) => .ok (r, 0, [])
  | .ok (.made k p s) =>
    match i32 p with
    | .error e => .error e
    | .ok p =>
      match I.runsInt k chunks p s with
      | .error e => .error e
      | .ok (p', _, out) => .ok (.okay, p', out)

end Indicator
end Verif
