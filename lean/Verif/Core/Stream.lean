/-
Streams: the shape shared by every `ti_xxx_stream_run` in `/repo/indicators`, and the shape of the
public interface of one indicator.

A `stream_run` walks over its chunk with a sequence of loops
  `for (; C1(progress) && i < size; ++i, ++progress) B1;  for (; C2(progress) && i < size; …) B2; …`
and keeps `progress` and its state in the stream object.  `Phase` is one such loop.
-/
import Verif.Core.Num

namespace Verif

/-- One loop of a `stream_run`: `for (; cond(progress) && i < size; ++i, ++progress) body`.
`body progress row state` gives the new state and the values appended to the outputs. -/
structure Phase (ρ σ ω : Type) where
  cond : Int → Bool
  body : Int → ρ → σ → M (σ × List ω)

/-- Run one loop over the rest of the chunk; gives back what it left unread. -/
def Phase.loop {ρ σ ω : Type} (ph : Phase ρ σ ω) : List ρ → Int → σ → M (List ρ × Int × σ × List ω)
  | [], p, s => .ok ([], p, s, [])
  | r :: rs, p, s =>
    if ph.cond p then
      match ph.body p r s with
      | .error e => .error e
      | .ok (s1, o1) =>
        match ph.loop rs (p + 1) s1 with
        | .error e => .error e
        | .ok (rs', p', s', o') => .ok (rs', p', s', o1 ++ o')
    else .ok (r :: rs, p, s, [])

/-- One call of `stream_run`: the loops in order. -/
def runPhases {ρ σ ω : Type} : List (Phase ρ σ ω) → List ρ → Int → σ → M (Int × σ × List ω)
  | [], _, p, s => .ok (p, s, [])
  | ph :: phs, rs, p, s =>
    match ph.loop rs p s with
    | .error e => .error e
    | .ok (rs', p', s', o) =>
      match runPhases phs rs' p' s' with
      | .error e => .error e
      | .ok (p'', s'', o') => .ok (p'', s'', o ++ o')

/-- Result of `stream_new`: a return code other than `TI_OKAY`, or the constants, `progress` and state
of a fresh stream. -/
inductive NewRes (κ σ : Type) where
  | fail (r : Ret)
  | made (k : κ) (progress : Int) (s : σ)

/-- The public interface of one indicator: rows `ρ` (one value per input array), output tuples `ω`. -/
structure Indicator (R ρ ω : Type) where
  /-- constants of a stream (the `options`/`constants` members) -/
  κ : Type
  /-- the mutable members of a stream -/
  σ : Type
  /-- `ti_xxx_start` -/
  start : (Nat → R) → M Int
  /-- `ti_xxx`: options, input rows ↦ return code and output tuples written -/
  batch : (Nat → R) → List ρ → M (Ret × List ω)
  /-- `ti_xxx_stream_new` -/
  new : (Nat → R) → M (NewRes κ σ)
  /-- the loops of `ti_xxx_stream_run` -/
  phases : κ → List (Phase ρ σ ω)

namespace Indicator
variable {R ρ ω : Type}

/-- Successive `stream_run` calls on the given chunks; collects all outputs. -/
def runs (I : Indicator R ρ ω) (k : I.κ) : List (List ρ) → Int → I.σ → M (Int × I.σ × List ω)
  | [], p, s => .ok (p, s, [])
  | c :: cs, p, s =>
    match runPhases (I.phases k) c p s with
    | .error e => .error e
    | .ok (p1, s1, o1) =>
      match I.runs k cs p1 s1 with
      | .error e => .error e
      | .ok (p2, s2, o2) => .ok (p2, s2, o1 ++ o2)

/-- A whole streaming session: `stream_new`, then one `stream_run` per chunk.
Gives the return code, the final `ti_stream_get_progress` and all outputs in order. -/
def session (I : Indicator R ρ ω) (o : Nat → R) (chunks : List (List ρ)) : M (Ret × Int × List ω) :=
  match I.new o with
  | .error e => .error e
  | .ok (.fail r) => .ok (r, 0, [])
  | .ok (.made k p s) =>
    match I.runs k chunks p s with
    | .error e => .error e
    | .ok (p', _, out) => .ok (.okay, p', out)

end Indicator
end Verif
