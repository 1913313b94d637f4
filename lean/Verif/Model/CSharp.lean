/-
The C# classes `/repo/bindings/lean/generate-bindings.py` generates for the trading platform Lean: one class per indicator
around its stream (namespace `Streaming`), one around its batch function (namespace `Default`).
Not modelled: the conversion of results to `decimal`, and the release of the unmanaged cells.
-/
import Verif.Core.Stream

namespace Verif
variable {R ρ ω : Type}

/-- What an object shows after one bar: the values of its outputs (`none`: the content of unmanaged cells nobody has written) and
`IsReady`. -/
structure CsOut (ω : Type) where
  value : Option ω
  ready : Bool
  deriving DecidableEq

/-- Outcome of a C# call: a value, or the exception `util.DispatchError` throws for a return code, generate-bindings.py:23-30. -/
inductive Cs (α : Type) where
  | ret (v : α)
  | thrown (r : Ret)
  deriving DecidableEq

/-- The content of cells for one value per output after the library has written `out` to them, generate-bindings.py:75-78. -/
def csCell : List ω → M (Option ω)
  | [] => .ok none
  | [v] => .ok (some v)
  | _ => .error .oobWrite

/-- `ComputeNextValue` of a streaming class followed by `IsReady`, generate-bindings.py:71-88. (`stream_run` of the indicators
returns `TI_OKAY`.) -/
def csStep (I : Indicator R ρ ω) (k : I.κ) (p : Int) (s : I.σ) (bar : ρ) : M (Int × I.σ × CsOut ω) :=
  match runPhases (I.phases k) [bar] p s with
  | .error e => .error e
  | .ok (p', s', out) =>
    match csCell out with
    | .error e => .error e
    | .ok v => .ok (p', s', ⟨v, decide (0 < p')⟩)

/-- One update per bar. -/
def csSteps (I : Indicator R ρ ω) (k : I.κ) : List ρ → Int → I.σ → M (Int × I.σ × List (CsOut ω))
  | [], p, s => .ok (p, s, [])
  | b :: bs, p, s =>
    match csStep I k p s b with
    | .error e => .error e
    | .ok (p1, s1, o1) =>
      match csSteps I k bs p1 s1 with
      | .error e => .error e
      | .ok (p2, s2, o2) => .ok (p2, s2, o1 :: o2)

/-- The life of a streaming class: its constructor, generate-bindings.py:63-67, then one update per bar. -/
def csStream (I : Indicator R ρ ω) (o : Nat → R) (bars : List ρ) : M (Cs (List (CsOut ω))) :=
  match I.new o with
  | .error e => .error e
  | .ok (.fail r) => .ok (.thrown r)
  | .ok (.made k p s) =>
    match csSteps I k bars p s with
    | .error e => .error e
    | .ok (_, _, out) => .ok (.ret out)

/-- `tmp` after the loops that fill it, generate-bindings.py:130: the loops of all inputs come before the first copy, and each
overwrites what the one before it stored. A bar is the function from input numbers to values. -/
def csTmp (inputs : Nat) (window : List (Nat → R)) : List R :=
  (List.range inputs).foldl (fun _ c => window.map fun bar => bar c) []

/-- `ComputeNextValue` of a windowed class after the bars `bars`, generate-bindings.py:111-137. The rolling window of the platform
keeps the newest `max(windowsize, start + 1)` bars (generate-bindings.py:112); `mk` builds the row the library sees from the
input arrays, all copied from `tmp` (generate-bindings.py:131). A value of `none` is the initial `0` or an unwritten cell. -/
def csDefault (start : (Nat → R) → M Int) (batch : (Nat → R) → List ρ → M (Ret × List ω)) (inputs : Nat) (mk : (Nat → R) → ρ)
    (o : Nat → R) (windowsize : Int) (bars : List (Nat → R)) : M (Cs (CsOut ω)) := do
  let st ← start o
  let period := max windowsize (st + 1)
  let window := bars.drop (bars.length - period.toNat)
  if ¬ st < window.length then return .ret ⟨none, false⟩
  let tmp := csTmp inputs window
  let (r, out) ← batch o (tmp.map fun v => mk fun _ => v)
  if r ≠ .okay then return .thrown r
  return .ret ⟨out[((window.length : Int) - st - 1).toNat]?, true⟩

end Verif
