/-
The indicator table, its lookup and the dispatch of streams, as generated by `/repo/codegen.py`.
-/
import Verif.Core.Stream

namespace Verif

/-- A C string: its bytes up to, and without, the terminating NUL. -/
abbrev Name := List Nat

/-- No byte of the string is NUL. -/
def NulFree (s : Name) : Prop := ∀ b ∈ s, 1 ≤ b

/-- `strcmp` (C standard library): compare byte by byte as `unsigned char`, the terminators included. -/
def strcmp : Name → Name → Int
  | [], [] => 0
  | [], b :: _ => 0 - b
  | a :: _, [] => a
  | a :: as, b :: bs => if a = b then strcmp as bs else (a : Int) - b

/-- Python's `<=` on `str` (code points, lexicographic); the keys are ASCII, so code points are bytes. -/
def pyLe : Name → Name → Bool
  | [], _ => true
  | _ :: _, [] => false
  | a :: as, b :: bs => if a < b then true else if b < a then false else pyLe as bs

/-- One step of Python's `sorted` on items, comparing the keys (the keys of a dict are distinct, so the second
components are never compared).  `sorted` is modelled by insertion sort: with distinct keys every sorting
algorithm gives this list. -/
def pyInsert {E : Type} (a : Name × E) : List (Name × E) → List (Name × E)
  | [] => [a]
  | b :: bs => if pyLe a.1 b.1 then a :: b :: bs else b :: pyInsert a bs

/-- `sorted(indicators.items())`, /repo/codegen.py:173. -/
def pySorted {E : Type} (d : List (Name × E)) : List (Name × E) := d.foldr pyInsert []

/-- `struct ti_indicator_info ti_indicators[]`, /repo/codegen.py:172-174: the sorted entries and a last entry whose
name is a null pointer (`none`). -/
def tiIndicators {E : Type} (d : List (Name × E)) : List (Option (Name × E)) :=
  (pySorted d).map some ++ [none]

/-- What the search loop has come to. -/
inductive Found where
  | running | absent | at (i : Int)
  deriving DecidableEq, Repr

/-- The loop of `ti_find_indicator`, /repo/codegen.py:197-207, cut off after `fuel` iterations (`running`).
`ti_indicators[i].name` of the last entry is null: passing it to `strcmp` is undefined. -/
def findLoop {E : Type} (tab : List (Option (Name × E))) (name : Name) : Nat → Int → Int → M Found
  | 0, _, _ => .ok .running
  | fuel + 1, imin, imax =>
    if imax ≥ imin then do
      let d ← i32 (imax - imin)
      let i ← i32 (imin + d.tdiv 2)
      match ← rd tab i with
      | none => .error .badPtr
      | some e =>
        let c := strcmp name e.1
        if c = 0 then pure (.at i)
        else if c > 0 then do
          let imin' ← i32 (i + 1)
          findLoop tab name fuel imin' imax
        else do
          let imax' ← i32 (i - 1)
          findLoop tab name fuel imin imax'
    else pure .absent

/-- `ti_find_indicator`, /repo/codegen.py:192-210, cut off after `fuel` iterations. -/
def tiFind {E : Type} (d : List (Name × E)) (name : Name) (fuel : Nat) : M Found := do
  let imax ← i32 (((tiIndicators d).length : Int) - 2)
  findLoop (tiIndicators d) name fuel 0 imax

/-- `TI_INDICATOR_X_INDEX`: the position of `X` in `enum {…}`, which lists `sorted(indicators)`,
/repo/codegen.py:136.  (The enum spells the names in upper case; two names differing only in case would not
compile.) -/
def enumIndex {E : Type} (d : List (Name × E)) (name : Name) : Int :=
  ((pySorted (d.map fun e => (e.1, ()))).map Prod.fst).idxOf name

section Dispatch
variable {R ρ ω : Type}

/-- A stream object: the `index` and `progress` every `struct ti_stream` begins with, and the members private to
the indicator that allocated it.  `env X` is the code of `ti_X_…` (what the linker binds the symbols to).
The inputs and outputs of all indicators are given one common row type here, as the untyped pointers of the C
interface do. -/
structure StreamObj (env : Name → Indicator R ρ ω) where
  index : Int
  progress : Int
  owner : Name
  k : (env owner).κ
  s : (env owner).σ

/-- `ti_X_stream_new`: every one of them sets `index` to `TI_INDICATOR_X_INDEX` (checked by text search over
/repo/indicators: 55 files with a stream, one assignment each, always of the file's own indicator). -/
def newStream (env : Name → Indicator R ρ ω) (d : List (Name × Bool)) (X : Name) (o : Nat → R) :
    M (Ret × Option (StreamObj env)) :=
  match (env X).new o with
  | .error e => .error e
  | .ok (.fail r) => .ok (r, none)
  | .ok (.made k p s) => .ok (.okay, some ⟨enumIndex d X, p, X, k, s⟩)

/-- `ti_X_stream_run` on an object: undefined if the object was made by another indicator.  No `stream_run`
writes the `index` member (text search over /repo/indicators). -/
def runStream (env : Name → Indicator R ρ ω) (X : Name) (st : StreamObj env) (chunk : List ρ) :
    M (StreamObj env × List ω) :=
  if X = st.owner then
    match runPhases ((env st.owner).phases st.k) chunk st.progress st.s with
    | .error e => .error e
    | .ok (p, s, out) => .ok ({ st with progress := p, s := s }, out)
  else .error .badPtr

/-- `ti_X_stream_free`: undefined if the object was made by another indicator. -/
def freeStream (env : Name → Indicator R ρ ω) (X : Name) (st : StreamObj env) : M Unit :=
  if X = st.owner then .ok () else .error .badPtr

/-- The function pointer of a table entry, /repo/codegen.py:145-165: `ti_{name}_stream_…` if the entry has a stream,
null otherwise; the last entry is all null. -/
def entryFn (e : Option (Name × Bool)) : M Name :=
  match e with
  | some (X, true) => .ok X
  | _ => .error .badPtr

/-- `ti_stream_run`, /repo/codegen.py:176-178. -/
def tiStreamRun (env : Name → Indicator R ρ ω) (d : List (Name × Bool)) (st : StreamObj env) (chunk : List ρ) :
    M (StreamObj env × List ω) := do
  let e ← rd (tiIndicators d) st.index
  let X ← entryFn e
  runStream env X st chunk

/-- `ti_stream_get_info`, /repo/codegen.py:180-182 (the entry pointed to). -/
def tiStreamInfo (env : Name → Indicator R ρ ω) (d : List (Name × Bool)) (st : StreamObj env) :
    M (Option (Name × Bool)) :=
  rd (tiIndicators d) st.index

/-- `ti_stream_get_progress`, /repo/codegen.py:184-186. -/
def tiStreamProgress {env : Name → Indicator R ρ ω} (st : StreamObj env) : Int := st.progress

/-- `ti_stream_free`, /repo/codegen.py:188-190. -/
def tiStreamFree (env : Name → Indicator R ρ ω) (d : List (Name × Bool)) (st : StreamObj env) : M Unit := do
  let e ← rd (tiIndicators d) st.index
  let X ← entryFn e
  freeStream env X st

/-- A history of `ti_stream_run` calls on one stream. -/
def tiStreamRuns (env : Name → Indicator R ρ ω) (d : List (Name × Bool)) :
    List (List ρ) → StreamObj env → M (StreamObj env × List ω)
  | [], st => .ok (st, [])
  | c :: cs, st => do
    let (st1, o1) ← tiStreamRun env d st c
    let (st2, o2) ← tiStreamRuns env d cs st1
    pure (st2, o1 ++ o2)

/-- What a caller sees of the life of one stream: `ti_X_stream_new`, a history of `ti_stream_run`, then
`ti_stream_get_progress`, the name and flag in `ti_stream_get_info`, all outputs, and `ti_stream_free`. -/
def tiSession (env : Name → Indicator R ρ ω) (d : List (Name × Bool)) (X : Name) (o : Nat → R)
    (chunks : List (List ρ)) : M (Ret × Int × Option (Option (Name × Bool)) × List ω) := do
  match ← newStream env d X o with
  | (r, none) => pure (r, 0, none, [])
  | (r, some st) => do
    let (st', out) ← tiStreamRuns env d chunks st
    let info ← tiStreamInfo env d st'
    tiStreamFree env d st'
    pure (r, tiStreamProgress st', some info, out)

end Dispatch

/-- The bytes of a name. -/
def bytes (s : String) : Name := s.toList.map Char.toNat

/-- The keys of /repo/indicators.yaml:22-209 in file order, and whether the entry lists the `stream` feature. -/
def indicatorsYaml : List (Name × Bool) :=
  ([
   ("dema", false), ("ema", false), ("hfsma", true), ("hma", false), ("hfema", true), ("sma", true), ("lf",
   true), ("rmf", true), ("mama", true), ("rema", true), ("tema", false), ("trima", false), ("vidya", false),
   ("vwma", false), ("vwap", true), ("wilders", false), ("wma", false), ("zlema", false), ("rmta", false),
   ("gf1", true), ("gf2", true), ("gf3", true), ("gf4", true), ("ehma", true), ("evwma", true), ("lma", true),
   ("pwma", true), ("swma", true), ("dwma", true), ("shmma", true), ("ahma", true), ("t3", true), ("mhlma",
   true), ("cmi", true), ("idwma", true), ("emsd", true), ("hwma", true), ("hd", true), ("mgdyn", true),
   ("linreg", false), ("linregintercept", false), ("linregslope", false), ("tsf", false), ("fosc", false),
   ("bbands", false), ("bf2", true), ("bf3", true), ("kc", true), ("kama", false), ("psar", false), ("pc",
   true), ("pbands", true), ("edcf", true), ("frama", true), ("roof", true), ("ssmooth", true), ("hf", true),
   ("ad", false), ("adosc", false), ("abands", false), ("apo", false), ("aroon", false), ("aroonosc", false),
   ("ao", false), ("bop", false), ("cmf", false), ("mesastoch", true), ("cmo", false), ("cci", false), ("copp",
   true), ("dpo", false), ("emv", false), ("fisher", false), ("fi", true), ("kvo", false), ("kst", false),
   ("marketfi", false), ("mass", false), ("mfi", false), ("macd", false), ("nvi", false), ("obv", false),
   ("ppo", false), ("pfe", true), ("pvi", false), ("posc", true), ("qstick", false), ("rsi", false), ("tsi",
   true), ("rmi", true), ("rvi", true), ("smi", true), ("stoch", false), ("stochrsi", false), ("trix", false),
   ("wad", false), ("willr", false), ("ultosc", false), ("vhf", false), ("vosc", false), ("er", true), ("pvt",
   true), ("hurst", true), ("arsi", true), ("dm", false), ("dx", false), ("di", false), ("adx", false), ("adxr",
   false), ("msw", false), ("mom", false), ("roc", false), ("rocr", false), ("lag", false), ("max", false),
   ("min", false), ("sum", false), ("stddev", false), ("stderr", false), ("md", false), ("var", false),
   ("avgprice", false), ("medprice", false), ("typprice", false), ("wcprice", false), ("atr", true), ("ce",
   true), ("natr", false), ("tr", false), ("ichi", true), ("volatility", false), ("cvi", false), ("crossany",
   false), ("crossover", false), ("decay", false), ("edecay", false), ("add", false), ("sub", false), ("mul",
   false), ("div", false), ("abs", false), ("acos", false), ("asin", false), ("atan", false), ("ceil", false),
   ("cos", false), ("cosh", false), ("exp", false), ("floor", false), ("ln", false), ("log10", false), ("round",
   false), ("sin", false), ("sinh", false), ("sqrt", false), ("tan", false), ("tanh", false), ("todeg", false),
   ("torad", false), ("trunc", false), ("vi", true)
  ] : List (String × Bool)).map fun e => (bytes e.1, e.2)

end Verif
