/-
The part of codegen.py that writes into the indicators' source files (/repo/codegen.py:213-422).
Texts are lists of characters. Simplifications: line ends are a single newline; what `print` shows is left out; `git add` only
changes the index of the repository and is left out.
-/
import Mathlib.Data.List.Basic
import Mathlib.Logic.Function.Basic

namespace Verif.Codegen

abbrev Text := List Char

/-- A literal piece of text. -/
def t (s : String) : Text := s.toList

/-- One item of indicators.yaml, as unpacked in /repo/codegen.py:216: the key, the names of the inputs, options and outputs, and whether the
features contain `ref` and `stream`. The elaborated name, the type and the source are not used in this part. -/
structure Entry where
  name : Text
  inputs : List Text
  options : List Text
  outputs : List Text
  ref : Bool
  stream : Bool

/-- `sep.join(parts)`, Python. -/
def join (sep : Text) : List Text → Text
  | [] => []
  | [a] => a
  | a :: l => a ++ sep ++ join sep l

/-- The pieces of `enumerate(names)` formatted as `pre name mid index post`. -/
def numbered (pre mid post : String) (names : List Text) : List Text :=
  names.zipIdx.map fun a => t pre ++ a.1 ++ t mid ++ (toString a.2).toList ++ t post

/-- /repo/codegen.py:25-26 -/
def declStart (n : Text) : Text := t "int ti_" ++ n ++ t "_start(TI_REAL const *options)"
/-- /repo/codegen.py:27-28 -/
def declPlain (n : Text) : Text := t "int ti_" ++ n ++ t "(int size, TI_REAL const *const *inputs, TI_REAL const *options, TI_REAL *const *outputs)"
/-- /repo/codegen.py:29-30, with the pragma, which is joined to `int` without a space. -/
def declRef (n : Text) : Text := t "DONTOPTIMIZEint ti_" ++ n ++ t "_ref(int size, TI_REAL const *const *inputs, TI_REAL const *options, TI_REAL *const *outputs)"
/-- /repo/codegen.py:31-32 -/
def declStreamNew (n : Text) : Text := t "int ti_" ++ n ++ t "_stream_new(TI_REAL const *options, ti_stream **stream)"
/-- /repo/codegen.py:33-34 -/
def declStreamRun (n : Text) : Text := t "int ti_" ++ n ++ t "_stream_run(ti_stream *stream, int size, TI_REAL const *const *inputs, TI_REAL *const *outputs)"
/-- /repo/codegen.py:35-36 -/
def declStreamFree (n : Text) : Text := t "void ti_" ++ n ++ t "_stream_free(ti_stream *stream)"

/-- `unpack_options`, /repo/codegen.py:221. -/
def unpackOptions (e : Entry) : Text := join (t "\n    ") (numbered "const TI_REAL " " = options[" "];" e.options)
/-- `unpack_inputs`, /repo/codegen.py:222. -/
def unpackInputs (e : Entry) : Text := join (t "\n    ") (numbered "TI_REAL const *const " " = inputs[" "];" e.inputs)
/-- `unpack_outputs`, /repo/codegen.py:223. -/
def unpackOutputs (e : Entry) : Text := join (t "\n    ") (numbered "TI_REAL *" " = outputs[" "];" e.outputs)

/-- `includes`, /repo/codegen.py:225-236. -/
def includes (old : Bool) : List Text :=
  [t "#include \"../indicators.h\"", t "#include \"../utils/log.h\"", t "#include \"../utils/minmax.h\""] ++
  if old then [t "#include \"../utils/localbuffer.h\""] else [t "#include \"../utils/ringbuf.hh\"", [], t "#include <new>", t "#include <exception>"]

/-- `base`, /repo/codegen.py:238-259. -/
def base (e : Entry) : List Text :=
  [[], declStart e.name ++ t " {", t "    " ++ unpackOptions e, [], t "    #error \"return how shorter will the output be than the input\"", t "}", [],
   declPlain e.name ++ t " try {", t "    " ++ unpackInputs e, t "    " ++ unpackOptions e, t "    " ++ unpackOutputs e, [],
   t "    #error \"don't forget to validate options\"", [], t "    #error \"vectorized implementation goes here\"", [], t "    return TI_OKAY;",
   t "} catch (std::bad_alloc& e) {", t "    return TI_OUT_OF_MEMORY;", t "}"]

/-- `ref`, /repo/codegen.py:261-274. -/
def ref (e : Entry) : List Text :=
  [[], declRef e.name ++ t " {", t "    " ++ unpackInputs e, t "    " ++ unpackOptions e, t "    " ++ unpackOutputs e, [],
   t "    #error \"don't forget to validate options\"", [], t "    #error \"obviously correct implementation goes here\"", [], t "    return TI_OKAY;", t "}"]

/-- `stream`, /repo/codegen.py:276-359. `name.upper()` is `upper`. -/
def stream (old : Bool) (upper : Text → Text) (e : Entry) : List Text :=
  [[], t "struct ti_stream {", t "    int index;", t "    int progress;", [], t "    struct {",
   t "        " ++ join (t "\n        ") (e.options.map fun a => t "TI_REAL " ++ a ++ t ";"), t "    } options;", [], t "    struct {", [], t "    } state;", [],
   t "    struct {", [], t "    } constants;"] ++
  (if old then [[], t "    BUFFERS(", [], t "    )"] else []) ++
  [t "};", [], declStreamNew e.name ++ t " {", t "    " ++ unpackOptions e, [], t "    #error \"don't forget to validate options\"", []] ++
  (if old then [t "    *stream = calloc(1, sizeof(**stream));"] else [t "    *stream = new(std::nothrow) ti_stream();"]) ++
  [t "    if (!*stream) { return TI_OUT_OF_MEMORY; }", [], t "    (*stream)->index = TI_INDICATOR_" ++ upper e.name ++ t "_INDEX;",
   t "    (*stream)->progress = -ti_" ++ e.name ++ t "_start(options);", [],
   join (t "\n") (e.options.map fun a => t "    (*stream)->options." ++ a ++ t " = " ++ a ++ t ";")] ++
  (if old then [[], t "    #error \"don't forget to initialize buffers\"", [],
      t "    *stream = realloc(*stream, sizeof(**stream) + sizeof(TI_REAL) * BUFFERS_SIZE(*stream));", t "    if (!stream) { return TI_OUT_OF_MEMORY; }"]
   else [[], t "    try {", t "        #error \"don't forget to initialize ringbuffers and any other storage\"", t "    } catch (std::bad_alloc& e) {",
      t "        delete *stream;", t "        return TI_OUT_OF_MEMORY;", t "    }"]) ++
  [[], t "    return TI_OKAY;", t "}", [], declStreamFree e.name ++ t " {"] ++
  (if old then [t "    free(stream);"] else [t "    delete stream;"]) ++
  [t "}", [], declStreamRun e.name ++ t " {", t "    " ++ unpackInputs e, t "    " ++ unpackOutputs e, t "    int progress = stream->progress;",
   join (t "\n") (e.options.map fun a => t "    const TI_REAL " ++ a ++ t " = stream->options." ++ a ++ t ";"), [], t "    int i = 0;",
   t "    #error \"streaming implementation goes here\"", [], t "    stream->progress = progress;", t "    #error \"be sure to save all the state\"", [],
   t "    return TI_OKAY;", t "}"]

/-- The text of a new source file, /repo/codegen.py:362-367. -/
def newFile (old : Bool) (upper : Text → Text) (e : Entry) : Text :=
  join (t "\n") (includes old ++ base e ++ (if e.ref then ref e else []) ++ if e.stream then stream old upper e else [])

/-- `re.search(pattern, contents)`, for a pattern without special characters: the pattern occurs in the text. -/
def search (p : Text) : Text → Bool
  | [] => p.isEmpty
  | c :: s => p.isPrefixOf (c :: s) || search p s

/-- The pattern of `re.search(f'ti_{name}_ref', contents)`, /repo/codegen.py:376. -/
def refMark (n : Text) : Text := t "ti_" ++ n ++ t "_ref"
/-- The pattern of `re.search(f'ti_{name}_stream', contents)`, /repo/codegen.py:377. -/
def streamMark (n : Text) : Text := t "ti_" ++ n ++ t "_stream"

/-- `tbd`, /repo/codegen.py:376-381. -/
def additions (old : Bool) (upper : Text → Text) (e : Entry) (contents : Text) : List Text :=
  (if e.ref && !search (refMark e.name) contents then ref e else []) ++
  if e.stream && !search (streamMark e.name) contents then stream old upper e else []

/-- `f.readlines()`, Python: the lines with their line ends. -/
def readlines : Text → List Text
  | [] => []
  | c :: s => if c = '\n' then [c] :: readlines s else
    match readlines s with
    | [] => [[c]]
    | l :: ls => (c :: l) :: ls

/-- /repo/codegen.py:391-398: the index of the first line after the first block of `#include` lines, or 0. `found` is `found_first_include`,
`i` the index of the head of the list. -/
def nextInclude (found : Bool) (i : Nat) : List Text → Nat
  | [] => 0
  | l :: ls => if search (t "#include") l then nextInclude true (i + 1) ls else if found then i else nextInclude false (i + 1) ls

/-- `head_files`, /repo/codegen.py:399-404. -/
def headFiles : List Text :=
  [t "#include \"../utils/log.h\"\n", t "#include \"../utils/minmax.h\"\n", t "#include \"../utils/ringbuf.hh\"\n", t "\n", t "#include <new>\n",
   t "#include <algorithm>\n"]

/-- /repo/codegen.py:405-415: the head files that are missing, and an empty line, put in after the first block of includes. -/
def addHeaders (ls : List Text) : List Text :=
  ls.take (nextInclude false 0 ls) ++ headFiles.filter (fun h => h == t "\n" || !ls.contains h) ++ ls.drop (nextInclude false 0 ls)

/-- The two places an indicator's source may be: `indicators/{name}.c` and `indicators/{name}.cc`. -/
structure Src where
  c : Option Text
  cc : Option Text
deriving DecidableEq

/-- The directory `indicators`, by indicator name. -/
abbrev Dir := Text → Src

/-- The ways the script dies: an unassigned variable, a file that is not there. -/
inductive Crash
  | nameError
  | fileNotFound
deriving DecidableEq

/-- State of the loop: the directory and the variable `tbd`, unassigned at first. -/
structure St where
  dir : Dir
  tbd : Option (List Text)

/-- What a run of the script comes to: it finishes, or dies with some files already written. -/
inductive Out
  | done (s : St)
  | died (c : Crash) (d : Dir)

/-- /repo/codegen.py:383-422, `if tbd:` for a non-empty `tbd`. `mv` says for which indicators the command `git mv` works when the target does not exist
(it does not for a file that git does not track); its failure goes unnoticed. -/
def append (old : Bool) (mv : Text → Bool) (e : Entry) (d : Dir) (ls : List Text) : Out :=
  let s := d e.name
  let more : Text := join (t "\n") ([] :: ls)
  if old then
    match s.c with
    | none => .died .fileNotFound d
    | some u => .done ⟨Function.update d e.name ⟨some (u ++ more), s.cc⟩, some ls⟩
  else
    match s.c with
    | some u =>
      let s' : Src := if s.cc.isNone && mv e.name then ⟨none, some u⟩ else s
      match s'.cc with
      | none => .died .fileNotFound d
      | some v => .done ⟨Function.update d e.name ⟨s'.c, some ((addHeaders (readlines v)).flatten ++ more)⟩, some ls⟩
    | none =>
      match s.cc with
      | none => .died .fileNotFound d
      | some v => .done ⟨Function.update d e.name ⟨none, some (v ++ more)⟩, some ls⟩

/-- /repo/codegen.py:361-381: a new file, or the sections missing in the one that exists. -/
def prepare (old : Bool) (upper : Text → Text) (e : Entry) (s : St) : St :=
  match s.dir e.name with
  | ⟨none, none⟩ => ⟨Function.update s.dir e.name (if old then ⟨some (newFile old upper e), none⟩ else ⟨none, some (newFile old upper e)⟩), s.tbd⟩
  | ⟨some u, _⟩ => ⟨s.dir, some (additions old upper e u)⟩
  | ⟨none, some u⟩ => ⟨s.dir, some (additions old upper e u)⟩

/-- One turn of the loop, /repo/codegen.py:215-422. -/
def step (old : Bool) (upper : Text → Text) (mv : Text → Bool) (s : St) (e : Entry) : Out :=
  let s := prepare old upper e s
  match s.tbd with
  | none => .died .nameError s.dir
  | some [] => .done s
  | some ls => append old mv e s.dir ls

/-- The loop over `indicators.items()`. -/
def loop (old : Bool) (upper : Text → Text) (mv : Text → Bool) : List Entry → St → Out
  | [], s => .done s
  | e :: es, s =>
    match step old upper mv s e with
    | .died c d => .died c d
    | .done s' => loop old upper mv es s'

/-- A run of codegen.py on a directory. -/
def run (old : Bool) (upper : Text → Text) (mv : Text → Bool) (yaml : List Entry) (d : Dir) : Out := loop old upper mv yaml ⟨d, none⟩

/-- The directory a run leaves behind. -/
def Out.dir : Out → Dir
  | .done s => s.dir
  | .died _ d => d

end Verif.Codegen
