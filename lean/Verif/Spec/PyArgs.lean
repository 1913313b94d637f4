/- Python's rules for arguments and identifiers, as far as C70 needs them. -/
import Mathlib.Data.List.Basic

namespace Verif.Spec

/-- A call `f(*args, **kw)` of a function with parameters `params`: the first arguments go by position, the others by name. -/
def bindCall {α : Type} (params : List String) (args : List α) (kw : String → Option α) : Option (List α) :=
  (List.range params.length).mapM fun i =>
    match args[i]? with
    | some v => some v
    | none => params[i]?.bind kw

/-- An ASCII letter, digit or underscore. -/
def IdChar (c : Char) : Prop := 'a' ≤ c ∧ c ≤ 'z' ∨ 'A' ≤ c ∧ c ≤ 'Z' ∨ '0' ≤ c ∧ c ≤ '9' ∨ c = '_'
instance : DecidablePred IdChar := fun c => by unfold IdChar; infer_instance

/-- An ASCII identifier. -/
def Ident (s : List Char) : Prop := (∃ c ∈ s.head?, IdChar c ∧ ¬ ('0' ≤ c ∧ c ≤ '9')) ∧ ∀ c ∈ s, IdChar c
instance (s : List Char) : Decidable (Ident s) := by
  unfold Ident
  cases s with
  | nil => exact isFalse fun h => by obtain ⟨_, h, _⟩ := h.1; cases h
  | cons a l =>
    exact decidable_of_iff ((IdChar a ∧ ¬ ('0' ≤ a ∧ a ≤ '9')) ∧ ∀ c ∈ a :: l, IdChar c) (by simp)

/-- The keywords of Python 3. -/
def pyKeywords : List String := ["False", "None", "True", "and", "as", "assert", "async", "await", "break", "class", "continue",
  "def", "del", "elif", "else", "except", "finally", "for", "from", "global", "if", "import", "in", "is", "lambda", "nonlocal",
  "not", "or", "pass", "raise", "return", "try", "while", "with", "yield"]

end Verif.Spec
