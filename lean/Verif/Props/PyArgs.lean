/- C70: arguments and names in the Python binding. -/
import Verif.Model.PyArgs
import Verif.Spec.PyArgs

namespace Verif
open Spec
variable {α : Type}

theorem mapM_append' {β γ : Type} (f : β → Option γ) (a b : List β) :
    (a ++ b).mapM f = (do let x ← a.mapM f; let y ← b.mapM f; return x ++ y) := by
  induction a with
  | nil => simp
  | cons h t ih =>
    simp only [List.cons_append, List.mapM_cons, ih]
    cases f h <;> simp
    cases List.mapM f t <;> simp
    cases List.mapM f b <;> simp

theorem mapM_congr' {β γ : Type} (f g : β → Option γ) (l : List β) (h : ∀ x ∈ l, f x = g x) : l.mapM f = l.mapM g := by
  induction l with
  | nil => rfl
  | cons a l ih =>
    rw [List.mapM_cons, List.mapM_cons, h a (by simp), ih fun x hx => h x (by simp [hx])]

/-- One call of `__parse` binds the parameters `names`, which begin at position `offset`. -/
theorem pyParse_eq (args : List α) (kw : String → Option α) (offset : Nat) (names : List String) :
    pyParse args kw offset names = (List.range names.length).mapM fun i =>
      match args[offset + i]? with
      | some v => some v
      | none => names[i]?.bind kw := by
  have gen : ∀ (names : List String) (l : List α), 
      ((names.drop (l.take names.length).length).mapM kw).bind (fun rest => some (l.take names.length ++ rest)) =
      (List.range names.length).mapM fun i =>
        match l[i]? with
        | some v => some v
        | none => names[i]?.bind kw := by
    intro names
    induction names with
    | nil => intro l; simp
    | cons n ns ih =>
      intro l
      rw [List.length_cons, List.range_succ_eq_map, List.mapM_cons, List.mapM_map]
      cases l with
      | nil =>
        have := ih []
        simp only [List.take_nil, List.length_nil, List.drop_zero, List.nil_append] at this ⊢
        simp only [List.mapM_cons]
        cases hk : kw n with
        | none => simp [hk]
        | some v =>
          simp only [List.getElem?_nil, List.getElem?_cons_zero, Option.bind_some, hk]
          simp only [List.getElem?_nil, Function.comp_def, List.getElem?_cons_succ] at this ⊢
          cases hm : List.mapM kw ns with
          | none => rw [hm] at this; simp at this ⊢; rw [← this]; simp
          | some r => rw [hm] at this; simp at this ⊢; rw [← this]; simp
      | cons a l =>
        have := ih l
        simp only [List.take_succ_cons, List.length_cons, List.drop_succ_cons, List.getElem?_cons_zero, Function.comp_def,
          List.getElem?_cons_succ] at this ⊢
        rw [← this]
        cases List.mapM kw (List.drop (List.take ns.length l).length ns) <;> simp
  have := gen names (args.drop offset)
  simp only [List.getElem?_drop] at this
  rw [← this]
  unfold pyParse
  rfl

/-- The binding binds arguments as a Python function with the inputs and the options of the indicator for parameters would. -/
theorem python_arguments (inputs options : List String) (args : List α) (kw : String → Option α) :
    (pyArgs inputs options args kw).map (fun r => r.1 ++ r.2) = bindCall (inputs ++ options) args kw := by
  unfold pyArgs bindCall
  rw [pyParse_eq, pyParse_eq, List.length_append, List.range_add, mapM_append', List.mapM_map]
  rw [mapM_congr' (fun i => match args[0 + i]? with | some v => some v | none => inputs[i]?.bind kw)
      (fun i => match args[i]? with | some v => some v | none => (inputs ++ options)[i]?.bind kw) (List.range inputs.length) (by
        intro i hi
        have := List.mem_range.1 hi
        simp only [Nat.zero_add, List.getElem?_append_left this]),
    mapM_congr' (fun i => match args[inputs.length + i]? with | some v => some v | none => options[i]?.bind kw)
      ((fun i => match args[i]? with | some v => some v | none => (inputs ++ options)[i]?.bind kw) ∘ fun i => inputs.length + i)
      (List.range options.length) (by
        intro i hi
        simp only [Function.comp, List.getElem?_append_right (Nat.le_add_right _ _), Nat.add_sub_cancel_left])]
  cases (List.range inputs.length).mapM fun i => match args[i]? with | some v => some v | none => (inputs ++ options)[i]?.bind kw with
  | none => simp
  | some a =>
    simp only [Option.bind_eq_bind, Option.bind_some]
    cases (List.range options.length).mapM ((fun i => match args[i]? with | some v => some v | none => (inputs ++ options)[i]?.bind kw) ∘ fun i => inputs.length + i) with
    | none => simp
    | some b => simp

/-- All arguments by position: nothing is looked up. -/
theorem python_positional (inputs options : List String) (ins opts : List α) (h1 : ins.length = inputs.length)
    (h2 : opts.length = options.length) (kw : String → Option α) :
    pyArgs inputs options (ins ++ opts) kw = some (ins, opts) := by
  have e1 : inputs.drop inputs.length = [] := List.drop_eq_nil_of_le le_rfl
  have e2 : options.drop options.length = [] := List.drop_eq_nil_of_le le_rfl
  unfold pyArgs pyParse
  rw [← h1] at e1
  rw [← h2] at e2
  simp [← h1, ← h2, e1, e2]

/-- All arguments by name. -/
theorem python_by_name (inputs options : List String) (f : String → α) :
    pyArgs inputs options [] (fun n => some (f n)) = some (inputs.map f, options.map f) := by
  have h : ∀ l : List String, l.mapM (fun n => some (f n)) = some (l.map f) := by
    intro l
    induction l with
    | nil => rfl
    | cons a l ih => simp [List.mapM_cons, ih]
  unfold pyArgs pyParse
  simp [h]

/-- Where a Python function would raise a `TypeError`, the binding does not: more arguments than parameters are dropped without a
word. -/
theorem python_arguments_violates (inputs options : List String) (ins opts more : List α) (h1 : ins.length = inputs.length)
    (h2 : opts.length = options.length) (kw : String → Option α) :
    pyArgs inputs options (ins ++ opts ++ more) kw = some (ins, opts) := by
  have e1 : inputs.drop inputs.length = [] := List.drop_eq_nil_of_le le_rfl
  have e2 : options.drop options.length = [] := List.drop_eq_nil_of_le le_rfl
  unfold pyArgs pyParse
  rw [← h1] at e1
  rw [← h2] at e2
  simp [← h1, ← h2, e1, e2]

/-- A keyword argument that names no parameter of the indicator is ignored as well: only the values of the parameters matter. -/
theorem python_unknown_keyword_violates (inputs options : List String) (args : List α) (kw kw' : String → Option α)
    (h : ∀ n ∈ inputs ++ options, kw n = kw' n) : pyArgs inputs options args kw = pyArgs inputs options args kw' := by
  have e : ∀ (off : Nat) (names : List String), (∀ n ∈ names, kw n = kw' n) → pyParse args kw off names = pyParse args kw' off names := by
    intro off names hn
    simp only [pyParse]
    rw [mapM_congr' kw kw' _ fun x hx => hn x (List.mem_of_mem_drop hx)]
  unfold pyArgs
  rw [e 0 inputs fun n hn => h n (List.mem_append_left _ hn), e inputs.length options fun n hn => h n (List.mem_append_right _ hn)]

/-! ### The names of the shipped indicators -/

/-- Every name the binding uses for an indicator, input, option or output is an identifier; the outputs of an indicator have different
names (so that the result tuple exists), and so have its parameters, except that two inputs may both be called `series`; no name is a
Python keyword, except `lambda`. No list of names is longer than the arrays of the C table. -/
theorem python_names_partial : ∀ e ∈ argNames,
    (∀ n ∈ e.1 :: (e.2.1 ++ e.2.2.1 ++ e.2.2.2), Ident (pyName n.toList) ∧ (pyName n.toList ∈ pyKeywords.map (·.toList) → n = "lambda")) ∧
      (e.2.2.2.map fun n => pyName n.toList).Nodup ∧
      (e.2.1 = ["series", "series"] ∨ ((e.2.1 ++ e.2.2.1).map fun n => pyName n.toList).Nodup) ∧
      e.2.1.length < 10 ∧ e.2.2.1.length < 10 ∧ e.2.2.2.length < 10 := by decide +kernel

/-- The option of rema is called `lambda`: `ti.rema(series, lambda=…)` is a syntax error. -/
theorem python_keyword_violates : ("rema", ["series"], ["period", "lambda"], ["rema"]) ∈ argNames ∧ "lambda" ∈ pyKeywords := by decide +kernel

/-- Both inputs of add have the same name: passed by name, they are the same series. -/
theorem python_series_violates : ("add", ["series", "series"], [], ["add"]) ∈ argNames ∧
    ∀ v : α, pyArgs ["series", "series"] [] [] (fun n => if n = "series" then some v else none) = some ([v, v], []) :=
  ⟨by decide +kernel, fun v => rfl⟩

/-- The type of the result tuple has a valid name if the texts of the options are made of letters, digits, `.`, `-` and `_`. -/
theorem python_typename_partial (name : List Char) (options : List (List Char)) (hn : Ident name)
    (ho : ∀ t ∈ options, ∀ c ∈ t, IdChar c ∨ c = '.' ∨ c = '-') : Ident (pyTypename name options) := by
  obtain ⟨⟨c, hc, h1⟩, h2⟩ := hn
  have hp : IdChar 'p' ∧ IdChar 'm' ∧ IdChar '_' := by decide
  have ht : ∀ t ∈ options.map pyOption, ∀ c ∈ t, IdChar c := by
    intro t ht c hc
    obtain ⟨t0, h0, rfl⟩ := List.mem_map.1 ht
    obtain ⟨c0, hc0, rfl⟩ := List.mem_map.1 hc
    split
    · exact hp.1
    · split
      · exact hp.2.1
      · rename_i a b
        rcases ho t0 h0 c0 hc0 with h | h | h
        · exact h
        · exact absurd h a
        · exact absurd h b
  have hi : ∀ l : List (List Char), (∀ t ∈ l, ∀ c ∈ t, IdChar c) → ∀ c ∈ ['_'].intercalate l, IdChar c := by
    intro l
    induction l with
    | nil => intro _ c hc; simp [List.intercalate] at hc
    | cons a l ih =>
      intro h c hc
      cases l with
      | nil => simp [List.intercalate] at hc; exact h a (by simp) c hc
      | cons b l =>
        simp only [List.intercalate, List.intersperse_cons_cons, List.flatten_cons, List.mem_append] at hc
        rcases hc with hc | hc | hc
        · exact h a (by simp) c hc
        · rw [List.mem_singleton.1 hc]; exact hp.2.2
        · exact ih (fun t ht => h t (by simp [List.mem_cons.1 ht])) c hc
  constructor
  · refine ⟨c, ?_, h1⟩
    unfold pyTypename
    cases name with
    | nil => cases hc
    | cons a l => simpa using hc
  · intro c hc
    unfold pyTypename at hc
    rcases List.mem_append.1 hc with hc | hc
    · exact h2 c hc
    · exact hi _ (by intro t ht'; rcases List.mem_cons.1 ht' with rfl | h; · simp
                     · exact ht t h) c hc

/-- `str(1e16)` is `1e+16`: with such an option the name is not an identifier and `namedtuple` raises `ValueError`. -/
theorem python_typename_violates : ¬ Ident (pyTypename "sma".toList ["1e+16".toList]) := by decide +kernel

/-! ### Cases -/

example : pyArgs (α := Nat) ["high", "low"] ["period"] [1] (fun n => if n = "low" then some 2 else if n = "period" then some 3 else none) =
    some ([1, 2], [3]) := by decide +kernel
example : pyArgs (α := Nat) ["series"] ["period"] [1] (fun _ => none) = none := by decide +kernel
example : pyTypename "macd".toList ["12".toList, "2.5".toList, "-9".toList] = "macd_12_2p5_m9".toList := by decide +kernel
example : ("stoch", ["high", "low", "close"], ["k period", "k slowing period", "d period"], ["stoch_k", "stoch_d"]) ∈ argNames := by decide +kernel

end Verif
