/-
C40: the Python wrapper pads to the input length, for every function that keeps the contract of the C API
(`Contract`, proved per indicator in the other files of this directory).
-/
import Verif.Model.Python
import Verif.Proof.Contract
import Verif.Props.Smooth
import Verif.Props.Window

set_option linter.unusedSectionVars false

namespace Verif
variable {R ρ ω : Type} [OfNat R 0]
variable {start : (Nat → R) → M Int} {batch : (Nat → R) → List ρ → M (Ret × List ω)} {o : Nat → R} {s : Nat}

theorem pyColumns_same (n : Nat) : ∀ cols : List (List R), (∀ c ∈ cols, c.length = n) → pyColumns n cols = .ret cols
  | [], _ => rfl
  | c :: cs, h => by
    have hc : c.length = n := h c (by simp)
    unfold pyColumns pyColumn
    rw [if_neg (by omega), pyColumns_same n cs (fun c hc => h c (by simp [hc]))]
    simp [hc]

theorem rowsOf_length (mk : (Nat → R) → ρ) (n : Nat) (cols : List (List R)) : (rowsOf mk n cols).length = n := by
  simp [rowsOf]

/-- With `pad=True`, columns of equal length `n ≥ start` give, for every output, `start` NaNs followed by the values
of the C function: `n` entries. -/
theorem python_pads (h : Contract start batch o s) (mk : (Nat → R) → ρ) (fields : List (ω → R)) (col : List R)
    (cols : List (List R)) (heq : ∀ c ∈ cols, c.length = col.length) (hs : s ≤ col.length) :
    ∃ out : List ω, batch o (rowsOf mk col.length (col :: cols)) = .ok (.okay, out) ∧
      pyCall start batch mk fields (col :: cols) o true =
        .ok (.ret (fields.map fun f => List.replicate s none ++ out.map fun w => some (f w))) ∧
      ∀ f : ω → R, (List.replicate s none ++ out.map fun w => some (f w)).length = col.length := by
  obtain ⟨out, hout, hl⟩ := h.safe (rowsOf mk col.length (col :: cols))
  rw [rowsOf_length] at hl
  refine ⟨out, hout, ?_, fun f => by simp [hl]; omega⟩
  unfold pyCall
  simp only [List.getD_cons_zero, h.start_eq, bind_ok]
  rw [pyColumns_same _ _ (by intro c hc; rcases List.mem_cons.1 hc with rfl | hc; exacts [rfl, heq c hc])]
  simp only []
  rw [if_neg (by omega), hout, bind_ok]
  simp only [if_true]
  rw [if_neg (by omega)]
  simp only [pure_eq, show ((col.length : Int) - (s : Int)).toNat - out.length = 0 by omega, List.replicate_zero,
    List.append_nil, List.map_map, Function.comp_def, Int.toNat_natCast, Bool.false_eq_true, if_false]

/-- With `pad=False` the values alone are returned: `n - start` of them. -/
theorem python_unpadded (h : Contract start batch o s) (mk : (Nat → R) → ρ) (fields : List (ω → R)) (col : List R)
    (cols : List (List R)) (heq : ∀ c ∈ cols, c.length = col.length) (hs : s ≤ col.length) :
    ∃ out : List ω, batch o (rowsOf mk col.length (col :: cols)) = .ok (.okay, out) ∧
      out.length = col.length - s ∧
      pyCall start batch mk fields (col :: cols) o false =
        .ok (.ret (fields.map fun f => out.map fun w => some (f w))) := by
  obtain ⟨out, hout, hl⟩ := h.safe (rowsOf mk col.length (col :: cols))
  rw [rowsOf_length] at hl
  refine ⟨out, hout, hl, ?_⟩
  unfold pyCall
  simp only [List.getD_cons_zero, h.start_eq, bind_ok]
  rw [pyColumns_same _ _ (by intro c hc; rcases List.mem_cons.1 hc with rfl | hc; exacts [rfl, heq c hc])]
  simp only []
  rw [if_neg (by omega), hout, bind_ok]
  simp only [pure_eq, show ((col.length : Int) - (s : Int)).toNat - out.length = 0 by omega, List.replicate_zero,
    List.append_nil, List.map_map, Function.comp_def, Int.toNat_natCast, Bool.false_eq_true, if_false]

/-- A series shorter than the start index raises `ValueError` instead of giving an all-NaN result of its length: the
promise of C40 fails there. -/
theorem python_short_violates (h : Contract start batch o s) (mk : (Nat → R) → ρ) (fields : List (ω → R))
    (col : List R) (cols : List (List R)) (heq : ∀ c ∈ cols, c.length = col.length) (hs : col.length < s) (pad : Bool) :
    pyCall start batch mk fields (col :: cols) o pad = .ok .valueError := by
  unfold pyCall
  simp only [List.getD_cons_zero, h.start_eq, bind_ok]
  rw [pyColumns_same _ _ (by intro c hc; rcases List.mem_cons.1 hc with rfl | hc; exacts [rfl, heq c hc])]
  simp only []
  rw [if_pos (by omega)]
  rfl

/-- Refused options raise `InvalidOption`, provided the series is at least as long as the start index the options
give. -/
theorem python_refuses (h : Refuses batch o) (i : Int) (hstart : start o = .ok i) (mk : (Nat → R) → ρ)
    (fields : List (ω → R)) (col : List R) (cols : List (List R)) (heq : ∀ c ∈ cols, c.length = col.length)
    (hs : i ≤ col.length) (pad : Bool) : pyCall start batch mk fields (col :: cols) o pad = .ok .invalidOption := by
  unfold pyCall
  simp only [List.getD_cons_zero, hstart, bind_ok]
  rw [pyColumns_same _ _ (by intro c hc; rcases List.mem_cons.1 hc with rfl | hc; exacts [rfl, heq c hc])]
  simp only []
  rw [if_neg (by omega), h _, bind_ok]
  rfl

/-- A later column longer than the first raises `IndexError`. -/
theorem python_long_column (i : Int) (hstart : start o = .ok i) (mk : (Nat → R) → ρ) (fields : List (ω → R))
    (a b : List R) (hab : a.length < b.length) (pad : Bool) :
    pyCall start batch mk fields [a, b] o pad = .ok .indexError := by
  unfold pyCall
  simp only [List.getD_cons_zero, hstart, bind_ok, pyColumns, pyColumn]
  simp [hab, pure_eq]

/-- A later column shorter than the first is silently completed with zeros: no error is raised. -/
theorem python_short_column (mk : (Nat → R) → ρ) (fields : List (ω → R)) (a b : List R) (hab : b.length ≤ a.length)
    (pad : Bool) :
    pyCall start batch mk fields [a, b] o pad =
      pyCall start batch mk fields [a, b ++ List.replicate (a.length - b.length) 0] o pad := by
  unfold pyCall
  have h1 : ¬ a.length < b.length := by omega
  have h2 : ¬ a.length < (b ++ List.replicate (a.length - b.length) (0 : R)).length := by simp; omega
  have h3 : a.length - (b ++ List.replicate (a.length - b.length) (0 : R)).length = 0 := by simp; omega
  simp only [List.getD_cons_zero, pyColumns, pyColumn, h1, h2, h3, if_false, List.replicate_zero, List.append_nil]

/- Concrete calls. -/
example : pyCall (R := Rat) smaStart smaBatch (fun c => c 0) [id] [[1, 2, 3, 6]] (opts [2]) true =
    .ok (.ret [[none, some (3/2), some (5/2), some (9/2)]]) := by decide +kernel
example : pyCall (R := Rat) smaStart smaBatch (fun c => c 0) [id] [[1, 2]] (opts [5]) true = .ok .valueError := by
  decide +kernel
example : pyCall (R := Rat) smaStart smaBatch (fun c => c 0) [id] [[1, 2]] (opts [0]) true = .ok .invalidOption := by
  decide +kernel
example : Contract (R := Rat) erStart erBatch (opts [3]) 3 :=
  er_contract (opts [3]) 3 (by decide +kernel) (by decide)

end Verif
