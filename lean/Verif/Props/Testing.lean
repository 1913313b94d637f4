/- C71: what a passing smoke test says. -/
import Verif.Model.Testing
import Verif.Core.RatInst
import Mathlib.Tactic.Linarith
import Mathlib.Tactic.NormNum
import Mathlib.Algebra.Order.Field.Basic

namespace Verif
set_option linter.unusedSectionVars false

section
variable {R : Type} [Num R]

/-- `compare_answers` returns 0 exactly if all outputs have the length of the answers and every pair of values passes `equal_reals`. -/
theorem compare_zero (answers outputs : List (List R)) (hl : answers.length = outputs.length) :
    compareAnswers answers outputs = 0 ↔ ∀ i (h1 : i < answers.length) (h2 : i < outputs.length),
      answers[i].length = outputs[i].length ∧
        ∀ j (g1 : j < answers[i].length) (g2 : j < outputs[i].length), equalReals answers[i][j] outputs[i][j] = true := by
  have one : ∀ a b : List R, anyBad a b = 0 ↔ a.length = b.length ∧
      ∀ j (g1 : j < a.length) (g2 : j < b.length), equalReals a[j] b[j] = true := by
    intro a b
    unfold anyBad
    rw [List.countP_eq_zero]
    constructor
    · intro h
      have hlen : a.length = b.length := by
        by_contra hne
        rcases Nat.lt_or_gt_of_ne hne with hlt | hgt
        · have := h a.length (List.mem_range.2 (by omega))
          simp at this
        · have := h b.length (List.mem_range.2 (by omega))
          simp only [List.getElem?_eq_getElem (show b.length < a.length from hgt), List.getElem?_eq_none (le_refl b.length)] at this
          simp at this
      refine ⟨hlen, fun j g1 g2 => ?_⟩
      have := h j (List.mem_range.2 (by omega))
      simpa [List.getElem?_eq_getElem g1, List.getElem?_eq_getElem g2] using this
    · rintro ⟨hlen, h⟩ j hj
      have hj := List.mem_range.1 hj
      have g1 : j < a.length := by omega
      have g2 : j < b.length := by omega
      simp [List.getElem?_eq_getElem g1, List.getElem?_eq_getElem g2, h j g1 g2]
  unfold compareAnswers
  rw [List.countP_eq_zero]
  constructor
  · intro h i h1 h2
    have hm : (answers[i], outputs[i]) ∈ answers.zip outputs := by
      rw [List.mem_iff_getElem]
      exact ⟨i, by simp; omega, by simp⟩
    have := h _ hm
    exact (one _ _).1 (by simpa using this)
  · intro h p hp
    obtain ⟨i, hi, rfl⟩ := List.mem_iff_getElem.1 hp
    simp only [List.length_zip] at hi
    have := (one _ _).2 (h i (by omega) (by omega))
    simpa using this

/-- `equal_arrays` is true exactly if the arrays have the same length and all pairs of values pass `equal_reals`. -/
theorem equal_arrays_iff (a b : List R) : equalArrays a b = true ↔ a.length = b.length ∧
    ∀ j (g1 : j < a.length) (g2 : j < b.length), equalReals a[j] b[j] = true := by
  unfold equalArrays
  by_cases h : a.length = b.length
  · rw [if_neg (by simpa using h), List.all_eq_true]
    refine ⟨fun H => ⟨h, fun j g1 g2 => H (a[j], b[j]) ?_⟩, fun H p hp => ?_⟩
    · rw [List.mem_iff_getElem]
      exact ⟨j, by simp; omega, by simp⟩
    · obtain ⟨i, hi, rfl⟩ := List.mem_iff_getElem.1 hp
      simp only [List.length_zip] at hi
      simpa using H.2 i (by omega) (by omega)
  · rw [if_pos h]
    simp [h]

/-- A test case passes exactly if the batch function returned `TI_OKAY` and its outputs match, and the reference, if any, returned
`TI_OKAY`, and the streams, if any, could be made. Partial: nothing follows for the outputs of the reference and of the streams. -/
theorem smoke_passes_partial (answers : List (List R)) (r : Ran R) :
    runOne answers r = 0 ↔ r.batch.1 = .okay ∧ compareAnswers answers r.batch.2 = 0 ∧ (∀ x ∈ r.ref, x.1 = .okay) ∧ r.stream ≠ some none := by
  obtain ⟨⟨br, bo⟩, ref, st⟩ := r
  unfold runOne
  simp only
  by_cases h1 : compareAnswers answers bo = 0
  · simp only [h1, ne_eq, not_true_eq_false, if_false, true_and]
    rcases ref with _ | ⟨rr, ro⟩
    · rcases st with _ | _ | _ <;> cases br <;> simp
    · rcases st with _ | _ | _ <;> cases br <;> cases rr <;> simp
  · simp only [h1, ne_eq, not_false_eq_true, if_true, false_and, and_false, iff_false]
    cases br <;> simp

/-- A stream that cannot be made counts as two failures (one for each way of feeding it), and the outputs of the batch function are judged once more. -/
theorem smoke_stream_new (answers : List (List R)) (b : Ret × List (List R)) (ref : Option (Ret × List (List R))) :
    runOne answers ⟨b, ref, some none⟩ = runOne answers ⟨b, ref, none⟩ + 2 + if compareAnswers answers b.2 = 0 then 0 else 1 := by
  unfold runOne
  by_cases h : compareAnswers answers b.2 = 0 <;> simp [h]

/-- Whatever the reference and the streams wrote, the verdict is the same. -/
theorem smoke_violates (answers : List (List R)) (batch : Ret × List (List R)) (ro ro' : List (List R)) (st st' : List (List R) × List (List R))
    (rr : Ret) : runOne answers ⟨batch, some (rr, ro), some (some st)⟩ = runOne answers ⟨batch, some (rr, ro'), some (some st')⟩ := rfl

end

section Field
variable {R : Type} [Field R] [LinearOrder R] [IsStrictOrderedRing R] [CMath R] [LawfulAbs R]

/-- What `equal_reals` accepts, in exact arithmetic: values less than 0.001 apart, or whose absolute values differ by less than 0.1%. -/
theorem equal_reals_iff (a b : R) (hb : b ≠ 0) : equalReals a b = true ↔ |a - b| < 1 / 1000 ∨ |(|a| - |b|)| < |b| / 1000 := by
  have hb' : 0 < |b| := abs_pos.2 hb
  unfold equalReals
  simp only [Bool.or_eq_true, decide_eq_true_eq, LawfulAbs.fabs_eq, Int.cast_one, Int.cast_ofNat]
  have e : abs (1 - abs (a / b)) = abs (|a| - |b|) / |b| := by
    rw [abs_div, ← abs_neg (1 - _), show -(1 - |a| / |b|) = (|a| - |b|) / |b| by field_simp; ring, abs_div, abs_abs]
  rw [e, div_lt_iff₀ hb']
  constructor <;> rintro (h | h)
  · exact Or.inl h
  · exact Or.inr (by linarith)
  · exact Or.inl h
  · exact Or.inr (by linarith)

/-- Values of the same sign that pass are close. -/
theorem equal_reals_partial (a b : R) (ha : 0 ≤ a) (hb : 0 < b) (h : equalReals a b = true) : |a - b| < max (1 / 1000) (b / 1000) := by
  rcases (equal_reals_iff a b hb.ne').1 h with h | h
  · exact lt_max_of_lt_left h
  · rw [abs_of_nonneg ha, abs_of_pos hb] at h
    exact lt_max_of_lt_right h

/-- A value of the wrong sign passes. -/
theorem equal_reals_violates (a : R) (ha : a ≠ 0) : equalReals a (-a) = true := by
  rw [equal_reals_iff a (-a) (neg_ne_zero.2 ha)]
  right
  rw [abs_neg, sub_self, abs_zero]
  have := abs_pos.2 ha
  positivity

end Field

example : equalReals (R := Rat) 2 (2001 / 1000 - 1 / 10000) = true ∧ equalReals (R := Rat) 2 3 = false ∧ equalReals (R := Rat) 2 (-2) = true := by
  decide +kernel
example : compareAnswers (R := Rat) [[1, 2], [3]] [[1, 2], [3, 4]] = 1 := by decide +kernel
/-- A stream that writes nonsense passes. -/
example : runOne (R := Rat) [[1, 2]] ⟨(.okay, [[1, 2]]), some (.okay, [[7, 7]]), some (some ([[8, 8]], [[9, 9]]))⟩ = 0 := by decide +kernel
example : runOne (R := Rat) [[1, 2]] ⟨(.okay, [[1, 3]]), none, none⟩ = 1 := by decide +kernel

end Verif
