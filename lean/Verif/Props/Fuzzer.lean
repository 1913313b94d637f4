/- C85: what a clean run of the fuzzer covers. -/
import Verif.Model.Fuzzer
import Verif.Props.Volume
import Verif.Core.RatInst
import Verif.Model.Flow
import Verif.Proof.Doubles
import Verif.Core.Eval

namespace Verif
section
variable {R : Type} [Num R]

theorem forM_ok {α : Type} (f : α → M Unit) (l : List α) : l.forM f = .ok () ↔ ∀ a ∈ l, f a = .ok () := by
  induction l with
  | nil => simp [List.forM, pure, Except.pure]
  | cons a l ih =>
    show (f a >>= fun _ => l.forM f) = _ ↔ _
    simp only [List.mem_cons, forall_eq_or_imp, ← ih]
    cases f a with
    | error e => simp [bind, Except.bind]
    | ok u => simp [bind, Except.bind]

theorem digits (k : Nat) (c : Nat → Nat) (hc : ∀ i, c i < 4) : ∃ b, b < 4 ^ k ∧ ∀ i < k, b / 4 ^ i % 4 = c i := by
  induction k with
  | zero => exact ⟨0, by simp, by simp⟩
  | succ k ih =>
    obtain ⟨b, hb, h⟩ := ih
    refine ⟨b + 4 ^ k * c k, ?_, fun i hi => ?_⟩
    · have := hc k
      rw [pow_succ]; nlinarith [Nat.pow_pos (n := k) (show 0 < 4 by decide)]
    · rcases Nat.lt_succ_iff_lt_or_eq.1 hi with hi | rfl
      · have e : 4 ^ k * c k = 4 ^ i * (4 * (4 ^ (k - i - 1) * c k)) := by
          rw [← mul_assoc, ← mul_assoc, ← pow_succ, ← pow_add]; congr 2; omega
        rw [e, Nat.add_mul_div_left _ _ (by positivity), Nat.add_mul_mod_self_left, h i hi]
      · rw [Nat.add_mul_div_left _ _ (by positivity), Nat.div_eq_of_lt hb, zero_add, Nat.mod_eq_of_lt (hc i)]

/-- Every vector made of the four option values is tried. -/
theorem fuzz_covers (v : List R) (h : ∀ a ∈ v, a ∈ ([((-20 : Int) : R), c! 0, c! 7 / c! 10, c! 5] : List R)) : ∃ b < 4 ^ v.length + 1, fuzzOptions v.length b = v := by
  have : ∀ i : Nat, ∃ c < 4, ∀ hi : i < v.length, (gOptions (R := R)).getD c (c! 0) = v[i] := fun i => by
    by_cases hi : i < v.length
    · obtain ⟨c, hc, e⟩ := List.getElem_of_mem (h v[i] (List.getElem_mem hi))
      exact ⟨c, hc, fun _ => by rw [← e, gOptions, List.getD_eq_getElem?_getD, List.getElem?_eq_getElem hc]; rfl⟩
    · exact ⟨0, by decide, fun h => absurd h hi⟩
  choose c hc e using this
  obtain ⟨b, hb, hd⟩ := digits v.length c hc
  refine ⟨b, by omega, List.ext_getElem (by simp [fuzzOptions]) fun i h1 h2 => ?_⟩
  simp only [fuzzOptions, List.getElem_map, List.getElem_range]
  rw [hd i h2, e i h2]

theorem fuzz_only (k b : Nat) : (fuzzOptions (R := R) k b).length = k ∧ ∀ a ∈ fuzzOptions (R := R) k b, a ∈ ([((-20 : Int) : R), c! 0, c! 7 / c! 10, c! 5] : List R) := by
  refine ⟨by simp [fuzzOptions], fun a ha => ?_⟩
  simp only [fuzzOptions, List.mem_map, List.mem_range] at ha
  obtain ⟨i, _, rfl⟩ := ha
  have h : b / 4 ^ i % 4 < 4 := Nat.mod_lt _ (by decide)
  generalize b / 4 ^ i % 4 = m at h
  match m, h with
  | 0, _ | 1, _ | 2, _ | 3, _ => simp [gOptions]

omit [Num R] in
theorem vector_ok {ρ ω : Type} {start : (Nat → R) → M Int} {batch : (Nat → R) → List ρ → M (Ret × List ω)} {o : Nat → R} {xs : List ρ} :
    testVector start batch o xs = .ok () ↔ (∃ s, start o = .ok s ∧ (i32 ((xs.length : Int) - s)).isOk) ∧ (batch o xs).isOk := by
  unfold testVector
  cases start o with
  | error e => simp [bind, Except.bind]
  | ok s =>
    cases h1 : i32 ((xs.length : Int) - s) with
    | error e => simp [bind, Except.bind, h1, Except.isOk, Except.toBool]
    | ok s' =>
      cases h2 : batch o xs with
      | error e => simp [bind, Except.bind, h1, Except.isOk, Except.toBool]
      | ok r => simp [bind, Except.bind, h1, Except.isOk, Except.toBool, pure, Except.pure]

/-- A clean run of the fuzzer means: for every vector of the four option values and each of its seven series, the output size fits an int and the
call has no undefined behaviour; and nothing more. -/
theorem fuzz_clean {ρ ω : Type} (row : R → ρ) (start : (Nat → R) → M Int) (batch : (Nat → R) → List ρ → M (Ret × List ω)) (k : Nat) :
    stressBatch row start batch k = .ok () ↔ ∀ v : List R, v.length = k → (∀ a ∈ v, a ∈ ([((-20 : Int) : R), c! 0, c! 7 / c! 10, c! 5] : List R)) → ∀ xs ∈ fuzzSeries row,
      (∃ s, start (optArray v) = .ok s ∧ (i32 ((xs.length : Int) - s)).isOk) ∧ (batch (optArray v) xs).isOk := by
  simp only [stressBatch, forM_ok, vector_ok, List.mem_range]
  constructor
  · intro h v hv ha
    obtain ⟨b, hb, e⟩ := fuzz_covers v ha
    rw [hv] at hb e
    rw [← e]
    exact h b hb
  · intro h b _
    exact h _ (fuzz_only k b).1 (fuzz_only k b).2

omit [Num R] in
theorem stream_ok {ρ ω : Type} {I : Indicator R ρ ω} {o : Nat → R} {xs : List ρ} :
    testStream I o xs = .ok () ↔ (∃ s, I.start o = .ok s ∧ (i32 ((xs.length : Int) - s)).isOk) ∧ (I.session o [xs]).isOk := by
  unfold testStream
  cases I.start o with
  | error e => simp [bind, Except.bind]
  | ok s =>
    cases h1 : i32 ((xs.length : Int) - s) with
    | error e => simp [bind, Except.bind, h1, Except.isOk, Except.toBool]
    | ok s' =>
      cases h2 : I.session o [xs] with
      | error e => simp [bind, Except.bind, h1, Except.isOk, Except.toBool]
      | ok r => simp [bind, Except.bind, h1, Except.isOk, Except.toBool, pure, Except.pure]

/-- The same for an indicator with a stream: also the session that feeds the whole series at once has no undefined behaviour. -/
theorem fuzz_stream_clean {ρ ω : Type} (row : R → ρ) (I : Indicator R ρ ω) (k : Nat) :
    stress row I k = .ok () ↔ ∀ v : List R, v.length = k → (∀ a ∈ v, a ∈ ([((-20 : Int) : R), c! 0, c! 7 / c! 10, c! 5] : List R)) → ∀ xs ∈ fuzzSeries row,
      (∃ s, I.start (optArray v) = .ok s ∧ (i32 ((xs.length : Int) - s)).isOk) ∧ (I.batch (optArray v) xs).isOk ∧ (I.session (optArray v) [xs]).isOk := by
  have key : ∀ b : Nat, (do
      (fuzzSeries row).forM fun xs => testVector I.start I.batch (optArray (fuzzOptions k b)) xs
      (fuzzSeries row).forM fun xs => testStream I (optArray (fuzzOptions k b)) xs : M Unit) = .ok () ↔ ∀ xs ∈ fuzzSeries row,
      (∃ s, I.start (optArray (fuzzOptions k b)) = .ok s ∧ (i32 ((xs.length : Int) - s)).isOk) ∧ (I.batch (optArray (fuzzOptions k b)) xs).isOk ∧ (I.session (optArray (fuzzOptions k b)) [xs]).isOk := by
    intro b
    have h1 := forM_ok (fun xs => testVector I.start I.batch (optArray (fuzzOptions k b)) xs) (fuzzSeries row)
    have h2 := forM_ok (fun xs => testStream I (optArray (fuzzOptions k b)) xs) (fuzzSeries row)
    simp only [vector_ok] at h1
    simp only [stream_ok] at h2
    have e : ∀ a c : M Unit, (a >>= fun _ => c) = .ok () ↔ a = .ok () ∧ c = .ok () := by
      intro a c; cases a <;> simp [bind, Except.bind]
    rw [e, h1, h2]
    exact ⟨fun h xs hx => ⟨(h.1 xs hx).1, (h.1 xs hx).2, (h.2 xs hx).2⟩, fun h => ⟨fun xs hx => ⟨(h xs hx).1, (h xs hx).2.1⟩, fun xs hx => ⟨(h xs hx).1, (h xs hx).2.2⟩⟩⟩
  simp only [stress, forM_ok, key, List.mem_range]
  constructor
  · intro h v hv ha
    obtain ⟨b, hb, e⟩ := fuzz_covers v ha
    rw [hv] at hb e
    rw [← e]
    exact h b hb
  · intro h b _
    exact h _ (fuzz_only k b).1 (fuzz_only k b).2
end

/-- The seven series: the first 0, 1, 2, 5 and 210 bars of 0, 1, 2, …; 210 zeros; 210 bars that rise by one every ten bars. -/
theorem fuzz_series {ρ : Type} {R : Type} [Num R] (row : R → ρ) (xs : List ρ) : xs ∈ fuzzSeries row ↔
    ((xs.length = 0 ∨ xs.length = 1 ∨ xs.length = 2 ∨ xs.length = 5 ∨ xs.length = 210) ∧ ∀ j (h : j < xs.length), xs[j] = row (Int.cast (Int.ofNat j))) ∨
    (xs.length = 210 ∧ ((∀ j (h : j < xs.length), xs[j] = row (c! 0)) ∨ ∀ j (h : j < xs.length), xs[j] = row (Int.cast (Int.ofNat (j / 10))))) := by
  have key : ∀ (n : Nat) (f : Nat → ρ), xs = (List.range n).map f ↔ xs.length = n ∧ ∀ j (h : j < xs.length), xs[j] = f j := by
    intro n f
    constructor
    · rintro rfl; simp
    · rintro ⟨h1, h2⟩
      exact List.ext_getElem (by simp [h1]) fun j g1 g2 => by simp [h2 j g1]
  simp only [fuzzSeries, List.mem_cons, List.not_mem_nil, or_false, key]
  tauto

/- The hypotheses of `fuzz_covers` for a vector of three values; a clean run of an indicator with a stream (fi, one option). -/
example : ∃ b < 4 ^ 3 + 1, fuzzOptions 3 b = [(5 : ℚ), 7 / 10, -20] :=
  fuzz_covers [(5 : ℚ), 7 / 10, -20] (by decide +kernel)
example : fuzzOptions (R := ℚ) 3 (3 + 4 * 2 + 16 * 0) = [5, 7 / 10, -20] := by decide +kernel
example : stress (R := ℚ) (fun a => (⟨a, a⟩ : CV ℚ)) fi 1 = .ok () := by decide +kernel

/-- The fuzzer passes dpo, computed with doubles, although dpo reads out of bounds for the periods 1 and 2 on every series that is long enough:
none of the four option values is 1 or 2. -/
theorem fuzz_violates [Libm] : stressBatch (R := F64) (fun a => a) qstickStart dpoBatch 1 = .ok () ∧
    ∀ p : Nat, p = 1 ∨ p = 2 → ∀ xs : List F64, p ≤ xs.length → dpoBatch (optArray [Int.cast (p : Int)]) xs = .error .oobRead := by
  constructor
  · rw [fuzz_clean]
    intro v hv ha xs hx
    have hlen : xs.length ≤ 210 := by
      simp only [fuzzSeries, List.mem_cons, List.not_mem_nil, or_false] at hx
      rcases hx with h | h | h | h | h | h | h <;> rw [h, List.length_map, List.length_range] <;> decide
    obtain ⟨a, rfl⟩ := List.length_eq_one_iff.1 hv
    have h : toInt a = .ok (-20) ∨ toInt a = .ok 0 ∨ toInt a = .ok ((5 : Nat) : Int) := by
      have := ha a (by simp)
      simp only [List.mem_cons, List.not_mem_nil, or_false] at this
      rcases this with h | h | h | h <;> rw [h]
      · exact Or.inl (by kernel_decide)
      · exact Or.inr (Or.inl (by kernel_decide))
      · exact Or.inr (Or.inl (by kernel_decide))
      · exact Or.inr (Or.inr (by kernel_decide))
    have refused : ∀ p : Int, p < 1 → -20 ≤ p → toInt a = .ok p →
        (∃ s, qstickStart (optArray [a]) = .ok s ∧ (i32 ((xs.length : Int) - s)).isOk) ∧ (dpoBatch (optArray [a]) xs).isOk := by
      intro p hp hq hc
      have hc' : toInt (optArray [a] 0) = .ok p := hc
      refine ⟨⟨p - 1, ?_, ?_⟩, ?_⟩
      · simp only [qstickStart, hc', bind_ok]; rw [i32_ok] <;> omega
      · rw [i32_ok] <;> first | omega | rfl
      · rw [dpo_refuses _ p hc' hp xs]; rfl
    rcases h with h | h | h
    · exact refused _ (by omega) (by omega) h
    · exact refused _ (by omega) (by omega) h
    · have c := dpo_contract_partial (optArray [a]) 5 h (by omega)
      obtain ⟨w, hw, _⟩ := c.safe xs
      refine ⟨⟨_, c.start_eq, ?_⟩, by rw [hw]; rfl⟩
      rw [i32_ok] <;> first | omega | rfl
  · intro p hp xs hN
    refine dpo_violates _ p ?_ hp xs hN
    rcases hp with rfl | rfl <;> kernel_decide
end Verif
