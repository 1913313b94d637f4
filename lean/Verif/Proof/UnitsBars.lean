/- Bars under a change of units. -/
import Verif.Proof.Units

namespace Verif.Units
open Spec Finset
open Spec (ema wilder)
set_option linter.unusedSectionVars false

/-- The same for inputs all of whose rows have a property. -/
theorem turnsRows {R ρ ω : Type} {batch : (Nat → R) → List ρ → M (Ret × List ω)} {o : Nat → R} {s : Nat} (Q : ρ → Prop) (d : ρ) (hd : Q d) {f : ρ → ρ} {g : ω → ω}
    (h : ∀ x : Nat → ρ, (∀ n, Q (x n)) → ∀ N, ∃ y z : Nat → ω, batch o (pre x N) = .ok (.okay, pre y (N - s)) ∧
      batch o (pre (fun i => f (x i)) N) = .ok (.okay, pre z (N - s)) ∧ ∀ j, z j = g (y j)) : Turns batch o (fun xs => ∀ r ∈ xs, Q r) f g := fun xs hP => by
  have e : xs = pre (fun n => xs.getD n d) xs.length := by
    refine List.ext_getElem (by simp [pre]) fun i h1 h2 => ?_
    simp [pre, List.getElem?_eq_getElem h1]
  have hQ : ∀ n, Q (xs.getD n d) := fun n => by
    rw [List.getD_eq_getElem?_getD]
    cases hn : xs[n]? with
    | none => exact hd
    | some v => exact hP v (List.mem_of_getElem? hn)
  obtain ⟨y, z, h1, h2, h3⟩ := h _ hQ xs.length
  rw [← e] at h1
  refine ⟨_, h1, ?_⟩
  have e1 : xs.map f = pre (fun i => f (xs.getD i d)) xs.length := by
    conv_lhs => rw [e]
    simp [pre, Function.comp_def]
  have e2 : (pre y (xs.length - s)).map g = pre z (xs.length - s) := by simp [pre, Function.comp_def, h3]
  rw [e1, e2, h2]

theorem pre_eq_at {α : Type} {y z : Nat → α} {N j : Nat} (h : pre y N = pre z N) (hj : j < N) : y j = z j := by
  have := congrArg (·[j]?) h
  simpa [pre, hj] using this

variable {R : Type} [Field R] [LinearOrder R] [IsStrictOrderedRing R]
variable {c a v : R} {x x' y y' : Nat → R}

theorem winMax_congr {p j : Nat} (h : ∀ k, k < p - 1 + 1 → x' (j + k) = x (j + k)) : winMax p x' j = winMax p x j :=
  sup'_congr _ rfl fun k hk => h k (mem_range.1 hk)
theorem winMin_congr {p j : Nat} (h : ∀ k, k < p - 1 + 1 → x' (j + k) = x (j + k)) : winMin p x' j = winMin p x j :=
  inf'_congr _ rfl fun k hk => h k (mem_range.1 hk)

theorem midChannel_aff (hc : 0 < c) (z : Nat → HL R) (p i : Nat) :
    midChannel p (fun i => prices (fun v => c * v + a) (z i)) i = c * midChannel p z i + a := by
  unfold midChannel
  simp only [prices]
  rw [winMax_aff (x := fun k => (z k).high) (a := a) hc fun _ => rfl, winMin_aff (x := fun k => (z k).low) (a := a) hc fun _ => rfl]; ring
theorem midRange_aff (hc : 0 < c) (h : ∀ i, x' i = c * x i + a) {p : Nat} (n : Nat) : midRange p x' n = c * midRange p x n + a := by
  unfold midRange
  rw [winMax_aff hc h, winMin_aff hc h]; ring

def sarMap (c a : R) (s : Sar R) : Sar R := ⟨s.up, c * s.stop + a, c * s.ep + a, s.af⟩
theorem sarMoved_aff (hc : 0 < c) (z : Nat → HL R) (i : Nat) (s : Sar R) :
    sarMoved (fun i => prices (fun v => c * v + a) (z i)) i (sarMap c a s) = c * sarMoved z i s + a := by
  have e : c * s.stop + a + s.af * (c * s.ep + a - (c * s.stop + a)) = c * (s.stop + s.af * (s.ep - s.stop)) + a := by ring
  unfold sarMoved sarMap
  simp only [prices, e, min_aff hc, max_aff hc]
  split_ifs <;> rfl
theorem sarBar_aff (hc : 0 < c) (step top : R) (z : Nat → HL R) (i : Nat) (s : Sar R) :
    sarBar step top (fun i => prices (fun v => c * v + a) (z i)) i (sarMap c a s) = sarMap c a (sarBar step top z i s) := by
  unfold sarBar
  rw [sarMoved_aff hc]
  simp only [sarMap, prices, lt_aff hc, max_aff hc, min_aff hc]
  split_ifs <;> rfl
theorem sarAt_aff (hc : 0 < c) {step top : R} {z : Nat → HL R} (i : Nat) :
    sarAt step top (fun i => prices (fun v => c * v + a) (z i)) i = sarMap c a (sarAt step top z i) := by
  induction i with
  | zero =>
    unfold sarAt
    have : c * (z 0).high + a + (c * (z 0).low + a) ≤ c * (z 1).high + a + (c * (z 1).low + a) ↔ (z 0).high + (z 0).low ≤ (z 1).high + (z 1).low := by
      rw [show c * (z 0).high + a + (c * (z 0).low + a) = c * ((z 0).high + (z 0).low) + (a + a) by ring,
        show c * (z 1).high + a + (c * (z 1).low + a) = c * ((z 1).high + (z 1).low) + (a + a) by ring, le_aff hc]
    simp only [prices, this]
    split_ifs <;> rfl
  | succ i ih => rw [sarAt, sarAt, ih, sarBar_aff hc]

theorem upMove_aff (hc : 0 < c) (z : Nat → HL R) (k : Nat) : upMove (fun i => prices (fun v => c * v + a) (z i)) k = c * upMove z k := by
  simp only [upMove, prices, sub_aff, ← max_mul hc, mul_zero]
theorem downMove_aff (hc : 0 < c) (z : Nat → HL R) (k : Nat) : downMove (fun i => prices (fun v => c * v + a) (z i)) k = c * downMove z k := by
  simp only [downMove, prices, sub_aff, ← max_mul hc, mul_zero]
theorem plusDM_aff (hc : 0 < c) (z : Nat → HL R) (k : Nat) : plusDM (fun i => prices (fun v => c * v + a) (z i)) k = c * plusDM z k := by
  simp only [plusDM, upMove_aff hc, downMove_aff hc, mul_le_mul_iff_right₀ hc, mul_ite, mul_zero]
theorem minusDM_aff (hc : 0 < c) (z : Nat → HL R) (k : Nat) : minusDM (fun i => prices (fun v => c * v + a) (z i)) k = c * minusDM z k := by
  simp only [minusDM, upMove_aff hc, downMove_aff hc, mul_le_mul_iff_right₀ hc, mul_ite, mul_zero]
theorem dxOf_mul (hc : 0 < c) (u v : R) : dxOf (c * u) (c * v) = dxOf u v := by
  simp only [dxOf, ← mul_add, ← mul_sub, zero_mul_iff hc, abs_mulc hc, quot hc]
theorem wadMove_aff (hc : 0 < c) (z : Nat → HLC R) (k : Nat) : wadMove (fun i => prices (fun v => c * v + a) (z i)) k = c * wadMove z k := by
  simp only [wadMove, prices, lt_aff hc, min_aff hc, max_aff hc, sub_aff, mul_ite, mul_zero]
theorem fastK_aff (hc : 0 < c) (z : Nat → HLC R) (p j : Nat) : fastK p (fun i => prices (fun v => c * v + a) (z i)) j = fastK p z j := by
  unfold fastK
  simp only [prices]
  rw [winMax_aff (x := fun k => (z k).high) (c := c) (a := a) hc fun _ => rfl, winMin_aff (x := fun k => (z k).low) (c := c) (a := a) hc fun _ => rfl]
  simp only [inRange, sub_aff, zero_mul_iff hc, quot hc]

theorem lastMax_aff (hc : 0 < c) {f : Nat → R} {t i k : Nat} : LastMax (fun n => c * f n + a) t i k ↔ LastMax f t i k := by
  simp only [LastMax, le_aff hc, lt_aff hc]
theorem lastMin_aff (hc : 0 < c) {f : Nat → R} {t i k : Nat} : LastMin (fun n => c * f n + a) t i k ↔ LastMin f t i k := by
  simp only [LastMin, le_aff hc, lt_aff hc]
theorem lastMax_unique {f : Nat → R} {t i k k' : Nat} (h : LastMax f t i k) (h' : LastMax f t i k') : k = k' := by
  obtain ⟨h1, h2, h3, h4⟩ := h
  obtain ⟨h1', h2', h3', h4'⟩ := h'
  rcases Nat.lt_trichotomy k k' with e | e | e
  · exact absurd (h4 k' e h2') (not_lt.2 (h3' k h1 h2))
  · exact e
  · exact absurd (h4' k e h2) (not_lt.2 (h3 k' h1' h2'))
theorem lastMin_unique {f : Nat → R} {t i k k' : Nat} (h : LastMin f t i k) (h' : LastMin f t i k') : k = k' := by
  obtain ⟨h1, h2, h3, h4⟩ := h
  obtain ⟨h1', h2', h3', h4'⟩ := h'
  rcases Nat.lt_trichotomy k k' with e | e | e
  · exact absurd (h4 k' e h2') (not_lt.2 (h3' k h1 h2))
  · exact e
  · exact absurd (h4' k e h2) (not_lt.2 (h3 k' h1' h2'))

theorem winMin_le_last {p : Nat} (hp : 1 ≤ p) (x : Nat → R) (j : Nat) : winMin p x j ≤ x (j + (p - 1)) :=
  inf'_le (fun k => x (j + k)) (mem_range.2 (by omega))
theorem last_le_winMax {p : Nat} (hp : 1 ≤ p) (x : Nat → R) (j : Nat) : x (j + (p - 1)) ≤ winMax p x j :=
  le_sup' (fun k => x (j + k)) (mem_range.2 (by omega))
theorem fisherPart_aff {p : Nat} (hp : 1 ≤ p) (hc : 0 < c) (h : ∀ i, x' i = c * x i + a) (j : Nat) :
    (x' (j + (p - 1)) - winMin p x' j) / fisherOsc.range p x' j = (x (j + (p - 1)) - winMin p x j) / fisherOsc.range p x j := by
  unfold fisherOsc.range
  rw [winMax_aff hc h, winMin_aff hc h, h, sub_aff]
  simp only [eq_aff hc]
  split
  · rename_i e
    have h1 := winMin_le_last hp x j
    have h2 := last_le_winMax hp x j
    rw [show x (j + (p - 1)) - winMin p x j = 0 by linarith, mul_zero]
  · rw [sub_aff, quot hc]
theorem fisherOsc_aff {p : Nat} (hp : 1 ≤ p) (hc : 0 < c) (h : ∀ i, x' i = c * x i + a) (j : Nat) : fisherOsc p x' j = fisherOsc p x j := by
  induction j with
  | zero =>
    have := fisherPart_aff hp hc h 0
    rw [Nat.zero_add] at this
    rw [fisherOsc, fisherOsc, this]
  | succ j ih => rw [fisherOsc, fisherOsc, fisherPart_aff hp hc h, ih]

theorem pressureRatio_aff (hc : 0 < c) (z : Nat → HLC R) (p i : Nat) :
    pressureRatio p (fun i => prices (fun v => c * v + a) (z i)) i = pressureRatio p z i := by
  have e1 : ∀ k, buyingPressure (fun i => prices (fun v => c * v + a) (z i)) k = c * buyingPressure z k := fun k => by
    simp only [buyingPressure, prices, min_aff hc, sub_aff]
  have e2 : ∀ k, trueSpan (fun i => prices (fun v => c * v + a) (z i)) k = c * trueSpan z k := fun k => by
    simp only [trueSpan, prices, min_aff hc, max_aff hc, sub_aff]
  rw [pressureRatio, pressureRatio, winSum_mul e1, winSum_mul e2, quot hc]

theorem offMiddle_aff (hc : 0 < c) (z : Nat → HLC R) (q k : Nat) : offMiddle q (fun i => prices (fun v => c * v + a) (z i)) k = c * offMiddle q z k := by
  unfold offMiddle
  simp only [prices]
  rw [winMax_aff (x := fun k => (z k).high) (c := c) (a := a) hc fun _ => rfl, winMin_aff (x := fun k => (z k).low) (c := c) (a := a) hc fun _ => rfl]
  ring
theorem fullRange_aff (hc : 0 < c) (z : Nat → HLC R) (q k : Nat) : fullRange q (fun i => prices (fun v => c * v + a) (z i)) k = c * fullRange q z k := by
  unfold fullRange
  simp only [prices]
  rw [winMax_aff (x := fun k => (z k).high) (c := c) (a := a) hc fun _ => rfl, winMin_aff (x := fun k => (z k).low) (c := c) (a := a) hc fun _ => rfl]
  ring

theorem klingerTrend_aff (hc : 0 < c) (z : Nat → HLCV R) (n : Nat) : klingerTrend (fun i => prices (fun v => c * v + a) (z i)) n = klingerTrend z n := by
  have e : ∀ n, hlc (fun i => prices (fun v => c * v + a) (z i)) n = c * hlc z n + (a + a + a) := fun n => by simp only [hlc, prices]; ring
  induction n with
  | zero => rfl
  | succ n ih => simp only [klingerTrend, e, lt_aff hc, ih]
theorem dailyRange_aff (z : Nat → HLCV R) (n : Nat) : dailyRange (fun i => prices (fun v => c * v + a) (z i)) n = c * dailyRange z n := sub_aff _ _
theorem klingerCm_aff (hc : 0 < c) (z : Nat → HLCV R) (n : Nat) : klingerCm (fun i => prices (fun v => c * v + a) (z i)) n = c * klingerCm z n := by
  induction n with
  | zero => simp [klingerCm]
  | succ n ih => simp only [klingerCm, klingerTrend_aff hc, dailyRange_aff, ih, mul_add, mul_ite]
theorem klingerForce_aff (hc : 0 < c) (z : Nat → HLCV R) (n : Nat) : klingerForce (fun i => prices (fun v => c * v + a) (z i)) n = klingerForce z n := by
  simp only [klingerForce, klingerTrend_aff hc, dailyRange_aff, klingerCm_aff hc, zero_mul_iff hc, quot hc]
  rfl
theorem klingerForce_vol (z : Nat → HLCV R) (n : Nat) : klingerForce (fun i => volumes (fun u => v * u) (z i)) n = v * klingerForce z n := by
  have t : ∀ n, klingerTrend (fun i => volumes (fun u => v * u) (z i)) n = klingerTrend z n := fun n => by
    induction n with
    | zero => rfl
    | succ n ih => simp only [klingerTrend, ih]; rfl
  have m : ∀ n, klingerCm (fun i => volumes (fun u => v * u) (z i)) n = klingerCm z n := fun n => by
    induction n with
    | zero => rfl
    | succ n ih => simp only [klingerCm, ih, t]; rfl
  have r : ∀ n, dailyRange (fun i => volumes (fun u => v * u) (z i)) n = dailyRange z n := fun _ => rfl
  simp only [klingerForce, t, m, r, mul_ite, mul_zero]
  simp only [volumes]
  split_ifs <;> ring

theorem closeLocation_aff (hc : 0 < c) (r : HLCV R) : closeLocation (prices (fun v => c * v + a) r) = closeLocation r := by
  simp only [closeLocation, prices, eq_aff hc, sub_aff, ← mul_sub, quot hc]
theorem adLine_aff (hc : 0 < c) (z : Nat → HLCV R) (n : Nat) : adLine (fun i => prices (fun v => c * v + a) (z i)) n = adLine z n := by
  simp only [adLine, closeLocation_aff hc]; rfl
theorem adLine_vol (z : Nat → HLCV R) (n : Nat) : adLine (fun i => volumes (fun u => v * u) (z i)) n = v * adLine z n := by
  simp only [adLine, mul_sum, volumes, closeLocation]
  exact sum_congr rfl fun k _ => mul_left_comm _ _ _

theorem trueRange_mul (hc : 0 < c) (z : Nat → HLC R) (i : Nat) : Spec.trueRange (fun i => prices (fun v => c * v) (z i)) i = c * Spec.trueRange z i := by
  simpa only [add_zero] using trueRange_aff (a := 0) hc z i
theorem typical_mul (z : Nat → HLCV R) (k : Nat) : typical (fun i => prices (fun v => c * v) (z i)) k = c * typical z k := by
  simp only [typical, prices]; ring
theorem flowUp_mul (hc : 0 < c) (z : Nat → HLCV R) (k : Nat) : flowUp (fun i => prices (fun v => c * v) (z i)) k = c * flowUp z k := by
  simp only [flowUp, typical_mul, mul_lt_mul_iff_right₀ hc, mul_ite, mul_zero, mul_assoc]; rfl
theorem flowDown_mul (hc : 0 < c) (z : Nat → HLCV R) (k : Nat) : flowDown (fun i => prices (fun v => c * v) (z i)) k = c * flowDown z k := by
  simp only [flowDown, typical_mul, mul_lt_mul_iff_right₀ hc, mul_ite, mul_zero, mul_assoc]; rfl
theorem flowUp_vol (z : Nat → HLCV R) (k : Nat) : flowUp (fun i => volumes (fun u => v * u) (z i)) k = v * flowUp z k := by
  have e : ∀ i, typical (fun i => volumes (fun u => v * u) (z i)) i = typical z i := fun _ => rfl
  simp only [flowUp, e, mul_ite, mul_zero]
  split
  · exact mul_left_comm _ _ _
  · rfl
theorem flowDown_vol (z : Nat → HLCV R) (k : Nat) : flowDown (fun i => volumes (fun u => v * u) (z i)) k = v * flowDown z k := by
  have e : ∀ i, typical (fun i => volumes (fun u => v * u) (z i)) i = typical z i := fun _ => rfl
  simp only [flowDown, e, mul_ite, mul_zero]
  split
  · exact mul_left_comm _ _ _
  · rfl
theorem relChange_mul (hc : 0 < c) (z : Nat → CV R) (k : Nat) : relChange (fun i => prices (fun v => c * v) (z i)) k = relChange z k := by
  simp only [relChange, prices, ← mul_sub, quot hc]

theorem elasticMean_mul {p : Nat} {g : R} (z : Nat → CV R) (j : Nat) : elasticMean p g (fun i => prices (fun v => c * v) (z i)) j = c * elasticMean p g z j := by
  induction j with
  | zero => rfl
  | succ j ih =>
    simp only [elasticMean, ih]
    simp only [prices, mul_ite, mul_zero]
    split <;> ring
theorem elasticMean_vol {p : Nat} {g : R} (hv : 0 < v) (z : Nat → CV R) (j : Nat) :
    elasticMean p g (fun i => volumes (fun u => v * u) (z i)) j = elasticMean p g z j := by
  have e := winSum_mul (p := p) (x := fun k => (z k).volume) (x' := fun k => v * (z k).volume) fun _ => rfl
  induction j with
  | zero => rfl
  | succ j ih =>
    simp only [elasticMean, ih]
    simp only [volumes, e, zero_mul_iff hv, mul_left_comm _ v, quot hv]

end Verif.Units
