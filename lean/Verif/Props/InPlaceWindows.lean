/- C72: batch calls over moving windows whose output array is one of the input arrays. -/
import Verif.Model.InPlaceWindows
import Verif.Props.InPlaceBars

namespace Verif
set_option linter.unusedSectionVars false

section
variable {R : Type} [Num R]

theorem willr_apart (o : Nat → R) (xs : List (HLC R)) : willrVia (fun xs _ => xs) o xs = willrBatch o xs := rfl
theorem aroon_apart (o : Nat → R) (xs : List (HL R)) : aroonVia (fun xs _ => xs) o xs = aroonBatch o xs := rfl
theorem aroonosc_apart (o : Nat → R) (xs : List (HL R)) : aroonoscVia (fun xs _ => xs) o xs = aroonoscBatch o xs := rfl
theorem fisher_apart (o : Nat → R) (xs : List (HL R)) : fisherVia (fun xs _ => xs) o xs = fisherBatch o xs := rfl
theorem mfi_apart (o : Nat → R) (xs : List (HLCV R)) : mfiVia (fun xs _ => xs) o xs = mfiBatch o xs := rfl
theorem cci_apart (o : Nat → R) (xs : List (HLC R)) : cciVia (fun xs _ => xs) o xs = cciBatch o xs := rfl
theorem ultosc_apart (o : Nat → R) (xs : List (HLC R)) : ultoscVia (fun xs _ => xs) o xs = ultoscBatch o xs := rfl
theorem dm_apart (o : Nat → R) (xs : List (HL R)) : dmVia (fun xs _ => xs) o xs = dmBatch o xs := rfl
theorem vwma_apart (o : Nat → R) (xs : List (CV R)) : vwmaVia (fun xs _ => xs) o xs = vwmaBatch o xs := rfl
theorem qstick_apart (o : Nat → R) (xs : List (OC R)) : qstickVia (fun xs _ => xs) o xs = qstickBatch o xs := rfl
theorem vosc_apart (o : Nat → R) (xs : List R) : voscVia (fun xs _ => xs) o xs = voscBatch o xs := rfl
theorem linreg_apart (o : Nat → R) (xs : List R) : linregVia (fun xs _ => xs) o xs = linregBatch o xs := rfl
theorem linregintercept_apart (o : Nat → R) (xs : List R) : linreginterceptVia (fun xs _ => xs) o xs = linreginterceptBatch o xs := rfl
theorem tsf_apart (o : Nat → R) (xs : List R) : tsfVia (fun xs _ => xs) o xs = tsfBatch o xs := rfl
theorem linregslope_apart (o : Nat → R) (xs : List R) : linregslopeVia (fun xs _ => xs) o xs = linregslopeBatch o xs := rfl
theorem fosc_apart (o : Nat → R) (xs : List R) : foscVia (fun xs _ => xs) o xs = foscBatch o xs := rfl

/-- willr may overwrite any of its inputs. -/
theorem willr_in_place (put : HLC R → R → HLC R) (o : Nat → R) (xs : List (HLC R)) : willrVia (overWith put) o xs = willrBatch o xs := by
  unfold willrVia willrBatch
  refine bind_congr fun period => ?_
  split
  · rfl
  refine bind_congr fun start => ?_
  split
  · rfl
  refine bind_congr fun m0 => ?_
  refine bind_congr fun n0 => ?_
  dsimp only
  congr 1
  refine forUp_congr (fun i (s : Int × (Int × R) × (Int × R) × List R) => s.1 = i - (period - 1) ∧ (s.2.2.2.length : Int) = s.1) (by simp)
    (fun i s s' _ _ hi hs => ?_) fun i s _ _ hi => ?_
  · obtain ⟨tr, mx, mn, out⟩ := s
    dsimp only at hs hi
    rw [bind_eq_ok] at hs; obtain ⟨_, _, hs⟩ := hs
    rw [bind_eq_ok] at hs; obtain ⟨_, _, hs⟩ := hs
    rw [bind_eq_ok] at hs; obtain ⟨_, _, hs⟩ := hs
    rw [bind_eq_ok] at hs; obtain ⟨_, h1, hs⟩ := hs
    cases hs
    dsimp only
    rw [wr_ok_len h1]; omega
  · obtain ⟨tr, mx, mn, out⟩ := s
    dsimp only at hi ⊢
    have hh : ∀ j, tr ≤ j → rdHigh (overWith put xs out) j = rdHigh xs j := fun j hj => by unfold rdHigh; rw [rd_over put xs out j (by omega)]
    have hl : ∀ j, tr ≤ j → rdLow (overWith put xs out) j = rdLow xs j := fun j hj => by unfold rdLow; rw [rd_over put xs out j (by omega)]
    rw [track_congr repMax tr i mx (by omega) hh, track_congr repMin tr i mn (by omega) hl]
    rw [rd_over put xs out i (by omega)]

/-- aroon may overwrite either input with either output, or both. -/
theorem aroon_in_place (put : HL R → Aroon R → HL R) (o : Nat → R) (xs : List (HL R)) : aroonVia (overWith put) o xs = aroonBatch o xs := by
  unfold aroonVia aroonBatch
  refine bind_congr fun period => ?_
  split
  · rfl
  refine bind_congr fun start => ?_
  split
  · rfl
  refine bind_congr fun m0 => ?_
  refine bind_congr fun n0 => ?_
  dsimp only
  congr 1
  refine forUp_congr (fun i (s : Int × (Int × R) × (Int × R) × List (Aroon R)) => s.1 = i - period ∧ (s.2.2.2.length : Int) = s.1) (by simp)
    (fun i s s' _ _ hi hs => ?_) fun i s _ _ hi => ?_
  · obtain ⟨tr, mx, mn, out⟩ := s
    dsimp only at hs hi
    rw [bind_eq_ok] at hs; obtain ⟨_, _, hs⟩ := hs
    rw [bind_eq_ok] at hs; obtain ⟨_, _, hs⟩ := hs
    rw [bind_eq_ok] at hs; obtain ⟨_, h1, hs⟩ := hs
    cases hs
    dsimp only
    rw [wr_ok_len h1]; omega
  · obtain ⟨tr, mx, mn, out⟩ := s
    dsimp only at hi ⊢
    have hh : ∀ j, tr ≤ j → rdHi (overWith put xs out) j = rdHi xs j := fun j hj => by unfold rdHi; rw [rd_over put xs out j (by omega)]
    have hl : ∀ j, tr ≤ j → rdLo (overWith put xs out) j = rdLo xs j := fun j hj => by unfold rdLo; rw [rd_over put xs out j (by omega)]
    rw [track_congr repMax tr i mx (by omega) hh, track_congr repMin tr i mn (by omega) hl]

theorem aroonosc_in_place (put : HL R → R → HL R) (o : Nat → R) (xs : List (HL R)) : aroonoscVia (overWith put) o xs = aroonoscBatch o xs := by
  unfold aroonoscVia aroonoscBatch
  refine bind_congr fun period => ?_
  split
  · rfl
  refine bind_congr fun start => ?_
  split
  · rfl
  refine bind_congr fun m0 => ?_
  refine bind_congr fun n0 => ?_
  dsimp only
  congr 1
  refine forUp_congr (fun i (s : Int × (Int × R) × (Int × R) × List R) => s.1 = i - period ∧ (s.2.2.2.length : Int) = s.1) (by simp)
    (fun i s s' _ _ hi hs => ?_) fun i s _ _ hi => ?_
  · obtain ⟨tr, mx, mn, out⟩ := s
    dsimp only at hs hi
    rw [bind_eq_ok] at hs; obtain ⟨_, _, hs⟩ := hs
    rw [bind_eq_ok] at hs; obtain ⟨_, _, hs⟩ := hs
    rw [bind_eq_ok] at hs; obtain ⟨_, h1, hs⟩ := hs
    cases hs
    dsimp only
    rw [wr_ok_len h1]; omega
  · obtain ⟨tr, mx, mn, out⟩ := s
    dsimp only at hi ⊢
    have hh : ∀ j, tr ≤ j → rdHi (overWith put xs out) j = rdHi xs j := fun j hj => by unfold rdHi; rw [rd_over put xs out j (by omega)]
    have hl : ∀ j, tr ≤ j → rdLo (overWith put xs out) j = rdLo xs j := fun j hj => by unfold rdLo; rw [rd_over put xs out j (by omega)]
    rw [track_congr repMax tr i mx (by omega) hh, track_congr repMin tr i mn (by omega) hl]

/-- fisher may overwrite either input with either output, or both. -/
theorem fisher_in_place (put : HL R → Fisher R → HL R) (o : Nat → R) (xs : List (HL R)) : fisherVia (overWith put) o xs = fisherBatch o xs := by
  unfold fisherVia fisherBatch
  refine bind_congr fun period => ?_
  split
  · rfl
  refine bind_congr fun start => ?_
  split
  · rfl
  refine bind_congr fun m0 => ?_
  dsimp only
  congr 1
  refine forUp_congr (fun i (s : Int × (Int × R) × (Int × R) × R × R × List (Fisher R)) =>
      s.1 = i - (period - 1) ∧ (s.2.2.2.2.2.length : Int) = s.1) (by simp)
    (fun i s s' _ _ hi hs => ?_) fun i s _ _ hi => ?_
  · obtain ⟨tr, mx, mn, v, f, out⟩ := s
    dsimp only at hs hi
    rw [bind_eq_ok] at hs; obtain ⟨_, _, hs⟩ := hs
    rw [bind_eq_ok] at hs; obtain ⟨_, _, hs⟩ := hs
    rw [bind_eq_ok] at hs; obtain ⟨_, _, hs⟩ := hs
    rw [bind_eq_ok] at hs; obtain ⟨_, h1, hs⟩ := hs
    cases hs
    dsimp only
    rw [wr_ok_len h1]; omega
  · obtain ⟨tr, mx, mn, v, f, out⟩ := s
    dsimp only at hi ⊢
    have hm : ∀ j, tr ≤ j → rdMid (overWith put xs out) j = rdMid xs j := fun j hj => by unfold rdMid; rw [rd_over put xs out j (by omega)]
    rw [track_congr repMax tr i mx (by omega) hm, track_congr repMin tr i mn (by omega) hm, hm i (by omega)]

theorem mfi_in_place (put : HLCV R → R → HLCV R) (o : Nat → R) (xs : List (HLCV R)) : mfiVia (overWith put) o xs = mfiBatch o xs := by
  unfold mfiVia mfiBatch
  refine bind_congr fun period => ?_
  split
  · rfl
  refine bind_congr fun start => ?_
  split
  · rfl
  refine bind_congr fun r0 => ?_
  dsimp only
  congr 1
  refine forUp_congr (fun i (s : R × TiBuf R × TiBuf R × List R) => (s.2.2.2.length : Int) ≤ i) (by simp)
    (fun i s s' _ _ hi hs => ?_) fun i s _ _ hi => ?_
  · obtain ⟨y, up, dn, out⟩ := s
    dsimp only at hs hi
    rw [bind_eq_ok] at hs; obtain ⟨_, _, hs⟩ := hs
    rw [bind_eq_ok] at hs; obtain ⟨_, _, hs⟩ := hs
    rw [bind_eq_ok] at hs; obtain ⟨_, _, hs⟩ := hs
    split at hs
    · rw [bind_eq_ok] at hs; obtain ⟨_, h1, hs⟩ := hs
      cases hs
      dsimp only
      rw [wr_ok_len h1]; omega
    · cases hs; dsimp only; omega
  · obtain ⟨y, up, dn, out⟩ := s
    dsimp only at hi ⊢
    rw [rd_over _ _ _ _ (by omega)]

theorem cci_in_place (put : HLC R → R → HLC R) (o : Nat → R) (xs : List (HLC R)) : cciVia (overWith put) o xs = cciBatch o xs := by
  unfold cciVia cciBatch
  refine bind_congr fun period => ?_
  dsimp only
  split
  · rfl
  refine bind_congr fun start => ?_
  split
  · rfl
  congr 1
  refine forUp_congr (fun i (s : TiBuf R × List R) => (s.2.length : Int) ≤ i) (by simp)
    (fun i s s' _ _ hi hs => ?_) fun i s _ _ hi => ?_
  · obtain ⟨b, out⟩ := s
    dsimp only at hs hi
    rw [bind_eq_ok] at hs; obtain ⟨_, _, hs⟩ := hs
    rw [bind_eq_ok] at hs; obtain ⟨_, _, hs⟩ := hs
    rw [bind_eq_ok] at hs; obtain ⟨_, _, hs⟩ := hs
    split at hs
    · rw [bind_eq_ok] at hs; obtain ⟨_, _, hs⟩ := hs
      rw [bind_eq_ok] at hs; obtain ⟨_, h1, hs⟩ := hs
      cases hs
      dsimp only
      rw [wr_ok_len h1]; omega
    · cases hs; dsimp only; omega
  · obtain ⟨b, out⟩ := s
    dsimp only at hi ⊢
    rw [rd_over _ _ _ _ (by omega)]

theorem ultosc_in_place (put : HLC R → R → HLC R) (o : Nat → R) (xs : List (HLC R)) : ultoscVia (overWith put) o xs = ultoscBatch o xs := by
  unfold ultoscVia ultoscBatch
  refine bind_congr fun short => ?_
  refine bind_congr fun medium => ?_
  refine bind_congr fun long => ?_
  split
  · rfl
  split
  · rfl
  split
  · rfl
  refine bind_congr fun start => ?_
  split
  · rfl
  dsimp only
  congr 1
  refine forUp_congr (fun i (s : TiBuf R × TiBuf R × (R × R) × (R × R) × List R) => (s.2.2.2.2.length : Int) ≤ i - 1) (by simp)
    (fun i s s' _ _ hi hs => ?_) fun i s _ _ hi => ?_
  · obtain ⟨a, b, c, d, out⟩ := s
    dsimp only at hs hi
    rw [bind_eq_ok] at hs; obtain ⟨_, _, hs⟩ := hs
    rw [bind_eq_ok] at hs; obtain ⟨_, _, hs⟩ := hs
    rw [bind_eq_ok] at hs; obtain ⟨_, _, hs⟩ := hs
    rw [bind_eq_ok] at hs; obtain ⟨_, _, hs⟩ := hs
    rw [bind_eq_ok] at hs; obtain ⟨_, _, hs⟩ := hs
    rw [bind_eq_ok] at hs; obtain ⟨_, _, hs⟩ := hs
    split at hs
    · rw [bind_eq_ok] at hs; obtain ⟨_, h1, hs⟩ := hs
      cases hs
      dsimp only
      rw [wr_ok_len h1]; omega
    · cases hs; dsimp only; omega
  · obtain ⟨a, b, c, d, out⟩ := s
    dsimp only at hi ⊢
    rw [rd_over _ _ _ _ (by omega), rd_over _ _ _ _ (by omega)]

/-- dm may overwrite its inputs when the period is at least 2. -/
theorem dm_in_place_partial (put : HL R → PlusMinus R → HL R) (o : Nat → R) (hp : ∀ p, toInt (o 0) = .ok p → p ≠ 1) (xs : List (HL R)) :
    dmVia (overWith put) o xs = dmBatch o xs := by
  unfold dmVia dmBatch
  cases hq : toInt (o 0) with
  | error e => rfl
  | ok period =>
    have h1 := hp period hq
    show (if _ then _ else _) = (if _ then _ else _)
    split
    · rfl
    refine bind_congr fun start => ?_
    split
    · rfl
    refine bind_congr fun s => ?_
    cases hw : wr ((xs.length : Int) - start) ([] : List (PlusMinus R)) ⟨s.1, s.2⟩ with
    | error e => rfl
    | ok out =>
      have hl := wr_ok_len hw
      show (forUp _ _ _ _ >>= _) = (forUp _ _ _ _ >>= _)
      congr 1
      refine forUp_congr (fun i (s : R × R × List (PlusMinus R)) => (s.2.2.length : Int) = i - period + 1) (by simp [hl])
        (fun i s s' _ _ hi hs => ?_) fun i s _ _ hi => ?_
      · obtain ⟨u, d, out⟩ := s
        dsimp only at hs hi
        rw [bind_eq_ok] at hs; obtain ⟨_, _, hs⟩ := hs
        rw [bind_eq_ok] at hs; obtain ⟨_, h1, hs⟩ := hs
        cases hs
        dsimp only
        rw [wr_ok_len h1]; omega
      · obtain ⟨u, d, out⟩ := s
        dsimp only at hi ⊢
        unfold rdDir
        rw [rd_over _ _ _ _ (by omega), rd_over _ _ _ _ (by omega)]

/-- fosc may overwrite its input: it writes one place behind the bar that leaves the window. -/
theorem fosc_in_place (o : Nat → R) (xs : List R) : foscVia over o xs = foscBatch o xs := by
  unfold foscVia foscBatch
  refine bind_congr fun period => ?_
  split
  · rfl
  rename_i hp
  refine bind_congr fun start => ?_
  split
  · rfl
  refine bind_congr fun f => ?_
  congr 1
  unfold linearRegressionVia linearRegression
  refine bind_congr fun s => ?_
  refine bind_congr fun pp => ?_
  dsimp only
  congr 1
  have fin : ∀ (cap i : Int) (v x y b t : R) (out : List R) (r : R × List R), foscFinal cap period (f : R) i v x y b t out = .ok r →
      (out.length : Int) = max 0 (i - period) → (r.2.length : Int) = max 0 (i + 1 - period) := by
    intro cap i v x y b t out r h ho
    unfold foscFinal at h
    dsimp only at h
    rw [bind_eq_ok] at h; obtain ⟨o2, h1, h⟩ := h
    cases h
    dsimp only
    split at h1
    · rw [wr_ok_len h1]; omega
    · cases h1; omega
  refine forUp_congr (fun i (s : R × R × R × List R) => (s.2.2.2.length : Int) = max 0 (i - period)) (by simp)
    (fun i s s' _ _ hi hs => ?_) fun i s _ _ hi => ?_
  · obtain ⟨xy, y, t, out⟩ := s
    dsimp only at hs hi
    rw [bind_eq_ok] at hs; obtain ⟨_, _, hs⟩ := hs
    rw [bind_eq_ok] at hs; obtain ⟨r, h1, hs⟩ := hs
    rw [bind_eq_ok] at hs; obtain ⟨_, _, hs⟩ := hs
    cases hs
    dsimp only
    exact fin _ _ _ _ _ _ _ _ _ h1 hi
  · obtain ⟨xy, y, t, out⟩ := s
    dsimp only at hi ⊢
    rw [rd_over _ _ _ _ (by omega)]
    refine bind_congr fun v => ?_
    cases h1 : foscFinal ((xs.length : Int) - start) period (f : R) i v (s.1 + (period : R)) (y + v)
        (((period : R) * (xy + v * (period : R)) - (s.1 + (period : R)) * (y + v)) *
          (c! 1 / ((period : R) * (s.2.1 + (pp : R)) - (s.1 + (period : R)) * (s.1 + (period : R))))) t out with
    | error e => rfl
    | ok r =>
      have := fin _ _ _ _ _ _ _ _ _ h1 hi
      show (rd (over xs r.2) (i - period + 1) >>= _) = (rd xs (i - period + 1) >>= _)
      rw [rd_over _ _ _ _ (by omega)]
end

/-- dm with period 1, vwma, qstick, vosc and the other regressions read a bar that they have overwritten. -/
theorem windows_in_place_violates :
    (∃ (o : Nat → ℚ) (xs : List (HL ℚ)), o 0 = 1 ∧ dmVia (overWith fun r y => { r with high := y.plus }) o xs ≠ dmBatch o xs) ∧
    (∃ (o : Nat → ℚ) (xs : List (CV ℚ)), vwmaVia (overWith fun r y => { r with close := y }) o xs ≠ vwmaBatch o xs) ∧
    (∃ (o : Nat → ℚ) (xs : List (CV ℚ)), vwmaVia (overWith fun r y => { r with volume := y }) o xs ≠ vwmaBatch o xs) ∧
    (∃ (o : Nat → ℚ) (xs : List (OC ℚ)), qstickVia (overWith fun r y => { r with close := y }) o xs ≠ qstickBatch o xs) ∧
    (∃ (o : Nat → ℚ) (xs : List (OC ℚ)), qstickVia (overWith fun r y => { r with «open» := y }) o xs ≠ qstickBatch o xs) ∧
    (∃ (o : Nat → ℚ) (xs : List ℚ), voscVia over o xs ≠ voscBatch o xs) ∧
    (∃ (o : Nat → ℚ) (xs : List ℚ), linregVia over o xs ≠ linregBatch o xs) ∧
    (∃ (o : Nat → ℚ) (xs : List ℚ), linreginterceptVia over o xs ≠ linreginterceptBatch o xs) ∧
    (∃ (o : Nat → ℚ) (xs : List ℚ), linregslopeVia over o xs ≠ linregslopeBatch o xs) ∧
    ∃ (o : Nat → ℚ) (xs : List ℚ), tsfVia over o xs ≠ tsfBatch o xs := by
  refine ⟨⟨opts [1], [⟨5, 3⟩, ⟨7, 4⟩, ⟨9, 8⟩], rfl, ?_⟩, ⟨opts [2], [⟨5, 3⟩, ⟨7, 4⟩, ⟨9, 8⟩], ?_⟩, ⟨opts [2], [⟨5, 3⟩, ⟨7, 4⟩, ⟨9, 8⟩], ?_⟩,
    ⟨opts [2], [⟨5, 3⟩, ⟨7, 4⟩, ⟨9, 8⟩], ?_⟩, ⟨opts [2], [⟨5, 3⟩, ⟨7, 4⟩, ⟨9, 8⟩], ?_⟩, ⟨opts [1, 2], [1, 2, 4, 9], ?_⟩,
    ⟨opts [3], [1, 2, 4, 9, 3], ?_⟩, ⟨opts [3], [1, 2, 4, 9, 3], ?_⟩, ⟨opts [3], [1, 2, 4, 9, 3], ?_⟩, ⟨opts [3], [1, 2, 4, 9, 3], ?_⟩⟩
  all_goals (decide +kernel)

example : willrVia (overWith fun r y => { r with close := y }) (opts [2] : Nat → ℚ) [⟨5, 3, 4⟩, ⟨7, 4, 6⟩, ⟨9, 8, 8⟩] = .ok (.okay, [-25, -20]) := by
  decide +kernel
example : dmVia (overWith fun _ y => ⟨y.plus, y.minus⟩) (opts [2] : Nat → ℚ) [⟨5, 3⟩, ⟨7, 4⟩, ⟨9, 8⟩] = dmBatch (opts [2]) [⟨5, 3⟩, ⟨7, 4⟩, ⟨9, 8⟩] := by
  decide +kernel
example : foscVia over (opts [2] : Nat → ℚ) [1, 2, 4, 10, 5] = .ok (.okay, [25, 40, -220]) := by decide +kernel

end Verif
