/- C72: more batch functions whose output array is the input array. -/
import Verif.Model.InPlaceMore
import Verif.Props.InPlaceBatch
import Verif.Core.RatInst

namespace Verif
set_option linter.unusedSectionVars false
section
variable {R : Type} [Num R]

/-! ### With outputs elsewhere these are the batch functions -/
theorem sma_apart (o : Nat → R) (xs : List R) : smaVia (fun xs _ => xs) o xs = smaBatch o xs := rfl
theorem wilders_apart (o : Nat → R) (xs : List R) : wildersVia (fun xs _ => xs) o xs = wildersBatch o xs := rfl
theorem dema_apart (o : Nat → R) (xs : List R) : demaVia (fun xs _ => xs) o xs = demaBatch o xs := rfl
theorem tema_apart (o : Nat → R) (xs : List R) : temaVia (fun xs _ => xs) o xs = temaBatch o xs := rfl
theorem trix_apart (o : Nat → R) (xs : List R) : trixVia (fun xs _ => xs) o xs = trixBatch o xs := rfl
theorem apo_apart (o : Nat → R) (xs : List R) : apoVia (fun xs _ => xs) o xs = apoBatch o xs := rfl
theorem ppo_apart (o : Nat → R) (xs : List R) : ppoVia (fun xs _ => xs) o xs = ppoBatch o xs := rfl
theorem macd_apart (o : Nat → R) (xs : List R) : macdVia (fun xs _ => xs) o xs = macdBatch o xs := rfl
theorem rmta_apart (o : Nat → R) (xs : List R) : rmtaVia (fun xs _ => xs) o xs = rmtaBatch o xs := rfl
theorem min_apart (o : Nat → R) (xs : List R) : minVia (fun xs _ => xs) o xs = minBatch o xs := rfl
theorem roc_apart (o : Nat → R) (xs : List R) : rocVia (fun xs _ => xs) o xs = rocBatch o xs := rfl
theorem rocr_apart (o : Nat → R) (xs : List R) : rocrVia (fun xs _ => xs) o xs = rocrBatch o xs := rfl
theorem lag_apart (o : Nat → R) (xs : List R) : lagVia (fun xs _ => xs) o xs = lagBatch o xs := rfl
theorem decay_apart (o : Nat → R) (xs : List R) : decayVia (fun xs _ => xs) o xs = decayBatch o xs := rfl
theorem edecay_apart (o : Nat → R) (xs : List R) : edecayVia (fun xs _ => xs) o xs = edecayBatch o xs := rfl
theorem rsi_apart (o : Nat → R) (xs : List R) : rsiVia (fun xs _ => xs) o xs = rsiBatch o xs := rfl
theorem stochrsi_apart (o : Nat → R) (xs : List R) : stochrsiVia (fun xs _ => xs) o xs = stochrsiBatch o xs := rfl
theorem msw_apart (o : Nat → R) (xs : List R) : mswVia (fun xs _ => xs) o xs = mswBatch o xs := rfl
theorem sum_apart (o : Nat → R) (xs : List R) : sumVia (fun xs _ => xs) o xs = sumBatch o xs := rfl
theorem zlema_apart (o : Nat → R) (xs : List R) : zlemaVia (fun xs _ => xs) o xs = zlemaBatch o xs := rfl
theorem vhf_apart (o : Nat → R) (xs : List R) : vhfVia (fun xs _ => xs) o xs = vhfBatch o xs := rfl
theorem var_apart (o : Nat → R) (xs : List R) : varVia (fun xs _ => xs) o xs = varBatch o xs := rfl
theorem stddev_apart (o : Nat → R) (xs : List R) : stddevVia (fun xs _ => xs) o xs = stddevBatch o xs := rfl
theorem md_apart (o : Nat → R) (xs : List R) : mdVia (fun xs _ => xs) o xs = mdBatch o xs := rfl
theorem wma_apart (o : Nat → R) (xs : List R) : wmaVia (fun xs _ => xs) o xs = wmaBatch o xs := rfl
theorem cmo_apart (o : Nat → R) (xs : List R) : cmoVia (fun xs _ => xs) o xs = cmoBatch o xs := rfl
theorem kama_apart (o : Nat → R) (xs : List R) : kamaVia (fun xs _ => xs) o xs = kamaBatch o xs := rfl
theorem vidya_apart (o : Nat → R) (xs : List R) : vidyaVia (fun xs _ => xs) o xs = vidyaBatch o xs := rfl
theorem trima_apart (o : Nat → R) (xs : List R) : trimaVia (fun xs _ => xs) o xs = trimaBatch o xs := rfl
theorem dpo_apart (o : Nat → R) (xs : List R) : dpoVia (fun xs _ => xs) o xs = dpoBatch o xs := rfl

/-! ### Functions that may overwrite their series -/

/-- A loop body makes at most one output. -/
macro "one_more" h:ident : tactic => `(tactic| (
  try dsimp only at $h:ident
  repeat' (first
    | (rw [bind_eq_ok] at $h:ident; obtain ⟨_, _, $h:ident⟩ := $h:ident)
    | (split at $h:ident)
    | (cases $h:ident; done)
    | dsimp only at $h:ident)
  all_goals (try (cases $h:ident))
  all_goals (try dsimp only at *)
  all_goals (first | omega | (have := wr_ok_len ‹wr _ _ _ = Except.ok _›; omega))))

theorem wilders_in_place (o : Nat → R) (xs : List R) : wildersVia over o xs = wildersBatch o xs := by
  unfold wildersVia wildersBatch
  refine bind_congr fun period => ?_
  by_cases hp : period < 1
  · rw [if_pos hp, if_pos hp]
  rw [if_neg hp, if_neg hp]
  refine bind_congr fun start => ?_
  split
  · rfl
  refine bind_congr fun sum => ?_
  dsimp only
  cases hw : wr ((xs.length : Int) - start) ([] : List R) (sum / (period : R)) with
  | error e => rfl
  | ok out =>
    have hl := wr_ok_len hw
    simp only [bind_ok]
    congr 1
    refine forUp_congr (fun i s => (s.2.length : Int) ≤ i) (by simp [hl]; omega) (fun i s s' _ _ hi hs => ?_) fun i s _ _ hi => ?_
    · one_more hs
    · rw [rd_over _ _ _ _ (by omega)]

theorem dema_in_place (o : Nat → R) (xs : List R) : demaVia over o xs = demaBatch o xs := by
  unfold demaVia demaBatch
  refine bind_congr fun period => ?_
  split
  · rfl
  refine bind_congr fun start => ?_
  split
  · rfl
  refine bind_congr fun ema => ?_
  dsimp only
  congr 1
  refine forUp_congr (fun i s => (s.2.2.length : Int) ≤ i) (by simp) (fun i s s' _ _ hi hs => ?_) fun i s _ _ hi => ?_
  · obtain ⟨e1, e2, out⟩ := s
    one_more hs
  · obtain ⟨e1, e2, out⟩ := s
    dsimp only at hi ⊢
    rw [rd_over _ _ _ _ (by omega)]

theorem tema_in_place (o : Nat → R) (xs : List R) : temaVia over o xs = temaBatch o xs := by
  unfold temaVia temaBatch
  refine bind_congr fun period => ?_
  split
  · rfl
  refine bind_congr fun start => ?_
  split
  · rfl
  refine bind_congr fun ema => ?_
  congr 1
  refine forUp_congr (fun i s => (s.2.2.2.length : Int) ≤ i) (by simp) (fun i s s' _ _ hi hs => ?_) fun i s _ _ hi => ?_
  · obtain ⟨e1, e2, e3, out⟩ := s
    one_more hs
  · obtain ⟨e1, e2, e3, out⟩ := s
    dsimp only at hi ⊢
    rw [rd_over _ _ _ _ (by omega)]

theorem i32_val {a b : Int} (h : i32 a = .ok b) : b = a := by
  unfold i32 at h
  split at h
  · cases h; rfl
  · cases h

theorem trix_in_place (o : Nat → R) (xs : List R) : trixVia over o xs = trixBatch o xs := by
  unfold trixVia trixBatch
  refine bind_congr fun period => ?_
  by_cases hp : period < 1
  · rw [if_pos hp, if_pos hp]
  rw [if_neg hp, if_neg hp]
  refine bind_congr fun st => ?_
  split
  · rfl
  cases h1 : i32 (period * 3) with
  | error e => rfl
  | ok a =>
    simp only [bind_ok]
    have ha := i32_val h1
    cases h2 : i32 (a - 2) with
    | error e => rfl
    | ok start =>
      have hst := i32_val h2
      simp only [bind_ok]
      refine bind_congr fun _ => bind_congr fun ema => bind_congr fun s => ?_
      congr 1
      refine forUp_congr (fun i s => (s.2.2.2.length : Int) ≤ i) (by simp; omega) (fun i s s' _ _ hi hs => ?_) fun i s _ _ hi => ?_
      · obtain ⟨e1, e2, e3, out⟩ := s
        one_more hs
      · obtain ⟨e1, e2, e3, out⟩ := s
        dsimp only at hi ⊢
        rw [rd_over _ _ _ _ (by omega)]

theorem apo_in_place (o : Nat → R) (xs : List R) : apoVia over o xs = apoBatch o xs := by
  unfold apoVia apoBatch
  refine bind_congr fun short => bind_congr fun long => ?_
  iterate 3 (split; · rfl)
  refine bind_congr fun start => ?_
  split
  · rfl
  refine bind_congr fun x0 => ?_
  congr 1
  refine forUp_congr (fun i s => (s.2.2.length : Int) ≤ i) (by simp) (fun i s s' _ _ hi hs => ?_) fun i s _ _ hi => ?_
  · obtain ⟨e1, e2, out⟩ := s
    one_more hs
  · obtain ⟨e1, e2, out⟩ := s
    dsimp only at hi ⊢
    rw [rd_over _ _ _ _ (by omega)]

theorem ppo_in_place (o : Nat → R) (xs : List R) : ppoVia over o xs = ppoBatch o xs := by
  unfold ppoVia ppoBatch
  refine bind_congr fun short => bind_congr fun long => ?_
  iterate 3 (split; · rfl)
  refine bind_congr fun start => ?_
  split
  · rfl
  refine bind_congr fun x0 => ?_
  congr 1
  refine forUp_congr (fun i s => (s.2.2.length : Int) ≤ i) (by simp) (fun i s s' _ _ hi hs => ?_) fun i s _ _ hi => ?_
  · obtain ⟨e1, e2, out⟩ := s
    one_more hs
  · obtain ⟨e1, e2, out⟩ := s
    dsimp only at hi ⊢
    rw [rd_over _ _ _ _ (by omega)]

/-- macd, whichever of its three outputs goes over the series. -/
theorem macd_in_place (put : R → Macd R → R) (o : Nat → R) (xs : List R) : macdVia (overWith put) o xs = macdBatch o xs := by
  unfold macdVia macdBatch
  refine bind_congr fun short => bind_congr fun long => bind_congr fun signal => ?_
  iterate 4 (split; · rfl)
  refine bind_congr fun start => ?_
  split
  · rfl
  refine bind_congr fun x0 => ?_
  dsimp only
  congr 1
  refine forUp_congr (fun i (s : R × R × R × List (Macd R)) => (s.2.2.2.length : Int) ≤ i) (by simp) (fun i s s' _ _ hi hs => ?_) fun i s _ _ hi => ?_
  · obtain ⟨e1, e2, e3, out⟩ := s
    one_more hs
  · obtain ⟨e1, e2, e3, out⟩ := s
    dsimp only at hi ⊢
    rw [rd_over _ _ _ _ (by omega)]

theorem rmta_in_place (o : Nat → R) (xs : List R) : rmtaVia over o xs = rmtaBatch o xs := by
  unfold rmtaVia rmtaBatch
  refine bind_congr fun period => ?_
  by_cases hp : period < 1
  · rw [if_pos hp, if_pos hp]
  rw [if_neg hp, if_neg hp]
  refine bind_congr fun start => ?_
  split
  · rfl
  refine bind_congr fun x0 => bind_congr fun s => ?_
  obtain ⟨b, rmta⟩ := s
  dsimp only
  congr 1
  refine forUp_congr (fun i (s : R × R × List R) => (s.2.2.length : Int) ≤ i) (by simp; omega) (fun i s s' _ _ hi hs => ?_) fun i s _ _ hi => ?_
  · obtain ⟨e1, e2, out⟩ := s
    one_more hs
  · obtain ⟨e1, e2, out⟩ := s
    dsimp only at hi ⊢
    rw [rd_over _ _ _ _ (by omega)]

theorem min_in_place (o : Nat → R) (xs : List R) : minVia over o xs = minBatch o xs := by
  unfold minVia minBatch
  refine bind_congr fun period => ?_
  by_cases hp : period < 1
  · rw [if_pos hp, if_pos hp]
  rw [if_neg hp, if_neg hp]
  refine bind_congr fun start => ?_
  split
  · rfl
  refine bind_congr fun m0 => ?_
  congr 1
  refine forUp_congr (fun i s => s.1 = i - (period - 1) ∧ (s.2.2.2.length : Int) = s.1) (by simp) (fun i s s' _ _ hi hs => ?_)
    fun i s _ _ hi => ?_
  · obtain ⟨tr, mi, m, out⟩ := s
    one_more hs
  · obtain ⟨tr, mi, m, out⟩ := s
    dsimp only at hi ⊢
    rw [track_congr repMin tr i (mi, m) (by omega) fun j hj => rd_over _ xs out j (by omega)]

theorem roc_in_place (o : Nat → R) (xs : List R) : rocVia over o xs = rocBatch o xs := by
  unfold rocVia rocBatch
  refine bind_congr fun period => ?_
  by_cases hp : period < 1
  · rw [if_pos hp, if_pos hp]
  rw [if_neg hp, if_neg hp]
  refine bind_congr fun start => ?_
  split
  · rfl
  congr 1
  refine forUp_congr (fun i out => (out.length : Int) = i - period) (by simp) (fun i s s' _ _ hi hs => ?_) fun i s _ _ hi => ?_
  · rw [bind_eq_ok] at hs; obtain ⟨_, _, hs⟩ := hs
    rw [bind_eq_ok] at hs; obtain ⟨_, _, hs⟩ := hs
    rw [wr_ok_len hs]; omega
  · rw [rd_over _ _ _ _ (by omega), rd_over _ _ _ _ (by omega)]

theorem rocr_in_place (o : Nat → R) (xs : List R) : rocrVia over o xs = rocrBatch o xs := by
  unfold rocrVia rocrBatch
  refine bind_congr fun period => ?_
  by_cases hp : period < 1
  · rw [if_pos hp, if_pos hp]
  rw [if_neg hp, if_neg hp]
  refine bind_congr fun start => ?_
  split
  · rfl
  congr 1
  refine forUp_congr (fun i out => (out.length : Int) = i - period) (by simp) (fun i s s' _ _ hi hs => ?_) fun i s _ _ hi => ?_
  · rw [bind_eq_ok] at hs; obtain ⟨_, _, hs⟩ := hs
    rw [bind_eq_ok] at hs; obtain ⟨_, _, hs⟩ := hs
    rw [wr_ok_len hs]; omega
  · rw [rd_over _ _ _ _ (by omega), rd_over _ _ _ _ (by omega)]

theorem lag_in_place (o : Nat → R) (xs : List R) : lagVia over o xs = lagBatch o xs := by
  unfold lagVia lagBatch
  refine bind_congr fun period => ?_
  split
  · rfl
  refine bind_congr fun start => ?_
  split
  · rfl
  congr 1
  refine forUp_congr (fun i out => (out.length : Int) = i - period) (by simp) (fun i s s' _ _ hi hs => ?_) fun i s _ _ hi => ?_
  · rw [bind_eq_ok] at hs; obtain ⟨_, _, hs⟩ := hs
    rw [wr_ok_len hs]; omega
  · rw [rd_over _ _ _ _ (by omega)]

theorem decay_first (xs : List R) :
    forUp 0 (min 1 (xs.length : Int)) ([] : List R) (fun _ out => do wr xs.length out (← rd (over xs out) 0)) =
      forUp 0 (min 1 (xs.length : Int)) ([] : List R) (fun _ out => do wr xs.length out (← rd xs 0)) := by
  refine forUp_congr (fun i out => (out.length : Int) = i) rfl (fun i s s' _ _ hi hs => ?_) fun i s h0 h1 hi => ?_
  · rw [bind_eq_ok] at hs; obtain ⟨_, _, hs⟩ := hs
    rw [wr_ok_len hs]; omega
  · rw [rd_over _ _ _ _ (by omega)]

theorem forUp_len {f : Int → List R → M (List R)} {lo hi : Int} {out : List R} (hlo : lo ≤ hi) (h : forUp lo hi ([] : List R) f = .ok out)
    (hf : ∀ i s s', f i s = .ok s' → s'.length = s.length + 1) : (out.length : Int) = hi - lo := by
  unfold forUp at h
  have gen : ∀ (n : Nat) (i : Int) (s s' : List R), iter f n i s = .ok s' → s'.length = s.length + n := by
    intro n
    induction n with
    | zero => intro i s s' h; cases h; rfl
    | succ n ih =>
      intro i s s' h
      unfold iter at h
      cases h1 : f i s with
      | error e => rw [h1] at h; cases h
      | ok s1 =>
        rw [h1] at h
        rw [ih _ _ _ h, hf _ _ _ h1]; omega
  have := gen _ _ _ _ h
  simp at this
  omega

theorem decay_in_place (o : Nat → R) (xs : List R) : decayVia over o xs = decayBatch o xs := by
  unfold decayVia decayBatch
  refine bind_congr fun period => ?_
  rw [decay_first xs]
  cases h : forUp 0 (min 1 (xs.length : Int)) ([] : List R) (fun _ out => do wr xs.length out (← rd xs 0)) with
  | error e => rfl
  | ok out =>
    have hl := forUp_len (by omega) h fun i s s' hs => by
      rw [bind_eq_ok] at hs; obtain ⟨_, _, hs⟩ := hs
      exact wr_ok_len hs
    show (forUp _ _ _ _ >>= _) = (forUp _ _ _ _ >>= _)
    congr 1
    refine forUp_congr (fun i out => (out.length : Int) = i) (by omega) (fun i s s' _ _ hi hs => ?_) fun i s _ _ hi => ?_
    · rw [bind_eq_ok] at hs; obtain ⟨_, _, hs⟩ := hs
      rw [bind_eq_ok] at hs; obtain ⟨_, _, hs⟩ := hs
      rw [wr_ok_len hs]; omega
    · rw [rd_over _ _ _ _ (by omega)]

theorem edecay_in_place (o : Nat → R) (xs : List R) : edecayVia over o xs = edecayBatch o xs := by
  unfold edecayVia edecayBatch
  refine bind_congr fun period => ?_
  rw [decay_first xs]
  cases h : forUp 0 (min 1 (xs.length : Int)) ([] : List R) (fun _ out => do wr xs.length out (← rd xs 0)) with
  | error e => rfl
  | ok out =>
    have hl := forUp_len (by omega) h fun i s s' hs => by
      rw [bind_eq_ok] at hs; obtain ⟨_, _, hs⟩ := hs
      exact wr_ok_len hs
    show (forUp _ _ _ _ >>= _) = (forUp _ _ _ _ >>= _)
    congr 1
    refine forUp_congr (fun i out => (out.length : Int) = i) (by omega) (fun i s s' _ _ hi hs => ?_) fun i s _ _ hi => ?_
    · rw [bind_eq_ok] at hs; obtain ⟨_, _, hs⟩ := hs
      rw [bind_eq_ok] at hs; obtain ⟨_, _, hs⟩ := hs
      rw [wr_ok_len hs]; omega
    · rw [rd_over _ _ _ _ (by omega)]

theorem rsi_in_place (o : Nat → R) (xs : List R) : rsiVia over o xs = rsiBatch o xs := by
  unfold rsiVia rsiBatch
  refine bind_congr fun period => ?_
  by_cases hp : period < 1
  · rw [if_pos hp, if_pos hp]
  rw [if_neg hp, if_neg hp]
  refine bind_congr fun start => ?_
  split
  · rfl
  refine bind_congr fun s => ?_
  cases hw : wr ((xs.length : Int) - start) ([] : List R) (rsiOut (s.1 / (period : R)) (s.2 / (period : R))) with
  | error e => simp only [hw]; rfl
  | ok out =>
    have hl := wr_ok_len hw
    simp only [hw, bind_ok]
    congr 1
    refine forUp_congr (fun i s => (s.2.2.length : Int) = i - period) (by simp [hl]) (fun i s s' _ _ hi hs => ?_) fun i s _ _ hi => ?_
    · obtain ⟨e1, e2, out⟩ := s
      one_more hs
    · obtain ⟨e1, e2, out⟩ := s
      dsimp only at hi ⊢
      rw [rd_over _ _ _ _ (by omega), rd_over _ _ _ _ (by omega)]

theorem stochrsi_in_place (o : Nat → R) (xs : List R) : stochrsiVia over o xs = stochrsiBatch o xs := by
  unfold stochrsiVia stochrsiBatch
  refine bind_congr fun period => ?_
  by_cases hp : period < 2
  · rw [if_pos hp, if_pos hp]
  rw [if_neg hp, if_neg hp]
  refine bind_congr fun start => ?_
  split
  · rfl
  refine bind_congr fun s => ?_
  refine bind_congr fun buf => ?_
  congr 1
  refine forUp_congr (fun i s => (s.2.2.2.2.2.length : Int) ≤ i - 1) (by simp; omega) (fun i s s' _ _ hi hs => ?_) fun i s _ _ hi => ?_
  · obtain ⟨e1, e2, e3, e4, e5, out⟩ := s
    one_more hs
  · obtain ⟨e1, e2, e3, e4, e5, out⟩ := s
    dsimp only at hi ⊢
    rw [rd_over _ _ _ _ (by omega), rd_over _ _ _ _ (by omega)]

/-- msw, whichever of its two outputs goes over the series. -/
theorem msw_in_place (put : R → Msw R → R) (o : Nat → R) (xs : List R) : mswVia (overWith put) o xs = mswBatch o xs := by
  unfold mswVia mswBatch
  refine bind_congr fun period => ?_
  by_cases hp : period < 1
  · rw [if_pos hp, if_pos hp]
  rw [if_neg hp, if_neg hp]
  refine bind_congr fun start => ?_
  split
  · rfl
  dsimp only
  congr 1
  refine forUp_congr (fun i (out : List (Msw R)) => (out.length : Int) = i - period) (by simp) (fun i s s' _ _ hi hs => ?_) fun i s _ _ hi => ?_
  · rw [bind_eq_ok] at hs; obtain ⟨_, _, hs⟩ := hs
    rw [wr_ok_len hs]; omega
  · congr 1
    refine forUp_congr (fun _ _ => True) trivial (fun _ _ _ _ _ _ _ => trivial) fun j s _ _ _ => ?_
    rw [rd_over _ _ _ _ (by omega)]
end

/-! ### Functions that read what they have overwritten -/

/-- These read the bar that leaves their window, or an older one, after its place was overwritten. -/
theorem batch_in_place_violates :
    (∃ (o : Nat → ℚ) (xs : List ℚ), smaVia over o xs ≠ smaBatch o xs) ∧ (∃ (o : Nat → ℚ) (xs : List ℚ), sumVia over o xs ≠ sumBatch o xs) ∧
    (∃ (o : Nat → ℚ) (xs : List ℚ), zlemaVia over o xs ≠ zlemaBatch o xs) ∧ (∃ (o : Nat → ℚ) (xs : List ℚ), vhfVia over o xs ≠ vhfBatch o xs) ∧
    (∃ (o : Nat → ℚ) (xs : List ℚ), varVia over o xs ≠ varBatch o xs) ∧ (∃ (o : Nat → ℚ) (xs : List ℚ), stddevVia over o xs ≠ stddevBatch o xs) ∧
    (∃ (o : Nat → ℚ) (xs : List ℚ), mdVia over o xs ≠ mdBatch o xs) ∧ (∃ (o : Nat → ℚ) (xs : List ℚ), wmaVia over o xs ≠ wmaBatch o xs) ∧
    (∃ (o : Nat → ℚ) (xs : List ℚ), cmoVia over o xs ≠ cmoBatch o xs) ∧ (∃ (o : Nat → ℚ) (xs : List ℚ), kamaVia over o xs ≠ kamaBatch o xs) ∧
    (∃ (o : Nat → ℚ) (xs : List ℚ), vidyaVia over o xs ≠ vidyaBatch o xs) ∧ (∃ (o : Nat → ℚ) (xs : List ℚ), trimaVia over o xs ≠ trimaBatch o xs) ∧
    ∃ (o : Nat → ℚ) (xs : List ℚ), dpoVia over o xs ≠ dpoBatch o xs := by
  refine ⟨⟨opts [2], [1, 2, 4, 9], ?_⟩, ⟨opts [2], [1, 2, 4, 9], ?_⟩, ⟨opts [5], [1, 3, 4, 9, 2, 8], ?_⟩, ⟨opts [2], [1, 2, 4, 9, 3, 5], ?_⟩,
    ⟨opts [2], [1, 2, 4, 9], ?_⟩, ⟨opts [2], [1, 2, 4, 9, 3], ?_⟩, ⟨opts [3], [1, 2, 4, 9, 3], ?_⟩, ⟨opts [2], [1, 2, 4, 9], ?_⟩,
    ⟨opts [2], [1, 2, 4, 9, 3, 8], ?_⟩, ⟨opts [2], [1, 2, 4, 9, 3, 8], ?_⟩, ⟨opts [2, 3, 1/2], [1, 2, 4, 9, 3, 8, 8, 9], ?_⟩, ⟨opts [3], [1, 2, 4, 9, 3], ?_⟩,
    ⟨opts [3], [1, 2, 4, 9, 3], ?_⟩⟩
  all_goals (decide +kernel)

example : wildersVia over (opts [2] : Nat → ℚ) [1, 3, 4, 8] = .ok (.okay, [2, 3, 11/2]) := by decide +kernel
example : rsiVia over (opts [2] : Nat → ℚ) [1, 3, 4, 2] = .ok (.okay, [100, 300/7]) := by decide +kernel
example : lagVia over (opts [2] : Nat → ℚ) [1, 3, 4, 2] = .ok (.okay, [1, 3]) := by decide +kernel
end Verif
